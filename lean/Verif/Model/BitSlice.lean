import Verif.Basic
/-
Bit-level serialization (firmware-common/src/common/delta_logger/bitslice_primitive.rs, bitslice_serialize.rs, variable_int.rs).
A bit slice is the list of its bits in `Lsb0` order (`SerializeBitOrder`): bit `i` is bit `i % 8` of byte `i / 8`.
Going beyond the end of a slice panics in Rust: that is `none` here. f32, f64, i64 values are represented by their bit
patterns (`BitVec 32`, `BitVec 64`): Rust transmutes them without change.
-/
namespace Verif.Bit

/-- the bits of a byte, least significant first (`view_bits::<Lsb0>`, bitvec crate) -/
def byteBits (b : UInt8) : List Bool := (List.range 8).map fun i => b.toNat.testBit i

/-- the bits of a byte string -/
def bytesBits (l : Bytes) : List Bool := l.flatMap byteBits

/-- value of a bit list, least significant bit first (`load_le`, bitvec crate) -/
def leNat : List Bool → Nat
  | [] => 0
  | b :: bs => b.toNat + 2 * leNat bs

/-- `n` bytes of a bit array (`as_raw_slice`, bitvec crate) -/
def bitsBytes : Nat → List Bool → Bytes
  | 0, _ => []
  | n + 1, l => UInt8.ofNat (leNat (l.take 8)) :: bitsBytes n (l.drop 8)

/-- an implementation of `BitSlicePrimitive`: `write` into a slice, `read` from a slice, `len_bits`; `none` = panic.
models firmware-common/src/common/delta_logger/bitslice_primitive.rs:11-17 -/
structure Prim (α : Type) where
  len : Nat
  write : α → List Bool → Option (List Bool)
  read : List Bool → Option α

/-- `bool`. models bitslice_primitive.rs:19-31 -/
def Prim.bool : Prim Bool where
  len := 1
  write b s := if s.length < 1 then none else some (b :: s.drop 1)
  read s := s.head?

/-- an `n`-bit integer: u8 (8), u32 and f32 (32), i64 and f64 (64), `Integer<_, Bits<n>>` (n).
models bitslice_primitive.rs:33-121 and variable_int.rs:30-44 -/
def Prim.uint (n : Nat) : Prim (BitVec n) where
  len := n
  write v s := if s.length < n then none else some ((List.range n).map (fun i => v.getLsbD i) ++ s.drop n)
  read s := if s.length < n then none else some (BitVec.ofNat n (leNat (s.take n)))

/-- `(T, T)`; note that the length is 128 bits whatever `T` is. models bitslice_primitive.rs:123-139 -/
def Prim.pair {α : Type} (p : Prim α) : Prim (α × α) where
  len := 64 + 64
  write v s :=
    if s.length < p.len then none
    else
      match p.write v.1 (s.take p.len), p.write v.2 (s.drop p.len) with
      | some a, some b => some (a ++ b)
      | _, _ => none
  read s :=
    if s.length < p.len then none
    else
      match p.read (s.take p.len), p.read (s.drop p.len) with
      | some a, some b => some (a, b)
      | _, _ => none

/-- the loop of `write` of an array, from the `i`-th slot on. models bitslice_primitive.rs:137-141 -/
def writeArr {α : Type} (p : Prim α) : List α → List Bool → Option (List Bool)
  | [], s => some s
  | v :: vs, s =>
    if s.length < p.len then none
    else
      match p.write v (s.take p.len), writeArr p vs (s.drop p.len) with
      | some a, some b => some (a ++ b)
      | _, _ => none

/-- the loop of `read` of an array. models bitslice_primitive.rs:143-149 -/
def readArr {α : Type} (p : Prim α) : Nat → List Bool → Option (List α)
  | 0, _ => some []
  | n + 1, s =>
    if s.length < p.len then none
    else
      match p.read (s.take p.len), readArr p n (s.drop p.len) with
      | some v, some vs => some (v :: vs)
      | _, _ => none

/-- `[T; N]`; the values of the array as a list of length `n`. models bitslice_primitive.rs:141-159 -/
def Prim.arr {α : Type} (p : Prim α) (n : Nat) : Prim { l : List α // l.length = n } where
  len := n * p.len
  write v s := writeArr p v.1 s
  read s :=
    match readArr p n s with
    | some l => if h : l.length = n then some ⟨l, h⟩ else none
    | none => none

/-- `Option<T>`; an absent value is written as a zero bit and ones. models bitslice_primitive.rs:156-178 -/
def Prim.opt {α : Type} (p : Prim α) : Prim (Option α) where
  len := p.len + 1
  write v s :=
    match s with
    | [] => none
    | _ :: rest =>
      match v with
      | some x =>
        match p.write x rest with
        | some r => some (true :: r)
        | none => none
      | none => if rest.length < p.len then none else some (false :: (List.replicate p.len true ++ rest.drop p.len))
  read s :=
    match s with
    | [] => none
    | true :: rest =>
      match p.read rest with
      | some x => some (some x)
      | none => none
    | false :: _ => some none

/-- two fields written one after the other (`BitArraySerializable::serialize` of a struct calls `writer.write` for each field, `deserialize` calls
`reader.read` for each field); `write_seq` and `read_seq` (Lemmas/Codec) show that this is the same as two writes and two reads.
models e.g. driver/barometer.rs:20-37 -/
def Prim.seq {α β : Type} (p : Prim α) (q : Prim β) : Prim (α × β) where
  len := p.len + q.len
  write v s :=
    match p.write v.1 s with
    | some s' =>
      if s'.length < p.len then none
      else
        match q.write v.2 (s'.drop p.len) with
        | some t => some (s'.take p.len ++ t)
        | none => none
    | none => none
  read s :=
    match p.read s with
    | some a =>
      if s.length < p.len then none
      else
        match q.read (s.drop p.len) with
        | some b => some (a, b)
        | none => none
    | none => none

/-- `BitSliceWriter<N>`: `data` has `8 * N` bits. models bitslice_serialize.rs:5-8 -/
structure Writer where
  len : Nat
  data : List Bool
  deriving DecidableEq

/-- `BitSliceWriter::default`. models bitslice_serialize.rs:49-54 -/
def Writer.new (n : Nat) : Writer := ⟨0, List.replicate (8 * n) false⟩

/-- `write`. models bitslice_serialize.rs:11-14 -/
def Writer.write {α : Type} (w : Writer) (p : Prim α) (v : α) : Option Writer :=
  if w.data.length < w.len then none
  else
    match p.write v (w.data.drop w.len) with
    | some s => some ⟨w.len + p.len, w.data.take w.len ++ s⟩
    | none => none

/-- `view_full_byte_slice`. models bitslice_serialize.rs:16-21 -/
def Writer.fullBytes (w : Writer) : Bytes := bitsBytes (w.len / 8) w.data

/-- `view_all_data_slice`. models bitslice_serialize.rs:25-27 -/
def Writer.allBytes (w : Writer) : Bytes := bitsBytes ((w.len + 7) / 8) w.data

/-- `clear_full_byte_slice`: the partial byte is copied to the front; panics when there is no byte behind the full ones.
models bitslice_serialize.rs:33-41 -/
def Writer.clearFull (w : Writer) : Option Writer :=
  let full := w.len / 8
  if w.data.length < 8 * full + 8 then none
  else some ⟨w.len % 8, (w.data.drop (8 * full)).take 8 ++ w.data.drop 8⟩

/-- `clear`. models bitslice_serialize.rs:43-45 -/
def Writer.clear (w : Writer) : Writer := { w with len := 0 }

/-- `BitSliceReader<N>`. models bitslice_serialize.rs:57-61 -/
structure Reader where
  buffer : List Bool
  start : Nat
  stop : Nat
  deriving DecidableEq

/-- `BitSliceReader::default`. models bitslice_serialize.rs:64-70 -/
def Reader.new (n : Nat) : Reader := ⟨List.replicate (8 * n) false, 0, 0⟩

/-- `len_bits`. models bitslice_serialize.rs:79-81 -/
def Reader.lenBits (r : Reader) : Nat := r.stop - r.start

/-- `free_bytes`. models bitslice_serialize.rs:83-85 -/
def Reader.freeBytes (r : Reader) : Nat := (r.buffer.length - r.lenBits) / 8

/-- `copy_within` of a bit range to position `dest`, then the bytes `data` behind it. `replenish_bytes_async_mut` does the same (for an empty
buffer `dest` is 0). `none` = the data does not fit (panic). models bitslice_serialize.rs:88-125 -/
def Reader.replenish (r : Reader) (data : Bytes) : Option Reader :=
  let len := r.lenBits
  let dest := (8 - len % 8) % 8
  let kept := (r.buffer.drop r.start).take len
  if r.buffer.length < dest + len + 8 * data.length then none
  else
    let moved := r.buffer.take dest ++ kept ++ r.buffer.drop (dest + len)
    let stop := dest + len
    some ⟨moved.take stop ++ bytesBits data ++ moved.drop (stop + 8 * data.length), dest, stop + 8 * data.length⟩

/-- `read`: `some none` = not enough bits, `none` = panic. models bitslice_serialize.rs:128-135 -/
def Reader.read {α : Type} (r : Reader) (p : Prim α) : Option (Option α × Reader) :=
  if r.lenBits < p.len then some (none, r)
  else
    match p.read ((r.buffer.drop r.start).take (r.stop - r.start)) with
    | some v => some (some v, { r with start := r.start + p.len })
    | none => none

/-- `skip_byte`. models bitslice_serialize.rs:137-139 -/
def Reader.skipByte (r : Reader) : Reader := { r with start := (r.start + 7) / 8 * 8 }

end Verif.Bit
