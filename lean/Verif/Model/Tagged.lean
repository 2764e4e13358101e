import Verif.Basic
/-
The tagged record stream of `create_serialized_enum!` (firmware-common/src/common/serialized_enum.rs). The macro's list of
`(tag, type)` pairs is a list of variants with abstract (rkyv) payload codecs. Panics are `none`. I/O errors of the underlying
reader and writer are not modelled.
-/
namespace Verif.Tagged

/-- one `($log_type_i, $log_type)` of the macro: tag, `size_of` the archived type, rkyv's `serialize_value` (for the values of this
variant) and `archived_root` followed by `deserialize`. models serialized_enum.rs:17, 42-47, 60-68 -/
structure Variant (α : Type) where
  tag : UInt8
  size : Nat
  ser : α → Option Bytes
  de : Bytes → α

/-- the arguments of the macro and the size of the buffers (`size_of` the archived enum). models serialized_enum.rs:15-17, 78-80 -/
structure Enum (α : Type) where
  variants : List (Variant α)
  bufLen : Nat

/-- which arm of `match self` is taken, and what the serializer produces for it. models serialized_enum.rs:40-43 -/
def Enum.pick {α : Type} (e : Enum α) (v : α) : Option (Variant α × Bytes) :=
  e.variants.findSome? fun k => (k.ser v).map fun b => (k, b)

/-- which arm of `match buffer[0]` is taken. models serialized_enum.rs:57-58, 123-125 -/
def Enum.find {α : Type} (e : Enum α) (t : UInt8) : Option (Variant α) := e.variants.find? fun k => k.tag == t

/-- `write_to_buffer`: number of bytes and new buffer content; `none` when the buffer is too small. models serialized_enum.rs:34-49 -/
def Enum.writeToBuffer {α : Type} (e : Enum α) (v : α) (buf : Bytes) : Option (Nat × Bytes) :=
  match e.pick v with
  | some (k, b) => if buf.length < 1 + b.length then none else some (k.size + 1, k.tag :: (b ++ buf.drop (1 + b.length)))
  | none => none

/-- `from_buffer`: outer `none` = panic (`buffer[0]` of an empty slice). models serialized_enum.rs:51-74 -/
def Enum.fromBuffer {α : Type} (e : Enum α) (buf : Bytes) : Option (Option α) :=
  match buf with
  | [] => none
  | t :: _ =>
    match e.find t with
    | some k => if buf.length < k.size + 1 then some none else some (some (k.de ((buf.drop 1).take k.size)))
    | none => some none

/-- the writer: its buffer and everything handed to `write_all`. models serialized_enum.rs:78-88 -/
structure Writer where
  buf : Bytes
  sink : Bytes

/-- `new`. models serialized_enum.rs:82-86 -/
def Writer.new {α : Type} (e : Enum α) : Writer := ⟨List.replicate e.bufLen 0, []⟩

/-- `write`. models serialized_enum.rs:88-92 -/
def Writer.write {α : Type} (e : Enum α) (w : Writer) (v : α) : Option Writer :=
  match e.writeToBuffer v w.buf with
  | some (len, buf) => if buf.length < len then none else some ⟨buf, w.sink ++ buf.take len⟩
  | none => none

/-- `write` for several records -/
def Writer.writeAll {α : Type} (e : Enum α) (w : Writer) : List α → Option Writer
  | [] => some w
  | v :: vs =>
    match w.write e v with
    | some w => w.writeAll e vs
    | none => none

/-- the underlying reader: what is left, and how many times it was read -/
structure Src where
  data : Bytes
  tick : Nat

/-- the loop of embedded_io_async's `read_exact`: each `read` returns between one byte and what is asked for, as `sched` decides, and nothing at
the end of the data. `none` = `UnexpectedEof`. `fuel` bounds the number of rounds (each but the last takes a byte). (external crate) -/
def Src.readLoop (sched : Nat → Nat) : Nat → Nat → Src → Option Bytes × Src
  | 0, _, s => (some [], s)
  | fuel + 1, n, s =>
    if n = 0 then (some [], s)
    else
      let m := min (max 1 (sched s.tick)) (min n s.data.length)
      if m = 0 then (none, { s with tick := s.tick + 1 })
      else
        match Src.readLoop sched fuel (n - m) ⟨s.data.drop m, s.tick + 1⟩ with
        | (some b, s') => (some (s.data.take m ++ b), s')
        | (none, s') => (none, s')

/-- `read_exact` of `n` bytes. (external crate) -/
def Src.readExact (sched : Nat → Nat) (n : Nat) (s : Src) : Option Bytes × Src := s.readLoop sched n n

/-- `read_next`: inner `none` = `Ok(None)`, outer `none` = panic (payload larger than the buffer). models serialized_enum.rs:111-145 -/
def Enum.readNext {α : Type} (e : Enum α) (sched : Nat → Nat) (s : Src) : Option (Option α × Src) :=
  if e.bufLen < 1 then none
  else
    match s.readExact sched 1 with
    | (some (t :: _), s) =>
      match e.find t with
      | some k =>
        if e.bufLen < k.size then none
        else
          match s.readExact sched k.size with
          | (some b, s) => some (some (k.de b), s)
          | (none, s) => some (none, s)
      | none => some (none, s)
    | (some [], s) => some (none, s)
    | (none, s) => some (none, s)

end Verif.Tagged
