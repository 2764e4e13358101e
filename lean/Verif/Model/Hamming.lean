import Verif.Basic
/-
Model of vlfs/src/fs/hamming.rs (feature `ecc`, which is on by default: vlfs/Cargo.toml).
A `BitArray<_, Lsb0>` is modelled by the function from bit index to bit.
-/
namespace Verif.Hamming

/-- `BitSlice::copy_within(s..e, d)`. models vlfs/src/fs/hamming.rs:9-14, 91-96 (bitvec crate). -/
def copyWithin (f : Nat → Bool) (s e d : Nat) : Nat → Bool :=
  fun i => if d ≤ i ∧ i < d + (e - s) then f (s + (i - d)) else f i

/-- `buffer.set(k, v)`. -/
def setBit (f : Nat → Bool) (k : Nat) (v : Bool) : Nat → Bool :=
  fun i => if i = k then v else f i

/-- the two nested loops over bit indices and parity groups.
models vlfs/src/fs/hamming.rs:21-29 and 52-60. `parity_bits[1..8]` is indexed by 1..8 as in the code. -/
def parityLoop (buf : Nat → Bool) : Nat → Bool :=
  (List.range' 1 103).foldl
    (fun pb bit_i =>
      (List.range' 1 7).foldl
        (fun pb p => if bit_i &&& (1 <<< (p - 1)) ≠ 0 then setBit pb p (pb p ^^ buf bit_i) else pb) pb)
    (fun _ => true)

/-- models vlfs/src/fs/hamming.rs:34-37 and 64-67: running XOR started at `true`. -/
def wholeParity (buf : Nat → Bool) (first count : Nat) : Bool :=
  (List.range' first count).foldl (fun acc i => acc ^^ buf i) true

/-- models vlfs/src/fs/hamming.rs:6-40 (bit level). -/
def encodeBits (f : Nat → Bool) : Nat → Bool :=
  let b := copyWithin f 57 96 65
  let b := copyWithin b 26 57 33
  let b := copyWithin b 11 26 17
  let b := copyWithin b 4 11 9
  let b := copyWithin b 1 4 5
  let b := copyWithin b 0 1 3
  let b := setBit b 0 false
  let b := (List.range' 1 7).foldl (fun b p => setBit b (1 <<< (p - 1)) false) b
  let pb := parityLoop b
  let b := (List.range' 1 7).foldl (fun b p => setBit b (1 <<< (p - 1)) (pb p)) b
  setBit b 0 (wholeParity b 1 103)

/-- the extraction of the data bits. models vlfs/src/fs/hamming.rs:91-96. -/
def extract (b : Nat → Bool) : Nat → Bool :=
  let b := copyWithin b 3 4 0
  let b := copyWithin b 5 8 1
  let b := copyWithin b 9 16 4
  let b := copyWithin b 17 32 11
  let b := copyWithin b 33 64 26
  copyWithin b 65 104 57

/-- models vlfs/src/fs/hamming.rs:48-96 (bit level); `none` is `Err(())`. -/
def decodeBits (b : Nat → Bool) : Option (Nat → Bool) :=
  let pb := parityLoop b
  -- `parity_bits.into_inner()[0] >> 1`
  let error_i := bitsNat 7 (fun p => pb (p + 1))
  let parity_whole := wholeParity b 0 104
  if error_i = 0 then some (extract b)
  else if parity_whole then
    if 104 ≤ error_i ∧ error_i < 128 then none
    else some (extract (setBit b error_i (!(b error_i))))
  else none

/-- `hamming_encode`. models vlfs/src/fs/hamming.rs:6-40: 13 bytes in (12 data bytes and one
ignored byte), 13 bytes out. -/
@[irreducible] def encode (buffer : Bytes) : Bytes := ofBits 13 (encodeBits (bitAt buffer))

/-- `hamming_decode`. models vlfs/src/fs/hamming.rs:48-101: 13 bytes in, 12 bytes out or `Err`. -/
@[irreducible] def decode (buffer : Bytes) : Option Bytes :=
  (decodeBits (bitAt buffer)).map (ofBits 12)

end Verif.Hamming
