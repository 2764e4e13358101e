import Verif.Model.File
/-
Numbers in files: the typed calls of the reader and writer traits of VLFS.
-/
namespace Verif.Typed
open Verif Verif.Vlfs

/-- the four integer types -/
inductive Ty
  | u8 | u16 | u32 | u64
  deriving DecidableEq

/-- size in bytes -/
def Ty.width : Ty → Nat
  | .u8 => 1
  | .u16 => 2
  | .u32 => 4
  | .u64 => 8

/-- `extend_from_u8`, …, `extend_from_u64`: big-endian bytes. models vlfs/src/utils/io_traits.rs:76-90 -/
def putNumber (crc : Bytes → UInt32) (fs : FS) (w : FileWriter) (rng : Nat → Nat × Nat) (t : Ty) (v : Nat) : Except Err Unit × FileWriter × FS :=
  fs.extendWriter crc w rng (beBytes t.width v)

/-- the number made of the bytes read, if there are enough of them. models io_traits.rs:25-31, 38-44, 51-57, 64-70 -/
def decode (t : Ty) : Bytes × ReadStatus → Option Nat × ReadStatus
  | (b, s) => if b.length = t.width then (some (beNat b), s) else (none, s)

/-- `read_u8`, …, `read_u64`. models io_traits.rs:21-71 -/
def readTyped (crc : Bytes → UInt32) (fl : Flash) (r : FileReader) (t : Ty) : Except Err (Option Nat × ReadStatus) × FileReader :=
  match r.readSlice crc fl t.width with
  | (.error e, r) => (.error e, r)
  | (.ok x, r) => (.ok (decode t x), r)

end Verif.Typed
