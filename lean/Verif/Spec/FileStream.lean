import Verif.Spec.Chain
import Verif.Model.File
/-
What the sectors of a file hold, as a stream of bytes and of pages that fail their CRC, and what a read of `n` bytes
takes from such a stream.
-/
namespace Verif.Spec
open Verif Verif.Vlfs

/-- one element of the stream: a byte, or a page whose CRC does not match -/
inductive Item where
  | byte (b : UInt8)
  | bad (address : Nat)
deriving Repr, DecidableEq

/-- what reading `n` bytes takes from a stream: the bytes, the status, the rest of the stream. A bad page ends the
read, is reported, and is skipped. -/
def consume : List Item → Nat → Bytes × ReadStatus × List Item
  | items, 0 => ([], .ok, items)
  | [], _ + 1 => ([], .endOfFile, [])
  | .bad a :: items, _ + 1 => ([], .corruptedPage a, items)
  | .byte b :: items, n + 1 => (b :: (consume items n).1, (consume items n).2)

/-- number of data bytes of a sector: the stored length (majority of four copies); a length that is too large counts as
0, a length without majority as a full sector -/
def sectorLength (fl : Flash) (s : Nat) : Nat :=
  match mostCommonU16 (fl.read (s * 4096 + 4080) 8) with
  | none => 4016
  | some n => if n ≤ 4016 then n else 0

/-- page `p` of a sector with `n` data bytes: its up to 252 data bytes if the CRC stored behind them (data padded to a
multiple of 4) matches, otherwise a bad page -/
def pageItems (crc : Bytes → UInt32) (fl : Flash) (s n p : Nat) : List Item :=
  let k := min (n - 252 * p) 252
  let padded := (k + 3) / 4 * 4
  let addr := s * 4096 + 256 * p
  if (crc (fl.read addr padded)).toNat = beNat (fl.read (addr + padded) 4) then (fl.read addr k).map .byte
  else [.bad addr]

/-- the pages of a sector -/
def sectorItems (crc : Bytes → UInt32) (fl : Flash) (s : Nat) : List Item :=
  (List.range ((sectorLength fl s + 251) / 252)).flatMap (pageItems crc fl s (sectorLength fl s))

/-- a file stored in the sectors `l` -/
def fileItems (crc : Bytes → UInt32) (fl : Flash) (l : List Nat) : List Item := l.flatMap (sectorItems crc fl)

/-- a sequence of reads with the given sizes: the answers -/
def reads (crc : Bytes → UInt32) (fl : Flash) : FileReader → List Nat → List (Except Err (Bytes × ReadStatus))
  | _, [] => []
  | r, n :: ns => (r.readSlice crc fl n).1 :: reads crc fl (r.readSlice crc fl n).2 ns

/-- the answers a stream gives to a sequence of reads -/
def consumes : List Item → List Nat → List (Bytes × ReadStatus)
  | _, [] => []
  | items, n :: ns => ((consume items n).1, (consume items n).2.1) :: consumes (consume items n).2.2 ns

end Verif.Spec
