import Verif.Model.TypedIo
import Verif.Spec.FsHistory
/-
Programs that write and read numbers (C110).
-/
namespace Verif.Typed
open Verif Verif.Vlfs Verif.Spec

/-- what a program does with an open writer: writes a number, or flushes -/
inductive TOp
  | put (rng : Nat → Nat × Nat) (t : Ty) (v : Nat)
  | flush (r1 r2 : Nat)

/-- the numbers written, with their types -/
def numbers : List TOp → List (Ty × Nat)
  | [] => []
  | .put _ t v :: l => (t, v) :: numbers l
  | .flush _ _ :: l => numbers l

/-- the program carried out, stopping at the first error -/
def runTyped (crc : Bytes → UInt32) : FS → FileWriter → List TOp → Except Err Unit × FileWriter × FS
  | fs, w, [] => (.ok (), w, fs)
  | fs, w, .put rng t v :: l =>
    match putNumber crc fs w rng t v with
    | (.ok (), w', fs') => runTyped crc fs' w' l
    | r => r
  | fs, w, .flush r1 r2 :: l =>
    match fs.flushWriter crc w r1 r2 with
    | (.ok (), w', fs') => runTyped crc fs' w' l
    | r => r

/-- the answers to typed reads, one after the other -/
def typedReads (crc : Bytes → UInt32) (fl : Flash) : FileReader → List Ty → List (Except Err (Option Nat × ReadStatus))
  | _, [] => []
  | r, t :: ts => (readTyped crc fl r t).1 :: typedReads crc fl (readTyped crc fl r t).2 ts

/-- opened for reading, the file answers with these numbers and then, however often and with whatever types it is asked, that it ends -/
def ReadsNumbers (crc : Bytes → UInt32) (fs : FS) (id : Nat) (l : List (Ty × Nat)) : Prop :=
  ∃ r fs', fs.openForRead id = (.ok r, fs') ∧
    ∀ more, typedReads crc fs.dev.flash r (l.map (·.1) ++ more) = (l.map fun x => .ok (some x.2, .ok)) ++ more.map fun _ => .ok (none, .endOfFile)

end Verif.Typed
