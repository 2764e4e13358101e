import Verif.Model.Directory
/-
The sectors of a file.
-/
namespace Verif.Vlfs
open Verif

/-- `l` are the sectors of the file whose first sector is `first`, following the stored next pointers -/
inductive Chain (fl : Flash) : Option Nat → List Nat → Prop
  | nil : Chain fl none []
  | cons (s next : Nat) (l : List Nat) (h : mostCommonU16 (fl.read (s * 4096 + 4096 - 8) 8) = some next)
      (ht : Chain fl (if next = 0xFFFF then none else some next) l) : Chain fl (some s) (s :: l)

/-- the files' sector chains can be followed to their end -/
def ChainsOk (fl : Flash) (es : List FileEntry) : Prop := ∀ e ∈ es, ∃ l, Chain fl e.first l ∧ l.length ≤ 16384

end Verif.Vlfs
