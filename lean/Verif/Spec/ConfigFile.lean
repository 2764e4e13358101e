import Verif.Spec.FsHistory
/-
What the files of one type say about the configuration stored in them.
-/
namespace Verif.Spec
open Verif Verif.Vlfs

/-- `k` is the file of its type with the smallest id -/
def FirstOf (ks : List Known) (typ : Nat) (k : Known) : Prop := k ∈ ks ∧ k.typ = typ ∧ ∀ k' ∈ ks, k'.typ = typ → k.id ≤ k'.id

/-- what is left of the files when those of one type are removed that are not open -/
def withoutType (typ : Nat) (opened : List Nat) (ks : List Known) : List Known := ks.filter fun k => !(k.typ == typ) || decide (k.id ∈ opened)

/-- the first `n` bytes of a content, if there are that many -/
def firstBytes (n : Nat) (c : Bytes) : Option Bytes := if n ≤ c.length then some (c.take n) else none

/-- `b` is the configuration (of `n` bytes) stored in the files: that of the oldest file of the type, none if there is no such file
or it is too short. -/
def Stores (n typ : Nat) (ks : List Known) (b : Option Bytes) : Prop :=
  ((∀ k ∈ ks, k.typ ≠ typ) ∧ b = none) ∨ ∃ k, FirstOf ks typ k ∧ b = firstBytes n k.data

end Verif.Spec
