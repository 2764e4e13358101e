import Verif.Model.Tagged
/-
What the tagged record stream is measured against.
-/
namespace Verif.Tagged

/-- The macro is used properly: distinct tags, every value belongs to a variant, rkyv's codec of a variant is an exact inverse of fixed size,
and the archived enum (the buffer) has room for the tag and the largest payload. -/
structure Enum.Ok {α : Type} (e : Enum α) : Prop where
  tags : (e.variants.map Variant.tag).Nodup
  total : ∀ v, ∃ k ∈ e.variants, (k.ser v).isSome
  codec : ∀ k ∈ e.variants, ∀ v b, k.ser v = some b → b.length = k.size ∧ k.de b = v
  room : ∀ k ∈ e.variants, k.size + 1 ≤ e.bufLen
  pos : 1 ≤ e.bufLen

/-- A reader that has been called repeatedly on `bytes` and got the records `outs`, never yet the end. -/
inductive ReadRun {α : Type} (e : Enum α) (sched : Nat → Nat) (bytes : Bytes) : Src → List α → Prop
  | start : ReadRun e sched bytes ⟨bytes, 0⟩ []
  | next {s s' : Src} {outs : List α} {v : α} : ReadRun e sched bytes s outs → e.readNext sched s = some (some v, s') → ReadRun e sched bytes s' (outs ++ [v])

/-- the bytes a record occupies in the stream -/
def Enum.bytes {α : Type} (e : Enum α) (v : α) : Bytes :=
  match e.pick v with
  | some (k, b) => k.tag :: b
  | none => []

end Verif.Tagged
