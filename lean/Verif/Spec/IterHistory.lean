import Verif.Spec.DirHistory
import Verif.Model.Iter
/-
Histories of one concurrent iterator: directory-changing calls of other tasks in between its `next` calls.
-/
namespace Verif.Spec
open Verif Verif.Vlfs

/-- a filter that looks at the id and the type of a file only (file id, file type or `()` in the firmware) -/
def onIdTyp (f : Nat → Nat → Bool) : FileEntry → Bool := fun e => f e.id e.typ

/-- `IterRun f P fs es ids it ys`: since the iterator was created the directory went through states that all satisfy `P`; it is
now in the state `fs`, listing `es`; the iterator state is `it` and it has yielded `ys` so far. -/
inductive IterRun (f : Nat → Nat → Bool) (P : List FileEntry → Prop) :
    FS → List FileEntry → List Nat → ConcIter → List FileEntry → Prop
  /-- the iterator is created -/
  | start {fs : FS} {es : List FileEntry} {ids : List Nat} (hr : Reach fs es ids) (hp : P es) :
      IterRun f P fs es ids ConcIter.new []
  /-- a directory-changing call -/
  | call {fs fs' : FS} {es es' : List FileEntry} {ids new : List Nat} {it : ConcIter} {ys : List FileEntry}
      (hr : IterRun f P fs es ids it ys) (hc : Call fs es fs' es' new) (hok : countersOk fs) (hp : P es') :
      IterRun f P fs' es' (new ++ ids) it ys
  /-- a file is marked open or closed -/
  | opened {fs : FS} {es : List FileEntry} {ids : List Nat} {it : ConcIter} {ys : List FileEntry}
      (hr : IterRun f P fs es ids it ys) (l : List Nat) :
      IterRun f P { fs with at' := { fs.at' with opened := l } } es ids it ys
  /-- anything that happens outside the directory -/
  | other {fs fs' : FS} {es : List FileEntry} {ids : List Nat} {it : ConcIter} {ys : List FileEntry}
      (hr : IterRun f P fs es ids it ys) (ha : fs'.at' = fs.at')
      (hf : ∀ a, a < 4 * 32768 → fs'.dev.flash a = fs.dev.flash a) (hm : aheadValid fs'.mng) : IterRun f P fs' es ids it ys
  /-- `next` yields a file -/
  | next {fs : FS} {es : List FileEntry} {ids : List Nat} {it it' : ConcIter} {ys : List FileEntry} {e : FileEntry}
      (hr : IterRun f P fs es ids it ys) (h : fs.concNext (onIdTyp f) it = (.ok (some e), it')) :
      IterRun f P fs es ids it' (ys ++ [e])
  /-- `next` reports the end; the iterator may be used again later -/
  | done {fs : FS} {es : List FileEntry} {ids : List Nat} {it it' : ConcIter} {ys : List FileEntry}
      (hr : IterRun f P fs es ids it ys) (h : fs.concNext (onIdTyp f) it = (.ok none, it')) : IterRun f P fs es ids it' ys

/-- the answer `next` should give: the file with the smallest id among those that exist, match, and lie above everything
yielded so far -/
def NextAnswer (f : Nat → Nat → Bool) (es ys : List FileEntry) : Option FileEntry → Prop
  | some e => e ∈ es ∧ f e.id e.typ = true ∧ (∀ y ∈ ys, y.id < e.id) ∧
      ∀ e' ∈ es, f e'.id e'.typ = true → (∀ y ∈ ys, y.id < e'.id) → e.id ≤ e'.id
  | none => ∀ e' ∈ es, f e'.id e'.typ = true → ∃ y ∈ ys, e'.id ≤ y.id

end Verif.Spec
