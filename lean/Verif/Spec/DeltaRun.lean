import Verif.Model.Delta
/-
How delta encoding is used: a sequence of values, each pushed with or without permission to use a delta, and the decoder that is given
the encoded items in order.
-/
namespace Verif.Delta

/-- the encoder run over a sequence of values; `true` = `push_no_delta`. `none` = the encoder panicked -/
def encodeAll {T D : Type} (dt : Deltable T D) : Option T → List (Bool × T) → Option (List (Enc T D))
  | _, [] => some []
  | last, (noDelta, v) :: vs =>
    if noDelta then
      let (last', e) := pushNoDelta v
      match encodeAll dt last' vs with
      | some es => some (e :: es)
      | none => none
    else
      match push dt last v with
      | some (last', e) =>
        match encodeAll dt last' vs with
        | some es => some (e :: es)
        | none => none
      | none => none

/-- the decoder run over a sequence of items -/
def decodeAll {T D : Type} (dt : Deltable T D) : Option T → List (Enc T D) → List (Option T)
  | _, [] => []
  | last, e :: es => (unPush dt last e).2 :: decodeAll dt (unPush dt last e).1 es

/-- consecutive values are related by `chain` -/
def Chained {T : Type} (chain : T → T → Prop) : List T → Prop
  | [] => True
  | [_] => True
  | a :: b :: l => chain a b ∧ Chained chain (b :: l)

/-- what one delta guarantees: `close v w` says that `w` is an acceptable reconstruction of `v` -/
structure OneStep {T D : Type} (dt : Deltable T D) (chain : T → T → Prop) (close : T → T → Prop) : Prop where
  refl : ∀ v, close v v
  step : ∀ p l v d, close p l → chain p v → dt.subtract v l = some d → ∃ w, dt.addDelta l d = some w ∧ close v w

end Verif.Delta
