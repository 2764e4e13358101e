import Verif.Model.OzysFft
import Verif.Spec.OzysDatabase
/-
What spectra came in a history.
-/
namespace Verif.Ozys

/-- the spectra of a channel in a history -/
def cameFfts {α : Type} (c : String) : List (FOp α) → List (FPacket α)
  | [] => []
  | .packet c' d :: os => if c' = c then d :: cameFfts c os else cameFfts c os
  | _ :: os => cameFfts c os

/-- the operations since the page was last loaded -/
def sinceReload {α : Type} (ops : List (FOp α)) : List (FOp α) := ops.foldl (fun acc o => match o with | .restart => [] | o => acc ++ [o]) []

/-- timestamps from 0 on, never the same twice, never going back -/
def InTime {α : Type} (l : List (FPacket α)) : Prop := (l.Pairwise fun a b => a.timestamp < b.timestamp) ∧ ∀ d ∈ l, 0 ≤ d.timestamp

/-- the operation is not about the player `id`, and not a reload -/
def FQuiet {α : Type} (id : Nat) : FOp α → Prop
  | .packet _ _ => True
  | .commit => True
  | .query i _ _ _ => i ≠ id
  | .ready i => i ≠ id
  | .dispose i => i ≠ id
  | .restart => False

/-- the player `id` is not opened -/
def FUnopened {α : Type} (id : Nat) : FOp α → Prop
  | .query i _ _ _ => i ≠ id
  | _ => True

end Verif.Ozys
