import Verif.Model.Indicator
/-
What a blink pattern means: the entries are durations in ms, alternately on and off, repeated for ever.
-/
namespace Verif.Spec.Indicator
open Verif.Indicator

/-- is the lamp lit `x` ms after the beginning of a round, if the first entry means `en` -/
def lit : Bool → List Nat → Rat → Bool
  | en, [], _ => en
  | en, d :: ds, x => if x < d then en else lit (!en) ds (x - d)

/-- how long a round takes -/
def total (pattern : List Nat) : Nat := pattern.sum

/-- what one sees: the state of the lamp at time `x` after the switchings `evs`, in order, if it was `init` before -/
def lamp : Bool → List Ev → Rat → Bool
  | init, [], _ => init
  | init, e :: evs, x => if e.1 ≤ x then lamp e.2 evs x else init

end Verif.Spec.Indicator
