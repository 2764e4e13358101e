import Verif.Model.OzysDatabase
/-
What came, and what the database worker should do with it.
-/
namespace Verif.Ozys

/-- the packets of a channel in a history -/
def arrived {α : Type} (c : String) : List (WOp α) → List (RPacket α)
  | [] => []
  | .packet c' d :: os => if c' = c then d :: arrived c os else arrived c os
  | _ :: os => arrived c os

/-- the operations since the page was last loaded -/
def sinceRestart {α : Type} (ops : List (WOp α)) : List (WOp α) := ops.foldl (fun acc o => match o with | .restart => [] | o => acc ++ [o]) []

/-- a channel as the device sends it: 20 readings and noises at a time, timestamps from 0 on at whole multiples of 10 ms, never the same twice, never going back -/
structure Proper {α : Type} (l : List (RPacket α)) : Prop where
  order : l.Pairwise fun a b => a.timestamp < b.timestamp
  aligned : ∀ d ∈ l, 10 ∣ d.timestamp
  pos : ∀ d ∈ l, 0 ≤ d.timestamp
  readings : ∀ d ∈ l, d.readings.length = 20
  noises : ∀ d ∈ l, d.noises.length = 20

/-- the last `n` -/
def lastOf {β : Type} (n : Nat) (l : List β) : List β := l.drop (l.length - n)

/-- the operation is not about the player `id`, and not a restart -/
def Quiet {α : Type} (id : Nat) : WOp α → Prop
  | .packet _ _ => True
  | .commit => True
  | .query i _ _ _ => i ≠ id
  | .ready i => i ≠ id
  | .dispose i => i ≠ id
  | .restart => False

/-- the player `id` is not opened -/
def Unopened {α : Type} (id : Nat) : WOp α → Prop
  | .query i _ _ _ => i ≠ id
  | _ => True

end Verif.Ozys
