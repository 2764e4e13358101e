import Verif.Model.SimClock
/- Vocabulary for C116. -/
namespace Verif.SimClock

/-- the time a history leaves the clock at: the last one it was set to -/
def now : List Op → Rat := fun ops => ops.foldl (fun t o => match o with | .update t' => t' | _ => t) 0

/-- what is seen in a history from the start -/
def seen (ops : List Op) : List Ev := (World.init.run ops).1

/-- what is seen at one more operation after a history -/
def seenAt (ops : List Op) (o : Op) : List Ev := ((World.init.run ops).2.step o).1

/-- in the history `pre` the delay of that number is called, and neither polled nor dropped since: polled now, it is due at `wake`, which is the time now plus its duration -/
def Begun (pre : List Op) (id : Nat) (wake : Rat) : Prop :=
  ∃ (a b : List Op) (d : Rat), pre = a ++ .create id d :: b ∧ (∀ d', .create id d' ∉ a) ∧ .poll id ∉ b ∧ .drop id ∉ b ∧ wake = now pre + d

/-- after `pre`, the delay due at `wake` is still waiting after `c`: it was not dropped, and no poll came when it was due -/
def Alive (pre c : List Op) (id : Nat) (wake : Rat) : Prop :=
  .drop id ∉ c ∧ ∀ c1 c2, c = c1 ++ .poll id :: c2 → now (pre ++ c1) < wake

end Verif.SimClock
