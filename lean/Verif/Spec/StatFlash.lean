import Verif.Model.StatFlash
/-
What the statistics of a flash driver should say.
-/
namespace Verif.Spec
open Verif Verif.StatFlash

/-- the kinds of calls that are counted -/
inductive FlashKind where
  | erase4 | erase32 | erase64 | read | write
deriving DecidableEq

/-- the kind of a call, if it is counted -/
def kindOf : Call → Option FlashKind
  | .size => none
  | .reset => none
  | .erase4 _ => some .erase4
  | .erase32 _ => some .erase32
  | .erase64 _ => some .erase64
  | .read4k _ _ _ => some .read
  | .write256 _ _ => some .write

/-- what happened: a call and the times of the clock when it began and ended, or the statistics were cleared -/
inductive FlashEvent (τ : Type) where
  | call (c : Call) (start stop : τ)
  | cleared

/-- the calls of a kind since the statistics were last cleared: their beginnings and ends, in order -/
def callsSince {τ : Type} (k : FlashKind) : List (FlashEvent τ) → List (τ × τ) → List (τ × τ)
  | [], acc => acc
  | .cleared :: l, _ => callsSince k l []
  | .call c a b :: l, acc => callsSince k l (if kindOf c = some k then acc ++ [(a, b)] else acc)

/-- the sum of the lengths of intervals -/
def totalTime {τ : Type} (t : Times τ) (l : List (τ × τ)) : τ := l.foldl (fun x p => t.add x (t.sub p.2 p.1)) t.zero

/-- `StatRun t w s l`: the statistics `s` after the events `l`: calls on drivers that share the statistics, clearings, and anything that others do to the world -/
inductive StatRun {ω ρ τ : Type} (t : Times τ) : ω → Stat τ → List (FlashEvent τ) → Prop
  | new (w : ω) : StatRun t w (Stat.fresh t) []
  | call {w w' : ω} {s s' : Stat τ} {l : List (FlashEvent τ)} (d : Driver ω ρ τ) (c : Call) {r : ρ} (h : StatRun (ρ := ρ) t w s l) (hc : statCall t d s c w = (r, s', w')) :
      StatRun t w' s' (l ++ [.call c (d.now w) (d.now w')])
  | clear {w : ω} {s : Stat τ} {l : List (FlashEvent τ)} (h : StatRun (ρ := ρ) t w s l) : StatRun t w (Stat.fresh t) (l ++ [.cleared])
  | world {w w' : ω} {s : Stat τ} {l : List (FlashEvent τ)} (h : StatRun (ρ := ρ) t w s l) : StatRun t w' s l

end Verif.Spec
