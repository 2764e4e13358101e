import Mathlib.Algebra.Order.Ring.Rat
/-
Blink patterns. models firmware-common/src/common/indicator_controller.rs.
Simplifications: times are exact rationals in ms (the code uses f64, where sums of whole ms are exact below 2^53); switching a lamp and waking up from a delay take any non-negative
time, given for the i-th wait by `lat i = (a, b)`: `a` from the start of `set_enable` until the lamp has switched and the clock is read, `b` by how much the delay returns late.
-/
namespace Verif.Indicator

/-- a lamp was switched: when, and to what -/
abbrev Ev := Rat × Bool

/-- the state of the loop: number of waits so far, current time, `start_time` -/
structure St where
  n : Nat
  now : Rat
  start : Rat

/-- `delay.delay_ms(ms)` called at `now`, returning `late` later than it should; nothing to wait for if `ms ≤ 0`. models firmware-common/src/driver/delay.rs as implemented in vl-simulink-bridge/src/clock.rs:105-111 -/
def wait (now ms late : Rat) : Rat := (if 0 < ms then now + ms else now) + late

/-- one pass over the pattern (the `for` loop). models indicator_controller.rs:43-53 -/
def pass (lat : Nat → Rat × Rat) : Bool → List Nat → St → List Ev × St
  | _, [], s => ([], s)
  | en, d :: ds, s =>
    if d = 0 then pass lat (!en) ds s
    else
      let now := s.now + (lat s.n).1
      let fin := s.start + d
      let r := pass lat (!en) ds ⟨s.n + 1, wait now (fin - now) (lat s.n).2, fin⟩
      ((now, en) :: r.1, r.2)

/-- `m` rounds of the outer `loop`. models indicator_controller.rs:40-54 -/
def rounds (lat : Nat → Rat × Rat) (pattern : List Nat) : Nat → St → List Ev × St
  | 0, s => ([], s)
  | m + 1, s =>
    let r := pass lat true pattern s
    let q := rounds lat pattern m r.2
    (r.1 ++ q.1, q.2)

/-- the lamp switchings of `run_single` in its first `m` rounds, started at time `t`; none if the pattern is empty, since it returns at once. models indicator_controller.rs:32-56 -/
def runSingle (lat : Nat → Rat × Rat) (pattern : List Nat) (m : Nat) (t : Rat) : List Ev :=
  if pattern.length = 0 then [] else (rounds lat pattern m ⟨0, t, t⟩).1

/-- does `run_single` ever return: only if the pattern is empty, the `loop` has no exit. models indicator_controller.rs:36-55 -/
def singleReturns (pattern : List Nat) : Bool := pattern.length = 0

/-- does `run` ever return: `join!` waits for all three. models indicator_controller.rs:64-75 -/
def runReturns (red green blue : List Nat) : Bool := singleReturns red && singleReturns green && singleReturns blue

/-- number of waits (points where other tasks can run) in one round. models indicator_controller.rs:43-53 -/
def waitsPerRound (pattern : List Nat) : Nat := (pattern.filter (· ≠ 0)).length

end Verif.Indicator
