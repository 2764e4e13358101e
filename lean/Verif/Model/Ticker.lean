import Mathlib.Algebra.Order.Floor.Ring
import Mathlib.Data.Rat.Floor
/-
`Ticker` (firmware-common/src/common/ticker.rs). Times are exact milliseconds (rationals in place of f64).
The environment supplies, for each call, the clock reading at the call and by how much the delay driver oversleeps.
-/
namespace Verif.Tick

/-- `Ticker`, without the clock and the delay driver. models common/ticker.rs:4-10 -/
structure Ticker where
  start : Rat
  interval : Rat
  i : Rat

/-- `every`; `now` is the clock reading. models common/ticker.rs:13-21 -/
def Ticker.every (now interval : Rat) : Ticker := ⟨now, interval, 0⟩

/-- `every_starts_at`. models common/ticker.rs:23-31 -/
def Ticker.everyStartsAt (interval start : Rat) : Ticker := ⟨start, interval, 0⟩

/-- `next` up to the delay: the delay asked for, `none` = returns at once. models common/ticker.rs:33-42 -/
def Ticker.next (t : Ticker) (now : Rat) : Ticker × Option Rat :=
  let t := { t with i := t.i + 1 }
  let waitUntil := t.start + t.i * t.interval
  if waitUntil ≤ now then (t, none) else (t, some (waitUntil - now))

/-- `next_skip_missed` up to the delay. models common/ticker.rs:44-48 -/
def Ticker.nextSkipMissed (t : Ticker) (now : Rat) : Rat := (⌈now / t.interval⌉ : Rat) * t.interval - now

/-- one call: the clock reading at the call and by how much the delay oversleeps -/
structure Call where
  now : Rat
  late : Rat

/-- when a call of `next` returns -/
def Ticker.returns (t : Ticker) (c : Call) : Rat := match (t.next c.now).2 with
  | none => c.now
  | some d => c.now + d + c.late

/-- when a call of `next_skip_missed` returns -/
def Ticker.returnsSkip (t : Ticker) (c : Call) : Rat := c.now + t.nextSkipMissed c.now + c.late

/-- the ticker after `k` calls of `next` -/
def Ticker.after (t : Ticker) (cs : Nat → Call) : Nat → Ticker
  | 0 => t
  | k + 1 => ((t.after cs k).next (cs k).now).1

/-- when the `k`-th call (from 0) of `next` returns -/
def Ticker.tick (t : Ticker) (cs : Nat → Call) (k : Nat) : Rat := (t.after cs k).returns (cs k)

end Verif.Tick
