import Verif.Model.Waker
/-
The GPS-disciplined clock (firmware-common/src/common/unix_clock.rs). Times are exact milliseconds (rationals in place of f64).
-/
namespace Verif.Uc

open Wk

/-- `UnixClockState`, the task's `latest_gps_timestamp`, what it published, the tasks woken so far, and whether a panic happened. models common/unix_clock.rs:18-28, 49-50 -/
structure Clk where
  latest : Rat × Int
  offset : Option Rat
  waker : Multi
  published : List Rat
  woken : List Nat
  panicked : Bool

/-- the start. models common/unix_clock.rs:31-37, 49-50 -/
def Clk.new : Clk := ⟨(0, 0), none, .new 10, [], [], false⟩

/-- what happens; the first argument is the clock reading -/
inductive Op
  /-- a GPS time (in seconds) reaches the task -/
  | gps (now : Rat) (seconds : Int)
  /-- the PPS edge reaches the task -/
  | pps (now : Rat)
  /-- a task polls `wait_until_ready` -/
  | poll (task : Nat)

/-- one iteration of the loop that receives GPS times. models common/unix_clock.rs:53-58 -/
def Clk.gps (c : Clk) (now : Rat) (s : Int) : Clk := { c with latest := (now, s) }

/-- one iteration of the loop that waits for PPS. models common/unix_clock.rs:62-78 -/
def Clk.pps (c : Clk) (now : Rat) : Clk :=
  if now - c.latest.1 < 800 then
    let current : Rat := ((c.latest.2 + 1 : Int) : Rat) * 1000
    { c with offset := some (current - now), waker := c.waker.wake.1, woken := c.woken ++ c.waker.wake.2, published := c.published ++ [current] }
  else c

/-- `ready`. models common/unix_clock.rs:95-99 -/
def Clk.ready (c : Clk) : Bool := c.offset.isSome

/-- one poll of `wait_until_ready`: true = it returns. models common/unix_clock.rs:101-114 -/
def Clk.poll (c : Clk) (w : Nat) : Clk × Bool :=
  if c.offset.isSome then (c, true)
  else match c.waker.register w with
    | some (m, wk) => ({ c with waker := m, woken := c.woken ++ wk }, false)
    | none => ({ c with panicked := true }, false)

/-- `convert_to_unix`. models common/unix_clock.rs:120-127 -/
def Clk.convert (c : Clk) (boot : Rat) : Rat := boot + c.offset.getD 0

/-- `now_ms`, the boot clock reading `now`. models common/unix_clock.rs:132-138 -/
def Clk.nowMs (c : Clk) (now : Rat) : Rat := now + c.offset.getD 0

/-- one step -/
def Clk.step (c : Clk) : Op → Clk
  | .gps now s => c.gps now s
  | .pps now => c.pps now
  | .poll w => (c.poll w).1

/-- a history -/
def Clk.run (l : List Op) : Clk := l.foldl Clk.step .new

end Verif.Uc
