import Mathlib.Data.Rat.Defs
import Mathlib.Algebra.Order.Ring.Rat
/-
The simulated clock of the Simulink bridge (vl-simulink-bridge/src/clock.rs): a clock moved from outside, and delays that wait on it. Simplifications: `f64` times are rationals (no rounding, no NaN: comparing a
NaN would panic in `cmp`); the `BinaryHeap` is a list of which the least wake time is taken (of several equal ones the first: the real heap leaves that order open). Each delay future is polled by a task of its own,
so that a waker is identified with its delay. Delays are numbered, and no number is used twice.
-/
namespace Verif.SimClock

/-- one entry of the heap: wake time, and whose waker. models clock.rs:42-45 -/
abbrev Entry := Rat × Nat

/-- `SimulationClock`. models clock.rs:12-15 -/
structure Clock where
  time : Rat
  wakers : List Entry

/-- `peek` of the heap of `Reverse`: an entry with the least wake time. models clock.rs:31, 47-65 -/
def peek : List Entry → Option Entry
  | [] => none
  | e :: l => match peek l with
    | none => some e
    | some f => if f.1 < e.1 then some f else some e

theorem peek_mem {l : List Entry} {e : Entry} (h : peek l = some e) : e ∈ l := by
  induction l generalizing e with
  | nil => simp [peek] at h
  | cons x l ih =>
    rw [peek] at h
    split at h
    · cases h; simp
    · rename_i f hf
      split at h
      · cases h; exact List.mem_cons_of_mem _ (ih hf)
      · cases h; simp

/-- the loop of `update_time`: wakes and takes out entries as long as the least is due. models clock.rs:31-38 -/
def wakeLoop (time : Rat) (l : List Entry) : List Nat × List Entry :=
  match h : peek l with
  | none => ([], l)
  | some e => if e.1 ≤ time then ((e.2 :: (wakeLoop time (l.erase e)).1), (wakeLoop time (l.erase e)).2) else ([], l)
termination_by l.length
decreasing_by all_goals (have := List.length_pos_of_mem (peek_mem h); rw [List.length_erase_of_mem (peek_mem h)]; omega)

/-- a delay future. models clock.rs:78-121 -/
inductive DelaySt
  /-- no such delay -/
  | absent
  /-- called but not polled yet: `delay_ns` and `delay_ms` are async, so nothing has happened; the duration in seconds -/
  | fresh (d : Rat)
  /-- in `poll_fn`, with `wake_time` -/
  | waiting (wake : Rat)
  /-- returned, or dropped -/
  | over

/-- the clock and all delays on it -/
structure World where
  clock : Clock
  delays : Nat → DelaySt

/-- at first. models clock.rs:18-23 -/
def World.init : World := ⟨⟨0, []⟩, fun _ => .absent⟩

/-- what can happen -/
inductive Op
  /-- `delay_ns(ns)` (`d` = ns · 1e-9) or `delay_ms(ms)` (`d` = ms · 1e-3) is called -/
  | create (id : Nat) (d : Rat)
  /-- the future is polled, for whatever reason -/
  | poll (id : Nat)
  /-- the future is dropped -/
  | drop (id : Nat)
  /-- `update_time` -/
  | update (t : Rat)
deriving DecidableEq

/-- what is seen -/
inductive Ev
  /-- a poll returned `Ready` -/
  | ready (id : Nat)
  /-- a waker is called -/
  | woke (id : Nat)
deriving DecidableEq

/-- one delay set -/
def World.setDelay (w : World) (id : Nat) (s : DelaySt) : World := { w with delays := fun i => if i = id then s else w.delays i }

/-- the body of `poll_fn`. models clock.rs:87-96, 110-119 -/
def World.pollFn (w : World) (id : Nat) (wake : Rat) : List Ev × World :=
  if wake ≤ w.clock.time then ([.ready id], w.setDelay id .over)
  else ([], { (w.setDelay id (.waiting wake)) with clock := { w.clock with wakers := (wake, id) :: w.clock.wakers } })

/-- a poll: the first computes the wake time, unless there is nothing to wait for. models clock.rs:79-98, 102-121 -/
def World.poll (w : World) (id : Nat) : List Ev × World :=
  match w.delays id with
  | .fresh d => if d ≤ 0 then ([.ready id], w.setDelay id .over) else w.pollFn id (w.clock.time + d)
  | .waiting wake => w.pollFn id wake
  | .absent => ([], w)
  | .over => ([], w)

/-- `update_time`. models clock.rs:29-39 -/
def World.update (w : World) (t : Rat) : List Ev × World :=
  ((wakeLoop t w.clock.wakers).1.map .woke, { w with clock := ⟨t, (wakeLoop t w.clock.wakers).2⟩ })

/-- one step. models clock.rs:25-39, 79-121 -/
def World.step (w : World) : Op → List Ev × World
  | .create id d => ([], match w.delays id with
    | .absent => w.setDelay id (.fresh d)
    | _ => w)
  | .poll id => w.poll id
  | .drop id => ([], match w.delays id with
    | .absent => w
    | _ => w.setDelay id .over)
  | .update t => w.update t

/-- a history: what is seen, and the state after it -/
def World.run (w : World) : List Op → List Ev × World
  | [] => ([], w)
  | o :: os => ((w.step o).1 ++ ((w.step o).2.run os).1, ((w.step o).2.run os).2)

/-- `now_ms`. models clock.rs:135-139 -/
def World.nowMs (w : World) : Rat := w.clock.time * 1000

end Verif.SimClock
