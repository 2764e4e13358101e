import Verif.Model.FlightCore
import Verif.Model.PubSub
/-
The vacuum test (firmware-common/src/vacuum_test/mod.rs): the task that reads the barometer and feeds the backup flight computer, and the task that logs its state changes. The readings that
arrive are given. The logger of the readings is C63/C88; the start of the mode is C99; the indicator pattern is C98. Driver and storage errors are `unwrap`ped: a panic.
-/
namespace Verif.Vac
open Verif Verif.Fc

/-- where the logging task is: waiting for an event, or writing and flushing the record of message `k` (state and timestamp). models vacuum_test/mod.rs:103-134 -/
inductive Phase
  | idle
  | writing (k : Nat) (s : FcState) (timestamp : Nat)
  deriving DecidableEq

/-- the mode's state: the flight computer, the event channel (capacity 3; everything published, with the number of the reading, and the subscriber's position), the logging task, the records in the file
(number of the message, state, timestamp), what `flight_core_state_signal` was last set to, the number of beeps. models vacuum_test/mod.rs:80-101 -/
structure St (fl : Floats) where
  core : Backup fl
  ticks : Nat
  events : List (Nat × Event fl.S)
  pos : Nat
  phase : Phase
  log : List (Nat × FcState × Nat)
  signal : Option FcState
  beeps : Nat
  panicked : Bool

/-- after the set-up; the subscriber exists before the first reading: its task is polled while the first reading waits for its ticker. models vacuum_test/mod.rs:80-101 -/
def St.new {fl : Floats} (q : Biquad fl) (p : Profile fl) : St fl := ⟨.new q p, 0, [], 0, .idle, [], none, 0, false⟩

/-- what can happen -/
inductive Op (fl : Floats)
  /-- the barometer gives a reading -/
  | reading (r : Reading fl)
  /-- the barometer gives an error -/
  | readError
  /-- the logging task gets on: it takes the next event -/
  | poll (now : Nat)
  /-- writing and flushing ends -/
  | wrote (ok : Bool)

/-- `barometer.read()` and `flight_core.tick`. models vacuum_test/mod.rs:88-94 -/
def St.reading {fl : Floats} (s : St fl) (r : Reading fl) : St fl :=
  match s.core.tick r with
  | none => { s with panicked := true }
  | some (c, evs) => { s with core := c, ticks := s.ticks + 1, events := s.events ++ evs.map fun e => (s.ticks, e) }

/-- is this state announced with a beep. models vacuum_test/mod.rs:108-112 -/
def beepFor (st : FcState) : Bool := st = .mainChuteDeployed ∨ st = .drogueChuteDeployed

/-- taking the next event. models vacuum_test/mod.rs:103-120, 128-131 -/
def St.poll {fl : Floats} (s : St fl) (now : Nat) : St fl :=
  match s.phase with
  | .writing _ _ _ => s
  | .idle =>
    let k := PubSub.next 3 s.events s.pos
    match s.events[k]? with
    | none => s
    | some (_, .changeState st) => { s with pos := k + 1, phase := .writing k st now, signal := some st, beeps := if beepFor st then s.beeps + 1 else s.beeps }
    | some _ => { s with pos := k + 1 }

/-- the end of `logger.write` and `flush`. models vacuum_test/mod.rs:113-127 -/
def St.wrote {fl : Floats} (s : St fl) (ok : Bool) : St fl :=
  match s.phase with
  | .idle => s
  | .writing k st t => if ok then { s with phase := .idle, log := s.log ++ [(k, st, t)] } else { s with panicked := true }

/-- one step; nothing happens after a panic. models vacuum_test/mod.rs:87-134 -/
def St.step {fl : Floats} (s : St fl) (o : Op fl) : St fl :=
  if s.panicked then s
  else match o with
    | .reading r => s.reading r
    | .readError => { s with panicked := true }
    | .poll now => s.poll now
    | .wrote ok => s.wrote ok

/-- a history -/
def St.run {fl : Floats} (s : St fl) (ops : List (Op fl)) : St fl := ops.foldl St.step s

end Verif.Vac
