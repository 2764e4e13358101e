import Verif.Basic
import Mathlib.Algebra.Order.Ring.Rat
/-
The tasks of the strain gauge board (firmware-common/src/strain_gauges/high_prio.rs, mid_prio.rs, global_states.rs): its lamp, what it knows about its errors, and the time syncs that go to the
battery log. `U` is a time sync. What is done with the samples, the CAN messages and the readings' own time syncs is in Model/StrainGauge.lean and Model/Can.lean. The battery log's own writing is
the buffered logger of Model/BufferedLogger.lean.
-/
namespace Verif.SgBoard

/-- `SGLEDState`. models firmware-common/src/strain_gauges/global_states.rs:36-41 -/
structure Errors where
  canBus : Bool
  sgAdc : Bool
  usb : Bool
  recording : Bool
  deriving DecidableEq

/-- the states the tasks share; `lastBattery`: the variable of the battery time task, `battery`: the time syncs given to the battery log, `health`: the messages sent (`true`: healthy).
models mid_prio.rs:65-68, 344 -/
structure Board (U : Type) where
  errors : Errors
  unix : Option (U × Bool)
  lastBattery : Option U
  battery : List U
  health : List Bool

/-- at start. models global_states.rs:24-31, mid_prio.rs:65-68, 344 -/
def Board.new (U : Type) : Board U := ⟨⟨false, false, false, false⟩, none, none, [], []⟩

/-- what the tasks do at one time: the high priority task has read the ADC (`adc`); the storing task starts with USB connected, or starts to record (`usbAtBoot`, `startRecording`), takes a time sync for the
readings (`sgReading`), and looks for one for the battery log every five minutes (`batteryTick`); the receiving task gets a message, which is a time sync or not, or an error (`canMessage`, `canError`); the
sending task sends (`health`) -/
inductive Ev (U : Type)
  | adc (ok : Bool)
  | usbAtBoot
  | startRecording
  | sgReading (newFile : Bool)
  | batteryTick
  | canMessage (sync : Option U)
  | canError
  | health

/-- one event. models high_prio.rs:12-22 (`adc`), mid_prio.rs:231-235 (`usbAtBoot`), 281-286 (`startRecording`), 294-304 (`sgReading`), 347-360 (`batteryTick`), 121-125 and 144-160 (`canMessage`), 172-177 (`canError`),
185-194 (`health`) -/
def Board.step {U : Type} [DecidableEq U] (b : Board U) : Ev U → Board U
  | .adc ok => { b with errors := { b.errors with sgAdc := !ok } }
  | .usbAtBoot => { b with errors := { b.errors with usb := true } }
  | .startRecording => { b with errors := { b.errors with recording := true } }
  | .sgReading newFile =>
    match b.unix with
    | some (u, updated) => if newFile || updated then { b with unix := some (u, false) } else b
    | none => b
  | .batteryTick =>
    match b.unix with
    | some (u, _) =>
      match b.lastBattery with
      | some l => if u ≠ l then { b with battery := b.battery ++ [u], lastBattery := some u } else b
      | none => { b with battery := b.battery ++ [u], lastBattery := some u }
    | none => b
  | .canMessage sync =>
    match sync with
    | some u => { b with errors := { b.errors with canBus := false }, unix := some (u, true) }
    | none => { b with errors := { b.errors with canBus := false } }
  | .canError => { b with errors := { b.errors with canBus := true } }
  | .health => { b with health := b.health ++ [!(b.errors.canBus || b.errors.sgAdc)] }

/-- a sequence of events -/
def Board.run {U : Type} [DecidableEq U] (b : Board U) (evs : List (Ev U)) : Board U := evs.foldl Board.step b

/-- the tasks that are started: not the two of the CAN bus, which are commented out. models mid_prio.rs:377-383 -/
def started {U : Type} : Ev U → Bool
  | .canMessage _ | .canError | .health => false
  | _ => true

/-- one cycle of the lamp: how long it is on and off, in turn, in ms. models mid_prio.rs:199-228 -/
def blink (e : Errors) : List Nat :=
  if e.usb then [50, 100, 50, 800]
  else if e.canBus || e.sgAdc then [100, 100]
  else if e.recording then [500, 500]
  else [50, 950]

/-- the times at which the cycles start, if `states t` is the state at time `t`; a cycle lasts `late` longer than its delays. models mid_prio.rs:199-228 -/
def cycleStart (states : ℚ → Errors) (late : Nat → ℚ) : Nat → ℚ
  | 0 => 0
  | k + 1 => cycleStart states late k + (blink (states (cycleStart states late k))).sum + late k

end Verif.SgBoard
