/-
The virtual sensors, switches and outputs of the Simulink bridge (vl-simulink-bridge/src/virtual_sensors.rs), which stand between the simulation and the firmware. `Signal` of embassy-sync is a place for one value:
`signal` overwrites it, `try_take` and `wait` empty it. The sensors are all the same but for the type of the reading. Each operation is atomic (critical section).
-/
namespace Verif.Virt

/-- what can happen to a virtual sensor -/
inductive SensorOp (α : Type)
  /-- the simulation calls `set_reading` -/
  | put (r : α)
  /-- the firmware calls `read` (`next_location` of the GPS) -/
  | read

/-- `set_reading`. models virtual_sensors.rs:29-31, 57-59, 85-87, 113-115 -/
def sensorPut {α : Type} (_slot : Option α) (r : α) : Option α := some r

/-- `read`: the reading, and what is left; no reading is the panic of `expect`. models virtual_sensors.rs:41-43, 69-71, 97-99, 121-123 -/
def sensorRead {α : Type} (slot : Option α) : Option α × Option α := (slot, none)

/-- a history: results of the reads (none = panic) and what is left at the end. models virtual_sensors.rs:18-124 -/
def sensorRun {α : Type} (slot : Option α) : List (SensorOp α) → List (Option α) × Option α
  | [] => ([], slot)
  | .put r :: os => sensorRun (sensorPut slot r) os
  | .read :: os => ((sensorRead slot).1 :: (sensorRun (sensorRead slot).2 os).1, (sensorRun (sensorRead slot).2 os).2)

/-- arming switch or continuity: state and signal. models virtual_sensors.rs:126-129, 161-164 -/
structure Switch where
  on : Bool
  signal : Option Bool
deriving DecidableEq

/-- `new`. models virtual_sensors.rs:132-137, 167-172 -/
def Switch.new : Switch := ⟨false, none⟩

/-- what can happen to a switch -/
inductive SwitchOp
  /-- the simulation calls `set_armed` or `set_continuity` -/
  | put (b : Bool)
  /-- the firmware calls `read_arming` or `read_continuity` -/
  | read
  /-- a poll of `wait_arming_change` or `wait_continuity_change` -/
  | wait
deriving DecidableEq

/-- what the firmware sees -/
inductive SwitchRes
  | read (b : Bool)
  /-- the wait goes on -/
  | pending
  /-- the wait returns -/
  | change (b : Bool)
deriving DecidableEq

/-- `set_armed`, `set_continuity`. models virtual_sensors.rs:139-146, 174-181 -/
def Switch.set (s : Switch) (b : Bool) : Switch := if s.on ≠ b then ⟨b, some b⟩ else s

/-- a poll of the wait. models virtual_sensors.rs:152-154, 187-189 -/
def Switch.wait (s : Switch) : SwitchRes × Switch :=
  match s.signal with
  | some b => (.change b, ⟨s.on, none⟩)
  | none => (.pending, s)

/-- one step: what the firmware sees, if it did something. models virtual_sensors.rs:139-159, 174-194 -/
def Switch.step (s : Switch) : SwitchOp → List SwitchRes × Switch
  | .put b => ([], s.set b)
  | .read => ([.read s.on], s)
  | .wait => ([s.wait.1], s.wait.2)

/-- a history -/
def Switch.run (s : Switch) : List SwitchOp → List SwitchRes × Switch
  | [] => ([], s)
  | o :: os => ((s.step o).1 ++ ((s.step o).2.run os).1, ((s.step o).2.run os).2)

/-- pyro channel or indicator: `set_enable` by the firmware, `enabled` by the simulation. models virtual_sensors.rs:196-241 -/
def outputRun (sets : List Bool) : Bool := sets.foldl (fun _ b => b) false

end Verif.Virt
