import Mathlib.Algebra.Module.Pi
import Mathlib.Algebra.Field.Rat
/-
The pyros of the launch simulator and the chutes they eject (launch-simulator/src/virt_drivers/pyro.rs, rocket.rs). Exact numbers in place of f32. A component of a body that is inserted anew replaces the old one
(bevy); the physics engine takes the impulses once per frame, after the systems. The systems of a frame run in either order. A signal that comes while the pyros are looked at counts as before or after the frame.
There is one rocket, or none.
-/
namespace Verif.SimChutes

/-- a vector -/
abbrev V := Fin 3 → ℚ

/-- `RocketEvent`. models launch-simulator/src/main.rs:337-341 -/
inductive Chute
  | main
  | drogue
deriving DecidableEq, Repr

/-- how a part hangs on the body tube: fixed, or by a rope of a length. models ground_test.rs:44-50, 80-86 and rocket.rs:36-39, 67-70 -/
inductive Joint
  | fixed
  | rope (length : ℚ)
deriving DecidableEq, Repr

/-- what is set on a part: its joint, its linear damping, and the impulse that waits for the physics engine -/
structure Part where
  joint : Joint
  damping : ℚ
  impulse : Option V

/-- the signals not yet read (of pyro channel 1 and of the others), the events not yet handled, the parts, the impulse the body tube waits for, the impulses given so far, and what was handled.
models pyro.rs:5-31 (`rx`), main.rs:87 (`RocketEvent`), rocket.rs:23-97 -/
structure Sim where
  signals : Chute → Nat
  pending : List Chute
  rocket : Bool
  nose : Part
  motor : Part
  body : Option V
  given : V × V × V
  handled : List Chute

/-- before the start. models ground_test.rs:40-96 (dampings 0.00 and 0.02), main.rs:160-195 (no rocket yet) -/
def Sim.new : Sim := ⟨fun _ => 0, [], false, ⟨.fixed, 0, none⟩, ⟨.fixed, 2 / 100, none⟩, none, (0, 0, 0), []⟩

/-- the chute that a pyro channel ejects. models rocket.rs:12-16 -/
def chuteOf (channel : Nat) : Chute := if channel = 1 then .main else .drogue

/-- the firmware switches a pyro (channel 1 or 2), a click, or a frame: whether the pyros are looked at before the chutes, and the axes of nose cone and motor tube in the world.
models pyro.rs:12-17, main.rs:166-195, 230-235 -/
inductive Ev
  | enable (channel : Nat) (on : Bool)
  | button (c : Chute)
  | setup
  | frame (receiveFirst : Bool) (noseAxis motorAxis : V)

/-- `rocket_pyro_receiver_system`: one signal of each channel. models rocket.rs:6-19, pyro.rs:26-30 -/
def Sim.receive (s : Sim) : Sim :=
  { s with
    signals := fun c => s.signals c - 1
    pending := s.pending ++ (if 0 < s.signals .main then [.main] else []) ++ (if 0 < s.signals .drogue then [.drogue] else []) }

/-- one event of the chute system. models rocket.rs:33-95 -/
def Sim.eject (noseAxis motorAxis : V) (s : Sim) : Chute → Sim
  | .main =>
    { s with nose := ⟨.rope 3, 3, some ((15 : ℚ) • noseAxis)⟩, body := some (-((15 : ℚ) • noseAxis)), handled := s.handled ++ [.main] }
  | .drogue =>
    { s with motor := ⟨.rope 3, 3 / 10, some (-((35 : ℚ) • motorAxis))⟩, body := some ((35 : ℚ) • motorAxis), handled := s.handled ++ [.drogue] }

/-- `rocket_chute_system`: all events not yet handled; `none`: `unwrap` panics, as there is no rocket. models rocket.rs:21-97 -/
def Sim.chutes (s : Sim) (noseAxis motorAxis : V) : Option Sim :=
  if s.pending ≠ [] ∧ s.rocket = false then none
  else some (s.pending.foldl (Sim.eject noseAxis motorAxis) { s with pending := [] })

/-- the physics engine takes the impulses. models main.rs:79 (`RapierPhysicsPlugin`) with rocket.rs:45-48, 56-59, 73-76, 84-87 -/
def Sim.physics (s : Sim) : Sim :=
  { s with
    nose := { s.nose with impulse := none }
    motor := { s.motor with impulse := none }
    body := none
    given := (s.given.1 + s.nose.impulse.getD 0, s.given.2.1 + s.body.getD 0, s.given.2.2 + s.motor.impulse.getD 0) }

/-- one event. models pyro.rs:12-17, ground_test.rs:22-96 (`setup`), main.rs:98-104, 230-235 -/
def Sim.step (s : Sim) : Ev → Option Sim
  | .enable channel on => some (if on then { s with signals := fun d => if d = chuteOf channel then s.signals d + 1 else s.signals d } else s)
  | .button c => some { s with pending := s.pending ++ [c] }
  | .setup => some { s with rocket := true }
  | .frame true n m => (s.receive.chutes n m).map Sim.physics
  | .frame false n m => (s.chutes n m).map fun s => s.receive.physics

/-- a sequence of events. models main.rs:60-110 -/
def Sim.run (s : Sim) : List Ev → Option Sim
  | [] => some s
  | e :: es => (s.step e).bind fun s => s.run es

end Verif.SimChutes
