import Verif.Model.Keyframe
import Mathlib.Algebra.Order.Field.Rat
/-
The launch of the simulated rocket: the mount it stands in and its motor (launch-simulator/src/launch.rs, motor.rs). Numbers are exact in place of f32; a rotation of the motor tube is any value. A
click is handled at once by all systems that listen to it; the rocket has been set up. The movements of the mount are not modelled (they are animations, C125). The physics engine keeps the
`ExternalForce` of a body until it is replaced.
-/
namespace Verif.SimLaunch
open Verif Verif.Keyframe

/-- the thrust over time. models launch-simulator/src/motor.rs:20-25 -/
def curve : Animation ℚ ℚ :=
  ((((new.addAbsolute 0 (2 / 10)).addAbsolute 2250 (13 / 10)).addAbsolute 2600 (29 / 10)).addAbsolute 2200 (35 / 10)).finish 0

/-- the launch mounts the body tube is fixed to, the motor's player, and the force on the motor tube: along its axis, as it was turned then. models launch.rs:42-49, motor.rs:27-28, 44-49 -/
structure Sim (R : Type) where
  mounts : Nat
  player : Option (Player ℚ ℚ)
  force : Option (R × ℚ)

/-- the rocket, not in a mount yet. models launch-simulator/src/ground_test.rs:95-96 (no joint to a mount, no player, no force) -/
def Sim.new (R : Type) : Sim R := ⟨0, none, none⟩

/-- a frame of the simulation with the time since the last one and the rotation of the motor tube, or a click. models launch-simulator/src/main.rs:238-254 -/
inductive Ev (R : Type)
  | frame (delta : ℚ) (rotation : R)
  | setup
  | angle
  | ignition

/-- `motor_system`. models motor.rs:32-54 -/
def Sim.frame {R : Type} (s : Sim R) (delta : ℚ) (rotation : R) : Sim R :=
  match s.player with
  | none => s
  | some p =>
    match p.update lerpNum delta with
    | (p, .frame thrust) => { s with player := some p, force := some (rotation, thrust * (11 / 10)) }
    | _ => { s with player := none }

/-- one event; `none`: `unwrap` panics, as there is no mount. models launch.rs:17-58 (`setup`), 62-81 (`angle`), 91-96 with motor.rs:17-29 (`ignition`) -/
def Sim.step {R : Type} (s : Sim R) : Ev R → Option (Sim R)
  | .frame d r => some (s.frame d r)
  | .setup => some { s with mounts := s.mounts + 1 }
  | .angle => if s.mounts = 0 then none else some s
  | .ignition => if s.mounts = 0 then none else some { s with mounts := s.mounts - 1, player := some (Player.new curve) }

/-- a sequence of events. models launch-simulator/src/main.rs:60-107 (the systems of the simulation) -/
def Sim.run {R : Type} (s : Sim R) : List (Ev R) → Option (Sim R)
  | [] => some s
  | e :: es =>
    match s.step e with
    | none => none
    | some s => s.run es

end Verif.SimLaunch
