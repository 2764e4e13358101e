import Mathlib.Analysis.SpecialFunctions.Pow.Real
import Mathlib.Analysis.Real.Pi.Bounds
import Mathlib.LinearAlgebra.Pi
/-
The sensors of the launch simulator (launch-simulator/src/virt_drivers/sensors.rs). Real numbers in place of f32 and f64; an orientation is an invertible linear map from the rocket's axes to the world's,
as a unit quaternion acts on vectors; y is up. The random noise is given from outside. Two updates at the same reading of the clock divide by zero: the code then gets an infinite or undefined acceleration, the
model zero; the theorems ask for increasing times.
-/
namespace Verif.SimSensors

/-- a vector -/
abbrev V := Fin 3 → ℝ

/-- an orientation: from the rocket's axes to the world's -/
abbrev Orientation := V ≃ₗ[ℝ] V

/-- what the sender remembers: time in ms, linear velocity, and the readings published last, if there are any (`ready`). models sensors.rs:17-24 -/
structure Reading where
  time : ℝ
  acc : V
  gyro : V
  pressure : ℝ
  temperature : ℝ

/-- models sensors.rs:17-36, 109-122 (`create_sensors`; the default snapshot before the first reading is `none`) -/
structure Sender where
  last : Option (ℝ × V)
  snapshot : Option Reading

/-- models sensors.rs:27-36 -/
def Sender.new : Sender := ⟨none, none⟩

/-- what `update_state` is called with: the clock, the body's velocities (linear, and angular in rad/s), its orientation and height, and the noise drawn -/
structure Update where
  time : ℝ
  linvel : V
  angvel : V
  orientation : Orientation
  height : ℝ
  accNoise : V
  gyroNoise : V

/-- `baro_imposter`. models sensors.rs:183-187 -/
noncomputable def baroImposter (altitude temperature : ℝ) : ℝ := 101325 * (1 - 0.0065 * altitude / (temperature + 273.15)) ^ (5.255 : ℝ)

/-- the acceleration in the world's axes, with what holds the rocket against gravity. models sensors.rs:51-68 -/
noncomputable def worldAcc (t0 : ℝ) (v0 : V) (u : Update) : V := (1 / ((u.time - t0) / 1000)) • (u.linvel - v0) + u.accNoise + ![0, 9.81, 0]

/-- the angular velocity in degrees per second. models sensors.rs:70-74 -/
noncomputable def worldGyro (u : Update) : V := (1 / Real.pi * 180) • u.angvel + u.gyroNoise

/-- `update_state`: the first call only remembers. models sensors.rs:43-103 -/
noncomputable def Sender.update (s : Sender) (u : Update) : Sender :=
  match s.last with
  | none => { s with last := some (u.time, u.linvel) }
  | some (t0, v0) =>
    ⟨some (u.time, u.linvel), some ⟨u.time, u.orientation.symm (worldAcc t0 v0 u), u.orientation.symm (worldGyro u), baroImposter u.height 50, 50⟩⟩

/-- `is_ready`. models sensors.rs:105-107 -/
def Sender.isReady (s : Sender) : Bool := s.snapshot.isSome

/-- the readings published by a sequence of updates; `read` of the IMU and of the barometer give the newest. models sensors.rs:94-99, 124-162 -/
noncomputable def published (s : Sender) : List Update → List Reading
  | [] => []
  | u :: us => match (s.update u).snapshot with
    | none => published (s.update u) us
    | some r => r :: published (s.update u) us

/-- a sequence of updates. models sensors.rs:43-103 -/
noncomputable def Sender.run (s : Sender) (us : List Update) : Sender := us.foldl Sender.update s

end Verif.SimSensors
