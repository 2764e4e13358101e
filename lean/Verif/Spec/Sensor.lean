import Verif.Spec.Calibration
/-
An inertial sensor with constant errors, and a calibration session carried out as documented.
-/
namespace Verif.Cal

/-- an accelerometer with scale, misalignment `accel` and offset, a gyroscope with scale, misalignment `rates`, influence of acceleration and offset -/
structure Sensor where
  accel : Mat
  accOffset : Vec
  rates : Mat
  influence : Mat
  gyroOffset : Vec

/-- the reading of the sensor at time `t` when the acceleration is `a` and the angular rate `w` -/
noncomputable def Sensor.measure (n : Sensor) (t : ℝ) (a w : Vec) : Reading := ⟨t, n.accel.mulVec a + n.accOffset, n.rates.mulVec w + n.influence.mulVec a + n.gyroOffset⟩

/-- what happens to the sensor at one time -/
structure Motion where
  time : ℝ
  acc : Vec
  rate : Vec

noncomputable def Sensor.see (n : Sensor) (m : Motion) : Reading := n.measure m.time m.acc m.rate

/-- along an axis -/
def along (a : Axis) (v : ℝ) : Vec := fun i => if i = a then v else 0

/-- the value of a sign -/
def Sign.value : Sign → ℝ
  | .plus => 1
  | .minus => -1

/-- the mean angular rate of a list of motions times its duration: the angle turned, as the calibration integrates it -/
noncomputable def turned (l : List Motion) : Vec :=
  (((((l.getLast?.map Motion.time).getD 0) - ((l.head?.map Motion.time).getD 0)) / 1000) / (l.length : ℝ)) • (l.map Motion.rate).sum

/-- a session with sensor `n`: in each static position the sensor is at rest with gravity along the axis, in each rotation it is turned by the expected angle about the axis -/
structure Documented (n : Sensor) (g ea : ℝ) (x : Session) : Prop where
  still : ∀ a s, x.still a s ≠ [] ∧ ∀ r ∈ x.still a s, ∃ t, r = n.measure t (along a (s.value * g)) 0
  turning : ∀ a, ∃ l : List Motion, x.turning a = l.map n.see ∧ turned l = along a ea

end Verif.Cal
