import Verif.Model.MovingAverage
import Mathlib.Analysis.Real.Sqrt
import Mathlib.LinearAlgebra.Matrix.NonsingularInverse
/-
The IMU calibration of crate `ferraris-calibration`: the accumulators and `calculate` (calibrator_inner.rs), the calibration parameters and their application (calibration_info.rs), and the interactive calibrator (interactive_calibrator.rs).

Simplifications: f32 and f64 numbers are real numbers (no rounding, no NaN or infinity; a division by zero gives 0 where the code gives NaN or an infinity), the counters are unbounded, nalgebra's 3×3 matrices and `try_inverse` (none exactly for a zero determinant) are taken from its documentation.  The code has one set of fields and functions per position (`acc_x_p_sum`, `process_x_p`, …) that differ in the names only; the model indexes them by axis and sign.
-/
namespace Verif.Cal

/-- the axes. models ferraris-calibration/src/interactive_calibrator.rs:17-22 -/
inductive Axis
  | x | y | z
deriving DecidableEq

instance : Fintype Axis := ⟨{.x, .y, .z}, by intro a; cases a <;> decide⟩

/-- up or down. The `_p` and `_n` of the field names. models ferraris-calibration/src/calibrator_inner.rs:10-15 -/
inductive Sign
  | plus | minus
deriving DecidableEq

/-- `Direction`. models ferraris-calibration/src/interactive_calibrator.rs:24-29 -/
inductive Dir
  | plus | minus | rotation
deriving DecidableEq

/-- `Event`. models ferraris-calibration/src/interactive_calibrator.rs:31-36 -/
inductive Event
  | start | variance | finish
deriving DecidableEq

/-- `InteractiveCalibratorState`. models ferraris-calibration/src/interactive_calibrator.rs:38-45 -/
inductive State
  | idle
  | waitingStill
  | at (a : Axis) (d : Dir) (e : Event)
  | success
  | failure
deriving DecidableEq

/-- `Vector3` -/
abbrev Vec := Axis → ℝ

/-- `Matrix3`: `m i j` is row `i`, column `j` -/
abbrev Mat := Matrix Axis Axis ℝ

/-- `IMUReading`; the time is in milliseconds. models ferraris-calibration/src/imu_reading.rs:9-14 -/
structure Reading where
  timestamp : ℝ
  acc : Vec
  gyro : Vec

/-- the accumulators of one static position: `x_p_count`, `acc_x_p_sum`, `gyro_x_p_sum`, `x_p_variance_count`, `acc_x_p_variance_sum`, `gyro_x_p_variance_sum`. models ferraris-calibration/src/calibrator_inner.rs:10-50 -/
structure Static where
  count : Nat
  acc : Vec
  gyro : Vec
  varCount : Nat
  accVar : Vec
  gyroVar : Vec

/-- the accumulators of one rotation. models ferraris-calibration/src/calibrator_inner.rs:52-70 -/
structure Rot where
  count : Nat
  startTime : ℝ
  endTime : ℝ
  acc : Vec
  gyro : Vec

/-- `CalibratorInner`. models ferraris-calibration/src/calibrator_inner.rs:6-71 -/
structure Inner where
  gravity : ℝ
  expectedAngle : ℝ
  stat : Axis → Sign → Static
  rot : Axis → Rot

/-- all zero. models ferraris-calibration/src/calibrator_inner.rs:79-119 -/
def Static.zero : Static := ⟨0, 0, 0, 0, 0, 0⟩

/-- all zero. models ferraris-calibration/src/calibrator_inner.rs:121-139 -/
noncomputable def Rot.zero : Rot := ⟨0, 0, 0, 0, 0⟩

/-- `CalibratorInner::new`. models ferraris-calibration/src/calibrator_inner.rs:74-141 -/
noncomputable def Inner.new (gravity expectedAngle : Option ℝ) : Inner := ⟨gravity.getD 9.81, expectedAngle.getD (-360), fun _ _ => .zero, fun _ => .zero⟩

/-- the body of `process_x_p`, `process_x_n`, …. models ferraris-calibration/src/calibrator_inner.rs:143-147, 163-167, 183-187, 203-207, 223-227, 243-247 -/
def Static.add (s : Static) (r : Reading) : Static := { s with count := s.count + 1, acc := s.acc + r.acc, gyro := s.gyro + r.gyro }

/-- the squared distance to a mean, per component. models ferraris-calibration/src/calibrator_inner.rs:152-155 -/
noncomputable def sqDiff (v sum : Vec) (count : Nat) : Vec := fun i => (v i - sum i / count) * (v i - sum i / count)

/-- the body of `process_x_p_variance`, …. models ferraris-calibration/src/calibrator_inner.rs:149-161, 169-181, 189-201, 209-221, 229-241, 249-261 -/
noncomputable def Static.addVariance (s : Static) (r : Reading) : Static :=
  { s with varCount := s.varCount + 1, accVar := s.accVar + sqDiff r.acc s.acc s.count, gyroVar := s.gyroVar + sqDiff r.gyro s.gyro s.count }

/-- the body of `process_x_rotation`, …. models ferraris-calibration/src/calibrator_inner.rs:263-291 -/
noncomputable def Rot.add (s : Rot) (r : Reading) : Rot :=
  { startTime := if s.count = 0 then r.timestamp else s.startTime, endTime := r.timestamp, count := s.count + 1, acc := s.acc + r.acc, gyro := s.gyro + r.gyro }

/-- `process_x_p` and its five siblings. models ferraris-calibration/src/calibrator_inner.rs:143-147 and siblings -/
def Inner.process (c : Inner) (a : Axis) (s : Sign) (r : Reading) : Inner := { c with stat := fun a' s' => if a' = a ∧ s' = s then (c.stat a' s').add r else c.stat a' s' }

/-- `process_x_p_variance` and its five siblings. models ferraris-calibration/src/calibrator_inner.rs:149-161 and siblings -/
noncomputable def Inner.processVariance (c : Inner) (a : Axis) (s : Sign) (r : Reading) : Inner :=
  { c with stat := fun a' s' => if a' = a ∧ s' = s then (c.stat a' s').addVariance r else c.stat a' s' }

/-- `process_x_rotation` and its two siblings. models ferraris-calibration/src/calibrator_inner.rs:263-291 -/
noncomputable def Inner.processRotation (c : Inner) (a : Axis) (r : Reading) : Inner := { c with rot := fun a' => if a' = a then (c.rot a').add r else c.rot a' }

/-- `CalibrationInfo`. models ferraris-calibration/src/calibration_info.rs:13-21 -/
structure Info where
  b_a : Vec
  K_ga : Mat
  b_g : Vec
  accMat : Mat
  gyroMat : Mat
  accVariance : Vec
  gyroVariance : Vec

open Classical in
/-- nalgebra's `try_inverse` -/
noncomputable def tryInverse (m : Mat) : Option Mat := if m.det = 0 then none else some m⁻¹

/-- `CalibrationInfo::from_raw`. models ferraris-calibration/src/calibration_info.rs:144-164 -/
noncomputable def Info.fromRaw (K_a R_a : Mat) (b_a : Vec) (K_g R_g K_ga : Mat) (b_g accVar gyroVar : Vec) : Option Info := do
  let ra ← tryInverse R_a
  let ka ← tryInverse K_a
  let rg ← tryInverse R_g
  let kg ← tryInverse K_g
  return { b_a := b_a, K_ga := K_ga, b_g := b_g, accMat := ra * ka, gyroMat := rg * kg, accVariance := accVar, gyroVariance := gyroVar }

/-- `calibrate_acc`. models ferraris-calibration/src/calibration_info.rs:167-169 -/
noncomputable def Info.calibrateAcc (i : Info) (acc : Vec) : Vec := i.accMat.mulVec (acc - i.b_a)

/-- `calibrate_gyr` with `calibrate_gyr_offsets`. models ferraris-calibration/src/calibration_info.rs:172-179 -/
noncomputable def Info.calibrateGyr (i : Info) (gyr acc : Vec) : Vec := i.gyroMat.mulVec (gyr - i.K_ga.mulVec acc - i.b_g)

/-- `apply_calibration`. models ferraris-calibration/src/calibration_info.rs:190-197 -/
noncomputable def Info.apply (i : Info) (r : Reading) : Reading := { r with acc := i.calibrateAcc r.acc, gyro := i.calibrateGyr r.gyro (i.calibrateAcc r.acc) }

/-- the mean of a static position, as a column: `acc_x_p_sum / x_p_count`. models ferraris-calibration/src/calibrator_inner.rs:299-309 -/
noncomputable def meanCol (sum : Vec) (count : Nat) : Vec := fun i => sum i / count

/-- `Matrix3::from_columns`. models ferraris-calibration/src/calibrator_inner.rs:299-309 -/
def fromColumns (c : Axis → Vec) : Mat := fun i j => c j i

/-- the lengths of the rows: `Matrix3::from_diagonal(&(m * m.transpose()).diagonal().map(sqrt))`. models ferraris-calibration/src/calibrator_inner.rs:328-330, 416-417 -/
noncomputable def rowLengths (sq : Vec) : Mat := Matrix.diagonal fun i => √(sq i)

/-- the closure `apply_calibration` inside `calculate`, gyroscope part. models ferraris-calibration/src/calibrator_inner.rs:373-377 -/
noncomputable def partialGyro (accMat K_ga : Mat) (b_a b_g : Vec) (r : Rot) : Vec :=
  let acc := accMat.mulVec (r.acc - (r.count : ℝ) • b_a)
  r.gyro - K_ga.mulVec acc - (r.count : ℝ) • b_g

/-- one column of `W_s`. models ferraris-calibration/src/calibrator_inner.rs:396-409 -/
noncomputable def integrated (gyro : Vec) (r : Rot) : Vec := fun i => gyro i / ((r.count : ℝ) / ((r.endTime - r.startTime) / 1000))

/-- the sum over the six static positions. models ferraris-calibration/src/calibrator_inner.rs:341-346, 436-441 -/
noncomputable def Inner.total (c : Inner) (f : Static → Vec) : Vec :=
  f (c.stat .x .plus) + f (c.stat .y .plus) + f (c.stat .z .plus) + f (c.stat .x .minus) + f (c.stat .y .minus) + f (c.stat .z .minus)

/-- the number of readings of the six static positions. models ferraris-calibration/src/calibrator_inner.rs:347-352, 442-447 -/
def Inner.totalCount (c : Inner) (f : Static → Nat) : Nat :=
  f (c.stat .x .plus) + f (c.stat .y .plus) + f (c.stat .z .plus) + f (c.stat .x .minus) + f (c.stat .y .minus) + f (c.stat .z .minus)

/-- `calculate`. models ferraris-calibration/src/calibrator_inner.rs:294-480 -/
noncomputable def Inner.calculate (c : Inner) : Option Info := do
  let U_a_p := fromColumns fun a => meanCol (c.stat a .plus).acc (c.stat a .plus).count
  let U_a_n := fromColumns fun a => meanCol (c.stat a .minus).acc (c.stat a .minus).count
  let U_a_s := U_a_p + U_a_n
  let B_a : Mat := (1 / 2 : ℝ) • U_a_s
  let b_a : Vec := B_a.diag
  let U_a_d := U_a_p - U_a_n
  let k_a_sq : Vec := (1 / (4 * c.gravity * c.gravity)) • (U_a_d * U_a_d.transpose).diag
  let K_a := rowLengths k_a_sq
  let K_a_inv ← tryInverse K_a
  let R_a := K_a_inv * ((1 / (2 * c.gravity)) • U_a_d)
  let b_g : Vec := (1 / (c.totalCount Static.count : ℝ)) • c.total Static.gyro
  let U_g_p := fromColumns fun a => meanCol (c.stat a .plus).gyro (c.stat a .plus).count
  let U_g_n := fromColumns fun a => meanCol (c.stat a .minus).gyro (c.stat a .minus).count
  let K_ga := (1 / (2 * c.gravity)) • (U_g_p - U_g_n)
  let R_a_inv ← tryInverse R_a
  let K_a_inv' ← tryInverse K_a
  let accMat := R_a_inv * K_a_inv'
  let W_s := fromColumns fun a => integrated (partialGyro accMat K_ga b_a b_g (c.rot a)) (c.rot a)
  let expInv ← tryInverse (c.expectedAngle • (1 : Mat))
  let multiplied := W_s * expInv
  let K_g := rowLengths (multiplied * multiplied.transpose).diag
  let K_g_inv ← tryInverse K_g
  let R_g := K_g_inv * multiplied
  let info ← Info.fromRaw K_a R_a b_a K_g R_g K_ga b_g 0 0
  let avg : Reading :=
    { timestamp := 0, acc := (1 / (c.totalCount Static.varCount : ℝ)) • c.total Static.accVar, gyro := (1 / (c.totalCount Static.varCount : ℝ)) • c.total Static.gyroVar }
  let avg := info.apply avg
  Info.fromRaw K_a R_a b_a K_g R_g K_ga b_g (fun i => √|avg.acc i|) (fun i => √|avg.gyro i|)

/-- arithmetic of `Vector3<f64>`, as far as `SingleSumSMA` uses it -/
noncomputable def vecOps : Fc.Ops Vec where
  add := fun u v => u + v
  sub := fun u v => u - v
  mul := fun u v => u * v
  div := fun u v => u / v
  lt := fun _ _ => false
  le := fun _ _ => false
  abs := fun u => |u|
  neg := fun u => -u
  lit := fun n _ => n

/-- `InteractiveCalibrator`; `inner` is `Either::Left` / `Either::Right`. models ferraris-calibration/src/interactive_calibrator.rs:47-54 -/
structure Calib where
  state : State
  inner : Inner ⊕ Option Info
  last : Option Reading
  thresholdSq : ℝ
  avg : Fc.SumSma Vec
  phaseStart : Option ℝ

/-- `new`. models ferraris-calibration/src/interactive_calibrator.rs:83-97 -/
noncomputable def Calib.new (threshold gravity expectedAngle : Option ℝ) : Calib :=
  ⟨.idle, .inl (.new gravity expectedAngle), none, threshold.getD 0.17 * threshold.getD 0.17, .new 50 0, none⟩

/-- `norm_squared` -/
noncomputable def normSq (v : Vec) : ℝ := v .x * v .x + v .y * v .y + v .z * v .z

open Classical in
/-- `wait_still`: whether the device was still long enough. models ferraris-calibration/src/interactive_calibrator.rs:103-132 -/
noncomputable def Calib.waitStill (c : Calib) (r : Reading) : Calib × Bool :=
  match c.last with
  | some l =>
    let dt := r.timestamp - l.timestamp
    if 100 < dt then
      let a : Vec := fun i => (r.gyro i - l.gyro i) / (dt / 1000)
      let avg := c.avg.add vecOps a
      if avg.isFull ∧ normSq (avg.average vecOps) < c.thresholdSq then ({ c with last := some r, avg := avg.clear }, true)
      else ({ c with last := some r, avg := avg }, false)
    else (c, false)
  | none => ({ c with last := some r }, false)

/-- `if self.wait_still(reading) { new_state = Some(next) }`. models ferraris-calibration/src/interactive_calibrator.rs:143-147 -/
noncomputable def Calib.stillThen (c : Calib) (r : Reading) (next : State) : Calib × Option State :=
  if (c.waitStill r).2 then ((c.waitStill r).1, some next) else ((c.waitStill r).1, none)

open Classical in
/-- the macro `arm_process`: `upd` is the `process_` function, `count` its counter. models ferraris-calibration/src/interactive_calibrator.rs:64-81 -/
noncomputable def Calib.sample (c : Calib) (i : Inner) (r : Reading) (upd : Inner → Inner) (count : Inner → Nat) (next : State) : Calib × Option State :=
  let start := c.phaseStart.getD r.timestamp
  let i := upd i
  if 300 < count i ∧ 3000 < r.timestamp - start then ({ c with inner := .inl i, phaseStart := none }, some next)
  else ({ c with inner := .inl i, phaseStart := some start }, none)

/-- `arm_process!(self, x_p, …)` and its siblings -/
noncomputable def Calib.mean (c : Calib) (i : Inner) (a : Axis) (s : Sign) (r : Reading) (next : State) : Calib × Option State :=
  c.sample i r (fun i => i.process a s r) (fun i => (i.stat a s).count) next

/-- `arm_process!(self, x_p_variance, …)` and its siblings -/
noncomputable def Calib.vari (c : Calib) (i : Inner) (a : Axis) (s : Sign) (r : Reading) (next : State) : Calib × Option State :=
  c.sample i r (fun i => i.processVariance a s r) (fun i => (i.stat a s).varCount) next

/-- a rotation: the reading is accumulated, then the end is waited for. models ferraris-calibration/src/interactive_calibrator.rs:274-279 -/
noncomputable def Calib.turn (c : Calib) (i : Inner) (a : Axis) (r : Reading) (next : State) : Calib × Option State :=
  ({ c with inner := .inl (i.processRotation a r) } : Calib).stillThen r next

/-- the last rotation: the parameters are calculated. models ferraris-calibration/src/interactive_calibrator.rs:296-308 -/
noncomputable def Calib.lastTurn (c : Calib) (i : Inner) (a : Axis) (r : Reading) : Calib × Option State :=
  let i := i.processRotation a r
  let c := ({ c with inner := .inl i } : Calib).waitStill r
  if c.2 then ({ c.1 with inner := .inr i.calculate }, some (if i.calculate.isSome then .success else .failure)) else (c.1, none)

/-- the `match` of `process`; `none`: panic. models ferraris-calibration/src/interactive_calibrator.rs:138-310 -/
noncomputable def Calib.arm (c : Calib) (i : Inner) (r : Reading) : Option (Calib × Option State) :=
  match c.state with
  | .idle => some ({ c with last := some r }, some .waitingStill)
  | .waitingStill => some (c.stillThen r (.at .x .plus .start))
  | .at .x .plus .start => some (c.mean i .x .plus r (.at .x .plus .variance))
  | .at .x .plus .variance => some (c.vari i .x .plus r (.at .x .plus .finish))
  | .at .x .plus .finish => some (c.stillThen r (.at .x .minus .start))
  | .at .x .minus .start => some (c.mean i .x .minus r (.at .x .minus .variance))
  | .at .x .minus .variance => some (c.vari i .x .minus r (.at .x .minus .finish))
  | .at .x .minus .finish => some (c.stillThen r (.at .y .plus .start))
  | .at .y .plus .start => some (c.mean i .y .plus r (.at .y .plus .variance))
  | .at .y .plus .variance => some (c.vari i .y .plus r (.at .y .plus .finish))
  | .at .y .plus .finish => some (c.stillThen r (.at .y .minus .start))
  | .at .y .minus .start => some (c.mean i .y .minus r (.at .y .minus .variance))
  | .at .y .minus .variance => some (c.vari i .y .minus r (.at .y .minus .finish))
  | .at .y .minus .finish => some (c.stillThen r (.at .z .plus .start))
  | .at .z .plus .start => some (c.mean i .z .plus r (.at .z .plus .variance))
  | .at .z .plus .variance => some (c.vari i .z .plus r (.at .z .plus .finish))
  | .at .z .plus .finish => some (c.stillThen r (.at .z .minus .start))
  | .at .z .minus .start => some (c.mean i .z .minus r (.at .z .minus .variance))
  | .at .z .minus .variance => some (c.vari i .z .minus r (.at .z .minus .finish))
  | .at .z .minus .finish => some (c.stillThen r (.at .x .rotation .start))
  | .at .x .rotation .start => some (c.turn i .x r (.at .x .rotation .finish))
  | .at .x .rotation .finish => some (c.stillThen r (.at .y .rotation .start))
  | .at .y .rotation .start => some (c.turn i .y r (.at .y .rotation .finish))
  | .at .y .rotation .finish => some (c.stillThen r (.at .z .rotation .start))
  | .at .z .rotation .start => some (c.lastTurn i .z r)
  | _ => none

/-- `process`: the new calibrator and the announced state; `none`: panic. models ferraris-calibration/src/interactive_calibrator.rs:135-316 -/
noncomputable def Calib.process (c : Calib) (r : Reading) : Option (Calib × Option State) :=
  match c.inner with
  | .inr _ => none
  | .inl i => (c.arm i r).map fun p => match p.2 with | some s => ({ p.1 with state := s }, some s) | none => (p.1, none)

/-- `get_calibration_info`. models ferraris-calibration/src/interactive_calibrator.rs:318-320 -/
def Calib.info (c : Calib) : Option Info := match c.inner with | .inr i => i | .inl _ => none

/-- what is seen of a run: the readings with the state (`get_state`) they were given in, and the announced states -/
structure Seen where
  trace : List (State × Reading)
  announced : List State

/-- one call of `process` as seen from outside -/
noncomputable def feed (s : Option (Calib × Seen)) (r : Reading) : Option (Calib × Seen) :=
  s.bind fun (c, h) => (c.process r).map fun (c', a) => (c', ⟨h.trace ++ [(c.state, r)], h.announced ++ a.toList⟩)

/-- a stream of readings given to a new calibrator; `none`: panic -/
noncomputable def feeds (threshold gravity expectedAngle : Option ℝ) (rs : List Reading) : Option (Calib × Seen) :=
  rs.foldl feed (some (.new threshold gravity expectedAngle, ⟨[], []⟩))

/-- the readings given to a `Calibrator` in each of its type states: the static positions, their variance states, the rotations -/
structure Session where
  still : Axis → Sign → List Reading
  variance : Axis → Sign → List Reading
  turning : Axis → List Reading

/-- `process` in the states `XPlus`, `YPlus`, …. models ferraris-calibration/src/calibrator.rs:20-37 -/
def Inner.feedStill (i : Inner) (a : Axis) (s : Sign) (rs : List Reading) : Inner := rs.foldl (fun i r => i.process a s r) i

/-- `process` in the states `XPlusVariance`, …. models ferraris-calibration/src/calibrator.rs:20-37 -/
noncomputable def Inner.feedVariance (i : Inner) (a : Axis) (s : Sign) (rs : List Reading) : Inner := rs.foldl (fun i r => i.processVariance a s r) i

/-- `process` in the states `XRotation`, …. models ferraris-calibration/src/calibrator.rs:55-84 -/
noncomputable def Inner.feedTurning (i : Inner) (a : Axis) (rs : List Reading) : Inner := rs.foldl (fun i r => i.processRotation a r) i

/-- one static position and its variance state. models ferraris-calibration/src/calibrator.rs:38-49 -/
noncomputable def Inner.position (i : Inner) (x : Session) (a : Axis) (s : Sign) : Inner := (i.feedStill a s (x.still a s)).feedVariance a s (x.variance a s)

/-- `new_calibrator`, the type states in their order. models ferraris-calibration/src/calibrator.rs:12-17, 38-84 -/
noncomputable def Session.inner (x : Session) (gravity expectedAngle : Option ℝ) : Inner :=
  let i := Inner.new gravity expectedAngle
  let i := i.position x .x .plus
  let i := i.position x .x .minus
  let i := i.position x .y .plus
  let i := i.position x .y .minus
  let i := i.position x .z .plus
  let i := i.position x .z .minus
  let i := i.feedTurning .x (x.turning .x)
  let i := i.feedTurning .y (x.turning .y)
  i.feedTurning .z (x.turning .z)

/-- `calculate` of the last type state. models ferraris-calibration/src/calibrator.rs:86-88 -/
noncomputable def Session.calibrate (x : Session) (gravity expectedAngle : Option ℝ) : Option Info := (x.inner gravity expectedAngle).calculate

end Verif.Cal
