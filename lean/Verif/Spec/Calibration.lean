import Verif.Model.Calibrator
/-
What the calibration properties talk about: the documented order of the positions, the readings taken during a state, and when a sampling state has seen enough.
-/
namespace Verif.Cal

/-- the direction of a static position -/
def Sign.dir : Sign → Dir
  | .plus => .plus
  | .minus => .minus

/-- the states of one static position -/
def position (a : Axis) (s : Sign) : List State := [.at a s.dir .start, .at a s.dir .variance, .at a s.dir .finish]

/-- the order in which the states are announced, up to the result -/
def order : List State :=
  [.waitingStill] ++ position .x .plus ++ position .x .minus ++ position .y .plus ++ position .y .minus ++ position .z .plus ++ position .z .minus
    ++ [.at .x .rotation .start, .at .x .rotation .finish, .at .y .rotation .start, .at .y .rotation .finish, .at .z .rotation .start]

/-- the readings that were given while the state was `s` -/
def during (s : State) (tr : List (State × Reading)) : List Reading := (tr.filter (fun p => p.1 = s)).map (·.2)

/-- a state that accumulates readings at rest -/
def Sampling (q : State) : Prop := ∃ a s, q = .at a (Sign.dir s) .start ∨ q = .at a (Sign.dir s) .variance

/-- a state that ends when the device is still -/
def Resting (q : State) : Prop := q ∈ order ∧ ¬ Sampling q

/-- more than 300 readings, the last more than 3000 ms after the first -/
def Enough (l : List Reading) : Prop := ∃ f z, l.head? = some f ∧ l.getLast? = some z ∧ 300 < l.length ∧ 3000 < z.timestamp - f.timestamp

/-- the accumulators of a static position whose readings are `S` and whose readings for the variance are `V` -/
noncomputable def staticOf (S V : List Reading) : Static where
  count := S.length
  acc := (S.map Reading.acc).sum
  gyro := (S.map Reading.gyro).sum
  varCount := V.length
  accVar := (V.map fun r => sqDiff r.acc (S.map Reading.acc).sum S.length).sum
  gyroVar := (V.map fun r => sqDiff r.gyro (S.map Reading.gyro).sum S.length).sum

/-- the accumulators of a rotation whose readings are `T` -/
noncomputable def rotOf (T : List Reading) : Rot where
  count := T.length
  startTime := (T.head?.map Reading.timestamp).getD 0
  endTime := (T.getLast?.map Reading.timestamp).getD 0
  acc := (T.map Reading.acc).sum
  gyro := (T.map Reading.gyro).sum

/-- the accumulators hold exactly the readings of their states -/
structure Summary (g ea : ℝ) (i : Inner) (tr : List (State × Reading)) : Prop where
  gravity : i.gravity = g
  angle : i.expectedAngle = ea
  stat : ∀ a s, i.stat a s = staticOf (during (.at a s.dir .start) tr) (during (.at a s.dir .variance) tr)
  rot : ∀ a, i.rot a = rotOf (during (.at a .rotation .start) tr)

end Verif.Cal
