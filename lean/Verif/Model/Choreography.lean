import Verif.Model.Calibrator
import Verif.Model.Keyframe
/-
The movements of the simulated device during a calibration (launch-simulator/src/calibration_system.rs). All orientations there are products
of quarter turns about coordinate axes; they are written as matrices of integers in place of quaternions (a quaternion and its negative are
the same orientation; nalgebra's `slerp` takes the shorter way and panics when two key frames are half a turn apart). Lengths are in
millimetres. The joint between the holder and the device and the physics of the simulation are not modelled: the device follows the holder.
-/
namespace Verif.Choreo

open Verif.Cal

/-- a vector; `y` is up (gravity is along -y: virt_drivers/sensors.rs:60-64) -/
structure V where
  x : Int
  y : Int
  z : Int
deriving DecidableEq

/-- an orientation: where the device's axes point -/
structure M where
  x : V
  y : V
  z : V
deriving DecidableEq

/-- the vector of the world for a vector of the device -/
def M.apply (m : M) (v : V) : V :=
  ⟨m.x.x * v.x + m.y.x * v.y + m.z.x * v.z, m.x.y * v.x + m.y.y * v.y + m.z.y * v.z, m.x.z * v.x + m.y.z * v.y + m.z.z * v.z⟩

/-- product: first `n`, then `m` -/
def M.mul (m n : M) : M := ⟨m.apply n.x, m.apply n.y, m.apply n.z⟩

/-- cosine and sine of `k` quarter turns -/
def cosSin (k : Int) : Int × Int := if k % 4 = 0 then (1, 0) else if k % 4 = 1 then (0, 1) else if k % 4 = 2 then (-1, 0) else (0, -1)

/-- `UnitQuaternion::from_axis_angle(&Vector3::x_axis(), k * PI / 2.0)`. models calibration_system.rs:249 and others -/
def rx (k : Int) : M := ⟨⟨1, 0, 0⟩, ⟨0, (cosSin k).1, (cosSin k).2⟩, ⟨0, -(cosSin k).2, (cosSin k).1⟩⟩

/-- the same about y. models calibration_system.rs:404 and others -/
def ry (k : Int) : M := ⟨⟨(cosSin k).1, 0, -(cosSin k).2⟩, ⟨0, 1, 0⟩, ⟨(cosSin k).2, 0, (cosSin k).1⟩⟩

/-- the same about z. models calibration_system.rs:48 and others -/
def rz (k : Int) : M := ⟨⟨(cosSin k).1, (cosSin k).2, 0⟩, ⟨-(cosSin k).2, (cosSin k).1, 0⟩, ⟨0, 0, 1⟩⟩

/-- `Translation3DKeyFrame`. models keyframe.rs:14-17 -/
structure Pose where
  turn : M
  place : V
deriving DecidableEq

/-- the place above the table where the device is turned. models calibration_system.rs:42 and others -/
def above : V := ⟨0, 100, 0⟩

/-- the extents of the device. models launch-simulator/src/main.rs:49-51 -/
def extent : Axis → Int
  | .x => 40
  | .y => 20
  | .z => 50

/-- `Vector3::new(0.0, AVIONICS_.._LEN / 2.0, 0.0)`. models calibration_system.rs:55 and others -/
def onTable (a : Axis) : V := ⟨0, extent a / 2, 0⟩

/-- from `here` up, through the orientations, and down. models calibration_system.rs:31-56 and the others like it -/
def lift (here : V) (first : M) (more : List M) (a : Axis) : List Pose :=
  [⟨first, here⟩, ⟨first, above⟩] ++ more.map (fun m => ⟨m, above⟩) ++ [⟨more.getLast?.getD first, onTable a⟩]

/-- a full turn about the vertical. models calibration_system.rs:401-441 and the others like it -/
def spin (here : V) (off : M) : List Pose := [0, -1, -2, -3, 0].map fun k => ⟨(ry k).mul off, here⟩

/-- the offsets of the later movements. models calibration_system.rs:346-347, 398-401, 515-518, 634-638 -/
def offZ : M := rz 2
def offX1 : M := (rx 1).mul (rz 2)
def offX : M := ((rz (-1)).mul (rx 1)).mul (rz 2)
def offY : M := (((rx 1).mul (rz (-1))).mul (rx 1)).mul (rz 2)
def offEnd : M := ((((rz (-1)).mul (rx 1)).mul (rz (-1))).mul (rx 1)).mul (rz 2)

/-- the key frames that a state of the calibrator starts; the device is at `here`. models calibration_system.rs:24-66, 68-120, 122-167, 169-221, 223-273,
275-333, 335-386, 388-448, 450-503, 505-565, 567-620, 622-684, 686-730 -/
def frames (here : V) : State → Option (List Pose)
  | .waitingStill => some (lift here (rz 0) [rz 1] .x)
  | .at .x .plus .finish => some (lift here (rz 1) [rz 0, rz (-1)] .x)
  | .at .x .minus .finish => some (lift here (rz (-1)) [rz 0] .y)
  | .at .y .plus .finish => some (lift here (rz 0) [rz 1, rz 2] .y)
  | .at .y .minus .finish => some (lift here ((rx 0).mul offZ) [(rx (-1)).mul offZ] .z)
  | .at .z .plus .finish => some (lift here ((rx (-1)).mul offZ) [(rx 0).mul offZ, (rx 1).mul offZ] .z)
  | .at .z .minus .finish => some (lift here ((rz 0).mul offX1) [(rz (-1)).mul offX1] .x)
  | .at .x .rotation .start => some (spin here offX)
  | .at .x .rotation .finish => some (lift here ((rx 0).mul offX) [(rx 1).mul offX] .y)
  | .at .y .rotation .start => some (spin here offY)
  | .at .y .rotation .finish => some (lift here ((rz 0).mul offY) [(rz (-1)).mul offY] .z)
  | .at .z .rotation .start => some (spin here offEnd)
  | .success | .failure => some (lift here offEnd [rz 0] .y)
  | _ => none

/-- the animation: every step takes a second, the last key frame is given to `finish`. models calibration_system.rs:31-58 and the others like it -/
def animation (l : List Pose) : Keyframe.Animation Pose Rat := ⟨List.replicate (l.length - 1) 1, l⟩

end Verif.Choreo
