import Verif.Model.ConfigFile
/-
The file with the parameters of a calibration: firmware-common/src/common/imu_calibration_file.rs, the end of
firmware-common/src/common/console/programs/calibrate.rs, and the byte form of `CalibrationInfo`. A float is its bit pattern.
-/
namespace Verif.CalFile
open Verif Verif.Vlfs

/-- `Vector3<f32>` as bit patterns -/
abbrev Vec3 := Fin 3 → UInt32
/-- `Matrix3<f32>` as bit patterns, row and column -/
abbrev Mat3 := Fin 3 → Fin 3 → UInt32

/-- `CalibrationInfo`. models ferraris-calibration/src/calibration_info.rs:13-21 -/
@[ext] structure Params where
  b_a : Vec3
  K_ga : Mat3
  b_g : Vec3
  accMat : Mat3
  gyroMat : Mat3
  accVariance : Vec3
  gyroVariance : Vec3

/-- the bytes of a float in memory (little endian, as on the targets) -/
def le (w : UInt32) : Bytes := [UInt8.ofNat w.toNat, UInt8.ofNat (w.toNat / 256), UInt8.ofNat (w.toNat / 65536), UInt8.ofNat (w.toNat / 16777216)]

/-- the float at an offset -/
def word (b : Bytes) (o : Nat) : UInt32 :=
  UInt32.ofNat ((b.getD o 0).toNat + 256 * (b.getD (o + 1) 0).toNat + 65536 * (b.getD (o + 2) 0).toNat + 16777216 * (b.getD (o + 3) 0).toNat)

/-- the memory of a `Vector3` -/
def vecWords (v : Vec3) : List UInt32 := [v 0, v 1, v 2]
/-- the memory of a `Matrix3` (nalgebra: column by column) -/
def matWords (m : Mat3) : List UInt32 := [m 0 0, m 1 0, m 2 0, m 0 1, m 1 1, m 2 1, m 0 2, m 1 2, m 2 2]

/-- `serialize`. models calibration_info.rs:201-232 -/
def serialize (p : Params) : Bytes :=
  (vecWords p.b_a).flatMap le ++ (matWords p.K_ga).flatMap le ++ (vecWords p.b_g).flatMap le ++ (matWords p.accMat).flatMap le ++
  (matWords p.gyroMat).flatMap le ++ (vecWords p.accVariance).flatMap le ++ (vecWords p.gyroVariance).flatMap le

/-- `Vector3::from_column_slice` of the floats at an offset -/
def vecAt (b : Bytes) (o : Nat) : Vec3 := fun i => word b (o + 4 * i.val)
/-- `Matrix3::from_column_slice` of the floats at an offset -/
def matAt (b : Bytes) (o : Nat) : Mat3 := fun i j => word b (o + 4 * (3 * j.val + i.val))

/-- `deserialize`; the pointer casts are taken as reads of the floats (an unaligned buffer is undefined behaviour in Rust and not
modelled). models calibration_info.rs:236-269 -/
def deserialize (b : Bytes) : Params := ⟨vecAt b 0, matAt b 12, vecAt b 48, matAt b 60, matAt b 96, vecAt b 132, vecAt b 144⟩

/-- `CALIBRATION_FILE_TYPE`. models firmware-common/src/common/file_types.rs:6 -/
def fileType : Nat := 3

/-- what the console program does with the parameters of a successful calibration: the calls are those of `ConfigFile::write`, each
result is unwrapped (`none`: panic). models firmware-common/src/common/console/programs/calibrate.rs:146-163 -/
def save (crc : Bytes → UInt32) (fs : FS) (p : Params) (rng1 : Nat → Nat) (rng2 : Nat → Nat × Nat) : Option FS :=
  match Config.write crc fs fileType (serialize p) rng1 rng2 with
  | (.ok (), fs) => some fs
  | (.error _, _) => none

/-- `read_imu_calibration_file`. The file is opened with `unwrap`, and the slice that was read is converted to an array of 156 bytes with
`unwrap`; the status of the read (a corrupted page) is ignored. models firmware-common/src/common/imu_calibration_file.rs:6-23 -/
def read (crc : Bytes → UInt32) (fs : FS) : Except Err (Option Params) × FS :=
  match fs.findFirstFile (Config.ofTyp fileType) with
  | .ok (some e) =>
    match fs.openForRead e.id with
    | (.ok r, fs) =>
      match r.readSlice crc fs.dev.flash 156 with
      | (.ok (d, _), r) => if d.length = 156 then (.ok (some (deserialize d)), fs.closeReader r) else (.error .panic, fs)
      | (.error .panic, _) => (.error .panic, fs)
      | (.error .hang, _) => (.error .hang, fs)
      | (.error _, r) => (.ok none, fs.closeReader r)
    | (.error _, fs) => (.error .panic, fs)
  | _ => (.ok none, fs)

end Verif.CalFile
