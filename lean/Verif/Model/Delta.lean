import Verif.Model.FixedPoint
/-
Delta encoding (firmware-common/src/common/delta_logger/delta_factory.rs) and the sensor data types of firmware-common/src/driver.
Float fields are finite rationals with a rounding `rnd` after every operation (NaN and infinities are not modelled here).
-/
namespace Verif.Delta
open Verif.Fix

/-- trait `Deltable`. models delta_factory.rs:3-9 -/
structure Deltable (T D : Type) where
  addDelta : T → D → Option T
  subtract : T → T → Option D

/-- `Either<T, T::DeltaType>` -/
inductive Enc (T D : Type)
  | full (v : T)
  | delta (d : D)

/-- `DeltaFactory::push` on `last_value`; `none` = `unwrap` panics. models delta_factory.rs:20-30 -/
def push {T D : Type} (dt : Deltable T D) (last : Option T) (v : T) : Option (Option T × Enc T D) :=
  match last with
  | some l =>
    match dt.subtract v l with
    | some d =>
      match dt.addDelta l d with
      | some l' => some (some l', .delta d)
      | none => none
    | none => some (some v, .full v)
  | none => some (some v, .full v)

/-- `DeltaFactory::push_no_delta`; the caller logs the full value. models delta_factory.rs:32-34 -/
def pushNoDelta {T D : Type} (v : T) : Option T × Enc T D := (some v, .full v)

/-- `UnDeltaFactory::push` and `push_delta` on `last_value`. models delta_factory.rs:52-65 -/
def unPush {T D : Type} (dt : Deltable T D) (last : Option T) : Enc T D → Option T × Option T
  | .full v => (some v, some v)
  | .delta d =>
    match last with
    | some l =>
      match dt.addDelta l d with
      | some v => (some v, some v)
      | none => (none, none)
    | none => (none, none)

/-- one float field `v` of factory `f`: `Fac::to_fixed_point(self.v - other.v)?` and `self.v + Fac::to_float(delta.v)`.
models e.g. driver/adc.rs:79-94 -/
def scalar (f : Factory) (rnd : ℚ → ℚ) : Deltable ℚ ℕ where
  addDelta l d := some (rnd (l + f.toFloat rnd d))
  subtract v l :=
    match f.toFixed rnd (.fin (rnd (v - l))) with
    | some (some k) => some k
    | _ => none

/-- a record of two groups of fields -/
def prod {T D T' D' : Type} (a : Deltable T D) (b : Deltable T' D') : Deltable (T × T') (D × D') where
  addDelta l d :=
    match a.addDelta l.1 d.1, b.addDelta l.2 d.2 with
    | some x, some y => some (x, y)
    | _, _ => none
  subtract v l :=
    match a.subtract v.1 l.1, b.subtract v.2 l.2 with
    | some x, some y => some (x, y)
    | _, _ => none

/-- `[f32; 3]` -/
def triple (f : Factory) (rnd : ℚ → ℚ) : Deltable (ℚ × ℚ × ℚ) (ℕ × ℕ × ℕ) := prod (scalar f rnd) (prod (scalar f rnd) (scalar f rnd))

/-- `ADCData`. models driver/adc.rs:53-94 -/
def adc (rnd : ℚ → ℚ) : Deltable ℚ ℕ := scalar (slope 0.2 500 0.002) rnd

/-- `BaroData` (temperature, pressure). models driver/barometer.rs:38-92 -/
def baro (rnd : ℚ → ℚ) : Deltable (ℚ × ℚ) (ℕ × ℕ) := prod (scalar (slope 20 5 0.05) rnd) (scalar (slope 4000 5 1) rnd)

/-- `IMUData` (acc, gyro). models driver/imu.rs:41-105 -/
def imu (rnd : ℚ → ℚ) : Deltable ((ℚ × ℚ × ℚ) × (ℚ × ℚ × ℚ)) ((ℕ × ℕ × ℕ) × (ℕ × ℕ × ℕ)) := prod (triple (slope 100 5 0.01) rnd) (triple (slope 100 5 0.01) rnd)

/-- `MagData`. models driver/mag.rs:37-88 -/
def mag (rnd : ℚ → ℚ) : Deltable (ℚ × ℚ × ℚ) (ℕ × ℕ × ℕ) := triple (slope 0.5 5 0.0001) rnd

/-- `GPSData`. models driver/gps.rs:32-57 -/
structure Gps where
  timestamp : Option ℤ
  latLon : Option (ℚ × ℚ)
  altitude : Option ℚ
  sats : ℕ
  hdop : Option ℚ
  vdop : Option ℚ
  pdop : Option ℚ
  deriving DecidableEq

/-- `GPSDataDelta`. models driver/gps.rs:97-111 -/
structure GpsDelta where
  timestamp : ℕ
  lat : ℕ
  lon : ℕ
  altitude : ℕ
  sats : ℕ
  hdop : ℕ
  vdop : ℕ
  pdop : ℕ
  deriving DecidableEq

/-- the satellite count of `add_delta`. models driver/gps.rs:150-172 -/
def addSats (n : ℕ) (d : ℕ) : ℕ :=
  if d = 0 then n
  else if d = 1 then n + 1
  else if d = 2 then (if 1 ≤ n then n - 1 else 0)
  else (if 2 ≤ n then n - 2 else 0)

/-- the satellite count of `subtract` (counts below 128). models driver/gps.rs:196-205 -/
def subSats (n l : ℕ) : Option ℕ :=
  if (n : ℤ) - l = 0 then some 0
  else if (n : ℤ) - l = 1 then some 1
  else if (n : ℤ) - l = -1 then some 2
  else if (n : ℤ) - l = -2 then some 3
  else none

/-- an optional field of `GPSData::subtract`: both values must be present. models driver/gps.rs:213-217 -/
def subOpt (f : Factory) (rnd : ℚ → ℚ) (v l : Option ℚ) : Option ℕ :=
  match v, l with
  | some v, some l => (scalar f rnd).subtract v l
  | _, _ => none

/-- an optional field of `GPSData::add_delta`. models driver/gps.rs:180-184 -/
def addOpt (f : Factory) (rnd : ℚ → ℚ) (l : Option ℚ) (d : ℕ) : Option ℚ :=
  match l with
  | some l => (scalar f rnd).addDelta l d
  | none => none

/-- latitude and longitude: computed in f64, quantised in f32. models driver/gps.rs:176-179, 209-212 -/
def latLon (rnd32 rnd64 : ℚ → ℚ) : Deltable ℚ ℕ where
  addDelta l d := some (rnd64 (l + (slope 0.01 100 0.000005).toFloat rnd32 d))
  subtract v l :=
    match (slope 0.01 100 0.000005).toFixed rnd32 (.fin (rnd32 (rnd64 (v - l)))) with
    | some (some k) => some k
    | _ => none

/-- `GPSData as Deltable`. The timestamp difference is cast with `as u8` after `> 255` was excluded: a negative difference wraps.
models driver/gps.rs:148-220 -/
def gps (rnd32 rnd64 : ℚ → ℚ) : Deltable Gps GpsDelta where
  addDelta l d :=
    match l.timestamp, l.latLon, addOpt (slope 400 100 0.5) rnd32 l.altitude d.altitude, addOpt (minmax 0 1 0.1) rnd32 l.hdop d.hdop,
        addOpt (minmax 0 1 0.1) rnd32 l.vdop d.vdop, addOpt (minmax 0 1 0.1) rnd32 l.pdop d.pdop with
    | some t, some (lat, lon), some alt, some h, some v, some p =>
      match (latLon rnd32 rnd64).addDelta lat d.lat, (latLon rnd32 rnd64).addDelta lon d.lon with
      | some lat, some lon => some ⟨some (t + d.timestamp), some (lat, lon), some alt, addSats l.sats d.sats, some h, some v, some p⟩
      | _, _ => none
    | _, _, _, _, _, _ => none
  subtract s o :=
    match s.timestamp, o.timestamp with
    | some t, some t' =>
      if 255 < t - t' then none
      else
        match subSats s.sats o.sats, s.latLon, o.latLon, subOpt (slope 400 100 0.5) rnd32 s.altitude o.altitude with
        | some sats, some (lat, lon), some (lat', lon'), some alt =>
          match (latLon rnd32 rnd64).subtract lat lat', (latLon rnd32 rnd64).subtract lon lon', subOpt (minmax 0 1 0.1) rnd32 s.hdop o.hdop,
              subOpt (minmax 0 1 0.1) rnd32 s.vdop o.vdop, subOpt (minmax 0 1 0.1) rnd32 s.pdop o.pdop with
          | some lat, some lon, some h, some v, some p => some ⟨((t - t') % 256).toNat, lat, lon, alt, sats, h, v, p⟩
          | _, _, _, _, _ => none
        | _, _, _, _ => none
    | _, _ => none

end Verif.Delta
