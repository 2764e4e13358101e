import Verif.Model.FlightEvent
import Verif.Model.Vlp
/-
Flight computers (firmware-common/src/avionics: backup_flight_core.rs, backup_backup_flight_core.rs, flight_core.rs, vertical_speed_filter.rs,
baro_reading_filter.rs) and the moving average of common/moving_average.rs.
Floating point is a parameter: whatever the operations of f32 and f64 do (rounding, infinities, NaN) is covered by theorems that hold for all of them.
The Kalman filter (crate `eskf`), the vectors (`nalgebra`) and the standard atmosphere (`icao-isa`) are parameters too.
A tick returns the events it publishes, in order.
-/
namespace Verif.Fc

/-- operations of a floating point type -/
structure Ops (F : Type) where
  add : F → F → F
  sub : F → F → F
  mul : F → F → F
  div : F → F → F
  lt : F → F → Bool
  le : F → F → Bool
  abs : F → F
  neg : F → F
  lit : Int → F

/-- f32 (`S`), f64 (`D`), `as f32`, and `calculate_isa_altitude(..) as f32` of a pressure -/
structure Floats where
  S : Type
  D : Type
  s : Ops S
  d : Ops D
  cast : D → S
  altitude : S → S

/-- `SensorReading<BootTimestamp, BaroData>`; the temperature is not used here. models driver/barometer.rs:88-90 -/
structure Reading (fl : Floats) where
  timestamp : fl.D
  pressure : fl.S

/-- `BaroData::altitude`. models driver/barometer.rs:88-90 -/
def Reading.altitude {fl : Floats} (r : Reading fl) : fl.S := fl.altitude r.pressure

/-- `FlightProfile`, without the pyro channels (see `Model/Avionics`). models avionics/flight_profile.rs:12-23 -/
structure Profile (fl : Floats) where
  drogueMinTime : fl.D
  drogueMinAltitude : fl.S
  drogueDelay : fl.D
  mainAltitude : fl.S
  mainDelay : fl.D
  drogueToMain : fl.D
  mainToLanded : fl.D

/-- `PhysicalVerticalSpeedModel`. models avionics/vertical_speed_filter.rs:10-13; both fields are set together -/
structure Physical (fl : Floats) where
  last : Option (fl.D × fl.S)

/-- `PhysicalVerticalSpeedModel::feed`. models avionics/vertical_speed_filter.rs:23-43 -/
def Physical.feed {fl : Floats} (m : Physical fl) (timestamp : fl.D) (v : fl.S) : fl.S × Physical fl :=
  match m.last with
  | none => (v, ⟨some (timestamp, v)⟩)
  | some (lastT, lastV) =>
    let dt := fl.cast (fl.d.div (fl.d.sub timestamp lastT) (fl.d.lit 1000))
    let acceleration := fl.s.div (fl.s.sub v lastV) dt
    if fl.s.lt (fl.s.neg (fl.s.lit 45)) acceleration then (v, ⟨some (timestamp, v)⟩)
    else
      let v' := fl.s.sub lastV (fl.s.mul (fl.s.lit 45) dt)
      (v', ⟨some (timestamp, v')⟩)

/-- `DirectForm2Transposed` with its coefficients (crate `biquad`) -/
structure Biquad (fl : Floats) where
  a1 : fl.S
  a2 : fl.S
  b0 : fl.S
  b1 : fl.S
  b2 : fl.S
  s1 : fl.S
  s2 : fl.S

/-- `DirectForm2Transposed::run` (crate `biquad`) -/
def Biquad.run {fl : Floats} (q : Biquad fl) (x : fl.S) : fl.S × Biquad fl :=
  let out := fl.s.add q.s1 (fl.s.mul q.b0 x)
  (out, { q with
    s1 := fl.s.sub (fl.s.add q.s2 (fl.s.mul q.b1 x)) (fl.s.mul q.a1 out)
    s2 := fl.s.sub (fl.s.mul q.b2 x) (fl.s.mul q.a2 out) })

/-- `VerticalSpeedFilter`. models avionics/vertical_speed_filter.rs:46-52 -/
structure VsFilter (fl : Floats) where
  holdEnd : fl.D
  prev : Option (fl.D × fl.S)
  biquad : Biquad fl
  lastVs : Option fl.S
  physical : Physical fl

/-- `VerticalSpeedFilter::new`; the coefficients are given. models avionics/vertical_speed_filter.rs:55-72 -/
def VsFilter.new {fl : Floats} (q : Biquad fl) : VsFilter fl := ⟨fl.d.lit 0, none, q, none, ⟨none⟩⟩

/-- `feed_inner`. models avionics/vertical_speed_filter.rs:88-113 -/
def VsFilter.feedInner {fl : Floats} (f : VsFilter fl) (r : Reading fl) : Option fl.S × VsFilter fl :=
  if fl.d.lt r.timestamp f.holdEnd then (none, f)
  else
    match f.prev with
    | some (prevT, prevA) =>
      let vs := fl.s.div (fl.s.sub r.altitude prevA) (fl.s.div (fl.cast (fl.d.sub r.timestamp prevT)) (fl.s.lit 1000))
      if fl.s.lt (fl.s.lit 3000) (fl.s.abs vs) then (none, { f with holdEnd := fl.d.add r.timestamp (fl.d.lit 500), prev := none })
      else ((f.biquad.run vs).1 |> some, { f with biquad := (f.biquad.run vs).2, prev := some (r.timestamp, r.altitude) })
    | none => (none, { f with prev := some (r.timestamp, r.altitude) })

/-- `feed`. models avionics/vertical_speed_filter.rs:75-85 -/
def VsFilter.feed {fl : Floats} (f : VsFilter fl) (r : Reading fl) : fl.S × VsFilter fl :=
  let i := f.feedInner r
  let f := i.2
  let filtered := match i.1 with
    | some v => v
    | none => f.lastVs.getD (fl.s.lit 0)
  let lastVs := match i.1 with
    | some v => some v
    | none => f.lastVs
  let p := f.physical.feed r.timestamp filtered
  (p.1, { f with lastVs := lastVs, physical := p.2 })

/-- `BackupFlightCoreState`. models avionics/backup_flight_core.rs:15-22 -/
inductive BState (fl : Floats)
  | armed
  | drogueChute (deployTime : fl.D)
  | drogueChuteDeployed
  | mainChute (deployTime : fl.D)
  | mainChuteDeployed
  | landed

/-- `BackupFlightCore` without the publisher. models avionics/backup_flight_core.rs:25-32 -/
structure Backup (fl : Floats) where
  profile : Profile fl
  state : BState fl
  filter : VsFilter fl
  pad : Option fl.S
  firstTick : Bool

/-- `BackupFlightCore::new`. models avionics/backup_flight_core.rs:35-44 -/
def Backup.new {fl : Floats} (q : Biquad fl) (p : Profile fl) : Backup fl := ⟨p, .armed, .new q, none, true⟩

/-- the `match` of `tick`, given the vertical speed; `none` = panic. models avionics/backup_flight_core.rs:52-101 -/
def Backup.stage {fl : Floats} (b : Backup fl) (r : Reading fl) (vs : fl.S) : Option (Backup fl × List (Event fl.S)) :=
  match b.state with
  | .armed =>
    let ev := if b.firstTick then [Event.changeState .armed] else []
    let b := { b with firstTick := false, pad := match b.pad with | none => some r.altitude | some a => some a }
    if fl.s.lt vs (fl.s.neg (fl.s.lit 20)) then some ({ b with state := .drogueChute (fl.d.add r.timestamp b.profile.drogueDelay) }, ev)
    else some (b, ev)
  | .drogueChute t =>
    if fl.d.lt t r.timestamp then some ({ b with state := .drogueChuteDeployed }, [.changeState .drogueChuteDeployed])
    else some (b, [])
  | .drogueChuteDeployed =>
    match b.pad with
    | none => none
    | some pad =>
      if fl.s.lt r.altitude (fl.s.add b.profile.mainAltitude pad) then some ({ b with state := .mainChute (fl.d.add r.timestamp b.profile.mainDelay) }, [])
      else some (b, [])
  | .mainChute t =>
    if fl.d.lt t r.timestamp then some ({ b with state := .mainChuteDeployed }, [.changeState .mainChuteDeployed])
    else some (b, [])
  | .mainChuteDeployed =>
    if fl.s.lt (fl.s.abs vs) (fl.s.lit 1) then some ({ b with state := .landed }, [.changeState .landed])
    else some (b, [])
  | .landed => some (b, [])

/-- `tick`. models avionics/backup_flight_core.rs:46-101 -/
def Backup.tick {fl : Floats} (b : Backup fl) (r : Reading fl) : Option (Backup fl × List (Event fl.S)) :=
  let f := b.filter.feed r
  (Backup.stage { b with filter := f.2 } r f.1).map fun p => (p.1, .changeAirSpeed f.1 :: p.2)

/-- `drop`. models avionics/backup_flight_core.rs:105-108 -/
def Backup.drop {fl : Floats} (_ : Backup fl) : List (Event fl.S) := [.changeState .disArmed]

/-- `BackupBackupFlightCoreState`. models avionics/backup_backup_flight_core.rs:7-12 -/
inductive MState (fl : Floats)
  | armed
  | drogueChuteDeployed (mainDeployTime : fl.D)
  | mainChuteDeployed (landTime : fl.D)
  | landed

/-- `BackupBackupFlightCore` without the publisher. models avionics/backup_backup_flight_core.rs:14-18 -/
structure Manual (fl : Floats) where
  profile : Profile fl
  state : MState fl

/-- `BackupBackupFlightCore::new`. models avionics/backup_backup_flight_core.rs:21-27 -/
def Manual.new {fl : Floats} (p : Profile fl) : Manual fl := ⟨p, .armed⟩

/-- `manual_deployment_triggered`. models avionics/backup_backup_flight_core.rs:29-38 -/
def Manual.trigger {fl : Floats} (m : Manual fl) (timestamp : fl.D) : Manual fl × List (Event fl.S) :=
  match m.state with
  | .armed => ({ m with state := .drogueChuteDeployed (fl.d.add timestamp m.profile.drogueToMain) }, [.changeState .drogueChuteDeployed])
  | _ => (m, [])

/-- `tick`. models avionics/backup_backup_flight_core.rs:40-62 -/
def Manual.tick {fl : Floats} (m : Manual fl) (timestamp : fl.D) : Manual fl × List (Event fl.S) :=
  match m.state with
  | .armed => (m, [])
  | .drogueChuteDeployed t =>
    if fl.d.le t timestamp then
      ({ m with state := .mainChuteDeployed (fl.d.add timestamp m.profile.mainToLanded) }, [.changeState .mainChuteDeployed])
    else (m, [])
  | .mainChuteDeployed t => if fl.d.le t timestamp then ({ m with state := .landed }, [.changeState .landed]) else (m, [])
  | .landed => (m, [])

/-- `NoSumSMA` with window `n`: the samples, newest first. models common/moving_average.rs:10-18 -/
structure Sma (F : Type) where
  n : Nat
  samples : List F
  zero : F

/-- `add_sample`. models common/moving_average.rs:33-42 -/
def Sma.add {F : Type} (m : Sma F) (x : F) : Sma F :=
  if m.n = 0 then m
  else if m.samples.length = m.n then { m with samples := x :: m.samples.dropLast }
  else { m with samples := x :: m.samples }

/-- `get_average`. models common/moving_average.rs:44-58 -/
def Sma.average {F : Type} (o : Ops F) (m : Sma F) : F :=
  if m.samples.length = 0 then m.zero else o.div (m.samples.foldl o.add m.zero) (o.lit m.samples.length)

/-- `is_full`. models common/moving_average.rs:60-62 -/
def Sma.isFull {F : Type} (m : Sma F) : Bool := m.samples.length = m.n

/-- the Kalman filter and the vectors: parameters -/
structure Est (fl : Floats) where
  E : Type
  V : Type
  initial : E
  posZ : E → fl.S
  velZ : E → fl.S
  setPosZ : E → fl.S → E
  predict : E → V → V → fl.S → E
  observeHeight : E → fl.S → E
  /-- `rotation_between(sky, -acc.normalize()).unwrap()` stored as orientation; `none` = panic -/
  orient : E → V → Option E
  mount : V → V
  degToRad : V → V
  mag : V → fl.S
  z : V → fl.S

/-- `PartialSensorSnapshot`. models common/sensor_snapshot.rs -/
structure Snapshot (fl : Floats) (es : Est fl) where
  timestamp : fl.D
  imuTimestamp : fl.D
  acc : es.V
  gyro : es.V
  baro : Option (Reading fl)

/-- `BaroReadingFilter`: the last two readings (newest first), end of ignoring, held reading. models avionics/baro_reading_filter.rs:10-15 -/
structure BaroFilter (fl : Floats) where
  history : List (Reading fl)
  ignoreEnd : fl.D
  hold : Option (Reading fl)

/-- `BaroReadingFilter::new`. models avionics/baro_reading_filter.rs:18-24 -/
def BaroFilter.new {fl : Floats} : BaroFilter fl := ⟨[], fl.d.lit 0, none⟩

/-- `feed`: should the reading be ignored, and the reading; `none` = panic. `history.front()` is the older of the two readings.
models avionics/baro_reading_filter.rs:26-59 -/
def BaroFilter.feed {fl : Floats} (f : BaroFilter fl) (r : Reading fl) : Option ((Bool × Reading fl) × BaroFilter fl) :=
  match f.history with
  | [] => some ((false, r), { f with history := [r] })
  | prev :: _ =>
    let f := { f with history := [r, prev] }
    let slope := fl.s.div (fl.s.sub r.pressure prev.pressure) (fl.cast (fl.d.div (fl.d.sub r.timestamp prev.timestamp) (fl.d.lit 1000)))
    let f := if fl.s.lt (fl.s.lit 3000) slope then { f with ignoreEnd := fl.d.add r.timestamp (fl.d.lit 500), hold := some r } else f
    if fl.d.lt r.timestamp f.ignoreEnd then
      match f.hold with
      | some h => some ((true, h), f)
      | none => none
    else some ((false, r), f)

/-- `FlightCoreState` of the primary flight computer. models avionics/flight_core.rs:45-72 -/
inductive PState (fl : Floats) (es : Est fl)
  | armed (history : List (Snapshot fl es)) (accY : Sma fl.S)
  | powerAscend (accMag : Sma fl.S) (launchAltitude : fl.S) (launchTime : fl.D)
  | coast (launchAltitude : fl.S) (launchTime : fl.D)
  | drogueChute (launchAltitude : fl.S) (launchTime deployTime : fl.D)
  | mainChute (launchAltitude : fl.S) (deployTime : Option fl.D)
  | mainChuteDescend
  | landed

/-- `FlightCore` without the publisher and the variances. `critical_error` is never set. models avionics/flight_core.rs:93-105 -/
structure Primary (fl : Floats) (es : Est fl) where
  profile : Profile fl
  state : PState fl es
  lastTime : Option fl.D
  baroOffset : Option fl.S
  est : es.E
  baroFilter : BaroFilter fl
  criticalError : Bool
  firstTick : Bool

/-- `FlightCore::new`. models avionics/flight_core.rs:108-143 -/
def Primary.new {fl : Floats} {es : Est fl} (p : Profile fl) : Primary fl es :=
  ⟨p, .armed [] ⟨4, [], fl.s.lit 0⟩, none, none, es.initial, .new, false, true⟩

/-- the estimation part of `tick` when in the air; `none` = panic. models avionics/flight_core.rs:169-196 -/
def Primary.estimate {fl : Floats} {es : Est fl} (c : Primary fl es) (s : Snapshot fl es) (dt : fl.D) : Option (Primary fl es × List (Event fl.S)) :=
  match c.state with
  | .armed _ _ => some (c, [])
  | _ =>
    let e := es.predict c.est s.acc (es.degToRad s.gyro) (fl.cast (fl.d.div dt (fl.d.lit 1000)))
    match s.baro with
    | none => some ({ c with est := e }, [.changeAltitude (es.posZ e), .changeAirSpeed (es.velZ e)])
    | some r =>
      match c.baroFilter.feed r with
      | none => none
      | some ((ignore, r), bf) =>
        let e := if ignore then e
          else es.observeHeight e (match c.baroOffset with | some o => fl.s.add r.altitude o | none => r.altitude)
        some ({ c with est := e, baroFilter := bf }, [.changeAltitude (es.posZ e), .changeAirSpeed (es.velZ e)])

/-- the prediction over the history at launch: consecutive pairs. models avionics/flight_core.rs:275-283 -/
def predictAll {fl : Floats} {es : Est fl} : es.E → List (Snapshot fl es) → es.E
  | e, prev :: s :: rest =>
    predictAll (es.predict e s.acc (es.degToRad s.gyro) (fl.cast (fl.d.div (fl.d.sub s.timestamp prev.timestamp) (fl.d.lit 1000)))) (s :: rest)
  | e, _ => e

/-- the `match` of `tick`; `none` = panic. models avionics/flight_core.rs:198-388 -/
def Primary.stage {fl : Floats} {es : Est fl} (c : Primary fl es) (s : Snapshot fl es) : Option (Primary fl es × List (Event fl.S)) :=
  match c.state with
  | .armed history accY =>
    let ev := if c.firstTick then [Event.changeState .armed] else []
    let accY := accY.add (es.z s.acc)
    let history := (if history.length = 100 then history.drop 1 else history) ++ [s]
    let c := { c with firstTick := false }
    if history.length = 100 ∧ fl.s.lt (fl.s.lit 50) (accY.average fl.s) = true then
      match history with
      | [] => none
      | first :: _ =>
        match es.orient c.est first.acc with
        | none => none
        | some e =>
          let launch := match history.findSome? (fun s => s.baro) with
            | some r => r.altitude
            | none => fl.s.lit 0
          some ({ c with est := predictAll (es.setPosZ e launch) history, state := .powerAscend ⟨4, [], fl.s.lit 0⟩ launch s.timestamp },
            ev ++ [.changeState .powerAscend])
    else some ({ c with state := .armed history accY }, ev)
  | .powerAscend accMag la lt =>
    let accMag := accMag.add (es.mag s.acc)
    if accMag.isFull = true ∧ fl.s.lt (accMag.average fl.s) (fl.s.lit 10) = true then
      some ({ c with state := .coast la lt }, [.changeState .coast])
    else some ({ c with state := .powerAscend accMag la lt }, [])
  | .coast la lt =>
    if fl.s.le (es.velZ c.est) (fl.s.lit 0) then
      some ({ c with state := .drogueChute la lt (fl.d.add s.timestamp c.profile.drogueDelay) }, [.changeState .descent])
    else some (c, [])
  | .drogueChute la lt dt =>
    if fl.s.lt (fl.s.sub (es.posZ c.est) la) c.profile.drogueMinAltitude then some ({ c with state := .landed }, [.didNotReachMinApogee])
    else if fl.d.le dt s.timestamp = true ∧ fl.d.le c.profile.drogueMinTime (fl.d.sub s.timestamp lt) = true then
      some ({ c with state := .mainChute la none }, [])
    else some (c, [])
  | .mainChute la none =>
    if fl.s.le (fl.s.sub (es.posZ c.est) la) c.profile.mainAltitude then
      some ({ c with state := .mainChute la (some (fl.d.add s.timestamp c.profile.mainDelay)) }, [])
    else some (c, [])
  | .mainChute _ (some dt) =>
    if fl.d.le dt s.timestamp then some ({ c with state := .mainChuteDescend }, []) else some (c, [])
  | .mainChuteDescend =>
    if fl.s.lt (fl.s.abs (es.velZ c.est)) (fl.s.div (fl.s.lit 1) (fl.s.lit 2)) then some ({ c with state := .landed }, [.changeState .landed])
    else some (c, [])
  | .landed => some (c, [])

/-- `tick`; `none` = panic. models avionics/flight_core.rs:145-393 -/
def Primary.tick {fl : Floats} {es : Est fl} (c : Primary fl es) (s : Snapshot fl es) : Option (Primary fl es × List (Event fl.S)) :=
  if c.criticalError then some (c, [])
  else
    match c.lastTime with
    | none => some ({ c with lastTime := some s.timestamp }, [])
    | some last =>
      let dt := fl.d.sub s.imuTimestamp last
      let s := { s with acc := es.mount s.acc, gyro := es.mount s.gyro }
      match c.estimate s dt with
      | none => none
      | some (c, ev1) =>
        match c.stage s with
        | none => none
        | some (c, ev2) => some ({ c with lastTime := some s.timestamp }, ev1 ++ ev2)

/-- `drop`. models avionics/flight_core.rs:401-404 -/
def Primary.drop {fl : Floats} {es : Est fl} (_ : Primary fl es) : List (Event fl.S) := [.changeState .disArmed]

end Verif.Fc
