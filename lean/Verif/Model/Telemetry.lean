import Verif.Model.Vlp
import Verif.Model.FixedPoint
import Verif.Model.FlightEvent
/-
Telemetry packets (firmware-common/src/common/vlp/telemetry_packet.rs). `rnd` is the rounding of f32, `rnd64` of f64.
-/
namespace Verif.Vlp

open Verif.Fix Verif.Fc

/-- `BatteryVFac`. models vlp/telemetry_packet.rs:13 -/
def batteryVFac : Factory := minmax 6 9 0.001
/-- `TemperatureFac`. models vlp/telemetry_packet.rs:14 -/
def temperatureFac : Factory := minmax (-30) 85 0.1
/-- `FreeSpaceFac`. models vlp/telemetry_packet.rs:15 -/
def freeSpaceFac : Factory := minmax 0 67108864 40960
/-- `AltitudeFac`. models vlp/telemetry_packet.rs:16 -/
def altitudeFac : Factory := minmax (-100) 5000 5
/-- `AirSpeedFac`. models vlp/telemetry_packet.rs:17 -/
def airSpeedFac : Factory := minmax (-400) 400 2

/-- the arguments of `TelemetryPacket::new`. models vlp/telemetry_packet.rs:76-107 -/
structure Values where
  unixClockReady : Bool
  timestamp : Flt
  numOfFixSatellites : ℕ
  latLon : Option (F64 × F64)
  batteryV : Flt
  temperature : Flt
  hardwareArmed : Bool
  softwareArmed : Bool
  freeSpace : ℕ
  pyroMainContinuity : Bool
  pyroDrogueContinuity : Bool
  altitude : Flt
  maxAltitude : Flt
  backupMaxAltitude : Flt
  airSpeed : Flt
  maxAirSpeed : Flt
  backupMaxAirSpeed : Flt
  flightCoreState : FcState
  backupFlightCoreState : FcState
  drogueDeployed : Bool
  mainDeployed : Bool

/-- `as u32` of a float (Rust: saturating, NaN becomes 0) -/
def castU32 : Flt → ℕ
  | .nan => 0
  | .inf neg => if neg then 0 else 2 ^ 32 - 1
  | .fin q => if q < 0 then 0 else min ⌊q⌋.toNat (2 ^ 32 - 1)

/-- f64 division of a value by 1000 -/
def div1000 (rnd64 : ℚ → ℚ) : Flt → Flt
  | .fin q => .fin (rnd64 (q / 1000))
  | v => v

/-- `TelemetryPacket::new`; `none` = panic. models vlp/telemetry_packet.rs:76-131 -/
def Telemetry.new (rnd rnd64 : ℚ → ℚ) (v : Values) : Option Telemetry := do
  let batteryV ← batteryVFac.toFixedCapped rnd v.batteryV
  let temperature ← temperatureFac.toFixedCapped rnd v.temperature
  let diskFreeSpace ← freeSpaceFac.toFixedCapped rnd (.fin (rnd v.freeSpace))
  let altitude ← altitudeFac.toFixedCapped rnd v.altitude
  let maxAltitude ← altitudeFac.toFixedCapped rnd v.maxAltitude
  let backupMaxAltitude ← altitudeFac.toFixedCapped rnd v.backupMaxAltitude
  let airSpeed ← airSpeedFac.toFixedCapped rnd v.airSpeed
  let maxAirSpeed ← airSpeedFac.toFixedCapped rnd v.maxAirSpeed
  let backupMaxAirSpeed ← airSpeedFac.toFixedCapped rnd v.backupMaxAirSpeed
  some {
    unixClockReady := v.unixClockReady
    timestamp := BitVec.ofNat 32 (castU32 (div1000 rnd64 v.timestamp))
    numOfFixSatellites := BitVec.ofNat 5 v.numOfFixSatellites
    latLon := v.latLon.getD (0#64, 0#64)
    batteryV := BitVec.ofNat 12 batteryV
    temperature := BitVec.ofNat 11 temperature
    hardwareArmed := v.hardwareArmed
    softwareArmed := v.softwareArmed
    diskFreeSpace := BitVec.ofNat 11 diskFreeSpace
    pyroMainContinuity := v.pyroMainContinuity
    pyroDrogueContinuity := v.pyroDrogueContinuity
    altitude := BitVec.ofNat 10 altitude
    maxAltitude := BitVec.ofNat 10 maxAltitude
    backupMaxAltitude := BitVec.ofNat 10 backupMaxAltitude
    airSpeed := BitVec.ofNat 9 airSpeed
    maxAirSpeed := BitVec.ofNat 9 maxAirSpeed
    backupMaxAirSpeed := BitVec.ofNat 9 backupMaxAirSpeed
    flightCoreState := BitVec.ofNat 3 v.flightCoreState.toU8
    backupFlightCoreState := BitVec.ofNat 3 v.backupFlightCoreState.toU8
    drogueDeployed := v.drogueDeployed
    mainDeployed := v.mainDeployed }

/-- `timestamp()`, in ms. models vlp/telemetry_packet.rs:138-140 -/
def Telemetry.timestampMs (rnd64 : ℚ → ℚ) (t : Telemetry) : ℚ := rnd64 (t.timestamp.toNat * 1000)

/-- `x == 0.0` for an f64 given by its bits: plus or minus zero -/
def isZero (x : F64) : Bool := x == 0#64 || x == 0x8000000000000000#64

/-- `lat_lon()`. models vlp/telemetry_packet.rs:146-152 -/
def Telemetry.position (t : Telemetry) : Option (F64 × F64) := if isZero t.latLon.1 && isZero t.latLon.2 then none else some t.latLon

/-- `flight_core_state()`. models vlp/telemetry_packet.rs:207-214 -/
def Telemetry.coreState (t : Telemetry) : FcState := (FcState.ofU8 t.flightCoreState.toNat).getD .disArmed

/-- `backup_flight_core_state()`. models vlp/telemetry_packet.rs:216-223 -/
def Telemetry.backupCoreState (t : Telemetry) : FcState := (FcState.ofU8 t.backupFlightCoreState.toNat).getD .disArmed

/-- `f32::max` (Rust: the other operand when one is NaN) -/
def fmax : Flt → Flt → Flt
  | .nan, b => b
  | a, .nan => a
  | .inf true, b => b
  | a, .inf true => a
  | .inf false, _ => .inf false
  | _, .inf false => .inf false
  | .fin p, .fin q => .fin (max p q)

/-- the fields of `TelemetryPacketBuilderState` that other code can set. models vlp/telemetry_packet.rs:310-333 -/
structure PubState where
  numOfFixSatellites : ℕ
  latLon : Option (F64 × F64)
  batteryV : Flt
  temperature : Flt
  altitude : Flt
  backupAltitude : Flt
  airSpeed : Flt
  backupAirSpeed : Flt
  hardwareArmed : Bool
  softwareArmed : Bool
  pyroMainContinuity : Bool
  pyroDrogueContinuity : Bool
  flightCoreState : FcState
  backupFlightCoreState : FcState
  diskFreeSpace : ℕ
  drogueDeployed : Bool
  mainDeployed : Bool

/-- `TelemetryPacketBuilderState`: with the private maxima. models vlp/telemetry_packet.rs:310-333 -/
structure BuilderState where
  pub : PubState
  maxAltitude : Flt
  backupMaxAltitude : Flt
  maxAirSpeed : Flt
  backupMaxAirSpeed : Flt

/-- `TelemetryPacketBuilder::new`. models vlp/telemetry_packet.rs:341-367 -/
def BuilderState.init : BuilderState where
  pub := ⟨0, none, .fin 0, .fin 0, .fin 0, .fin 0, .fin 0, .fin 0, false, false, false, false, .disArmed, .disArmed, 0, false, false⟩
  maxAltitude := .fin 0
  backupMaxAltitude := .fin 0
  maxAirSpeed := .fin 0
  backupMaxAirSpeed := .fin 0

/-- `update`: the closure may set every public field. models vlp/telemetry_packet.rs:402-414 -/
def BuilderState.update (s : BuilderState) (f : PubState → PubState) : BuilderState where
  pub := f s.pub
  maxAltitude := fmax (f s.pub).altitude s.maxAltitude
  maxAirSpeed := fmax (f s.pub).airSpeed s.maxAirSpeed
  backupMaxAltitude := fmax (f s.pub).backupAltitude s.backupMaxAltitude
  backupMaxAirSpeed := fmax (f s.pub).backupAirSpeed s.backupMaxAirSpeed

/-- the arguments `create_packet` passes to `TelemetryPacket::new`. models vlp/telemetry_packet.rs:369-400 -/
def BuilderState.values (s : BuilderState) (ready : Bool) (nowMs : Flt) : Values where
  unixClockReady := ready
  timestamp := nowMs
  numOfFixSatellites := s.pub.numOfFixSatellites
  latLon := s.pub.latLon
  batteryV := s.pub.batteryV
  temperature := s.pub.temperature
  hardwareArmed := s.pub.hardwareArmed
  softwareArmed := s.pub.softwareArmed
  freeSpace := s.pub.diskFreeSpace
  pyroMainContinuity := s.pub.pyroMainContinuity
  pyroDrogueContinuity := s.pub.pyroDrogueContinuity
  altitude := s.pub.altitude
  maxAltitude := s.maxAltitude
  backupMaxAltitude := s.backupMaxAltitude
  airSpeed := s.pub.airSpeed
  maxAirSpeed := s.maxAirSpeed
  backupMaxAirSpeed := s.backupMaxAirSpeed
  flightCoreState := s.pub.flightCoreState
  backupFlightCoreState := s.pub.backupFlightCoreState
  drogueDeployed := s.pub.drogueDeployed
  mainDeployed := s.pub.mainDeployed

/-- `create_packet`. models vlp/telemetry_packet.rs:369-400 -/
def BuilderState.createPacket (rnd rnd64 : ℚ → ℚ) (s : BuilderState) (ready : Bool) (nowMs : Flt) : Option Telemetry :=
  Telemetry.new rnd rnd64 (s.values ready nowMs)

end Verif.Vlp
