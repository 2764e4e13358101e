import Verif.Model.Vlp
/-
What the theorems about radio packets assume of the Reed-Solomon crate, and the histories of a packet builder.
-/
namespace Verif.Vlp

open Verif.Bit

/-- number of positions in which two byte strings of the same length differ -/
def byteErrors (a b : Bytes) : Nat := (a.zip b).countP fun p => p.1 != p.2

/-- what is assumed of the Reed-Solomon crate: `n` parity bytes; the decoder returns as many bytes as the message has without them; in a code word of at
most 255 bytes, up to `n / 2` wrong bytes are corrected -/
structure Ext.Laws (x : Ext) : Prop where
  ecc_len : ∀ n d, (x.ecc n d).length = n
  correct_len : ∀ n m d, x.correct n m = some d → d.length = m.length - n
  fixes : ∀ n d m, d.length + n ≤ 255 → m.length = d.length + n → byteErrors (d ++ x.ecc n d) m ≤ n / 2 → x.correct n m = some d

/-- the builders that exist after any sequence of calls with the key `key`. Deserializing leaves the reader in some state: it may be any -/
inductive Reach (x : Ext) (key : Bytes) : Builder → Prop
  | new : Reach x key (Builder.new x key)
  | up {b : Builder} (now : Nat) (p : Uplink) : Reach x key b → Reach x key (b.serializeUplink x now p).2
  | down {b : Builder} (now : Nat) (p : Downlink) : Reach x key b → Reach x key (b.serializeDownlink x now p).2
  | received {b : Builder} (r : Reader) : Reach x key b → r.buffer.length = 8 * maxSize → Reach x key { b with reader := r }

/-- number of bits of an uplink packet of a known type, after the type -/
def Uplink.bitsOf (tag : BitVec 4) : Nat := if tag = 1#4 ∨ tag = 2#4 then 65 else if tag = 5#4 then 72 else 64

/-- number of bits of a downlink packet, after the type -/
def Downlink.bitsOf (tag : BitVec 1) : Nat := if tag = 0#1 then 64 else 269

/-- the `n`-bit number at position `off` -/
def field (bits : List Bool) (off n : Nat) : BitVec n := BitVec.ofNat n (leNat ((bits.drop off).take n))

/-- the bit at position `off` -/
def flag (bits : List Bool) (off : Nat) : Bool := bits.getD off false

/-- the layout of an uplink packet: four bits of type, the timestamp, and what the type says. Unknown types are refused. The receiver panics when there are not
enough bits for the type, or when the pyro channel is not 1, 2 or 3 -/
def parseUplink (bits : List Bool) : Out Uplink :=
  let tag := field bits 0 4
  if 6 < tag.toNat then .err
  else if bits.length < 4 + Uplink.bitsOf tag then .panic
  else
    match tag.toNat with
    | 0 => .ok (.verticalCalibration (field bits 4 64))
    | 1 => .ok (.softArm (field bits 4 64) (flag bits 68))
    | 2 => .ok (.lowPowerMode (field bits 4 64) (flag bits 68))
    | 3 => .ok (.reset (field bits 4 64))
    | 4 => .ok (.deleteLogs (field bits 4 64))
    | 5 =>
      match (field bits 68 8).toNat with
      | 1 => .ok (.groundTestDeploy (field bits 4 64) .pyro1)
      | 2 => .ok (.groundTestDeploy (field bits 4 64) .pyro2)
      | 3 => .ok (.groundTestDeploy (field bits 4 64) .pyro3)
      | _ => .panic
    | _ => .ok (.manualTrigger (field bits 4 64))

/-- the layout of a telemetry packet, behind one bit of type -/
def parseTelemetry (bits : List Bool) : Telemetry where
  unixClockReady := flag bits 1
  timestamp := field bits 2 32
  numOfFixSatellites := field bits 34 5
  latLon := (field bits 39 64, field bits 103 64)
  batteryV := field bits 167 12
  temperature := field bits 179 11
  hardwareArmed := flag bits 190
  softwareArmed := flag bits 191
  diskFreeSpace := field bits 192 11
  pyroMainContinuity := flag bits 203
  pyroDrogueContinuity := flag bits 204
  altitude := field bits 205 10
  maxAltitude := field bits 215 10
  backupMaxAltitude := field bits 225 10
  airSpeed := field bits 235 9
  maxAirSpeed := field bits 244 9
  backupMaxAirSpeed := field bits 253 9
  flightCoreState := field bits 262 3
  backupFlightCoreState := field bits 265 3
  drogueDeployed := flag bits 268
  mainDeployed := flag bits 269

/-- the layout of a downlink packet: one bit of type. The receiver panics when there are not enough bits -/
def parseDownlink (bits : List Bool) : Out Downlink :=
  if flag bits 0 then (if bits.length < 270 then .panic else .ok (.telemetry (parseTelemetry bits)))
  else (if bits.length < 65 then .panic else .ok (.ack (field bits 1 64)))

end Verif.Vlp
