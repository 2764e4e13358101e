import Verif.Model.BitSlice
/-
Radio packets (firmware-common/src/common/vlp/packet.rs, packet_builder.rs, telemetry_packet.rs).
Not modelled, but parameters (`Ext`): the Reed-Solomon crate (`reed_solomon` 0.2.1) and the ChaCha20 key stream (`cryptoxide`). CRC-8/SMBUS is concrete.
Floats in packets are their bit patterns. A panic is an explicit outcome.
-/
namespace Verif.Vlp

open Verif.Bit

/-- bit pattern of an f64 -/
abbrev F64 := BitVec 64

/-- what a call does: panic, return `Err(())`, return a value -/
inductive Out (α : Type)
  | panic
  | err
  | ok (a : α)
  deriving DecidableEq

/-- one bit of CRC-8/SMBUS: polynomial 0x07, not reflected (`crc` crate, `CRC_8_SMBUS`) -/
def crcBit (c : BitVec 8) : BitVec 8 := if c.msb then (c <<< 1) ^^^ 0x07#8 else c <<< 1

/-- one byte of CRC-8/SMBUS (`crc` crate) -/
def crcByte (c : BitVec 8) (b : UInt8) : BitVec 8 := crcBit (crcBit (crcBit (crcBit (crcBit (crcBit (crcBit (crcBit (c ^^^ b.toBitVec))))))))

/-- `Digest::update` (`crc` crate) -/
def crcUpdate (c : BitVec 8) (data : Bytes) : BitVec 8 := data.foldl crcByte c

/-- `Crc::checksum` (`crc` crate; initial value and final xor are 0) -/
def crc8 (data : Bytes) : UInt8 := UInt8.ofBitVec (crcUpdate 0#8 data)

/-- the external crates. `ecc n data`: the `n` parity bytes of `Encoder::new(n).encode(data)`; `correct n msg`: `data()` of
`Decoder::new(n).correct(msg, None)`; `keystream key nonce i`: byte `i` of the ChaCha20 key stream -/
structure Ext where
  ecc : Nat → Bytes → Bytes
  correct : Nat → Bytes → Option Bytes
  keystream : Bytes → Bytes → Nat → UInt8

/-- `ChaCha20::new(key, nonce)` and `process_mut(data)` (cryptoxide): xor with the key stream -/
def Ext.process (x : Ext) (key nonce data : Bytes) : Bytes := data.mapIdx fun i b => b ^^^ x.keystream key nonce i

/-- `PyroSelection`. models avionics/flight_profile.rs:6-10 -/
inductive Pyro
  | pyro1
  | pyro2
  | pyro3
  deriving DecidableEq

/-- `u8::from(pyro)` (`IntEnum`). models avionics/flight_profile.rs:6-10 -/
def Pyro.toU8 : Pyro → BitVec 8
  | .pyro1 => 1#8
  | .pyro2 => 2#8
  | .pyro3 => 3#8

/-- `PyroSelection::try_from(u8)` (`IntEnum`). models avionics/flight_profile.rs:6-10 -/
def Pyro.ofU8 (b : BitVec 8) : Option Pyro :=
  if b = 1#8 then some .pyro1 else if b = 2#8 then some .pyro2 else if b = 3#8 then some .pyro3 else none

/-- `VLPUplinkPacket` with its packet structs. models vlp/packet.rs:6-168 -/
inductive Uplink
  | verticalCalibration (timestamp : F64)
  | softArm (timestamp : F64) (armed : Bool)
  | lowPowerMode (timestamp : F64) (enabled : Bool)
  | reset (timestamp : F64)
  | deleteLogs (timestamp : F64)
  | groundTestDeploy (timestamp : F64) (pyro : Pyro)
  | manualTrigger (timestamp : F64)
  deriving DecidableEq

/-- `TelemetryPacket`: the packed fields. Integers of the `packed_struct` crate have as many bits as they occupy on the wire (in Rust the sender's
`num_of_fix_satellites` keeps a value over 31 until it is written, when only five bits are).
The widths of the fixed point fields are those of the factories (`C37_widths`). models vlp/telemetry_packet.rs:19-73 -/
structure Telemetry where
  unixClockReady : Bool
  timestamp : BitVec 32
  numOfFixSatellites : BitVec 5
  latLon : F64 × F64
  batteryV : BitVec 12
  temperature : BitVec 11
  hardwareArmed : Bool
  softwareArmed : Bool
  diskFreeSpace : BitVec 11
  pyroMainContinuity : Bool
  pyroDrogueContinuity : Bool
  altitude : BitVec 10
  maxAltitude : BitVec 10
  backupMaxAltitude : BitVec 10
  airSpeed : BitVec 9
  maxAirSpeed : BitVec 9
  backupMaxAirSpeed : BitVec 9
  flightCoreState : BitVec 3
  backupFlightCoreState : BitVec 3
  drogueDeployed : Bool
  mainDeployed : Bool
  deriving DecidableEq

/-- `VLPDownlinkPacket`. models vlp/packet.rs:237-240 -/
inductive Downlink
  | ack (timestamp : F64)
  | telemetry (t : Telemetry)
  deriving DecidableEq

/-- the packet type on the wire. models vlp/packet_builder.rs:105-113 -/
def Uplink.tag : Uplink → BitVec 4
  | .verticalCalibration _ => 0#4
  | .softArm _ _ => 1#4
  | .lowPowerMode _ _ => 2#4
  | .reset _ => 3#4
  | .deleteLogs _ => 4#4
  | .groundTestDeploy _ _ => 5#4
  | .manualTrigger _ => 6#4

/-- the `serialize` functions of the uplink packets; `none` = panic. models vlp/packet.rs:11-157 and packet_builder.rs:117-135 -/
def Uplink.serialize (p : Uplink) (w : Writer) : Option Writer :=
  match p with
  | .verticalCalibration t => w.write (Prim.uint 64) t
  | .softArm t a => (w.write (Prim.uint 64) t).bind fun w => w.write Prim.bool a
  | .lowPowerMode t e => (w.write (Prim.uint 64) t).bind fun w => w.write Prim.bool e
  | .reset t => w.write (Prim.uint 64) t
  | .deleteLogs t => w.write (Prim.uint 64) t
  | .groundTestDeploy t p => (w.write (Prim.uint 64) t).bind fun w => w.write (Prim.uint 8) p.toU8
  | .manualTrigger t => w.write (Prim.uint 64) t

/-- `reader.read().unwrap()`; `none` = panic. models e.g. vlp/packet.rs:17-19 -/
def readU {α : Type} (p : Prim α) (r : Reader) : Option (α × Reader) :=
  match r.read p with
  | some (some v, r') => some (v, r')
  | _ => none

/-- the `deserialize` functions of the uplink packets, by packet type: `.err` = `continue` (unknown type). models vlp/packet.rs:16-157 and
packet_builder.rs:194-216 -/
def Uplink.deserialize (tag : BitVec 4) (r : Reader) : Out Uplink :=
  if tag = 0#4 then
    match readU (Prim.uint 64) r with
    | some (t, _) => .ok (.verticalCalibration t)
    | none => .panic
  else if tag = 1#4 then
    match readU (Prim.uint 64) r with
    | some (t, r) =>
      match readU Prim.bool r with
      | some (a, _) => .ok (.softArm t a)
      | none => .panic
    | none => .panic
  else if tag = 2#4 then
    match readU (Prim.uint 64) r with
    | some (t, r) =>
      match readU Prim.bool r with
      | some (a, _) => .ok (.lowPowerMode t a)
      | none => .panic
    | none => .panic
  else if tag = 3#4 then
    match readU (Prim.uint 64) r with
    | some (t, _) => .ok (.reset t)
    | none => .panic
  else if tag = 4#4 then
    match readU (Prim.uint 64) r with
    | some (t, _) => .ok (.deleteLogs t)
    | none => .panic
  else if tag = 5#4 then
    match readU (Prim.uint 64) r with
    | some (t, r) =>
      match readU (Prim.uint 8) r with
      | some (b, _) =>
        match Pyro.ofU8 b with
        | some p => .ok (.groundTestDeploy t p)
        | none => .panic
      | none => .panic
    | none => .panic
  else if tag = 6#4 then
    match readU (Prim.uint 64) r with
    | some (t, _) => .ok (.manualTrigger t)
    | none => .panic
  else .err

/-- `TelemetryPacket::serialize`. models vlp/telemetry_packet.rs:235-257 -/
def Telemetry.serialize (t : Telemetry) (w : Writer) : Option Writer := do
  let w ← w.write Prim.bool t.unixClockReady
  let w ← w.write (Prim.uint 32) t.timestamp
  let w ← w.write (Prim.uint 5) t.numOfFixSatellites
  let w ← w.write (Prim.uint 64).pair t.latLon
  let w ← w.write (Prim.uint 12) t.batteryV
  let w ← w.write (Prim.uint 11) t.temperature
  let w ← w.write Prim.bool t.hardwareArmed
  let w ← w.write Prim.bool t.softwareArmed
  let w ← w.write (Prim.uint 11) t.diskFreeSpace
  let w ← w.write Prim.bool t.pyroMainContinuity
  let w ← w.write Prim.bool t.pyroDrogueContinuity
  let w ← w.write (Prim.uint 10) t.altitude
  let w ← w.write (Prim.uint 10) t.maxAltitude
  let w ← w.write (Prim.uint 10) t.backupMaxAltitude
  let w ← w.write (Prim.uint 9) t.airSpeed
  let w ← w.write (Prim.uint 9) t.maxAirSpeed
  let w ← w.write (Prim.uint 9) t.backupMaxAirSpeed
  let w ← w.write (Prim.uint 3) t.flightCoreState
  let w ← w.write (Prim.uint 3) t.backupFlightCoreState
  let w ← w.write Prim.bool t.drogueDeployed
  w.write Prim.bool t.mainDeployed

/-- `TelemetryPacket::deserialize`; `none` = panic. models vlp/telemetry_packet.rs:259-283 -/
def Telemetry.deserialize (r : Reader) : Option Telemetry := do
  let (unixClockReady, r) ← readU Prim.bool r
  let (timestamp, r) ← readU (Prim.uint 32) r
  let (numOfFixSatellites, r) ← readU (Prim.uint 5) r
  let (latLon, r) ← readU (Prim.uint 64).pair r
  let (batteryV, r) ← readU (Prim.uint 12) r
  let (temperature, r) ← readU (Prim.uint 11) r
  let (hardwareArmed, r) ← readU Prim.bool r
  let (softwareArmed, r) ← readU Prim.bool r
  let (diskFreeSpace, r) ← readU (Prim.uint 11) r
  let (pyroMainContinuity, r) ← readU Prim.bool r
  let (pyroDrogueContinuity, r) ← readU Prim.bool r
  let (altitude, r) ← readU (Prim.uint 10) r
  let (maxAltitude, r) ← readU (Prim.uint 10) r
  let (backupMaxAltitude, r) ← readU (Prim.uint 10) r
  let (airSpeed, r) ← readU (Prim.uint 9) r
  let (maxAirSpeed, r) ← readU (Prim.uint 9) r
  let (backupMaxAirSpeed, r) ← readU (Prim.uint 9) r
  let (flightCoreState, r) ← readU (Prim.uint 3) r
  let (backupFlightCoreState, r) ← readU (Prim.uint 3) r
  let (drogueDeployed, r) ← readU Prim.bool r
  let (mainDeployed, _) ← readU Prim.bool r
  some ⟨unixClockReady, timestamp, numOfFixSatellites, latLon, batteryV, temperature, hardwareArmed, softwareArmed, diskFreeSpace,
    pyroMainContinuity, pyroDrogueContinuity, altitude, maxAltitude, backupMaxAltitude, airSpeed, maxAirSpeed, backupMaxAirSpeed,
    flightCoreState, backupFlightCoreState, drogueDeployed, mainDeployed⟩

/-- the packet type on the wire. models vlp/packet_builder.rs:239-242 -/
def Downlink.tag : Downlink → BitVec 1
  | .ack _ => 0#1
  | .telemetry _ => 1#1

/-- the `serialize` functions of the downlink packets. models vlp/packet.rs:197-200, telemetry_packet.rs:246-268, packet_builder.rs:246-251 -/
def Downlink.serialize (p : Downlink) (w : Writer) : Option Writer :=
  match p with
  | .ack t => w.write (Prim.uint 64) t
  | .telemetry t => t.serialize w

/-- the `deserialize` functions of the downlink packets, by packet type; a one-bit type is always known. models vlp/packet.rs:202-206 and
packet_builder.rs:307-317 -/
def Downlink.deserialize (tag : BitVec 1) (r : Reader) : Out Downlink :=
  if tag = 0#1 then
    match readU (Prim.uint 64) r with
    | some (t, _) => .ok (.ack t)
    | none => .panic
  else
    match Telemetry.deserialize r with
    | some t => .ok (.telemetry t)
    | none => .panic

/-- `MAX_VLP_PACKET_SIZE`. models vlp/packet_builder.rs:18 -/
def maxSize : Nat := 49

/-- `TIME_BASED_NONCE_ENABLED`. models vlp/packet_builder.rs:20 -/
def timeBasedNonce : Bool := false

/-- `u64::to_le_bytes` (Rust standard library) -/
def le64 (n : Nat) : Bytes := (List.range 8).map fun i => UInt8.ofNat (n / 256 ^ i)

/-- `get_nonce`; `time` is `time as u64`. models vlp/packet_builder.rs:52-61 -/
def getNonce (time : Nat) : Bytes := if timeBasedNonce then le64 (time - time % 100) else List.replicate 8 0x69

/-- `get_past_nonce`, without the offsets that are only logged; `now` is `now_ms() as u64`, `airTime` the time on air in ms.
models vlp/packet_builder.rs:63-94 -/
def getPastNonce (now airTime : Nat) : List Bytes :=
  if timeBasedNonce then
    let sent := now - airTime
    let start := sent - sent % 100 - 500
    (List.range 10).map fun i => le64 (start + i * 100)
  else [List.replicate 8 0x69]

/-- `calculate_ecc_length_from_data_length`. models vlp/packet_builder.rs:330-332 -/
def eccFromData (n : Nat) : Nat := n / 4

/-- `calculate_ecc_length_from_total_length`. models vlp/packet_builder.rs:334-336 -/
def eccFromTotal (n : Nat) : Nat := n / 5

/-- `VLPPacketBuilder`: the keys and the buffers that live from call to call. models vlp/packet_builder.rs:22-30 -/
structure Builder where
  uplinkKey : Bytes
  downlinkKey : Bytes
  writer : Writer
  reader : Reader

/-- `VLPPacketBuilder::new`. models vlp/packet_builder.rs:33-50 -/
def Builder.new (x : Ext) (key : Bytes) : Builder :=
  ⟨key, x.process key (List.replicate 8 0) (List.replicate 32 0), Writer.new maxSize, Reader.new maxSize⟩

/-- `extend_from_slice` and `push` of `heapless::Vec<u8, MAX_VLP_PACKET_SIZE>`: `none` = does not fit -/
def extend (buf data : Bytes) : Option Bytes := if buf.length + data.length ≤ maxSize then some (buf ++ data) else none

/-- `BitSliceReader::clear`. models delta_logger/bitslice_serialize.rs:74-77 -/
def clearReader (r : Reader) : Reader := { r with start := 0, stop := 0 }

/-- the checksum, the parity bytes and what surrounds them: the part of `serialize_uplink` and `serialize_downlink` after the bits are written.
`trailer` is what the checksum covers after the data. models vlp/packet_builder.rs:137-149 and 253-268 -/
def frame (x : Ext) (data trailer : Bytes) : Option Bytes :=
  match extend [] data with
  | none => none
  | some buf =>
    match extend buf [crc8 (buf ++ trailer)] with
    | none => none
    | some buf => extend buf (x.ecc (eccFromData buf.length) buf)

/-- `serialize_uplink`; `now` is the time in ms. models vlp/packet_builder.rs:96-156 -/
def Builder.serializeUplink (x : Ext) (b : Builder) (now : Nat) (p : Uplink) : Out Bytes × Builder :=
  match (b.writer.clear.write (Prim.uint 4) p.tag).bind p.serialize with
  | none => (.panic, b)
  | some w =>
    match frame x w.allBytes [] with
    | none => (.err, { b with writer := w })
    | some buf => (.ok (x.process b.uplinkKey (getNonce now) buf), { b with writer := w })

/-- `serialize_downlink`. models vlp/packet_builder.rs:230-270 -/
def Builder.serializeDownlink (x : Ext) (b : Builder) (now : Nat) (p : Downlink) : Out Bytes × Builder :=
  match (b.writer.clear.write (Prim.uint 1) p.tag).bind p.serialize with
  | none => (.panic, b)
  | some w =>
    match frame x w.allBytes (b.downlinkKey ++ getNonce now) with
    | none => (.err, { b with writer := w })
    | some buf => (.ok buf, { b with writer := w })

/-- one round of the loop of `deserialize_uplink` or `deserialize_downlink` after decryption: error correction, checksum, replenishing the reader and
reading the packet type of `n` bits; `.err` = `continue`. The result is the type and the reader behind it. `data()[..len - 1]` panics when no byte
is left. models vlp/packet_builder.rs:177-193 and 285-306 -/
def unframe (x : Ext) (reader : Reader) (n : Nat) (buf trailer : Bytes) : Out (BitVec n × Reader) :=
  match x.correct (eccFromTotal buf.length) buf with
  | none => .err
  | some d =>
    if d.length = 0 then .panic
    else if crc8 (d.dropLast ++ trailer) = d.getLast?.getD 0 then
      match (clearReader reader).replenish d.dropLast with
      | none => .panic
      | some r =>
        match readU (Prim.uint n) r with
        | none => .panic
        | some (tag, r) => .ok (tag, r)
    else .err

/-- the loop of `deserialize_uplink` over the candidate nonces. models vlp/packet_builder.rs:170-227 -/
def uplinkLoop (x : Ext) (b : Builder) (buf : Bytes) : List Bytes → Out Uplink
  | [] => .err
  | nonce :: rest =>
    match unframe x b.reader 4 (x.process b.uplinkKey nonce buf) [] with
    | .panic => .panic
    | .err => uplinkLoop x b buf rest
    | .ok (tag, r) =>
      match Uplink.deserialize tag r with
      | .err => uplinkLoop x b buf rest
      | o => o

/-- `deserialize_uplink`. The state the reader is left in does not matter (it is cleared before use): the builder is not part of the result.
models vlp/packet_builder.rs:158-228 -/
def Builder.deserializeUplink (x : Ext) (b : Builder) (now airTime : Nat) (buf : Bytes) : Out Uplink :=
  if buf.length ≤ 8 then .err else uplinkLoop x b buf (getPastNonce now airTime)

/-- the loop of `deserialize_downlink`. models vlp/packet_builder.rs:284-322 -/
def downlinkLoop (x : Ext) (b : Builder) (buf : Bytes) : List Bytes → Out Downlink
  | [] => .err
  | nonce :: rest =>
    match unframe x b.reader 1 buf (b.downlinkKey ++ nonce) with
    | .panic => .panic
    | .err => downlinkLoop x b buf rest
    | .ok (tag, r) =>
      match Downlink.deserialize tag r with
      | .err => downlinkLoop x b buf rest
      | o => o

/-- `deserialize_downlink`. models vlp/packet_builder.rs:272-327 -/
def Builder.deserializeDownlink (x : Ext) (b : Builder) (now airTime : Nat) (buf : Bytes) : Out Downlink :=
  if buf.length ≤ 8 then .err else downlinkLoop x b buf (getPastNonce now airTime)

end Verif.Vlp
