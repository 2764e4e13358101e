import Verif.Basic
/-
CAN bus (firmware-common/src/common/can_bus/*, driver/can_bus.rs) and the receiving loop of the strain gauge board (strain_gauges/mid_prio.rs).
`packed_struct` is modelled from its documentation: fields are laid out from the most significant bit on, in the order of declaration or at the given bits (bit 0 is the most
significant), integers most significant byte first, unused bits are written as zero and ignored when read; an enum value that does not exist is an error.
-/
namespace Verif.Can

/-- `CanBusExtendedId`. models can_bus/id.rs:4-12 -/
structure Id where
  priority : Nat
  messageType : Nat
  nodeType : Nat
  nodeId : Nat
  deriving DecidableEq

/-- `CanBusExtendedId::new`: `Integer<_, Bits<n>>` keeps the low `n` bits. models can_bus/id.rs:15-23 -/
def Id.new (priority messageType : UInt8) (nodeType : UInt8) (nodeId : UInt16) : Id :=
  ⟨priority.toNat % 2 ^ 3, messageType.toNat, nodeType.toNat % 2 ^ 6, nodeId.toNat % 2 ^ 12⟩

/-- `Into<u32>`: three reserved zero bits, 3, 8, 6 and 12 bits, most significant first. models can_bus/id.rs:4-12,33-38 -/
def Id.toRaw (i : Id) : Nat := ((i.priority * 2 ^ 8 + i.messageType) * 2 ^ 6 + i.nodeType) * 2 ^ 12 + i.nodeId

/-- `from_raw`. models can_bus/id.rs:25-30 -/
def Id.fromRaw (raw : Nat) : Id := ⟨raw / 2 ^ 26 % 2 ^ 3, raw / 2 ^ 18 % 2 ^ 8, raw / 2 ^ 12 % 2 ^ 6, raw % 2 ^ 12⟩

/-- `FlightEvent`. models can_bus/messages.rs:34-39 -/
inductive FlightEvent
  | ignition
  | coast
  | apogee
  | landed
  deriving DecidableEq

/-- the discriminant. models can_bus/messages.rs:34-40 -/
def FlightEvent.toNat : FlightEvent → Nat
  | .ignition => 0
  | .coast => 1
  | .apogee => 2
  | .landed => 3

/-- `from_primitive`. models can_bus/messages.rs:34-40 -/
def FlightEvent.ofPrimitive : Nat → Option FlightEvent
  | 0 => some .ignition
  | 1 => some .coast
  | 2 => some .apogee
  | 3 => some .landed
  | _ => none

/-- `HealthState`. models can_bus/messages.rs:58-63 -/
inductive Health
  | healthy
  | degraded
  | unhealthy
  deriving DecidableEq

/-- the discriminant. models can_bus/messages.rs:58-63 -/
def Health.toNat : Health → Nat
  | .healthy => 0
  | .degraded => 1
  | .unhealthy => 2

/-- `from_primitive`. models can_bus/messages.rs:58-63 -/
def Health.ofPrimitive : Nat → Option Health
  | 0 => some .healthy
  | 1 => some .degraded
  | 2 => some .unhealthy
  | _ => none

/-- the messages. models can_bus/messages.rs:5-86 -/
inductive Msg
  | unixTime (timestamp : Nat)
  | avionicsStatus (lowPower armed : Bool)
  | flightEvent (timestamp : Nat) (event : FlightEvent)
  | health (state : Health)
  | reset
  deriving DecidableEq

/-- `message_type`. models can_bus/messages.rs:13-15,28-30,53-55,73-75,84-86 -/
def Msg.messageType : Msg → Nat
  | .unixTime _ => 0
  | .avionicsStatus _ _ => 1
  | .flightEvent _ _ => 2
  | .health _ => 3
  | .reset => 4

/-- `to_data`; a 48-bit integer keeps the low 48 bits. models can_bus/message.rs:15-18 and the layouts in messages.rs:5-86 -/
def Msg.toData : Msg → Bytes
  | .unixTime t => beBytes 6 (t % 2 ^ 48)
  | .avionicsStatus l a => [UInt8.ofNat (l.toNat * 2 ^ 7 + a.toNat * 2 ^ 6)]
  | .flightEvent t e => beBytes 6 (t % 2 ^ 48) ++ [UInt8.ofNat (e.toNat * 2 ^ 5)]
  | .health h => [UInt8.ofNat (h.toNat * 2 ^ 6)]
  | .reset => [0]

/-- `len`. models can_bus/message.rs:24-26 and messages.rs -/
def lenOf : Nat → Option Nat
  | 0 => some 6
  | 1 => some 1
  | 2 => some 7
  | 3 => some 1
  | 4 => some 1
  | _ => none

/-- `data.try_into().unwrap()` and `from_data` of the message with this type; `none` = panic (wrong length, or an enum value that does not exist).
models can_bus/message.rs:20-22, messages.rs:5-86 and the calls in strain_gauges/mid_prio.rs:134-147 -/
def Msg.fromData (typ : Nat) (d : Bytes) : Option Msg :=
  if lenOf typ ≠ some d.length then none
  else
    match typ with
    | 0 => some (.unixTime (beNat d))
    | 1 => some (.avionicsStatus (decide ((d.getD 0 0).toNat / 2 ^ 7 % 2 = 1)) (decide ((d.getD 0 0).toNat / 2 ^ 6 % 2 = 1)))
    | 2 => (FlightEvent.ofPrimitive ((d.getD 6 0).toNat / 2 ^ 5)).map (Msg.flightEvent (beNat (d.take 6)))
    | 3 => (Health.ofPrimitive ((d.getD 0 0).toNat / 2 ^ 6)).map Msg.health
    | 4 => some .reset
    | _ => none

/-- one bit of CRC-16/GSM: polynomial 0x1021, not reflected (`crc` crate, `CRC_16_GSM`) -/
def crc16Bit (c : BitVec 16) : BitVec 16 := if c.msb then (c <<< 1) ^^^ 0x1021#16 else c <<< 1

/-- one byte of CRC-16/GSM -/
def crc16Byte (c : BitVec 16) (b : UInt8) : BitVec 16 :=
  crc16Bit (crc16Bit (crc16Bit (crc16Bit (crc16Bit (crc16Bit (crc16Bit (crc16Bit (c ^^^ (b.toBitVec.zeroExtend 16 <<< 8)))))))))

/-- `can_node_id_from_serial_number`. models driver/can_bus.rs:51-54 -/
def nodeIdFromSerial (serial : Bytes) : UInt16 := UInt16.ofBitVec ((serial.foldl crc16Byte 0#16 ^^^ 0xFFFF#16) &&& 0xFFF#16)

/-- a received frame. models driver/can_bus.rs:9-14 (`CanBusRawMessage`) -/
structure Frame where
  timestamp : Nat
  id : Nat
  rtr : Bool
  data : Bytes

/-- the variables of the strain gauge board's receiving loop: `unix` is the newest time synchronization (boot time, unix time), `enabled` what the sampling was last
told, `reset` whether a reset was requested. models strain_gauges/mid_prio.rs:64-67,111-114,158-166 -/
structure Sg where
  armed : Bool
  landed : Bool
  enabled : Bool
  unix : Option (Nat × Nat)
  reset : Bool
  deriving DecidableEq

/-- at start; `enabled`: the task that stores the samples may already have switched the sampling on (line 282). models strain_gauges/mid_prio.rs:64-67,113-114,282 -/
def Sg.init (enabled : Bool) : Sg := ⟨false, false, enabled, none, false⟩

/-- one received frame; `none` = panic. `sys_reset.reset()` does not return on hardware; here the request is recorded.
models strain_gauges/mid_prio.rs:117-166 -/
def Sg.receive (s : Sg) (f : Frame) : Option Sg :=
  if f.rtr then some s
  else
    let typ := (Id.fromRaw f.id).messageType
    let upd (s : Sg) : Sg := { s with enabled := s.armed && !s.landed }
    if typ = 1 then
      match Msg.fromData 1 f.data with
      | some (.avionicsStatus _ armed) => some (upd { s with armed := armed })
      | _ => none
    else if typ = 2 then
      match Msg.fromData 2 f.data with
      | some (.flightEvent _ e) => some (upd { s with landed := decide (e = .landed) })
      | _ => none
    else if typ = 0 then
      match Msg.fromData 0 f.data with
      | some (.unixTime t) => some (upd { s with unix := some (f.timestamp, t) })
      | _ => none
    else if typ = 4 then some (upd { s with reset := true })
    else some (upd s)

/-- a sequence of frames -/
def Sg.run : Sg → List Frame → Option Sg
  | s, [] => some s
  | s, f :: fs => (s.receive f).bind fun s => s.run fs

end Verif.Can
