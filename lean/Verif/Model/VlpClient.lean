import Verif.Model.Vlp
/-
The radio clients (firmware-common/src/common/vlp/downlink_client.rs: ground station; uplink_client.rs: rocket).
The radio and the passing of time are inputs of each pass of the loop; the 1000 ms pause after a radio error is not modelled. `LoraPhy` (lora_phy.rs) is
the radio: a transmission succeeds or fails, a reception gives a packet, a timeout or another error. `embassy_sync::Signal` keeps the newest value
until it is taken; its three uses are `Option` fields.
-/
namespace Verif.Vlp

/-- `PacketStatus` of the `lora-phy` crate: rssi and snr -/
abbrev Status := Int × Int

/-- what `LoraPhy::rx` returns: `Ok(status)` with the buffer, `Err(ReceiveTimeout)`, another error. models vlp/lora_phy.rs:42-75 -/
inductive RxRes
  | packet (buf : Bytes) (status : Status)
  | timeout
  | error
  deriving DecidableEq

/-- what the radio and the clock do in one attempt to send a command -/
structure Attempt where
  now : Nat
  txOk : Bool
  rx : RxRes
  later : Nat
  airTime : Nat

/-- how an attempt to receive an acknowledgement ends -/
inductive Reply
  | ack (status : Status)
  | other
  | radioError
  | panic
  deriving DecidableEq

/-- the reception after a transmission: `radioError` leaves the `try` block. models vlp/downlink_client.rs:84-116 -/
def recvAck (x : Ext) (b : Builder) (a : Attempt) : Reply :=
  match a.rx with
  | .packet buf st =>
    match b.deserializeDownlink x a.later a.airTime buf with
    | .ok (.ack _) => .ack st
    | .ok (.telemetry _) => .other
    | .err => .other
    | .panic => .panic
  | .timeout => .other
  | .error => .radioError

/-- how the sending of a command ends: `acked` and `notAcked` are signalled to `send`; `radioError` leaves the `try` block -/
inductive SendEnd
  | acked (status : Status)
  | notAcked
  | radioError
  | panic
  deriving DecidableEq

/-- the `for i in 0..5` loop, from attempt `i` with `rem` left. The result also lists the frames handed to the radio.
models vlp/downlink_client.rs:77-119 -/
def sendLoop (x : Ext) (p : Uplink) (air : Nat → Attempt) : Nat → Nat → Builder → SendEnd × Builder × List Bytes
  | 0, _, b => (.notAcked, b, [])
  | rem + 1, i, b =>
    match b.serializeUplink x (air i).now p with
    | (.ok buf, b) =>
      if (air i).txOk then
        match recvAck x b (air i) with
        | .ack st => (.acked st, b, [buf])
        | .other => ((sendLoop x p air rem (i + 1) b).1, (sendLoop x p air rem (i + 1) b).2.1, buf :: (sendLoop x p air rem (i + 1) b).2.2)
        | .radioError => (.radioError, b, [buf])
        | .panic => (.panic, b, [buf])
      else (.radioError, b, [buf])
    | (_, b) => (.panic, b, [])

/-- `VLPDownlinkClient` and the builder of its `run`. models vlp/downlink_client.rs:19-31 -/
structure Ground where
  builder : Builder
  tx : Option Uplink
  rx : Option (Downlink × Status)
  sendSuccess : Option (Option Status)

/-- `new` and the start of `run`. models vlp/downlink_client.rs:26-32,54 -/
def Ground.new (x : Ext) (key : Bytes) : Ground := ⟨Builder.new x key, none, none, none⟩

/-- the first half of `send`. models vlp/downlink_client.rs:36-39 -/
def Ground.send (g : Ground) (p : Uplink) : Ground := { g with tx := some p }

/-- the second half of `send`: `none` = still waiting. models vlp/downlink_client.rs:36-39 -/
def Ground.sendResult (g : Ground) : Option (Option Status) × Ground := (g.sendSuccess, { g with sendSuccess := none })

/-- `wait_receive`: `none` = still waiting. models vlp/downlink_client.rs:41-43 -/
def Ground.receive (g : Ground) : Option (Downlink × Status) × Ground := (g.rx, { g with rx := none })

/-- what the radio and the clock do in one pass of the loop of `run` -/
structure Pass where
  rx : RxRes
  now : Nat
  airTime : Nat
  air : Nat → Attempt

/-- the sending half of one pass. `none` = panic. models vlp/downlink_client.rs:73-125 -/
def Ground.sendPart (x : Ext) (g : Ground) (w : Pass) : Option Ground × List Bytes :=
  match g.tx with
  | none => (some g, [])
  | some p =>
    let r := sendLoop x p w.air 5 0 g.builder
    match r.1 with
    | .acked st => (some { g with tx := none, builder := r.2.1, sendSuccess := some (some st) }, r.2.2)
    | .notAcked => (some { g with tx := none, builder := r.2.1, sendSuccess := some none }, r.2.2)
    | .radioError => (some { g with tx := none, builder := r.2.1 }, r.2.2)
    | .panic => (none, r.2.2)

/-- one pass of the loop of `run`: the new state (`none` = panic) and the frames handed to the radio. models vlp/downlink_client.rs:58-130 -/
def Ground.pass (x : Ext) (g : Ground) (w : Pass) : Option Ground × List Bytes :=
  match w.rx with
  | .packet buf st =>
    match g.builder.deserializeDownlink x w.now w.airTime buf with
    | .ok p => Ground.sendPart x { g with rx := some (p, st) } w
    | .err => Ground.sendPart x g w
    | .panic => (none, [])
  | .timeout => Ground.sendPart x g w
  | .error => (some g, [])

/-- `VLPUplinkClient` and the variables of its `run`. models vlp/uplink_client.rs:20-24,53-56 -/
structure Rocket where
  builder : Builder
  tx : Option Downlink
  rx : Option (Uplink × Status)
  lowPower : Bool

/-- `new` and the start of `run`. models vlp/uplink_client.rs:26-32,53-56 -/
def Rocket.new (x : Ext) (key : Bytes) : Rocket := ⟨Builder.new x key, none, none, false⟩

/-- `send`. models vlp/uplink_client.rs:33-35 -/
def Rocket.send (r : Rocket) (p : Downlink) : Rocket := { r with tx := some p }

/-- what the radio and the clock do in one pass of the rocket's loop; `ts` is the timestamp of the acknowledgement -/
structure RPass where
  now : Nat
  txOk : Bool
  rx : RxRes
  later : Nat
  airTime : Nat
  ts : F64
  ackOk : Bool

/-- the result of one pass: `panic`, `waiting` for a packet to send, or done with the frames handed to the radio -/
inductive RStep
  | panic
  | waiting
  | done (r : Rocket) (frames : List Bytes)

/-- the reception of a pass, and the acknowledgement. models vlp/uplink_client.rs:78-112 -/
def Rocket.listen (x : Ext) (r : Rocket) (w : RPass) : RStep :=
  match w.rx with
  | .timeout => .done r []
  | .error => .done r []
  | .packet buf st =>
    match r.builder.deserializeUplink x w.later w.airTime buf with
    | .panic => .panic
    | .err => .done r []
    | .ok p =>
      let low := match p with
        | .lowPowerMode _ enabled => enabled
        | _ => r.lowPower
      match r.builder.serializeDownlink x w.later (.ack w.ts) with
      | (.ok buf, b) =>
        if w.ackOk then .done { r with lowPower := low, builder := b, rx := some (p, st) } [buf]
        else .done { r with lowPower := low, builder := b } [buf]
      | (_, _) => .panic

/-- one pass of the loop of `run`. models vlp/uplink_client.rs:58-116 -/
def Rocket.pass (x : Ext) (r : Rocket) (w : RPass) : RStep :=
  if r.lowPower then r.listen x w
  else
    match r.tx with
    | none => .waiting
    | some q =>
      match r.builder.serializeDownlink x w.now q with
      | (.ok buf, b) =>
        if w.txOk then
          match Rocket.listen x { r with tx := none, builder := b } w with
          | .done r frames => .done r (buf :: frames)
          | s => s
        else .done { r with tx := none, builder := b } [buf]
      | (_, _) => .panic

end Verif.Vlp
