/-
The module bus (vl8-ctrl-protocol): packages on a serial line between the flight computer (master) and a module (slave).
The crate is in /repo but not in the workspace's member list (Cargo.toml:8).
Layout: rkyv's archived structures have only byte-aligned fields here; they are modelled as the fields in the order of declaration, enumerations as a tag
byte followed by the fields of the variant, padding bytes are 0 (rkyv 0.7: `#[repr(u8)]` enumerations, zeroed before they are resolved).
-/
namespace Verif.ModuleBus

abbrev Byte := BitVec 8

/-- an event of a module; the sentence is an array of 84 bytes. models packages/event.rs:14-20 -/
inductive Event
  | continuity (channel : Byte) (ok : Bool)
  | arming (armed : Bool)
  | nmea (sentence : List Byte) (length : Byte)
  deriving DecidableEq

/-- a package. models codec.rs:32-45 and packages/*.rs -/
inductive Pkg
  | ack
  | pyroCtrl (channel : Byte) (enable : Bool)
  | getDevice
  | deviceInfo (id : List Byte) (model : Byte)
  | pollEvent
  | event (left : Byte) (e : Option Event)
  | getContinuity (channel : Byte)
  | continuityInfo (ok : Bool)
  | getArming
  | armingInfo (armed : Bool)
  | cameraCtrl (recording : Bool)
  deriving DecidableEq

/-- the arrays have their declared length. models packages/event.rs:19, packages/device.rs:19 -/
def Pkg.Wf : Pkg → Prop
  | .deviceInfo id _ => id.length = 12
  | .event _ (some (.nmea s _)) => s.length = 84
  | _ => True

/-- the package numbers. models ack.rs:9-13, pyro.rs:12-16, device.rs:9-13, 22-26, event.rs:9-13, 29-33, continuity.rs:11-15, 23-27, hardware_arming.rs:9-13, 21-25, camera.rs:11-15 -/
def Pkg.id : Pkg → Byte
  | .ack => 0x00#8
  | .pyroCtrl .. => 0x01#8
  | .getDevice => 0x02#8
  | .deviceInfo .. => 0x03#8
  | .pollEvent => 0x04#8
  | .event .. => 0x05#8
  | .getContinuity _ => 0x06#8
  | .continuityInfo _ => 0x07#8
  | .getArming => 0x08#8
  | .armingInfo _ => 0x09#8
  | .cameraCtrl _ => 0x0A#8

/-- a boolean in memory -/
def bit (b : Bool) : Byte := if b then 1#8 else 0#8

/-- the bytes of an optional event: 87 bytes. models packages/event.rs:14-26 -/
def eventBytes : Option Event → List Byte
  | none => List.replicate 87 0#8
  | some (.continuity c ok) => [1#8, 0#8, c, bit ok] ++ List.replicate 83 0#8
  | some (.arming a) => [1#8, 1#8, bit a] ++ List.replicate 84 0#8
  | some (.nmea s n) => [1#8, 2#8] ++ s ++ [n]

/-- the bytes of a package's structure. models codec.rs:20-23 -/
def Pkg.payload : Pkg → List Byte
  | .ack => []
  | .pyroCtrl c e => [c, bit e]
  | .getDevice => []
  | .deviceInfo id m => id ++ [m]
  | .pollEvent => []
  | .event l e => l :: eventBytes e
  | .getContinuity c => [c]
  | .continuityInfo b => [bit b]
  | .getArming => []
  | .armingInfo b => [bit b]
  | .cameraCtrl b => [bit b]

/-- `encode_package`: length, number, structure. models codec.rs:19-30 -/
def encode (p : Pkg) : List Byte := BitVec.ofNat 8 p.payload.length :: p.id :: p.payload

/-- `size_of` of the structure with a package number; `none`: no such package. models codec.rs:64-121 -/
def structSize (id : Byte) : Option Nat := match id.toNat with
  | 0 => some 0
  | 1 => some 2
  | 2 => some 0
  | 3 => some 13
  | 4 => some 0
  | 5 => some 88
  | 6 => some 1
  | 7 => some 1
  | 8 => some 0
  | 9 => some 1
  | 10 => some 1
  | _ => none

/-- a byte read as a `bool`: only 0 and 1 are values of that type -/
def unbit (b : Byte) : Option Bool := if b = 0#8 then some false else if b = 1#8 then some true else none

/-- bytes read as an optional event; `none`: not a value of the type -/
def unevent : List Byte → Option (Option Event)
  | t :: r => if t = 0#8 then some none else if t = 1#8 then match r with
    | 0#8 :: c :: b :: _ => (unbit b).map fun ok => some (.continuity c ok)
    | 1#8 :: b :: _ => (unbit b).map fun a => some (.arming a)
    | 2#8 :: s => some (some (.nmea (s.take 84) (s.getD 84 0#8)))
    | _ => none
    else none
  | [] => none

/-- the structure with number `id` read from exactly `structSize id` bytes; `none`: the bytes are not a value of the type. models codec.rs:64-119 -/
def parse (id : Byte) (l : List Byte) : Option Pkg := match id.toNat, l with
  | 0, _ => some .ack
  | 1, [c, b] => (unbit b).map fun e => .pyroCtrl c e
  | 2, _ => some .getDevice
  | 3, l => some (.deviceInfo (l.take 12) (l.getD 12 0#8))
  | 4, _ => some .pollEvent
  | 5, n :: r => (unevent r).map fun e => .event n e
  | 6, [c] => some (.getContinuity c)
  | 7, [b] => (unbit b).map .continuityInfo
  | 8, _ => some .getArming
  | 9, [b] => (unbit b).map .armingInfo
  | 10, [b] => (unbit b).map .cameraCtrl
  | _, _ => none

/-- what `decode_package` does: a package, an error, or undefined behaviour (`archived_root` is unsafe: it takes the last `size_of` bytes, without checking that there are as many nor what they are). -/
inductive Decoded
  | ok (p : Pkg)
  | lengthDoesNotMatch
  | structureDoesNotMatch
  | unknownPackageId
  | undefinedBehaviour
  deriving DecidableEq

/-- the structure at the end of the payload. models codec.rs:64-119 (`archived_root`) -/
def decodeStruct (id : Byte) (n : Nat) (payload : List Byte) : Decoded :=
  if payload.length < n then .undefinedBehaviour
  else match parse id (payload.drop (payload.length - n)) with
    | some p => .ok p
    | none => .undefinedBehaviour

/-- `decode_package`. models codec.rs:54-122 -/
def decode : List Byte → Decoded
  | [] => .lengthDoesNotMatch
  | [_] => .lengthDoesNotMatch
  | l :: id :: payload =>
    if payload.length + 2 ≠ l.toNat + 2 then .lengthDoesNotMatch
    else match structSize id with
      | some n => decodeStruct id n payload
      | none => .unknownPackageId

/-! ### the module -/

/-- `push_event` on the queue of five. models slave.rs:31-41 -/
def push (q : List Event) (e : Event) : List Event := (if q.length = 5 then q.drop 1 else q) ++ [e]

/-- the answer to a poll, and the queue after it. models slave.rs:59-73 -/
def poll : List Event → List Event × Pkg
  | [] => ([], .event 0#8 none)
  | e :: q => (q, .event (BitVec.ofNat 8 q.length) (some e))

/-- what the module's application does with a package that `next` returns: new state, and the package it responds with -/
abbrev App (σ : Type) := σ → Pkg → σ × Option Pkg

/-- a module: its event queue, the state of its application, and the packages the application was given so far -/
structure Slave (σ : Type) where
  events : List Event
  app : σ
  got : List Pkg

/-- one received package: `next` answers polls itself and ignores errors, other packages go to the application, which may `respond`. models slave.rs:43-89.
Undefined behaviour of the decoder is taken as "ignored" here. -/
def Slave.recv {σ : Type} (h : App σ) (s : Slave σ) (bytes : List Byte) : Slave σ × Option (List Byte) := match decode bytes with
  | .ok .pollEvent => ({ s with events := (poll s.events).1 }, some (encode (poll s.events).2))
  | .ok p => ({ s with app := (h s.app p).1, got := s.got ++ [p] }, (h s.app p).2.map encode)
  | _ => (s, none)

/-- `Slave::run`, the other loop of a module: it answers `GetDevice` and `PyroCtrl` and nothing else. models slave.rs:91-124 -/
def Slave.runOne {σ : Type} (h : App σ) (s : Slave σ) (bytes : List Byte) : Slave σ × Option (List Byte) := match decode bytes with
  | .ok .getDevice => ({ s with app := (h s.app .getDevice).1, got := s.got ++ [.getDevice] }, (h s.app .getDevice).2.map encode)
  | .ok (.pyroCtrl c e) => ({ s with app := (h s.app (.pyroCtrl c e)).1, got := s.got ++ [.pyroCtrl c e] }, (h s.app (.pyroCtrl c e)).2.map encode)
  | _ => (s, none)

/-! ### the master -/

/-- `RequestError`. models master.rs:28-34 -/
inductive Err
  | serial
  | package (d : Decoded)
  | protocol
  | timeout
  deriving DecidableEq

/-- what happens to the answer on its way -/
inductive Fate
  | whole
  | lost
  | becomes (bytes : List Byte)

/-- what the line does with one attempt: the write may fail, the request may be lost, the answer has a fate, the read may fail, and whatever there is to read may come in time or not -/
structure Att where
  writeOk : Bool
  arrives : Bool
  answer : Fate
  readOk : Bool
  inTime : Bool

/-- the module, and the answers that wait to be read by the master: a read takes the oldest. An answer is read as a whole (simplification). -/
structure World (σ : Type) where
  slave : Slave σ
  line : List (List Byte)

/-- the line after the module was reached -/
def arrive (line : List (List Byte)) (f : Fate) : Option (List Byte) → List (List Byte)
  | none => line
  | some a => match f with
    | .whole => line ++ [a]
    | .lost => line
    | .becomes b => line ++ [b]

/-- what the master makes of the bytes it read. models master.rs:63 -/
def result (bytes : List Byte) : Except Err Pkg := match decode bytes with
  | .ok p => .ok p
  | d => .error (.package d)

/-- the module gets the request, unless it is lost -/
def World.reach {σ : Type} (h : App σ) (w : World σ) (req : List Byte) (a : Att) : World σ :=
  if a.arrives then { slave := (w.slave.recv h req).1, line := arrive w.line a.answer (w.slave.recv h req).2 } else w

/-- the master reads. models master.rs:57-63 -/
def World.read {σ : Type} (w : World σ) (a : Att) : World σ × Except Err Pkg :=
  if a.inTime then
    if a.readOk then match w.line with
      | b :: r => ({ w with line := r }, result b)
      | [] => (w, .error .timeout)
    else (w, .error .serial)
  else (w, .error .timeout)

/-- `request_once`. models master.rs:46-64 -/
def World.once {σ : Type} (h : App σ) (w : World σ) (req : List Byte) (a : Att) : World σ × Except Err Pkg :=
  if a.writeOk then (w.reach h req a).read a else (w, .error .serial)

/-- did it succeed -/
def isOk {α β : Type} : Except α β → Bool
  | .ok _ => true
  | .error _ => false

/-- the loop of `request` from attempt `i` on (`fuel` ≥ 5 - i): the results of the attempts, in order; the last one is the result of the call. models master.rs:75-82 -/
def World.attempts {σ : Type} (h : App σ) (req : List Byte) (atts : Nat → Att) : Nat → Nat → World σ → World σ × List (Except Err Pkg)
  | 0, _, w => (w, [])
  | fuel + 1, i, w =>
    if isOk (w.once h req (atts i)).2 || i > 3 then ((w.once h req (atts i)).1, [(w.once h req (atts i)).2])
    else
      let r := World.attempts h req atts fuel (i + 1) (w.once h req (atts i)).1
      (r.1, (w.once h req (atts i)).2 :: r.2)

/-- `request`: the attempts and the result. models master.rs:66-83 -/
def World.request {σ : Type} (h : App σ) (w : World σ) (p : Pkg) (atts : Nat → Att) : World σ × Except Err Pkg :=
  ((w.attempts h (encode p) atts 5 0).1, ((w.attempts h (encode p) atts 5 0).2.getLast?).getD (.error .timeout))

/-- `pyro_ctrl` and `camera_ctrl`: the answer must be an acknowledgement. models master.rs:112-127 -/
def expectAck : Except Err Pkg → Except Err Unit
  | .ok .ack => .ok ()
  | .ok _ => .error .protocol
  | .error e => .error e

/-- `get_continuity`. models master.rs:140-150 -/
def expectContinuity : Except Err Pkg → Except Err Bool
  | .ok (.continuityInfo b) => .ok b
  | .ok _ => .error .protocol
  | .error e => .error e

/-- `get_hardware_arming`. models master.rs:152-158 -/
def expectArming : Except Err Pkg → Except Err Bool
  | .ok (.armingInfo b) => .ok b
  | .ok _ => .error .protocol
  | .error e => .error e

/-- `poll_event`: the value returned, and the event stored for the drivers, if there is one. models master.rs:85-102 -/
def expectEvent : Except Err Pkg → Except Err Byte × Option Event
  | .ok (.event n e) => (.ok n, e)
  | .ok _ => (.error .protocol, none)
  | .error e => (.error e, none)

/-! ### the drivers on the master -/

/-- a driver of the master: it takes the events that are its own. models master_drivers.rs:70-79, 131-135, 179-193 -/
inductive Driver
  | continuity (channel : Byte)
  | arming
  | gps
  deriving DecidableEq

/-- is the event for this driver? models master_drivers.rs:70-75, 131, 179 -/
def Driver.wants : Driver → Event → Bool
  | .continuity c, .continuity c' _ => c' == c
  | .arming, .arming _ => true
  | .gps, .nmea .. => true
  | _, _ => false

/-- the master's event slot, and the events each driver has taken so far -/
structure Slot where
  last : Option Event
  taken : List (Driver × Event)

/-- a successful poll stores its event; an event that is still there is overwritten. models master.rs:89-96 -/
def Slot.store (s : Slot) : Option Event → Slot
  | some e => { s with last := some e }
  | none => s

/-- a driver's task runs. models master_drivers.rs:66-84, 127-140, 176-198 -/
def Slot.run (s : Slot) (d : Driver) : Slot := match s.last with
  | some e => if d.wants e then { last := none, taken := s.taken ++ [(d, e)] } else s
  | none => s

end Verif.ModuleBus
