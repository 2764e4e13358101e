import Verif.Model.OzysDatabase
/-
The devices of the OZYS app and their manager (ozys-app/src/device/OzysDevice.ts, MockOzysDevice.ts, MicOzysDevice.ts, OzysDevicesManager.tsx). Simplifications: the clock (`Date.now()`) is a natural number of
milliseconds; samples are rationals (float rounding left out) and the sine of the mock device is a function of the time given from outside; what the microphone delivers is given from outside as well. A timer
is running or not; when it fires is up to the history. Only the manager subscribes to devices and never takes that back (the returned functions are thrown away), so a device only counts its subscribers.
Messages to a database worker that has been terminated are lost.
-/
namespace Verif.Ozys

/-- `OzysChannelState` of a connected channel (one that is not connected is `none`). models OzysDevice.ts:3-12 -/
structure Chan where
  enabled : Bool
  name : String
  id : String
deriving DecidableEq

/-- `OzysDeviceInfo`, without the model. models OzysDevice.ts:14-20 -/
structure DevInfo where
  name : String
  id : String
  recording : Bool
  channels : List (Option Chan)
deriving DecidableEq

/-- `OzysChannelRealtimeFft`: the spectrum of 100 ms. models OzysDevice.ts:42-58 -/
structure FPacket (α : Type) where
  timestamp : Int
  low : List α
  high : List α
deriving DecidableEq

/-- the two streams of a device -/
inductive Stream
  | readings
  | fft
deriving DecidableEq

/-- what a subscriber is called with -/
inductive Data
  | readings (d : RPacket Rat)
  | fft (d : FPacket Rat)
deriving DecidableEq

/-- a call of a subscriber: channel and data -/
abbrev Call := String × Data

/-- the loop of `renameChannel` and `controlChannel`: the first connected channel of that id is changed. models OzysDevice.ts:81-97 -/
def updFirst (c : String) (f : Chan → Chan) : List (Option Chan) → List (Option Chan)
  | [] => []
  | none :: l => none :: updFirst c f l
  | some x :: l => if x.id = c then some (f x) :: l else some x :: updFirst c f l

/-- a value for each of the streams, one of them changed -/
def setStream {β : Type} (f : Stream → β) (s : Stream) (v : β) : Stream → β := fun s' => if s' = s then v else f s'

/-- the state of a mock device: for each stream, whether it waits to be aligned, whether its timer runs, whether the timer is in `intervalIds`, and `lastTimestamp` (0 is treated like undefined, as in the code).
models MockOzysDevice.ts:8-9, 83-84, 121-122 -/
structure MockSt where
  waiting : Stream → Bool
  running : Stream → Bool
  listed : Stream → Bool
  last : Stream → Nat

/-- the state of a microphone: whether `init` is through, whether its nodes were stopped, `lastTimestamp`. models MicOzysDevice.ts:4-7, 69 -/
structure MicSt where
  opened : Bool
  stopped : Bool
  last : Option Nat

/-- what is particular to a device -/
inductive Body
  | mock (m : MockSt)
  | mic (m : MicSt)

/-- a device. models OzysDevice.ts:60-78 -/
structure Dev where
  info : DevInfo
  /-- number of subscribers (the same for both kinds of data, as `addDevice` subscribes to both) -/
  subs : Nat
  body : Body

/-- a channel of a new device -/
def newChan (dev : String) (k : Nat) (enabled : Bool) : Chan := ⟨enabled, "Channel " ++ toString k, dev ++ "-channel-" ++ toString k⟩

/-- id of the i-th mock device. models MockOzysDevice.ts:14 -/
def mockId (i : Nat) : String := "mock-ozys-" ++ toString i

/-- id of the i-th microphone. models MicOzysDevice.ts:12 -/
def micId (i : Nat) : String := "mic-ozys-" ++ toString i

/-- constructor of the mock device: both streams wait for alignment. models MockOzysDevice.ts:11-46 -/
def newMock (i : Nat) : Dev :=
  ⟨⟨"Mock OZYS " ++ toString i, mockId i, false, [some (newChan (mockId i) 1 true), some (newChan (mockId i) 2 true), some (newChan (mockId i) 3 false), none]⟩, 0,
    .mock ⟨fun _ => true, fun _ => false, fun _ => false, fun _ => 0⟩⟩

/-- constructor of the microphone. models MicOzysDevice.ts:9-38 -/
def newMic (i : Nat) : Dev :=
  ⟨⟨"Microphone " ++ toString i, micId i, false, [some (newChan (micId i) 1 true), none, none, none]⟩, 0, .mic ⟨false, false, none⟩⟩

/-- the channels data is made for. models MockOzysDevice.ts:59-62, 104-107 -/
def DevInfo.live (i : DevInfo) : List Chan := (i.channels.filterMap fun x => x).filter (·.enabled)

/-- `Math.round(x / step) * step`. models MockOzysDevice.ts:88, 126, MicOzysDevice.ts:79 -/
def roundTo (step x : Nat) : Nat := (x + step / 2) / step * step

/-- interval of a stream, in ms. models MockOzysDevice.ts:88, 94, 98, 126, 132, 136 -/
def Stream.step : Stream → Nat
  | .readings => 10
  | .fft => 100

/-- `for (let t = from; t < to; t += step)`. models MockOzysDevice.ts:94-96, 132-134 -/
def loopTimes (step t stop : Nat) : List Nat :=
  if 0 < step ∧ t < stop then t :: loopTimes step (t + step) stop else []
termination_by stop - t

/-- one packet of the mock device. models MockOzysDevice.ts:63-77, 108-114 -/
def mockData (wave : Rat → Rat) (s : Stream) (t : Nat) : Data :=
  match s with
  | .readings => .readings ⟨t, (List.range 20).map fun j : Nat => wave ((t : Rat) + (j : Rat) * (1 / 2)), List.replicate 20 0⟩
  | .fft => .fft ⟨t, List.replicate 200 0, List.replicate 360 0⟩

/-- every subscriber is called. models MockOzysDevice.ts:77-79, 115-117, MicOzysDevice.ts:100-106, 122-128 -/
def Dev.call (d : Dev) (c : String) (x : Data) : List Call := List.replicate d.subs (c, x)

/-- `generateData`. models MockOzysDevice.ts:58-81, 103-119 -/
def Dev.generate (wave : Rat → Rat) (d : Dev) (s : Stream) (t : Nat) : List Call := d.info.live.flatMap fun ch => d.call ch.id (mockData wave s t)

/-- the timer of a stream fires. models MockOzysDevice.ts:86-98, 124-136 -/
def Dev.mockTick (wave : Rat → Rat) (d : Dev) (m : MockSt) (s : Stream) (now : Nat) : List Call × MockSt :=
  if m.last s = 0 then ([], { m with last := setStream m.last s (roundTo s.step now) })
  else ((loopTimes s.step (m.last s) (roundTo s.step now)).flatMap (d.generate wave s), { m with last := setStream m.last s (roundTo s.step now) })

/-- the `i`-th packet of readings made of 4096 samples of sound. models MicOzysDevice.ts:92-107 -/
def micReadings (ts : Nat) (sound : Nat → Rat) (i : Nat) : RPacket Rat :=
  ⟨(ts : Int) - 100 + (i : Int) * 10, (List.range 20).map fun j : Nat => sound (i * 400 + j * 20) * 50, List.replicate 20 0⟩

/-- the packet made of 2048 bins of spectrum. models MicOzysDevice.ts:109-128 -/
def micFft (ts : Nat) (spectrum : Nat → Rat) : FPacket Rat :=
  ⟨(ts : Int) - 100, (List.range 200).map spectrum,
    (List.range 360).map fun k : Nat => (spectrum (200 + 5 * k) + spectrum (200 + 5 * k + 1) + spectrum (200 + 5 * k + 2) + spectrum (200 + 5 * k + 3) + spectrum (200 + 5 * k + 4)) / 5⟩

/-- what `onaudioprocess` passes on when it does not return early: the first channel only. models MicOzysDevice.ts:90-129 -/
def Dev.micCalls (d : Dev) (ts : Nat) (sound spectrum : Nat → Rat) : List Call :=
  match d.info.channels.head? with
  | some (some ch) => if ch.enabled then ((List.range 10).flatMap fun i => d.call ch.id (.readings (micReadings ts sound i))) ++ d.call ch.id (.fft (micFft ts spectrum)) else []
  | _ => []

/-- `onaudioprocess`. models MicOzysDevice.ts:69-132 -/
def Dev.micAudio (d : Dev) (m : MicSt) (now : Nat) (sound spectrum : Nat → Rat) : List Call × MicSt :=
  if m.last = some (roundTo 100 now) then ([], m) else (d.micCalls (roundTo 100 now) sound spectrum, { m with last := some (roundTo 100 now) })

/-- what can happen to a device -/
inductive DevOp
  /-- the wait of `untilAligned` for a stream is over (mock device) -/
  | aligned (s : Stream)
  /-- the timer of a stream fires at that time (mock device) -/
  | tick (s : Stream) (now : Nat)
  /-- the microphone is there: `init` is through -/
  | opened
  /-- `onaudioprocess` at that time, with sound and spectrum -/
  | audio (now : Nat) (sound spectrum : Nat → Rat)
  | disconnect
  | control (c : String) (enabled : Bool)
  | renameChannel (c : String) (name : String)
  | renameDevice (name : String)
  | record (enabled : Bool)

/-- the mock device after the wait for alignment: the timer is started and listed. models MockOzysDevice.ts:83-86, 121-124 -/
def MockSt.align (m : MockSt) (s : Stream) : MockSt := { m with waiting := setStream m.waiting s false, running := setStream m.running s true, listed := setStream m.listed s true }

/-- `disconnect` of the mock device: the listed timers are cleared. models MockOzysDevice.ts:48-50 -/
def MockSt.disconnect (m : MockSt) : MockSt := { m with running := fun s => m.running s && !m.listed s }

/-- one step. models OzysDevice.ts:77-101, MockOzysDevice.ts:48-55, 83-99, 121-137, MicOzysDevice.ts:39-66, 135-139 -/
def Dev.step (wave : Rat → Rat) (d : Dev) : DevOp → List Call × Dev
  | .aligned s => ([], match d.body with
    | .mock m => if m.waiting s then { d with body := .mock (m.align s) } else d
    | .mic _ => d)
  | .tick s now => match d.body with
    | .mock m => if m.running s then ((d.mockTick wave m s now).1, { d with body := .mock (d.mockTick wave m s now).2 }) else ([], d)
    | .mic _ => ([], d)
  | .opened => ([], match d.body with
    | .mic m => { d with body := .mic { m with opened := true } }
    | .mock _ => d)
  | .audio now sound spectrum => match d.body with
    | .mic m => if m.opened && !m.stopped then ((d.micAudio m now sound spectrum).1, { d with body := .mic (d.micAudio m now sound spectrum).2 }) else ([], d)
    | .mock _ => ([], d)
  | .disconnect => ([], match d.body with
    | .mock m => { d with body := .mock m.disconnect }
    | .mic m => { d with body := .mic { m with stopped := m.stopped || m.opened } })
  | .control c e => ([], { d with info := { d.info with channels := updFirst c (fun x => { x with enabled := e }) d.info.channels } })
  | .renameChannel c n => ([], { d with info := { d.info with channels := updFirst c (fun x => { x with name := n }) d.info.channels } })
  | .renameDevice n => ([], { d with info := { d.info with name := n } })
  | .record e => ([], { d with info := { d.info with recording := e } })

/-- a history of a device: the calls of its subscribers -/
def Dev.run (wave : Rat → Rat) (d : Dev) : List DevOp → List Call × Dev
  | [] => ([], d)
  | o :: os => ((d.step wave o).1 ++ ((d.step wave o).2.run wave os).1, ((d.step wave o).2.run wave os).2)

/-! ### The manager -/

/-- the manager: all device objects ever made, those listed (`devices`), the counters of the two classes, and whether the database worker was terminated. models OzysDevicesManager.tsx:16-19,
MockOzysDevice.ts:8, MicOzysDevice.ts:4 -/
structure Mgr where
  objs : List Dev
  devices : List Nat
  mockI : Nat
  micI : Nat
  terminated : Bool

/-- at first -/
def Mgr.init : Mgr := ⟨[], [], 1, 1, false⟩

/-- `addDevice`: the manager subscribes to it and lists it. models OzysDevicesManager.tsx:58-66 -/
def Mgr.addDevice (w : Mgr) (d : Dev) : Mgr := { w with objs := w.objs ++ [{ d with subs := d.subs + 1 }], devices := w.devices ++ [w.objs.length] }

/-- a device by its number -/
def Mgr.dev (w : Mgr) (r : Nat) : Option Dev := w.objs[r]?

/-- an operation of a device; the calls are passed on to the database worker. models OzysDevicesManager.tsx:59-64 -/
def Mgr.devStep (wave : Rat → Rat) (w : Mgr) (r : Nat) (o : DevOp) : List Call × Mgr :=
  match w.objs[r]? with
  | none => ([], w)
  | some d => (if w.terminated then [] else (d.step wave o).1, { w with objs := w.objs.set r (d.step wave o).2 })

/-- `disconnectDevice`: the first device of that id is taken off the list and disconnected. models OzysDevicesManager.tsx:68-76 -/
def Mgr.disconnectDevice (wave : Rat → Rat) (w : Mgr) (id : String) : Mgr :=
  match w.devices.find? fun r => (w.objs[r]?).any fun d => d.info.id = id with
  | none => w
  | some r => { (w.devStep wave r .disconnect).2 with devices := w.devices.erase r }

/-- `disconnectAllDevices`. models OzysDevicesManager.tsx:78-83 -/
def Mgr.disconnectAll (wave : Rat → Rat) (w : Mgr) : Mgr :=
  { w.devices.foldl (fun w r => (w.devStep wave r .disconnect).2) w with devices := [], terminated := true }

/-- `activeChannels`. models OzysDevicesManager.tsx:21-35 -/
def Mgr.activeChannels (w : Mgr) : List (Nat × Chan) :=
  w.devices.flatMap fun r => match w.objs[r]? with
    | some d => d.info.live.map fun ch => (r, ch)
    | none => []

/-- `getDeviceAndChannel`. models OzysDevicesManager.tsx:48-57 -/
def Mgr.lookup (w : Mgr) (c : String) : Option (Nat × Chan) :=
  w.devices.findSome? fun r => match w.objs[r]? with
    | some d => ((d.info.channels.filterMap id).find? fun ch => ch.id = c).map fun ch => (r, ch)
    | none => none

/-- what can happen -/
inductive MgrOp
  | addMock
  | addMic
  | dev (r : Nat) (o : DevOp)
  | disconnect (id : String)
  | disconnectAll

/-- one step. models OzysDevicesManager.tsx:58-83, Devices.tsx:16-33 -/
def Mgr.step (wave : Rat → Rat) (w : Mgr) : MgrOp → List Call × Mgr
  | .addMock => ([], { w.addDevice (newMock w.mockI) with mockI := w.mockI + 1 })
  | .addMic => ([], { w.addDevice (newMic w.micI) with micI := w.micI + 1 })
  | .dev r o => w.devStep wave r o
  | .disconnect id => ([], w.disconnectDevice wave id)
  | .disconnectAll => ([], w.disconnectAll wave)

/-- a history: the calls that reach the database worker -/
def Mgr.run (wave : Rat → Rat) (w : Mgr) : List MgrOp → List Call × Mgr
  | [] => ([], w)
  | o :: os => ((w.step wave o).1 ++ ((w.step wave o).2.run wave os).1, ((w.step wave o).2.run wave os).2)

end Verif.Ozys
