import Verif.Model.FlightCore
import Verif.Model.Debounce
import Verif.Model.PubSub
import Verif.Model.Can
/-
`avionics_main` (firmware-common/src/avionics/mod.rs) and arming_state.rs: the tasks that decide about arming, the flight computers, the pyro channels, the camera and the
flight events on the CAN bus. One step is one poll of one task (or one iteration of it, where an iteration has no `await` inside); every interleaving is allowed.
Not modelled here: radio, loggers, telemetry except the arming flags, beeps, indicators. Actuator drivers do not fail.
-/
namespace Verif.Av

open Verif Fc Deb Vlp

/-- `FlightCoreRedundancy`. models avionics/flight_core_event_channel.rs:8-13 -/
inductive Redundancy
  | primary
  | backup
  | backupBackup
  deriving DecidableEq

/-- which deployment task -/
inductive Chute
  | drogue
  | main
  deriving DecidableEq

/-- what the tasks do to the outside -/
inductive Act
  | pyro (task : Chute) (channel : Pyro) (on : Bool) (t : Nat)
  | camera (on : Bool)
  | canEvent (e : Can.FlightEvent)
  | canReset
  deriving DecidableEq

/-- where a pyro task is: waiting for its event, in the delay, finished. models avionics/mod.rs:760-820 -/
inductive PyroTask
  | waiting
  | firing (since : Nat)
  | done
  deriving DecidableEq

/-- what does not change in a boot: profile with pyro selections, filter coefficients, the clock (ms as float) -/
structure Cfg (fl : Floats) where
  profile : Profile fl
  drogue : Pyro
  main : Pyro
  q : Biquad fl
  clock : Nat → fl.D

/-- the shared state. models avionics/mod.rs:238-262, avionics/arming_state.rs:13-37 -/
structure Av (fl : Floats) where
  lowPower : Bool
  storageFull : Bool
  sw : Bool
  hw : Bool
  deb : Deb Bool
  hwSignal : Option Bool
  armMsg : Option (Bool × Bool)
  backup : Option (Backup fl)
  manual : Option (Manual fl)
  sensor : Option (Reading fl)
  events : List (Redundancy × Event fl.S)
  posCan : Nat
  posDrogue : Nat
  posMain : Nat
  posCamera : Nat
  drogueTask : PyroTask
  mainTask : PyroTask
  cameraWait : Option Nat
  telemSw : Bool
  telemHw : Bool
  telemDrogue : Bool
  telemMain : Bool
  resetting : Bool
  panicked : Bool
  logged : List (Reading fl)
  acts : List Act

/-- after boot. models avionics/mod.rs:238-262 -/
def Av.init {fl : Floats} : Av fl :=
  { lowPower := false, storageFull := false, sw := false, hw := false, deb := .first, hwSignal := none, armMsg := none, backup := none, manual := none, sensor := none, events := []
    posCan := 0, posDrogue := 0, posMain := 0, posCamera := 0, drogueTask := .waiting, mainTask := .waiting, cameraWait := none
    telemSw := false, telemHw := false, telemDrogue := false, telemMain := false, resetting := false, panicked := false, logged := [], acts := [] }

/-- `is_armed`. models avionics/arming_state.rs:24-26, 59-61 -/
def Av.isArmed {fl : Floats} (a : Av fl) : Bool := a.sw && a.hw

/-- `set_software_armed`: the new state replaces an unread one (capacity 1). models avionics/arming_state.rs:47-53 -/
def Av.setSoftware {fl : Floats} (a : Av fl) (armed : Bool) : Av fl := { a with sw := armed, armMsg := some (armed, a.hw) }

/-- `FlightCoreEventChannelPublisher::publish` for some events. models avionics/flight_core_event_channel.rs:44-46 -/
def Av.publish {fl : Floats} (a : Av fl) (r : Redundancy) (ev : List (Event fl.S)) : Av fl := { a with events := a.events ++ ev.map fun e => (r, e) }

/-- an iteration of `vlp_rx_fut`: a packet at time `now`. The file system part of DeleteLogs is not modelled here. models avionics/mod.rs:342-436 -/
def Av.packet {fl : Floats} (c : Cfg fl) (a : Av fl) (p : Uplink) (now : Nat) : Av fl :=
  if a.resetting then a
  else
    let a := { a with lowPower := false }
    match p with
    | .verticalCalibration _ => a
    | .softArm _ armed => { a.setSoftware armed with telemSw := armed }
    | .lowPowerMode _ enabled =>
      let a := { a with lowPower := enabled }
      if enabled then a else { a.setSoftware false with telemSw := false }
    | .reset _ => { a with resetting := true, acts := a.acts ++ [.canReset] }
    | .deleteLogs _ => a
    | .groundTestDeploy _ _ => a
    | .manualTrigger _ =>
      match a.manual with
      | none => a
      | some m =>
        let r := m.trigger (c.clock now)
        ({ a with manual := some r.1 }).publish .backupBackup r.2

/-- a poll of `run_debounce` (1000 ms), which signals the debounced value. models avionics/arming_state.rs:39-45, 67-69 -/
def Av.pollDebounce {fl : Floats} (a : Av fl) (changed : Option Bool) (now : Nat) : Av fl :=
  let r := a.deb.poll 1000 now changed
  { a with deb := r.1, hwSignal := match r.2 with | some v => some v | none => a.hwSignal }

/-- an iteration of `hardware_arming_fut`: the switch has value `v` at time `now`; the debounce task gets it. models avionics/mod.rs:450-459 -/
def Av.switch {fl : Floats} (a : Av fl) (v : Bool) (now : Nat) : Av fl := ({ a with telemHw := v }).pollDebounce (some v) now

/-- a poll of `set_hardware_armed_fut`. models avionics/arming_state.rs:71-80 -/
def Av.applyHw {fl : Floats} (a : Av fl) : Av fl :=
  match a.hwSignal with
  | none => a
  | some v => { a with hwSignal := none, hw := v, armMsg := some (a.sw, v) }

/-- a poll of `setup_flight_core_fut`: creates the flight computers when armed, drops them (which publishes) when not. models avionics/mod.rs:604-636 -/
def Av.setup {fl : Floats} (c : Cfg fl) (a : Av fl) : Av fl :=
  match a.armMsg with
  | none => a
  | some (sw, hw) =>
    let a := { a with armMsg := none }
    if (sw && hw) = true then
      match a.backup with
      | none => { a with backup := some (.new c.q c.profile), manual := some (.new c.profile) }
      | some _ => a
    else
      match a.backup with
      | none => a
      | some b =>
        let a := ({ a with backup := none }).publish .backup b.drop
        match a.manual with
        | none => a
        | some _ => ({ a with manual := none }).publish .backupBackup [.changeState .disArmed]

/-- an iteration of `imu_baro_fut` with barometer reading `r`, or with a failed read. models avionics/mod.rs:520-541 -/
def Av.reading {fl : Floats} (a : Av fl) (r : Option (Reading fl)) : Av fl :=
  if a.lowPower then a
  else
    match r with
    | none => { a with panicked := true }
    | some r => { a with sensor := some r, logged := if a.storageFull then a.logged else a.logged ++ [r] }

/-- an iteration of `storage_full_detection_fut`. models avionics/mod.rs:845-853 -/
def Av.storage {fl : Floats} (a : Av fl) (free : Nat) : Av fl := { a with storageFull := decide (free < 1024 * 1024) }

/-- a poll of `flight_core_tick_fut`. models avionics/mod.rs:638-667 -/
def Av.tick {fl : Floats} (a : Av fl) : Av fl :=
  match a.sensor with
  | none => a
  | some r =>
    let a := { a with sensor := none }
    match a.backup with
    | none => a
    | some b =>
      match b.tick r with
      | none => { a with panicked := true }
      | some (b, ev) => ({ a with backup := some b }).publish .backup ev

/-- an iteration of `backup_backup_flight_core_tick_fut`. models avionics/mod.rs:669-679 -/
def Av.manualTick {fl : Floats} (c : Cfg fl) (a : Av fl) (now : Nat) : Av fl :=
  match a.manual with
  | none => a
  | some m =>
    let r := m.tick (c.clock now)
    ({ a with manual := some r.1 }).publish .backupBackup r.2

/-- is this the event the pyro task waits for -/
def isDeploy {S : Type} (k : Chute) (e : Redundancy × Event S) : Bool :=
  match k, e.2 with
  | .drogue, .changeState .drogueChuteDeployed => true
  | .main, .changeState .mainChuteDeployed => true
  | _, _ => false

/-- a poll of `pyro_drogue_ctrl_fut` at time `now`; the event channel keeps 10 messages. models avionics/mod.rs:791-820 -/
def Av.pollDrogue {fl : Floats} (c : Cfg fl) (a : Av fl) (now : Nat) : Av fl :=
  match a.drogueTask with
  | .waiting =>
    if (PubSub.unread 10 a.events a.posDrogue).any (isDeploy .drogue) then
      { a with drogueTask := .firing now, posDrogue := a.events.length, telemDrogue := true, acts := a.acts ++ [.pyro .drogue c.drogue true now] }
    else { a with posDrogue := a.events.length }
  | .firing since => if since + 3000 ≤ now then { a with drogueTask := .done, acts := a.acts ++ [.pyro .drogue c.drogue false now] } else a
  | .done => a

/-- a poll of `pyro_main_ctrl_fut` at time `now`. models avionics/mod.rs:760-789 -/
def Av.pollMain {fl : Floats} (c : Cfg fl) (a : Av fl) (now : Nat) : Av fl :=
  match a.mainTask with
  | .waiting =>
    if (PubSub.unread 10 a.events a.posMain).any (isDeploy .main) then
      { a with mainTask := .firing now, posMain := a.events.length, telemMain := true, acts := a.acts ++ [.pyro .main c.main true now] }
    else { a with posMain := a.events.length }
  | .firing since => if since + 3000 ≤ now then { a with mainTask := .done, acts := a.acts ++ [.pyro .main c.main false now] } else a
  | .done => a

/-- what `can_tx_flight_event_fut` sends for an event. models avionics/mod.rs:738-756 -/
def canEventOf {S : Type} (e : Redundancy × Event S) : Option Can.FlightEvent :=
  match e.2 with
  | .changeState .powerAscend => some .ignition
  | .changeState .coast => some .coast
  | .changeState .descent => some .apogee
  | .changeState .landed => some .landed
  | _ => none

/-- a poll of `can_tx_flight_event_fut`. The bus does not block it. models avionics/mod.rs:724-758 -/
def Av.pollCan {fl : Floats} (a : Av fl) : Av fl :=
  { a with posCan := a.events.length, acts := a.acts ++ ((PubSub.unread 10 a.events a.posCan).filterMap canEventOf).map .canEvent }

/-- the camera task goes through its unread messages until it has none left or has to wait: how many it read, what it did, whether it waits. models avionics/mod.rs:822-843 -/
def cameraRead {S : Type} : List (Redundancy × Event S) → Nat × List Act × Bool
  | [] => (0, [], false)
  | e :: l =>
    match e.2 with
    | .changeState .armed => let r := cameraRead l; (r.1 + 1, .camera true :: r.2.1, r.2.2)
    | .changeState .disArmed => let r := cameraRead l; (r.1 + 1, .camera false :: r.2.1, r.2.2)
    | .changeState .landed => (1, [], true)
    | _ => let r := cameraRead l; (r.1 + 1, r.2.1, r.2.2)

/-- a poll of `camera_ctrl_fut`; when the minute after the landing is over it goes on reading at the next poll. models avionics/mod.rs:822-843 -/
def Av.pollCamera {fl : Floats} (a : Av fl) (now : Nat) : Av fl :=
  match a.cameraWait with
  | some since => if since + 60000 ≤ now then { a with cameraWait := none, acts := a.acts ++ [.camera false] } else a
  | none =>
    let r := cameraRead (PubSub.unread 10 a.events a.posCamera)
    { a with posCamera := PubSub.next 10 a.events a.posCamera + r.1, acts := a.acts ++ r.2.1, cameraWait := if r.2.2 then some now else none }

/-- one step -/
inductive Op (fl : Floats)
  | packet (p : Uplink) (now : Nat)
  | switch (v : Bool) (now : Nat)
  | debounce (now : Nat)
  | applyHw
  | setup
  | reading (r : Option (Reading fl))
  | storage (free : Nat)
  | tick
  | manualTick (now : Nat)
  | drogue (now : Nat)
  | main (now : Nat)
  | can
  | camera (now : Nat)

/-- what a step does -/
def Av.act {fl : Floats} (c : Cfg fl) (a : Av fl) : Op fl → Av fl
  | .packet p now => a.packet c p now
  | .switch v now => a.switch v now
  | .debounce now => a.pollDebounce none now
  | .applyHw => a.applyHw
  | .setup => a.setup c
  | .reading r => a.reading r
  | .storage free => a.storage free
  | .tick => a.tick
  | .manualTick now => a.manualTick c now
  | .drogue now => a.pollDrogue c now
  | .main now => a.pollMain c now
  | .can => a.pollCan
  | .camera now => a.pollCamera now

/-- one step; nothing happens after a panic -/
def Av.step {fl : Floats} (c : Cfg fl) (a : Av fl) (o : Op fl) : Av fl := if a.panicked then a else a.act c o

/-- the steps of a boot, from the start -/
def Av.run {fl : Floats} (c : Cfg fl) (ops : List (Op fl)) : Av fl := ops.foldl (Av.step c) .init

end Verif.Av
