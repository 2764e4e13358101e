import Verif.Model.Indicator
import Verif.Model.GroundTest
/-
Start-up of the flight computer: from the stored configuration to the running mode. models firmware-common/src/vl_main.rs, the beginnings of avionics/mod.rs, gcm/mod.rs,
ground_test_avionics/mod.rs and vacuum_test/mod.rs, avionics/self_test.rs, common/device_config.rs and the device claims of common/vl_device_manager.rs.
Simplifications: the start of the file system itself (`fs.init().await.unwrap()`) is not part of this model; the modes are only modelled up to the point where all their tasks have
been polled once; log output is left out.
-/
namespace Verif.StartUp
open Verif Vlp

/-- the radio parameters. models device_config.rs:25-32 -/
structure Lora where
  frequency : Nat
  sf : Nat
  bw : Nat
  cr : Nat
  power : Int

/-- `DeviceModeConfig`. models device_config.rs:15-23 -/
inductive Mode where
  | avionics
  | gcm
  | groundTest (drogue main : Pyro)
  | vacuum
deriving DecidableEq

/-- `DeviceConfig`, as far as it matters here. models device_config.rs:7-13 -/
structure Config where
  mode : Mode
  lora : Lora

/-- the parachute selections of the flight profile. models avionics/flight_profile.rs -/
structure Profile where
  drogue : Pyro
  main : Pyro

/-- `sf_modulation` and `sf_phy` do not panic. models device_config.rs:35-65 -/
def sfOk (sf : Nat) : Bool := [5, 6, 7, 8, 9, 10, 11, 12].contains sf
/-- `bw_modulation` and `bw_phy` do not panic. models device_config.rs:67-100 -/
def bwOk (bw : Nat) : Bool := [7810, 10420, 15630, 20830, 31250, 41670, 62500, 125000, 250000, 500000].contains bw
/-- `cr_modulation` and `cr_phy` do not panic. models device_config.rs:102-122 -/
def crOk (cr : Nat) : Bool := [5, 6, 7, 8].contains cr
/-- the conversion for the packet builder, which is done when the radio task is polled for the first time, does not panic. models device_config.rs:125-133, vlp/uplink_client.rs:46, vlp/downlink_client.rs:53 -/
def loraOk (l : Lora) : Bool := sfOk l.sf && bwOk l.bw && crOk l.cr

/-- the devices of the device manager that are claimed during start-up. models vl_device_manager.rs:65-98 -/
inductive Dev where
  | sysReset | flash | crc | usb | serial | buzzer | gps | gpsPps
  | lowG | highG | baro | mag | lora | arming | camera | canBus | indicators
  | pyro (d : Gt.Dev)
deriving DecidableEq

/-- the sensors of the self test, in order -/
inductive Sensor where
  | lowG | highG | baro | mag
deriving DecidableEq

/-- what the outside world does during start-up -/
structure Env where
  /-- configuration compiled in -/
  override : Option Config
  /-- configuration file -/
  stored : Option Config
  /-- ms until USB is connected -/
  usbMs : Option Nat
  profile : Option Profile
  resetOk : Sensor → Bool
  readOk : Sensor → Bool
  /-- all log files can be created -/
  filesOk : Bool

/-- what the main task does: `await`: the other tasks get a chance to run; `blink`: run a pattern, for ever unless all three are empty; `run`: all tasks of the mode are running -/
inductive Step where
  | await
  | claim (ds : List Dev)
  | free (ds : List Dev)
  | tone (freq ms silent : Nat)
  | blink (r g b : List Nat)
  | run (m : Mode)
  | panic

/-- how start-up ends -/
inductive Final where
  | halted (r g b : List Nat)
  | running (m : Mode)
  | panicked
deriving DecidableEq

/-- the tones played, how it ended, and whether the other tasks (consoles) could run at some point -/
structure Result where
  tones : List (Nat × Nat × Nat)
  final : Final
  awaited : Bool
deriving DecidableEq

/-- `claim_devices!`: every device must be free. models vl_device_manager.rs:247-254 -/
def claim : List Dev → List Dev → Option (List Dev)
  | held, [] => some held
  | held, d :: ds => if d ∈ held then none else claim (d :: held) ds

/-- carrying out the steps, with some devices held. (An empty list does not occur: every program ends with `run`, `panic` or an endless pattern.) -/
def exec : List Dev → List Step → Result
  | _, [] => ⟨[], .panicked, false⟩
  | held, s :: ss =>
    match s with
    | .await => { exec held ss with awaited := true }
    | .claim ds =>
      match claim held ds with
      | none => ⟨[], .panicked, false⟩
      | some held => exec held ss
    | .free ds => exec (held.filter fun d => !ds.contains d) ss
    | .tone f m q => let r := exec held ss; { r with tones := (f, m, q) :: r.tones }
    | .blink r g b =>
      if Indicator.runReturns r g b then exec held ss
      else ⟨[], .halted r g b, 0 < Indicator.waitsPerRound r + Indicator.waitsPerRound g + Indicator.waitsPerRound b⟩
    | .run m => ⟨[], .running m, true⟩
    | .panic => ⟨[], .panicked, false⟩

/-- `x.unwrap()` of a result that is `ok` -/
def unwrap (ok : Bool) : List Step := if ok then [] else [.panic]

/-- the lamps that say "no configuration". models vl_main.rs:164-166, avionics/mod.rs:151-154, vacuum_test/mod.rs:52-55; what follows would be a panic (`unwrap` of `None`, `log_unreachable!`) -/
def haltNoConfig : List Step := [.blink [333, 666] [0, 333, 333, 333] [0, 666, 333, 0], .panic]

/-- `SelfTestResult`. models self_test.rs:3-7 -/
inductive TestResult where
  | ok | partialFailed | failed
deriving DecidableEq

/-- the result of the self test from the readings. models self_test.rs:30-40 -/
def testResult (e : Env) : TestResult :=
  if !(e.readOk .lowG && e.readOk .highG && e.readOk .baro) then .failed
  else if e.readOk .mag then .ok else .partialFailed

/-- the self test: resets, which must all succeed, then readings. models self_test.rs:9-28 -/
def selfTest (e : Env) : List Step :=
  [.claim [.lowG, .highG, .baro, .mag]] ++ [.await] ++ unwrap (e.resetOk .lowG) ++ [.await] ++ unwrap (e.resetOk .highG) ++ [.await] ++ unwrap (e.resetOk .baro) ++ [.await] ++
    unwrap (e.resetOk .mag) ++ [.await, .await, .await, .await, .free [.lowG, .highG, .baro, .mag]]

/-- what is heard and seen after the self test. models avionics/mod.rs:158-181 -/
def announce : TestResult → List Step
  | .ok => [.tone 2000 50 150, .tone 2000 50 150, .tone 3000 50 150, .tone 3000 50 150]
  | .partialFailed => [.tone 2000 50 150, .tone 2000 50 150, .tone 3000 50 150, .tone 2000 50 150]
  | .failed => [.tone 2000 50 150, .tone 2000 50 150, .tone 3000 50 150, .tone 3000 50 150, .blink [200, 200] [] []]

/-- the two continuity tasks claim their devices in the first poll and keep them. models avionics/mod.rs:482-518, ground_test_avionics/mod.rs:220-256 -/
def contClaims (main drogue : Pyro) : List Step := [.claim [.pyro (Gt.contDev main)], .claim [.pyro (Gt.contDev drogue)]]

/-- the start of `avionics_main`. models avionics/mod.rs:134-280, 853-885 (order of `join!`: radio, then continuity tasks) -/
def avionics (e : Env) (c : Config) : List Step :=
  [.claim [.indicators], .await] ++
    match e.profile with
    | none => haltNoConfig
    | some p =>
      selfTest e ++ announce (testResult e) ++ [.await] ++ unwrap e.filesOk ++ [.claim [.arming, .lowG, .baro, .lora, .camera, .canBus]] ++ unwrap (loraOk c.lora) ++
        contClaims p.main p.drogue ++ [.run .avionics]

/-- the start of `gcm_main`. models gcm/mod.rs:35-70 -/
def gcm (c : Config) : List Step := [.claim [.lora, .indicators]] ++ unwrap (loraOk c.lora) ++ [.run .gcm]

/-- the start of `ground_test_avionics`. models ground_test_avionics/mod.rs:34-80 and its `join!` -/
def groundTest (e : Env) (c : Config) (drogue main : Pyro) : List Step :=
  [.claim [.lora, .baro, .arming, .indicators, .canBus], .await] ++ unwrap e.filesOk ++ [.await] ++ unwrap (e.resetOk .baro) ++ unwrap (loraOk c.lora) ++
    contClaims main drogue ++ [.run (.groundTest drogue main)]

/-- the start of `vacuum_test_main`. models vacuum_test/mod.rs:38-83 -/
def vacuum (e : Env) : List Step :=
  [.claim [.indicators, .baro], .await] ++
    match e.profile with
    | none => haltNoConfig
    | some _ => [.await] ++ unwrap e.filesOk ++ [.run .vacuum]

/-- USB counts as connected if that happens in the first 500 ms; at the same moment the timeout, which is polled first, wins. models vl_main.rs:99-113 -/
def usbConnected (e : Env) : Bool :=
  match e.usbMs with
  | some t => decide (t < 500)
  | none => false

/-- the configuration that is used. models vl_main.rs:115-127 -/
def config (e : Env) : Option Config :=
  match e.override with
  | some c => some c
  | none => e.stored

/-- `stop_if_usb_connected`. models vl_main.rs:170-176 -/
def stopIfUsb (e : Env) : List Step :=
  if usbConnected e then [.claim [.indicators], .blink [1000, 1000] [0, 1000, 1000, 0] [], .free [.indicators]] else []

/-- `main_fut`. models vl_main.rs:158-212 -/
def mainSteps (e : Env) : List Step :=
  match config e with
  | none => .claim [.indicators] :: haltNoConfig
  | some c =>
    match c.mode with
    | .avionics => stopIfUsb e ++ avionics e c
    | .gcm => gcm c
    | .groundTest d m => stopIfUsb e ++ groundTest e c d m
    | .vacuum => stopIfUsb e ++ vacuum e

/-- the devices `vl_main` itself holds for ever. models vl_main.rs:35-45 -/
def mainHeld : List Dev := [.flash, .crc, .usb, .serial, .buzzer, .gps, .gpsPps, .sysReset]

/-- start-up of the main task. The consoles are polled after it in the same `join!`, so they only run if it reaches an await. models vl_main.rs:158-226 -/
def start (e : Env) : Result := exec mainHeld (mainSteps e)

end Verif.StartUp
