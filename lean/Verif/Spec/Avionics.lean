import Verif.Model.Avionics
/-
What the properties of the avionics tasks talk about: histories of steps.
-/
namespace Verif.Av

open Verif Fc Deb Vlp

/-- the packets of a history that are handled: those up to and including the first reset -/
def handled {fl : Floats} : List (Op fl) → List Uplink
  | [] => []
  | .packet (.reset t) _ :: _ => [.reset t]
  | .packet p _ :: l => p :: handled l
  | _ :: l => handled l

/-- software arming as commanded: the last packet that says something about it, false if there is none -/
def commanded (l : List Uplink) : Bool :=
  l.foldl (fun b p => match p with | .softArm _ armed => armed | .lowPowerMode _ false => false | _ => b) false

/-- low power mode as commanded: exactly if the last packet switches it on -/
def lowPowerOf (l : List Uplink) : Bool :=
  match l.getLast? with
  | some (.lowPowerMode _ true) => true
  | _ => false

/-- what the debouncer has seen: time and value of each poll -/
def switchInputs {fl : Floats} : List (Op fl) → List (Nat × Option Bool)
  | [] => []
  | .switch v now :: l => (now, some v) :: switchInputs l
  | .debounce now :: l => (now, none) :: switchInputs l
  | _ :: l => switchInputs l

/-- what the pyro task did, in order: channel, on or off, time -/
def pulses (k : Chute) : List Act → List (Pyro × Bool × Nat)
  | [] => []
  | .pyro k' ch on t :: l => if k' = k then (ch, on, t) :: pulses k l else pulses k l
  | _ :: l => pulses k l

/-- the channel the profile assigns -/
def Cfg.channel {fl : Floats} (c : Cfg fl) : Chute → Pyro
  | .drogue => c.drogue
  | .main => c.main

/-- the event is the deployment of this parachute -/
def IsDeploy {S : Type} (k : Chute) (e : Redundancy × Event S) : Prop :=
  e.2 = .changeState (match k with | .drogue => .drogueChuteDeployed | .main => .mainChuteDeployed)

/-- the pyro task of this parachute polled at time `now` -/
def pollOp {fl : Floats} (k : Chute) (now : Nat) : Op fl :=
  match k with
  | .drogue => .drogue now
  | .main => .main now

/-- state of the pyro task -/
def Av.task {fl : Floats} (a : Av fl) : Chute → PyroTask
  | .drogue => a.drogueTask
  | .main => a.mainTask

/-- where the pyro task reads on -/
def Av.pos {fl : Floats} (a : Av fl) : Chute → Nat
  | .drogue => a.posDrogue
  | .main => a.posMain

/-- is this a packet -/
def Op.isPacket {fl : Floats} : Op fl → Bool
  | .packet _ _ => true
  | _ => false

/-- what the backup flight computer published, apart from its removal -/
def fromBackup {S : Type} : List (Redundancy × Event S) → List (Event S)
  | [] => []
  | (.backup, .changeState .disArmed) :: l => fromBackup l
  | (.backup, e) :: l => e :: fromBackup l
  | _ :: l => fromBackup l

/-- some time before (or at) the end of this history the rocket was armed -/
def EverArmed {fl : Floats} (c : Cfg fl) (ops : List (Op fl)) : Prop := ∃ pre, pre <+: ops ∧ (Av.run c pre).isArmed = true

/-- at this point of the history the backup flight computer evaluates a reading for which its estimate of the vertical speed is a fall at more than 20 m/s -/
def FallSeen {fl : Floats} (c : Cfg fl) (ops : List (Op fl)) : Prop :=
  ∃ pre post b r, ops = pre ++ .tick :: post ∧ (Av.run c pre).backup = some b ∧ (Av.run c pre).sensor = some r ∧ fl.s.lt (b.filter.feed r).1 (fl.s.neg (fl.s.lit 20)) = true

/-- a manual deployment command came while the flight computers existed -/
def Triggered {fl : Floats} (c : Cfg fl) (ops : List (Op fl)) : Prop :=
  ∃ pre post t now, ops = pre ++ .packet (.manualTrigger t) now :: post ∧ (Av.run c pre).manual.isSome = true

/-- what the camera should have been told by these events, in order: on when armed, off when disarmed -/
def cameraWanted {S : Type} : List (Redundancy × Event S) → List Act
  | [] => []
  | (_, .changeState .armed) :: l => .camera true :: cameraWanted l
  | (_, .changeState .disArmed) :: l => .camera false :: cameraWanted l
  | _ :: l => cameraWanted l

/-- the free space last measured -/
def lastFree {fl : Floats} (ops : List (Op fl)) : Option Nat :=
  ops.foldl (fun f o => match o with | .storage n => some n | _ => f) none

/-- the reading of this step, if it is one and, after the steps `pre`, neither low power mode is on nor less than 1 MiB is known to be free -/
def keeps {fl : Floats} (pre : List (Op fl)) : Op fl → List (Reading fl)
  | .reading (some r) => if lowPowerOf (handled pre) = true ∨ (∃ n, lastFree pre = some n ∧ n < 1048576) then [] else [r]
  | _ => []

/-- the readings that must be in the log: of each step after those before it -/
def wantLogged {fl : Floats} (ops : List (Op fl)) : List (Reading fl) := (List.range ops.length).flatMap fun i => (ops[i]?.map (keeps (ops.take i))).getD []

end Verif.Av
