import Verif.Model.Operator
import Verif.Spec.Avionics
import Verif.Spec.RadioLink
/-
What the commands of the operator are to do (C107).
-/
namespace Verif.Operator
open Verif Vlp Fc Av

/-- what a command makes of the avionics' state `s` (with no reset pending) -/
structure Effect {fl : Floats} (cmd : Command) (s s' : Av fl) : Prop where
  /-- arming: set by the two arming commands, cleared by leaving low power mode, and else left alone -/
  software : s'.sw = match cmd with | .softArm => true | .softDisarm => false | .lowPowerModeOff => false | _ => s.sw
  /-- low power mode is ended by every command but the one that begins it -/
  low : s'.lowPower = decide (cmd = .lowPowerModeOn)
  /-- only the reset command restarts the device, and tells the other devices first -/
  restart : s'.resetting = decide (cmd = .reset)
  /-- the outputs: no command switches a pyro channel or the camera by itself -/
  outputs : s'.acts = if cmd = .reset then s.acts ++ [.canReset] else s.acts
  /-- flight events: only the manual deployment announces one, and only if the manual flight computer is there and was not triggered yet -/
  announced : cmd = .manualTriggerDeployment → (∃ m, s.manual = some m ∧ m.state = .armed) → s'.events = s.events ++ [(.backupBackup, .changeState .drogueChuteDeployed)]
  silent : ¬ (cmd = .manualTriggerDeployment ∧ ∃ m, s.manual = some m ∧ m.state = .armed) → s'.events = s.events
  /-- the barometric flight computer, the pyro tasks, the hardware switch and the readings are left alone -/
  rest : s'.backup = s.backup ∧ s'.drogueTask = s.drogueTask ∧ s'.mainTask = s.mainTask ∧ s'.hw = s.hw ∧ s'.sensor = s.sensor ∧ s'.logged = s.logged ∧ s'.panicked = s.panicked

/-- the second history is the first one, except that a command that was received is received once more (a retry) before any other packet -/
inductive Retried {fl : Floats} (p : Uplink) : List (Op fl) → List (Op fl) → Prop
  | intro (pre mid post : List (Op fl)) (t t' : Nat) : (∀ o ∈ mid, o.isPacket = false) →
      Retried p (pre ++ [.packet p t] ++ mid ++ post) (pre ++ [.packet p t] ++ mid ++ [.packet p t'] ++ post)

/-- the same but for the message about the arming state, which may be waiting for the task that sets up the flight computers -/
def SameButMessage {fl : Floats} (s s' : Av fl) : Prop := s' = { s with armMsg := s'.armMsg }

end Verif.Operator
