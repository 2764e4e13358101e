import Verif.Model.VlpClient
import Verif.Model.Avionics
import Verif.Model.GroundTest
/-
The commands of the command line tool of the ground station (vl-cli/src/main.rs). The tool hands the packet to the ground station over the console (C54, C81, C95), which sends it to the
rocket (`Ground`, C38); the avionics handle what they receive (`Av.packet`).
-/
namespace Verif.Operator
open Verif Verif.Vlp

/-- `GCMUplinkPacket`: the subcommands of `gcm-send-uplink`. models vl-cli/src/main.rs:132-141 -/
inductive Command
  | verticalCalibration
  | softArm
  | softDisarm
  | lowPowerModeOn
  | lowPowerModeOff
  | reset
  | deleteLogs
  | manualTriggerDeployment
  deriving DecidableEq

/-- the packet made for a command; `ts` is the time on the host. models vl-cli/src/main.rs:230-259 -/
def Command.packet (ts : F64) : Command → Uplink
  | .verticalCalibration => .verticalCalibration ts
  | .softArm => .softArm ts true
  | .softDisarm => .softArm ts false
  | .lowPowerModeOn => .lowPowerMode ts true
  | .lowPowerModeOff => .lowPowerMode ts false
  | .reset => .reset ts
  | .deleteLogs => .deleteLogs ts
  | .manualTriggerDeployment => .manualTrigger ts

end Verif.Operator
