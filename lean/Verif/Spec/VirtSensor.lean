import Verif.Model.VirtSensor
/- Vocabulary for C117. -/
namespace Verif.Virt

/-- the readings the simulation gave in a history -/
def given {α : Type} : List (SensorOp α) → List α
  | [] => []
  | .put r :: os => r :: given os
  | .read :: os => given os

/-- result of a read after a history -/
def readAfter {α : Type} (ops : List (SensorOp α)) : Option (Option α) := (sensorRun none (ops ++ [.read])).1.getLast?

/-- the position the simulation last put a switch to: off at first -/
def position : List SwitchOp → Bool := fun ops => ops.foldl (fun p o => match o with | .put b => b | _ => p) false

/-- the changes of position, in order -/
def changes : Bool → List SwitchOp → List Bool
  | _, [] => []
  | p, .put b :: os => if b = p then changes p os else b :: changes b os
  | p, _ :: os => changes p os

/-- the changes reported to the firmware -/
def reported : List SwitchRes → List Bool
  | [] => []
  | .change b :: l => b :: reported l
  | _ :: l => reported l

/-- what the firmware sees at one more operation -/
def switchAt (ops : List SwitchOp) (o : SwitchOp) : List SwitchRes := ((Switch.new.run ops).2.step o).1

end Verif.Virt
