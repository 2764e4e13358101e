import Verif.Model.VirtSerial
/- Vocabulary for C118. -/
namespace Verif.Virt

/-- all bytes written at an end in a history -/
def writtenAt (s : Side) : List (Side × LinkOp) → List UInt8
  | [] => []
  | (s', .write d) :: os => if s' = s then d ++ writtenAt s os else writtenAt s os
  | _ :: os => writtenAt s os

/-- the results of the reads at an end -/
def resultsAt (s : Side) (l : List (Side × List UInt8)) : List (List UInt8) := (l.filter fun x => x.1 = s).map (·.2)

/-- all bytes read at an end in a history -/
def readAt (s : Side) (ops : List (Side × LinkOp)) : List UInt8 := (resultsAt s (Link.new.run ops).1).flatten

/-- a read at that end after a history; none: it has to wait -/
def readNext (s : Side) (ops : List (Side × LinkOp)) (n : Nat) : Option (List UInt8) := ((Link.new.run ops).2.step s (.read n)).1

/-- messages written in a history while the link was open -/
def messages : List MsgOp → List (List UInt8)
  | [] => []
  | .write d :: os => d :: messages os
  | .close :: _ => []
  | _ :: os => messages os

/-- messages received -/
def received : List ReadRes → List (List UInt8)
  | [] => []
  | .data d :: l => d :: received l
  | _ :: l => received l

/-- the packages sent over the mock radio in a history: those of at most 222 bytes, while the sender is there -/
def sent : List AirOp → List (List UInt8)
  | [] => []
  | .tx p :: os => if p.length ≤ 222 then p :: sent os else sent os
  | .gone :: _ => []
  | _ :: os => sent os

/-- the packages received -/
def packages : List AirRes → List (List UInt8)
  | [] => []
  | .package d :: l => d :: packages l
  | .timeout :: l => packages l

end Verif.Virt
