import Verif.Basic
/-
Events of the flight computers (firmware-common/src/avionics/flight_core_event.rs).
-/
namespace Verif.Fc

/-- `FlightCoreState`. models avionics/flight_core_event.rs:8-17 -/
inductive FcState
  | disArmed
  | armed
  | powerAscend
  | coast
  | descent
  | drogueChuteDeployed
  | mainChuteDeployed
  | landed
  deriving DecidableEq

/-- `state as u8`. models avionics/flight_core_event.rs:8-17 -/
def FcState.toU8 : FcState → Nat
  | .disArmed => 0
  | .armed => 1
  | .powerAscend => 2
  | .coast => 3
  | .descent => 4
  | .drogueChuteDeployed => 5
  | .mainChuteDeployed => 6
  | .landed => 7

/-- `FlightCoreState::try_from(u8)` (`IntEnum`). models avionics/flight_core_event.rs:8-17 -/
def FcState.ofU8 : Nat → Option FcState
  | 0 => some .disArmed
  | 1 => some .armed
  | 2 => some .powerAscend
  | 3 => some .coast
  | 4 => some .descent
  | 5 => some .drogueChuteDeployed
  | 6 => some .mainChuteDeployed
  | 7 => some .landed
  | _ => none

/-- `FlightCoreEvent`; `S` is f32. models avionics/flight_core_event.rs:19-26 -/
inductive Event (S : Type)
  | criticalError
  | didNotReachMinApogee
  | changeState (s : FcState)
  | changeAltitude (a : S)
  | changeAirSpeed (v : S)
  deriving DecidableEq

/-- the states a list of events announces, in order -/
def states {S : Type} : List (Event S) → List FcState
  | [] => []
  | .changeState s :: l => s :: states l
  | _ :: l => states l

end Verif.Fc
