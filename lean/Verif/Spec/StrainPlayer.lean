import Verif.Model.StrainPlayer
/-
What the strain graph should show.
-/
namespace Verif.Ozys

/-- the packets of the player's channel -/
def ownPackets : List POp → List Packet
  | [] => []
  | .packet d :: os => d :: ownPackets os
  | _ :: os => ownPackets os

/-- one more packet: it goes on the last segment if it follows 10 ms after its last packet, and starts a new one otherwise -/
def addPacket (segs : List (List Packet)) (d : Packet) : List (List Packet) :=
  match segs.getLast? with
  | none => [[d]]
  | some s => if (s.getLast?.map (·.timestamp)) = some (d.timestamp - 10) then segs.dropLast ++ [s ++ [d]] else segs ++ [[d]]

/-- the segments without gaps -/
def segments (ds : List Packet) : List (List Packet) := ds.foldl addPacket []

/-- the samples of a segment: a fresh resampler at its first timestamp, over all its readings -/
def segmentSamples {σ : Type} (p : Filter σ) (fuel : Nat) (f0 : σ) (targetRate : Rat) (s : List Packet) : List (Rat × Rat) :=
  match s.head? with
  | none => []
  | some d =>
    match (newResampler f0 targetRate d.timestamp).feed p fuel (s.flatMap (·.readings)) with
    | none => []
    | some a => a.1

/-- the points added, of what is seen -/
def addedPoints : List PEv → List Point
  | [] => []
  | .added x :: l => x :: addedPoints l
  | .got _ :: l => addedPoints l

/-- the points added since the last `getNewData` -/
def sinceGot (l : List PEv) : List Point := l.foldl (fun acc e => match e with | .added x => acc ++ [x] | .got _ => []) []

/-- what `getNewData` returned, all together -/
def gotPoints : List PEv → List (Option Point)
  | [] => []
  | .added _ :: l => gotPoints l
  | .got x :: l => x ++ gotPoints l

end Verif.Ozys
