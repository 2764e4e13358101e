import Verif.Model.SpectrogramPlayer
/-
What the spectrogram should show.
-/
namespace Verif.Ozys

/-- a spectrum on the frequency axis of the picture -/
structure Col where
  timestamp : Int
  row : List Rat
deriving DecidableEq

/-- the spectra of the player's channel -/
def ownFfts : List SOp → List (FPacket Rat)
  | [] => []
  | .packet d :: os => d :: ownFfts os
  | _ :: os => ownFfts os

/-- the spectra on the frequency axis, one after the other in the same buffer (C111 says what this is) -/
def cols {σ : Type} (p : Filter σ) (fuel : Nat) (fa fb : σ) (a : FAxis) : FBuf → List (FPacket Rat) → List Col
  | _, [] => []
  | b, d :: ds =>
    match a.resample p fuel fa fb d.low d.high b with
    | none => []
    | some b' => ⟨d.timestamp, b'.map (·.getD 0)⟩ :: cols p fuel fa fb a b' ds

/-- one more column: it goes on the last run if it follows 100 ms after its last column, and starts a new one otherwise -/
def addCol (runs : List (List Col)) (d : Col) : List (List Col) :=
  match runs.getLast? with
  | none => [[d]]
  | some s => if (s.getLast?.map (·.timestamp)) = some (d.timestamp - 100) then runs.dropLast ++ [s ++ [d]] else runs ++ [[d]]

/-- the runs without gaps -/
def runsOf (ds : List Col) : List (List Col) := ds.foldl addCol []

/-- the picture of a run: a fresh resampler at its first timestamp, over all its columns -/
def runSamples {σ : Type} (p : Filter σ) (fuel : Nat) (f0 : σ) (width : Nat) (targetRate : Rat) (s : List Col) : List (Rat × List Rat) :=
  match s.head? with
  | none => []
  | some d =>
    match (newResampler2 f0 width targetRate d.timestamp).feed p fuel (s.map (·.row)) with
    | none => []
    | some a => a.1

/-- the columns added, of what is seen -/
def addedCols : List SEv → List SPoint
  | [] => []
  | .added x :: l => x :: addedCols l
  | .got _ :: l => addedCols l

/-- the columns added since the last `getNewData` -/
def colsSinceGot (l : List SEv) : List SPoint := l.foldl (fun acc e => match e with | .added x => acc ++ [x] | .got _ => []) []

/-- what `getNewData` returned, all together -/
def gotCols : List SEv → List (Option SPoint)
  | [] => []
  | .added _ :: l => gotCols l
  | .got x :: l => x ++ gotCols l

end Verif.Ozys
