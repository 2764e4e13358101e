import Verif.Model.StrainGauge
/-
What the strain gauge pipeline should produce.
-/
namespace Verif.Spec
open Verif Verif.SG Verif.Tagged Verif.Lut

/-- the samples of a channel: the first 213 of each read -/
def sgStream {F T : Type} (rs : List (Raw F T)) (c : Nat) : List F := rs.flatMap fun r => (r.chan c).take 213

/-- what the low pass filter gives for a sequence of samples -/
def filterOut {F S : Type} (a : Arith F S) : S → List F → List F
  | _, [] => []
  | s, x :: xs => (a.filter s x).1 :: filterOut a (a.filter s x).2 xs

/-- the sample at 200 Hz: the low pass filter, run over the channel since the start, at the end of read `j` -/
def sgPoint {F S T : Type} (a : Arith F S) (rs : List (Raw F T)) (c j : Nat) : Option F := (filterOut a a.start (sgStream (rs.take (j + 1)) c)).getLast?

/-- every read has at least 213 samples of each of the four channels (required by the documentation of `get_sg_readings_iter`) -/
def FullReads {F T : Type} (rs : List (Raw F T)) : Prop := ∀ r ∈ rs, ∀ c < 4, 213 ≤ (r.chan c).length

/-- a message holds batch `b` (40 reads) of channel `c`: start time of the first read, the filtered sample of each read as f16 -/
structure ReadingOf {F S T : Type} (a : Arith F S) (rs : List (Raw F T)) (b c : Nat) (r : Reading T) : Prop where
  start : (rs[40 * b]?).map Raw.start = some r.start
  channel : r.sg.toNat = c
  samples : ∀ k (_ : k < 40), ∃ x, sgPoint a rs c (40 * b + k) = some x ∧ (r.samples[2 * k], r.samples[2 * k + 1]) = a.half x

/-- the array given to the FFT for batch `b` of channel `c`: four windows of 2048 samples, 2130 samples apart, summed up -/
structure WindowOf {F S T : Type} (a : Arith F S) (rs : List (Raw F T)) (b c : Nat) (w : List F × Nat) : Prop where
  count : w.2 = 4
  size : w.1.length = 2048
  sums : ∀ k < 2048, ∃ x0 x1 x2 x3, (sgStream (rs.drop (40 * b)) c)[k]? = some x0 ∧ (sgStream (rs.drop (40 * b)) c)[2130 + k]? = some x1 ∧
    (sgStream (rs.drop (40 * b)) c)[4260 + k]? = some x2 ∧ (sgStream (rs.drop (40 * b)) c)[6390 + k]? = some x3 ∧
    w.1[k]? = some (a.add (a.add (a.add (a.add a.zero x0) x1) x2) x3)

/-- the readings among the events -/
def arrived {T : Type} : List (Ev T) → List (Reading T)
  | [] => []
  | .reading r :: evs => r :: arrived evs
  | .unix _ _ :: evs => arrived evs
  | .replaceWriter :: evs => arrived evs
  | .finishSegment :: evs => arrived evs

/-- the newest time sync among the events -/
def newestSync {T : Type} : List (Ev T) → Option (T × T)
  | [] => none
  | .unix b u :: evs => (newestSync evs).or (some (b, u))
  | .reading _ :: evs => newestSync evs
  | .replaceWriter :: evs => newestSync evs
  | .finishSegment :: evs => newestSync evs

/-- the readings among the records of a segment -/
def stored {T : Type} : List (Rec T) → List (Reading T)
  | [] => []
  | .reading r :: l => r :: stored l
  | .sync _ _ :: l => stored l

/-- the time syncs among the records of a segment -/
def storedSyncs {T : Type} (env : SG.Env T) : List (Rec T) → List Point
  | [] => []
  | .sync b u :: l => (env.num b, env.num u) :: storedSyncs env l
  | .reading _ :: l => storedSyncs env l

/-- the segments of the store -/
def segments {T : Type} (s : Store T) : List (List (Rec T)) := s.older ++ [s.current]

/-- a file holds these records, written with the tagged record logger -/
def FileOf {T : Type} (e : Enum (Rec T)) (recs : List (Rec T)) (content : Bytes) : Prop := ∃ w, (Writer.new e).writeAll e recs = some w ∧ w.sink = content

end Verif.Spec
