import Verif.Model.DeltaLogger
/-
Histories of a sensor log, and of reading it back.
-/
namespace Verif.Log
open Verif.Bit Verif.Delta

/-- what the logger has reconstructed for the reading it wrote last -/
def Logger.recon {TS D : Type} (l : Logger TS D) : List (Out TS D) :=
  match l.tsLast, l.dLast with
  | some t, some v => [.reading t v]
  | _, _ => []

/-- any history of a logger. `inputs` are the readings it accepted, `acc` what it put into the log: for a reading what the delta encoder
reconstructs, for a time-sync record the record. A time-sync record directly behind another one is kept back until the first reading
that does not directly follow a time-sync record. -/
inductive Run {TS TD D DD : Type} (c : Cfg TS TD D DD) : Logger TS D → List (TS × D) → List (Out TS D) → Prop
  | new : Run c (Logger.new c) [] []
  | accept {l l' : Logger TS D} {inputs : List (TS × D)} {acc : List (Out TS D)} (t : TS) (v : D) (hr : Run c l inputs acc)
      (h : l.log c t v = some (true, l')) :
      Run c l' (inputs ++ [(t, v)]) (acc ++ (if l.lastUnix then [] else l.unixBuf.toList.map .unix) ++ l'.recon)
  | refuse {l l' : Logger TS D} {inputs : List (TS × D)} {acc : List (Out TS D)} (t : TS) (v : D) (hr : Run c l inputs acc)
      (h : l.log c t v = some (false, l')) : Run c l' inputs acc
  | unix {l l' : Logger TS D} {inputs : List (TS × D)} {acc : List (Out TS D)} (u : Unix) (hr : Run c l inputs acc) (h : l.logUnix u = some l') :
      Run c l' inputs (acc ++ (if l.lastUnix then [] else [.unix u]))
  | flush {l l' : Logger TS D} {inputs : List (TS × D)} {acc : List (Out TS D)} (hr : Run c l inputs acc) (h : l.flush = some l') : Run c l' inputs acc

/-- successive `read` calls of a reader that was opened on the bytes `src` -/
inductive ReadRun {TS TD D DD : Type} (c : Cfg TS TD D DD) (sched : Nat → Nat) (src : Bytes) : LogReader TS D → List (Out TS D) → Prop
  | new : ReadRun c sched src (LogReader.new c src) []
  | next {s s' : LogReader TS D} {outs : List (Out TS D)} {o : Out TS D} (hr : ReadRun c sched src s outs) (h : s.read c sched = some (some o, s')) :
      ReadRun c sched src s' (outs ++ [o])

/-- the bit buffers are large enough for every kind of entry behind an unfinished byte -/
structure Cfg.Fits {TS TD D DD : Type} (c : Cfg TS TD D DD) : Prop where
  full : 10 + c.ts.len + c.d.len < 8 * c.bytes
  dfull : 9 + c.td.len + c.d.len < 8 * c.bytes
  ddelta : 9 + c.td.len + c.dd.len < 8 * c.bytes
  unix : 9 + 128 < 8 * c.bytes

/-- the codecs work -/
structure Cfg.Codecs {TS TD D DD : Type} (c : Cfg TS TD D DD) : Prop where
  ts : ∀ (v : TS) (s : List Bool), c.ts.len ≤ s.length → ∃ e, e.length = c.ts.len ∧ c.ts.write v s = some (e ++ s.drop c.ts.len) ∧ ∀ t, c.ts.read (e ++ t) = some v
  td : ∀ (v : TD) (s : List Bool), c.td.len ≤ s.length → ∃ e, e.length = c.td.len ∧ c.td.write v s = some (e ++ s.drop c.td.len) ∧ ∀ t, c.td.read (e ++ t) = some v
  d : ∀ (v : D) (s : List Bool), c.d.len ≤ s.length → ∃ e, e.length = c.d.len ∧ c.d.write v s = some (e ++ s.drop c.d.len) ∧ ∀ t, c.d.read (e ++ t) = some v
  dd : ∀ (v : DD) (s : List Bool), c.dd.len ≤ s.length → ∃ e, e.length = c.dd.len ∧ c.dd.write v s = some (e ++ s.drop c.dd.len) ∧ ∀ t, c.dd.read (e ++ t) = some v

/-- a delta that was computed can be applied -/
def Applies {T D : Type} (dt : Deltable T D) : Prop := ∀ v l d, dt.subtract v l = some d → ∃ w, dt.addDelta l d = some w

end Verif.Log
