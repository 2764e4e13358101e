import Verif.Model.Tagged
import Verif.Model.Lut
/-
The strain gauge pipeline: the task that filters and batches the ADC reads (firmware-common/src/strain_gauges/low_prio.rs, mod.rs), the loop that stores the batches
(mid_prio.rs) together with the flags of the ring writer (ring_file_writer.rs), and the host side that turns the stored files into tables (vl-host-lib/src/ozys/*.rs,
vl-host-lib/src/common/parse_serialized_enums.rs). f32 arithmetic, the biquad filter and the conversion to f16 are abstract. The FFT is represented by the arguments it is
called with: the amplitudes computed from it are never stored (low_prio.rs:106-108 is commented out). Panics are `none`. The two channels between the tasks are C52.
-/
namespace Verif.SG
open Verif Verif.Tagged Verif.Lut

/-- `BATCH_SIZE`. models strain_gauges/mod.rs:22 -/
def batchSize : Nat := 2130

/-- `SAMPLES_PER_READ`. models strain_gauges/mod.rs:23 -/
def samplesPerRead : Nat := batchSize / 10

/-- `FFT_SIZE`. models low_prio.rs:15 -/
def fftSize : Nat := 2048

/-- the reads of one round of the main loop. models low_prio.rs:147 -/
def readsPerRound : Nat := batchSize / samplesPerRead * 4

/-- the capacity of `samples_list`. models low_prio.rs:25 -/
def listCap : Nat := 40

/-- the numbers: f32 zero and addition, the low pass filter as a state machine (external crate biquad), f16 conversion followed by `to_le_bytes`, and back (external crate half) -/
structure Arith (F S : Type) where
  zero : F
  add : F → F → F
  start : S
  filter : S → F → F × S
  half : F → UInt8 × UInt8
  unhalf : UInt8 → UInt8 → F

/-- `SGChannelProcessor`. models low_prio.rs:17-27 -/
structure Chan (F S : Type) where
  sum : List F
  count : Nat
  fftI : Nat
  samples : List F
  filt : S

/-- `SGChannelProcessor::new`. models low_prio.rs:30-51 -/
def Chan.new {F S : Type} (a : Arith F S) : Chan F S := ⟨List.replicate fftSize a.zero, 0, 0, [], a.start⟩

/-- the low pass filter, and keeping the last sample of a read. `none`: the list is full. models low_prio.rs:57-60 -/
def Chan.keep {F S : Type} (a : Arith F S) (c : Chan F S) (i : Nat) (x : F) : Option (Chan F S) :=
  let p := a.filter c.filt x
  if i = samplesPerRead - 1 then
    if c.samples.length < listCap then some { c with filt := p.2, samples := c.samples ++ [p.1] } else none
  else some { c with filt := p.2 }

/-- adding a sample to the FFT window; the flag is `skip_fft`. `none`: index out of bounds. models low_prio.rs:62-70 -/
def Chan.window {F S : Type} (a : Arith F S) (c : Chan F S) (skip : Bool) (x : F) : Option (Chan F S × Bool) :=
  if skip then some (c, true)
  else if h : c.fftI < c.sum.length then
    let sum := c.sum.set c.fftI (a.add (c.sum[c.fftI]) x)
    if c.fftI + 1 = fftSize then some ({ c with sum := sum, fftI := 0, count := c.count + 1 }, true)
    else some ({ c with sum := sum, fftI := c.fftI + 1 }, false)
  else none

/-- the loop of `process`: `i` from its current value, `n` rounds left, `xs` what the iterator still gives. models low_prio.rs:53-72 -/
def Chan.loop {F S : Type} (a : Arith F S) : Nat → Nat → Bool → List F → Chan F S → Option (Chan F S)
  | 0, _, _, _, c => some c
  | _ + 1, _, _, [], _ => none
  | n + 1, i, skip, x :: xs, c =>
    match c.keep a i x with
    | none => none
    | some c =>
      match c.window a skip x with
      | none => none
      | some (c, skip) => Chan.loop a n (i + 1) skip xs c

/-- `process`. models low_prio.rs:53-72 -/
def Chan.process {F S : Type} (a : Arith F S) (c : Chan F S) (xs : List F) : Option (Chan F S) := c.loop a samplesPerRead 0 false xs

/-- `ProcessedSGReading`; `T` is the type of boot timestamps (f64). models strain_gauges/mod.rs:26-32 -/
structure Reading (T : Type) where
  start : T
  sg : UInt8
  samples : Vector UInt8 80

/-- writing the kept samples into the slot, from index `i` on. `none`: index out of bounds. models low_prio.rs:124-129 -/
def writeSamples {F S : Type} (a : Arith F S) : Nat → List F → Vector UInt8 80 → Option (Vector UInt8 80)
  | _, [], v => some v
  | i, x :: xs, v =>
    if h : i * 2 + 1 < 80 then writeSamples a (i + 1) xs ((v.set (i * 2) (a.half x).1).set (i * 2 + 1) (a.half x).2)
    else none

/-- `process_fft`: the arguments of the transform (window and number of windows summed up), the samples written into the slot (which holds what an earlier message left
there), and the processor, emptied but for the filter. models low_prio.rs:74-132 -/
def Chan.finish {F S : Type} (a : Arith F S) (c : Chan F S) (slot : Vector UInt8 80) : Option ((List F × Nat) × Vector UInt8 80 × Chan F S) :=
  match writeSamples a 0 c.samples slot with
  | none => none
  | some v => some ((c.sum, c.count), v, ⟨List.replicate fftSize a.zero, 0, 0, [], c.filt⟩)

/-- a read of the ADC: `get_start_time` and `get_sg_readings_iter`. models driver/sg_adc.rs:5-14 -/
structure Raw (F T : Type) where
  start : T
  chan : Nat → List F

/-- the main loop's state: the four processors, `i` and `start_time`. models low_prio.rs:140-147 -/
structure St (F S T : Type) where
  chans : List (Chan F S)
  i : Nat
  start : Option T

/-- before the first read. models low_prio.rs:136-145 -/
def St.new {F S T : Type} (a : Arith F S) : St F S T := ⟨List.replicate 4 (Chan.new a), 0, none⟩

/-- each processor gets its channel of the read. models low_prio.rs:155-159 -/
def processAll {F S T : Type} (a : Arith F S) (r : Raw F T) : Nat → List (Chan F S) → Option (List (Chan F S))
  | _, [] => some []
  | k, c :: cs =>
    match c.process a (r.chan k) with
    | none => none
    | some c =>
      match processAll a r (k + 1) cs with
      | none => none
      | some cs => some (c :: cs)

/-- `*samples_list.last().unwrap()` of each processor. models low_prio.rs:161-166 -/
def lasts {F S : Type} : List (Chan F S) → Option (List F)
  | [] => some []
  | c :: cs =>
    match c.samples.getLast? with
    | none => none
    | some x =>
      match lasts cs with
      | none => none
      | some xs => some (x :: xs)

/-- the end of a round: one message for each channel. `slots k` is the content of the slot handed out for channel `k`. models low_prio.rs:176-184 -/
def finishAll {F S T : Type} (a : Arith F S) (start : T) (slots : Nat → Vector UInt8 80) : Nat → List (Chan F S) → Option (List (List F × Nat) × List (Reading T) × List (Chan F S))
  | _, [] => some ([], [], [])
  | k, c :: cs =>
    match c.finish a (slots k) with
    | none => none
    | some (w, v, c) =>
      match finishAll a start slots (k + 1) cs with
      | none => none
      | some (ws, rs, cs) => some (w :: ws, ⟨start, UInt8.ofNat k, v⟩ :: rs, c :: cs)

/-- what a read leads to: the published real time samples, the transforms computed, the messages sent -/
structure Effects (F T : Type) where
  realtime : List F
  transforms : List (List F × Nat)
  readings : List (Reading T)

/-- one read of the main loop, and the end of the round if it was the last one. models low_prio.rs:144-186 -/
def St.onRead {F S T : Type} (a : Arith F S) (st : St F S T) (slots : Nat → Vector UInt8 80) (r : Raw F T) : Option (Effects F T × St F S T) :=
  let start := if st.i = 0 then some r.start else st.start
  match processAll a r 0 st.chans with
  | none => none
  | some cs =>
    match lasts cs with
    | none => none
    | some rt =>
      if st.i + 1 = readsPerRound then
        match start with
        | none => none
        | some t =>
          match finishAll a t slots 0 cs with
          | none => none
          | some (ws, rs, cs) => some (⟨rt, ws, rs⟩, ⟨cs, 0, none⟩)
      else some (⟨rt, [], []⟩, ⟨cs, st.i + 1, start⟩)

/-- a sequence of reads, each with the slots that are handed out after it. models low_prio.rs:144-186 -/
def St.run {F S T : Type} (a : Arith F S) (st : St F S T) : List (Raw F T × (Nat → Vector UInt8 80)) → Option (List (Effects F T) × St F S T)
  | [] => some ([], st)
  | (r, slots) :: rs =>
    match st.onRead a slots r with
    | none => none
    | some (e, st) =>
      match St.run a st rs with
      | none => none
      | some (es, st) => some (e :: es, st)

/-- `SGReadingLog`: a reading or a time-sync record (boot and unix timestamp). models mid_prio.rs:42-48 -/
inductive Rec (T : Type)
  | reading (r : Reading T)
  | sync (boot unix : T)

/-- the storing loop: `unix_timestamp_log_mutex` (newest time sync and whether it was written), `new_segment`, `current_writer_dirty`, whether the writer was already replaced by a
`create_new_segment` that has not finished, and the records of the segments. models mid_prio.rs:69-72, ring_file_writer.rs:18-34 -/
structure Store (T : Type) where
  unix : Option ((T × T) × Bool)
  newSegment : Bool
  dirty : Bool
  rotating : Bool
  older : List (List (Rec T))
  current : List (Rec T)

/-- after `RingFileWriter::new`. models ring_file_writer.rs:85-95 -/
def Store.new (T : Type) : Store T := ⟨none, true, false, false, [], []⟩

/-- what happens to the store: a time sync arrives, a reading arrives, `create_new_segment` replaces the writer (if there is new data) and finishes -/
inductive Ev (T : Type)
  | unix (boot unix : T)
  | reading (r : Reading T)
  | replaceWriter
  | finishSegment

/-- the record of the newest time sync to write before the reading, if any: the flag is `updated`. models mid_prio.rs:292-302 -/
def Store.owed {T : Type} (s : Store T) : List (Rec T) × Option ((T × T) × Bool) :=
  match s.unix with
  | some (u, updated) => if s.newSegment || updated then ([.sync u.1 u.2], some (u, false)) else ([], s.unix)
  | none => ([], none)

/-- one event. Write errors are not modelled here (C89). models mid_prio.rs:162-176 (`unix`), 286-325 (`reading`) with ring_file_writer.rs:98-108; ring_file_writer.rs:143-179
(`replaceWriter`), 180-187 (`finishSegment`) -/
def Store.step {T : Type} (s : Store T) : Ev T → Store T
  | .unix b u => { s with unix := some ((b, u), true) }
  | .reading r => { s with unix := s.owed.2, newSegment := false, dirty := true, current := s.current ++ s.owed.1 ++ [.reading r] }
  | .replaceWriter => if s.rotating || !s.dirty then s else { s with rotating := true, older := s.older ++ [s.current], current := [] }
  | .finishSegment => if s.rotating then { s with rotating := false, newSegment := true, dirty := false } else s

/-- a sequence of events -/
def Store.run {T : Type} (s : Store T) (evs : List (Ev T)) : Store T := evs.foldl Store.step s

/-- `parse_serialized_enums`: everything the reader gives until it reports the end. `none`: panic, or more than `fuel` records. models parse_serialized_enums.rs -/
def readRecs {α : Type} (e : Enum α) (sched : Nat → Nat) : Nat → Src → List α → Option (List α)
  | 0, _, _ => none
  | fuel + 1, s, got =>
    match e.readNext sched s with
    | none => none
    | some (none, _) => some got
    | some (some v, s) => readRecs e sched fuel s (got ++ [v])

/-- the number an f64 stands for (simplification: no NaN), and `binary_search_by` -/
structure Env (T : Type) where
  num : T → Rat
  search : List Point → Rat → Found

/-- the time-sync records. models parse_sg_data.rs:28-32 -/
def Rec.point {T : Type} (env : Env T) : Rec T → Option Point
  | .sync b u => some (env.num b, env.num u)
  | .reading _ => none

/-- the readings with their unix timestamp. models parse_sg_data.rs:42-46 -/
def Rec.stamped {T : Type} (env : Env T) (lut : List Point) : Rec T → Option (Reading T × Result)
  | .reading r => some (r, convert lut (env.num r.start) (env.search lut (env.num r.start)))
  | .sync _ _ => none

/-- `parse_sg_data`: pass 1 collects the time-sync records, pass 2 gives the readings with their unix timestamp. models parse_sg_data.rs:18-51 -/
def parseSg {T : Type} (e : Enum (Rec T)) (env : Env T) (sched1 sched2 : Nat → Nat) (fuel : Nat) (content : Bytes) : Option (List (Reading T × Result)) :=
  match readRecs e sched1 fuel ⟨content, 0⟩ [] with
  | none => none
  | some first =>
    match readRecs e sched2 fuel ⟨content, 0⟩ [] with
    | none => none
    | some second => some (second.filterMap (Rec.stamped env (sort (first.filterMap (Rec.point env)))))

/-- a row of sg-*.mag.csv: boot timestamp, unix timestamp, sample. models sg_data_csv_writer.rs:46-57 -/
structure Row (F : Type) where
  boot : Rat
  unix : Result
  sample : F

/-- `unix_timestamp.map(|t| t + 5f64 * i as f64)`. models sg_data_csv_writer.rs:48 -/
def later (d : Rat) : Result → Result
  | .none => .none
  | .value u => .value (u + d)
  | .notFinite => .notFinite

/-- `SGCSVWriter::write`. models sg_data_csv_writer.rs:37-57 -/
def csvRows {F S T : Type} (a : Arith F S) (env : Env T) (r : Reading T) (u : Result) : List (Row F) :=
  (List.finRange 40).map fun i =>
    ⟨env.num r.start + 5 * (i.val : Rat), later (5 * (i.val : Rat)) u, a.unhalf (r.samples[i.val * 2]) (r.samples[i.val * 2 + 1])⟩

/-- the loop over the readings of a file; `none`: `csv_writers[reading.sg_i]` out of bounds. models pull_ozys_data.rs:50-53 -/
def route {F S T : Type} (a : Arith F S) (env : Env T) : List (Reading T × Result) → List (List (Row F)) → Option (List (List (Row F)))
  | [], tables => some tables
  | (r, u) :: rs, tables =>
    if r.sg.toNat < tables.length then route a env rs (tables.modify r.sg.toNat fun t => t ++ csvRows a env r u) else none

/-- the loop over the files. models pull_ozys_data.rs:48-54 -/
def fileLoop {F S T : Type} (a : Arith F S) (e : Enum (Rec T)) (env : Env T) (sched1 sched2 : Nat → Nat) (fuel : Nat) : List Bytes → List (List (Row F)) → Option (List (List (Row F)))
  | [], tables => some tables
  | b :: bs, tables =>
    match parseSg e env sched1 sched2 fuel b with
    | none => none
    | some rs =>
      match route a env rs tables with
      | none => none
      | some tables => fileLoop a e env sched1 sched2 fuel bs tables

/-- the strain gauge part of `pull_ozys_data` after the download (C91): four tables. models pull_ozys_data.rs:44-57 -/
def sgTables {F S T : Type} (a : Arith F S) (e : Enum (Rec T)) (env : Env T) (sched1 sched2 : Nat → Nat) (fuel : Nat) (files : List Bytes) : Option (List (List (Row F))) :=
  fileLoop a e env sched1 sched2 fuel files (List.replicate 4 [])

end Verif.SG
