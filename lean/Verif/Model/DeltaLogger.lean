import Verif.Model.BitSlice
import Verif.Model.Delta
/-
The sensor log (firmware-common/src/common/delta_logger/delta_logger.rs).
The sensor type, its delta, the timestamps and their deltas are abstract; a time-sync record is a pair of f64 bit patterns.
The sink never fails (I/O errors of the underlying writer and reader are not modelled). Panics are `none`.
-/
namespace Verif.Log
open Verif.Bit Verif.Delta

/-- `UnixTimestampLog`: boot and unix timestamp. models delta_logger.rs:67-71 -/
abbrev Unix := BitVec 64 × BitVec 64

/-- what the logger is generic over: codecs of a full and a delta timestamp, of full and delta data, the delta arithmetic,
the test `interval < FF::min()` (new, last) and the size of the bit buffers `size_of::<D>() + 10`.
models delta_logger.rs:16-39, 93-106 -/
structure Cfg (TS TD D DD : Type) where
  ts : Prim TS
  td : Prim TD
  d : Prim D
  dd : Prim DD
  tsDelta : Deltable TS TD
  dDelta : Deltable D DD
  tooClose : TS → TS → Bool
  bytes : Nat

/-- codec of a time-sync record. models delta_logger.rs:73-89 -/
def unixPrim : Prim Unix := (Prim.uint 64).seq (Prim.uint 64)

/-- two header bits -/
def hdr2 (a b : Bool) : { l : List Bool // l.length = 2 } := ⟨[a, b], rfl⟩
/-- three header bits -/
def hdr3 (a b c : Bool) : { l : List Bool // l.length = 3 } := ⟨[a, b, c], rfl⟩

/-- `DeltaLogger`; `sink` is everything handed to `writer.write_all`. models delta_logger.rs:93-106 -/
structure Logger (TS D : Type) where
  dLast : Option D
  tsLast : Option TS
  sink : Bytes
  w : Writer
  lastUnix : Bool
  unixBuf : Option Unix

/-- `DeltaLogger::new`. models delta_logger.rs:115-124 -/
def Logger.new {TS TD D DD : Type} (c : Cfg TS TD D DD) : Logger TS D := ⟨none, none, [], Writer.new c.bytes, false, none⟩

/-- `write_all(view_full_byte_slice())` and `clear_full_byte_slice()`. models delta_logger.rs:169-172, 186-189 -/
def Logger.drain {TS D : Type} (l : Logger TS D) : Option (Logger TS D) :=
  match l.w.clearFull with
  | some w => some { l with sink := l.sink ++ l.w.fullBytes, w := w }
  | none => none

/-- `log_unix_time`. models delta_logger.rs:178-193 -/
def Logger.logUnix {TS D : Type} (l : Logger TS D) (u : Unix) : Option (Logger TS D) :=
  if l.lastUnix then some { l with unixBuf := some u }
  else
    match l.w.write (Prim.bool.arr 2) (hdr2 false false) with
    | some w =>
      match w.write unixPrim u with
      | some w =>
        match ({ l with w := w } : Logger TS D).drain with
        | some l => some { l with lastUnix := true }
        | none => none
      | none => none
    | none => none

/-- the part of `log` that writes the reading. models delta_logger.rs:148-167 -/
def Logger.writeReading {TS TD D DD : Type} (c : Cfg TS TD D DD) (l : Logger TS D) (t : TS) (v : D) : Option (Logger TS D) :=
  match push c.tsDelta l.tsLast t with
  | some (tsLast, .full t) =>
    match l.w.write (Prim.bool.arr 3) (hdr3 true true false) with
    | some w =>
      match w.write c.ts t with
      | some w =>
        match w.write c.d v with
        | some w => some { l with tsLast := tsLast, dLast := some v, w := w }
        | none => none
      | none => none
    | none => none
  | some (tsLast, .delta k) =>
    match push c.dDelta l.dLast v with
    | some (dLast, .full v) =>
      match l.w.write (Prim.bool.arr 2) (hdr2 false true) with
      | some w =>
        match w.write c.td k with
        | some w =>
          match w.write c.d v with
          | some w => some { l with tsLast := tsLast, dLast := dLast, w := w }
          | none => none
        | none => none
      | none => none
    | some (dLast, .delta x) =>
      match l.w.write (Prim.bool.arr 2) (hdr2 true false) with
      | some w =>
        match w.write c.td k with
        | some w =>
          match w.write c.dd x with
          | some w => some { l with tsLast := tsLast, dLast := dLast, w := w }
          | none => none
        | none => none
      | none => none
    | none => none
  | none => none

/-- `unix_time_log_buffer.take()` and, if there was one, `log_unix_time`. models delta_logger.rs:144-146 -/
def Logger.emitBuffered {TS D : Type} (l : Logger TS D) : Option (Logger TS D) :=
  match l.unixBuf with
  | some u => ({ l with unixBuf := none } : Logger TS D).logUnix u
  | none => some l

/-- `reading.timestamp - last_timestamp < FF::min()`. models delta_logger.rs:137-142 -/
def Logger.refuses {TS TD D DD : Type} (c : Cfg TS TD D DD) (l : Logger TS D) (t : TS) : Bool :=
  match l.tsLast with
  | some last => c.tooClose t last
  | none => false

/-- `log`: the Bool says whether the reading was accepted. models delta_logger.rs:136-176 -/
def Logger.log {TS TD D DD : Type} (c : Cfg TS TD D DD) (l : Logger TS D) (t : TS) (v : D) : Option (Bool × Logger TS D) :=
  if l.refuses c t then some (false, l)
  else
    match l.emitBuffered with
    | some l =>
      match l.writeReading c t v with
      | some l =>
        match l.drain with
        | some l => some (true, { l with lastUnix := false })
        | none => none
      | none => none
    | none => none

/-- `flush`. models delta_logger.rs:195-203 -/
def Logger.flush {TS D : Type} (l : Logger TS D) : Option (Logger TS D) :=
  match l.w.write (Prim.bool.arr 3) (hdr3 true true true) with
  | some w => some { l with sink := l.sink ++ w.allBytes, w := w.clear }
  | none => none

/-- `DeltaLoggerReader`; `src` is what is left in the underlying reader, `tick` counts its `read` calls. models delta_logger.rs:210-221 -/
structure LogReader (TS D : Type) where
  dLast : Option D
  tsLast : Option TS
  src : Bytes
  tick : Nat
  r : Reader

/-- `DeltaLoggerReader::new`. models delta_logger.rs:239-246 -/
def LogReader.new {TS TD D DD : Type} (c : Cfg TS TD D DD) (src : Bytes) : LogReader TS D := ⟨none, none, src, 0, Reader.new c.bytes⟩

/-- `replenish_bytes_async_mut` with the underlying `read`, which returns between one byte and as many as fit, as `sched` decides, and nothing
at the end of the file or when the buffer is full. models bitslice_serialize.rs:101-126 -/
def LogReader.fill {TS D : Type} (sched : Nat → Nat) (s : LogReader TS D) : Option (Nat × LogReader TS D) :=
  let len := s.r.lenBits
  let room := (s.r.buffer.length - ((8 - len % 8) % 8 + len)) / 8
  let n := min (max 1 (sched s.tick)) (min room s.src.length)
  match s.r.replenish (s.src.take n) with
  | some r => some (n, { s with r := r, src := s.src.drop n, tick := s.tick + 1 })
  | none => none

/-- `ensure_at_least_bits`; the fuel is an upper bound for the number of rounds (each but the last takes a byte).
models delta_logger.rs:360-372 -/
def LogReader.ensureLoop {TS D : Type} (sched : Nat → Nat) (k : Nat) : Nat → LogReader TS D → Option (Bool × LogReader TS D)
  | 0, s => some (false, s)
  | fuel + 1, s =>
    if s.r.lenBits < k then
      match s.fill sched with
      | some (n, s) => if n = 0 then some (false, s) else ensureLoop sched k fuel s
      | none => none
    else some (true, s)

/-- `ensure_at_least_bits`. models delta_logger.rs:360-372 -/
def LogReader.ensure {TS D : Type} (sched : Nat → Nat) (k : Nat) (s : LogReader TS D) : Option (Bool × LogReader TS D) :=
  s.ensureLoop sched k (s.src.length + 1)

/-- `bit_reader.read().unwrap()` -/
def LogReader.take {TS D : Type} {α : Type} (s : LogReader TS D) (p : Prim α) : Option (α × LogReader TS D) :=
  match s.r.read p with
  | some (some v, r) => some (v, { s with r := r })
  | _ => none

/-- a value the reader returns -/
inductive Out (TS D : Type)
  | reading (t : TS) (v : D)
  | unix (u : Unix)
  deriving DecidableEq

/-- `DeltaLoggerReaderResult`. models delta_logger.rs:223-230 -/
inductive Res (TS D : Type)
  | eof
  | data (o : Out TS D)
  | again

/-- the combination `if !ensure_at_least_bits(len) { return EOF }; read().unwrap()`: `some (none, s)` = end of file -/
def LogReader.get {TS D : Type} {α : Type} (sched : Nat → Nat) (s : LogReader TS D) (p : Prim α) : Option (Option α × LogReader TS D) :=
  match s.ensure sched p.len with
  | some (true, s) =>
    match s.take p with
    | some (v, s) => some (some v, s)
    | none => none
  | some (false, s) => some (none, s)
  | none => none

/-- the result for a reading: `TryAgain` when one of the deltas had nothing to be added to. models delta_logger.rs:348-357 -/
def result {TS D : Type} (t : Option TS) (v : Option D) : Res TS D :=
  match t, v with
  | some t, some v => .data (.reading t v)
  | _, _ => .again

/-- `inner_read` behind a header that announces a full timestamp and full data. models delta_logger.rs:302-357 -/
def LogReader.readFull {TS TD D DD : Type} (c : Cfg TS TD D DD) (sched : Nat → Nat) (s : LogReader TS D) : Option (Res TS D × LogReader TS D) :=
  match s.get sched c.ts with
  | some (some t, s) =>
    let u := unPush c.tsDelta s.tsLast (.full t)
    let s := { s with tsLast := u.1 }
    match s.get sched c.d with
    | some (some v, s) =>
      let u' := unPush c.dDelta s.dLast (.full v)
      some (result u.2 u'.2, { s with dLast := u'.1 })
    | some (none, s) => some (.eof, s)
    | none => none
  | some (none, s) => some (.eof, s)
  | none => none

/-- `inner_read` behind a header that announces a delta timestamp and full data. models delta_logger.rs:302-357 -/
def LogReader.readDeltaFull {TS TD D DD : Type} (c : Cfg TS TD D DD) (sched : Nat → Nat) (s : LogReader TS D) : Option (Res TS D × LogReader TS D) :=
  match s.get sched c.td with
  | some (some k, s) =>
    let u := unPush c.tsDelta s.tsLast (.delta k)
    let s := { s with tsLast := u.1 }
    match s.get sched c.d with
    | some (some v, s) =>
      let u' := unPush c.dDelta s.dLast (.full v)
      some (result u.2 u'.2, { s with dLast := u'.1 })
    | some (none, s) => some (.eof, s)
    | none => none
  | some (none, s) => some (.eof, s)
  | none => none

/-- `inner_read` behind a header that announces a delta timestamp and delta data. models delta_logger.rs:302-357 -/
def LogReader.readDeltaDelta {TS TD D DD : Type} (c : Cfg TS TD D DD) (sched : Nat → Nat) (s : LogReader TS D) : Option (Res TS D × LogReader TS D) :=
  match s.get sched c.td with
  | some (some k, s) =>
    let u := unPush c.tsDelta s.tsLast (.delta k)
    let s := { s with tsLast := u.1 }
    match s.get sched c.dd with
    | some (some x, s) =>
      let u' := unPush c.dDelta s.dLast (.delta x)
      some (result u.2 u'.2, { s with dLast := u'.1 })
    | some (none, s) => some (.eof, s)
    | none => none
  | some (none, s) => some (.eof, s)
  | none => none

/-- `inner_read` behind the header of a time-sync record. models delta_logger.rs:294-300 -/
def LogReader.readUnix {TS D : Type} (sched : Nat → Nat) (s : LogReader TS D) : Option (Res TS D × LogReader TS D) :=
  match s.get sched unixPrim with
  | some (some u, s) => some (.data (.unix u), s)
  | some (none, s) => some (.eof, s)
  | none => none

/-- `inner_read`. models delta_logger.rs:266-358 -/
def LogReader.inner {TS TD D DD : Type} (c : Cfg TS TD D DD) (sched : Nat → Nat) (s : LogReader TS D) : Option (Res TS D × LogReader TS D) :=
  match s.ensure sched 2 with
  | some (true, s) =>
    match s.take Prim.bool with
    | some (h1, s) =>
      match s.take Prim.bool with
      | some (h2, s) =>
        match h1, h2 with
        | true, false => s.readDeltaDelta c sched
        | false, true => s.readDeltaFull c sched
        | false, false => s.readUnix sched
        | true, true =>
          match s.get sched Prim.bool with
          | some (some true, s) => some (.again, { s with r := s.r.skipByte })
          | some (some false, s) => s.readFull c sched
          | some (none, s) => some (.eof, s)
          | none => none
      | none => none
    | none => none
  | some (false, s) => some (.eof, s)
  | none => none

/-- the loop of `read`; `fuel` bounds the number of rounds (each takes at least two bits). models delta_logger.rs:248-264 -/
def LogReader.readLoop {TS TD D DD : Type} (c : Cfg TS TD D DD) (sched : Nat → Nat) : Nat → LogReader TS D → Option (Option (Out TS D) × LogReader TS D)
  | 0, s => some (none, s)
  | fuel + 1, s =>
    match s.inner c sched with
    | some (.eof, s) => some (none, s)
    | some (.data o, s) => some (some o, s)
    | some (.again, s) => readLoop c sched fuel s
    | none => none

/-- `read`. models delta_logger.rs:248-264 -/
def LogReader.read {TS TD D DD : Type} (c : Cfg TS TD D DD) (sched : Nat → Nat) (s : LogReader TS D) : Option (Option (Out TS D) × LogReader TS D) :=
  s.readLoop c sched (s.r.lenBits + 8 * s.src.length + 1)

end Verif.Log
