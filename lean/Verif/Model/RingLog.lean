import Verif.Model.LogFile
import Verif.Model.Ring
/-
The ring of sensor logs the avionics write: `RingDeltaLogger` (firmware-common/src/common/delta_logger/ring_delta_logger.rs) on top of `DeltaLogger` and the file system. Each public call and each
part of `create_new_segment` between two points where another task can run is one function here (the calls of the file system themselves are taken to be atomic). The timing
(`first_segment_seconds`, the ticker) is left out: a new segment may be begun at any time. `close_signal` is left out as well.
-/
namespace Verif.RingLog
open Verif Verif.Vlfs Verif.Bit Verif.Delta Verif.Log

/-- a `DeltaLogger` with the file writer it owns. models delta_logger.rs:93-106 -/
structure Half (TS D : Type) where
  l : Logger TS D
  w : FileWriter

/-- the state of the ring logger and, while `create_new_segment` runs, its local variables: `next` is `new_writer`, `old` is `old_delta_logger`. models ring_delta_logger.rs:29-47 -/
structure St (TS D : Type) where
  typ : Nat
  cap : Nat
  /-- `current_ring_segments` -/
  segments : Nat
  /-- `delta_logger` -/
  cur : Option (Half TS D)
  next : Option FileWriter
  old : Option (Half TS D)
  fs : FS

/-- the writer `write_new_file_and_open_for_write` returns (the new file always has a first sector). models vlfs/src/fs/at_builder.rs:185-196 -/
def writerOf (e : FileEntry) : Option FileWriter := e.first.map (FileWriter.new · e.id)

/-- how many files are removed when a ring of `cap` segments is started with `n` files of the type present, and the counter afterwards. models ring_delta_logger.rs:76-85 -/
def startPlan (n cap : Nat) : Nat × Nat := if n > cap - 1 then (n - cap + 1, cap) else (0, n + 1)

/-- `RingDeltaLoggerState::new`. `segments_per_ring = 0` underflows (panic). models ring_delta_logger.rs:60-112 -/
def St.new {TS TD D DD : Type} (c : Cfg TS TD D DD) (fs : FS) (typ cap r1 r2 : Nat) : Except Err (St TS D) × FS :=
  match fs.filesIter (fun e => e.typ == typ) with
  | .error e => (.error e, fs)
  | .ok files =>
    if cap = 0 then (.error .panic, fs)
    else
      match fs.rotate typ (startPlan files.length cap).1 r1 r2 with
      | (.error e, fs) => (.error e, fs)
      | (.ok e, fs) =>
        match writerOf e with
        | some w => (.ok ⟨typ, cap, (startPlan files.length cap).2, some ⟨Logger.new c, w⟩, none, none, fs⟩, fs)
        | none => (.error .panic, fs)

/-- `log`; after the close it panics. models ring_delta_logger.rs:174-178 -/
def St.log {TS TD D DD : Type} (crc : Bytes → UInt32) (c : Cfg TS TD D DD) (rng1 rng2 : Nat → Nat × Nat) (s : St TS D) (t : TS) (v : D) : Except Err Bool × St TS D :=
  match s.cur with
  | some h =>
    match LogFile.St.log crc c rng1 rng2 ⟨h.l, h.w, s.fs⟩ t v with
    | (r, f) => (r, { s with cur := some ⟨f.l, f.w⟩, fs := f.fs })
  | none => (.error .panic, s)

/-- `log_unix_time`. models ring_delta_logger.rs:180-184 -/
def St.logUnix {TS D : Type} (crc : Bytes → UInt32) (rng : Nat → Nat × Nat) (s : St TS D) (u : Unix) : Except Err Unit × St TS D :=
  match s.cur with
  | some h =>
    match LogFile.St.logUnix crc rng ⟨h.l, h.w, s.fs⟩ u with
    | (r, f) => (r, { s with cur := some ⟨f.l, f.w⟩, fs := f.fs })
  | none => (.error .panic, s)

/-- `flush`. models ring_delta_logger.rs:186-190 -/
def St.flush {TS D : Type} (crc : Bytes → UInt32) (rng : Nat → Nat × Nat) (r1 r2 : Nat) (s : St TS D) : Except Err Unit × St TS D :=
  match s.cur with
  | some h =>
    match LogFile.St.flush crc rng r1 r2 ⟨h.l, h.w, s.fs⟩ with
    | (r, f) => (r, { s with cur := some ⟨f.l, f.w⟩, fs := f.fs })
  | none => (.error .panic, s)

/-- how many files a new segment removes, and the counter afterwards. models ring_delta_logger.rs:254-273 -/
def St.plan {TS D : Type} (s : St TS D) : Nat × Nat := if s.segments ≥ s.cap then (1, s.cap) else (0, s.segments + 1)

/-- `create_new_segment` up to the commit of the directory. models ring_delta_logger.rs:251-277 -/
def St.beginSegment {TS D : Type} (r1 r2 : Nat) (s : St TS D) : Except Err Unit × St TS D :=
  match s.fs.rotate s.typ s.plan.1 r1 r2 with
  | (.error e, fs) => (.error e, { s with fs := fs })
  | (.ok e, fs) =>
    match writerOf e with
    | some w => (.ok (), { s with next := some w, fs := fs })
    | none => (.error .panic, { s with fs := fs })

/-- the new logger replaces the old one, as soon as the lock is free. models ring_delta_logger.rs:278-283 -/
def St.swap {TS TD D DD : Type} (c : Cfg TS TD D DD) (s : St TS D) : Except Err Unit × St TS D :=
  match s.next, s.cur with
  | some w, some h => (.ok (), { s with cur := some ⟨Logger.new c, w⟩, next := none, old := some h })
  | _, _ => (.error .panic, s)

/-- the old logger is flushed. models ring_delta_logger.rs:285 -/
def St.flushOld {TS D : Type} (crc : Bytes → UInt32) (rng : Nat → Nat × Nat) (r1 r2 : Nat) (s : St TS D) : Except Err Unit × St TS D :=
  match s.old with
  | some h =>
    match LogFile.St.flush crc rng r1 r2 ⟨h.l, h.w, s.fs⟩ with
    | (r, f) => (r, { s with old := some ⟨f.l, f.w⟩, fs := f.fs })
  | none => (.error .panic, s)

/-- … and its file closed; the counter is updated. models ring_delta_logger.rs:286-288 -/
def St.closeOld {TS D : Type} (crc : Bytes → UInt32) (s : St TS D) : Except Err Unit × St TS D :=
  match s.old with
  | some h => (.ok (), { s with old := none, segments := s.plan.2, fs := s.fs.closeWriter crc h.w })
  | none => (.error .panic, s)

/-- the close requested with `into_inner`: the logger is taken, flushed and closed. models ring_delta_logger.rs:239-246 -/
def St.close {TS D : Type} (crc : Bytes → UInt32) (rng : Nat → Nat × Nat) (r1 r2 : Nat) (s : St TS D) : Except Err Unit × St TS D :=
  match s.cur with
  | some h =>
    match LogFile.St.flush crc rng r1 r2 ⟨h.l, h.w, s.fs⟩ with
    | (.ok (), f) => (.ok (), { s with cur := none, fs := f.fs.closeWriter crc f.w })
    | (.error e, f) => (.error e, { s with cur := none, fs := f.fs })
  | none => (.error .panic, s)

/-- `RingDeltaLoggerReader`: `rest` are the contents of the files of the type that the iterator has not returned yet (oldest first, see `FS.filesIter` and C21; opening and reading a file
gives its content, see `ReadsAs`), `cur` is `delta_logger_reader`. models ring_delta_logger.rs:295-307 -/
structure Reader (TS D : Type) where
  rest : List Bytes
  cur : Option (LogReader TS D)

/-- `RingDeltaLoggerReader::new`. models ring_delta_logger.rs:327-345 -/
def Reader.new {TS TD D DD : Type} (c : Cfg TS TD D DD) : List Bytes → Reader TS D
  | [] => ⟨[], none⟩
  | f :: fs => ⟨fs, some (LogReader.new c f)⟩

/-- `DeltaLoggerReaderResult`. models ring_delta_logger.rs:309-316 -/
inductive ReaderResult (TS D : Type) where
  | eof
  | data (o : Out TS D)
  | tryAgain

/-- the first half of `inner_read`: the next file is opened. models ring_delta_logger.rs:347-355 -/
def Reader.advance {TS TD D DD : Type} (c : Cfg TS TD D DD) (r : Reader TS D) : Reader TS D :=
  match r.cur, r.rest with
  | none, f :: fs => ⟨fs, some (LogReader.new c f)⟩
  | _, _ => r

/-- `inner_read` (`none`: panic in the log reader). models ring_delta_logger.rs:347-368 -/
def Reader.innerRead {TS TD D DD : Type} (c : Cfg TS TD D DD) (sched : Nat → Nat) (r : Reader TS D) : Option (ReaderResult TS D × Reader TS D) :=
  match (r.advance c).cur with
  | some l =>
    match l.read c sched with
    | some (some o, l) => some (.data o, ⟨(r.advance c).rest, some l⟩)
    | some (none, _) => some (.tryAgain, ⟨(r.advance c).rest, none⟩)
    | none => none
  | none => some (.eof, r.advance c)

/-- the loop of `read`: `inner_read` until there is an entry or no file is left. models ring_delta_logger.rs:370-389 -/
def Reader.loop {TS TD D DD : Type} (c : Cfg TS TD D DD) (sched : Nat → Nat) : Nat → Reader TS D → Option (Option (Out TS D) × Reader TS D)
  | 0, _ => none
  | fuel + 1, r =>
    match r.innerRead c sched with
    | some (.eof, r) => some (none, r)
    | some (.data o, r) => some (some o, r)
    | some (.tryAgain, r) => Reader.loop c sched fuel r
    | none => none

/-- `read`: the number of rounds is bounded by the number of files left. models ring_delta_logger.rs:370-389 -/
def Reader.read {TS TD D DD : Type} (c : Cfg TS TD D DD) (sched : Nat → Nat) (r : Reader TS D) : Option (Option (Out TS D) × Reader TS D) :=
  Reader.loop c sched (r.rest.length + 2) r

end Verif.RingLog
