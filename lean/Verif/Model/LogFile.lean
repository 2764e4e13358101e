import Verif.Model.DeltaLogger
import Verif.Model.File
/-
The sensor log on top of a file of the file system: `DeltaLogger` with `FileWriter` as its `embedded_io_async::Write`
(firmware-common/src/common/delta_logger/delta_logger.rs, vlfs/src/fs/writer.rs). Random numbers for sector claims are parameters. Panics of the bit writer are
`.error .panic`.
-/
namespace Verif.LogFile
open Verif Verif.Vlfs Verif.Bit Verif.Delta Verif.Log

/-- a `DeltaLogger` whose writer is the file writer `w`, and the file system. `l.sink` is what was handed over successfully. models delta_logger.rs:93-106 -/
structure St (TS D : Type) where
  l : Logger TS D
  w : FileWriter
  fs : FS

/-- the default `write_all` (no call for an empty slice) with `Write::write` of the file writer, which appends everything or fails.
models vlfs/src/fs/writer.rs:376-378 -/
def St.writeAll {TS D : Type} (crc : Bytes → UInt32) (rng : Nat → Nat × Nat) (s : St TS D) (d : Bytes) : Except Err Unit × St TS D :=
  if d = [] then (.ok (), s)
  else
    match s.fs.extendWriter crc s.w rng d with
    | (.ok (), w, fs) => (.ok (), ⟨{ s.l with sink := s.l.sink ++ d }, w, fs⟩)
    | (.error e, w, fs) => (.error e, ⟨s.l, w, fs⟩)

/-- `write_all(view_full_byte_slice())?` and `clear_full_byte_slice()`. models delta_logger.rs:169-172, 186-189 -/
def St.drain {TS D : Type} (crc : Bytes → UInt32) (rng : Nat → Nat × Nat) (s : St TS D) : Except Err Unit × St TS D :=
  match s.writeAll crc rng s.l.w.fullBytes with
  | (.ok (), s) =>
    match s.l.w.clearFull with
    | some w => (.ok (), { s with l := { s.l with w := w } })
    | none => (.error .panic, s)
  | (.error e, s) => (.error e, s)

/-- `log_unix_time`. models delta_logger.rs:178-193 -/
def St.logUnix {TS D : Type} (crc : Bytes → UInt32) (rng : Nat → Nat × Nat) (s : St TS D) (u : Unix) : Except Err Unit × St TS D :=
  if s.l.lastUnix then (.ok (), { s with l := { s.l with unixBuf := some u } })
  else
    match s.l.w.write (Prim.bool.arr 2) (hdr2 false false) with
    | some w =>
      match w.write unixPrim u with
      | some w =>
        match St.drain crc rng { s with l := { s.l with w := w } } with
        | (.ok (), s) => (.ok (), { s with l := { s.l with lastUnix := true } })
        | (.error e, s) => (.error e, s)
      | none => (.error .panic, s)
    | none => (.error .panic, s)

/-- a time-sync record that was kept back is written first. models delta_logger.rs:144-146 -/
def St.emitBuffered {TS D : Type} (crc : Bytes → UInt32) (rng : Nat → Nat × Nat) (s : St TS D) : Except Err Unit × St TS D :=
  match s.l.unixBuf with
  | some u => St.logUnix crc rng { s with l := { s.l with unixBuf := none } } u
  | none => (.ok (), s)

/-- `log`: the Bool says whether the reading was accepted. models delta_logger.rs:136-176 -/
def St.log {TS TD D DD : Type} (crc : Bytes → UInt32) (c : Cfg TS TD D DD) (rng1 rng2 : Nat → Nat × Nat) (s : St TS D) (t : TS) (v : D) : Except Err Bool × St TS D :=
  if s.l.refuses c t then (.ok false, s)
  else
    match s.emitBuffered crc rng1 with
    | (.ok (), s) =>
      match s.l.writeReading c t v with
      | some l =>
        match St.drain crc rng2 { s with l := l } with
        | (.ok (), s) => (.ok true, { s with l := { s.l with lastUnix := false } })
        | (.error e, s) => (.error e, s)
      | none => (.error .panic, s)
    | (.error e, s) => (.error e, s)

/-- `flush`: the end-of-byte marker and everything in the bit buffer are written, then the file is flushed, then the bit buffer is cleared.
models delta_logger.rs:195-203 -/
def St.flush {TS D : Type} (crc : Bytes → UInt32) (rng : Nat → Nat × Nat) (r1 r2 : Nat) (s : St TS D) : Except Err Unit × St TS D :=
  match s.l.w.write (Prim.bool.arr 3) (hdr3 true true true) with
  | some w =>
    match St.writeAll crc rng { s with l := { s.l with w := w } } w.allBytes with
    | (.ok (), s) =>
      match s.fs.flushWriter crc s.w r1 r2 with
      | (.ok (), fw, fs) => (.ok (), ⟨{ s.l with w := s.l.w.clear }, fw, fs⟩)
      | (.error e, fw, fs) => (.error e, ⟨s.l, fw, fs⟩)
    | (.error e, s) => (.error e, s)
  | none => (.error .panic, s)

end Verif.LogFile
