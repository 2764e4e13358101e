import Verif.Model.Tagged
import Verif.Model.Export
/-
A log of tagged records in a file (the writer `create_serialized_enum!` generates, with `FileWriter` as its `embedded_io_async::Write`), and downloading such logs
(vl-host-lib/src/common/parse_serialized_enums.rs, vl-host-lib/src/vl/pull_vacuum_test.rs). How records are printed, and the files of the host, are not modelled. Random
numbers for sector claims are parameters. Panics are `.error .panic` / `none`.
-/
namespace Verif.RecordFile
open Verif Verif.Vlfs Verif.Tagged Verif.Console Verif.Log Verif.Export

/-- the generated logger's buffer, the file writer and the file system. models firmware-common/src/common/serialized_enum.rs:78-86, vacuum_test/mod.rs:59-64 -/
structure St where
  buf : Bytes
  w : FileWriter
  fs : FS

/-- the default `write_all` (no call for an empty slice) on the file writer. models vlfs/src/fs/writer.rs:376-378 -/
def St.writeAll (crc : Bytes → UInt32) (rng : Nat → Nat × Nat) (s : St) (d : Bytes) : Except Err Unit × St :=
  if d = [] then (.ok (), s)
  else
    match s.fs.extendWriter crc s.w rng d with
    | (r, w, fs) => (r, ⟨s.buf, w, fs⟩)

/-- `write`: the record goes into the buffer, then `write_all(&self.buffer[..len])`. models serialized_enum.rs:88-92 -/
def St.write {α : Type} (crc : Bytes → UInt32) (e : Enum α) (rng : Nat → Nat × Nat) (s : St) (v : α) : Except Err Unit × St :=
  match e.writeToBuffer v s.buf with
  | some (len, buf) => if buf.length < len then (.error .panic, s) else St.writeAll crc rng ⟨buf, s.w, s.fs⟩ (buf.take len)
  | none => (.error .panic, s)

/-- `log_file_writer.flush()`. models vacuum_test/mod.rs:127, vlfs/src/fs/writer.rs:380-382 -/
def St.flush (crc : Bytes → UInt32) (r1 r2 : Nat) (s : St) : Except Err Unit × St :=
  match s.fs.flushWriter crc s.w r1 r2 with
  | (r, w, fs) => (r, ⟨s.buf, w, fs⟩)

/-- `while let Some(log) = reader.read_next().await.unwrap()`; `none`: a panic, or more than `fuel` calls. models parse_serialized_enums.rs:14-21 -/
def readLog {α : Type} (e : Enum α) (sched : Nat → Nat) : Nat → Src → List α → Option (List α)
  | 0, _, _ => none
  | fuel + 1, s, got =>
    match e.readNext sched s with
    | none => none
    | some (none, _) => some got
    | some (some v, s) => readLog e sched fuel s (got ++ [v])

/-- the records of all files, file by file. models pull_vacuum_test.rs:38-49 -/
def logLines {α : Type} (e : Enum α) (sched : Nat → Nat) (fuel : Nat) : List Bytes → Option (List α)
  | [] => some []
  | b :: bs =>
    match readLog e sched fuel ⟨b, 0⟩ [] with
    | none => none
    | some vs =>
      match logLines e sched fuel bs with
      | none => none
      | some rest => some (vs ++ rest)

/-- pull the files of a type and read the records in them. models pull_vacuum_test.rs:26-50 -/
def pullLogs {α : Type} (crc : Bytes → UInt32) (e : Enum α) (sched : Nat → Nat) (fuel : Nat) (s : Session) (fs : FS) (typ : Nat) : Option (List α) × Session × FS :=
  match pullFiles crc fuel s fs typ with
  | (none, s, fs) => (none, s, fs)
  | (some bs, s, fs) => (logLines e sched fuel bs, s, fs)

/-- `VACUUM_TEST_LOG_FILE_TYPE`. models firmware-common/src/common/file_types.rs:26 -/
def vacuumLog : Nat := 21

/-- `VACUUM_TEST_BARO_LOGGER`. models firmware-common/src/common/file_types.rs:27 -/
def vacuumBaro : Nat := 22

/-- `pull_vacuum_test`: the lines of vacuum_test_log.log and the rows of baro.csv. models pull_vacuum_test.rs:19-74 -/
def pullVacuumTest {α TS TD D DD : Type} (crc : Bytes → UInt32) (e : Enum α) (c : Cfg TS TD D DD) (env : Env TS) (sched sched1 sched2 : Nat → Nat) (fuel : Nat) (s : Session) (fs : FS) :
    Option (List α × List (Row TS D)) :=
  match pullLogs crc e sched fuel s fs vacuumLog with
  | (none, _, _) => none
  | (some lines, s, fs) =>
    match exportType crc c env sched1 sched2 fuel s fs vacuumBaro with
    | (none, _, _) => none
    | (some rows, _, _) => some (lines, rows)

end Verif.RecordFile
