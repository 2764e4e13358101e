import Verif.Model.Directory
/-
Ring logs: firmware-common/src/common/delta_logger/ring_file_writer.rs and ring_delta_logger.rs. The two share the directory code
of `new` and `create_new_segment` line by line; they differ in that `RingFileWriter` skips the creation of a segment when nothing was written.
Timing (`run`, tickers) is left out: a segment may be created at any time. The data written to the segments is not part of this module.
-/
namespace Verif.Vlfs
open Verif

/-- the loop that copies the directory and leaves out the first `k` files of the type, whether they are open or not.
models ring_file_writer.rs:71-78 (any `k`), 155-163 (`k = 1`), ring_delta_logger.rs:90-97, 258-266 -/
def rotateLoop (typ : Nat) : Nat → Builder → Nat → BRes Unit
  | 0, b, _ => (.error .hang, b)
  | fuel + 1, b, k =>
    match b.readNext with
    | (.error e, b) => (.error e, b)
    | (.ok none, b) => (.ok (), b)
    | (.ok (some e), b) =>
      if e.typ = typ ∧ k > 0 then
        match b.releaseFileSectors e with
        | (.error er, b) => (.error er, b)
        | (.ok (), b) => rotateLoop typ fuel b (k - 1)
      else rotateLoop typ fuel (b.write e) k

/-- one directory update: the first `k` files of the type are dropped and a new one is created and opened for writing.
models ring_file_writer.rs:56-83 and 149-174, ring_delta_logger.rs:74-102 and 253-276 -/
def FS.rotate (fs : FS) (typ k r1 r2 : Nat) : Res FileEntry :=
  match rotateLoop typ maxEntries (Builder.new fs) k with
  | (.error e, b) => (.error e, b.abandon)
  | (.ok (), b) =>
    match b.writeNewFileAndOpen typ r1 r2 with
    | (.error e, b) => (.error e, b.abandon)
    | (.ok e, b) => (.ok e, b.commit)

/-- `RingFileWriter` / `RingDeltaLoggerState`: file type, `segments_per_ring`, `current_ring_segments`, file being written, `current_writer_dirty`,
`new_segment`. models ring_file_writer.rs:18-34, ring_delta_logger.rs:29-47 -/
structure Ring where
  typ : Nat
  cap : Nat
  segments : Nat
  current : FileEntry
  dirty : Bool
  newSegment : Bool

/-- `new`. `segments_per_ring = 0` underflows (panic). models ring_file_writer.rs:43-96, ring_delta_logger.rs:60-115 -/
def Ring.new (fs : FS) (typ cap r1 r2 : Nat) : Res Ring :=
  match fs.filesIter (fun e => e.typ == typ) with
  | .error e => (.error e, fs)
  | .ok files =>
    if cap = 0 then (.error .panic, fs)
    else
      let p := if files.length > cap - 1 then (files.length - cap + 1, cap) else (0, files.length + 1)
      match fs.rotate typ p.1 r1 r2 with
      | (.error e, fs) => (.error e, fs)
      | (.ok e, fs) => (.ok ⟨typ, cap, p.2, e, false, true⟩, fs)

/-- `get_writer`: the caller is about to write; returns whether this is a new segment. models ring_file_writer.rs:96-108 -/
def Ring.getWriter (r : Ring) : Bool × Ring := (r.newSegment, { r with dirty := true, newSegment := false })

/-- the part of `create_new_segment` behind the check of the dirty flag. Closing the old writer is left out here.
models ring_file_writer.rs:148-187, ring_delta_logger.rs:251-292 -/
def Ring.rotate (r : Ring) (fs : FS) (r1 r2 : Nat) : Res Ring :=
  let p := if r.segments ≥ r.cap then (1, r.cap) else (0, r.segments + 1)
  match fs.rotate r.typ p.1 r1 r2 with
  | (.error e, fs) => (.error e, fs)
  | (.ok e, fs) => (.ok { r with segments := p.2, current := e, dirty := false, newSegment := true }, fs)

/-- `create_new_segment` of `RingFileWriter`. models ring_file_writer.rs:141-189 -/
def Ring.createNewSegment (r : Ring) (fs : FS) (r1 r2 : Nat) : Res Ring :=
  if !r.dirty then (.ok r, fs) else r.rotate fs r1 r2

end Verif.Vlfs
