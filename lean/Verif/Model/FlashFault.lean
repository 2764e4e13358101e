import Verif.Model.File
/-
Writing files on a chip that refuses page programs: `write_256b` returns an error and the chip is as it was. Which page programs are refused is a parameter. Erases are not refused. With a chip that refuses
nothing these functions are those of Model/File.lean (C121_accepting). After a refusal the free space of the page buffer can be negative: the subtraction is checked here (`panic`; in a build without
overflow checks it wraps around and the copy goes past the end of the page or of the buffer).
-/
namespace Verif.Vlfs
open Verif

/-- the errors of a writer: those of the file system, and `VLFSError::FlashError`. models vlfs/src/fs/error.rs:7-19 -/
inductive FErr
  | flash
  | fs (e : Err)
deriving Repr, DecidableEq

/-- the page buffer with the checksum put in. models vlfs/src/fs/writer.rs:166-171 -/
def FileWriter.withCrc (crc : Bytes → UInt32) (w : FileWriter) : Option Nat → FileWriter
  | some o => { w with buffer := put w.buffer o (beBytes 4 (crc (w.buffer.take o)).toNat) }
  | none => w

/-- `write_page`: when the chip refuses, the checksum stays in the buffer and the offset where it was. models vlfs/src/fs/writer.rs:161-182 -/
def FileWriter.writePageF (crc : Bytes → UInt32) (w : FileWriter) (addr : Nat) (crcOffset : Option Nat) (dev : Dev) (ok : Bool) : Except FErr Unit × FileWriter × Dev :=
  if ok then (.ok (), { w with buffer := blankPage, offset := 0 }, dev.op (.page addr (w.withCrc crc crcOffset).buffer))
  else (.error .flash, w.withCrc crc crcOffset, dev)

/-- `_flush`; `ok` says which of its page programs are accepted. models vlfs/src/fs/writer.rs:231-277 -/
def FileWriter.flushToF (crc : Bytes → UInt32) (w : FileWriter) (next : Nat) (dev : Dev) (ok : Nat → Bool) : Except FErr Unit × FileWriter × Dev :=
  if w.len = 0 then (w.writeMeta next).writePageF crc (w.sector * SECTOR_SIZE + (SECTOR_SIZE - PAGE_SIZE)) none dev (ok 0)
  else if w.isLastDataPage then
    match (w.writeMeta next).writePageF crc w.pageAddress (some ((w.offset + 3) / 4 * 4)) dev (ok 0) with
    | (.error e, w, dev) => (.error e, w, dev)
    | (.ok (), w, dev) => (.ok (), { w with len := 0 }, dev)
  else
    match (if w.offset > 0 then w.writePageF crc w.pageAddress (some ((w.offset + 3) / 4 * 4)) dev (ok 0) else (.ok (), w, dev)) with
    | (.error e, w, dev) => (.error e, w, dev)
    | (.ok (), w, dev) =>
      match (w.writeMeta next).writePageF crc (w.sector * SECTOR_SIZE + (SECTOR_SIZE - PAGE_SIZE)) none dev (ok 1) with
      | (.error e, w, dev) => (.error e, w, dev)
      | (.ok (), w, dev) => (.ok (), { w with len := 0 }, dev)

/-- a call of the writer: result and the state it leaves behind -/
abbrev WResF := Except FErr Unit × FileWriter × SectorsMng × Dev

/-- `flush`. models vlfs/src/fs/writer.rs:212-229 -/
def FileWriter.flushF (crc : Bytes → UInt32) (w : FileWriter) (m : SectorsMng) (dev : Dev) (rng1 rng2 : Nat) (ok : Nat → Bool) : WResF :=
  if w.len = 0 then (.ok (), w, m, dev)
  else
    match m.claim rng1 rng2 dev with
    | (.error e, m, dev) => (.error (.fs e), w, m, dev)
    | (.ok next, m, dev) =>
      match w.flushToF crc next dev ok with
      | (.error e, w, dev) => (.error e, w, m, dev)
      | (.ok (), w, dev) => (.ok (), { w with sector := next }, m, dev)

/-- `extend_from_slice`; fuel and `rng` as in `FileWriter.extendLoop`, `ok` says whether the page program of the i-th remaining iteration is accepted. models vlfs/src/fs/writer.rs:300-360 -/
def FileWriter.extendLoopF (crc : Bytes → UInt32) (rng : Nat → Nat × Nat) (ok : Nat → Bool) : Nat → FileWriter → SectorsMng → Dev → Bytes → WResF
  | 0, w, m, dev, _ => (.error (.fs .hang), w, m, dev)
  | fuel + 1, w, m, dev, slice =>
    if slice.length > 0 then
      let willBeLast := decide (w.len ≥ 252 * 15)
      let reserved := if willBeLast then 8 + 8 + 4 else 4
      let free := 256 - w.offset - reserved
      if 256 < w.offset + reserved then (.error (.fs .panic), w, m, dev)
      else if slice.length < free then
        (.ok (), { w with buffer := put w.buffer w.offset slice, offset := w.offset + slice.length, len := w.len + slice.length }, m, dev)
      else
        let w := { w with buffer := put w.buffer w.offset (slice.take free), offset := w.offset + free, len := w.len + free }
        if willBeLast then
          match m.claim (rng fuel).1 (rng fuel).2 dev with
          | (.error e, m, dev) => (.error (.fs e), w, m, dev)
          | (.ok next, m, dev) =>
            match (w.writeMeta next).writePageF crc (w.writeMeta next).pageAddress (some (w.writeMeta next).offset) dev (ok fuel) with
            | (.error e, w, dev) => (.error e, w, m, dev)
            | (.ok (), w, dev) => extendLoopF crc rng ok fuel { w with len := 0, sector := next } m dev (slice.drop free)
        else
          match w.writePageF crc w.pageAddress (some w.offset) dev (ok fuel) with
          | (.error e, w, dev) => (.error e, w, m, dev)
          | (.ok (), w, dev) => extendLoopF crc rng ok fuel w m dev (slice.drop free)
    else (.ok (), w, m, dev)

/-- `extend_from_slice` on the file system. models vlfs/src/fs/writer.rs:300-360 -/
def FS.extendWriterF (crc : Bytes → UInt32) (fs : FS) (w : FileWriter) (rng : Nat → Nat × Nat) (ok : Nat → Bool) (slice : Bytes) : Except FErr Unit × FileWriter × FS :=
  let r := w.extendLoopF crc rng ok (slice.length + 2) fs.mng fs.dev slice
  (r.1, r.2.1, { fs with mng := r.2.2.1, dev := r.2.2.2 })

/-- `flush` on the file system. models vlfs/src/fs/writer.rs:212-229 -/
def FS.flushWriterF (crc : Bytes → UInt32) (fs : FS) (w : FileWriter) (rng1 rng2 : Nat) (ok : Nat → Bool) : Except FErr Unit × FileWriter × FS :=
  let r := w.flushF crc fs.mng fs.dev rng1 rng2 ok
  (r.1, r.2.1, { fs with mng := r.2.2.1, dev := r.2.2.2 })

/-- how `close` ends: the writer is taken over by the call, so that it is dropped when `_flush` fails, and an unclosed writer that is dropped panics -/
inductive CloseResult
  | closed (fs : FS)
  | panics

/-- `close`. models vlfs/src/fs/writer.rs:279-291, 385-398 -/
def FS.closeWriterF (crc : Bytes → UInt32) (fs : FS) (w : FileWriter) (ok : Nat → Bool) : CloseResult :=
  match w.flushToF crc 0xFFFF fs.dev ok with
  | (.error _, _, _) => .panics
  | (.ok (), _, dev) => .closed (FS.markClosed { fs with dev := dev } w.id)

end Verif.Vlfs
