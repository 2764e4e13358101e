import Verif.Model.RecordFile
import Verif.Spec.FsHistory
import Verif.Spec.TaggedStream
/-
A log of tagged records in a file, next to any other use of the file system, until power is lost.
-/
namespace Verif.Spec
open Verif Verif.Vlfs Verif.Tagged Verif.RecordFile

/-- `Records crc e id s ks acc safe`: a log that was started on the fresh file `id`, with every call successful so far. `acc`: the records written; `safe`: the records at the last `flush`.
`ks` is what is known about all files (Spec/FsHistory.lean). -/
inductive Records {α : Type} (crc : Bytes → UInt32) (e : Enum α) (id : Nat) : St → List Known → List α → List α → Prop
  /-- the generated `new`, with the writer of an empty file -/
  | start {s : St} {ks : List Known} {k : Known} (hr : Hist crc s.fs ks) (hk : k ∈ ks) (hid : k.id = id) (hw : k.writer = some s.w) (hd : k.data = [])
      (hm : k.maybe = []) (hb : s.buf = (Writer.new e).buf) : Records crc e id s ks [] []
  /-- `write` of a record: the file now holds the encodings of all records written -/
  | write {s s' : St} {ks : List Known} {acc safe : List α} (hr : Records crc e id s ks acc safe) (rng : Nat → Nat × Nat) (v : α) (h : s.write crc e rng v = (.ok (), s')) :
      Records crc e id s' (ks.map fun k => if k.id = id then { k with data := k.data ++ e.bytes v, writer := some s'.w } else k) (acc ++ [v]) safe
  /-- `flush` -/
  | flush {s s' : St} {ks : List Known} {acc safe : List α} (hr : Records crc e id s ks acc safe) (r1 r2 : Nat) (h : s.flush crc r1 r2 = (.ok (), s')) :
      Records crc e id s' (ks.map fun k => if k.id = id then { k with durable := k.data, writer := some s'.w } else k) acc acc
  /-- any call of anybody else, that is not made with the writer of the log -/
  | other {s : St} {fs' : FS} {ks ks' : List Known} {acc safe : List α} (hr : Records crc e id s ks acc safe)
      (hs : Step crc s.fs ks fs' ks') (hkeep : ∀ k ∈ ks, k.id = id → k ∈ ks') : Records crc e id { s with fs := fs' } ks' acc safe

/-- `RecordsCut crc e id s ks fl' extra`: power is lost, at a point of the log `s` or during the next call of the logger or of somebody else, and leaves the chip in the state `fl'`.
`extra`: the record that the call in progress was writing. The states a call can leave are those of `CrashImage` (any prefix of its flash operations, the last one torn in any way). -/
inductive RecordsCut {α : Type} (crc : Bytes → UInt32) (e : Enum α) (id : Nat) (s : St) (ks : List Known) : Flash → List α → Prop
  /-- between two calls -/
  | idle : RecordsCut crc e id s ks s.fs.dev.flash []
  /-- during `write`, whatever it would return -/
  | write (rng : Nat → Nat × Nat) (v : α) (ops : List FlashOp) (fl' : Flash) (hi : issued s.fs (s.write crc e rng v).2.fs ops) (hcr : CrashImage s.fs.dev.flash ops fl') :
      RecordsCut crc e id s ks fl' [v]
  /-- during `flush` -/
  | flush (r1 r2 : Nat) (ops : List FlashOp) (fl' : Flash) (hi : issued s.fs (s.flush crc r1 r2).2.fs ops) (hcr : CrashImage s.fs.dev.flash ops fl') : RecordsCut crc e id s ks fl' []
  /-- during a call of the writer of another file -/
  | otherWrite (ks' : List Known) (fl' : Flash) (hl : LossDuringWrite crc s.fs ks fl' ks') (hkeep : ∀ k ∈ ks, k.id = id → k.afterLoss ∈ ks') : RecordsCut crc e id s ks fl' []
  /-- during the creation or removal of other files -/
  | otherDir (fs' : FS) (ks' : List Known) (ops : List FlashOp) (fl' : Flash) (hs : DirStep s.fs ks fs' ks') (hkeep : ∀ k ∈ ks, k.id = id → k ∈ ks') (hi : issued s.fs fs' ops)
      (hl : ks'.length ≤ 2517) (hp : CrashImage s.fs.dev.flash ops fl') : RecordsCut crc e id s ks fl' []
  /-- while another file is created and opened, or an empty one is opened for writing -/
  | otherOpen (fs' : FS) (ks' : List Known) (ops : List FlashOp) (fl' : Flash) (hs : AllocStep s.fs ks fs' ks') (hkeep : ∀ k ∈ ks, k.id = id → k ∈ ks') (hi : issued s.fs fs' ops)
      (hl : ks'.length ≤ 2517) (hp : CrashImage s.fs.dev.flash ops fl') : RecordsCut crc e id s ks fl' []
  /-- while a ring log of another type (the barometer log of the vacuum test) drops its oldest files and starts a new one -/
  | otherRotate (typ n r1 r2 : Nat) (en : FileEntry) (fs' : FS) (ops : List FlashOp) (fl' : Flash) (hc : s.fs.rotate typ n r1 r2 = (.ok en, fs'))
      (hw : ∀ k ∈ ks, oldestKnown typ n ks k = true → k.writer = none) (hother : ∀ k ∈ ks, k.id = id → k.typ ≠ typ) (hcap : ks.length < 2518) (ht : typ < 0x4000) (hok : countersOk s.fs)
      (hi : issued s.fs fs' ops) (hl : (ks.filter fun k => !oldestKnown typ n ks k).length + 1 ≤ 2517) (hp : CrashImage s.fs.dev.flash ops fl') : RecordsCut crc e id s ks fl' []

/-- the file `k` is a log of records that was cut somewhere: it holds all of `l.1`, and nothing but a beginning of `l.2` -/
def HoldsRecords {α : Type} (crc : Bytes → UInt32) (e : Enum α) (fs : FS) (id : Nat) (l : List α × List α) : Prop :=
  ∃ b, ReadsAs crc fs id b ∧ l.1.flatMap e.bytes <+: b ∧ b <+: l.2.flatMap e.bytes

end Verif.Spec
