import Verif.Spec.FileStream
import Verif.Spec.DirHistory
/-
Histories of the whole file system: what a caller knows about each file, and how every call, restart and power loss
changes it. The knowledge is kept next to the file system, not inside it.
-/
namespace Verif.Spec
open Verif Verif.Vlfs

/-- What a caller knows about a file: its content is `data` followed by some unknown prefix of `maybe` (`maybe` is
empty unless an append failed or power was lost). `durable` is the content at the last successful flush. `writer` is the open
writer, if any; `guarded` says that it was obtained with `open_file_for_write` (the writer returned by
`create_file_and_open_for_write` is not registered as open). `damaged`: power was lost while the file was being dropped, it
is still listed, and nothing is known about its content. -/
structure Known where
  id : Nat
  typ : Nat
  data : Bytes
  durable : Bytes
  maybe : Bytes
  writer : Option FileWriter
  guarded : Bool
  damaged : Bool
deriving Repr

/-- the writers of all files that the filter may remove are registered -/
def Known.safe (k : Known) : Prop := k.writer.isSome = true → k.guarded = true

/-- The file is still listed, but its content may be damaged. -/
def Known.spoiled (k : Known) : Known := { k with damaged := true }

/-- What is known after a restart without `close`: the flushed data is there, what was written later perhaps partly. -/
def Known.afterLoss (k : Known) : Known :=
  match k.writer with
  | none => k
  | some _ => { k with data := k.durable, maybe := (k.data ++ k.maybe).drop k.durable.length, writer := none, guarded := false }

/-- The file `id` can be opened and reads of any sizes return `c`, then end of file. -/
def ReadsAs (crc : Bytes → UInt32) (fs : FS) (id : Nat) (c : Bytes) : Prop :=
  ∃ r fs', fs.openForRead id = (.ok r, fs') ∧ ∀ ns, reads crc fs.dev.flash r ns = (consumes (c.map .byte) ns).map .ok

/-- `k` is among the `n` oldest (smallest ids) files of type `typ` -/
def oldestKnown (typ n : Nat) (ks : List Known) (k : Known) : Bool :=
  k.typ == typ && decide ((ks.filter fun x => x.typ == typ && decide (x.id < k.id)).length < n)

/-- the `n` oldest files of the type may be damaged -/
def spoilOldest (typ n : Nat) (ks : List Known) : List Known := ks.map fun k => if oldestKnown typ n ks k then k.spoiled else k

/-- One call that only rewrites the directory: `DirStep fs ks fs' ks'`. -/
inductive DirStep (fs : FS) (ks : List Known) : FS → List Known → Prop
  /-- `create_file` -/
  | create (typ : Nat) (e : FileEntry) (fs' : FS) (h : fs.createFile typ = (.ok e, fs')) (hcap : ks.length < 2518)
      (ht : typ < 0x4000) (hok : countersOk fs) : DirStep fs ks fs' (ks ++ [⟨e.id, typ, [], [], [], none, false, false⟩])
  /-- `remove_files` with a filter on id and type, and `remove_file`. Files that are registered as open are kept. The caller does
  not remove a file that is being written by an unregistered writer. -/
  | remove (filter : Nat → Nat → Bool) (n : Nat × Nat) (fs' : FS)
      (h : fs.removeFiles (fun e => filter e.id e.typ) = (.ok n, fs'))
      (hs : ∀ k ∈ ks, filter k.id k.typ = true → k.safe) (hok : countersOk fs) :
      DirStep fs ks fs' (ks.filter fun k => !filter k.id k.typ || decide (k.id ∈ fs.at'.opened))

/-- One call: `Step crc fs ks fs' ks'`. -/
inductive Step (crc : Bytes → UInt32) (fs : FS) (ks : List Known) : FS → List Known → Prop
  /-- `create_file`, `remove_files`, `remove_file` -/
  | dir {fs' : FS} {ks' : List Known} (h : DirStep fs ks fs' ks') : Step crc fs ks fs' ks'
  /-- `create_file_and_open_for_write` -/
  | createOpen (typ r1 r2 : Nat) (e : FileEntry) (fs' : FS) (h : fs.createFileAndOpen typ r1 r2 = (.ok e, fs'))
      (hcap : ks.length < 2518) (ht : typ < 0x4000) (hok : countersOk fs) :
      Step crc fs ks fs' (ks ++ [⟨e.id, typ, [], [], [], e.first.map (FileWriter.new · e.id), false, false⟩])
  /-- a ring log drops its `n` oldest files, which have no writer, and starts a new one -/
  | rotate (typ n r1 r2 : Nat) (e : FileEntry) (fs' : FS) (h : fs.rotate typ n r1 r2 = (.ok e, fs'))
      (hw : ∀ k ∈ ks, oldestKnown typ n ks k = true → k.writer = none) (hcap : ks.length < 2518) (ht : typ < 0x4000) (hok : countersOk fs) :
      Step crc fs ks fs' (ks.filter (fun k => !oldestKnown typ n ks k) ++ [⟨e.id, typ, [], [], [], e.first.map (FileWriter.new · e.id), false, false⟩])
  /-- successful `open_file_for_write` of a file that has no writer -/
  | openWrite (id : Nat) (rng : Nat → Nat) (w : FileWriter) (fs' : FS) (a b : List Known) (k : Known)
      (hk : ks = a ++ k :: b) (hid : k.id = id) (hw : k.writer = none) (hd : k.damaged = false) (h : fs.openForWrite id rng = (.ok w, fs')) (hok : countersOk fs) :
      Step crc fs ks fs' (a ++ { k with durable := k.data, writer := some w, guarded := true } :: b)
  /-- failed `open_file_for_write` -/
  | openWriteErr (id : Nat) (rng : Nat → Nat) (er : Err) (fs' : FS) (hs : ∀ k ∈ ks, k.id = id → k.safe) (hd : ∀ k ∈ ks, k.id = id → k.damaged = false)
      (h : fs.openForWrite id rng = (.error er, fs')) (hok : countersOk fs) : Step crc fs ks fs' ks
  /-- `extend_from_slice` -/
  | extend (rng : Nat → Nat × Nat) (slice : Bytes) (w w' : FileWriter) (fs' : FS) (a b : List Known) (k : Known)
      (hk : ks = a ++ k :: b) (hw : k.writer = some w) (hm : k.maybe = []) (h : fs.extendWriter crc w rng slice = (.ok (), w', fs')) :
      Step crc fs ks fs' (a ++ { k with data := k.data ++ slice, writer := some w' } :: b)
  /-- `extend_from_slice` that returns an error -/
  | extendErr (rng : Nat → Nat × Nat) (slice : Bytes) (er : Err) (w w' : FileWriter) (fs' : FS) (a b : List Known) (k : Known)
      (hk : ks = a ++ k :: b) (hw : k.writer = some w) (hm : k.maybe = []) (h : fs.extendWriter crc w rng slice = (.error er, w', fs')) :
      Step crc fs ks fs' (a ++ { k with maybe := slice, writer := some w' } :: b)
  /-- `flush` -/
  | flush (r1 r2 : Nat) (w w' : FileWriter) (fs' : FS) (a b : List Known) (k : Known)
      (hk : ks = a ++ k :: b) (hw : k.writer = some w) (h : fs.flushWriter crc w r1 r2 = (.ok (), w', fs')) :
      Step crc fs ks fs' (a ++ { k with durable := k.data, writer := some w' } :: b)
  /-- `flush` that returns an error -/
  | flushErr (r1 r2 : Nat) (er : Err) (w w' : FileWriter) (fs' : FS) (a b : List Known) (k : Known)
      (hk : ks = a ++ k :: b) (hw : k.writer = some w) (h : fs.flushWriter crc w r1 r2 = (.error er, w', fs')) :
      Step crc fs ks fs' (a ++ { k with writer := some w' } :: b)
  /-- closing a writer -/
  | close (w : FileWriter) (a b : List Known) (k : Known) (hk : ks = a ++ k :: b) (hw : k.writer = some w) :
      Step crc fs ks (fs.closeWriter crc w) (a ++ { k with durable := k.data, writer := none, guarded := false } :: b)
  /-- `open_file_for_read`, whatever it returns -/
  | openRead (id : Nat) : Step crc fs ks (fs.openForRead id).2 ks
  /-- closing a reader. (There is no reader of a file whose writer is registered.) -/
  | closeRead (r : FileReader) (hs : ∀ k ∈ ks, k.id = r.id → k.writer.isSome = true → k.guarded = false) :
      Step crc fs ks (fs.closeReader r) ks
  /-- the caller reads a whole file and thereby learns its content -/
  | learn (c : Bytes) (a b : List Known) (k : Known) (hk : ks = a ++ k :: b) (hw : k.writer = none) (hd : k.damaged = false) (r : FileReader) (fs' : FS)
      (ho : fs.openForRead k.id = (.ok r, fs')) (n : Nat) (hn : c.length < n) (hr : reads crc fs.dev.flash r [n] = [.ok (c, .endOfFile)]) :
      Step crc fs ks fs (a ++ { k with data := c, durable := c, maybe := [] } :: b)

/-- A call of a writer that issues flash operations: the state it leads to and the bytes it appends. -/
inductive WriterCall (crc : Bytes → UInt32) (fs : FS) (w : FileWriter) : FS → Bytes → Prop
  | extend (rng : Nat → Nat × Nat) (slice : Bytes) : WriterCall crc fs w (fs.extendWriter crc w rng slice).2.2 slice
  | flush (r1 r2 : Nat) : WriterCall crc fs w (fs.flushWriter crc w r1 r2).2.2 []
  | close : WriterCall crc fs w (fs.closeWriter crc w) []

/-- Power is lost during a call of the writer of file `k`: the content of the chip, and what is known afterwards. -/
inductive LossDuringWrite (crc : Bytes → UInt32) (fs : FS) (ks : List Known) : Flash → List Known → Prop
  | mk (a b : List Known) (k : Known) (w : FileWriter) (fs' : FS) (slice : Bytes) (ops : List FlashOp) (fl' : Flash)
      (hk : ks = a ++ k :: b) (hw : k.writer = some w) (hm : k.maybe = [] ∨ slice = []) (hc : WriterCall crc fs w fs' slice)
      (hi : issued fs fs' ops) (hcr : CrashImage fs.dev.flash ops fl') :
      LossDuringWrite crc fs ks fl' ((a ++ { k with maybe := k.maybe ++ slice } :: b).map Known.afterLoss)


/-- One call that claims a sector and enters it in the directory: `create_file_and_open_for_write`, and `open_file_for_write` of a
file that has no sector yet (its directory entry has none). -/
inductive AllocStep (fs : FS) (ks : List Known) : FS → List Known → Prop
  /-- as in `Step.createOpen` -/
  | createOpen (typ r1 r2 : Nat) (e : FileEntry) (fs' : FS) (h : fs.createFileAndOpen typ r1 r2 = (.ok e, fs'))
      (hcap : ks.length < 2518) (ht : typ < 0x4000) (hok : countersOk fs) :
      AllocStep fs ks fs' (ks ++ [⟨e.id, typ, [], [], [], e.first.map (FileWriter.new · e.id), false, false⟩])
  /-- as in `Step.openWrite`, for a file whose entry `e` has no first sector -/
  | openWrite (id : Nat) (rng : Nat → Nat) (w : FileWriter) (fs' : FS) (a b : List Known) (k : Known) (es : List FileEntry) (e : FileEntry)
      (hl : lists fs es) (he : e ∈ es) (heid : e.id = id) (hfirst : e.first = none)
      (hk : ks = a ++ k :: b) (hid : k.id = id) (hw : k.writer = none) (hd : k.damaged = false) (h : fs.openForWrite id rng = (.ok w, fs')) (hok : countersOk fs) :
      AllocStep fs ks fs' (a ++ { k with durable := k.data, writer := some w, guarded := true } :: b)

/-- Reachable states of the file system together with what a caller knows. -/
inductive Hist (crc : Bytes → UInt32) : FS → List Known → Prop
  /-- first start on a chip on which no slot has a readable table header -/
  | format (fl : Flash) (h : ∀ q, q < 4 → headerDeserialize (fl.read (q * 32768) 13) = none) : Hist crc (FS.mount fl).2 []
  /-- a call -/
  | step {fs fs' : FS} {ks ks' : List Known} (hr : Hist crc fs ks) (hs : Step crc fs ks fs' ks') : Hist crc fs' ks'
  /-- restart between two calls -/
  | restart {fs fs' : FS} {ks : List Known} (hr : Hist crc fs ks) (hm : FS.mount fs.dev.flash = (.ok (), fs')) :
      Hist crc fs' (ks.map Known.afterLoss)
  /-- power loss during a call of a writer, then restart -/
  | loss {fs fs' : FS} {ks ks' : List Known} {fl' : Flash} (hr : Hist crc fs ks) (hl : LossDuringWrite crc fs ks fl' ks')
      (hm : FS.mount fl' = (.ok (), fs')) : Hist crc fs' ks'
  /-- power loss during the creation or removal of files, then restart: the caller sees from the list of files whether the
  call took effect. Restricted as in `Reach.crash`: pages are programmed completely or not at all, the footer of the
  table does not cross a page boundary and has a free record behind it. -/
  | lossDir {fs fs' fs'' : FS} {ks ks' ks'' : List Known} {es : List FileEntry} {ops : List FlashOp} {fl' : Flash} (hr : Hist crc fs ks)
      (hs : DirStep fs ks fs' ks') (hi : issued fs fs' ops) (hl : ks'.length ≤ 2517) (hfit : 13 * (ks'.length + 1) % 256 ≤ 243)
      (hp : PageCrash fs.dev.flash ops fl') (hm : FS.mount fl' = (.ok (), fs'')) (hlist : lists fs'' es)
      (hx : ks'' = ks ∨ ks'' = ks') (hids : ks''.map (·.id) = es.map (·.id)) : Hist crc fs'' (ks''.map Known.afterLoss)
  /-- power loss during a call that claims a sector for a new or empty file, then restart; restricted in the same way -/
  | lossAlloc {fs fs' fs'' : FS} {ks ks' ks'' : List Known} {es : List FileEntry} {ops : List FlashOp} {fl' : Flash} (hr : Hist crc fs ks)
      (hs : AllocStep fs ks fs' ks') (hi : issued fs fs' ops) (hl : ks'.length ≤ 2517) (hfit : 13 * (ks'.length + 1) % 256 ≤ 243)
      (hp : PageCrash fs.dev.flash ops fl') (hm : FS.mount fl' = (.ok (), fs'')) (hlist : lists fs'' es)
      (hx : ks'' = ks ∨ ks'' = ks') (hids : ks''.map (·.id) = es.map (·.id)) : Hist crc fs'' (ks''.map Known.afterLoss)
  /-- power loss while a ring log drops its `n` oldest files and starts a new one, then restart; restricted in the same way. If the call did not take effect, the files that were being dropped are still
  listed, but the first sectors the new file could have used may have been erased: what was in them is lost. -/
  | lossRotate {fs fs' fs'' : FS} {ks ks'' : List Known} {es : List FileEntry} {ops : List FlashOp} {fl' : Flash} (hr : Hist crc fs ks)
      (typ n r1 r2 : Nat) (e : FileEntry) (h : fs.rotate typ n r1 r2 = (.ok e, fs'))
      (hw : ∀ k ∈ ks, oldestKnown typ n ks k = true → k.writer = none) (hcap : ks.length < 2518) (ht : typ < 0x4000) (hok : countersOk fs)
      (hi : issued fs fs' ops) (hl : (ks.filter fun k => !oldestKnown typ n ks k).length + 1 ≤ 2517)
      (hfit : 13 * ((ks.filter fun k => !oldestKnown typ n ks k).length + 2) % 256 ≤ 243)
      (hp : PageCrash fs.dev.flash ops fl') (hm : FS.mount fl' = (.ok (), fs'')) (hlist : lists fs'' es)
      (hx : ks'' = spoilOldest typ n ks ∨
        ks'' = ks.filter (fun k => !oldestKnown typ n ks k) ++ [⟨e.id, typ, [], [], [], e.first.map (FileWriter.new · e.id), false, false⟩])
      (hids : ks''.map (·.id) = es.map (·.id)) : Hist crc fs'' (ks''.map Known.afterLoss)

/-- what a caller does with a writer before closing it -/
inductive WriterOp where
  | write (rng : Nat → Nat × Nat) (slice : Bytes)
  | flush (r1 r2 : Nat)

/-- the bytes written by a list of operations -/
def writtenBytes : List WriterOp → Bytes
  | [] => []
  | .write _ slice :: ops => slice ++ writtenBytes ops
  | .flush _ _ :: ops => writtenBytes ops

/-- the operations carried out one after the other, stopping at the first error -/
def runWriter (crc : Bytes → UInt32) : FS → FileWriter → List WriterOp → Except Err Unit × FileWriter × FS
  | fs, w, [] => (.ok (), w, fs)
  | fs, w, .write rng slice :: ops =>
    match fs.extendWriter crc w rng slice with
    | (.ok (), w', fs') => runWriter crc fs' w' ops
    | r => r
  | fs, w, .flush r1 r2 :: ops =>
    match fs.flushWriter crc w r1 r2 with
    | (.ok (), w', fs') => runWriter crc fs' w' ops
    | r => r

end Verif.Spec
