import Verif.Model.Hamming
import Verif.Model.Sectors
/-
Model of the directory ("allocation table") of vlfs: vlfs/src/fs/allocation_table.rs,
vlfs/src/fs/at_builder.rs, the directory part of vlfs/src/fs/mod.rs and init.rs.
`u16`/`u64` values are naturals; the width shows in `beBytes 2`/`beBytes 8`.
-/
namespace Verif.Vlfs
open Verif

/-- `FileEntry`. models vlfs/src/fs/allocation_table.rs:19-23 -/
structure FileEntry where
  id : Nat
  typ : Nat
  first : Option Nat
deriving Repr, DecidableEq

/-- `FileEntry::serialize`. models allocation_table.rs:36-47 -/
def FileEntry.serialize (e : FileEntry) : Bytes :=
  Hamming.encode (beBytes 2 e.typ ++ beBytes 2 (e.first.getD 0xFFFF) ++ beBytes 8 e.id ++ [0])

/-- the part of `FileEntry::deserialize` after error correction. models allocation_table.rs:50-65 -/
def FileEntry.ofRecord (b : Bytes) : FileEntry :=
  let first := beNat ((b.drop 2).take 2)
  { id := beNat ((b.drop 4).take 8)
    typ := beNat (b.take 2)
    first := if first = 0xFFFF then none else some first }

/-- `FileEntry::deserialize`; `none` is `CorruptedFileEntry`. models allocation_table.rs:50-65 -/
def FileEntry.deserialize (b : Bytes) : Option FileEntry := (Hamming.decode b).map FileEntry.ofRecord

/-- `AllocationTableHeader::serialize`. models allocation_table.rs:81-87 -/
def headerSerialize (seq : Nat) : Bytes := Hamming.encode (beBytes 4 VLFS_VERSION ++ beBytes 8 seq ++ [0])

/-- `AllocationTableHeader::deserialize`: the sequence number, `none` if corrupted or of another version.
models allocation_table.rs:90-107 -/
def headerDeserialize (b : Bytes) : Option Nat :=
  match Hamming.decode b with
  | none => none
  | some r => if beNat (r.take 4) ≠ VLFS_VERSION then none else some (beNat ((r.drop 4).take 8))

/-- `AllocationTableFooter::serialize`. models allocation_table.rs:126-133 -/
def footerSerialize (maxId : Nat) : Bytes := FileEntry.serialize ⟨maxId, 0xFFFF, none⟩

/-- `is_footer_file_entry`. models allocation_table.rs:135-137 -/
def FileEntry.isFooter (e : FileEntry) : Bool := e.typ == 0xFFFF

/-- `AllocationTable` with its header and footer flattened.
models allocation_table.rs:70-72, 110-113, 148-153 -/
structure AT where
  seq : Nat
  fileCount : Nat
  maxId : Nat
  position : Nat
  opened : List Nat
deriving Repr

/-- models allocation_table.rs:74-78, 115-122, 155-163 -/
def AT.default : AT := ⟨1, 0, 0, 0, []⟩

/-- start address of slot `p` -/
def slotAddr (p : Nat) : Nat := p * 32 * 1024

/-- `AllocationTable::address`. models allocation_table.rs:167-169 -/
def AT.address (at' : AT) : Nat := slotAddr at'.position

/-- `address_of_file_entry`. models allocation_table.rs:172-174 -/
def AT.entryAddr (at' : AT) (i : Nat) : Nat := at'.address + 13 + i * 13

/-- `increment_position`. models allocation_table.rs:176-179 -/
def AT.incrementPosition (at' : AT) : AT :=
  { at' with position := (at'.position + 1) % TABLE_COUNT, seq := at'.seq + 1 }

/-- The file system: in-memory directory state, sector manager and chip. The three locks are held for the
whole of every function modelled here, so each is one atomic step. models vlfs/src/fs/mod.rs:73-83 -/
structure FS where
  at' : AT
  mng : SectorsMng
  dev : Dev

/-! ### Reading the directory at start-up -/

/-- inner loop of `read_latest_allocation_table`: number of files and `max_file_id`, or `none` when a corrupted
entry is met. Simplification: the loop gives up after 65536 entries (the code's `u16` counter would overflow
there; a slot holds 2518 entries). models allocation_table.rs:356-372 -/
def readEntries : Nat → Flash → Nat → Nat → Option (Nat × Nat)
  | 0, _, _, _ => none
  | fuel + 1, fl, addr, count =>
    match FileEntry.deserialize (fl.read addr 13) with
    | none => none
    | some e => if e.isFooter then some (count, e.id) else readEntries fuel fl (addr + 13) (count + 1)

/-- fuel of `readEntries` -/
@[irreducible] def maxEntries : Nat := 65536

/-- one slot: (sequence number, file count, max id), `none` when header or an entry is invalid.
models allocation_table.rs:338-372 -/
def readSlot (fl : Flash) (i : Nat) : Option (Nat × Nat × Nat) :=
  match headerDeserialize (fl.read (slotAddr i) 13) with
  | none => none
  | some seq =>
    match readEntries maxEntries fl (slotAddr i + 13) 0 with
    | none => none
    | some (count, maxId) => some (seq, count, maxId)

/-- body of the loop over the four slots. models allocation_table.rs:335-382 -/
def readLatestStep (fl : Flash) (st : AT × Bool) (i : Nat) : AT × Bool :=
  match readSlot fl i with
  | none => st
  | some (seq, count, maxId) =>
    if seq ≥ st.1.seq then ({ st.1 with seq := seq, fileCount := count, maxId := maxId, position := i }, true)
    else st

/-- `read_latest_allocation_table`. models allocation_table.rs:330-385 -/
def readLatest (fl : Flash) (at' : AT) : AT × Bool :=
  (List.range TABLE_COUNT).foldl (readLatestStep fl) (at', false)

/-- `read_file_entry`. models vlfs/src/fs/iter.rs:87-103 -/
def readFileEntry (fl : Flash) (at' : AT) (i : Nat) : Option FileEntry :=
  FileEntry.deserialize (fl.read (at'.entryAddr i) 13)

/-! ### Writing pages -/

/-- the page buffer of `FlashWriter` and `ATBuilder`: address of the page being filled and the bytes in it.
models vlfs/src/utils/flash_io.rs:77-86, at_builder.rs:37-39 -/
structure PageWriter where
  addr : Nat
  buf : Bytes

/-- `flush`: program the page (rest 0xFF). models flash_io.rs:109-117, at_builder.rs:128-136 -/
def PageWriter.flush (w : PageWriter) (dev : Dev) : PageWriter × Dev :=
  (⟨w.addr + 256, []⟩, dev.op (.page w.addr w.buf))

/-- `extend_from_slice`; the first argument bounds the number of iterations (each consumes at least one byte).
models flash_io.rs:127-151, at_builder.rs:138-162 -/
def PageWriter.extendLoop : Nat → PageWriter → Dev → Bytes → PageWriter × Dev
  | 0, w, dev, _ => (w, dev)
  | fuel + 1, w, dev, slice =>
    if slice.length > 0 then
      let bufferFree := 256 - w.buf.length
      if slice.length < bufferFree then (⟨w.addr, w.buf ++ slice⟩, dev)
      else
        let r := PageWriter.flush ⟨w.addr, w.buf ++ slice.take bufferFree⟩ dev
        extendLoop fuel r.1 r.2 (slice.drop bufferFree)
    else (w, dev)

/-- `extend_from_slice` -/
def PageWriter.extend (w : PageWriter) (dev : Dev) (slice : Bytes) : PageWriter × Dev :=
  extendLoop (slice.length + 1) w dev slice

/-- `write_empty_allocation_table`. models allocation_table.rs:387-413 -/
def writeEmptyTable (at' : AT) (dev : Dev) : Dev :=
  let dev := dev.op (.erase at'.address 4096)
  let r := PageWriter.extend ⟨at'.address, []⟩ dev (headerSerialize at'.seq)
  let r := PageWriter.extend r.1 r.2 (footerSerialize at'.maxId)
  (PageWriter.flush r.1 r.2).2

/-! ### The directory builder -/

/-- `ATBuilder`. models at_builder.rs:23-45 -/
structure Builder where
  at' : AT
  mng : SectorsMng
  dev : Dev
  currAddr : Nat
  readBuf : Bytes
  readI : Nat
  readFinished : Bool
  w : PageWriter
  fileCount : Nat
  maxId : Nat

/-- result of a builder operation: outcome and the builder afterwards (also after an error, so that the flash
operations issued before the error stay visible) -/
abbrev BRes (α : Type) := Except Err α × Builder

/-- `extend_from_slice`. models at_builder.rs:138-162 -/
def Builder.extend (b : Builder) (slice : Bytes) : Builder :=
  let r := b.w.extend b.dev slice
  { b with w := r.1, dev := r.2 }

/-- `ATBuilder::new`, `erase_and_write_header`. models at_builder.rs:51-84, 203-212 -/
def Builder.new (fs : FS) : Builder :=
  let at1 := fs.at'.incrementPosition
  let b : Builder :=
    { at' := at1, mng := fs.mng, dev := fs.dev, currAddr := fs.at'.address, readBuf := [], readI := 0,
      readFinished := false, w := ⟨at1.address, []⟩, fileCount := 0, maxId := fs.at'.maxId }
  let b := { b with dev := b.dev.op (.erase at1.address 32768) }
  b.extend (headerSerialize at1.seq)

/-- `read_next_file_entry_slice` (reads 64 entries at a time). models at_builder.rs:86-104 -/
def Builder.readNextSlice (b : Builder) : Bytes × Builder :=
  let readBuf := if b.readI % 64 = 0 then b.dev.flash.read (b.currAddr + 13 + b.readI * 13) (13 * 64) else b.readBuf
  ((readBuf.drop ((b.readI % 64) * 13)).take 13, { b with readBuf := readBuf, readI := b.readI + 1 })

/-- `read_next`. models at_builder.rs:108-126 -/
def Builder.readNext (b : Builder) : BRes (Option FileEntry) :=
  if b.readFinished then (.ok none, b)
  else
    let r := b.readNextSlice
    match FileEntry.deserialize r.1 with
    | none => (.error .corruptedFileEntry, r.2)
    | some e => if e.isFooter then (.ok none, { r.2 with readFinished := true }) else (.ok (some e), r.2)

/-- `write`. models at_builder.rs:165-174 -/
def Builder.write (b : Builder) (e : FileEntry) : Builder :=
  let b := b.extend e.serialize
  { b with fileCount := b.fileCount + 1, maxId := if e.id > b.maxId then e.id else b.maxId }

/-- `get_new_file_id`. models at_builder.rs:198-201 -/
def Builder.getNewFileId (b : Builder) : Nat × Builder :=
  (b.maxId + 1, { b with maxId := b.maxId + 1 })

/-- `write_new_file`. models at_builder.rs:176-183 -/
def Builder.writeNewFile (b : Builder) (typ : Nat) : FileEntry × Builder :=
  let r := b.getNewFileId
  let e : FileEntry := ⟨r.1, typ, none⟩
  (e, r.2.write e)

/-- `write_new_file_and_open_for_write`: the new entry (the writer it returns starts at the entry's first
sector). Note that the file is not added to `opened_files`. models at_builder.rs:185-196 -/
def Builder.writeNewFileAndOpen (b : Builder) (typ rng1 rng2 : Nat) : BRes FileEntry :=
  let r := b.getNewFileId
  let b := r.2
  let c := b.mng.claim rng1 rng2 b.dev
  let b := { b with mng := c.2.1, dev := c.2.2 }
  match c.1 with
  | .error e => (.error e, b)
  | .ok s =>
    let e : FileEntry := ⟨r.1, typ, some s⟩
    (.ok e, b.write e)

/-- walk along a file's sectors releasing them; fuel bounds the number of sectors (a cyclic chain never ends).
models at_builder.rs:221-246 -/
def releaseLoop : Nat → Flash → SectorsMng → Option Nat → Except Err Unit × SectorsMng
  | 0, _, m, _ => (.error .hang, m)
  | _ + 1, _, m, none => (.ok (), m)
  | fuel + 1, fl, m, some s =>
    match mostCommonU16 (fl.read (s * SECTOR_SIZE + SECTOR_SIZE - 8) 8) with
    | none => (.error .panic, m)
    | some next => releaseLoop fuel fl (m.returnSector s) (if next = 0xFFFF then none else some next)

/-- `release_file_sectors`. models at_builder.rs:221-246 -/
def Builder.releaseFileSectors (b : Builder) (e : FileEntry) : BRes Unit :=
  let r := releaseLoop (SECTORS_COUNT + 1) b.dev.flash b.mng e.first
  (r.1, { b with mng := r.2 })

/-- `is_file_opened`. models at_builder.rs:214-216, allocation_table.rs:199-202 -/
def AT.isOpened (at' : AT) (id : Nat) : Bool := at'.opened.any (· == id)

/-- `commit`: writes the footer and the last page; returns the file system. models at_builder.rs:248-258 -/
def Builder.commit (b : Builder) : FS :=
  let at1 := { b.at' with fileCount := b.fileCount, maxId := b.maxId }
  let b := b.extend (footerSerialize at1.maxId)
  let r := b.w.flush b.dev
  ⟨at1, b.mng, r.2⟩

/-- the state left behind when a builder is dropped without commit (`log_panic!`): the in-memory state is gone,
only the chip matters. models at_builder.rs:261-270 -/
def Builder.abandon (b : Builder) : FS := ⟨b.at', b.mng, b.dev⟩

/-! ### Directory operations -/

/-- result of a file system call -/
abbrev Res (α : Type) := Except Err α × FS

/-- `while let Some(e) = builder.read_next() { builder.write(e) }`. models allocation_table.rs:287-289, 303-305 -/
def copyRest : Nat → Builder → BRes Unit
  | 0, b => (.error .hang, b)
  | fuel + 1, b =>
    match b.readNext with
    | (.error e, b) => (.error e, b)
    | (.ok none, b) => (.ok (), b)
    | (.ok (some e), b) => copyRest fuel (b.write e)

/-- `create_file`. models allocation_table.rs:299-312 -/
def FS.createFile (fs : FS) (typ : Nat) : Res FileEntry :=
  let b := Builder.new fs
  match copyRest maxEntries b with
  | (.error e, b) => (.error e, b.abandon)
  | (.ok (), b) =>
    let r := b.writeNewFile typ
    (.ok r.1, r.2.commit)

/-- `create_file_and_open_for_write`: the entry of the new file, whose writer starts at its first sector.
models allocation_table.rs:314-327 -/
def FS.createFileAndOpen (fs : FS) (typ rng1 rng2 : Nat) : Res FileEntry :=
  let b := Builder.new fs
  match copyRest maxEntries b with
  | (.error e, b) => (.error e, b.abandon)
  | (.ok (), b) =>
    match b.writeNewFileAndOpen typ rng1 rng2 with
    | (.error e, b) => (.error e, b.abandon)
    | (.ok e, b) => (.ok e, b.commit)

/-- loop of `remove_files`; the filter is a pure predicate. models vlfs/src/fs/mod.rs:116-128 -/
def removeLoop (filter : FileEntry → Bool) : Nat → Builder → Nat → Nat → BRes (Nat × Nat)
  | 0, b, _, _ => (.error .hang, b)
  | fuel + 1, b, removed, skipped =>
    match b.readNext with
    | (.error e, b) => (.error e, b)
    | (.ok none, b) => (.ok (removed, skipped), b)
    | (.ok (some e), b) =>
      if filter e then
        if b.at'.isOpened e.id then removeLoop filter fuel (b.write e) removed (skipped + 1)
        else
          match b.releaseFileSectors e with
          | (.error er, b) => (.error er, b)
          | (.ok (), b) => removeLoop filter fuel b (removed + 1) skipped
      else removeLoop filter fuel (b.write e) removed skipped

/-- `remove_files`. models vlfs/src/fs/mod.rs:108-132 -/
def FS.removeFiles (fs : FS) (filter : FileEntry → Bool) : Res (Nat × Nat) :=
  match removeLoop filter maxEntries (Builder.new fs) 0 0 with
  | (.error e, b) => (.error e, b.abandon)
  | (.ok r, b) => (.ok r, b.commit)

/-- `remove_file`. models vlfs/src/fs/mod.rs:94-105 -/
def FS.removeFile (fs : FS) (id : Nat) : Res Unit :=
  match fs.removeFiles (fun e => e.id == id) with
  | (.error e, fs) => (.error e, fs)
  | (.ok (removed, skipped), fs) =>
    if removed = 1 then (.ok (), fs)
    else if skipped = 1 then (.error .fileInUse, fs)
    else (.error .fileDoesNotExist, fs)

/-- binary search loop of `find_file_entry`; fuel bounds the iterations. models allocation_table.rs:231-244 -/
def findLoop : Nat → Flash → AT → Nat → Nat → Nat → Except Err Nat
  | 0, _, _, _, _, _ => .error .hang
  | fuel + 1, fl, at', id, left, right =>
    if left < right then
      let mid := (left + right) / 2
      match readFileEntry fl at' mid with
      | none => .error .corruptedFileEntry
      | some e => if e.id < id then findLoop fuel fl at' id (mid + 1) right else findLoop fuel fl at' id left mid
    else .ok left

/-- `find_file_entry`. models allocation_table.rs:214-257 -/
def FS.findFileEntry (fs : FS) (id : Nat) : Except Err (Option (FileEntry × Nat)) :=
  if fs.at'.fileCount = 0 then .ok none
  else
    match findLoop (fs.at'.fileCount + 1) fs.dev.flash fs.at' id 0 (fs.at'.fileCount - 1) with
    | .error e => .error e
    | .ok left =>
      match readFileEntry fs.dev.flash fs.at' left with
      | none => .error .corruptedFileEntry
      | some e => if e.id = id then .ok (some (e, left)) else .ok none

/-- `exists`. models vlfs/src/fs/mod.rs:90-92 -/
def FS.exists (fs : FS) (id : Nat) : Except Err Bool := (fs.findFileEntry id).map Option.isSome

/-- the `for _ in 0..file_entry_i` copy loop. models allocation_table.rs:270-276 -/
def copyN : Nat → Builder → BRes Unit
  | 0, b => (.ok (), b)
  | n + 1, b =>
    match b.readNext with
    | (.error e, b) => (.error e, b)
    | (.ok none, b) => (.error .corruptedFileSystem, b)
    | (.ok (some e), b) => copyN n (b.write e)

/-- `set_file_first_sector_index`. models allocation_table.rs:261-297 -/
def FS.setFirstSector (fs : FS) (id : Nat) (first : Option Nat) : Res Unit :=
  match fs.findFileEntry id with
  | .error e => (.error e, fs)
  | .ok none => (.error .fileDoesNotExist, fs)
  | .ok (some (_, i)) =>
    match copyN i (Builder.new fs) with
    | (.error e, b) => (.error e, b.abandon)
    | (.ok (), b) =>
      match b.readNext with
      | (.error e, b) => (.error e, b.abandon)
      | (.ok none, b) => (.error .corruptedFileSystem, b.abandon)
      | (.ok (some e), b) =>
        match copyRest maxEntries (b.write { e with first := first }) with
        | (.error e, b) => (.error e, b.abandon)
        | (.ok (), b) => (.ok (), b.commit)

/-- `mark_file_opened`. models allocation_table.rs:188-197 -/
def FS.markOpened (fs : FS) (id : Nat) : Res Unit :=
  if fs.at'.opened.length < 32 then (.ok (), { fs with at' := { fs.at' with opened := fs.at'.opened ++ [id] } })
  else (.error .tooManyFilesOpen, fs)

/-- `Vec::swap_remove`: replace element `k` by the last one. -/
def swapRemove (l : List Nat) (k : Nat) : List Nat :=
  match l.getLast? with
  | none => l
  | some x => (l.set k x).dropLast

/-- `mark_file_closed`. models allocation_table.rs:204-212 -/
def FS.markClosed (fs : FS) (id : Nat) : FS :=
  match fs.at'.opened.findIdx? (· == id) with
  | none => fs
  | some k => { fs with at' := { fs.at' with opened := swapRemove fs.at'.opened k } }

/-! ### Iterating over files -/

/-- `FilesIterator` driven to its end from index `i`, `n` entries left. models vlfs/src/fs/iter.rs:132-146 -/
def iterFrom (fl : Flash) (at' : AT) (filter : FileEntry → Bool) : Nat → Nat → Except Err (List FileEntry)
  | 0, _ => .ok []
  | n + 1, i =>
    match readFileEntry fl at' i with
    | none => .error .corruptedFileEntry
    | some e =>
      match iterFrom fl at' filter n (i + 1) with
      | .error er => .error er
      | .ok es => .ok (if filter e then e :: es else es)

/-- all files a `files_iter(filter)` yields. models iter.rs:63-65, 116-147 -/
def FS.filesIter (fs : FS) (filter : FileEntry → Bool) : Except Err (List FileEntry) :=
  iterFrom fs.dev.flash fs.at' filter fs.at'.fileCount 0

/-- claims the sectors of one file. models vlfs/src/fs/init.rs:67-88 -/
def claimChain : Nat → Flash → SectorsMng → Option Nat → Except Err SectorsMng
  | 0, _, _, _ => .error .hang
  | _ + 1, _, m, none => .ok m
  | fuel + 1, fl, m, some s =>
    match mostCommonU16 (fl.read (s * SECTOR_SIZE + SECTOR_SIZE - 8) 8) with
    | none => .error .panic
    | some next => claimChain fuel fl (m.claimSector s) (if next = 0xFFFF then none else some next)

/-- `read_free_sectors` over the given files. models init.rs:63-92 -/
def claimFiles (fl : Flash) : List FileEntry → SectorsMng → Except Err SectorsMng
  | [], m => .ok m
  | e :: es, m =>
    match claimChain (SECTORS_COUNT + 1) fl m e.first with
    | .error er => .error er
    | .ok m => claimFiles fl es m

/-- `VLFS::new` followed by `init` on a chip. The seeding of the random generator is left out.
models init.rs:15-61 -/
def FS.mount (fl : Flash) : Res Unit :=
  let dev : Dev := ⟨fl, []⟩
  let r := readLatest fl AT.default
  if r.2 then
    let fs : FS := ⟨r.1, SectorsMng.new, dev⟩
    match fs.filesIter (fun _ => true) with
    | .error e => (.error e, fs)
    | .ok es =>
      match claimFiles fl es SectorsMng.new with
      | .error e => (.error e, fs)
      | .ok m => (.ok (), { fs with mng := m })
  else (.ok (), ⟨r.1, SectorsMng.new, writeEmptyTable r.1 dev⟩)

end Verif.Vlfs
