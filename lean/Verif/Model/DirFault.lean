import Verif.Model.Directory
/-
Creating and removing files on a chip that refuses operations (`erase_sector_4kib`, `erase_block_32kib` and `write_256b` return an error and the chip is as it was). Which operations are refused is a
parameter: operation number `i` since power-up is accepted if `ok i`. All these calls hold an `ATBuilder`; every error they would return drops it before `commit`, and dropping it panics
(at_builder.rs:261-270, and the FIXME at allocation_table.rs:259-260). So a call here either returns (`.ok`) or panics (`.error` with the chip as it is then).
-/
namespace Verif.Vlfs
open Verif

/-- an operation that the chip may refuse. models the `Flash` trait, vlfs/src/driver/flash.rs:1-60 -/
def _root_.Verif.Dev.attempt (ok : Nat → Bool) (dev : Dev) (o : FlashOp) : Except Dev Dev :=
  if ok dev.log.length then .ok (dev.op o) else .error dev

/-- `flush` of the builder. models vlfs/src/fs/at_builder.rs:128-136 -/
def PageWriter.flushT (ok : Nat → Bool) (w : PageWriter) (dev : Dev) : Except Dev (PageWriter × Dev) :=
  dev.attempt ok (.page w.addr w.buf) >>= fun dev => .ok (⟨w.addr + 256, []⟩, dev)

/-- `extend_from_slice`; fuel as in `PageWriter.extendLoop`. models vlfs/src/fs/at_builder.rs:138-162 -/
def PageWriter.extendLoopT (ok : Nat → Bool) : Nat → PageWriter → Dev → Bytes → Except Dev (PageWriter × Dev)
  | 0, w, dev, _ => .ok (w, dev)
  | fuel + 1, w, dev, slice =>
    if slice.length > 0 then
      let bufferFree := 256 - w.buf.length
      if slice.length < bufferFree then .ok (⟨w.addr, w.buf ++ slice⟩, dev)
      else
        PageWriter.flushT ok ⟨w.addr, w.buf ++ slice.take bufferFree⟩ dev >>= fun r => extendLoopT ok fuel r.1 r.2 (slice.drop bufferFree)
    else .ok (w, dev)

/-- `extend_from_slice` of the builder. models vlfs/src/fs/at_builder.rs:138-162 -/
def Builder.extendT (ok : Nat → Bool) (b : Builder) (slice : Bytes) : Except Dev Builder :=
  b.w.extendLoopT ok (slice.length + 1) b.dev slice >>= fun r => .ok { b with w := r.1, dev := r.2 }

/-- `ATBuilder::new`, `erase_and_write_header`. models vlfs/src/fs/at_builder.rs:51-84, 203-212 -/
def Builder.newT (ok : Nat → Bool) (fs : FS) : Except Dev Builder :=
  let at1 := fs.at'.incrementPosition
  fs.dev.attempt ok (.erase at1.address 32768) >>= fun dev =>
    Builder.extendT ok
      { at' := at1, mng := fs.mng, dev := dev, currAddr := fs.at'.address, readBuf := [], readI := 0,
        readFinished := false, w := ⟨at1.address, []⟩, fileCount := 0, maxId := fs.at'.maxId } (headerSerialize at1.seq)

/-- `write`. models vlfs/src/fs/at_builder.rs:165-174 -/
def Builder.writeT (ok : Nat → Bool) (b : Builder) (e : FileEntry) : Except Dev Builder :=
  b.extendT ok e.serialize >>= fun b => .ok { b with fileCount := b.fileCount + 1, maxId := if e.id > b.maxId then e.id else b.maxId }

/-- the loop that copies the entries; reading does not fail on this chip. models vlfs/src/fs/allocation_table.rs:303-305, 318-320 -/
def copyRestT (ok : Nat → Bool) : Nat → Builder → Except Dev Builder
  | 0, b => .error b.dev
  | fuel + 1, b =>
    match b.readNext with
    | (.error _, b) => .error b.dev
    | (.ok none, b) => .ok b
    | (.ok (some e), b) =>
      b.writeT ok e >>= fun b => copyRestT ok fuel b

/-- `commit`. models vlfs/src/fs/at_builder.rs:248-258 -/
def Builder.commitT (ok : Nat → Bool) (b : Builder) : Except Dev FS :=
  let at1 := { b.at' with fileCount := b.fileCount, maxId := b.maxId }
  b.extendT ok (footerSerialize at1.maxId) >>= fun b =>
    b.w.flushT ok b.dev >>= fun r => .ok ⟨at1, b.mng, r.2⟩

/-- `create_file`. models vlfs/src/fs/allocation_table.rs:299-312 -/
def FS.createFileT (ok : Nat → Bool) (fs : FS) (typ : Nat) : Except Dev (FileEntry × FS) :=
  Builder.newT ok fs >>= fun b =>
    copyRestT ok maxEntries b >>= fun b =>
      let e : FileEntry := ⟨b.maxId + 1, typ, none⟩
      Builder.writeT ok { b with maxId := b.maxId + 1 } e >>= fun b =>
        b.commitT ok >>= fun fs => .ok (e, fs)

/-- loop of `remove_files`. models vlfs/src/fs/mod.rs:116-128 -/
def removeLoopT (ok : Nat → Bool) (filter : FileEntry → Bool) : Nat → Builder → Nat → Nat → Except Dev ((Nat × Nat) × Builder)
  | 0, b, _, _ => .error b.dev
  | fuel + 1, b, removed, skipped =>
    match b.readNext with
    | (.error _, b) => .error b.dev
    | (.ok none, b) => .ok ((removed, skipped), b)
    | (.ok (some e), b) =>
      if filter e then
        if b.at'.isOpened e.id then
          b.writeT ok e >>= fun b => removeLoopT ok filter fuel b removed (skipped + 1)
        else
          match b.releaseFileSectors e with
          | (.error _, b) => .error b.dev
          | (.ok (), b) => removeLoopT ok filter fuel b (removed + 1) skipped
      else
        b.writeT ok e >>= fun b => removeLoopT ok filter fuel b removed skipped

/-- `remove_files`. models vlfs/src/fs/mod.rs:108-132 -/
def FS.removeFilesT (ok : Nat → Bool) (fs : FS) (filter : FileEntry → Bool) : Except Dev ((Nat × Nat) × FS) :=
  Builder.newT ok fs >>= fun b =>
    removeLoopT ok filter maxEntries b 0 0 >>= fun x =>
      x.2.commitT ok >>= fun fs => .ok (x.1, fs)

/-- `erase`. models vlfs/src/fs/sector_management.rs:128-171 -/
def SectorsMng.eraseT (ok : Nat → Bool) (s : SectorsMng) (r : EraseRegion) (useAsync : Bool) (dev : Dev) : Except Dev (SectorsMng × Dev) :=
  dev.attempt ok (.erase r.address (r.len * SECTOR_SIZE)) >>= fun dev =>
    let map := r.sectors.foldl SectorMap.setUsed s.map
    let l := (if useAsync then s.asyncAhead else s.ahead) ++ r.sectors
    if l.length > 16 then .error dev
    else .ok (if useAsync then { s with map, asyncAhead := l } else { s with map, ahead := l }, dev)

/-- claim a region and erase it. models vlfs/src/fs/sector_management.rs:190-195, 198-211 -/
def SectorsMng.claimAndEraseT (ok : Nat → Bool) (s : SectorsMng) (rng : Nat) (useAsync : Bool) (dev : Dev) : Except Dev (SectorsMng × Dev) :=
  match s.claimEraseRegion rng with
  | none => .ok (s, dev)
  | some (.error _) => .error dev
  | some (.ok r) => s.eraseT ok r useAsync dev

/-- the part of `claim_avaliable_sector_and_erase` that refills the list of erased sectors. models vlfs/src/fs/sector_management.rs:181-211 -/
def SectorsMng.refillT (ok : Nat → Bool) (s : SectorsMng) (rng1 rng2 : Nat) (dev : Dev) : Except Dev (SectorsMng × Dev) :=
  if s.asyncAhead ≠ [] then SectorsMng.claimAndEraseT ok { s with ahead := s.asyncAhead, asyncAhead := s.ahead } rng1 true dev
  else
    match s.claimEraseRegion rng1 with
    | none => .ok (s, dev)
    | some (.error _) => .error dev
    | some (.ok r) =>
      s.eraseT ok r false dev >>= fun x => x.1.claimAndEraseT ok rng2 true x.2

/-- `claim_avaliable_sector_and_erase`. models vlfs/src/fs/sector_management.rs:173-218 -/
def SectorsMng.claimT (ok : Nat → Bool) (s : SectorsMng) (rng1 rng2 : Nat) (dev : Dev) : Except Dev (Nat × SectorsMng × Dev) :=
  match s.pop with
  | some (x, s) => .ok (x, s, dev)
  | none =>
    s.refillT ok rng1 rng2 dev >>= fun x =>
      match x.1.pop with
      | some (y, s) => .ok (y, s, x.2)
      | none => .error x.2

/-- `create_file_and_open_for_write`. models vlfs/src/fs/allocation_table.rs:314-327, vlfs/src/fs/at_builder.rs:185-196 -/
def FS.createFileAndOpenT (ok : Nat → Bool) (fs : FS) (typ rng1 rng2 : Nat) : Except Dev (FileEntry × FS) :=
  Builder.newT ok fs >>= fun b =>
    copyRestT ok maxEntries b >>= fun b =>
      b.mng.claimT ok rng1 rng2 b.dev >>= fun c =>
        let e : FileEntry := ⟨b.maxId + 1, typ, some c.1⟩
        Builder.writeT ok { b with maxId := b.maxId + 1, mng := c.2.1, dev := c.2.2 } e >>= fun b =>
          b.commitT ok >>= fun fs => .ok (e, fs)

end Verif.Vlfs
