import Verif.Model.Directory
/-
`ConcurrentFilesIterator` (vlfs/src/fs/iter.rs:149-272). The read locks on the allocation table and the flash are held
for the whole of `next`, so a call is one atomic step on the directory.
-/
namespace Verif.Vlfs

/-- `ConcurrentFilesIterator`: id and index of the last file entry visited. models vlfs/src/fs/iter.rs:149-159 -/
structure ConcIter where
  last : Option (Nat × Nat)
deriving DecidableEq, Repr

/-- `ConcurrentFilesIterator::new`. models iter.rs:167-173 -/
def ConcIter.new : ConcIter := ⟨none⟩

/-- `reset`. models iter.rs:243-245 -/
def ConcIter.reset (_ : ConcIter) : ConcIter := ⟨none⟩

/-- the loop walking back from index `i` to the first file with an id not above `last`.
models iter.rs:206-226 -/
def ConcIter.walkBack (fl : Flash) (at' : AT) (it : ConcIter) (last : Nat) :
    Nat → Option FileEntry → Except Err (Option FileEntry) × ConcIter
  | 0, plus =>
    match readFileEntry fl at' 0 with
    | none => (.error .corruptedFileEntry, it)
    | some e =>
      if e.id ≤ last then
        match plus with
        | some p => (.ok (some p), ⟨some (p.id, 0 + 1)⟩)
        | none => (.ok none, it)
      else (.ok (some e), ⟨some (e.id, 0)⟩)
  | i + 1, plus =>
    match readFileEntry fl at' (i + 1) with
    | none => (.error .corruptedFileEntry, it)
    | some e =>
      if e.id ≤ last then
        match plus with
        | some p => (.ok (some p), ⟨some (p.id, i + 1 + 1)⟩)
        | none => (.ok none, it)
      else ConcIter.walkBack fl at' it last i (some e)

/-- the part of `immediate_next` after the entry behind the last one was looked at: `plus` is that entry.
models iter.rs:199-226 -/
def ConcIter.afterQuick (fl : Flash) (at' : AT) (it : ConcIter) (last lastI : Nat) (plus : Option FileEntry) :
    Except Err (Option FileEntry) × ConcIter :=
  if at'.fileCount = 0 then (.ok none, ⟨none⟩)
  else it.walkBack fl at' last (min lastI (at'.fileCount - 1)) plus

/-- `immediate_next`. models iter.rs:176-237 -/
def ConcIter.immediateNext (fl : Flash) (at' : AT) (it : ConcIter) : Except Err (Option FileEntry) × ConcIter :=
  match it.last with
  | some (last, lastI) =>
    if lastI + 1 < at'.fileCount then
      match readFileEntry fl at' (lastI + 1) with
      | none => (.error .corruptedFileEntry, it)
      | some e =>
        if e.id = last + 1 then (.ok (some e), ⟨some (e.id, lastI + 1)⟩)
        else it.afterQuick fl at' last lastI (some e)
    else it.afterQuick fl at' last lastI none
  | none =>
    if at'.fileCount > 0 then
      match readFileEntry fl at' 0 with
      | none => (.error .corruptedFileEntry, it)
      | some e => (.ok (some e), ⟨some (e.id, 0)⟩)
    else (.ok none, it)

/-- the filter loop of `next`: `e` is the entry at index `i`, `n` the number of iterations allowed (the loop ends after at most
`file_count` of them because `i` grows). models iter.rs:251-263 -/
def ConcIter.filterLoop (fl : Flash) (at' : AT) (filter : FileEntry → Bool) :
    Nat → FileEntry → Nat → Except Err (Option FileEntry) × ConcIter
  | 0, e, i => (.error .hang, ⟨some (e.id, i)⟩)
  | n + 1, e, i =>
    if filter e then (.ok (some e), ⟨some (e.id, i)⟩)
    else if i ≥ at'.fileCount - 1 then (.ok none, ⟨some (e.id, i)⟩)
    else
      match readFileEntry fl at' (i + 1) with
      | none => (.error .corruptedFileEntry, ⟨some (e.id, i)⟩)
      | some e' => ConcIter.filterLoop fl at' filter n e' (i + 1)

/-- `ConcurrentFilesIterator::next`. models iter.rs:243-271 -/
def FS.concNext (fs : FS) (filter : FileEntry → Bool) (it : ConcIter) : Except Err (Option FileEntry) × ConcIter :=
  match it.immediateNext fs.dev.flash fs.at' with
  | (.ok (some e), ⟨some (_, i)⟩) => ConcIter.filterLoop fs.dev.flash fs.at' filter (fs.at'.fileCount + 1) e i
  | (.ok (some _), ⟨none⟩) => (.error .panic, ⟨none⟩)
  | r => r

/-- `find_first_file`: the first entry a fresh `files_iter` yields. models iter.rs:78-85, 132-146 -/
def findFirst (fl : Flash) (at' : AT) (filter : FileEntry → Bool) : Nat → Nat → Except Err (Option FileEntry)
  | 0, _ => .ok none
  | n + 1, i =>
    match readFileEntry fl at' i with
    | none => .error .corruptedFileEntry
    | some e => if filter e then .ok (some e) else findFirst fl at' filter n (i + 1)

/-- `find_first_file`. models iter.rs:78-84 -/
def FS.findFirstFile (fs : FS) (filter : FileEntry → Bool) : Except Err (Option FileEntry) :=
  findFirst fs.dev.flash fs.at' filter fs.at'.fileCount 0

end Verif.Vlfs
