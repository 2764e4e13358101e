import Verif.Spec.Crash
import Verif.Model.Ring
/-
Histories of the directory: calls, restarts and power losses, with the list of files a caller expects
(kept next to the file system, not inside it) and the list of all ids handed out so far.
-/
namespace Verif.Spec
open Verif Verif.Vlfs

/-- what the directory lists -/
def lists (fs : FS) (es : List FileEntry) : Prop := fs.filesIter (fun _ => true) = .ok es

/-- `e` is among the `n` oldest (smallest ids) of the files of type `typ` in `es` -/
def amongOldest (typ n : Nat) (es : List FileEntry) (e : FileEntry) : Bool :=
  e.typ == typ && decide ((es.filter fun x => x.typ == typ && decide (x.id < e.id)).length < n)

/-- One successful directory-changing call: `Call fs es fs' es' ids` means that `fs`, expected to list `es`, became
`fs'`, expected to list `es'`, and that the call handed out the new ids `ids`.
Creation is restricted to directories with fewer than `MAX_FILES` = 2518 files (see C26 for what happens at the limit) and to file
types below 0x4000 (the firmware uses types below 64). -/
inductive Call (fs : FS) (es : List FileEntry) : FS → List FileEntry → List Nat → Prop
  | create (typ : Nat) (e : FileEntry) (fs' : FS) (h : fs.createFile typ = (.ok e, fs')) (hcap : es.length < 2518)
      (ht : typ < 0x4000) : Call fs es fs' (es ++ [e]) [e.id]
  | createOpen (typ r1 r2 : Nat) (e : FileEntry) (fs' : FS) (h : fs.createFileAndOpen typ r1 r2 = (.ok e, fs'))
      (hcap : es.length < 2518) (ht : typ < 0x4000) : Call fs es fs' (es ++ [e]) [e.id]
  | remove (filter : FileEntry → Bool) (n k : Nat) (fs' : FS) (h : fs.removeFiles filter = (.ok (n, k), fs')) :
      Call fs es fs' (es.filter fun e => !filter e || decide (e.id ∈ fs.at'.opened)) []
  | setFirst (id : Nat) (first : Option Nat) (fs' : FS) (h : fs.setFirstSector id first = (.ok (), fs'))
      (hf : ∀ s, first = some s → s < 0xFFFF) :
      Call fs es fs' (es.map fun e => if e.id = id then { e with first := first } else e) []
  /-- a ring log drops its `n` oldest files and starts a new one -/
  | rotate (typ n r1 r2 : Nat) (e : FileEntry) (fs' : FS) (h : fs.rotate typ n r1 r2 = (.ok e, fs'))
      (hcap : (es.filter fun x => !amongOldest typ n es x).length < 2518) (ht : typ < 0x4000) :
      Call fs es fs' ((es.filter fun x => !amongOldest typ n es x) ++ [e]) [e.id]

/-- the flash operations a call issued -/
def issued (fs fs' : FS) (ops : List FlashOp) : Prop := fs'.dev.log = fs.dev.log ++ ops

/-- no sector waiting to be handed out lies outside the data region -/
def aheadValid (m : SectorsMng) : Prop := ∀ x ∈ m.ahead ++ m.asyncAhead, 32 ≤ x ∧ x < 16384

/-- the 64-bit counters are not at their end -/
def countersOk (fs : FS) : Prop := fs.at'.seq + 1 < 2 ^ 64 ∧ fs.at'.maxId + 1 < 2 ^ 64

/-- Reachable states of the directory: `Reach fs es ids`: after some history the file system is in state `fs`, the
calls made so far should have left the files `es`, and the ids `ids` have been handed out. -/
inductive Reach : FS → List FileEntry → List Nat → Prop
  /-- first start on a chip on which no slot has a readable table header -/
  | format (fl : Flash) (h : ∀ q, q < 4 → headerDeserialize (fl.read (q * 32768) 13) = none) :
      Reach (FS.mount fl).2 [] []
  /-- a directory-changing call -/
  | call {fs fs' : FS} {es es' : List FileEntry} {ids new : List Nat} (hr : Reach fs es ids)
      (hc : Call fs es fs' es' new) (hok : countersOk fs) : Reach fs' es' (new ++ ids)
  /-- a file is marked open or closed -/
  | opened {fs : FS} {es : List FileEntry} {ids : List Nat} (hr : Reach fs es ids) (l : List Nat) :
      Reach { fs with at' := { fs.at' with opened := l } } es ids
  /-- anything that happens to the data region and the sector manager (writing files, claiming sectors) -/
  | other {fs fs' : FS} {es : List FileEntry} {ids : List Nat} (hr : Reach fs es ids) (ha : fs'.at' = fs.at')
      (hf : ∀ a, a < 4 * 32768 → fs'.dev.flash a = fs.dev.flash a) (hm : aheadValid fs'.mng) : Reach fs' es ids
  /-- restart without interruption of a call -/
  | restart {fs fs' : FS} {es : List FileEntry} {ids : List Nat} (hr : Reach fs es ids)
      (hm : FS.mount fs.dev.flash = (.ok (), fs')) : Reach fs' es ids
  /-- power loss during a call, then restart; the files are now whatever the directory lists. Restricted to calls whose
  table footer does not cross a page boundary and has a free record behind it. -/
  | crash {fs fs' fs'' : FS} {es es' es'' : List FileEntry} {ids new : List Nat} {ops : List FlashOp} {fl' : Flash}
      (hr : Reach fs es ids) (hc : Call fs es fs' es' new) (hok : countersOk fs) (hi : issued fs fs' ops)
      (hl : es'.length ≤ 2517) (hfit : 13 * (es'.length + 1) % 256 ≤ 243)
      (hp : PageCrash fs.dev.flash ops fl') (hm : FS.mount fl' = (.ok (), fs'')) (hlist : lists fs'' es'') :
      Reach fs'' es'' ids

end Verif.Spec
