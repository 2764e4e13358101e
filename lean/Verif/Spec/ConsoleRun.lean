import Verif.Model.ConsoleFiles
import Verif.Spec.OpenReader
/-
Histories of a console session next to the other tasks of the device.
-/
namespace Verif.Spec
open Verif Verif.Vlfs Verif.Console

/-- Reachable states of a console session, the file system and what is known about the files. Other tasks make any calls, but do not
close the file the session has open. -/
inductive ConsoleRun (crc : Bytes → UInt32) : Session → FS → List Known → Prop
  /-- the console is started -/
  | start {fs : FS} {ks : List Known} (hr : Hist crc fs ks) : ConsoleRun crc .new fs ks
  | openFile {s s' : Session} {fs fs' : FS} {ks : List Known} (id : Nat) (st : OpenStatus) (h : ConsoleRun crc s fs ks)
      (ho : s.openFile fs id = (st, s', fs')) : ConsoleRun crc s' fs' ks
  | readFile {s s' : Session} {fs : FS} {ks : List Known} (a : ReadAnswer) (h : ConsoleRun crc s fs ks)
      (hr : s.readFile crc fs.dev.flash = (some a, s')) : ConsoleRun crc s' fs ks
  | closeFile {s s' : Session} {fs fs' : FS} {ks : List Known} (h : ConsoleRun crc s fs ks) (hc : s.closeFile fs = (s', fs')) :
      ConsoleRun crc s' fs' ks
  | startList {s : Session} {fs : FS} {ks : List Known} (t : Option Nat) (h : ConsoleRun crc s fs ks) : ConsoleRun crc (s.startListFiles t) fs ks
  | getListed {s : Session} {fs : FS} {ks : List Known} (h : ConsoleRun crc s fs ks) : ConsoleRun crc (s.getListedFile fs).2 fs ks
  /-- a call of another task -/
  | other {s : Session} {fs fs' : FS} {ks ks' : List Known} (h : ConsoleRun crc s fs ks) (hs : Step crc fs ks fs' ks')
      (hk : ∀ r, s.reader = some r → r.id ∈ fs'.at'.opened) : ConsoleRun crc s fs' ks'

/-- `pull_file` of file `k`, with calls of other tasks in between: session, file system, knowledge, bytes received so far, and
whether the host has finished. The file is not dropped by a rotation. -/
inductive PullRun (crc : Bytes → UInt32) (k : Known) : Session → FS → List Known → Bytes → Bool → Prop
  | opened {s s' : Session} {fs fs' : FS} {ks : List Known} (h : ConsoleRun crc s fs ks) (hk : k ∈ ks) (hw : k.writer = none) (hd : k.damaged = false)
      (ho : s.openFile fs k.id = (.success, s', fs')) : PullRun crc k s' fs' ks [] false
  | other {s : Session} {fs fs' : FS} {ks ks' : List Known} {got : Bytes} {fin : Bool} (h : PullRun crc k s fs ks got fin)
      (hs : Step crc fs ks fs' ks') (hl : ∃ k' ∈ ks', k'.id = k.id) (ho : k.id ∈ fs'.at'.opened) : PullRun crc k s fs' ks' got fin
  | read {s s' : Session} {fs : FS} {ks : List Known} {got : Bytes} (a : ReadAnswer) (h : PullRun crc k s fs ks got false)
      (hr : s.readFile crc fs.dev.flash = (some a, s')) : PullRun crc k s' fs ks (hostTake got a).1 (hostTake got a).2

/-- what the host gets from a stream of bytes and bad pages by asking for 128 bytes until it gets none -/
inductive Pulls : List Item → Bytes → Prop
  | done (items : List Item) (h : (consume items 128).1 = []) : Pulls items []
  | more (items : List Item) (out : Bytes) (h : (consume items 128).1 ≠ []) (ht : Pulls (consume items 128).2.2 out) :
      Pulls items ((consume items 128).1 ++ out)

end Verif.Spec
