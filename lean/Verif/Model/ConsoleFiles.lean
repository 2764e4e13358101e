import Verif.Model.File
import Verif.Model.Iter
/-
File transfer over the console: the handlers of a console session (firmware-common/src/common/console/vl_rpc.rs:51-143; sg_rpc.rs:34-121
has the same ones) and the host functions that use them (vl-host-lib/src/common/pull_file.rs, list_files.rs). The RPC
transport itself is the subject of Verif/Model/Rpc.lean; here a call reaches the handler and its answer reaches the host.
-/
namespace Verif.Console
open Verif Verif.Vlfs

/-- `OpenFileStatus`. models firmware-common/src/common/console/mod.rs:15-19 -/
inductive OpenStatus where
  | success | doesNotExist | error
deriving DecidableEq, Repr

/-- `ReadFileResult`. models console/mod.rs:22-26 -/
structure ReadAnswer where
  data : Bytes
  length : Nat
  corrupted : Bool
deriving DecidableEq, Repr

/-- the state of a session: `reader`, `file_iter` (with the type it was started with). models vl_rpc.rs:51-54 -/
structure Session where
  reader : Option FileReader
  iter : Option (Option Nat × ConcIter)

/-- a new session. models vl_rpc.rs:53-54 -/
def Session.new : Session := ⟨none, none⟩

/-- `OpenFile`: the old reader is closed after the new file was opened. models vl_rpc.rs:66-83 -/
def Session.openFile (s : Session) (fs : FS) (id : Nat) : OpenStatus × Session × FS :=
  match fs.openForRead id with
  | (.ok r, fs) =>
    match s.reader with
    | some old => (.success, { s with reader := some r }, fs.closeReader old)
    | none => (.success, { s with reader := some r }, fs)
  | (.error .fileDoesNotExist, fs) => (.doesNotExist, s, fs)
  | (.error _, fs) => (.error, s, fs)

/-- the first `n` bytes of a buffer of 128 zeroes are overwritten. models vl_rpc.rs:86-87 -/
def chunkBuffer (d : Bytes) : Bytes := d ++ List.replicate (128 - d.length) 0

/-- `ReadFile`; no answer if the reader panics (or never returns). The data behind a failed read is not modelled (zeroes).
models vl_rpc.rs:84-115 -/
def Session.readFile (crc : Bytes → UInt32) (s : Session) (fl : Flash) : Option ReadAnswer × Session :=
  match s.reader with
  | none => (some ⟨chunkBuffer [], 0, false⟩, s)
  | some r =>
    match r.readSlice crc fl 128 with
    | (.ok (d, st), r) => (some ⟨chunkBuffer d, d.length, match st with | .corruptedPage _ => true | _ => false⟩, { s with reader := some r })
    | (.error .panic, r) => (none, { s with reader := some r })
    | (.error .hang, r) => (none, { s with reader := some r })
    | (.error _, r) => (some ⟨chunkBuffer [], 0, true⟩, { s with reader := some r })

/-- `CloseFile`. models vl_rpc.rs:116-120 -/
def Session.closeFile (s : Session) (fs : FS) : Session × FS :=
  match s.reader with
  | some r => ({ s with reader := none }, fs.closeReader r)
  | none => (s, fs)

/-- the filter `Option<FileType>`. models vlfs/src/fs/iter.rs:39-47 -/
def typeFilter (t : Option Nat) (_ typ : Nat) : Bool :=
  match t with
  | some t => typ == t
  | none => true

/-- `StartListFiles`. models vl_rpc.rs:121-124 -/
def Session.startListFiles (s : Session) (t : Option Nat) : Session := { s with iter := some (t, .new) }

/-- `GetListedFile`; an error looks like the end of the list. models vl_rpc.rs:125-143 -/
def Session.getListedFile (s : Session) (fs : FS) : Option Nat × Session :=
  match s.iter with
  | none => (none, s)
  | some (t, it) =>
    match fs.concNext (fun e => typeFilter t e.id e.typ) it with
    | (.ok (some e), it) => (some e.id, { s with iter := some (t, it) })
    | (_, it) => (none, { s with iter := some (t, it) })

/-- The serial connection fails (the USB cable is pulled): `run_rpc_server` leaves its `try` block, which drops the session; dropping a
reader that was not closed panics (`none`). models create_rpc.rs:100, 184-187, vlfs/src/fs/reader.rs:315-327 -/
def Session.serialError (s : Session) : Option Session :=
  match s.reader with
  | some _ => none
  | none => some .new

/-! ### the host -/

/-- what the host appends to its file and whether it goes on. models pull_file.rs:33-46 -/
def hostTake (got : Bytes) (a : ReadAnswer) : Bytes × Bool :=
  if a.length = 0 then (got, true) else (got ++ a.data.take a.length, false)

/-- the loop of `pull_file` while nothing else happens on the device; `none`: no answer, or more than `fuel` calls.
models pull_file.rs:33-46 -/
def pullLoop (crc : Bytes → UInt32) (fl : Flash) : Nat → Session → Bytes → Option (Bytes × Session)
  | 0, _, _ => none
  | fuel + 1, s, got =>
    match s.readFile crc fl with
    | (none, _) => none
    | (some a, s) =>
      match hostTake got a with
      | (got, true) => some (got, s)
      | (got, false) => pullLoop crc fl fuel s got

/-- `pull_file`: the content of the file written by the host. models pull_file.rs:17-60 -/
def pullFile (crc : Bytes → UInt32) (fuel : Nat) (s : Session) (fs : FS) (id : Nat) : Option Bytes × Session × FS :=
  match s.openFile fs id with
  | (.success, s, fs) =>
    match pullLoop crc fs.dev.flash fuel s [] with
    | none => (none, s, fs)
    | some (d, s) => (some d, s.closeFile fs)
  | (_, s, fs) => (none, s, fs)

/-- the loop of `list_files` while nothing else happens. models list_files.rs:5-22 -/
def listLoop (fs : FS) : Nat → Session → List Nat → Option (List Nat) × Session
  | 0, s, _ => (none, s)
  | fuel + 1, s, ids =>
    match s.getListedFile fs with
    | (some id, s) => listLoop fs fuel s (ids ++ [id])
    | (none, s) => (some ids, s)

/-- `list_files`. models list_files.rs:5-22 -/
def listFiles (fuel : Nat) (s : Session) (fs : FS) (t : Option Nat) : Option (List Nat) × Session :=
  listLoop fs fuel (s.startListFiles t) []

end Verif.Console
