import Verif.Model.File
/-
The console program that receives a file (firmware-common/src/common/console/programs/write_file.rs). The serial port is the sequence of messages the host
sends, one for each `read`; `read_all` gives exactly the bytes asked for. Errors of the serial port are not modelled. The program is not in the list that
`start_common_programs` starts.
-/
namespace Verif.WriteFile
open Verif Verif.Vlfs

/-- how far the program came: it waits for the next part of the file, panicked on a part of the wrong length, panicked on an error of the file system, or ended -/
inductive Outcome
  | waits (w : FileWriter)
  | badPart
  | fsError (e : Err)
  | done

/-- the state of the file system and the messages sent to the host -/
structure Run where
  outcome : Outcome
  fs : FS
  sent : List Bytes

/-- after the last part: `close`, `get_file_size`, and the id of the file is sent. models write_file.rs:57-63 -/
def finish (crc : Bytes → UInt32) (id : Nat) (w : FileWriter) (fs : FS) (sent : List Bytes) : Run :=
  match (fs.closeWriter crc w).getFileSize id with
  | .error e => ⟨.fsError e, fs.closeWriter crc w, sent⟩
  | .ok _ => ⟨.done, fs.closeWriter crc w, sent ++ [beBytes 8 id]⟩

/-- `while wrote_len < file_size`: the length of the next part is sent (`chunk_len`), the part is read and must have that length, and is written. `rng`: the
random numbers for sector claims. models write_file.rs:37-55 -/
def parts (crc : Bytes → UInt32) (rng : Nat → Nat → Nat × Nat) (id size : Nat) : Nat → List Bytes → FileWriter → FS → List Bytes → Run
  | wrote, msgs, w, fs, sent =>
    if wrote < size then
      match msgs with
      | [] => ⟨.waits w, fs, sent ++ [beBytes 4 (min 64 (size - wrote))]⟩
      | m :: ms =>
        if m.length = min 64 (size - wrote) then
          match fs.extendWriter crc w (rng wrote) m with
          | (.error e, _, fs) => ⟨.fsError e, fs, sent ++ [beBytes 4 (min 64 (size - wrote))]⟩
          | (.ok (), w, fs) => parts crc rng id size (wrote + min 64 (size - wrote)) ms w fs (sent ++ [beBytes 4 (min 64 (size - wrote))])
        else ⟨.badPart, fs, sent ++ [beBytes 4 (min 64 (size - wrote))]⟩
    else finish crc id w fs sent

/-- the program; `header`: the six bytes read first, type and size. models write_file.rs:20-67 -/
def upload (crc : Bytes → UInt32) (rngs : Nat → Nat) (rng : Nat → Nat → Nat × Nat) (fs : FS) (header : Bytes) (msgs : List Bytes) : Run :=
  match fs.createFile (beNat (header.take 2)) with
  | (.error e, fs) => ⟨.fsError e, fs, []⟩
  | (.ok f, fs) =>
    match fs.openForWrite f.id rngs with
    | (.error e, fs) => ⟨.fsError e, fs, []⟩
    | (.ok w, fs) => parts crc rng f.id (beNat (header.drop 2)) 0 msgs w fs []

end Verif.WriteFile
