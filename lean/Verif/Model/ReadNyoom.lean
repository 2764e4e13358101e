import Verif.Model.TypedIo
/-
The console program that sends a file of length-prefixed messages (firmware-common/src/common/console/programs/read_nyoom.rs). The host sends eight bytes and
then one byte for every message it wants; what it receives is a stream of bytes. Errors of the serial port are not modelled. The program is not in the list
that `start_common_programs` starts.
-/
namespace Verif.ReadNyoom
open Verif Verif.Vlfs

/-- how far the program came: it waits for the next request, panicked, or ended with the file closed -/
inductive Outcome
  | waits (r : FileReader)
  | panicked
  | done

/-- the outcome and the bytes sent to the host -/
structure Run where
  outcome : Outcome
  sent : Bytes

/-- `while length_read < nyoom_message_length`: what `read_slice` gives is sent, also if it is less than was asked for; `none` if `read_slice` fails, which
panics. models read_nyoom.rs:36-48 -/
def body (crc : Bytes → UInt32) (fl : Flash) (n : Nat) (got : Nat) (r : FileReader) (sent : Bytes) : Option FileReader × Bytes :=
  if got < n then
    match r.readSlice crc fl (min 64 (n - got)) with
    | (.error _, _) => (none, sent)
    | (.ok x, r) => body crc fl n (got + min 64 (n - got)) r (sent ++ x.1)
  else (some r, sent)
termination_by n - got
decreasing_by omega

/-- one round of the loop, after the byte that asks for it. models read_nyoom.rs:32-55 -/
def answer (crc : Bytes → UInt32) (fl : Flash) (r : FileReader) (sent : Bytes) : Run :=
  match Typed.readTyped crc fl r .u32 with
  | (.ok (some n, _), r) =>
    match body crc fl n 0 r (sent ++ beBytes 4 n) with
    | (none, sent) => ⟨.panicked, sent⟩
    | (some r, sent) => ⟨.waits r, sent⟩
  | (.ok (none, .endOfFile), _) => ⟨.done, sent ++ [0, 0, 0, 0]⟩
  | _ => ⟨.panicked, sent⟩

/-- the loop, for a number of requests. models read_nyoom.rs:29-56 -/
def rounds (crc : Bytes → UInt32) (fl : Flash) : Nat → FileReader → Bytes → Run
  | 0, r, sent => ⟨.waits r, sent⟩
  | k + 1, r, sent =>
    match answer crc fl r sent with
    | ⟨.waits r, sent⟩ => rounds crc fl k r sent
    | x => x

/-- the program: the id, then the requests; the file system after it (a file that cannot be opened panics). models read_nyoom.rs:18-57 -/
def serve (crc : Bytes → UInt32) (fs : FS) (header : Bytes) (requests : Nat) : Run × FS :=
  match fs.openForRead (beNat header) with
  | (.error _, fs) => (⟨.panicked, []⟩, fs)
  | (.ok r, fs) =>
    match rounds crc fs.dev.flash requests r [] with
    | ⟨.done, sent⟩ => (⟨.done, sent⟩, fs.closeReader r)
    | x => (x, fs)

end Verif.ReadNyoom
