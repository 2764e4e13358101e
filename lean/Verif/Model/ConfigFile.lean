import Verif.Model.File
import Verif.Model.Iter
/-
Configuration files (firmware-common/src/common/config_file.rs). A value is given by its serialized bytes (`rkyv`
archive, a fixed number of bytes for each type); serialization itself is not modelled.
-/
namespace Verif.Config
open Verif Verif.Vlfs

/-- `read_exact` of `embedded_io_async::Read` over `FileReader::read`, which is `read_slice` without its status: reads until the
buffer of `n` bytes is full (`some`) or a read returns no byte (`UnexpectedEof`, `none`). `fuel` bounds the number of reads, each of
which but the last returns at least one byte. models vlfs/src/fs/reader.rs:307-312 and the default method of the trait -/
def readExact (crc : Bytes → UInt32) (fl : Flash) : Nat → FileReader → Nat → Bytes → Except Err (Option Bytes) × FileReader
  | 0, r, _, _ => (.error .hang, r)
  | fuel + 1, r, n, acc =>
    if acc.length = n then (.ok (some acc), r)
    else
      match r.readSlice crc fl (n - acc.length) with
      | (.error e, r) => (.error e, r)
      | (.ok (d, _), r) => if d.length = 0 then (.ok none, r) else readExact crc fl fuel r n (acc ++ d)

/-- the file that holds the configuration: the first one of the type. models config_file.rs:42 -/
def ofTyp (typ : Nat) (e : FileEntry) : Bool := e.typ == typ

/-- `ConfigFile::read` for a type whose archive has `n` bytes: the bytes that are deserialized, or `None`. A panic or endless loop of
the reader is an error. models config_file.rs:41-71 -/
def read (crc : Bytes → UInt32) (n : Nat) (fs : FS) (typ : Nat) : Except Err (Option Bytes) × FS :=
  match fs.findFirstFile (ofTyp typ) with
  | .ok (some e) =>
    match fs.openForRead e.id with
    | (.ok r, fs) =>
      match readExact crc fs.dev.flash (n + 1) r n [] with
      | (.ok b, r) => (.ok b, fs.closeReader r)
      | (.error .panic, _) => (.error .panic, fs)
      | (.error .hang, _) => (.error .hang, fs)
      | (.error _, r) => (.ok none, fs.closeReader r)
    | (.error _, fs) => (.ok none, fs)
  | _ => (.ok none, fs)

/-- `ConfigFile::write` of a value with the serialized form `bytes`. An error of `extend_from_slice` drops the writer, which was not
closed: this panics. `rng1`, `rng2` are the random numbers drawn. models config_file.rs:73-87, vlfs/src/fs/writer.rs:385-397 -/
def write (crc : Bytes → UInt32) (fs : FS) (typ : Nat) (bytes : Bytes) (rng1 : Nat → Nat) (rng2 : Nat → Nat × Nat) : Except Err Unit × FS :=
  match fs.removeFiles (ofTyp typ) with
  | (.error e, fs) => (.error e, fs)
  | (.ok _, fs) =>
    match fs.createFile typ with
    | (.error e, fs) => (.error e, fs)
    | (.ok e, fs) =>
      match fs.openForWrite e.id rng1 with
      | (.error er, fs) => (.error er, fs)
      | (.ok w, fs) =>
        match fs.extendWriter crc w rng2 bytes with
        | (.error _, _, fs) => (.error .panic, fs)
        | (.ok (), w, fs) => (.ok (), fs.closeWriter crc w)

/-- `SetFlightProfile` and `SetDeviceConfig` of the console: the result of `write` is unwrapped, so that an error is a panic of the whole
device (`none`). models firmware-common/src/common/console/vl_rpc.rs:157-172 -/
def setOverConsole (crc : Bytes → UInt32) (fs : FS) (typ : Nat) (bytes : Bytes) (rng1 : Nat → Nat) (rng2 : Nat → Nat × Nat) : Option FS :=
  match write crc fs typ bytes rng1 rng2 with
  | (.ok (), fs) => some fs
  | (.error _, _) => none

end Verif.Config
