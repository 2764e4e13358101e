import Verif.Model.Directory
/-
Model of vlfs/src/fs/writer.rs and reader.rs, and of `get_file_size` (vlfs/src/fs/mod.rs:134-190).
The hardware/software CRC (`Crc::calculate`) is a parameter `crc : Bytes → UInt32`.
Offsets into page buffers are relative to the data (the code adds the 5-byte SPI prefix).
A call that returns an error returns the state it leaves behind as well.
-/
namespace Verif.Vlfs

/-- overwrite part of a buffer: `buf[off..off+d.len()].copy_from_slice(d)` -/
def put (buf : Bytes) (off : Nat) (d : Bytes) : Bytes := buf.take off ++ d ++ buf.drop (off + d.length)

/-- an empty page buffer. models writer.rs:152, 181 -/
def blankPage : Bytes := List.replicate 256 0xFF

/-- `FileWriter`: `offset` is `buffer_offset - 5`. models writer.rs:129-142 -/
structure FileWriter where
  buffer : Bytes
  offset : Nat
  len : Nat
  sector : Nat
  id : Nat
deriving Repr, DecidableEq

/-- models writer.rs:149-159 -/
def FileWriter.new (sector id : Nat) : FileWriter := ⟨blankPage, 0, 0, sector, id⟩

/-- `write_page`. models writer.rs:161-182 -/
def FileWriter.writePage (crc : Bytes → UInt32) (w : FileWriter) (addr : Nat) (crcOffset : Option Nat) (dev : Dev) :
    FileWriter × Dev :=
  let buffer :=
    match crcOffset with
    | some o => put w.buffer o (beBytes 4 (crc (w.buffer.take o)).toNat)
    | none => w.buffer
  ({ w with buffer := blankPage, offset := 0 }, dev.op (.page addr buffer))

/-- `is_last_data_page`. models writer.rs:184-186 -/
def FileWriter.isLastDataPage (w : FileWriter) : Bool := w.len > 252 * 15

/-- `page_address`. models writer.rs:188-200 -/
def FileWriter.pageAddress (w : FileWriter) : Nat :=
  if w.len = 0 then w.sector * SECTOR_SIZE else w.sector * SECTOR_SIZE + (w.len - 1) / 252 * 256

/-- `write_length_and_next_sector_index`. models writer.rs:202-210 -/
def FileWriter.writeMeta (w : FileWriter) (next : Nat) : FileWriter :=
  { w with buffer := put (put w.buffer 240 (u16x4 w.len)) 248 (u16x4 next) }

/-- `_flush`. models writer.rs:231-277. (`(x + 3) & !3` is `(x + 3) / 4 * 4`.) -/
def FileWriter.flushTo (crc : Bytes → UInt32) (w : FileWriter) (next : Nat) (dev : Dev) : FileWriter × Dev :=
  if w.len = 0 then (w.writeMeta next).writePage crc (w.sector * SECTOR_SIZE + (SECTOR_SIZE - PAGE_SIZE)) none dev
  else
    let crcOffset := (w.offset + 3) / 4 * 4
    let r :=
      if w.isLastDataPage then
        (w.writeMeta next).writePage crc w.pageAddress (some crcOffset) dev
      else
        let r := if w.offset > 0 then w.writePage crc w.pageAddress (some crcOffset) dev else (w, dev)
        (r.1.writeMeta next).writePage crc (w.sector * SECTOR_SIZE + (SECTOR_SIZE - PAGE_SIZE)) none r.2
    ({ r.1 with len := 0 }, r.2)

/-- a call of the writer: result and the state it leaves behind -/
abbrev WRes := Except Err Unit × FileWriter × SectorsMng × Dev

/-- `flush`; `rng1`, `rng2` are the random values a claim may draw. models writer.rs:212-229 -/
def FileWriter.flush (crc : Bytes → UInt32) (w : FileWriter) (m : SectorsMng) (dev : Dev) (rng1 rng2 : Nat) : WRes :=
  if w.len = 0 then (.ok (), w, m, dev)
  else
    match m.claim rng1 rng2 dev with
    | (.error e, m, dev) => (.error e, w, m, dev)
    | (.ok next, m, dev) =>
      let r := w.flushTo crc next dev
      (.ok (), { r.1 with sector := next }, m, r.2)

/-- `close`, without the bookkeeping of open files. models writer.rs:279-291 -/
def FileWriter.close (crc : Bytes → UInt32) (w : FileWriter) (dev : Dev) : Dev := (w.flushTo crc 0xFFFF dev).2

/-- `extend_from_slice`; fuel bounds the iterations (every iteration but one consumes at least one byte); `rng` gives
the two random values for a claim in the i-th remaining iteration. models writer.rs:300-360 -/
def FileWriter.extendLoop (crc : Bytes → UInt32) (rng : Nat → Nat × Nat) :
    Nat → FileWriter → SectorsMng → Dev → Bytes → WRes
  | 0, w, m, dev, _ => (.error .hang, w, m, dev)
  | fuel + 1, w, m, dev, slice =>
    if slice.length > 0 then
      let willBeLast := decide (w.len ≥ 252 * 15)
      let reserved := if willBeLast then 8 + 8 + 4 else 4
      let free := 256 - w.offset - reserved
      if slice.length < free then
        (.ok (), { w with buffer := put w.buffer w.offset slice, offset := w.offset + slice.length,
                          len := w.len + slice.length }, m, dev)
      else
        let w := { w with buffer := put w.buffer w.offset (slice.take free), offset := w.offset + free,
                          len := w.len + free }
        if willBeLast then
          match m.claim (rng fuel).1 (rng fuel).2 dev with
          | (.error e, m, dev) => (.error e, w, m, dev)
          | (.ok next, m, dev) =>
            let w := w.writeMeta next
            let r := w.writePage crc w.pageAddress (some w.offset) dev
            extendLoop crc rng fuel { r.1 with len := 0, sector := next } m r.2 (slice.drop free)
        else
          let r := w.writePage crc w.pageAddress (some w.offset) dev
          extendLoop crc rng fuel r.1 m r.2 (slice.drop free)
    else (.ok (), w, m, dev)

/-- `extend_from_slice`. models writer.rs:300-360 -/
def FileWriter.extend (crc : Bytes → UInt32) (w : FileWriter) (m : SectorsMng) (dev : Dev) (rng : Nat → Nat × Nat)
    (slice : Bytes) : WRes :=
  extendLoop crc rng (slice.length + 2) w m dev slice

/-! ### Reading -/

/-- `SectorDataLength`. models reader.rs:39-43 -/
inductive DataLength where
  | notRead
  | read (n : Nat)
  | unknown
deriving Repr, DecidableEq

/-- `VLFSReadStatus`. models reader.rs:46-50 -/
inductive ReadStatus where
  | ok
  | endOfFile
  | corruptedPage (address : Nat)
deriving Repr, DecidableEq

/-- `FileReader`; the read-ahead range of the page buffer is modelled by its content. models reader.rs:52-69 -/
structure FileReader where
  sector : Option Nat
  page : Nat
  length : DataLength
  readLen : Nat
  id : Nat
  ahead : Bytes
deriving Repr, DecidableEq

/-- models reader.rs:76-88 -/
def FileReader.new (first : Option Nat) (id : Nat) : FileReader := ⟨first, 0, .notRead, 0, id, []⟩

/-- `set_current_sector_index`. models reader.rs:90-99 -/
def FileReader.setSector (r : FileReader) (s : Nat) : FileReader :=
  { r with sector := if s = 0xFFFF then none else some s, page := 0, length := .notRead, readLen := 0 }

/-- reading the stored length of a sector. models reader.rs:109-128 -/
def readLength (fl : Flash) (sectorAddr : Nat) : DataLength :=
  match mostCommonU16 (fl.read (sectorAddr + SECTOR_SIZE - 8 - 8) 8) with
  | some n => if n ≤ MAX_SECTOR_DATA_SIZE then .read n else .read 0
  | none => .unknown

/-- number of data bytes to read from a page. models reader.rs:152-166 -/
def pageLen (unread : Option Nat) (isLast : Bool) : Nat :=
  let maxLen := if isLast then 236 else 252
  match unread with
  | some u => min u maxLen
  | none => maxLen

/-- the second half of `read_next_page`: read the page, check its CRC, advance. `unread` is
`sector_unread_data_length`. models reader.rs:152-221 -/
def FileReader.readPage (crc : Bytes → UInt32) (fl : Flash) (r : FileReader) (sectorAddr : Nat) (unread : Option Nat) :
    Except Err ReadStatus × FileReader :=
  let isLast := r.page == 15
  let n := pageLen unread isLast
  let padded := (n + 3) / 4 * 4
  let pageAddr := sectorAddr + r.page * PAGE_SIZE
  let res := fl.read pageAddr (if isLast then 256 else padded + 4)
  let r := { r with readLen := r.readLen + n }
  let expected := beNat ((res.drop padded).take 4)
  let actual := (crc (res.take padded)).toNat
  let finish (r : FileReader) : Except Err ReadStatus × FileReader :=
    if actual ≠ expected then (.ok (.corruptedPage pageAddr), { r with ahead := [] })
    else (.ok .ok, { r with ahead := res.take n })
  if isLast then
    match mostCommonU16 (res.drop (PAGE_SIZE - 8)) with
    | none => (.error .panic, r)
    | some next => finish (r.setSector next)
  else finish { r with page := r.page + 1 }

/-- `read_next_page`. models reader.rs:102-227. The `log_assert!` that page is 0 when the length has not been read is
modelled as a panic. -/
def FileReader.readNextPage (crc : Bytes → UInt32) (fl : Flash) (r : FileReader) : Except Err ReadStatus × FileReader :=
  match r.sector with
  | none => (.ok .endOfFile, { r with ahead := [] })
  | some s =>
    let sectorAddr := s * SECTOR_SIZE
    if r.length = .notRead ∧ r.page ≠ 0 then (.error .panic, r)
    else
      let r := if r.length = .notRead then { r with length := readLength fl sectorAddr } else r
      match r.length with
      | .read n =>
        let unread := n - r.readLen
        if unread = 0 then
          match mostCommonU16 (fl.read (sectorAddr + SECTOR_SIZE - 8) 8) with
          | none => (.error .panic, r)
          | some next => (.ok .ok, { r.setSector next with ahead := [] })
        else r.readPage crc fl sectorAddr (some unread)
      | _ => r.readPage crc fl sectorAddr none

/-- `read_slice`: the bytes delivered, the status, and the reader; fuel bounds the iterations (only a cyclic chain of
sectors needs more). models reader.rs:244-291 -/
def FileReader.readLoop (crc : Bytes → UInt32) (fl : Flash) : Nat → FileReader → Nat → Bytes →
    Except Err (Bytes × ReadStatus) × FileReader
  | 0, r, _, _ => (.error .hang, r)
  | fuel + 1, r, length, acc =>
    if acc.length < length then
      if r.ahead.length = 0 then
        match r.readNextPage crc fl with
        | (.error e, r) => (.error e, r)
        | (.ok .ok, r) => readLoop crc fl fuel r length acc
        | (.ok s, r) => (.ok (acc, s), r)
      else
        let unread := length - acc.length
        if r.ahead.length ≤ unread then readLoop crc fl fuel { r with ahead := [] } length (acc ++ r.ahead)
        else readLoop crc fl fuel { r with ahead := r.ahead.drop unread } length (acc ++ r.ahead.take unread)
    else (.ok (acc, .ok), r)

/-- bound on the iterations of `read_slice`: no file has more than 16384 sectors of 16 pages -/
@[irreducible] def maxReads : Nat := 1000000

/-- `read_slice(buf, length)`. models reader.rs:244-291 -/
def FileReader.readSlice (crc : Bytes → UInt32) (fl : Flash) (r : FileReader) (length : Nat) :
    Except Err (Bytes × ReadStatus) × FileReader :=
  readLoop crc fl maxReads r length []

/-- loop of `get_file_size`. models vlfs/src/fs/mod.rs:146-184 -/
def sizeLoop (fl : Flash) : Nat → Option Nat → Nat → Nat → Except Err (Nat × Nat)
  | 0, _, _, _ => .error .hang
  | _ + 1, none, size, sectors => .ok (size, sectors)
  | fuel + 1, some s, size, sectors =>
    let res := fl.read (s * SECTOR_SIZE + SECTOR_SIZE - 8 - 8) 16
    match mostCommonU16 (res.take 8) with
    | none => .error .panic
    | some n =>
      let n := if n = 0xFFFF then 0 else n
      if n > MAX_SECTOR_DATA_SIZE then .ok (size, sectors + 1)
      else
        match mostCommonU16 (res.drop 8) with
        | none => .error .panic
        | some next => sizeLoop fl fuel (if next = 0xFFFF then none else some next) (size + n) (sectors + 1)

/-- `get_file_size`: (bytes, sectors). models vlfs/src/fs/mod.rs:134-188 -/
def FS.getFileSize (fs : FS) (id : Nat) : Except Err (Nat × Nat) :=
  match fs.findFileEntry id with
  | .error e => .error e
  | .ok none => .error .fileDoesNotExist
  | .ok (some (e, _)) => sizeLoop fs.dev.flash (SECTORS_COUNT + 1) e.first 0 0

/-! ### Opening and closing -/

/-- `open_file_for_read`. models reader.rs:13-36 -/
def FS.openForRead (fs : FS) (id : Nat) : Res FileReader :=
  match fs.findFileEntry id with
  | .error e => (.error e, fs)
  | .ok none => (.error .fileDoesNotExist, fs)
  | .ok (some (e, _)) =>
    if fs.at'.isOpened e.id then (.error .fileInUse, fs)
    else
      match fs.markOpened id with
      | (.error er, fs) => (.error er, fs)
      | (.ok (), fs) => (.ok (FileReader.new e.first id), fs)

/-- follow the chain to its last sector. models writer.rs:42-60 -/
def lastSector : Nat → Flash → Nat → Except Err Nat
  | 0, _, _ => .error .hang
  | fuel + 1, fl, s =>
    match mostCommonU16 (fl.read (s * SECTOR_SIZE + SECTOR_SIZE - 8) 8) with
    | none => .error .panic
    | some next => if next = 0xFFFF then .ok s else lastSector fuel fl next

/-- the page buffer with page `i` of a sector read into it; `patch` is the new next pointer put into the last page.
models writer.rs:72-87, 99-110 -/
def copyBuf (src : Nat) (patch : Option Nat) (i : Nat) (fl : Flash) : Bytes :=
  let buf := fl.read (src * SECTOR_SIZE + i * PAGE_SIZE) PAGE_SIZE
  match patch with
  | some next => if i = 15 then put buf (PAGE_SIZE - 8) (u16x4 next) else buf
  | none => buf

/-- copy `n` pages starting at page `i` from one sector to another. models writer.rs:72-90, 99-113 -/
def copyPages (src dst : Nat) (patch : Option Nat) : Nat → Nat → Dev → Dev
  | 0, _, dev => dev
  | n + 1, i, dev =>
    copyPages src dst patch n (i + 1) (dev.op (.page (dst * SECTOR_SIZE + i * PAGE_SIZE) (copyBuf src patch i dev.flash)))

/-- `open_file_for_write`; the random values are for up to two claims. models writer.rs:14-126 -/
def FS.openForWrite (fs : FS) (id : Nat) (rng : Nat → Nat) : Res FileWriter :=
  match fs.findFileEntry id with
  | .error e => (.error e, fs)
  | .ok none => (.error .fileDoesNotExist, fs)
  | .ok (some (e, _)) =>
    if fs.at'.isOpened e.id then (.error .fileInUse, fs)
    else
      match fs.markOpened id with
      | (.error er, fs) => (.error er, fs)
      | (.ok (), fs) =>
        match fs.mng.claim (rng 0) (rng 1) fs.dev with
        | (.error er, m, d) => (.error er, { fs with mng := m, dev := d })
        | (.ok new, m, d) =>
          match e.first with
          | some first =>
            match lastSector (SECTORS_COUNT + 1) d.flash first with
            | .error er => (.error er, { fs with mng := m, dev := d })
            | .ok last =>
              match m.claim (rng 2) (rng 3) d with
              | (.error er, m, d) => (.error er, { fs with mng := m, dev := d })
              | (.ok temp, m, d) =>
                let d := copyPages last temp (some new) 16 0 d
                let d := d.op (.erase (last * SECTOR_SIZE) SECTOR_SIZE)
                let d := copyPages temp last none 16 0 d
                (.ok (FileWriter.new new e.id), { fs with mng := m.returnSector temp, dev := d })
          | none =>
            match FS.setFirstSector { fs with mng := m, dev := d } id (some new) with
            | (.error er, fs) => (.error er, fs)
            | (.ok (), fs) => (.ok (FileWriter.new new e.id), fs)

/-- `FileWriter::close` on the file system. models writer.rs:279-291 -/
def FS.closeWriter (crc : Bytes → UInt32) (fs : FS) (w : FileWriter) : FS :=
  FS.markClosed { fs with dev := w.close crc fs.dev } w.id

/-- `FileReader::close`. models reader.rs:229-233 -/
def FS.closeReader (fs : FS) (r : FileReader) : FS := fs.markClosed r.id

/-- `extend_from_slice` on the file system -/
def FS.extendWriter (crc : Bytes → UInt32) (fs : FS) (w : FileWriter) (rng : Nat → Nat × Nat) (slice : Bytes) :
    Except Err Unit × FileWriter × FS :=
  let r := w.extend crc fs.mng fs.dev rng slice
  (r.1, r.2.1, { fs with mng := r.2.2.1, dev := r.2.2.2 })

/-- `flush` on the file system -/
def FS.flushWriter (crc : Bytes → UInt32) (fs : FS) (w : FileWriter) (rng1 rng2 : Nat) :
    Except Err Unit × FileWriter × FS :=
  let r := w.flush crc fs.mng fs.dev rng1 rng2
  (r.1, r.2.1, { fs with mng := r.2.2.1, dev := r.2.2.2 })

end Verif.Vlfs
