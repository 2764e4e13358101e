import Verif.Model.Flash
/-
Model of vlfs/src/fs/utils.rs (redundant 16-bit fields) and of the layout constants of vlfs/src/fs/mod.rs:31-45.
-/
namespace Verif.Vlfs

/-- `find_most_common`. models vlfs/src/fs/utils.rs:10-31 -/
def findMostCommon (a b c d : Nat) : Option Nat :=
  if a = b then some a
  else if a = c then some a
  else if a = d then some a
  else if b = c then some b
  else if b = d then some b
  else if c = d then some c
  else none

/-- `find_most_common_u16_out_of_4` on an 8-byte buffer. models vlfs/src/fs/utils.rs:1-8 -/
def mostCommonU16 (buf : Bytes) : Option Nat :=
  findMostCommon (beNat (buf.take 2)) (beNat ((buf.drop 2).take 2)) (beNat ((buf.drop 4).take 2))
    (beNat ((buf.drop 6).take 2))

/-- `copy_from_u16x4`: the 8 bytes it stores. models vlfs/src/fs/utils.rs:38-44 -/
def u16x4 (v : Nat) : Bytes := beBytes 2 v ++ beBytes 2 v ++ beBytes 2 v ++ beBytes 2 v

/-- models vlfs/src/fs/mod.rs:31 -/
abbrev VLFS_VERSION : Nat := 19
/-- models vlfs/src/fs/mod.rs:32 -/
abbrev SECTORS_COUNT : Nat := 16384
/-- models vlfs/src/fs/mod.rs:33 -/
abbrev SECTOR_SIZE : Nat := 4096
/-- models vlfs/src/fs/mod.rs:34 -/
abbrev PAGE_SIZE : Nat := 256
/-- models vlfs/src/fs/mod.rs:40 -/
abbrev TABLE_COUNT : Nat := 4
/-- models vlfs/src/fs/mod.rs:41 -/
abbrev TABLE_SIZE : Nat := 32768
/-- models vlfs/src/fs/mod.rs:42 -/
abbrev MAX_FILES : Nat := (TABLE_SIZE - 26 - 4) / 13
/-- models vlfs/src/fs/mod.rs:43 -/
abbrev MAX_SECTOR_DATA_SIZE : Nat := 4016
/-- models vlfs/src/fs/mod.rs:44 -/
abbrev ALLOC_TABLES_SECTORS_USED : Nat := TABLE_COUNT * TABLE_SIZE / SECTOR_SIZE
/-- models vlfs/src/fs/mod.rs:45 -/
abbrev DATA_REGION_SECTORS : Nat := SECTORS_COUNT - ALLOC_TABLES_SECTORS_USED

/-- the errors of the file system API (vlfs/src/fs/error.rs:7-19, those the model can produce) and the two
ways a call can fail to return: a panic (`unwrap`, `log_panic`) and a loop that does not end. -/
inductive Err where
  | tooManyFilesOpen
  | fileInUse
  | fileDoesNotExist
  | deviceFull
  | corruptedFileEntry
  | corruptedFileSystem
  | panic
  | hang
deriving Repr, DecidableEq

/-- `omega` after unfolding the layout constants -/
macro "omegac" : tactic =>
  `(tactic| ((try simp only [DATA_REGION_SECTORS, SECTORS_COUNT, ALLOC_TABLES_SECTORS_USED, SECTOR_SIZE,
      TABLE_COUNT, TABLE_SIZE, MAX_FILES, PAGE_SIZE, MAX_SECTOR_DATA_SIZE] at *); omega))

end Verif.Vlfs
