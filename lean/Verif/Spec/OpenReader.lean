import Verif.Spec.FsHistory
/-
A file that is read piece by piece while other tasks use the file system.
-/
namespace Verif.Spec
open Verif Verif.Vlfs

/-- `ReadRun crc k fs ks r ns as`: file `k` (which had no writer and was not spoiled by power loss while it was deleted) was opened for reading; since then it was read with sizes
`ns`, giving the answers `as`, and between the reads any calls were made by other tasks, as long as the file was neither
closed nor dropped from the directory. `fs`, `ks`, `r`: the file system, what is known about the files, the reader now. -/
inductive ReadRun (crc : Bytes → UInt32) (k : Known) : FS → List Known → FileReader → List Nat → List (Except Err (Bytes × ReadStatus)) → Prop
  /-- the file is opened -/
  | opened {fs fs' : FS} {ks : List Known} {r : FileReader} (hr : Hist crc fs ks) (hk : k ∈ ks) (hw : k.writer = none) (hd : k.damaged = false)
      (ho : fs.openForRead k.id = (.ok r, fs')) : ReadRun crc k fs' ks r [] []
  /-- another call -/
  | other {fs fs' : FS} {ks ks' : List Known} {r : FileReader} {ns : List Nat} {as : List (Except Err (Bytes × ReadStatus))}
      (h : ReadRun crc k fs ks r ns as) (hs : Step crc fs ks fs' ks') (hl : ∃ k' ∈ ks', k'.id = k.id) (ho : k.id ∈ fs'.at'.opened) :
      ReadRun crc k fs' ks' r ns as
  /-- a read of `n` bytes -/
  | read {fs : FS} {ks : List Known} {r r' : FileReader} {ns : List Nat} {as : List (Except Err (Bytes × ReadStatus))} (n : Nat)
      (a : Except Err (Bytes × ReadStatus)) (h : ReadRun crc k fs ks r ns as) (hr : r.readSlice crc fs.dev.flash n = (a, r')) :
      ReadRun crc k fs ks r' (ns ++ [n]) (as ++ [a])

end Verif.Spec
