import Verif.Spec.LogFile
/-
A sensor log on a chip that has become full: which calls follow the first one that failed.
-/
namespace Verif.Spec
open Verif Verif.Vlfs Verif.Bit Verif.Log Verif.LogFile

/-- the number of bits of the shortest entry a call of `log` adds to the bit buffer: a full reading, a reading with a full value, a reading with a delta, or a
time-sync record that was kept back -/
def leastEntry {TS TD D DD : Type} (c : Cfg TS TD D DD) : Nat :=
  min (min (3 + c.ts.len + c.d.len) (2 + c.td.len + c.d.len)) (min (2 + c.td.len + c.dd.len) (2 + 128))

/-- a codec keeps the size of the slice it writes into and panics when the slice is too short -/
def Strict {α : Type} (p : Prim α) : Prop := ∀ v s s', p.write v s = some s' → p.len ≤ s.length ∧ s'.length = s.length

/-- … all codecs of the log -/
structure StrictCfg {TS TD D DD : Type} (c : Cfg TS TD D DD) : Prop where
  ts : Strict c.ts
  td : Strict c.td
  d : Strict c.d
  dd : Strict c.dd

/-- `Tries crc c id s ks n s' ks'`: calls made one after the other from `s` on, none of which panics, and whose other errors are ignored (as `try_or_warn!` does,
firmware-common/src/common/delta_logger/buffered_logger.rs:141): `n` calls of `log` with a reading that does not come too early, any number of calls of
`log` with readings that do, of `log_unix_time` and of `flush`, and any calls of anybody else, as long as the chip stays full. -/
inductive Tries {TS TD D DD : Type} (crc : Bytes → UInt32) (c : Cfg TS TD D DD) (id : Nat) (s : St TS D) (ks : List Known) : Nat → St TS D → List Known → Prop
  | nil : Tries crc c id s ks 0 s ks
  | log {n : Nat} {s1 s2 : St TS D} {ks1 : List Known} {r : Except Err Bool} (rng1 rng2 : Nat → Nat × Nat) (t : TS) (v : D) (h : Tries crc c id s ks n s1 ks1)
      (hl : s1.log crc c rng1 rng2 t v = (r, s2)) (hp : r ≠ .error .panic) (hr : r ≠ .ok false) : Tries crc c id s ks (n + 1) s2 ks1
  | early {n : Nat} {s1 s2 : St TS D} {ks1 : List Known} (rng1 rng2 : Nat → Nat × Nat) (t : TS) (v : D) (h : Tries crc c id s ks n s1 ks1)
      (hl : s1.log crc c rng1 rng2 t v = (.ok false, s2)) : Tries crc c id s ks n s2 ks1
  | unix {n : Nat} {s1 s2 : St TS D} {ks1 : List Known} {r : Except Err Unit} (rng : Nat → Nat × Nat) (u : Unix) (h : Tries crc c id s ks n s1 ks1)
      (hl : s1.logUnix crc rng u = (r, s2)) (hp : r ≠ .error .panic) : Tries crc c id s ks n s2 ks1
  | flush {n : Nat} {s1 s2 : St TS D} {ks1 : List Known} {r : Except Err Unit} (rng : Nat → Nat × Nat) (r1 r2 : Nat) (h : Tries crc c id s ks n s1 ks1)
      (hl : s1.flush crc rng r1 r2 = (r, s2)) (hp : r ≠ .error .panic) : Tries crc c id s ks n s2 ks1
  | other {n : Nat} {s1 : St TS D} {ks1 ks2 : List Known} {fs' : FS} (h : Tries crc c id s ks n s1 ks1) (hs : Step crc s1.fs ks1 fs' ks2)
      (hkeep : ∀ k ∈ ks1, k.id = id → k ∈ ks2) (hfull : fs'.mng.freeBytes = 0) : Tries crc c id s ks n { s1 with fs := fs' } ks2

/-- the state after the first `n` readings of a stream were handed to `log` one after the other, errors being ignored; `rng`: the random values for each call -/
def feed {TS TD D DD : Type} (crc : Bytes → UInt32) (c : Cfg TS TD D DD) (rng : Nat → (Nat → Nat × Nat) × (Nat → Nat × Nat)) (rd : Nat → TS × D) (s : St TS D) : Nat → St TS D
  | 0 => s
  | n + 1 => ((feed crc c rng rd s n).log crc c (rng n).1 (rng n).2 (rd n).1 (rd n).2).2

/-- the answer to the `n`-th reading of the stream -/
def answer {TS TD D DD : Type} (crc : Bytes → UInt32) (c : Cfg TS TD D DD) (rng : Nat → (Nat → Nat × Nat) × (Nat → Nat × Nat)) (rd : Nat → TS × D) (s : St TS D) (n : Nat) :
    Except Err Bool :=
  ((feed crc c rng rd s n).log crc c (rng n).1 (rng n).2 (rd n).1 (rd n).2).1

end Verif.Spec
