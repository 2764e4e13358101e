import Verif.Model.LogFile
import Verif.Spec.LogHistory
import Verif.Spec.FsHistory
/-
A recording: a sensor log that is written into a file, next to any other use of the file system, until power is lost.
-/
namespace Verif.Spec
open Verif Verif.Vlfs Verif.Log Verif.LogFile

/-- what is known about the files after the logger of file `id` has written: the content of the file is everything handed over so far -/
def wrote {TS D : Type} (id : Nat) (s : St TS D) (ks : List Known) : List Known :=
  ks.map fun k => if k.id = id then { k with data := s.l.sink, writer := some s.w } else k

/-- … and after it has also flushed -/
def flushed {TS D : Type} (id : Nat) (s : St TS D) (ks : List Known) : List Known :=
  ks.map fun k => if k.id = id then { k with data := s.l.sink, durable := s.l.sink, writer := some s.w } else k

/-- `Recording crc c id s ks inputs acc safe`: a log that was started on the fresh file `id`, with every call successful so far.
`inputs`: the readings accepted; `acc`: the entries of the log (readings as reconstructed by the delta encoding, and time-sync records); `safe`: the
entries at the last `flush`. `ks` is what is known about all files (Spec/FsHistory.lean). -/
inductive Recording {TS TD D DD : Type} (crc : Bytes → UInt32) (c : Cfg TS TD D DD) (id : Nat) :
    St TS D → List Known → List (TS × D) → List (Out TS D) → List (Out TS D) → Prop
  /-- `DeltaLogger::new` on the writer of an empty file -/
  | start {s : St TS D} {ks : List Known} {k : Known} (hr : Hist crc s.fs ks) (hk : k ∈ ks) (hid : k.id = id) (hw : k.writer = some s.w) (hd : k.data = [])
      (hm : k.maybe = []) (hl : s.l = Logger.new c) : Recording crc c id s ks [] [] []
  /-- `log` of a reading that is accepted -/
  | accept {s s' : St TS D} {ks : List Known} {inputs : List (TS × D)} {acc safe : List (Out TS D)} (hr : Recording crc c id s ks inputs acc safe)
      (rng1 rng2 : Nat → Nat × Nat) (t : TS) (v : D) (h : s.log crc c rng1 rng2 t v = (.ok true, s')) :
      Recording crc c id s' (wrote id s' ks) (inputs ++ [(t, v)]) (acc ++ (if s.l.lastUnix then [] else s.l.unixBuf.toList.map .unix) ++ s'.l.recon) safe
  /-- `log` of a reading that comes too early -/
  | refuse {s s' : St TS D} {ks : List Known} {inputs : List (TS × D)} {acc safe : List (Out TS D)} (hr : Recording crc c id s ks inputs acc safe)
      (rng1 rng2 : Nat → Nat × Nat) (t : TS) (v : D) (h : s.log crc c rng1 rng2 t v = (.ok false, s')) : Recording crc c id s' ks inputs acc safe
  /-- `log_unix_time` -/
  | unix {s s' : St TS D} {ks : List Known} {inputs : List (TS × D)} {acc safe : List (Out TS D)} (hr : Recording crc c id s ks inputs acc safe)
      (rng : Nat → Nat × Nat) (u : Unix) (h : s.logUnix crc rng u = (.ok (), s')) :
      Recording crc c id s' (wrote id s' ks) inputs (acc ++ (if s.l.lastUnix then [] else [.unix u])) safe
  /-- `flush` -/
  | flush {s s' : St TS D} {ks : List Known} {inputs : List (TS × D)} {acc safe : List (Out TS D)} (hr : Recording crc c id s ks inputs acc safe)
      (rng : Nat → Nat × Nat) (r1 r2 : Nat) (h : s.flush crc rng r1 r2 = (.ok (), s')) : Recording crc c id s' (flushed id s' ks) inputs acc acc
  /-- any call of anybody else, that is not made with the writer of the log -/
  | other {s : St TS D} {fs' : FS} {ks ks' : List Known} {inputs : List (TS × D)} {acc safe : List (Out TS D)} (hr : Recording crc c id s ks inputs acc safe)
      (hs : Step crc s.fs ks fs' ks') (hkeep : ∀ k ∈ ks, k.id = id → k ∈ ks') : Recording crc c id { s with fs := fs' } ks' inputs acc safe

/-- `CutOff crc c id s ks fl' extra`: power is lost, at a point of the recording `s` or during the next call of the logger or of somebody else, and leaves the
chip in the state `fl'`. `extra`: the entries that the call in progress was adding. The states a call can leave are those of `CrashImage` (any prefix of
its flash operations, the last one torn in any way). -/
inductive CutOff {TS TD D DD : Type} (crc : Bytes → UInt32) (c : Cfg TS TD D DD) (id : Nat) (s : St TS D) (ks : List Known) : Flash → List (Out TS D) → Prop
  /-- between two calls -/
  | idle : CutOff crc c id s ks s.fs.dev.flash []
  /-- during `log` -/
  | log (rng1 rng2 : Nat → Nat × Nat) (t : TS) (v : D) (b : Bool) (l' : Logger TS D) (ops : List FlashOp) (fl' : Flash) (hl : s.l.log c t v = some (b, l'))
      (hi : issued s.fs (s.log crc c rng1 rng2 t v).2.fs ops) (hcr : CrashImage s.fs.dev.flash ops fl') :
      CutOff crc c id s ks fl' (if b then (if s.l.lastUnix then [] else s.l.unixBuf.toList.map .unix) ++ l'.recon else [])
  /-- during `log_unix_time` -/
  | unix (rng : Nat → Nat × Nat) (u : Unix) (ops : List FlashOp) (fl' : Flash)
      (hi : issued s.fs (s.logUnix crc rng u).2.fs ops) (hcr : CrashImage s.fs.dev.flash ops fl') :
      CutOff crc c id s ks fl' (if s.l.lastUnix then [] else [.unix u])
  /-- during `flush` -/
  | flush (rng : Nat → Nat × Nat) (r1 r2 : Nat) (ops : List FlashOp) (fl' : Flash)
      (hi : issued s.fs (s.flush crc rng r1 r2).2.fs ops) (hcr : CrashImage s.fs.dev.flash ops fl') : CutOff crc c id s ks fl' []
  /-- during a call of the writer of another file -/
  | otherWrite (ks' : List Known) (fl' : Flash) (hl : LossDuringWrite crc s.fs ks fl' ks') (hkeep : ∀ k ∈ ks, k.id = id → k.afterLoss ∈ ks') : CutOff crc c id s ks fl' []
  /-- during the creation or removal of other files -/
  | otherDir (fs' : FS) (ks' : List Known) (ops : List FlashOp) (fl' : Flash) (hs : DirStep s.fs ks fs' ks') (hkeep : ∀ k ∈ ks, k.id = id → k ∈ ks') (hi : issued s.fs fs' ops)
      (hl : ks'.length ≤ 2517) (hp : CrashImage s.fs.dev.flash ops fl') : CutOff crc c id s ks fl' []
  /-- while another file is created and opened, or an empty one is opened for writing -/
  | otherOpen (fs' : FS) (ks' : List Known) (ops : List FlashOp) (fl' : Flash) (hs : AllocStep s.fs ks fs' ks') (hkeep : ∀ k ∈ ks, k.id = id → k ∈ ks') (hi : issued s.fs fs' ops)
      (hl : ks'.length ≤ 2517) (hp : CrashImage s.fs.dev.flash ops fl') : CutOff crc c id s ks fl' []

end Verif.Spec
