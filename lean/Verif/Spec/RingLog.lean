import Verif.Model.RingLog
import Verif.Spec.LogFile
/-
A ring of sensor logs in use: the calls of the logger, new segments at any time, and anything else that is done with the file system in between, until power is lost or the ring is closed.
-/
namespace Verif.Spec
open Verif Verif.Vlfs Verif.Log

/-- what is known about the files of a type -/
def ofKind (typ : Nat) (ks : List Known) : List Known := ks.filter fun k => k.typ == typ

/-- One segment of the ring: its file, the readings accepted while it was the current one, the entries of the log that go with them (readings as reconstructed by the delta encoding, and
time-sync records), and those of them that were there at its last flush. -/
structure Segment (TS D : Type) where
  id : Nat
  inputs : List (TS × D)
  entries : List (Out TS D)
  safe : List (Out TS D)

/-- a new segment -/
def Segment.empty {TS D : Type} (id : Nat) : Segment TS D := ⟨id, [], [], []⟩

/-- readings and entries are added -/
def Segment.add {TS D : Type} (g : Segment TS D) (ins : List (TS × D)) (es : List (Out TS D)) : Segment TS D := { g with inputs := g.inputs ++ ins, entries := g.entries ++ es }

/-- everything is flushed -/
def Segment.flushed {TS D : Type} (g : Segment TS D) : Segment TS D := { g with safe := g.entries }

/-- what is known after the writer of file `id` was closed -/
def closed (id : Nat) (ks : List Known) : List Known := ks.map fun k => if k.id = id then { k with durable := k.data, writer := none, guarded := false } else k

/-- what is known after the `n` oldest files of the type were dropped and a new one was begun with the writer `w` -/
def rotated (typ n : Nat) (w : FileWriter) (ks : List Known) : List Known := ks.filter (fun k => !oldestKnown typ n ks k) ++ [⟨w.id, typ, [], [], [], some w, false, false⟩]

/-- `RingLogging crc c typ cap s ks segs`: a ring of at most `cap` segments, `2 ≤ cap`, was started on any reachable file system on which no file of its type is being written (there may be any number of
files of the type, of earlier rings). All its calls were successful so far. `segs`: the segments since the start, oldest first, the last one being the one `log` writes to. Others do
what they want with files of other types, and may open files of this type for reading. -/
inductive RingLogging {TS TD D DD : Type} (crc : Bytes → UInt32) (c : Cfg TS TD D DD) (typ cap : Nat) : RingLog.St TS D → List Known → List (Segment TS D) → Prop
  /-- `RingDeltaLoggerState::new` -/
  | start {fs fs' : FS} {ks : List Known} {s : RingLog.St TS D} {h : RingLog.Half TS D} (hr : Hist crc fs ks) (hw : ∀ k ∈ ofKind typ ks, k.writer = none) (h2 : 2 ≤ cap) (ht : typ < 0x4000)
      (hcap : ks.length < 2518) (hok : countersOk fs) (r1 r2 : Nat) (hn : RingLog.St.new c fs typ cap r1 r2 = (.ok s, fs')) (hc : s.cur = some h) :
      RingLogging crc c typ cap s (rotated typ ((ofKind typ ks).length + 1 - cap) h.w ks) [Segment.empty h.w.id]
  /-- `log` of a reading that is accepted -/
  | accept {s s' : RingLog.St TS D} {ks : List Known} {pre : List (Segment TS D)} {g : Segment TS D} {h h' : RingLog.Half TS D} (hr : RingLogging crc c typ cap s ks (pre ++ [g])) (hc : s.cur = some h)
      (rng1 rng2 : Nat → Nat × Nat) (t : TS) (v : D) (hl : s.log crc c rng1 rng2 t v = (.ok true, s')) (hc' : s'.cur = some h') :
      RingLogging crc c typ cap s' (wrote g.id ⟨h'.l, h'.w, s'.fs⟩ ks) (pre ++ [g.add [(t, v)] ((if h.l.lastUnix then [] else h.l.unixBuf.toList.map .unix) ++ h'.l.recon)])
  /-- `log` of a reading that comes too early -/
  | refuse {s s' : RingLog.St TS D} {ks : List Known} {segs : List (Segment TS D)} (hr : RingLogging crc c typ cap s ks segs)
      (rng1 rng2 : Nat → Nat × Nat) (t : TS) (v : D) (hl : s.log crc c rng1 rng2 t v = (.ok false, s')) : RingLogging crc c typ cap s' ks segs
  /-- `log_unix_time` -/
  | unix {s s' : RingLog.St TS D} {ks : List Known} {pre : List (Segment TS D)} {g : Segment TS D} {h h' : RingLog.Half TS D} (hr : RingLogging crc c typ cap s ks (pre ++ [g])) (hc : s.cur = some h)
      (rng : Nat → Nat × Nat) (u : Unix) (hl : s.logUnix crc rng u = (.ok (), s')) (hc' : s'.cur = some h') :
      RingLogging crc c typ cap s' (wrote g.id ⟨h'.l, h'.w, s'.fs⟩ ks) (pre ++ [g.add [] (if h.l.lastUnix then [] else [.unix u])])
  /-- `flush` -/
  | flush {s s' : RingLog.St TS D} {ks : List Known} {pre : List (Segment TS D)} {g : Segment TS D} {h' : RingLog.Half TS D} (hr : RingLogging crc c typ cap s ks (pre ++ [g]))
      (rng : Nat → Nat × Nat) (r1 r2 : Nat) (hl : s.flush crc rng r1 r2 = (.ok (), s')) (hc' : s'.cur = some h') :
      RingLogging crc c typ cap s' (flushed g.id ⟨h'.l, h'.w, s'.fs⟩ ks) (pre ++ [g.flushed])
  /-- the timer asks for a new segment (one at a time) -/
  | begin {s s' : RingLog.St TS D} {ks : List Known} {segs : List (Segment TS D)} {w : FileWriter} (hr : RingLogging crc c typ cap s ks segs) (h1 : s.next = none) (h2 : s.old = none) (hc : s.cur.isSome = true)
      (hcap : ks.length < 2518) (hok : countersOk s.fs) (r1 r2 : Nat) (hb : s.beginSegment r1 r2 = (.ok (), s')) (hn : s'.next = some w) :
      RingLogging crc c typ cap s' (rotated typ s.plan.1 w ks) segs
  /-- … the logger is replaced -/
  | swap {s s' : RingLog.St TS D} {ks : List Known} {segs : List (Segment TS D)} {w : FileWriter} (hr : RingLogging crc c typ cap s ks segs) (hn : s.next = some w) (hs : s.swap c = (.ok (), s')) :
      RingLogging crc c typ cap s' ks (segs ++ [Segment.empty w.id])
  /-- … the old one is flushed -/
  | flushOld {s s' : RingLog.St TS D} {ks : List Known} {pre : List (Segment TS D)} {o g : Segment TS D} {h' : RingLog.Half TS D} (hr : RingLogging crc c typ cap s ks (pre ++ [o, g]))
      (rng : Nat → Nat × Nat) (r1 r2 : Nat) (hl : s.flushOld crc rng r1 r2 = (.ok (), s')) (hc' : s'.old = some h') :
      RingLogging crc c typ cap s' (flushed o.id ⟨h'.l, h'.w, s'.fs⟩ ks) (pre ++ [o.flushed, g])
  /-- … and then closed -/
  | closeOld {s s' : RingLog.St TS D} {ks : List Known} {pre : List (Segment TS D)} {o g : Segment TS D} (hr : RingLogging crc c typ cap s ks (pre ++ [o, g])) (hf : o.safe = o.entries)
      (hl : s.closeOld crc = (.ok (), s')) : RingLogging crc c typ cap s' (closed o.id ks) (pre ++ [o, g])
  /-- the ring is closed -/
  | close {s s' : RingLog.St TS D} {ks : List Known} {pre : List (Segment TS D)} {g : Segment TS D} {h : RingLog.Half TS D} (hr : RingLogging crc c typ cap s ks (pre ++ [g])) (h1 : s.next = none)
      (h2 : s.old = none) (hc : s.cur = some h) (rng : Nat → Nat × Nat) (r1 r2 : Nat) (hl : s.close crc rng r1 r2 = (.ok (), s')) :
      RingLogging crc c typ cap s' (closed g.id (flushed g.id (LogFile.St.flush crc rng r1 r2 ⟨h.l, h.w, s.fs⟩).2 ks)) (pre ++ [g.flushed])
  /-- anything else -/
  | other {s : RingLog.St TS D} {fs' : FS} {ks ks' : List Known} {segs : List (Segment TS D)} (hr : RingLogging crc c typ cap s ks segs)
      (hs : Step crc s.fs ks fs' ks') (hkeep : ofKind typ ks' = ofKind typ ks) : RingLogging crc c typ cap { s with fs := fs' } ks' segs

/-- `RingCut crc c s ks fl' extra`: power is lost, between two calls or during any call except the directory update of a new segment that drops an old one, and leaves the chip in the state `fl'`
(the states a call can leave are those of `CutOff`). `extra`: the entries that a `log` or `log_unix_time` in progress was adding. -/
inductive RingCut {TS TD D DD : Type} (crc : Bytes → UInt32) (c : Cfg TS TD D DD) (typ : Nat) (s : RingLog.St TS D) (ks : List Known) : Flash → List (Out TS D) → Prop
  | idle : RingCut crc c typ s ks s.fs.dev.flash []
  | log (h : RingLog.Half TS D) (hc : s.cur = some h) (rng1 rng2 : Nat → Nat × Nat) (t : TS) (v : D) (b : Bool) (l' : Logger TS D) (ops : List FlashOp) (fl' : Flash) (hl : h.l.log c t v = some (b, l'))
      (hi : issued s.fs (s.log crc c rng1 rng2 t v).2.fs ops) (hcr : CrashImage s.fs.dev.flash ops fl') :
      RingCut crc c typ s ks fl' (if b then (if h.l.lastUnix then [] else h.l.unixBuf.toList.map .unix) ++ l'.recon else [])
  | unix (h : RingLog.Half TS D) (hc : s.cur = some h) (rng : Nat → Nat × Nat) (u : Unix) (ops : List FlashOp) (fl' : Flash)
      (hi : issued s.fs (s.logUnix crc rng u).2.fs ops) (hcr : CrashImage s.fs.dev.flash ops fl') : RingCut crc c typ s ks fl' (if h.l.lastUnix then [] else [.unix u])
  | flush (rng : Nat → Nat × Nat) (r1 r2 : Nat) (ops : List FlashOp) (fl' : Flash)
      (hi : issued s.fs (s.flush crc rng r1 r2).2.fs ops) (hcr : CrashImage s.fs.dev.flash ops fl') : RingCut crc c typ s ks fl' []
  | flushOld (rng : Nat → Nat × Nat) (r1 r2 : Nat) (ops : List FlashOp) (fl' : Flash)
      (hi : issued s.fs (s.flushOld crc rng r1 r2).2.fs ops) (hcr : CrashImage s.fs.dev.flash ops fl') : RingCut crc c typ s ks fl' []
  | closeOld (ops : List FlashOp) (fl' : Flash) (hi : issued s.fs (s.closeOld crc).2.fs ops) (hcr : CrashImage s.fs.dev.flash ops fl') : RingCut crc c typ s ks fl' []
  | close (rng : Nat → Nat × Nat) (r1 r2 : Nat) (ops : List FlashOp) (fl' : Flash) (hi : issued s.fs (s.close crc rng r1 r2).2.fs ops) (hcr : CrashImage s.fs.dev.flash ops fl') :
      RingCut crc c typ s ks fl' []
  /-- while a segment is begun that does not replace another one -/
  | begin (r1 r2 : Nat) (s' : RingLog.St TS D) (ops : List FlashOp) (fl' : Flash) (hroom : s.segments < s.cap) (hcap : ks.length < 2517) (hok : countersOk s.fs)
      (hb : s.beginSegment r1 r2 = (.ok (), s')) (hi : issued s.fs s'.fs ops) (hp : CrashImage s.fs.dev.flash ops fl') : RingCut crc c typ s ks fl' []
  /-- during a call of the writer of a file of another type -/
  | otherWrite (ks' : List Known) (fl' : Flash) (hl : LossDuringWrite crc s.fs ks fl' ks') (hkeep : ofKind typ ks' = (ofKind typ ks).map Known.afterLoss) : RingCut crc c typ s ks fl' []
  /-- during the creation or removal of files of other types -/
  | otherDir (fs' : FS) (ks' : List Known) (ops : List FlashOp) (fl' : Flash) (hs : DirStep s.fs ks fs' ks') (hkeep : ofKind typ ks' = ofKind typ ks) (hi : issued s.fs fs' ops)
      (hl : ks'.length ≤ 2517) (hp : CrashImage s.fs.dev.flash ops fl') : RingCut crc c typ s ks fl' []
  /-- while a file of another type is created and opened, or an empty one is opened for writing -/
  | otherOpen (fs' : FS) (ks' : List Known) (ops : List FlashOp) (fl' : Flash) (hs : AllocStep s.fs ks fs' ks') (hkeep : ofKind typ ks' = ofKind typ ks) (hi : issued s.fs fs' ops)
      (hl : ks'.length ≤ 2517) (hp : CrashImage s.fs.dev.flash ops fl') : RingCut crc c typ s ks fl' []

/-- the segments if the newest one also has the entries `extra` -/
def during {TS D : Type} (extra : List (Out TS D)) : List (Segment TS D) → List (Segment TS D)
  | [] => []
  | [g] => [g.add [] extra]
  | g :: gs => g :: during extra gs

/-- reading the log in a file with the given content, in pieces of any sizes: it never panics, gives a prefix of `may`, and before it reports the end of the log it gives at least `must` -/
def LogReads {TS TD D DD : Type} (c : Cfg TS TD D DD) (content : Bytes) (must may : List (Out TS D)) : Prop :=
  ∀ (sched : Nat → Nat) (r : LogReader TS D) (outs : List (Out TS D)), ReadRun c sched content r outs → outs <+: may ∧ ∃ x, r.read c sched = some x ∧ (x.1 = none → must <+: outs)

/-- The directory lists at most `cap` files of the type: first files of earlier rings, then the segments `kept`, which are the newest ones of `segs`, then `pending` (a file for a segment that is being
begun). A segment is only missing if the ring is full and there is no file of an earlier ring any more. There is always a segment left. -/
def RingHolds {TS D : Type} (fs : FS) (typ cap : Nat) (segs kept : List (Segment TS D)) (pending : List Nat) : Prop :=
  ∃ (files : List FileEntry) (earlier : List Nat) (gone : List (Segment TS D)), fs.filesIter (fun e => e.typ == typ) = .ok files ∧
    files.map (·.id) = earlier ++ kept.map (·.id) ++ pending ∧ files.length ≤ cap ∧ segs = gone ++ kept ∧ (gone ≠ [] → earlier = [] ∧ files.length = cap) ∧ kept ≠ []

/-- successive `read` calls of a ring reader on files with the given contents, oldest first -/
inductive RingReads {TS TD D DD : Type} (c : Cfg TS TD D DD) (sched : Nat → Nat) (contents : List Bytes) : RingLog.Reader TS D → List (Out TS D) → Prop
  | new : RingReads c sched contents (RingLog.Reader.new c contents) []
  | next {r r' : RingLog.Reader TS D} {outs : List (Out TS D)} {o : Out TS D} (hr : RingReads c sched contents r outs) (h : r.read c sched = some (some o, r')) :
      RingReads c sched contents r' (outs ++ [o])

end Verif.Spec
