import Verif.Model.Tiered
import Verif.Spec.RingLog
/-
Two rings of sensor logs, fed with the same readings.
-/
namespace Verif.Spec
open Verif Verif.Vlfs Verif.Log

/-- One call on a ring, or one step in replacing its current segment or in closing it, with the conditions of `RingLogging`. -/
inductive RingStep {TS TD D DD : Type} (crc : Bytes → UInt32) (c : Cfg TS TD D DD) (typ : Nat) :
    RingLog.St TS D → List Known → List (Segment TS D) → RingLog.St TS D → List Known → List (Segment TS D) → Prop
  | accept {s s' : RingLog.St TS D} {ks : List Known} {pre : List (Segment TS D)} {g : Segment TS D} {h h' : RingLog.Half TS D} (hc : s.cur = some h)
      (rng1 rng2 : Nat → Nat × Nat) (t : TS) (v : D) (hl : s.log crc c rng1 rng2 t v = (.ok true, s')) (hc' : s'.cur = some h') :
      RingStep crc c typ s ks (pre ++ [g]) s' (wrote g.id ⟨h'.l, h'.w, s'.fs⟩ ks) (pre ++ [g.add [(t, v)] ((if h.l.lastUnix then [] else h.l.unixBuf.toList.map .unix) ++ h'.l.recon)])
  | refuse {s s' : RingLog.St TS D} {ks : List Known} {segs : List (Segment TS D)}
      (rng1 rng2 : Nat → Nat × Nat) (t : TS) (v : D) (hl : s.log crc c rng1 rng2 t v = (.ok false, s')) : RingStep crc c typ s ks segs s' ks segs
  | unix {s s' : RingLog.St TS D} {ks : List Known} {pre : List (Segment TS D)} {g : Segment TS D} {h h' : RingLog.Half TS D} (hc : s.cur = some h)
      (rng : Nat → Nat × Nat) (u : Unix) (hl : s.logUnix crc rng u = (.ok (), s')) (hc' : s'.cur = some h') :
      RingStep crc c typ s ks (pre ++ [g]) s' (wrote g.id ⟨h'.l, h'.w, s'.fs⟩ ks) (pre ++ [g.add [] (if h.l.lastUnix then [] else [.unix u])])
  | flush {s s' : RingLog.St TS D} {ks : List Known} {pre : List (Segment TS D)} {g : Segment TS D} {h' : RingLog.Half TS D}
      (rng : Nat → Nat × Nat) (r1 r2 : Nat) (hl : s.flush crc rng r1 r2 = (.ok (), s')) (hc' : s'.cur = some h') :
      RingStep crc c typ s ks (pre ++ [g]) s' (flushed g.id ⟨h'.l, h'.w, s'.fs⟩ ks) (pre ++ [g.flushed])
  | begin {s s' : RingLog.St TS D} {ks : List Known} {segs : List (Segment TS D)} {w : FileWriter} (h1 : s.next = none) (h2 : s.old = none) (hc : s.cur.isSome = true)
      (hcap : ks.length < 2518) (hok : countersOk s.fs) (r1 r2 : Nat) (hb : s.beginSegment r1 r2 = (.ok (), s')) (hn : s'.next = some w) :
      RingStep crc c typ s ks segs s' (rotated typ s.plan.1 w ks) segs
  | swap {s s' : RingLog.St TS D} {ks : List Known} {segs : List (Segment TS D)} {w : FileWriter} (hn : s.next = some w) (hs : s.swap c = (.ok (), s')) :
      RingStep crc c typ s ks segs s' ks (segs ++ [Segment.empty w.id])
  | flushOld {s s' : RingLog.St TS D} {ks : List Known} {pre : List (Segment TS D)} {o g : Segment TS D} {h' : RingLog.Half TS D}
      (rng : Nat → Nat × Nat) (r1 r2 : Nat) (hl : s.flushOld crc rng r1 r2 = (.ok (), s')) (hc' : s'.old = some h') :
      RingStep crc c typ s ks (pre ++ [o, g]) s' (flushed o.id ⟨h'.l, h'.w, s'.fs⟩ ks) (pre ++ [o.flushed, g])
  | closeOld {s s' : RingLog.St TS D} {ks : List Known} {pre : List (Segment TS D)} {o g : Segment TS D} (hf : o.safe = o.entries)
      (hl : s.closeOld crc = (.ok (), s')) : RingStep crc c typ s ks (pre ++ [o, g]) s' (closed o.id ks) (pre ++ [o, g])
  | close {s s' : RingLog.St TS D} {ks : List Known} {pre : List (Segment TS D)} {g : Segment TS D} {h : RingLog.Half TS D} (h1 : s.next = none)
      (h2 : s.old = none) (hc : s.cur = some h) (rng : Nat → Nat × Nat) (r1 r2 : Nat) (hl : s.close crc rng r1 r2 = (.ok (), s')) :
      RingStep crc c typ s ks (pre ++ [g]) s' (closed g.id (flushed g.id (LogFile.St.flush crc rng r1 r2 ⟨h.l, h.w, s.fs⟩).2 ks)) (pre ++ [g.flushed])

/-- a reading was handed to a ring whose current logger was `h` and is now `h'`: it is in the newest segment if it did not come too early -/
def tookReading {TS D : Type} (early : Bool) (h h' : RingLog.Half TS D) (t : TS) (v : D) (g : Segment TS D) : Segment TS D :=
  if early then g else g.add [(t, v)] ((if h.l.lastUnix then [] else h.l.unixBuf.toList.map .unix) ++ h'.l.recon)

/-- … and what is known about the files -/
def tookFiles {TS D : Type} (early : Bool) (id : Nat) (h' : RingLog.Half TS D) (fs : FS) (ks : List Known) : List Known :=
  if early then ks else wrote id ⟨h'.l, h'.w, fs⟩ ks

/-- `TieredLogging crc c1 c2 typ1 typ2 cap1 cap2 s ks segs1 segs2`: two rings, of different types, were started one after the other on any reachable file system on which no file of these types is being written.
All calls were successful so far. `segs1`, `segs2`: the segments of the two rings since the start. The calls on the two rings may come in any order (a call of the merged logger is one on each, see
C90_log), and each ring begins a new segment when it likes. Others do what they want with files of other types, and
may open files of these types for reading. -/
inductive TieredLogging {TS TD1 TD2 D DD1 DD2 : Type} (crc : Bytes → UInt32) (c1 : Cfg TS TD1 D DD1) (c2 : Cfg TS TD2 D DD2) (typ1 typ2 cap1 cap2 : Nat) :
    Tiered.St TS D → List Known → List (Segment TS D) → List (Segment TS D) → Prop
  | start {fs fs' : FS} {ks : List Known} {s : Tiered.St TS D} {h1 h2 : RingLog.Half TS D} (hr : Hist crc fs ks) (hw : ∀ k ∈ ks, k.typ = typ1 ∨ k.typ = typ2 → k.writer = none) (hne : typ1 ≠ typ2)
      (hc1 : 2 ≤ cap1) (hc2 : 2 ≤ cap2) (ht1 : typ1 < 0x4000) (ht2 : typ2 < 0x4000) (hcap : ks.length < 2517) (hok : countersOk fs) (r1 r2 r3 r4 : Nat)
      (hn : Tiered.St.new c1 c2 fs typ1 cap1 typ2 cap2 r1 r2 r3 r4 = (.ok s, fs')) (hok2 : countersOk (RingLog.St.new c1 fs typ1 cap1 r1 r2).2) (ha : s.a.cur = some h1) (hb : s.b.cur = some h2) :
      TieredLogging crc c1 c2 typ1 typ2 cap1 cap2 s
        (rotated typ2 ((ofKind typ2 ks).length + 1 - cap2) h2.w (rotated typ1 ((ofKind typ1 ks).length + 1 - cap1) h1.w ks)) [Segment.empty h1.w.id] [Segment.empty h2.w.id]
  /-- a step of the first ring -/
  | first {s : Tiered.St TS D} {a' : RingLog.St TS D} {ks ks' : List Known} {segs1 segs2 segs1' : List (Segment TS D)} (hr : TieredLogging crc c1 c2 typ1 typ2 cap1 cap2 s ks segs1 segs2)
      (hs : RingStep crc c1 typ1 s.a ks segs1 a' ks' segs1') : TieredLogging crc c1 c2 typ1 typ2 cap1 cap2 (s.withA a') ks' segs1' segs2
  /-- a step of the second ring -/
  | second {s : Tiered.St TS D} {b' : RingLog.St TS D} {ks ks' : List Known} {segs1 segs2 segs2' : List (Segment TS D)} (hr : TieredLogging crc c1 c2 typ1 typ2 cap1 cap2 s ks segs1 segs2)
      (hs : RingStep crc c2 typ2 s.b ks segs2 b' ks' segs2') : TieredLogging crc c1 c2 typ1 typ2 cap1 cap2 (s.withB b') ks' segs1 segs2'
  /-- anything else -/
  | other {s : Tiered.St TS D} {fs' : FS} {ks ks' : List Known} {segs1 segs2 : List (Segment TS D)} (hr : TieredLogging crc c1 c2 typ1 typ2 cap1 cap2 s ks segs1 segs2)
      (hs : Step crc s.a.fs ks fs' ks') (h1 : ofKind typ1 ks' = ofKind typ1 ks) (h2 : ofKind typ2 ks' = ofKind typ2 ks) :
      TieredLogging crc c1 c2 typ1 typ2 cap1 cap2 ⟨{ s.a with fs := fs' }, { s.b with fs := fs' }⟩ ks' segs1 segs2

/-- Power is lost during a call on a ring, or a step in replacing its segment, which leaves the chip in the state `fl'`. The cases of `RingCut` without those about others. -/
inductive CallCut {TS TD D DD : Type} (crc : Bytes → UInt32) (c : Cfg TS TD D DD) (typ : Nat) (s : RingLog.St TS D) (ks : List Known) : Flash → List (Out TS D) → Prop
  | log (h : RingLog.Half TS D) (hc : s.cur = some h) (rng1 rng2 : Nat → Nat × Nat) (t : TS) (v : D) (b : Bool) (l' : Logger TS D) (ops : List FlashOp) (fl' : Flash) (hl : h.l.log c t v = some (b, l'))
      (hi : issued s.fs (s.log crc c rng1 rng2 t v).2.fs ops) (hcr : CrashImage s.fs.dev.flash ops fl') :
      CallCut crc c typ s ks fl' (if b then (if h.l.lastUnix then [] else h.l.unixBuf.toList.map .unix) ++ l'.recon else [])
  | unix (h : RingLog.Half TS D) (hc : s.cur = some h) (rng : Nat → Nat × Nat) (u : Unix) (ops : List FlashOp) (fl' : Flash)
      (hi : issued s.fs (s.logUnix crc rng u).2.fs ops) (hcr : CrashImage s.fs.dev.flash ops fl') : CallCut crc c typ s ks fl' (if h.l.lastUnix then [] else [.unix u])
  | flush (rng : Nat → Nat × Nat) (r1 r2 : Nat) (ops : List FlashOp) (fl' : Flash)
      (hi : issued s.fs (s.flush crc rng r1 r2).2.fs ops) (hcr : CrashImage s.fs.dev.flash ops fl') : CallCut crc c typ s ks fl' []
  | flushOld (rng : Nat → Nat × Nat) (r1 r2 : Nat) (ops : List FlashOp) (fl' : Flash)
      (hi : issued s.fs (s.flushOld crc rng r1 r2).2.fs ops) (hcr : CrashImage s.fs.dev.flash ops fl') : CallCut crc c typ s ks fl' []
  | closeOld (ops : List FlashOp) (fl' : Flash) (hi : issued s.fs (s.closeOld crc).2.fs ops) (hcr : CrashImage s.fs.dev.flash ops fl') : CallCut crc c typ s ks fl' []
  | close (rng : Nat → Nat × Nat) (r1 r2 : Nat) (ops : List FlashOp) (fl' : Flash) (hi : issued s.fs (s.close crc rng r1 r2).2.fs ops) (hcr : CrashImage s.fs.dev.flash ops fl') :
      CallCut crc c typ s ks fl' []
  /-- while a segment is begun that does not replace another one -/
  | begin (r1 r2 : Nat) (s' : RingLog.St TS D) (ops : List FlashOp) (fl' : Flash) (hroom : s.segments < s.cap) (hcap : ks.length < 2517) (hok : countersOk s.fs)
      (hb : s.beginSegment r1 r2 = (.ok (), s')) (hi : issued s.fs s'.fs ops) (hp : CrashImage s.fs.dev.flash ops fl') : CallCut crc c typ s ks fl' []

/-- Power is lost between two calls, during a call on one of the rings, or during a call of somebody else (as in `RingCut`). `extra1`, `extra2`: the entries that a call in progress was adding to the rings. -/
inductive TieredCut {TS TD1 TD2 D DD1 DD2 : Type} (crc : Bytes → UInt32) (c1 : Cfg TS TD1 D DD1) (c2 : Cfg TS TD2 D DD2) (typ1 typ2 : Nat) (s : Tiered.St TS D) (ks : List Known) :
    Flash → List (Out TS D) → List (Out TS D) → Prop
  | idle : TieredCut crc c1 c2 typ1 typ2 s ks s.a.fs.dev.flash [] []
  | first {fl' : Flash} {extra : List (Out TS D)} (h : CallCut crc c1 typ1 s.a ks fl' extra) : TieredCut crc c1 c2 typ1 typ2 s ks fl' extra []
  | second {fl' : Flash} {extra : List (Out TS D)} (h : CallCut crc c2 typ2 s.b ks fl' extra) : TieredCut crc c1 c2 typ1 typ2 s ks fl' [] extra
  | other {fl' : Flash} (h1 : RingCut crc c1 typ1 s.a ks fl' []) (h2 : RingCut crc c2 typ2 s.b ks fl' []) : TieredCut crc c1 c2 typ1 typ2 s ks fl' [] []

end Verif.Spec
