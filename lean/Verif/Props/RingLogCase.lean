import Verif.Props.RingLog
import Verif.Lemmas.WitnessFull
/-
C88: a concrete run of a ring of sensor logs that meets the hypotheses of the theorems.
-/
namespace Verif.Props
open Verif Verif.Vlfs Verif.Spec Verif.Bit Verif.Delta Verif.Log Verif.RingLog

/-- a new file -/
theorem open_new {crc : Bytes → UInt32} {fs : FS} {files : List FileSt} {leak : List Nat} (hs : Sys crc fs files leak) {typ : Nat} (ht : typ < 0x4000) (hl : files.length < 2518)
    (hfree : 0 < fs.mng.freeBytes) (hok : countersOk fs) :
    ∃ x fs', fs.rotate typ 0 0 0 = (.ok ⟨fs.at'.maxId + 1, typ, some x⟩, fs') ∧
      Sys crc fs' (files ++ [⟨⟨fs.at'.maxId + 1, typ, [], [], [], some (FileWriter.new x (fs.at'.maxId + 1)), false, false⟩, ⟨fs.at'.maxId + 1, typ, some x⟩, [], []⟩]) leak ∧
      fs'.at'.seq = fs.at'.seq + 1 ∧ fs'.at'.maxId = fs.at'.maxId + 1 ∧ fs'.at'.opened = fs.at'.opened := by
  rw [rotate_zero]
  obtain ⟨e, fs', h⟩ := createFileAndOpen_ok hs hl hfree typ 0 0
  obtain ⟨x, rfl, h2, _⟩ := sys_createOpen_at hs h (by simpa using hl) ht hok
  have hr := hs.reach
  rcases createFileAndOpen_spec hr.dir hr.range typ 0 0 (by simpa using hl) with ⟨s', g, _, g1, g2, _⟩ | ⟨er, g, g1⟩
  · rw [h] at g1
    injection g1 with _ g1
    subst g1
    exact ⟨x, fs', h, h2, g2.seq, g2.maxId, g2.opened⟩
  · rw [h] at g1; injection g1 with g1 _; exact absurd g1 (by simp)

variable {TS TD D DD : Type}

/-- a reading is logged -/
theorem log_fits {crc : Bytes → UInt32} {c : Cfg TS TD D DD} {as bs : List FileSt} {leak : List Nat} {fs : FS} {k : Known} {e : FileEntry} {segs : List (Nat × Bytes)} {cur : Bytes} {w : FileWriter}
    {l l' : Logger TS D} {t : TS} {v : D} (hs : Sys crc fs (as ++ ⟨k, e, segs, cur⟩ :: bs) leak) (hw : k.writer = some w) (hm : k.maybe = []) (hd : k.data = l.sink)
    (hl : l.log c t v = some (true, l')) (hn : cur.length + (l'.sink.length - l.sink.length) < 252) :
    ∃ w' fs' cur', LogFile.St.log crc c (fun _ => (0, 0)) (fun _ => (0, 0)) ⟨l, w, fs⟩ t v = (.ok true, ⟨l', w', fs'⟩) ∧
      Sys crc fs' (as ++ ⟨{ k with data := l'.sink, writer := some w' }, e, segs, cur'⟩ :: bs) leak ∧ cur'.length = cur.length + (l'.sink.length - l.sink.length) ∧ fs'.at' = fs.at' := by
  obtain ⟨ops, ho, hdo⟩ := LogFile.log_does crc (fun _ => (0, 0)) (fun _ => (0, 0)) hl
  obtain ⟨d1, d2⟩ := hdo w fs
  have hb : l'.sink.length - l.sink.length = (writtenBytes ops).length := by rw [d1, List.length_append]; simp
  rw [hb] at hn ⊢
  obtain ⟨w', fs', g1, g2, g3⟩ := small_writes_at hs hw hm ho hn
  have g1' : runWriter crc (⟨l, w, fs⟩ : LogFile.St TS D).fs (⟨l, w, fs⟩ : LogFile.St TS D).w ops = (.ok (), w', fs') := g1
  rw [g1'] at d2
  simp only at d2
  refine ⟨w', fs', cur ++ writtenBytes ops, d2, ?_, by simp, g3⟩
  rw [d1]
  rw [hd] at g2
  exact g2

/-- the log is flushed -/
theorem flush_fits {crc : Bytes → UInt32} {as bs : List FileSt} {leak : List Nat} {fs : FS} {k : Known} {e : FileEntry} {segs : List (Nat × Bytes)} {cur : Bytes} {w : FileWriter}
    {l l' : Logger TS D} (hs : Sys crc fs (as ++ ⟨k, e, segs, cur⟩ :: bs) leak) (hw : k.writer = some w) (hm : k.maybe = []) (hd : k.data = l.sink)
    (hl : l.flush = some l') (hn : cur.length + (l'.sink.length - l.sink.length) < 252) (hlen : (others leak as bs).length + segs.length < 1000) :
    ∃ w' fs' segs', LogFile.St.flush crc (fun _ => (0, 0)) 0 0 ⟨l, w, fs⟩ = (.ok (), ⟨l', w', fs'⟩) ∧
      Sys crc fs' (as ++ ⟨{ k with data := l'.sink, durable := l'.sink, writer := some w' }, e, segs', []⟩ :: bs) leak ∧ segs'.length ≤ segs.length + 1 ∧ fs'.at' = fs.at' := by
  obtain ⟨ops, ho, hdo⟩ := LogFile.flush_does crc (fun _ => (0, 0)) 0 0 hl
  obtain ⟨d1, d2⟩ := hdo w fs
  have hb' : writtenBytes (ops ++ [.flush 0 0]) = writtenBytes ops := by rw [LogFile.writtenBytes_append]; simp [writtenBytes]
  rw [hb'] at d1
  have hb : l'.sink.length - l.sink.length = (writtenBytes ops).length := by rw [d1, List.length_append]; simp
  rw [hb] at hn
  obtain ⟨w1, fs1, g1, g2, g2'⟩ := small_writes_at hs hw hm ho hn
  obtain ⟨w2, fs2, segs', g3, g4, g5, g6⟩ := free_flush_at g2 rfl hm hlen 0 0
  have g1' : runWriter crc (⟨l, w, fs⟩ : LogFile.St TS D).fs (⟨l, w, fs⟩ : LogFile.St TS D).w (ops ++ [.flush 0 0]) = (.ok (), w2, fs2) := by
    rw [LogFile.runWriter_append]
    simp only [g1, runWriter, g3]
  rw [g1'] at d2
  simp only at d2
  refine ⟨w2, fs2, segs', d2, ?_, g5, g6.trans g2'⟩
  rw [d1]
  rw [hd] at g4
  exact g4

def ringA : Logger (BitVec 64) (BitVec 64) := (((Logger.new Log.demo).log Log.demo 10#64 20#64).getD (true, Logger.new Log.demo)).2
def ringB : Logger (BitVec 64) (BitVec 64) := (((Logger.new Log.demo).log Log.demo 18#64 21#64).getD (true, Logger.new Log.demo)).2
def ringA' : Logger (BitVec 64) (BitVec 64) := ringA.flush.getD (Logger.new Log.demo)
def ringB' : Logger (BitVec 64) (BitVec 64) := ringB.flush.getD (Logger.new Log.demo)

theorem ringA_log : (Logger.new Log.demo).log Log.demo 10#64 20#64 = some (true, ringA) := pick _ _ (by decide +kernel)
theorem ringB_log : (Logger.new Log.demo).log Log.demo 18#64 21#64 = some (true, ringB) := pick _ _ (by decide +kernel)
theorem ringA_len : ringA.sink.length - (Logger.new Log.demo).sink.length < 100 ∧ ringA'.sink.length - ringA.sink.length < 100 := by decide +kernel
theorem ringB_len : ringB.sink.length - (Logger.new Log.demo).sink.length < 100 ∧ ringB'.sink.length - ringB.sink.length < 100 := by decide +kernel

theorem flush_some {l : Logger (BitVec 64) (BitVec 64)} (h : l.flush.isSome = true) : l.flush = some (l.flush.getD (Logger.new Log.demo)) := by
  obtain ⟨x, hx⟩ := Option.isSome_iff_exists.mp h
  rw [hx]; rfl

theorem ringA_flush : ringA.flush = some ringA' := flush_some (by decide +kernel)
theorem ringB_flush : ringB.flush = some ringB' := flush_some (by decide +kernel)
theorem ringA_out : ((if (Logger.new Log.demo).lastUnix then [] else (Logger.new Log.demo).unixBuf.toList.map .unix) ++ ringA.recon : List (Out (BitVec 64) (BitVec 64))) = [.reading 10#64 20#64] := by decide +kernel
theorem ringB_out : ((if (Logger.new Log.demo).lastUnix then [] else (Logger.new Log.demo).unixBuf.toList.map .unix) ++ ringB.recon : List (Out (BitVec 64) (BitVec 64))) = [.reading 18#64 21#64] := by decide +kernel
theorem ring_new_sink : [] = (Logger.new Log.demo).sink := rfl

attribute [irreducible] ringA ringB ringA' ringB'

/-- the two segments of the case -/
def segA : Segment (BitVec 64) (BitVec 64) := ⟨1, [(10#64, 20#64)], [.reading 10#64 20#64], [.reading 10#64 20#64]⟩
def segB : Segment (BitVec 64) (BitVec 64) := ⟨2, [(18#64, 21#64)], [.reading 18#64 21#64], []⟩

theorem typ_closed {typ id : Nat} {ks : List Known} (h : ∀ k ∈ ks, k.typ = typ) : ∀ k ∈ closed id ks, k.typ = typ := by
  intro k hk
  obtain ⟨x, hx, rfl⟩ := List.mem_map.mp hk
  split <;> exact h x hx

theorem typ_wrote {typ id : Nat} {ks : List Known} {s : LogFile.St TS D} (h : ∀ k ∈ ks, k.typ = typ) : ∀ k ∈ wrote id s ks, k.typ = typ := by
  intro k hk
  obtain ⟨x, hx, rfl⟩ := List.mem_map.mp hk
  split <;> exact h x hx

theorem typ_flushed {typ id : Nat} {ks : List Known} {s : LogFile.St TS D} (h : ∀ k ∈ ks, k.typ = typ) : ∀ k ∈ flushed id s ks, k.typ = typ := by
  intro k hk
  obtain ⟨x, hx, rfl⟩ := List.mem_map.mp hk
  split <;> exact h x hx

theorem ids_closed {id : Nat} {ks : List Known} : (closed id ks).map (·.id) = ks.map (·.id) := by
  unfold closed
  rw [List.map_map]
  refine List.map_congr_left fun k _ => ?_
  simp only [Function.comp]
  split <;> rfl

theorem ids_wrote {id : Nat} {ks : List Known} {s : LogFile.St TS D} : (wrote id s ks).map (·.id) = ks.map (·.id) := by
  unfold wrote
  rw [List.map_map]
  refine List.map_congr_left fun k _ => ?_
  simp only [Function.comp]
  split <;> rfl

theorem ids_flushed {id : Nat} {ks : List Known} {s : LogFile.St TS D} : (flushed id s ks).map (·.id) = ks.map (·.id) := by
  unfold flushed
  rw [List.map_map]
  refine List.map_congr_left fun k _ => ?_
  simp only [Function.comp]
  split <;> rfl

theorem typ_rotated {typ n : Nat} {w : FileWriter} {ks : List Known} (h : ∀ k ∈ ks, k.typ = typ) : ∀ k ∈ rotated typ n w ks, k.typ = typ := by
  intro k hk
  rcases List.mem_append.mp hk with hk | hk
  · exact h k (List.mem_filter.mp hk).1
  · rw [List.mem_singleton.mp hk]

/-- a new segment has a sector -/
theorem rotate_first {fs fs' : FS} {typ n r1 r2 : Nat} {e : FileEntry} (h : fs.rotate typ n r1 r2 = (.ok e, fs')) : ∃ y, e.first = some y := by
  unfold FS.rotate at h
  split at h
  · simp at h
  · unfold Builder.writeNewFileAndOpen at h
    simp only at h
    split at h
    · simp at h
    · rename_i hx
      split at hx
      · simp at hx
      · simp only [Prod.mk.injEq, Except.ok.injEq] at h hx
        rw [← h.1, ← hx.1]
        exact ⟨_, rfl⟩

/-- a new segment can be begun when there is free space -/
theorem begin_full {crc : Bytes → UInt32} {s : RingLog.St TS D} {files : List FileSt} {leak : List Nat} (hs : Sys crc s.fs files leak) (hcap : files.length < 2518) (ht : s.typ < 0x4000) (hok : countersOk s.fs)
    (hfree : s.fs.mng.freeBytes ≠ 0) (r1 r2 : Nat) : ∃ s2 ops, s.beginSegment r1 r2 = (.ok (), s2) ∧ issued s.fs s2.fs ops := by
  rcases sys_rotate hs s.typ s.plan.1 r1 r2 (by simpa using hcap) ht hok with ⟨e, fs2, g1, _⟩ | ⟨_, g2⟩
  · obtain ⟨y, hy⟩ := rotate_first g1
    obtain ⟨m, hrw, _⟩ := call_rewrite hs.reach (Call.rotate s.typ s.plan.1 r1 r2 e fs2 g1 (Nat.lt_of_le_of_lt (List.length_filter_le ..) (by simpa using hcap)) ht) hok
    obtain ⟨os, h1, _⟩ := hrw.trace
    have hw : writerOf e = some (FileWriter.new y e.id) := by unfold writerOf; rw [hy]; rfl
    refine ⟨{ s with next := some (FileWriter.new y e.id), fs := fs2 }, os, ?_, ?_⟩
    · unfold RingLog.St.beginSegment
      rw [g1]
      simp only [hw]
    · show fs2.dev.log = _
      rw [h1]; rfl
  · exact absurd g2 hfree

/-- A ring of two segments is started on an empty chip, a reading is logged, a new segment replaces the first one, another reading is logged, the first segment is flushed and closed; … -/
theorem C88_case_full (crc : Bytes → UInt32) (typ : Nat) (ht : typ < 0x4000) : ∃ (s : RingLog.St (BitVec 64) (BitVec 64)) (ks : List Known), RingLogging crc Log.demo typ 2 s ks [segA, segB] ∧ s.cur.isSome = true ∧
    RingCut crc Log.demo typ s ks s.fs.dev.flash [] ∧
    (s.next = none ∧ s.old = none ∧ s.cap ≤ s.segments ∧ ks.length = 2 ∧ countersOk s.fs ∧ ∀ r1 r2, ∃ s2 ops, s.beginSegment r1 r2 = (.ok (), s2) ∧ issued s.fs s2.fs ops) ∧
    ∃ (s' : RingLog.St (BitVec 64) (BitVec 64)) (ks' : List Known), RingLogging crc Log.demo typ 2 s' ks' [segA, segB.flushed] ∧ s'.cur = none ∧ s'.fs.at'.opened = [] ∧ s'.next = none ∧ (∀ k ∈ ks', k.typ = typ) ∧ ks'.map (·.id) = [1, 2] := by
  obtain ⟨z0, a0, m0⟩ := format_sys crc
  have h0 : Hist crc (FS.mount fun _ => 0xFF).2 [] := .format _ Props.blank_noheader
  generalize (FS.mount fun _ => 0xFF).2 = fs0 at z0 a0 h0 m0
  have ok0 : countersOk fs0 := by unfold countersOk; rw [a0]; exact ⟨by decide, by decide⟩
  have hid : fs0.at'.maxId + 1 = 1 := by rw [a0]; rfl
  have hseq : fs0.at'.seq + 1 = 2 := by rw [a0]; rfl
  -- the ring is started
  obtain ⟨x, fs1, b1, z1, q1, q2, q3⟩ := open_new z0 (typ := typ) ht (by decide) (by rw [(freeBytes_eq z0.inv).1]; decide) ok0
  rw [hid] at b1 z1 q2
  rw [a0] at q3
  have q3 : fs1.at'.opened = [] := q3
  rw [hseq] at q1
  have hnew : RingLog.St.new Log.demo fs0 typ 2 0 0 = (.ok ⟨typ, 2, 1, some ⟨Logger.new Log.demo, FileWriter.new x 1⟩, none, none, fs1⟩, fs1) := by
    unfold RingLog.St.new
    rw [z0.reach.dir.filesIter]
    simp [startPlan, b1, writerOf]
  have r1 := RingLogging.start (c := Log.demo) h0 (by simp [ofKind]) (Nat.le_refl 2) ht (by decide) ok0 0 0 hnew rfl
  -- a reading
  obtain ⟨w2, fs2, cur2, g1, z2, n2, t2⟩ := log_fits (as := []) (bs := []) (c := Log.demo) z1 rfl rfl ring_new_sink ringA_log (by
    have := ringA_len.1
    rw [List.length_nil]; omega)
  have r2 := RingLogging.accept (pre := []) (h' := ⟨ringA, w2⟩) (s' := ⟨typ, 2, 1, some ⟨ringA, w2⟩, none, none, fs2⟩) r1 rfl (fun _ => (0, 0)) (fun _ => (0, 0)) 10#64 20#64 (by
    unfold RingLog.St.log
    simp only [g1]) rfl
  -- a new segment is begun
  have ok2 : countersOk fs2 := by unfold countersOk; rw [t2, q1, q2]; exact ⟨by decide, by decide⟩
  have k2 : fs2.at'.maxId + 1 = 2 := by rw [t2, q2]
  obtain ⟨y, fs3, b3, z3, u1, u2, u3⟩ := open_new z2 (typ := typ) ht (by simp) (by rw [(freeBytes_eq z2.inv).1]; simp [FileSt.own, secs]) ok2
  rw [k2] at b3 z3
  rw [t2, q3] at u3
  have r3 := RingLogging.begin (w := FileWriter.new y 2) (s' := ⟨typ, 2, 1, some ⟨ringA, w2⟩, some (FileWriter.new y 2), none, fs3⟩) r2 rfl rfl rfl (by simp [wrote, rotated]) ok2 0 0 (by
    unfold RingLog.St.beginSegment
    simp [RingLog.St.plan, b3, writerOf]) rfl
  -- … and takes over
  have r4 := RingLogging.swap (s' := ⟨typ, 2, 1, some ⟨Logger.new Log.demo, FileWriter.new y 2⟩, none, some ⟨ringA, w2⟩, fs3⟩) r3 rfl rfl
  -- a reading in the new segment
  obtain ⟨w5, fs5, cur5, g5, z5, n5, t5⟩ := log_fits (as := [_]) (bs := []) (c := Log.demo) z3 rfl rfl ring_new_sink ringB_log (by
    have := ringB_len.1
    rw [List.length_nil]; omega)
  have r5 := RingLogging.accept (pre := [_]) (h' := ⟨ringB, w5⟩) (s' := ⟨typ, 2, 1, some ⟨ringB, w5⟩, none, some ⟨ringA, w2⟩, fs5⟩) r4 rfl (fun _ => (0, 0)) (fun _ => (0, 0)) 18#64 21#64 (by
    unfold RingLog.St.log
    simp only [g5]) rfl
  -- the old one is flushed and closed
  obtain ⟨w6, fs6, segs6, g6, z6, n6, t6⟩ := flush_fits (as := []) (bs := [_]) z5 rfl rfl rfl ringA_flush (by
    have := ringA_len
    rw [n2, List.length_nil]; omega) (by simp [others, FileSt.own, secs])
  have r6 := RingLogging.flushOld (pre := []) (h' := ⟨ringA', w6⟩) (s' := ⟨typ, 2, 1, some ⟨ringB, w5⟩, none, some ⟨ringA', w6⟩, fs6⟩) r5 (fun _ => (0, 0)) 0 0 (by
    unfold RingLog.St.flushOld
    simp only [g6]) rfl
  have r7 := RingLogging.closeOld (pre := []) (s' := ⟨typ, 2, 2, some ⟨ringB, w5⟩, none, none, fs6.closeWriter crc w6⟩) r6 rfl rfl
  have z7 := close_sys (as := []) (bs := [_]) z6 rfl
  -- the ring is closed
  obtain ⟨w8, fs8, segs8, g8, z8, n8, t8⟩ := flush_fits (as := [_]) (bs := []) z7 rfl rfl rfl ringB_flush (by
    have := ringB_len
    rw [n5, List.length_nil]; omega) (by simp [others, FileSt.own, secs] at n6 ⊢; omega)
  have r8 := RingLogging.close (pre := [_]) (s' := ⟨typ, 2, 2, none, none, none, fs8.closeWriter crc w8⟩) r7 rfl rfl rfl (fun _ => (0, 0)) 0 0 (by
    unfold RingLog.St.close
    simp only [g8])
  have hcl : ∀ (fs : FS) (w : FileWriter), fs.at'.opened = [] → (fs.closeWriter crc w).at'.opened = [] := fun fs w h => by
    unfold FS.closeWriter FS.markClosed
    simp [h]
  simp only [ringA_out, ringB_out] at r7 r8
  have ok3 : countersOk fs3 := by unfold countersOk; rw [u1, u2, t2, q1, q2]; exact ⟨by decide, by decide⟩
  have ok7 : countersOk (fs6.closeWriter crc w6) := by
    have : countersOk fs6 := by unfold countersOk; rw [t6, t5]; exact ok3
    unfold FS.closeWriter FS.markClosed; split <;> exact this
  refine ⟨_, _, r7, rfl, .idle, ⟨rfl, rfl, Nat.le_refl 2, ?_, ok7, ?_⟩, _, _, r8, rfl, ?_, rfl, ?_, ?_⟩
  · rw [← List.length_map (f := (·.id)), ids_closed, ids_flushed, ids_wrote]
    unfold rotated
    rw [List.map_append, List.filter_eq_self.mpr (fun k hk => by simp [oldestKnown, RingLog.St.plan])]
    rw [ids_wrote]
    rfl
  · exact begin_full (s := ⟨typ, 2, 2, some ⟨ringB, w5⟩, none, none, fs6.closeWriter crc w6⟩) z7 (by simp) ht ok7 (by
      rw [(freeBytes_eq z7.inv).1]
      simp [FileSt.own, secs] at n6 ⊢
      omega)
  rotate_left
  · exact typ_closed (typ_flushed (typ_closed (typ_flushed (typ_wrote (typ_rotated (typ_wrote (fun k hk => by rw [List.mem_singleton.mp hk])))))))
  · rw [ids_closed, ids_flushed, ids_closed, ids_flushed, ids_wrote]
    unfold rotated
    rw [List.map_append, List.filter_eq_self.mpr (fun k hk => by simp [oldestKnown, RingLog.St.plan])]
    rw [ids_wrote]
    rfl
  refine hcl _ _ ?_
  rw [t8]
  refine hcl _ _ ?_
  rw [t6, t5, u3]

theorem C88_case_of (crc : Bytes → UInt32) (typ : Nat) (ht : typ < 0x4000) : ∃ (s : RingLog.St (BitVec 64) (BitVec 64)) (ks : List Known), RingLogging crc Log.demo typ 2 s ks [segA, segB] ∧ s.cur.isSome = true ∧
    RingCut crc Log.demo typ s ks s.fs.dev.flash [] ∧
    ∃ (s' : RingLog.St (BitVec 64) (BitVec 64)) (ks' : List Known), RingLogging crc Log.demo typ 2 s' ks' [segA, segB.flushed] ∧ s'.cur = none ∧ s'.fs.at'.opened = [] ∧ s'.next = none ∧ (∀ k ∈ ks', k.typ = typ) ∧ ks'.map (·.id) = [1, 2] :=
  let ⟨s, ks, h1, h2, h3, _, h4⟩ := C88_case_full crc typ ht
  ⟨s, ks, h1, h2, h3, h4⟩

theorem C88_case (crc : Bytes → UInt32) : ∃ (s : RingLog.St (BitVec 64) (BitVec 64)) (ks : List Known), RingLogging crc Log.demo 5 2 s ks [segA, segB] ∧ s.cur.isSome = true ∧
    RingCut crc Log.demo 5 s ks s.fs.dev.flash [] ∧
    ∃ (s' : RingLog.St (BitVec 64) (BitVec 64)) (ks' : List Known), RingLogging crc Log.demo 5 2 s' ks' [segA, segB.flushed] ∧ s'.cur = none ∧ s'.fs.at'.opened = [] :=
  let ⟨s, ks, h1, h2, h3, s', ks', h4, h5, h6, _⟩ := C88_case_of crc 5 (by decide)
  ⟨s, ks, h1, h2, h3, s', ks', h4, h5, h6⟩

/-- **C88** (finding) With one segment per ring, a new segment removes the file that is being written: until the new logger takes over, and for its flush and close, the old logger goes on writing to a file
that is not in the directory any more. -/
theorem C88_single_segment {crc : Bytes → UInt32} {typ : Nat} {s s' : RingLog.St TS D} {ks : List Known} {k : Known} {h : Half TS D} (hh : Hist crc s.fs ks) (hk : ofKind typ ks = [k])
    (hc : s.cur = some h) (hw : k.writer = some h.w) (ht : s.typ = typ) (hcap : s.cap = 1) (hseg : s.segments = 1) (hl : ks.length < 2518) (hs : typ < 0x4000) (hok : countersOk s.fs) {r1 r2 : Nat}
    (hb : s.beginSegment r1 r2 = (.ok (), s')) :
    s'.cur = some h ∧ ∃ files, s'.fs.filesIter (fun e => e.typ == typ) = .ok files ∧ files.length = 1 ∧ ∀ f ∈ files, f.id ≠ h.w.id := by
  have hplan : s.plan.1 = 1 := by unfold RingLog.St.plan; rw [if_pos (by omega)]
  have hid : h.w.id = k.id := ((hist_inv hh).durable (k := k) (List.mem_filter.mp (show k ∈ ofKind typ ks by rw [hk]; simp)).1 hw).2
  unfold RingLog.St.beginSegment at hb
  rw [hplan, ht] at hb
  rcases step_rotate (hist_inv hh) typ 1 r1 r2 hl hs hok with ⟨e, fs', g1, g2⟩ | ⟨⟨fs', g1⟩, _⟩
  · rw [g1] at hb
    simp only at hb
    cases hwo : writerOf e with
    | none => rw [hwo] at hb; simp at hb
    | some w =>
      rw [hwo] at hb
      simp only [Prod.mk.injEq, true_and] at hb
      subst hb
      obtain ⟨files, f1, f2⟩ := count_kind g2 typ
      have hd := ofKind_dropped (typ := typ) (n := 1) (ids_sorted (hist_inv hh))
      have ha : ∀ a b, ofKind typ (a ++ b) = ofKind typ a ++ ofKind typ b := fun a b => List.filter_append ..
      rw [ha, hd, hk] at f2
      have f2 : files.map (·.id) = [e.id] := by
        rw [f2]; simp [ofKind]
      refine ⟨hc, files, f1, by have := congrArg List.length f2; simpa using this, fun f hf => ?_⟩
      have hfe : f.id = e.id := by
        have : f.id ∈ files.map (·.id) := List.mem_map.mpr ⟨f, hf, rfl⟩
        rw [f2] at this
        simpa using this
      have hlt : k.id < e.id := by
        obtain ⟨files0, leak, hf0, hs0⟩ := hist_inv hh
        subst hf0
        have hlen : ((files0.map (·.e)).filter fun x => !amongOldest typ 1 (files0.map (·.e)) x).length < 2518 := by
          refine Nat.lt_of_le_of_lt (List.length_filter_le _ _) ?_
          simpa using hl
        obtain ⟨m, _, _, _, _, _, h6⟩ := call_rewrite hs0.reach (Call.rotate typ 1 r1 r2 e fs' g1 hlen hs) hok
        have h7 := (h6 e.id (by simp)).1
        have hkm : k ∈ files0.map (·.k) := (List.mem_filter.mp (show k ∈ ofKind typ _ by rw [hk]; simp)).1
        obtain ⟨f0, hf1, rfl⟩ := List.mem_map.mp hkm
        have h8 := hs0.reach.dir.maxId f0.e (List.mem_map.mpr ⟨f0, hf1, rfl⟩)
        rw [(hs0.ok f0 hf1).id] at h8
        omega
      rw [hfe, hid]; omega
  · rw [g1] at hb; simp at hb

theorem free_pos {crc : Bytes → UInt32} {fs : FS} {k : Known} {e : FileEntry} {w : FileWriter} (hw : k.writer = some w) (h : Sys crc fs [⟨k, e, [], []⟩] []) : fs.mng.freeBytes ≠ 0 := by
  rw [(freeBytes_eq h.inv).1]
  simp [FileSt.own, secs, hw]

theorem begin_ok {s : RingLog.St TS D} {typ r1 r2 y : Nat} {e : FileEntry} {fs' : FS} (ht : s.typ = typ) (hc : s.cap = 1) (hs : s.segments = 1) (h : s.fs.rotate typ 1 r1 r2 = (.ok e, fs'))
    (hy : e.first = some y) : s.beginSegment r1 r2 = (.ok (), { s with next := some (FileWriter.new y e.id), fs := fs' }) := by
  have hp : s.plan.1 = 1 := by unfold RingLog.St.plan; rw [if_pos (by omega)]
  unfold RingLog.St.beginSegment
  rw [hp, ht, h]
  have hw : writerOf e = some (FileWriter.new y e.id) := by unfold writerOf; rw [hy]; rfl
  simp only [hw]

/-- C88_single_segment: a ring of one segment on an empty chip -/
example (crc : Bytes → UInt32) : ∃ (s s' : RingLog.St (BitVec 64) (BitVec 64)) (ks : List Known) (k : Known) (h : Half (BitVec 64) (BitVec 64)), Hist crc s.fs ks ∧ ofKind 5 ks = [k] ∧ s.cur = some h ∧
    k.writer = some h.w ∧ s.typ = 5 ∧ s.cap = 1 ∧ s.segments = 1 ∧ ks.length < 2518 ∧ countersOk s.fs ∧ s.beginSegment 0 0 = (.ok (), s') := by
  obtain ⟨z0, a0, m0⟩ := format_sys crc
  have h0 : Hist crc (FS.mount fun _ => 0xFF).2 [] := .format _ Props.blank_noheader
  generalize (FS.mount fun _ => 0xFF).2 = fs0 at z0 a0 h0 m0
  have ok0 : countersOk fs0 := by unfold countersOk; rw [a0]; exact ⟨by decide, by decide⟩
  obtain ⟨x, fs1, b1, z1, q1, q2, q3⟩ := open_new z0 (typ := 5) (by decide) (by decide) (by rw [(freeBytes_eq z0.inv).1]; decide) ok0
  have hid : fs0.at'.maxId + 1 = 1 := by rw [a0]; rfl
  rw [hid] at b1 z1 q2
  have hh := h0.step (.rotate 5 0 0 0 _ fs1 b1 (by simp) (by decide) (by decide) ok0)
  have hseq : fs0.at'.seq + 1 = 2 := by rw [a0]; rfl
  have ok1 : countersOk fs1 := by unfold countersOk; rw [q1, q2, hseq]; exact ⟨by decide, by decide⟩
  rcases sys_rotate z1 5 1 0 0 (by simp) (by decide) ok1 with ⟨e, fs2, g1, files, leak, g2, g3, _⟩ | ⟨_, g2⟩
  · have hf : ∃ y, e.first = some y := by
      exact rotate_first g1
    obtain ⟨y, hy⟩ := hf
    refine ⟨⟨5, 1, 1, some ⟨Logger.new Log.demo, FileWriter.new x 1⟩, none, none, fs1⟩,
      ⟨5, 1, 1, some ⟨Logger.new Log.demo, FileWriter.new x 1⟩, some (FileWriter.new y e.id), none, fs2⟩, _,
      ⟨1, 5, [], [], [], some (FileWriter.new x 1), false, false⟩, _, hh, by simp [ofKind], rfl, rfl, rfl, rfl, rfl, by simp, ok1, ?_⟩
    exact begin_ok (s := ⟨5, 1, 1, some ⟨Logger.new Log.demo, FileWriter.new x 1⟩, none, none, fs1⟩) rfl rfl rfl g1 hy
  · exact absurd g2 (free_pos rfl z1)

end Verif.Props
