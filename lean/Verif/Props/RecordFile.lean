import Verif.Lemmas.RecordFile
import Verif.Props.Export
import Verif.Props.LogFile
/-
C124: logs of tagged records in files, power loss, and downloading the results of a vacuum test. The runs are defined in Verif/Spec/RecordFile.lean.
-/
namespace Verif.Props
open Verif Verif.Vlfs Verif.Spec Verif.Tagged Verif.Log Verif.LogFile Verif.Console Verif.Export Verif.RecordFile

variable {α TS TD D DD : Type}

/-- **C124** Whenever power is lost while records are written to a file, whatever the file system is used for besides: the chip mounts, the file can be opened, and reading the records back, whatever
chunks the host's reader gets, does not panic and gives all records written up to the last successful flush, followed by some of those written later, in order, and nothing else. -/
theorem C124_survives {crc : Bytes → UInt32} {e : Enum α} (he : e.Ok) {id : Nat} {s : RecordFile.St} {ks : List Known} {acc safe extra : List α} {fl' : Flash}
    (h : Records crc e id s ks acc safe) (hcut : RecordsCut crc e id s ks fl' extra) :
    ∃ fs content, FS.mount fl' = (.ok (), fs) ∧ ReadsAs crc fs id content ∧
      ∀ (sched : Nat → Nat) (fuel : Nat), (acc ++ extra).length < fuel → ∃ outs, readLog e sched fuel ⟨content, 0⟩ [] = some outs ∧ safe <+: outs ∧ outs <+: acc ++ extra := by
  have inv := records_inv he h
  obtain ⟨fs, hm, b, h1, h2, h3⟩ := cut_content he inv hcut
  exact ⟨fs, b, hm, h1, fun sched fuel hf => readLog_ok he sched (inv.pre.trans (List.prefix_append _ _)) h2 h3 hf⟩

/-- **C124** … if every record is flushed when it was written, as the vacuum test does, at most the record that was being written is lost: with power lost between two calls, all are read back. -/
theorem C124_flushed {crc : Bytes → UInt32} {e : Enum α} (he : e.Ok) {id : Nat} {s : RecordFile.St} {ks : List Known} {acc : List α} (h : Records crc e id s ks acc acc) :
    ∃ fs content, FS.mount s.fs.dev.flash = (.ok (), fs) ∧ ReadsAs crc fs id content ∧
      ∀ (sched : Nat → Nat) (fuel : Nat), acc.length < fuel → readLog e sched fuel ⟨content, 0⟩ [] = some acc := by
  obtain ⟨fs, content, h1, h2, h3⟩ := C124_survives he h .idle
  refine ⟨fs, content, h1, h2, fun sched fuel hf => ?_⟩
  obtain ⟨outs, g1, g2, g3⟩ := h3 sched fuel (by simpa using hf)
  rw [List.append_nil] at g3
  rw [g1, prefix_both g2 g3]

/-- **C124** `write` itself never panics: it hands the bytes of the record to the file in one call and reports what the file system reports. -/
theorem C124_write {crc : Bytes → UInt32} {e : Enum α} (he : e.Ok) {id : Nat} {s : RecordFile.St} {ks : List Known} {acc safe : List α} (h : Records crc e id s ks acc safe)
    (rng : Nat → Nat × Nat) (v : α) :
    (s.write crc e rng v).1 = (s.fs.extendWriter crc s.w rng (e.bytes v)).1 ∧ (s.write crc e rng v).2.fs = (s.fs.extendWriter crc s.w rng (e.bytes v)).2.2 := by
  obtain ⟨buf, _, h2⟩ := write_eq he (records_inv he h).buf rng v (crc := crc)
  rw [h2]
  exact ⟨rfl, rfl⟩

theorem pullLogs_ok {crc : Bytes → UInt32} {e : Enum α} (he : e.Ok) {fs : FS} {ks : List Known} (h : Hist crc fs ks) {typ : Nat} {logs : List (List α × List α)}
    (hl : List.Forall₂ (fun (k : Known) l => l.1 <+: l.2 ∧ HoldsRecords crc e fs k.id l) (ofKind typ ks) logs) :
    ∃ n, ∀ fuel, n ≤ fuel → ∀ (sched : Nat → Nat) (s : Session), s.reader = none → ∃ (parts : List (List α)) (s' : Session),
      pullLogs crc e sched fuel s fs typ = (some parts.flatten, s', fs) ∧ s'.reader = none ∧ List.Forall₂ (fun l outs => l.1 <+: outs ∧ outs <+: l.2) logs parts := by
  obtain ⟨bs, h1, h2⟩ : ∃ bs, List.Forall₂ (fun (k : Known) b => ReadsAs crc fs k.id b) (ofKind typ ks) bs ∧
      List.Forall₂ (fun b l => l.1 <+: l.2 ∧ l.1.flatMap e.bytes <+: b ∧ b <+: l.2.flatMap e.bytes) bs logs := by
    generalize ofKind typ ks = ls at hl
    induction hl with
    | nil => exact ⟨[], .nil, .nil⟩
    | cons hx _ ih =>
      obtain ⟨x0, b, x1, x2, x3⟩ := hx
      obtain ⟨bs, e1, e2⟩ := ih
      exact ⟨b :: bs, .cons x1 e1, .cons ⟨x0, x2, x3⟩ e2⟩
  obtain ⟨n1, hn1⟩ := list_bound List.length bs
  obtain ⟨n2, hn2⟩ := list_bound (fun l => l.2.length) logs
  refine ⟨n1 + n2 + ks.length + 1, fun fuel hfuel sched s hs => ?_⟩
  obtain ⟨s', e1, e2⟩ := C91_download h h1 hs (fuel := fuel) (fun b hb => by have := hn1 b hb; omega) (by omega)
  obtain ⟨parts, e3, e4⟩ := logLines_ok he sched (fuel := fuel) h2 fun l hl => by have := hn2 l hl; omega
  refine ⟨parts, s', ?_, e2, e4⟩
  unfold pullLogs
  rw [e1]
  simp only
  rw [e3]

/-- **C124** Downloading a vacuum test, when nothing else uses the device: the log shows, file by file in the order of their ids, the records of every log of the vacuum test — of a log that was cut by a
power loss at least `l.1`, at most `l.2`, in order — and the table shows the readings of the barometer logs of the vacuum test with the unix times their files give. -/
theorem C124_download {crc : Bytes → UInt32} {e : Enum α} (he : e.Ok) {fs : FS} {ks : List Known} (h : Hist crc fs ks) {c : Cfg TS TD D DD} {env : Env TS} (hs : SearchWorks env)
    {logs : List (List α × List α)} (hl : List.Forall₂ (fun (k : Known) l => l.1 <+: l.2 ∧ HoldsRecords crc e fs k.id l) (ks.filter fun k => k.typ == 21) logs)
    {baro : List (List (Out TS D) × List (Out TS D))} (hb : List.Forall₂ (fun (k : Known) l => ∃ b, ReadsAs crc fs k.id b ∧ LogReads c b l.1 l.2) (ks.filter fun k => k.typ == 22) baro) :
    ∃ n, ∀ fuel, n ≤ fuel → ∀ (sched sched1 sched2 : Nat → Nat) (s : Session), s.reader = none → ∃ (lines : List (List α)) (rows : List (List (Row TS D))),
      pullVacuumTest crc e c env sched sched1 sched2 fuel s fs = some (lines.flatten, rows.flatten) ∧
      List.Forall₂ (fun l outs => l.1 <+: outs ∧ outs <+: l.2) logs lines ∧
      List.Forall₂ (fun l rows => ∃ first second, l.1 <+: first ∧ first <+: l.2 ∧ l.1 <+: second ∧ second <+: l.2 ∧ Shows env (syncsOf env first) (readingsOf second) rows) baro rows := by
  obtain ⟨n1, hn1⟩ := pullLogs_ok he h (typ := vacuumLog) hl
  obtain ⟨n2, hn2⟩ := export_ok h hs (typ := vacuumBaro) hb
  refine ⟨n1 + n2, fun fuel hf sched sched1 sched2 s hr => ?_⟩
  obtain ⟨lines, s1, e1, e2, e3⟩ := hn1 fuel (by omega) sched s hr
  obtain ⟨rows, s2, e4, _, e5⟩ := hn2 fuel (by omega) sched1 sched2 s1 e2
  refine ⟨lines, rows, ?_, e3, e5⟩
  unfold pullVacuumTest
  rw [e1]
  simp only
  rw [e4]

/-- **C124** From writing to the host: the records of a log are downloaded after a power cycle. If it is the only log of its type, the downloaded list has all records written up to the last
flush, then some of those written later, in order. -/
theorem C124_end_to_end {crc : Bytes → UInt32} {e : Enum α} (he : e.Ok) {id : Nat} {s : RecordFile.St} {ks : List Known} {acc safe : List α} (h : Records crc e id s ks acc safe)
    {typ : Nat} (honly : ∀ k ∈ ks, k.typ = typ ↔ k.id = id) :
    ∃ fs n, FS.mount s.fs.dev.flash = (.ok (), fs) ∧ ∀ fuel, n ≤ fuel → ∀ (sched : Nat → Nat) (t : Session), t.reader = none → ∃ outs,
      (pullLogs crc e sched fuel t fs typ).1 = some outs ∧ safe <+: outs ∧ outs <+: acc := by
  have inv := records_inv he h
  obtain ⟨fs, hm, hh⟩ := cut_content he inv .idle
  rw [List.append_nil] at hh
  have hist := inv.hist.restart hm
  have hof : ∃ k, ofKind typ (ks.map Known.afterLoss) = [k] ∧ k.id = id := by
    obtain ⟨k, hk, hf⟩ := inv.file
    obtain ⟨a, b, rfl⟩ := List.append_of_mem hk
    have hu := ids_unique (hist_inv inv.hist)
    rw [List.pairwise_append, List.pairwise_cons] at hu
    obtain ⟨_, ⟨u1, _⟩, u2⟩ := hu
    have out : ∀ l : List Known, (∀ x ∈ l, x.id ≠ k.id ∧ (x.typ = typ ↔ x.id = id)) → ofKind typ (l.map Known.afterLoss) = [] := by
      intro l hl
      unfold ofKind
      rw [List.filter_eq_nil_iff]
      intro x hx
      obtain ⟨y, hy, rfl⟩ := List.mem_map.mp hx
      obtain ⟨y1, y2⟩ := hl y hy
      rw [(afterLoss_id y).2]
      simp only [beq_iff_eq]
      intro h
      exact y1 ((y2.mp h).trans hf.id.symm)
    refine ⟨k.afterLoss, ?_, by rw [(afterLoss_id k).1]; exact hf.id⟩
    have ha := out a fun x hx => ⟨u2 x hx k (by simp), honly x (by simp [hx])⟩
    have hb := out b fun x hx => ⟨(u1 x hx).symm, honly x (by simp [hx])⟩
    unfold ofKind at ha hb ⊢
    rw [List.map_append, List.map_cons, List.filter_append, ha, List.nil_append, List.filter_cons, hb,
      if_pos (by rw [(afterLoss_id k).2]; simpa using (honly k (by simp)).mpr hf.id)]
  obtain ⟨k, h1, h2⟩ := hof
  obtain ⟨n, hn⟩ := pullLogs_ok he hist (typ := typ) (logs := [(safe, acc)]) (by rw [h1]; exact .cons ⟨inv.pre, by rw [h2]; exact hh⟩ .nil)
  refine ⟨fs, n, hm, fun fuel hf sched t ht => ?_⟩
  obtain ⟨parts, s', e1, _, e3⟩ := hn fuel hf sched t ht
  rw [e1]
  cases e3 with
  | cons h1 h2 => cases h2; exact ⟨_, rfl, by simpa using h1.1, by simpa using h1.2⟩

/-! ### a case -/

/-- two records are written and flushed, a third one is written; then power is lost -/
theorem C124_case (crc : Bytes → UInt32) : ∃ s ks, Records crc Tagged.demo 1 s ks [.inl 7, .inr (8, 9), .inl 10] [.inl 7, .inr (8, 9)] ∧
    (∀ k ∈ ks, k.typ = 5 ↔ k.id = 1) ∧ RecordsCut crc Tagged.demo 1 s ks s.fs.dev.flash [] := by
  obtain ⟨fs, new, h0, _, s0, _⟩ := demo_fresh crc
  -- one record of `n` bytes
  have wr : ∀ {s : RecordFile.St} {k : Known} {e : FileEntry} {segs : List (Nat × Bytes)} {cur : Bytes} {acc safe : List (UInt8 ⊕ (UInt8 × UInt8))} (v : UInt8 ⊕ (UInt8 × UInt8)),
      Records crc Tagged.demo 1 s [k] acc safe → Sys crc s.fs [⟨k, e, segs, cur⟩] [] → k.writer = some s.w → k.maybe = [] → k.id = 1 → cur.length < 200 → s.buf.length = Tagged.demo.bufLen →
      ∃ (s' : RecordFile.St) (k' : Known), Records crc Tagged.demo 1 s' [k'] (acc ++ [v]) safe ∧ Sys crc s'.fs [⟨k', e, segs, cur ++ Tagged.demo.bytes v⟩] [] ∧ k'.writer = some s'.w ∧ k'.maybe = [] ∧
        k'.id = 1 ∧ k'.typ = k.typ ∧ s'.buf.length = Tagged.demo.bufLen := by
    intro s k e segs cur acc safe v hr hs hw hm hid hc hb
    have hlen : (Tagged.demo.bytes v).length ≤ 3 := by
      rcases v with a | ⟨a, c⟩
      · show [0, a].length ≤ 3; simp
      · show [1, a, c].length ≤ 3; simp
    obtain ⟨w', fs', g1, g2⟩ := small_writes (ops := [.write (fun _ => (0, 0)) (Tagged.demo.bytes v)]) hs hw hm (fun o ho => by simp at ho; subst ho; exact ⟨_, _, rfl, fun h => by have := bytes_pos Tagged.demo_ok v; rw [h] at this; simp at this⟩) (by simp [writtenBytes]; omega)
    simp only [runWriter] at g1
    rcases hx : s.fs.extendWriter crc s.w (fun _ => (0, 0)) (Tagged.demo.bytes v) with ⟨_ | _, w1, fs1⟩ <;> rw [hx] at g1 <;> simp only [Prod.mk.injEq] at g1
    · exact absurd g1.1 (by simp)
    · obtain ⟨_, rfl, rfl⟩ := g1
      obtain ⟨buf, b1, b2⟩ := write_eq Tagged.demo_ok hb (fun _ => (0, 0)) v (crc := crc)
      rw [hx] at b2
      have hr' := hr.write _ v b2
      rw [List.map_cons, List.map_nil, if_pos hid] at hr'
      simp only [writtenBytes, List.append_nil] at g2
      exact ⟨⟨buf, w1, fs1⟩, _, hr', g2, rfl, hm, hid, rfl, b1⟩
  have rec0 : Records crc Tagged.demo 1 ⟨(Writer.new Tagged.demo).buf, FileWriter.new new 1, fs⟩ _ [] [] := .start h0 (List.mem_singleton.mpr rfl) rfl rfl rfl rfl rfl
  obtain ⟨s1, k1, r1, y1, w1, m1, i1, t1, b1⟩ := wr (.inl 7) rec0 s0 rfl rfl rfl (by decide) (by simp [Writer.new])
  obtain ⟨s2, k2, r2, y2, w2, m2, i2, t2, b2⟩ := wr (.inr (8, 9)) r1 y1 w1 m1 i1 (by show [0, 7].length < 200; decide) b1
  obtain ⟨w3, fs3, segs3, g1, g2⟩ := free_flush y2 w2 m2 (by decide) 0 0
  have hfl : s2.flush crc 0 0 = (.ok (), ⟨s2.buf, w3, fs3⟩) := by unfold RecordFile.St.flush; rw [g1]
  have r3 := r2.flush 0 0 hfl
  rw [List.map_cons, List.map_nil, if_pos i2] at r3
  obtain ⟨s4, k4, r4, _, _, _, i4, t4, _⟩ := wr (.inl 10) r3 g2 rfl m2 i2 (by decide) b2
  refine ⟨s4, [k4], r4, ?_, .idle⟩
  intro k hk
  rw [List.mem_singleton] at hk
  subst hk
  have : k.typ = 5 := t4.trans (t2.trans t1)
  simp [this, i4]

example (crc : Bytes → UInt32) : ∃ fs content outs, ReadsAs crc fs 1 content ∧ readLog Tagged.demo (fun _ => 1) 10 ⟨content, 0⟩ [] = some outs ∧ [.inl 7, .inr (8, 9)] <+: outs := by
  obtain ⟨s, ks, h, _, hc⟩ := C124_case crc
  obtain ⟨fs, content, _, h2, h3⟩ := C124_survives Tagged.demo_ok h hc
  obtain ⟨outs, g1, g2, _⟩ := h3 (fun _ => 1) 10 (by decide)
  exact ⟨fs, content, outs, h2, g1, g2⟩

end Verif.Props
