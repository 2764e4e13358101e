import Verif.Lemmas.RingRead
import Verif.Props.LogFile
/-
C88: the ring of sensor logs the avionics write. The runs are defined in Verif/Spec/RingLog.lean.
-/
namespace Verif.Props
open Verif Verif.Vlfs Verif.Spec Verif.Bit Verif.Delta Verif.Log Verif.RingLog

variable {TS TD D DD : Type}

theorem ring_segs_ne {crc : Bytes → UInt32} {c : Cfg TS TD D DD} {typ cap : Nat} {s : RingLog.St TS D} {ks : List Known} {segs : List (Segment TS D)}
    (h : RingLogging crc c typ cap s ks segs) : segs ≠ [] := by
  induction h <;> first | assumption | simp

/-- the files of the type, from what is known about them -/
theorem ring_holds {crc : Bytes → UInt32} {c : Cfg TS TD D DD} {typ cap : Nat} {s : RingLog.St TS D} {ks : List Known} {segs : List (Segment TS D)}
    (h : RingLogging crc c typ cap s ks segs) (inv : RInv crc c typ cap s ks segs) {olds : List Known} {gone fin act : List (Segment TS D)} {finK actK nextK : List Known}
    (F : Files c s (ofKind typ ks) segs olds gone fin act finK actK nextK) : RingHolds s.fs typ cap segs (fin ++ act) ((s.next.toList).map (·.id)) := by
  obtain ⟨files, f1, f2⟩ := count_kind (hist_inv inv.hist) typ
  have hlen : files.length = (ofKind typ ks).length := by have := congrArg List.length f2; simpa using this
  have hfin : finK.map (·.id) = fin.map (·.id) := by
    have := F.done
    clear f2 hlen F
    induction this with
    | nil => rfl
    | cons h _ ih => simp only [List.map_cons, h.id, ih]
  have hact : actK.map (·.id) = act.map (·.id) := by
    have := F.parts
    rcases hc : s.cur with _ | h' <;> rcases ho : s.old with _ | o <;> rw [hc, ho] at this
    · obtain ⟨rfl, rfl⟩ := this; rfl
    · exact this.elim
    · obtain ⟨g, k, rfl, rfl, ha⟩ := this; simp [ha.id]
    · obtain ⟨g, g2, k, k2, rfl, rfl, ha, ha2⟩ := this; simp [ha.id, ha2.id]
  have hnext : nextK.map (·.id) = s.next.toList.map (·.id) := by
    have := F.next
    rcases hn : s.next with _ | w <;> rw [hn] at this
    · have this : nextK = [] := this
      rw [this]; rfl
    · obtain ⟨k, rfl, h1, _⟩ := this; simp [h1]
  have hcapEq := inv.capEq
  have hp : s.plan.2 ≤ cap ∧ (cap ≤ s.segments → s.plan.2 = cap) := by
    have := inv.seg
    unfold RingLog.St.plan
    split <;> simp only <;> constructor <;> omega
  have hle : (ofKind typ ks).length ≤ cap := by
    rw [F.count]
    split
    · exact hp.1
    · exact inv.seg
  have hfull : gone ≠ [] → (ofKind typ ks).length = cap := by
    intro hg
    have := F.room hg
    have h2 := inv.seg
    rw [F.count]
    split
    · exact hp.2 (by omega)
    · omega
  have hids : files.map (·.id) = olds.map (·.id) ++ (fin ++ act).map (·.id) ++ (s.next.toList).map (·.id) := by
    rw [f2, F.files]
    simp only [List.map_append, hfin, hact, hnext, List.append_assoc]
  have hsegs : segs = gone ++ (fin ++ act) := by rw [← List.append_assoc]; exact F.split
  refine ⟨files, olds.map (·.id), gone, f1, hids, by omega, hsegs, fun hg => ⟨by rw [F.full hg]; rfl, by rw [hlen]; exact hfull hg⟩, ?_⟩
  intro hnil
  by_cases hg : gone = []
  · rw [hg, hnil] at hsegs; exact ring_segs_ne h hsegs
  · have h1 := hfull hg
    have h2 := congrArg List.length hids
    rw [F.full hg, hnil] at h2
    have h3 := inv.two
    have h4 : s.next.toList.length ≤ 1 := by cases s.next <;> simp
    simp only [List.length_append, List.length_map, List.length_nil] at h2
    omega

/-- **C88** Whatever happened since the ring was started: the directory lists at most `cap` files of the type; among them are the newest segments, in order, always including the current one. An
older segment is only gone if the ring is full and no file of an earlier ring is left. -/
theorem C88_segments {crc : Bytes → UInt32} {c : Cfg TS TD D DD} (hc : c.Codecs) (hf : c.Fits) {typ cap : Nat} {s : RingLog.St TS D} {ks : List Known} {segs : List (Segment TS D)}
    (h : RingLogging crc c typ cap s ks segs) : ∃ kept, RingHolds s.fs typ cap segs kept (s.next.toList.map (·.id)) := by
  have inv := ring_inv hc hf h
  obtain ⟨olds, gone, fin, act, finK, actK, nextK, F⟩ := inv.files
  exact ⟨_, ring_holds h inv F⟩

/-- **C88** Whenever power is lost (except while the directory update of a new segment drops an old one): the chip mounts, and every segment that was on it can be opened and read back: at least what was
logged to it up to its last flush (everything, for a closed one), at most what was logged. -/
theorem C88_survives {crc : Bytes → UInt32} {c : Cfg TS TD D DD} (hc : c.Codecs) (hf : c.Fits) {typ cap : Nat} {s : RingLog.St TS D} {ks : List Known} {segs : List (Segment TS D)} {fl' : Flash}
    {extra : List (Out TS D)} (h : RingLogging crc c typ cap s ks segs) (hcut : RingCut crc c typ s ks fl' extra) :
    ∃ kept fs, RingHolds s.fs typ cap segs kept (s.next.toList.map (·.id)) ∧ FS.mount fl' = (.ok (), fs) ∧
      ∀ g ∈ during extra kept, ∃ content, ReadsAs crc fs g.id content ∧ LogReads c content g.safe g.entries := by
  have inv := ring_inv hc hf h
  obtain ⟨olds, gone, fin, act, finK, actK, nextK, F⟩ := inv.files
  obtain ⟨fs, h1, h2⟩ := ring_cut hc hf inv hcut F
  exact ⟨_, fs, ring_holds h inv F, h1, h2⟩

/-- **C88** A segment that is not one of the last two has been flushed: nothing of it is lost if power is lost. -/
theorem C88_old_segments_safe {crc : Bytes → UInt32} {c : Cfg TS TD D DD} (hc : c.Codecs) (hf : c.Fits) {typ cap : Nat} {s : RingLog.St TS D} {ks : List Known} {segs : List (Segment TS D)}
    (h : RingLogging crc c typ cap s ks segs) : ∃ kept, RingHolds s.fs typ cap segs kept (s.next.toList.map (·.id)) ∧
      (∀ g ∈ kept.take (kept.length - 2), g.safe = g.entries) ∧ (s.old = none → ∀ g ∈ kept.dropLast, g.safe = g.entries) ∧ (s.cur = none → ∀ g ∈ kept, g.safe = g.entries) := by
  have inv := ring_inv hc hf h
  obtain ⟨olds, gone, fin, act, finK, actK, nextK, F⟩ := inv.files
  have hfin : ∀ g ∈ fin, g.safe = g.entries := fun g hg => by
    obtain ⟨k, _, hk⟩ := forall2_left F.done hg
    exact hk.safe
  have hp := F.parts
  refine ⟨_, ring_holds h inv F, ?_, ?_, ?_⟩
  · intro g hg
    have hlen : act.length ≤ 2 := by
      rcases hc' : s.cur with _ | h' <;> rcases ho : s.old with _ | o <;> rw [hc', ho] at hp
      · obtain ⟨rfl, rfl⟩ := hp; simp
      · exact hp.elim
      · obtain ⟨g, k, rfl, rfl, ha⟩ := hp; simp
      · obtain ⟨g, g2, k, k2, rfl, rfl, ha, ha2⟩ := hp; simp
    rw [List.take_append_of_le_length (by rw [List.length_append]; omega)] at hg
    exact hfin g (List.mem_of_mem_take hg)
  · intro ho g hg
    rw [ho] at hp
    rcases hc' : s.cur with _ | h' <;> rw [hc'] at hp
    · obtain ⟨rfl, rfl⟩ := hp
      rw [List.append_nil] at hg
      exact hfin g (List.dropLast_subset _ hg)
    · obtain ⟨g1, k, rfl, rfl, ha⟩ := hp
      rw [List.dropLast_concat] at hg
      exact hfin g hg
  · intro hcn g hg
    rcases ho : s.old with _ | o <;> rw [hcn, ho] at hp
    · obtain ⟨rfl, rfl⟩ := hp
      rw [List.append_nil] at hg
      exact hfin g hg
    · exact hp.elim

/-- **C88** After the ring was closed: every segment that is left reads back as exactly the entries that were logged to it (if nobody has its file open). -/
theorem C88_closed {crc : Bytes → UInt32} {c : Cfg TS TD D DD} (hc : c.Codecs) (hf : c.Fits) {typ cap : Nat} {s : RingLog.St TS D} {ks : List Known} {segs : List (Segment TS D)}
    (h : RingLogging crc c typ cap s ks segs) (hcl : s.cur = none) (hroom : s.fs.at'.opened.length < 32) :
    ∃ kept, RingHolds s.fs typ cap segs kept (s.next.toList.map (·.id)) ∧ ∀ g ∈ kept, g.id ∉ s.fs.at'.opened →
      ∃ content, ReadsAs crc s.fs g.id content ∧ LogReads c content g.entries g.entries := by
  have inv := ring_inv hc hf h
  obtain ⟨olds, gone, fin, act, finK, actK, nextK, F⟩ := inv.files
  have hp := F.parts
  refine ⟨_, ring_holds h inv F, ?_⟩
  rcases ho : s.old with _ | o <;> rw [hcl, ho] at hp
  · obtain ⟨rfl, rfl⟩ := hp
    intro g hg hno
    rw [List.append_nil] at hg
    obtain ⟨k, hk, hkf⟩ := forall2_left F.done hg
    have hmem : k ∈ ks := (List.mem_filter.mp (show k ∈ ofKind typ ks by rw [F.files]; simp [hk])).1
    obtain ⟨pre, p1, _, p2⟩ := (hist_inv inv.hist).closed hmem hkf.writer hkf.whole
    rw [hkf.maybe] at p1
    rw [List.prefix_nil.mp p1, List.append_nil, hkf.id] at p2
    obtain ⟨l0, l', d1, d2, d3, d4, d5⟩ := hkf.data
    refine ⟨k.data, p2 hno hroom, logReads_of hf (by rw [← hkf.safe]; exact d1) d2 d4 d3 d5⟩
  · exact hp.elim

/-- **C88** Reading a ring: if each of the files is a log that reads back as certain entries, the ring reader never panics and gives exactly these entries, file by file, then the end. -/
theorem C88_reader {c : Cfg TS TD D DD} {contents : List Bytes} {entries : List (List (Out TS D))} (h : List.Forall₂ (fun b es => LogReads c b es es) contents entries)
    {sched : Nat → Nat} {r : Reader TS D} {outs : List (Out TS D)} (hr : RingReads c sched contents r outs) :
    outs <+: entries.flatten ∧ ∃ x, r.read c sched = some x ∧ (x.1 = none → outs = entries.flatten) := by
  obtain ⟨ps, rfl, rfl, hp⟩ : ∃ ps : List (Piece TS D), contents = ps.map (·.content) ∧ entries = ps.map (·.may) ∧ ∀ p ∈ ps, p.must = p.may ∧ LogReads c p.content p.must p.may := by
    clear hr
    induction h with
    | nil => exact ⟨[], rfl, rfl, by simp⟩
    | @cons b es bs ess hx _ ih =>
      obtain ⟨ps, rfl, rfl, h3⟩ := ih
      refine ⟨⟨b, es, es⟩ :: ps, rfl, rfl, fun p hp => ?_⟩
      rcases List.mem_cons.mp hp with rfl | hp
      · exact ⟨rfl, hx⟩
      · exact h3 p hp
  have whole : ∀ {qs : List (Piece TS D)} {dl : List (List (Out TS D))}, (∀ p ∈ qs, p.must = p.may) → List.Forall₂ Whole qs dl → dl = qs.map (·.may) := by
    intro qs dl hq hd
    induction hd with
    | nil => rfl
    | @cons p o qs dl hx _ ih =>
      have h1 := hq p (by simp)
      have : o = p.may := hx.2.eq_of_length_le (by rw [← h1]; exact hx.1.length_le)
      rw [this, ih fun q hq' => hq q (by simp [hq']), List.map_cons]
  constructor
  · obtain ⟨dn, cc, rest, dl, h1, h2, h3, h4⟩ := (ring_reads (fun p hm => (hp p hm).2) hr).st
    have hd := whole (fun p hm => (hp p (by rw [h1]; simp [hm])).1) h3
    rw [h1, List.map_append, List.map_append, List.flatten_append, List.flatten_append]
    cases hc : r.cur with
    | none =>
      rw [hc] at h4
      rw [h4.2, hd, List.append_assoc]
      exact List.prefix_append _ _
    | some l =>
      rw [hc] at h4
      obtain ⟨p, lo, rfl, h5, rfl⟩ := h4
      have := ((hp p (by rw [h1]; simp)).2 sched l lo h5).1
      rw [hd, List.append_assoc, List.prefix_append_right_inj]
      simp only [List.map_cons, List.map_nil, List.flatten_cons, List.flatten_nil, List.append_nil]
      exact this.trans (List.prefix_append _ _)
  · obtain ⟨x, h1, h2⟩ := ring_next (fun p hm => (hp p hm).2) hr
    refine ⟨x, h1, fun hx => ?_⟩
    obtain ⟨dl, h3, h4⟩ := h2 hx
    rw [h4, whole (fun p hm => (hp p hm).1) h3]

/-- **C88** … after power was lost: at the end it has given, file by file, at least what was flushed and at most what was logged. -/
theorem C88_reader_cut {c : Cfg TS TD D DD} {contents : List Bytes} {segs : List (Segment TS D)} (h : List.Forall₂ (fun b g => LogReads c b g.safe g.entries) contents segs)
    {sched : Nat → Nat} {r : Reader TS D} {outs : List (Out TS D)} (hr : RingReads c sched contents r outs) :
    ∃ x, r.read c sched = some x ∧ (x.1 = none → ∃ parts, outs = parts.flatten ∧ List.Forall₂ (fun g p => g.safe <+: p ∧ p <+: g.entries) segs parts) := by
  obtain ⟨ps, rfl, hs, hp⟩ : ∃ ps : List (Piece TS D), contents = ps.map (·.content) ∧ List.Forall₂ (fun g p => g.safe = p.must ∧ g.entries = p.may) segs ps ∧ ∀ p ∈ ps, LogReads c p.content p.must p.may := by
    clear hr
    induction h with
    | nil => exact ⟨[], rfl, .nil, by simp⟩
    | @cons b g bs gs hx _ ih =>
      obtain ⟨ps, rfl, h2, h3⟩ := ih
      refine ⟨⟨b, g.safe, g.entries⟩ :: ps, rfl, .cons ⟨rfl, rfl⟩ h2, fun p hp => ?_⟩
      rcases List.mem_cons.mp hp with rfl | hp
      · exact hx
      · exact h3 p hp
  obtain ⟨x, h1, h2⟩ := ring_next hp hr
  refine ⟨x, h1, fun hx => ?_⟩
  obtain ⟨dl, h3, h4⟩ := h2 hx
  refine ⟨dl, h4, ?_⟩
  clear h4 h2 hp hr h
  induction hs generalizing dl with
  | nil => cases h3; exact .nil
  | @cons g p gs ps hx _ ih =>
    cases h3 with
    | cons hy hrest => exact .cons ⟨by rw [hx.1]; exact hy.1, by rw [hx.2]; exact hy.2⟩ (ih _ hrest)

/-- **C88** Reading a ring ends. -/
theorem C88_reading_ends {c : Cfg TS TD D DD} {contents : List Bytes} {entries : List (List (Out TS D))} (h : List.Forall₂ (fun b es => LogReads c b es es) contents entries) (sched : Nat → Nat) :
    ∃ r outs r', RingReads c sched contents r outs ∧ r.read c sched = some (none, r') ∧ outs = entries.flatten := by
  have key : ∀ (n : Nat) (r : Reader TS D) (outs : List (Out TS D)), entries.flatten.length - outs.length ≤ n → RingReads c sched contents r outs →
      ∃ r outs r', RingReads c sched contents r outs ∧ r.read c sched = some (none, r') ∧ outs = entries.flatten := by
    intro n
    induction n with
    | zero =>
      intro r outs hn hr
      obtain ⟨hp, ⟨o, r'⟩, hx, hy⟩ := C88_reader h hr
      cases o with
      | none => exact ⟨r, outs, r', hr, hx, hy rfl⟩
      | some o =>
        have := (C88_reader h (hr.next hx)).1.length_le
        rw [List.length_append, List.length_singleton] at this
        omega
    | succ n ih =>
      intro r outs hn hr
      obtain ⟨hp, ⟨o, r'⟩, hx, hy⟩ := C88_reader h hr
      cases o with
      | none => exact ⟨r, outs, r', hr, hx, hy rfl⟩
      | some o => exact ih r' _ (by rw [List.length_append, List.length_singleton]; omega) (hr.next hx)
  exact key _ _ [] (Nat.le_refl _) .new

/-- **C88** What the entries are: in every segment that is left, the readings correspond one to one to those accepted while it was the current one, each as close as one encoding step. -/
theorem C88_values {crc : Bytes → UInt32} {c : Cfg TS TD D DD} (hc : c.Codecs) (hf : c.Fits) {typ cap : Nat} {s : RingLog.St TS D} {ks : List Known} {segs : List (Segment TS D)}
    (h : RingLogging crc c typ cap s ks segs) {chT clT : TS → TS → Prop} {chD clD : D → D → Prop} (ht : OneStep c.tsDelta chT clT) (hd : OneStep c.dDelta chD clD) :
    ∃ kept, RingHolds s.fs typ cap segs kept (s.next.toList.map (·.id)) ∧ ∀ g ∈ kept, Chained (fun p q => chT p.1 q.1 ∧ chD p.2 q.2) g.inputs →
      List.Forall₂ (fun p o => ∃ t v, o = Out.reading t v ∧ clT p.1 t ∧ clD p.2 v) g.inputs (g.entries.filter Out.isReading) := by
  have inv := ring_inv hc hf h
  obtain ⟨olds, gone, fin, act, finK, actK, nextK, F⟩ := inv.files
  refine ⟨_, ring_holds h inv F, fun g hg hch => ?_⟩
  have hrun : ∃ l, Run c l g.inputs g.entries := by
    rcases List.mem_append.mp hg with hg | hg
    · obtain ⟨k, _, hp⟩ := forall2_left F.done hg; exact hp.run
    · obtain ⟨k, _, hp | ⟨h', hp⟩⟩ := parts_pair F.parts hg
      · exact hp.run
      · exact ⟨h'.l, hp.run⟩
  obtain ⟨l, hl⟩ := hrun
  exact C28_values ht hd hl hch

/-- **C88** The first reading after a new segment was begun is never turned away as being too early: every segment begins with a full reading. -/
theorem C88_first_reading {crc : Bytes → UInt32} {c : Cfg TS TD D DD} {s s' : RingLog.St TS D} (hs : s.swap c = (.ok (), s')) (rng1 rng2 : Nat → Nat × Nat) (t : TS) (v : D) :
    (s'.log crc c rng1 rng2 t v).1 ≠ .ok false := by
  unfold RingLog.St.swap at hs
  split at hs
  · simp only [Prod.mk.injEq, true_and] at hs
    subst hs
    intro hx
    rename_i w _ _ _
    have hx : (LogFile.St.log crc c rng1 rng2 ⟨Logger.new c, w, s.fs⟩ t v).1 = .ok false := hx
    unfold LogFile.St.log at hx
    rw [if_neg (by simp [Logger.refuses, Logger.new])] at hx
    split at hx
    · split at hx
      · split at hx <;> simp at hx
      · simp at hx
    · simp at hx
  · simp at hs

end Verif.Props
