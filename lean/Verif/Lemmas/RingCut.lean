import Verif.Lemmas.RingLog
import Verif.Lemmas.LogPrefix
/-
A ring of sensor logs when power is lost, and reading the ring.
-/
namespace Verif.RingLog
open Verif Verif.Vlfs Verif.Spec Verif.Bit Verif.Delta Verif.Log Verif.LogFile

variable {TS TD D DD : Type}

/-! ### reading one segment -/

theorem logReads_of {c : Cfg TS TD D DD} (hf : c.Fits) {l0 l : Logger TS D} {must may : List (Out TS D)} {src : Bytes} (h0 : WInv c l0 must) (hz : l0.w.len = 0) (h : WInv c l may)
    (h1 : l0.sink <+: src) (h2 : src <+: l.sink) : LogReads c src must may := by
  intro sched r outs hr
  obtain ⟨k1, ⟨x, k2⟩, k3⟩ := cut_log hf h0 hz h h1 h2 hr
  refine ⟨k1, x, k2, fun hx => ?_⟩
  obtain ⟨x1, x2⟩ := x
  simp only at hx
  subst hx
  exact k3 x2 k2

theorem LogReads.mono {c : Cfg TS TD D DD} {src : Bytes} {must must' may may' : List (Out TS D)} (h : LogReads c src must may) (h1 : must' <+: must) (h2 : may <+: may') : LogReads c src must' may' := by
  intro sched r outs hr
  obtain ⟨k1, x, k2, k3⟩ := h sched r outs hr
  exact ⟨k1.trans h2, x, k2, fun hx => h1.trans (k3 hx)⟩

/-- the segment `g` with the file `k` -/
def Pair (c : Cfg TS TD D DD) (g : Segment TS D) (k : Known) : Prop := Fin c g k ∨ ∃ h, Act c h g k

/-- the file of the segment can be opened, and reads back as the entries of the segment, up to what was not flushed -/
def Good (crc : Bytes → UInt32) (c : Cfg TS TD D DD) (fs : FS) (g : Segment TS D) : Prop := ∃ content, ReadsAs crc fs g.id content ∧ LogReads c content g.safe g.entries

theorem kept_good {crc : Bytes → UInt32} {c : Cfg TS TD D DD} (hc : c.Codecs) (hf : c.Fits) {fs fs'' : FS} {ks : List Known} {g : Segment TS D} {k : Known} (hh : Hist crc fs ks) (hk : k ∈ ks)
    (hp : Pair c g k) (hkeep : ∃ ks'', Found crc fs'' ks'' ∧ k.afterLoss ∈ ks'') : Good crc c fs'' g := by
  obtain ⟨ks'', hinv, hmem⟩ := hkeep
  obtain ⟨pre, h1, h2⟩ := hinv.reads hmem (by
    rcases hp with hp | ⟨h, hp⟩
    · exact hp.whole
    · exact (hist_inv hh).whole hk hp.writer)
  rcases hp with hp | ⟨h, hp⟩
  · obtain ⟨l0, l', d1, d2, d3, d4, d5⟩ := hp.data
    unfold Known.afterLoss at h1 h2
    rw [hp.writer] at h1 h2
    simp only [hp.maybe] at h1 h2
    rw [List.prefix_nil.mp h1, List.append_nil, hp.id] at h2
    exact ⟨k.data, h2, logReads_of hf d1 d2 d4 d3 d5⟩
  · obtain ⟨l0, d1, d2, d3⟩ := hp.durable
    have hdur := ((hist_inv hh).durable hk hp.writer).1
    unfold Known.afterLoss at h1 h2
    rw [hp.writer] at h1 h2
    simp only at h1 h2
    rw [hp.id] at h2
    refine ⟨_, h2, logReads_of hf d1 d2 (run_inv hc hf hp.run).1 (d3.trans (List.prefix_append _ _)) ?_⟩
    rw [hp.maybe, List.append_nil] at h1 hdur
    rw [← hp.data]
    obtain ⟨y, hy⟩ := hdur
    rw [← hy, List.drop_left] at h1
    rw [← hy]
    exact (List.prefix_append_right_inj _).mpr h1

theorem forall2_left {α β : Type} {R : α → β → Prop} {a : List α} {b : List β} (h : List.Forall₂ R a b) {x : α} (hx : x ∈ a) : ∃ y ∈ b, R x y := by
  induction h with
  | nil => simp at hx
  | cons hr _ ih =>
    rcases List.mem_cons.mp hx with rfl | hx
    · exact ⟨_, by simp, hr⟩
    · obtain ⟨y, hy, hr⟩ := ih hx
      exact ⟨y, by simp [hy], hr⟩

theorem parts_pair {c : Cfg TS TD D DD} {cur old : Option (Half TS D)} {act : List (Segment TS D)} {actK : List Known} (hp : Parts c cur old act actK) {g : Segment TS D} (hg : g ∈ act) :
    ∃ k ∈ actK, Pair c g k := by
  cases cur with
  | none =>
    cases old with
    | none => obtain ⟨rfl, rfl⟩ := hp; simp at hg
    | some o => exact hp.elim
  | some h =>
    cases old with
    | none =>
      obtain ⟨g1, k, rfl, rfl, ha⟩ := hp
      rw [List.mem_singleton] at hg; subst hg
      exact ⟨k, by simp, .inr ⟨h, ha⟩⟩
    | some o =>
      obtain ⟨go, g1, ko, k, rfl, rfl, ha, ha2⟩ := hp
      simp at hg
      rcases hg with rfl | rfl
      · exact ⟨ko, by simp, .inr ⟨o, ha⟩⟩
      · exact ⟨k, by simp, .inr ⟨h, ha2⟩⟩

theorem during_nil (l : List (Segment TS D)) : during [] l = l := by
  induction l with
  | nil => rfl
  | cons g l ih =>
    cases l with
    | nil => simp [during, Segment.add]
    | cons g' l => rw [during, ih]; simp

theorem during_snoc (extra : List (Out TS D)) (l : List (Segment TS D)) (g : Segment TS D) : during extra (l ++ [g]) = l ++ [g.add [] extra] := by
  induction l with
  | nil => rfl
  | cons x l ih =>
    rw [List.cons_append, List.cons_append]
    cases l with
    | nil => rfl
    | cons y l => rw [List.cons_append, during, ← List.cons_append, ih]; simp

/-- all segments that are on the chip, when all files of the type are kept -/
theorem all_kept {crc : Bytes → UInt32} {c : Cfg TS TD D DD} (hc : c.Codecs) (hf : c.Fits) {typ : Nat} {s : St TS D} {fs'' : FS} {ks : List Known} {segs : List (Segment TS D)} {olds : List Known}
    {gone fin act : List (Segment TS D)} {finK actK nextK : List Known} (hh : Hist crc s.fs ks) (F : Files c s (ofKind typ ks) segs olds gone fin act finK actK nextK)
    (hkeep : ∀ k ∈ ofKind typ ks, ∃ ks'', Found crc fs'' ks'' ∧ k.afterLoss ∈ ks'') : ∀ g ∈ fin ++ act, Good crc c fs'' g := by
  intro g hg
  have : ∃ k ∈ ofKind typ ks, Pair c g k := by
    rcases List.mem_append.mp hg with hg | hg
    · obtain ⟨k, hk, hp⟩ := forall2_left F.done hg
      exact ⟨k, by rw [F.files]; simp [hk], .inl hp⟩
    · obtain ⟨k, hk, hp⟩ := parts_pair F.parts hg
      exact ⟨k, by rw [F.files]; simp [hk], hp⟩
  obtain ⟨k, hk, hp⟩ := this
  exact kept_good hc hf hh (List.mem_filter.mp hk).1 hp (hkeep k hk)

/-- a logger was making a call -/
theorem focus_good {crc : Bytes → UInt32} {c : Cfg TS TD D DD} (hf : c.Fits) {fs : FS} {ks : List Known} {h : Half TS D} {g : Segment TS D} {k : Known} (ha : Act c h g k)
    (hh : Hist crc fs ks) (hk : k ∈ ks) {α : Type} {ops : List WriterOp} {fops : List FlashOp} {r : Except Err α × LogFile.St TS D} {b : α} {l' : Logger TS D} {ex : List (Out TS D)} {fl' : Flash}
    (hdo : Does crc ⟨h.l, h.w, fs⟩ ops r b l') (hi : issued fs r.2.fs fops) (hcr : CrashImage fs.dev.flash fops fl') (hw' : WInv c l' (g.entries ++ ex)) :
    ∃ fs'', FS.mount fl' = (.ok (), fs'') ∧ Good crc c fs'' (g.add [] ex) ∧ ∀ x ∈ ks, x.id ≠ k.id → ∃ ks'', Found crc fs'' ks'' ∧ x.afterLoss ∈ ks'' := by
  rw [hdo.fs] at hi
  obtain ⟨l0, d1, d2, d3⟩ := ha.durable
  obtain ⟨a, b, rfl⟩ := List.append_of_mem hk
  obtain ⟨fs'', m1, cont, e1, e2, e3, ks'', e4, e5⟩ := runWriter_crash hh ha.writer ha.maybe hi hcr
  rw [ha.id] at e3
  refine ⟨fs'', m1, ⟨cont, e3, logReads_of hf d1 d2 hw' (d3.trans e1) ?_⟩, fun x hx hne => ⟨ks'', e4, e5 x ?_⟩⟩
  · rw [hdo.1, ← ha.data]; exact e2
  · rcases List.mem_append.mp hx with hx | hx
    · simp [hx]
    · rcases List.mem_cons.mp hx with rfl | hx
      · exact absurd rfl hne
      · simp [hx]

theorem issued_nil {fs : FS} {ops : List FlashOp} (h : issued fs fs ops) : ops = [] := by
  unfold issued at h
  simpa using h

theorem rotate_zero (fs : FS) (typ r1 r2 : Nat) : fs.rotate typ 0 r1 r2 = fs.createFileAndOpen typ r1 r2 := by
  have : ∀ (fuel : Nat) (b : Builder), rotateLoop typ fuel b 0 = copyRest fuel b := by
    intro fuel
    induction fuel with
    | zero => intro b; rfl
    | succ n ih =>
      intro b
      rw [rotateLoop, copyRest]
      rcases b.readNext with ⟨_ | (_ | e), b'⟩
      · rfl
      · rfl
      · simp only [gt_iff_lt, Nat.lt_irrefl, and_false, if_false]
        exact ih _
  unfold FS.rotate FS.createFileAndOpen
  simp only [this]
  rcases copyRest maxEntries (Builder.new fs) with ⟨_ | _, b⟩
  · rfl
  · simp only
    rcases b.writeNewFileAndOpen typ r1 r2 with ⟨_ | _, b⟩ <;> rfl

theorem kept_all {crc : Bytes → UInt32} {fs'' : FS} {typ : Nat} {ks ks2 : List Known} (h : Back crc fs'' ks2) (hk : ∀ k ∈ ofKind typ ks, k ∈ ks2) :
    ∀ k ∈ ofKind typ ks, ∃ ks'', Found crc fs'' ks'' ∧ k.afterLoss ∈ ks'' := fun k hx => ⟨_, h, List.mem_map.mpr ⟨k, hk k hx, rfl⟩⟩

/-- **ring cut** what the chip holds of the ring after power was lost -/
theorem ring_cut {crc : Bytes → UInt32} {c : Cfg TS TD D DD} (hc : c.Codecs) (hf : c.Fits) {typ cap : Nat} {s : St TS D} {ks : List Known} {segs : List (Segment TS D)} {fl' : Flash} {extra : List (Out TS D)}
    (inv : RInv crc c typ cap s ks segs) (hcut : RingCut crc c typ s ks fl' extra) {olds : List Known}
    {gone fin act : List (Segment TS D)} {finK actK nextK : List Known} (F : Files c s (ofKind typ ks) segs olds gone fin act finK actK nextK) :
    ∃ fs'', FS.mount fl' = (.ok (), fs'') ∧ ∀ g ∈ during extra (fin ++ act), Good crc c fs'' g := by
  have hsub : ∀ k ∈ ofKind typ ks, k ∈ ks := fun k hk => (List.mem_filter.mp hk).1
  -- nothing is being changed among the files of the ring
  have quiet : ∀ {fs'' : FS} {fl2 : Flash}, FS.mount fl2 = (.ok (), fs'') → (∀ k ∈ ofKind typ ks, ∃ ks'', Found crc fs'' ks'' ∧ k.afterLoss ∈ ks'') →
      ∃ fs'', FS.mount fl2 = (.ok (), fs'') ∧ ∀ g ∈ during [] (fin ++ act), Good crc c fs'' g := by
    intro fs'' fl2 hm hk
    refine ⟨fs'', hm, ?_⟩
    rw [during_nil]
    exact all_kept hc hf inv.hist F hk
  have idle : ∃ fs'', FS.mount s.fs.dev.flash = (.ok (), fs'') ∧ ∀ g ∈ during [] (fin ++ act), Good crc c fs'' g := by
    obtain ⟨fs', m1, m4⟩ := restart_back (hist_inv inv.hist)
    exact quiet m1 (kept_all m4 hsub)
  have none' : ∀ {ops : List FlashOp}, issued s.fs s.fs ops → CrashImage s.fs.dev.flash ops fl' → ∃ fs'', FS.mount fl' = (.ok (), fs'') ∧ ∀ g ∈ during [] (fin ++ act), Good crc c fs'' g := by
    intro ops hi hcr
    have := issued_nil hi
    subst this
    have := crash_nil hcr
    subst this
    exact idle
  have hids : (ofKind typ ks).Pairwise fun a b => a.id ≠ b.id := (ids_unique (hist_inv inv.hist)).filter _
  -- the segments before the current one
  have front : ∀ {h : Half TS D} {pa : List (Segment TS D)} {pk : List Known} {g : Segment TS D} {k : Known}, s.cur = some h → act = pa ++ [g] → actK = pk ++ [k] → ∀ x ∈ fin ++ pa, ∃ y ∈ finK ++ pk, Pair c x y := by
    intro h pa pk g k hcur ea ek x hx
    have hp := F.parts
    rw [hcur, ea, ek] at hp
    rcases List.mem_append.mp hx with hx | hx
    · obtain ⟨y, hy, hp⟩ := forall2_left F.done hx
      exact ⟨y, by simp [hy], .inl hp⟩
    · cases hold : s.old with
      | none =>
        rw [hold] at hp
        obtain ⟨g1, k1, q1, q2, _⟩ := hp
        have := congrArg List.length q1
        simp at this
        subst this; simp at hx
      | some o =>
        rw [hold] at hp
        obtain ⟨go, g1, ko, k1, q1, q2, q3, _⟩ := hp
        have e1 := last_eq (a := pa) (b := [go]) q1
        have e2 := last_eq (a := pk) (b := [ko]) q2
        rw [e1.1] at hx
        rw [List.mem_singleton] at hx; subst hx
        exact ⟨ko, by rw [e2.1]; simp, .inr ⟨o, q3⟩⟩
  -- the current logger was making a call
  have cur : ∀ {h : Half TS D} {α : Type} {ops : List WriterOp} {fops : List FlashOp} {r : Except Err α × LogFile.St TS D} {b : α} {l' : Logger TS D} {ex : List (Out TS D)}, s.cur = some h →
      Does crc ⟨h.l, h.w, s.fs⟩ ops r b l' → issued s.fs r.2.fs fops → CrashImage s.fs.dev.flash fops fl' → (∀ acc, WInv c h.l acc → h.l.w.len < 8 → WInv c l' (acc ++ ex)) →
      ∃ fs'', FS.mount fl' = (.ok (), fs'') ∧ ∀ g ∈ during ex (fin ++ act), Good crc c fs'' g := by
    intro h α ops fops r b l' ex hcur hdo hi hcr hw'
    have hp := F.parts
    rw [hcur] at hp
    obtain ⟨pa, pk, g, k, rfl, rfl, ha, hback⟩ := parts_cur hp
    have hk : ofKind typ ks = (olds ++ finK ++ pk) ++ k :: nextK := by rw [F.files]; simp
    obtain ⟨hwi, hli⟩ := run_inv hc hf ha.run
    obtain ⟨fs'', m1, m2, m3⟩ := focus_good hf ha inv.hist (mem_kind hk).1 hdo hi hcr (hw' _ hwi hli)
    refine ⟨fs'', m1, ?_⟩
    rw [← List.append_assoc, during_snoc]
    intro x hx
    rcases List.mem_append.mp hx with hx | hx
    · have hpair := front hcur rfl rfl x hx
      obtain ⟨y, hy, hpr⟩ := hpair
      have hymem : y ∈ ofKind typ ks := by rw [hk]; rcases List.mem_append.mp hy with hy | hy <;> simp [hy]
      refine kept_good hc hf inv.hist (hsub y hymem) hpr (m3 y (hsub y hymem) ?_)
      rw [hk, List.pairwise_append] at hids
      exact hids.2.2 y (by rcases List.mem_append.mp hy with hy | hy <;> simp [hy]) k (by simp)
    · rw [List.mem_singleton] at hx; subst hx; exact m2
  cases hcut with
  | idle => exact idle
  | log h hcur rng1 rng2 t v b l' ops _ hl' hi hcr =>
    obtain ⟨wops, ho, hdo⟩ := log_does crc rng1 rng2 hl'
    unfold St.log at hi
    rw [hcur] at hi
    refine cur hcur (hdo h.w s.fs) hi hcr fun acc hwi hli => ?_
    rcases log_inv hc hf hwi hli hl' with ⟨e1, e2, _⟩ | ⟨e1, _, e3, _⟩
    · subst e1; subst e2; simpa using hwi
    · subst e1; simpa [List.append_assoc] using e3
  | unix h hcur rng u ops _ hi hcr =>
    have hp := F.parts
    rw [hcur] at hp
    obtain ⟨pa, pk, g, k, _, _, ha, _⟩ := parts_cur hp
    obtain ⟨hwi, hli⟩ := run_inv hc hf ha.run
    obtain ⟨l', hpu, _⟩ := logUnix_ok hf u hwi hli
    obtain ⟨wops, ho, hdo⟩ := logUnix_does crc rng hpu
    unfold St.logUnix at hi
    rw [hcur] at hi
    refine cur hcur (hdo h.w s.fs) hi hcr fun acc hwi hli => ?_
    obtain ⟨l2, hp2, hw2, _⟩ := logUnix_ok hf u hwi hli
    rw [hpu] at hp2
    injection hp2 with hp2
    subst hp2
    exact hw2
  | flush rng r1 r2 ops _ hi hcr =>
    unfold St.flush at hi
    cases hcur : s.cur with
    | none => rw [hcur] at hi; exact none' hi hcr
    | some h =>
      rw [hcur] at hi
      have hp := F.parts
      rw [hcur] at hp
      obtain ⟨pa, pk, g, k, _, _, ha, _⟩ := parts_cur hp
      obtain ⟨hwi, hli⟩ := run_inv hc hf ha.run
      obtain ⟨l', hpu, _⟩ := flush_ok hf hwi hli
      obtain ⟨wops, ho, hdo⟩ := flush_does crc rng r1 r2 hpu
      refine cur hcur (hdo h.w s.fs) hi hcr fun acc hwi hli => ?_
      obtain ⟨l2, hp2, hw2, _⟩ := flush_ok hf hwi hli
      rw [hpu] at hp2
      injection hp2 with hp2
      subst hp2
      rw [List.append_nil]; exact hw2
  | flushOld rng r1 r2 ops _ hi hcr =>
    unfold St.flushOld at hi
    cases hold : s.old with
    | none => rw [hold] at hi; exact none' hi hcr
    | some h =>
      rw [hold] at hi
      have hp := F.parts
      rw [hold] at hp
      obtain ⟨hcur, go, g, ko, k, hcc, rfl, rfl, ha, ha2⟩ := parts_old hp
      have hk : ofKind typ ks = (olds ++ finK) ++ ko :: (k :: nextK) := by rw [F.files]; simp
      obtain ⟨hwi, hli⟩ := run_inv hc hf ha.run
      obtain ⟨l', hpu, hw2, _⟩ := flush_ok hf hwi hli
      obtain ⟨wops, ho, hdo⟩ := flush_does crc rng r1 r2 hpu
      obtain ⟨fs'', m1, m2, m3⟩ := focus_good (ex := []) hf ha inv.hist (mem_kind hk).1 (hdo h.w s.fs) hi hcr (by rw [List.append_nil]; exact hw2)
      have m2 : Good crc c fs'' go := by simpa [Segment.add] using m2
      refine ⟨fs'', m1, ?_⟩
      rw [during_nil]
      rw [hk, List.pairwise_append, List.pairwise_cons] at hids
      intro x hx
      have other : ∀ y ∈ ofKind typ ks, y.id ≠ ko.id → Pair c x y → Good crc c fs'' x := fun y hy hne hpr => kept_good hc hf inv.hist (hsub y hy) hpr (m3 y (hsub y hy) hne)
      rcases List.mem_append.mp hx with hx | hx
      · obtain ⟨y, hy, hpr⟩ := forall2_left F.done hx
        exact other y (by rw [hk]; simp [hy]) (hids.2.2 y (by simp [hy]) ko (by simp)) (.inl hpr)
      · simp at hx
        rcases hx with rfl | rfl
        · exact m2
        · exact other k (by rw [hk]; simp) (Ne.symm (hids.2.1.1 k (by simp))) (.inr ⟨hcur, ha2⟩)
  | closeOld ops _ hi hcr =>
    unfold St.closeOld at hi
    cases hold : s.old with
    | none => rw [hold] at hi; exact none' hi hcr
    | some h =>
      rw [hold] at hi
      have hp := F.parts
      rw [hold] at hp
      obtain ⟨hcur, go, g, ko, k, hcc, rfl, rfl, ha, ha2⟩ := parts_old hp
      have hk : ofKind typ ks = (olds ++ finK) ++ ko :: (k :: nextK) := by rw [F.files]; simp
      obtain ⟨a, b, hab⟩ := List.append_of_mem (mem_kind hk).1
      obtain ⟨fs', m1, _, m3, m4⟩ := step_loss (hist_inv inv.hist) (.mk a b ko h.w _ [] ops fl' hab ha.writer (.inr rfl) .close hi hcr)
      rw [List.append_nil, show ({ ko with maybe := ko.maybe } : Known) = ko from rfl, ← hab] at m4
      have m4 := m4.back m3
      exact quiet m1 (kept_all m4 hsub)
  | close rng r1 r2 ops _ hi hcr =>
    unfold St.close at hi
    cases hcur : s.cur with
    | none => rw [hcur] at hi; exact none' hi hcr
    | some h =>
      rw [hcur] at hi
      have hp := F.parts
      rw [hcur] at hp
      obtain ⟨pa, pk, g, k, epa, epk, ha, _⟩ := parts_cur hp
      obtain ⟨hwi, hli⟩ := run_inv hc hf ha.run
      obtain ⟨l', hpu, hwu, _⟩ := flush_ok hf hwi hli
      obtain ⟨wops, ho, hdo⟩ := flush_does crc rng r1 r2 hpu
      have flushing : ∀ {os : List FlashOp}, issued s.fs (LogFile.St.flush crc rng r1 r2 ⟨h.l, h.w, s.fs⟩).2.fs os → CrashImage s.fs.dev.flash os fl' →
          ∃ fs'', FS.mount fl' = (.ok (), fs'') ∧ ∀ g ∈ during [] (fin ++ act), Good crc c fs'' g := fun hi2 hcr2 => by
        refine cur hcur (hdo h.w s.fs) hi2 hcr2 fun acc hwi hli => ?_
        obtain ⟨l2, hp2, hw2, _⟩ := flush_ok hf hwi hli
        rw [hpu] at hp2
        injection hp2 with hp2
        subst hp2
        rw [List.append_nil]; exact hw2
      rcases hx : LogFile.St.flush crc rng r1 r2 ⟨h.l, h.w, s.fs⟩ with ⟨r, f⟩
      simp only [hx] at hi
      cases r with
      | error e => exact flushing (by rw [hx]; exact hi) hcr
      | ok x =>
        cases x
        simp only at hi
        -- the operations of the flush, then those of the close
        have hk : ofKind typ ks = (olds ++ finK ++ pk) ++ k :: nextK := by rw [F.files, epk]; simp
        obtain ⟨a, b, hab⟩ := List.append_of_mem (mem_kind hk).1
        have hfs := (hdo h.w s.fs).fs
        rw [hx] at hfs
        obtain ⟨os1, ho1⟩ := runWriter_dev (ops := wops ++ [.flush r1 r2]) (hab ▸ inv.hist) ha.writer ha.maybe
        have ho1 : f.fs.dev = s.fs.dev.ops os1 := by rw [← ho1, hfs]
        have hri := (ha.recInv inv.hist (mem_kind hk).1).flush hc hf hx
        obtain ⟨k2, hk2, hr2⟩ := hri.file
        obtain ⟨a2, b2, hab2⟩ := List.append_of_mem hk2
        obtain ⟨os2, ho2⟩ := writerCall_dev (hist_inv hri.hist) hab2 hr2.writer .close
        have hfo : ops = os1 ++ os2 := by
          unfold issued at hi
          rw [ho2, ho1] at hi
          simp only [Dev.ops, List.append_assoc, List.append_cancel_left_eq] at hi
          exact hi.symm
        subst hfo
        rcases crash_append hcr with hc1 | hc2
        · exact flushing (os := os1) (by rw [hx]; unfold issued; rw [ho1]; rfl) hc1
        · have hc2 : CrashImage f.fs.dev.flash os2 fl' := by rw [ho1]; exact hc2
          obtain ⟨fs', m1, _, m3, m4⟩ := step_loss (hist_inv hri.hist) (.mk a2 b2 k2 f.w _ [] os2 fl' hab2 hr2.writer (.inr rfl) .close (by unfold issued; rw [ho2]; rfl) hc2)
          rw [List.append_nil, show ({ k2 with maybe := k2.maybe } : Known) = k2 from rfl, ← hab2] at m4
          have m4 := m4.back m3
          refine ⟨fs', m1, ?_⟩
          rw [during_nil, epa, ← List.append_assoc]
          intro x hx
          rcases List.mem_append.mp hx with hx | hx
          · obtain ⟨y, hy, hpr⟩ := front hcur epa epk x hx
            have hymem : y ∈ ofKind typ ks := by rw [hk]; rcases List.mem_append.mp hy with hy | hy <;> simp [hy]
            have hne : y.id ≠ k.id := by
              rw [hk, List.pairwise_append] at hids
              exact hids.2.2 y (by rcases List.mem_append.mp hy with hy | hy <;> simp [hy]) k (by simp)
            have hyf : y ∈ flushed g.id f ks := List.mem_map.mpr ⟨y, hsub y hymem, if_neg (by rw [← ha.id]; exact hne)⟩
            exact kept_good hc hf hri.hist hyf hpr ⟨_, m4, List.mem_map.mpr ⟨y, hyf, rfl⟩⟩
          · rw [List.mem_singleton] at hx; subst hx
            have hact : Act c ⟨f.l, f.w⟩ x.flushed k2 := ⟨hri.run, hr2.id, hr2.writer, hr2.maybe, hr2.data, hr2.durable, List.prefix_rfl⟩
            obtain ⟨content, q1, q2⟩ := kept_good hc hf hri.hist hk2 (.inr ⟨_, hact⟩) ⟨_, m4, List.mem_map.mpr ⟨k2, hk2, rfl⟩⟩
            exact ⟨content, q1, LogReads.mono q2 ha.le List.prefix_rfl⟩
  | begin r1 r2 s' ops _ hroom hcap hok hb hi hp =>
    have hz : s.plan.1 = 0 := by unfold St.plan; rw [if_neg (by omega)]
    unfold St.beginSegment at hb
    rw [hz, rotate_zero, inv.typEq] at hb
    rcases hrot : s.fs.createFileAndOpen typ r1 r2 with ⟨_ | e, fs1⟩
    · rw [hrot] at hb; simp at hb
    simp only [hrot] at hb
    have hfs : s'.fs = fs1 := by
      cases hwo : writerOf e with
      | none => rw [hwo] at hb; simp at hb
      | some w' => rw [hwo] at hb; simp at hb; rw [← hb]
    rw [hfs] at hi
    obtain ⟨fs'', ks2, m1, m2, m3⟩ := loss_allocStep_any (hist_inv inv.hist) (.createOpen typ r1 r2 e fs1 hrot (by omega) inv.small hok) hi (by simp; omega) hp
    refine quiet m1 (kept_all m3 fun k hk => ?_)
    rcases m2 with rfl | rfl
    · exact hsub k hk
    · exact List.mem_append_left _ (hsub k hk)
  | otherWrite ks' _ hl hkeep =>
    obtain ⟨fs', m1, m4⟩ := loss_found (hist_inv inv.hist) hl
    refine quiet m1 fun k hk => ⟨_, m4, ?_⟩
    have : k.afterLoss ∈ ofKind typ ks' := by rw [hkeep]; exact List.mem_map.mpr ⟨k, hk, rfl⟩
    exact (List.mem_filter.mp this).1
  | otherDir fs' ks' ops _ hs hkeep hi hlen hp =>
    obtain ⟨fs'', ks2, m1, m2, m3⟩ := loss_dir_any (hist_inv inv.hist) hs hi hlen hp
    refine quiet m1 (kept_all m3 fun k hk => ?_)
    rcases m2 with rfl | rfl
    · exact hsub k hk
    · rw [← hkeep] at hk; exact (List.mem_filter.mp hk).1
  | otherOpen fs' ks' ops _ hs hkeep hi hlen hp =>
    obtain ⟨fs'', ks2, m1, m2, m3⟩ := loss_allocStep_any (hist_inv inv.hist) hs hi hlen hp
    refine quiet m1 (kept_all m3 fun k hk => ?_)
    rcases m2 with rfl | rfl
    · exact hsub k hk
    · rw [← hkeep] at hk; exact (List.mem_filter.mp hk).1

end Verif.RingLog
