import Verif.Lemmas.DirOps
import Verif.Spec.DirHistory
/-
The invariant of all reachable directory states.
-/
namespace Verif.Vlfs
open Verif Verif.Spec

/-- all file types are small -/
def SmallTypes (es : List FileEntry) : Prop := ∀ e ∈ es, e.typ < 0x4000

structure ReachInv (fs : FS) (es : List FileEntry) (ids : List Nat) : Prop where
  dir : DirInv fs es
  range : MngRange fs.mng
  small : SmallTypes es
  ids : ∀ x ∈ ids, x ≤ fs.at'.maxId

/-- formatting a chip -/
theorem format_inv (fl : Flash) (h : ∀ q, q < 4 → headerDeserialize (fl.read (q * 32768) 13) = none) :
    FS.mount fl = (.ok (), ⟨AT.default, SectorsMng.new, writeEmptyTable AT.default ⟨fl, []⟩⟩) ∧
    DirInv ⟨AT.default, SectorsMng.new, writeEmptyTable AT.default ⟨fl, []⟩⟩ [] := by
  have hstep : ∀ st q, q < 4 → readLatestStep fl st q = st := by
    intro st q hq
    unfold readLatestStep readSlot
    rw [slotAddr_eq, h q hq]
  have hlat : readLatest fl AT.default = (AT.default, false) := by
    have hr : List.range TABLE_COUNT = [0, 1, 2, 3] := by decide
    simp only [readLatest, hr, List.foldl_cons, List.foldl_nil]
    rw [hstep _ 0 (by omega), hstep _ 1 (by omega), hstep _ 2 (by omega), hstep _ 3 (by omega)]
  refine ⟨?_, ?_⟩
  · unfold FS.mount
    simp only [hlat, Bool.false_eq_true, if_false]
  · -- content
    have hw0 : PageWriter.Inv ⟨0, []⟩ 0 [] := ⟨by simp, by simp⟩
    obtain ⟨h1, os1, h2, h3⟩ := extend_spec hw0 ((⟨fl, []⟩ : Dev).op (.erase 0 4096)) (headerSerialize 1)
    obtain ⟨h4, os2, h5, h6⟩ := extend_spec h1 (PageWriter.extend ⟨0, []⟩ ((⟨fl, []⟩ : Dev).op (.erase 0 4096)) (headerSerialize 1)).2
      (footerSerialize 0)
    obtain ⟨os3, h7, h8⟩ := flush_spec h4 (PageWriter.extend (PageWriter.extend ⟨0, []⟩ ((⟨fl, []⟩ : Dev).op (.erase 0 4096))
      (headerSerialize 1)).1 (PageWriter.extend ⟨0, []⟩ ((⟨fl, []⟩ : Dev).op (.erase 0 4096)) (headerSerialize 1)).2 (footerSerialize 0)).2
    have himg : headerSerialize 1 ++ footerSerialize 0 = tableImage 1 [] 0 := by simp [tableImage]
    have hlen := tableImage_length 1 [] 0
    rw [List.nil_append] at h3 h6 h8
    rw [himg] at h6 h8
    have hops : os1 ++ os2 ++ os3 = pages 0 (tableImage 1 [] 0) 1 := by
      have e0 : os1 = pages 0 (headerSerialize 1) ((headerSerialize 1).length / 256) := by rw [← h3]; simp [pages]
      rw [e0, h6, h8, hlen]; rfl
    have hdev : writeEmptyTable AT.default ⟨fl, []⟩ = ((⟨fl, []⟩ : Dev).op (.erase 0 4096)).ops (pages 0 (tableImage 1 [] 0) 1) := by
      have ha : AT.default.address = 0 := rfl
      have hs : AT.default.seq = 1 := rfl
      have hm : AT.default.maxId = 0 := rfl
      unfold writeEmptyTable
      simp only [ha, hs, hm]
      rw [h7, h5, h2, Dev.ops_ops, Dev.ops_ops, ← List.append_assoc, hops]
    have hflash : ∀ a, (writeEmptyTable AT.default ⟨fl, []⟩).flash a =
        if a < 256 then (tableImage 1 [] 0).getD a 0xFF else if a < 4096 then 0xFF else fl a := by
      intro a
      rw [hdev]
      show applyOps (FlashOp.apply fl (.erase 0 4096)) _ a = _
      rw [applyOps_pages]
      simp only [FlashOp.apply]
      by_cases h1 : a < 256
      · rw [if_pos (by omega), if_pos (by omega), if_pos h1, ff_and]; rfl
      · rw [if_neg (by omega), if_neg h1]
        by_cases h2 : a < 4096
        · rw [if_pos (by omega), if_pos h2]
        · rw [if_neg (by omega), if_neg h2]
    have hpre : Prefix (writeEmptyTable AT.default ⟨fl, []⟩).flash 0 (tableImage 1 [] 0) 26 := by
      refine ⟨fun j h1 _ => ?_, fun j h1 h2 _ => ?_⟩
      · rw [hflash, slotAddr_eq, if_pos (by omega)]; congr 1; omega
      · rw [hflash, slotAddr_eq, if_pos (by omega), List.getD_eq_getElem?_getD, List.getElem?_eq_none (by rw [hlen]; simp; omega)]; rfl
    refine ⟨show 0 < 4 by decide, show 1 ≤ 1 by decide, show 1 < 2 ^ 64 by decide, ?_, rfl, by simp, ?_, by simp, by simp, by simp,
      by simp, show 0 < 2 ^ 64 by decide⟩
    · exact SlotHolds.of_complete hpre (by simp) (show 1 < 2 ^ 64 by decide)
        ⟨by simp, by simp, by simp, by simp, by simp, show 0 < 2 ^ 64 by decide⟩
    · intro q hq hne
      have hne : q ≠ 0 := hne
      apply stale_of_noheader
      rw [← h q hq]
      congr 1
      rw [← slotAddr_eq]
      apply Flash.read_congr
      intro i hi
      show (writeEmptyTable AT.default ⟨fl, []⟩).flash _ = _
      rw [hflash, slotAddr_eq, if_neg (by omega), if_neg (by omega)]

theorem keeps_eq (op : List Nat) (filter : FileEntry → Bool) (e : FileEntry) :
    keeps op filter e = (!filter e || decide (e.id ∈ op)) := by
  unfold keeps
  congr 1
  rw [Bool.eq_iff_iff, List.any_eq_true, decide_eq_true_eq]
  constructor
  · rintro ⟨x, hx, he⟩; rw [beq_iff_eq] at he; subst he; exact hx
  · intro h; exact ⟨e.id, h, by simp⟩

theorem setFirst_eq (id : Nat) (first : Option Nat) :
    (fun e : FileEntry => if e.id = id then { e with first := first } else e) = setFirst id first := rfl

theorem filter_congr_mem {α : Type} {p q : α → Bool} : ∀ {l : List α}, (∀ x ∈ l, p x = q x) → l.filter p = l.filter q
  | [], _ => rfl
  | x :: l, h => by
    rw [List.filter_cons, List.filter_cons, h x (List.mem_cons_self ..), filter_congr_mem (fun y hy => h y (List.mem_cons_of_mem _ hy))]

/-- in a directory sorted by id the first files of a type are the oldest -/
theorem dropFirst_eq (typ : Nat) : ∀ (es : List FileEntry) (k : Nat), es.Pairwise (fun a b => a.id < b.id) →
    dropFirst typ k es = es.filter fun x => !amongOldest typ k es x
  | [], _, _ => rfl
  | e :: es, k, h => by
    rw [List.pairwise_cons] at h
    obtain ⟨h1, h2⟩ := h
    have hnone : (e :: es).filter (fun x => x.typ == typ && decide (x.id < e.id)) = [] := by
      rw [List.filter_eq_nil_iff]
      intro x hx
      rcases List.mem_cons.mp hx with rfl | hx
      · simp
      · have := h1 x hx; simp; intro _; omega
    have hrank : ∀ x ∈ es, ((e :: es).filter (fun y => y.typ == typ && decide (y.id < x.id))).length =
        (es.filter (fun y => y.typ == typ && decide (y.id < x.id))).length + (if e.typ = typ then 1 else 0) := by
      intro x hx
      have hlt := h1 x hx
      rw [List.filter_cons]
      by_cases ht : e.typ = typ
      · rw [if_pos (by simp [ht, hlt]), if_pos ht, List.length_cons]
      · rw [if_neg (by simp [ht]), if_neg ht]; omega
    rw [dropFirst]
    by_cases hc : e.typ = typ ∧ k > 0
    · rw [if_pos hc, dropFirst_eq typ es (k - 1) h2, List.filter_cons]
      have he : amongOldest typ k (e :: es) e = true := by
        unfold amongOldest; rw [hnone]; simp [hc.1]; omega
      rw [he]
      simp only [Bool.not_true, Bool.false_eq_true, if_false]
      apply filter_congr_mem
      intro x hx
      unfold amongOldest
      rw [hrank x hx, if_pos hc.1]
      congr 2
      rw [decide_eq_decide]; omega
    · rw [if_neg hc, dropFirst_eq typ es k h2, List.filter_cons]
      have he : amongOldest typ k (e :: es) e = false := by
        unfold amongOldest; rw [hnone]
        by_cases ht : e.typ = typ
        · have : k = 0 := by by_cases hk : k > 0; exact absurd ⟨ht, hk⟩ hc; omega
          simp [this]
        · simp [ht]
      rw [he]
      simp only [Bool.not_false, if_true]
      congr 1
      apply filter_congr_mem
      intro x hx
      unfold amongOldest
      rw [hrank x hx]
      by_cases ht : e.typ = typ
      · have : k = 0 := by by_cases hk : k > 0; exact absurd ⟨ht, hk⟩ hc; omega
        subst this; simp
      · rw [if_neg ht, Nat.add_zero]

/-- what a successful call does -/
theorem call_rewrite {fs fs' : FS} {es es' : List FileEntry} {ids new : List Nat} (hr : ReachInv fs es ids)
    (hc : Call fs es fs' es' new) (hok : countersOk fs) :
    ∃ m, Rewrite fs fs' es' m ∧ Writable es' m ∧ SmallTypes es' ∧ MngRange fs'.mng ∧ fs.at'.maxId ≤ m ∧
      (∀ x ∈ new, fs.at'.maxId < x ∧ x ≤ m) := by
  have hd := hr.dir
  have hcap := hd.cap
  have snoc : ∀ (typ : Nat) (first : Option Nat), typ < 0x4000 → (∀ s, first = some s → s < 0xFFFF) → es.length < 2518 →
      Writable (es ++ [⟨fs.at'.maxId + 1, typ, first⟩]) (fs.at'.maxId + 1) ∧
      SmallTypes (es ++ [⟨fs.at'.maxId + 1, typ, first⟩]) := by
    intro typ first ht hf hl
    refine ⟨⟨by rw [List.length_append, List.length_singleton]; omega, ?_, ?_, ?_, ?_, hok.2⟩, ?_⟩
    · intro e he
      rcases List.mem_append.mp he with he | he
      · exact hd.wf e he
      · rw [List.mem_singleton] at he; subst he
        exact ⟨hok.2, by show typ < 2 ^ 16; omega, hf⟩
    · intro e he
      rcases List.mem_append.mp he with he | he
      · exact hd.typ e he
      · rw [List.mem_singleton] at he; subst he; show typ ≠ _; omega
    · rw [List.pairwise_append]
      refine ⟨hd.sorted, by simp, ?_⟩
      intro a ha b hb
      rw [List.mem_singleton] at hb; subst hb
      have := hd.maxId a ha
      show a.id < fs.at'.maxId + 1; omega
    · intro e he
      rcases List.mem_append.mp he with he | he
      · have := hd.maxId e he; omega
      · rw [List.mem_singleton] at he; subst he; exact Nat.le_refl _
    · intro e he
      rcases List.mem_append.mp he with he | he
      · exact hr.small e he
      · rw [List.mem_singleton] at he; subst he; exact ht
  cases hc with
  | create typ e fs' h hc ht =>
    obtain ⟨g, h1, h2, h3⟩ := createFile_spec hd typ hc
    rw [h1] at h
    injection h with ha hb
    injection ha with ha
    subst ha; subst hb
    obtain ⟨s1, s2⟩ := snoc typ none ht (by simp) hc
    refine ⟨_, h2, s1, s2, by rw [h3]; exact hr.range, Nat.le_succ _, ?_⟩
    intro x hx; rw [List.mem_singleton] at hx; subst hx; exact ⟨Nat.lt_succ_self _, Nat.le_refl _⟩
  | createOpen typ r1 r2 e fs' h hc ht =>
    rcases createFileAndOpen_spec hd hr.range typ r1 r2 hc with ⟨s, g, hs, h1, h2, h3⟩ | ⟨er, g, h1⟩
    · rw [h1] at h
      injection h with ha hb
      injection ha with ha
      subst ha; subst hb
      obtain ⟨s1, s2⟩ := snoc typ (some s) ht (by intro x hx; injection hx with hx; subst hx; have := hs.2; omegac) hc
      refine ⟨_, h2, s1, s2, h3, Nat.le_succ _, ?_⟩
      intro x hx; rw [List.mem_singleton] at hx; subst hx; exact ⟨Nat.lt_succ_self _, Nat.le_refl _⟩
    · rw [h1] at h; injection h with ha _; exact absurd ha (by simp)
  | rotate typ n r1 r2 e fs' h hc ht =>
    have hdf := dropFirst_eq typ es n hd.sorted
    rw [← hdf] at hc ⊢
    have hsub : ∀ e ∈ dropFirst typ n es, e ∈ es := by rw [hdf]; exact fun e he => (List.mem_filter.mp he).1
    rcases rotate_spec hd hr.range typ n r1 r2 hc with ⟨s, g, hs, h1, h2, h3⟩ | ⟨er, g, h1⟩
    · rw [h1] at h
      injection h with ha hb
      injection ha with ha
      subst ha; subst hb
      refine ⟨_, h2, ⟨by rw [List.length_append, List.length_singleton]; omega, ?_, ?_, ?_, ?_, hok.2⟩, ?_, h3, Nat.le_succ _, ?_⟩
      · intro e he
        rcases List.mem_append.mp he with he | he
        · exact hd.wf e (hsub e he)
        · rw [List.mem_singleton] at he; subst he
          exact ⟨hok.2, by show typ < 2 ^ 16; omega, by intro x hx; injection hx with hx; subst hx; have := hs.2; omegac⟩
      · intro e he
        rcases List.mem_append.mp he with he | he
        · exact hd.typ e (hsub e he)
        · rw [List.mem_singleton] at he; subst he; show typ ≠ _; omega
      · rw [List.pairwise_append]
        refine ⟨by rw [hdf]; exact hd.sorted.filter _, by simp, ?_⟩
        intro a ha b hb
        rw [List.mem_singleton] at hb; subst hb
        have := hd.maxId a (hsub a ha)
        show a.id < fs.at'.maxId + 1; omega
      · intro e he
        rcases List.mem_append.mp he with he | he
        · have := hd.maxId e (hsub e he); omega
        · rw [List.mem_singleton] at he; subst he; exact Nat.le_refl _
      · intro e he
        rcases List.mem_append.mp he with he | he
        · exact hr.small e (hsub e he)
        · rw [List.mem_singleton] at he; subst he; exact ht
      · intro x hx; rw [List.mem_singleton] at hx; subst hx; exact ⟨Nat.lt_succ_self _, Nat.le_refl _⟩
    · rw [h1] at h; injection h with ha _; exact absurd ha (by simp)
  | remove filter n k fs' h =>
    rcases removeFiles_spec hd hr.range filter with ⟨g, h1, h2, h3⟩ | ⟨er, g, h1, _⟩
    · rw [h1] at h
      injection h with ha hb
      subst hb
      have hfun : (fun e : FileEntry => !filter e || decide (e.id ∈ fs.at'.opened)) = keeps fs.at'.opened filter := by
        funext e; rw [keeps_eq]
      rw [hfun]
      have hsub : ∀ e ∈ es.filter (keeps fs.at'.opened filter), e ∈ es := fun e he => (List.mem_filter.mp he).1
      refine ⟨_, h2, ⟨?_, fun e he => hd.wf e (hsub e he), fun e he => hd.typ e (hsub e he), hd.sorted.filter _,
        fun e he => hd.maxId e (hsub e he), hd.maxLt⟩, fun e he => hr.small e (hsub e he), h3, Nat.le_refl _, by simp⟩
      have := List.length_filter_le (keeps fs.at'.opened filter) es; omega
    · rw [h1] at h; injection h with ha _; exact absurd ha (by simp)
  | setFirst id first fs' h hf =>
    rcases setFirstSector_spec hd id first with ⟨_, g, h1, h2, h3⟩ | ⟨_, h1⟩
    · rw [h1] at h
      injection h with _ hb
      subst hb
      rw [setFirst_eq]
      have hmem : ∀ e ∈ es.map (setFirst id first), ∃ x ∈ es, e.id = x.id ∧ e.typ = x.typ ∧ (e.first = x.first ∨ e.first = first) := by
        intro e he
        rw [List.mem_map] at he
        obtain ⟨x, hx, rfl⟩ := he
        refine ⟨x, hx, ?_⟩
        unfold setFirst
        split
        · exact ⟨rfl, rfl, Or.inr rfl⟩
        · exact ⟨rfl, rfl, Or.inl rfl⟩
      refine ⟨_, h2, ⟨by rw [List.length_map]; exact hcap, ?_, ?_, ?_, ?_, hd.maxLt⟩, ?_, by rw [h3]; exact hr.range,
        Nat.le_refl _, by simp⟩
      · intro e he
        obtain ⟨x, hx, e1, e2, e3⟩ := hmem e he
        have hw := hd.wf x hx
        refine ⟨by rw [e1]; exact hw.id, by rw [e2]; exact hw.typ, ?_⟩
        rcases e3 with e3 | e3 <;> rw [e3]
        · exact hw.first
        · exact hf
      · intro e he
        obtain ⟨x, hx, e1, e2, e3⟩ := hmem e he
        rw [e2]; exact hd.typ x hx
      · rw [List.pairwise_map]
        refine hd.sorted.imp ?_
        intro a b hab
        have : ∀ x : FileEntry, (setFirst id first x).id = x.id := by intro x; unfold setFirst; split <;> rfl
        rw [this, this]; exact hab
      · intro e he
        obtain ⟨x, hx, e1, e2, e3⟩ := hmem e he
        rw [e1]; exact hd.maxId x hx
      · intro e he
        obtain ⟨x, hx, e1, e2, e3⟩ := hmem e he
        rw [e2]; exact hr.small x hx
    · rw [h1] at h; injection h with ha _; exact absurd ha (by simp)

theorem Rewrite.ops {fs fs' : FS} {new : List FileEntry} {m : Nat} (h : Rewrite fs fs' new m) {ops : List FlashOp}
    (hi : issued fs fs' ops) : ops.filter FlashOp.isTable = updateOps fs new m := by
  obtain ⟨os, h1, h2⟩ := h.trace
  have : fs'.dev.log = fs.dev.log ++ os := by rw [h1]; rfl
  have hi : fs'.dev.log = fs.dev.log ++ ops := hi
  rw [this] at hi
  rw [← List.append_cancel_left hi, h2]
  rfl

theorem mngRange_new : MngRange SectorsMng.new := by intro x hx; simp [SectorsMng.new] at hx

/-- restarting a good state -/
theorem mount_dirInv {fs : FS} {es : List FileEntry} (hd : DirInv fs es) :
    (∃ e, FS.mount fs.dev.flash = (.error e, ⟨{ fs.at' with opened := [] }, SectorsMng.new, ⟨fs.dev.flash, []⟩⟩)) ∨
    (∃ mg, MngRange mg ∧ FS.mount fs.dev.flash = (.ok (), ⟨{ fs.at' with opened := [] }, mg, ⟨fs.dev.flash, []⟩⟩)) := by
  have hat : (⟨fs.at'.seq, es.length, fs.at'.maxId, fs.at'.position, []⟩ : AT) = { fs.at' with opened := [] } := by
    rw [← hd.count]
  rcases mount_restarts hd.pos hd.seq1 hd.cap hd.holds (fun q h1 h2 => (hd.stale q h1 h2).rejected) with ⟨e, _, h⟩ | ⟨mg, hc, h⟩
  · left; exact ⟨e, by rw [h, hat]⟩
  · right; exact ⟨mg, claimFiles_range _ _ _ mngRange_new hc, by rw [h, hat]⟩

theorem reach_inv {fs : FS} {es : List FileEntry} {ids : List Nat} (h : Reach fs es ids) : ReachInv fs es ids := by
  induction h with
  | format fl h =>
    obtain ⟨h1, h2⟩ := format_inv fl h
    rw [h1]
    exact ⟨h2, mngRange_new, by intro e he; simp at he, by intro x hx; simp at hx⟩
  | call hr hc hok ih =>
    obtain ⟨m, h1, h2, h3, h4, h5, h6⟩ := call_rewrite ih hc hok
    refine ⟨ih.dir.of_rewrite h1 h2 hok.1, h4, h3, ?_⟩
    intro x hx
    rw [h1.maxId]
    rcases List.mem_append.mp hx with hx | hx
    · exact (h6 x hx).2
    · have := ih.ids x hx; omega
  | opened hr l ih =>
    exact ⟨ih.dir.congr (LowEq.refl _) rfl rfl rfl rfl, ih.range, ih.small, ih.ids⟩
  | other hr ha hf hm ih =>
    refine ⟨ih.dir.congr (fun a h => (hf a h).symm) (by rw [ha]) (by rw [ha]) (by rw [ha]) (by rw [ha]), ?_, ih.small,
      by rw [ha]; exact ih.ids⟩
    exact fun x hx => hm x hx
  | @restart fs fs' es ids hr hm ih =>
    rcases mount_dirInv ih.dir with ⟨e, h⟩ | ⟨mg, hmg, h⟩
    · rw [h] at hm; injection hm with ha _; exact absurd ha (by simp)
    · rw [h] at hm
      injection hm with _ hb
      subst hb
      exact ⟨ih.dir.congr (LowEq.refl _) rfl rfl rfl rfl, hmg, ih.small, ih.ids⟩
  | @crash fs fs' fs'' es es' es'' ids new ops fl' hr hc hok hi hl hfit hp hm hlist ih =>
    obtain ⟨m, h1, h2, h3, h4, h5, h6⟩ := call_rewrite ih hc hok
    have hint := interrupted_of_pageCrash h2.cap (h1.ops hi) hp
    have main : ∀ (g : FS) (fsX : List FileEntry), DirInv g fsX → g.dev.flash = fl' → SmallTypes fsX →
        (∀ x ∈ ids, x ≤ g.at'.maxId) → ReachInv fs'' es'' ids := by
      intro g fsX hg hfl hsm hid
      rcases mount_dirInv hg with ⟨e, h⟩ | ⟨mg, hmg, h⟩
      · rw [hfl, hm] at h; injection h with ha _; exact absurd ha (by simp)
      · rw [hfl, hm] at h
        injection h with _ hb
        subst hb
        have hdg : DirInv ⟨{ g.at' with opened := [] }, mg, ⟨fl', []⟩⟩ fsX :=
          hg.congr (by show LowEq g.dev.flash fl'; rw [hfl]; exact LowEq.refl _) rfl rfl rfl rfl
        have : es'' = fsX := by
          have h7 := hdg.filesIter (fun _ => true)
          rw [List.filter_eq_self.mpr (by simp)] at h7
          have h8 : FS.filesIter _ (fun _ => true) = .ok es'' := hlist
          rw [h7] at h8
          injection h8 with h8; exact h8.symm
        subst this
        exact ⟨hdg, hmg, hsm, hid⟩
    rcases hint.dirInv ih.dir h2 h3 hl hfit hok.1 [] SectorsMng.new [] with hg | hg
    · exact main _ es hg rfl ih.small ih.ids
    · exact main _ es' hg rfl h3 (fun x hx => Nat.le_trans (ih.ids x hx) h5)

end Verif.Vlfs
