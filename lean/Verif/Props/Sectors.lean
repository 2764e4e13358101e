import Verif.Lemmas.Sectors
import Verif.Spec.Sectors
/-
C18 - C20: the sector manager (vlfs/src/fs/sector_management.rs).
-/
namespace Verif.Props
open Verif Verif.Vlfs Verif.Spec

private theorem runMap_spec (ops : List MapOp) (h : ∀ op ∈ ops, 32 ≤ op.sector ∧ op.sector < 16384) :
    (runMap ops).Inv ∧ ∀ x, 32 ≤ x → (runMap ops).map4k (x - 32) = inUse ops x := by
  unfold runMap inUse
  suffices H : ∀ (m : SectorMap) (f : Nat → Bool), m.Inv → (∀ x, 32 ≤ x → m.map4k (x - 32) = f x) →
      (ops.foldl (fun m op => match op with | .used s => m.setUsed s | .unused s => m.setUnused s) m).Inv ∧
      ∀ x, 32 ≤ x → (ops.foldl (fun m op => match op with | .used s => m.setUsed s | .unused s => m.setUnused s) m).map4k (x - 32)
        = ops.foldl (fun b op => match op with
            | .used s => if s = x then true else b
            | .unused s => if s = x then false else b) (f x) by
    exact H SectorMap.new (fun _ => false) SectorMap.Inv_new (fun _ _ => rfl)
  induction ops with
  | nil => intro m f h1 h2; exact ⟨h1, h2⟩
  | cons op ops ih =>
    intro m f h1 h2
    have hop := h op (List.mem_cons_self ..)
    have ih := ih (fun o ho => h o (List.mem_cons_of_mem _ ho))
    cases op with
    | used s =>
      simp only [MapOp.sector] at hop
      refine ih _ (fun x => if s = x then true else f x) (h1.setUsed s (by omegac)) ?_
      intro x hx
      rw [setUsed_map4k, h2 x hx]
      by_cases e : s = x
      · subst e; simp
      · have : x - 32 ≠ s - 32 := by omega
        simp [e, this]
    | unused s =>
      simp only [MapOp.sector] at hop
      refine ih _ (fun x => if s = x then false else f x) (h1.setUnused s (by omegac)) ?_
      intro x hx
      rw [setUnused_map4k, h2 x hx]
      by_cases e : s = x
      · subst e; simp
      · have : x - 32 ≠ s - 32 := by omega
        simp [e, this]

/-- **C18** After every sequence of claiming and releasing sectors: a sector is marked used exactly when the
history says so, a 32 KiB (64 KiB) region is marked free exactly when its 8 (16) sectors are all free, and the
free counter is the number of free sectors. -/
theorem C18_sector_map_levels (ops : List MapOp) (h : ∀ op ∈ ops, 32 ≤ op.sector ∧ op.sector < 16384) :
    (∀ x, 32 ≤ x → x < 16384 → (runMap ops).map4k (x - 32) = inUse ops x) ∧
    (∀ r, r < 2044 → ((runMap ops).map32k r = false ↔ ∀ i, i < 8 → inUse ops (32 + 8 * r + i) = false)) ∧
    (∀ r, r < 1022 → ((runMap ops).map64k r = false ↔ ∀ i, i < 16 → inUse ops (32 + 16 * r + i) = false)) ∧
    (runMap ops).free = (dataSectors.filter fun x => !inUse ops x).length := by
  obtain ⟨hi, hm⟩ := runMap_spec ops h
  refine ⟨fun x hx _ => hm x hx, fun r _ => ?_, fun r _ => ?_, ?_⟩
  · rw [hi.l32, anyIn_false_iff]
    constructor
    · intro hh i hi'
      rw [← hm _ (by omega)]
      exact hh _ (by omega) (by omega)
    · intro hh j h1 h2
      have := hh (j - 8 * r) (by omega)
      rw [← hm _ (by omega)] at this
      rwa [show 32 + 8 * r + (j - 8 * r) - 32 = j by omega] at this
  · rw [hi.l64, anyIn_false_iff]
    constructor
    · intro hh i hi'
      rw [← hm _ (by omega)]
      exact hh _ (by omega) (by omega)
    · intro hh j h1 h2
      have := hh (j - 16 * r) (by omega)
      rw [← hm _ (by omega)] at this
      rwa [show 32 + 16 * r + (j - 16 * r) - 32 = j by omega] at this
  · rw [hi.count, countFree, dataSectors, List.filter_map, List.length_map, List.countP_eq_length_filter]
    rw [show DATA_REGION_SECTORS = 16352 from rfl]
    refine congrArg List.length (List.filter_congr ?_)
    intro i _
    show _ = !inUse ops (i + 32)
    rw [← hm (i + 32) (by omega), Nat.add_sub_cancel]

example : ∃ ops : List MapOp, (∀ op ∈ ops, 32 ≤ op.sector ∧ op.sector < 16384) ∧ inUse ops 40 = true ∧ inUse ops 33 = false :=
  ⟨[.used 33, .used 40, .unused 33], by simp [MapOp.sector], by decide, by decide⟩

private structure Good (st : MngState) : Prop where
  inv : st.mng.Inv st.out
  blank : AheadBlank st.mng st.dev.flash

private theorem not_reserved {st : MngState} (h : Good st) {x y : Nat} (hx : x ∈ st.out)
    (hy : y ∈ st.mng.ahead ++ st.mng.asyncAhead) : x ≠ y := by
  have := h.inv.nodup
  rw [List.append_assoc, List.nodup_append] at this
  exact this.2.2 x hx y hy

private theorem step_good {st : MngState} (h : Good st) (op : MngOp) : Good (st.step op) := by
  cases op with
  | claim r1 r2 =>
    rcases claim_spec h.inv r1 r2 st.dev h.blank with ⟨x, hres, hi, _, _, _, hb, _, _⟩ | ⟨hres, _⟩
    · simp only [MngState.step, hres]
      exact ⟨hi, hb⟩
    · simp only [MngState.step, hres]
      exact h
  | release x =>
    simp only [MngState.step]
    by_cases hx : x ∈ st.out
    · rw [if_pos hx]
      exact ⟨returnSector_spec h.inv hx, h.blank⟩
    · rw [if_neg hx]; exact h
  | program x p data =>
    simp only [MngState.step]
    by_cases hx : x ∈ st.out ∧ p < 16
    · rw [if_pos hx]
      refine ⟨h.inv, ?_⟩
      intro y hy j hj
      have hne := not_reserved h hx.1 hy
      show (if x * 4096 + p * 256 ≤ y * SECTOR_SIZE + j ∧ y * SECTOR_SIZE + j < x * 4096 + p * 256 + 256 then _
        else st.dev.flash (y * SECTOR_SIZE + j)) = 0xFF
      rw [if_neg (by omegac)]
      exact h.blank y hy j hj
    · rw [if_neg hx]; exact h
  | wipe x =>
    simp only [MngState.step]
    by_cases hx : x ∈ st.out
    · rw [if_pos hx]
      refine ⟨h.inv, ?_⟩
      intro y hy j hj
      have hne := not_reserved h hx hy
      show (if x * 4096 ≤ y * SECTOR_SIZE + j ∧ y * SECTOR_SIZE + j < x * 4096 + 4096 then _
        else st.dev.flash (y * SECTOR_SIZE + j)) = 0xFF
      rw [if_neg (by omegac)]
      exact h.blank y hy j hj
    · rw [if_neg hx]; exact h

private theorem boot_good (used : List Nat) (hn : used.Nodup) (hr : ∀ x ∈ used, 32 ≤ x ∧ x < 16384) :
    (used.foldl SectorsMng.claimSector SectorsMng.new).Inv used ∧
    (used.foldl SectorsMng.claimSector SectorsMng.new).ahead = [] ∧
    (used.foldl SectorsMng.claimSector SectorsMng.new).asyncAhead = [] := by
  suffices H : ∀ (s : SectorsMng) (out l : List Nat), s.Inv out → s.ahead = [] → s.asyncAhead = [] →
      (l.reverse ++ out).Nodup → (∀ x ∈ l, InData x) →
      (l.foldl SectorsMng.claimSector s).Inv (l.reverse ++ out) ∧
      (l.foldl SectorsMng.claimSector s).ahead = [] ∧ (l.foldl SectorsMng.claimSector s).asyncAhead = [] by
    obtain ⟨h1, h2, h3⟩ := H SectorsMng.new [] used SectorsMng.Inv_new rfl rfl (by simp [hn]) (fun x hx => hr x hx)
    refine ⟨?_, h2, h3⟩
    have hp : (used.reverse ++ []).Perm used := by simpa using List.reverse_perm used
    have hp2 : ∀ a b : List Nat, ((used.reverse ++ []) ++ a ++ b).Perm (used ++ a ++ b) :=
      fun a b => (hp.append_right a).append_right b
    exact ⟨h1.map, fun x hx => (h1.used x hx).trans (hp2 _ _).mem_iff, (hp2 _ _).nodup_iff.mp h1.nodup,
      fun x hx => h1.range x ((hp2 _ _).mem_iff.mpr hx), h1.lenA, h1.lenB⟩
  intro s out l
  induction l generalizing s out with
  | nil => intro h1 h2 h3 h4 h5; exact ⟨h1, h2, h3⟩
  | cons a l ih =>
    intro h1 h2 h3 h4 h5
    have ha : a ∉ out := by
      intro hm
      rw [List.reverse_cons, List.append_assoc, List.nodup_append] at h4
      have := h4.2.1
      simp at this
      exact this.1 hm
    have hc := claimSector_spec h1 h2 h3 (h5 a (List.mem_cons_self ..)) ha
    have e : (a :: l).reverse ++ out = l.reverse ++ (a :: out) := by simp
    rw [e] at h4 ⊢
    exact ih _ _ hc h2 h3 h4 (fun x hx => h5 x (List.mem_cons_of_mem _ hx))

private theorem run_good (used : List Nat) (fl : Flash) (hn : used.Nodup) (hr : ∀ x ∈ used, 32 ≤ x ∧ x < 16384)
    (ops : List MngOp) : Good (MngState.run used fl ops) := by
  unfold MngState.run
  suffices H : ∀ st, Good st → Good (ops.foldl MngState.step st) by
    apply H
    obtain ⟨h1, h2, h3⟩ := boot_good used hn hr
    refine ⟨h1, ?_⟩
    intro x hx
    simp only [MngState.boot, h2, h3] at hx
    simp at hx
  induction ops with
  | nil => intro st h; exact h
  | cons op ops ih => intro st h; exact ih _ (step_good h op)

/-- **C19** In every state reachable by claims, releases and writes of the owners, for every random choice: a
claimed sector belongs to the data region, is not handed out already (in particular it is not one found in a
file at start-up and not yet released), is completely erased, and the claim changes no byte outside the sectors
that were free. Handed-out sectors are pairwise distinct. -/
theorem C19_no_double_handout (used : List Nat) (fl : Flash) (hn : used.Nodup)
    (hr : ∀ x ∈ used, 32 ≤ x ∧ x < 16384) (ops : List MngOp) (r1 r2 : Nat) :
    let st := MngState.run used fl ops
    let res := st.mng.claim r1 r2 st.dev
    st.out.Nodup ∧
    (∀ x, res.1 = .ok x → x ∉ st.out ∧ 32 ≤ x ∧ x < 16384 ∧
      (∀ j, j < 4096 → res.2.2.flash (x * 4096 + j) = 0xFF)) ∧
    (∀ a, (a < 32 * 4096 ∨ a / 4096 ∈ st.out) → res.2.2.flash a = st.dev.flash a) := by
  intro st res
  have hg : Good st := run_good used fl hn hr ops
  refine ⟨?_, ?_, ?_⟩
  · have := hg.inv.nodup
    rw [List.append_assoc, List.nodup_append] at this
    exact this.1
  · intro x hx
    rcases claim_spec hg.inv r1 r2 st.dev hg.blank with ⟨y, hres, _, h1, h2, h3, _⟩ | ⟨hres, _⟩
    · have e : (Except.ok x : Except Err Nat) = .ok y := hx.symm.trans hres
      have : x = y := by injection e
      subst this
      exact ⟨h1, h2.1, h2.2, h3⟩
    · have : res.1 = .error .deviceFull := by show (st.mng.claim r1 r2 st.dev).1 = _; rw [hres]
      rw [hx] at this; exact absurd this (by simp)
  · intro a ha
    rcases claim_spec hg.inv r1 r2 st.dev hg.blank with ⟨y, _, _, _, _, _, _, h, _⟩ | ⟨hres, _⟩
    · apply h
      rcases ha with ha | ha
      · right; intro hd; have := hd.1; omegac
      · left; exact ha
    · show (st.mng.claim r1 r2 st.dev).2.2.flash a = _; rw [hres]

/-- **C20** In every reachable state: the free space reported is 4016 bytes times the number of data-region
sectors that are not handed out; a claim fails exactly when every sector of the data region is handed out; the
only failure is `DeviceFull` (no panic), and a failed claim changes nothing. -/
theorem C20_free_accounting (used : List Nat) (fl : Flash) (hn : used.Nodup)
    (hr : ∀ x ∈ used, 32 ≤ x ∧ x < 16384) (ops : List MngOp) (r1 r2 : Nat) :
    let st := MngState.run used fl ops
    let res := st.mng.claim r1 r2 st.dev
    st.mng.freeBytes = 4016 * (dataSectors.filter fun x => decide (x ∉ st.out)).length ∧
    ((∃ e, res.1 = .error e) ↔ ∀ x ∈ dataSectors, x ∈ st.out) ∧
    (∀ e, res.1 = .error e → e = .deviceFull ∧ res.2.1 = st.mng ∧ res.2.2 = st.dev) := by
  intro st res
  have hg : Good st := run_good used fl hn hr ops
  have hno : st.out.Nodup := by
    have := hg.inv.nodup
    rw [List.append_assoc, List.nodup_append] at this
    exact this.1
  have hro : ∀ x ∈ st.out, 32 ≤ x ∧ x < 16384 := fun x hx => hg.inv.range x (by simp [hx])
  have hdn : dataSectors.Nodup := List.Nodup.map (fun a b hab => by simpa using hab) List.nodup_range
  have hmem : ∀ x, x ∈ dataSectors ↔ 32 ≤ x ∧ x < 16384 := by
    intro x
    simp only [dataSectors, List.mem_map, List.mem_range]
    constructor
    · rintro ⟨a, h1, rfl⟩; omega
    · intro h; exact ⟨x - 32, by omega, by omega⟩
  have hperm : (dataSectors.filter fun x => decide (x ∈ st.out)).Perm st.out := by
    rw [List.perm_ext_iff_of_nodup (hdn.filter _) hno]
    intro a
    simp only [List.mem_filter, decide_eq_true_eq, hmem]
    constructor
    · exact fun h => h.2
    · exact fun h => ⟨hro a h, h⟩
  have hlen : (dataSectors.filter fun x => decide (x ∉ st.out)).length + st.out.length = 16352 := by
    have h1 := List.length_eq_length_filter_add (l := dataSectors) (fun x => decide (x ∈ st.out))
    rw [hperm.length_eq] at h1
    have h2 : dataSectors.length = 16352 := by simp [dataSectors]
    have h3 : (fun x => !decide (x ∈ st.out)) = fun x => decide (x ∉ st.out) := by
      funext x; simp
    rw [h3] at h1
    omega
  have hfull : (∀ x ∈ dataSectors, x ∈ st.out) ↔ st.out.length = 16352 := by
    constructor
    · intro h
      have h0 : (dataSectors.filter fun x => decide (x ∉ st.out)) = [] := by
        rw [List.filter_eq_nil_iff]
        intro a ha
        simpa using h a ha
      rw [h0] at hlen
      simpa using hlen
    · intro h x hx
      by_contra hc
      have h0 : (dataSectors.filter fun x => decide (x ∉ st.out)).length = 0 := by omega
      rw [List.length_eq_zero_iff, List.filter_eq_nil_iff] at h0
      exact h0 x hx (by simpa using hc)
  refine ⟨?_, ?_, ?_⟩
  · have hf := hg.inv.free_eq
    rw [List.length_append, List.length_append] at hf
    show (st.mng.map.free + (st.mng.asyncAhead.length + st.mng.ahead.length)) * 4016 = _
    rw [Nat.mul_comm]
    refine congrArg (4016 * ·) ?_
    omegac
  · rw [hfull]
    rcases claim_spec hg.inv r1 r2 st.dev hg.blank with ⟨y, hres, hi, _⟩ | ⟨hres, hl⟩
    · constructor
      · rintro ⟨e, he⟩
        have := he.symm.trans hres
        exact absurd this (by simp)
      · intro hl
        exfalso
        have hf := hi.free_eq
        simp only [List.length_append, List.length_cons] at hf
        omegac
    · constructor
      · intro _; exact hl
      · intro _; exact ⟨.deviceFull, by show (st.mng.claim r1 r2 st.dev).1 = _; rw [hres]⟩
  · intro e he
    rcases claim_spec hg.inv r1 r2 st.dev hg.blank with ⟨y, hres, _⟩ | ⟨hres, hl⟩
    · have := he.symm.trans hres
      exact absurd this (by simp)
    · have hres' : res = (.error .deviceFull, st.mng, st.dev) := hres
      rw [hres'] at he ⊢
      refine ⟨?_, rfl, rfl⟩
      injection he with he'; exact he'.symm

/-- witness: a history with two start-up sectors, claims and a release; the first claim hands out the last
sector of the 64 KiB region chosen by the random value -/
example : ([40, 41] : List Nat).Nodup ∧ (∀ x ∈ ([40, 41] : List Nat), 32 ≤ x ∧ x < 16384) ∧
    (let st := MngState.run [40, 41] (fun _ => 0) [.claim 3 7, .release 40]
     st.out = [95, 41]) := by
  refine ⟨by decide, by decide, ?_⟩
  decide +kernel

end Verif.Props
