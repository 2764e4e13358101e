import Verif.Model.Sectors
import Mathlib.Data.List.Perm.Basic
import Mathlib.Data.List.Nodup
import Mathlib.Data.List.Range
/-
Invariants of the sector manager.
-/
namespace Verif.Vlfs

theorem setAt_same (f : Nat → Bool) (k : Nat) (v : Bool) : setAt f k v k = v := by simp [setAt]
theorem setAt_ne (f : Nat → Bool) {k i : Nat} (v : Bool) (h : i ≠ k) : setAt f k v i = f i := by simp [setAt, h]

theorem anyIn_iff (f : Nat → Bool) (s n : Nat) : anyIn f s n = true ↔ ∃ i, s ≤ i ∧ i < s + n ∧ f i = true := by
  simp only [anyIn, List.any_eq_true, List.mem_range]
  constructor
  · rintro ⟨i, h1, h2⟩; exact ⟨s + i, by omega, by omega, h2⟩
  · rintro ⟨i, h1, h2, h3⟩; exact ⟨i - s, by omega, by rwa [Nat.add_sub_cancel' h1]⟩

theorem anyIn_false_iff (f : Nat → Bool) (s n : Nat) :
    anyIn f s n = false ↔ ∀ i, s ≤ i → i < s + n → f i = false := by
  rw [← Bool.not_eq_true, anyIn_iff]
  constructor
  · intro h i h1 h2
    rw [← Bool.not_eq_true]
    exact fun h3 => h ⟨i, h1, h2, h3⟩
  · rintro h ⟨i, h1, h2, h3⟩
    rw [h i h1 h2] at h3; exact absurd h3 (by decide)

/-- number of free (clear) sectors among the first `n` -/
def countFree (f : Nat → Bool) (n : Nat) : Nat := (List.range n).countP fun i => !f i

theorem countFree_succ (f : Nat → Bool) (n : Nat) : countFree f (n + 1) = countFree f n + if f n then 0 else 1 := by
  simp only [countFree, List.range_succ, List.countP_append, List.countP_singleton]
  cases f n <;> simp

theorem countFree_setAt_of_le (f : Nat → Bool) (n k : Nat) (v : Bool) (h : n ≤ k) :
    countFree (setAt f k v) n = countFree f n := by
  induction n with
  | zero => rfl
  | succ n ih => rw [countFree_succ, countFree_succ, ih (by omega), setAt_ne _ _ (by omega)]

theorem countFree_set_true (f : Nat → Bool) (n k : Nat) (h : k < n) (hk : f k = false) :
    countFree (setAt f k true) n + 1 = countFree f n := by
  induction n with
  | zero => omega
  | succ n ih =>
    rw [countFree_succ, countFree_succ]
    by_cases e : k = n
    · subst e
      rw [countFree_setAt_of_le _ _ _ _ (Nat.le_refl _), setAt_same, hk]; simp
    · rw [setAt_ne _ _ (Ne.symm e)]
      have := ih (by omega)
      omega

theorem countFree_set_false (f : Nat → Bool) (n k : Nat) (h : k < n) (hk : f k = true) :
    countFree (setAt f k false) n = countFree f n + 1 := by
  induction n with
  | zero => omega
  | succ n ih =>
    rw [countFree_succ, countFree_succ]
    by_cases e : k = n
    · subst e
      rw [countFree_setAt_of_le _ _ _ _ (Nat.le_refl _), setAt_same, hk]; simp
    · rw [setAt_ne _ _ (Ne.symm e)]
      have := ih (by omega)
      omega

/-- the three levels and the counter agree -/
structure SectorMap.Inv (m : SectorMap) : Prop where
  l32 : ∀ i, m.map32k i = anyIn m.map4k (8 * i) 8
  l64 : ∀ i, m.map64k i = anyIn m.map4k (16 * i) 16
  count : m.free = countFree m.map4k DATA_REGION_SECTORS

theorem anyIn_const_false (s n : Nat) : anyIn (fun _ => false) s n = false := by
  rw [anyIn_false_iff]; intros; rfl

theorem countFree_false (n : Nat) : countFree (fun _ => false) n = n := by
  induction n with
  | zero => rfl
  | succ n ih => rw [countFree_succ, ih]; rfl

theorem SectorMap.Inv_new : SectorMap.new.Inv := by
  refine ⟨fun i => ?_, fun i => ?_, ?_⟩
  · exact (anyIn_const_false _ _).symm
  · exact (anyIn_const_false _ _).symm
  · exact (countFree_false _).symm

theorem anyIn_setAt_true (f : Nat → Bool) (s n k : Nat) :
    anyIn (setAt f k true) s n = (anyIn f s n || decide (s ≤ k ∧ k < s + n)) := by
  rw [Bool.eq_iff_iff, Bool.or_eq_true, anyIn_iff, anyIn_iff, decide_eq_true_eq]
  constructor
  · rintro ⟨i, h1, h2, h3⟩
    by_cases e : i = k
    · right; omega
    · left; rw [setAt_ne _ _ e] at h3; exact ⟨i, h1, h2, h3⟩
  · rintro (⟨i, h1, h2, h3⟩ | h)
    · refine ⟨i, h1, h2, ?_⟩
      by_cases e : i = k
      · subst e; exact setAt_same _ _ _
      · rw [setAt_ne _ _ e]; exact h3
    · exact ⟨k, h.1, h.2, setAt_same _ _ _⟩

theorem SectorMap.Inv.setUsed {m : SectorMap} (h : m.Inv) (s : Nat) (hs : s - 32 < DATA_REGION_SECTORS) :
    (m.setUsed s).Inv := by
  unfold SectorMap.setUsed
  show SectorMap.Inv (if m.map4k (s - 32) then m else _)
  split
  · exact h
  · rename_i hu
    have hu : m.map4k (s - 32) = false := by simpa using hu
    refine ⟨fun i => ?_, fun i => ?_, ?_⟩
    · show setAt m.map32k ((s-32) / 8) true i = anyIn (setAt m.map4k (s-32) true) (8 * i) 8
      rw [anyIn_setAt_true]
      by_cases e : i = (s-32)/8
      · subst e; rw [setAt_same]; simp; omega
      · rw [setAt_ne _ _ e, h.l32]
        have : ¬ (8 * i ≤ s - 32 ∧ s - 32 < 8 * i + 8) := by omega
        simp [this]
    · show setAt m.map64k ((s-32) / 16) true i = anyIn (setAt m.map4k (s-32) true) (16 * i) 16
      rw [anyIn_setAt_true]
      by_cases e : i = (s-32)/16
      · subst e; rw [setAt_same]; simp; omega
      · rw [setAt_ne _ _ e, h.l64]
        have : ¬ (16 * i ≤ s - 32 ∧ s - 32 < 16 * i + 16) := by omega
        simp [this]
    · show m.free - 1 = countFree (setAt m.map4k (s-32) true) DATA_REGION_SECTORS
      have := countFree_set_true m.map4k DATA_REGION_SECTORS (s-32) hs hu
      have := h.count
      omega

theorem anyIn_congr (f g : Nat → Bool) (s n : Nat) (h : ∀ i, s ≤ i → i < s + n → f i = g i) :
    anyIn f s n = anyIn g s n := by
  rw [Bool.eq_iff_iff, anyIn_iff, anyIn_iff]
  constructor
  · rintro ⟨i, h1, h2, h3⟩; exact ⟨i, h1, h2, by rw [← h i h1 h2]; exact h3⟩
  · rintro ⟨i, h1, h2, h3⟩; exact ⟨i, h1, h2, by rw [h i h1 h2]; exact h3⟩

theorem SectorMap.Inv.setUnused {m : SectorMap} (h : m.Inv) (s : Nat) (hs : s - 32 < DATA_REGION_SECTORS) :
    (m.setUnused s).Inv := by
  unfold SectorMap.setUnused
  show SectorMap.Inv (if !m.map4k (s - 32) then m else _)
  split
  · exact h
  · rename_i hu
    have hu : m.map4k (s - 32) = true := by simpa using hu
    generalize hk : s - 32 = k at *
    have h32 : ∀ i, setAt m.map32k (k / 8 * 8 / 8) (anyIn (setAt m.map4k k false) (k / 8 * 8) 8) i
        = anyIn (setAt m.map4k k false) (8 * i) 8 := by
      intro i
      have e0 : k / 8 * 8 / 8 = k / 8 := by omega
      rw [e0]
      by_cases e : i = k / 8
      · subst e; rw [setAt_same, Nat.mul_comm]
      · rw [setAt_ne _ _ e, h.l32]
        apply anyIn_congr
        intro j h1 h2
        rw [setAt_ne]; omega
    refine ⟨h32, fun i => ?_, ?_⟩
    · show setAt m.map64k (k / 8 * 8 / 16 * 16 / 16) (anyIn (setAt m.map32k (k / 8 * 8 / 8)
        (anyIn (setAt m.map4k k false) (k / 8 * 8) 8)) (k / 8 * 8 / 16 * 16 / 8) 2) i
        = anyIn (setAt m.map4k k false) (16 * i) 16
      have e0 : k / 8 * 8 / 16 * 16 / 16 = k / 16 := by omega
      have e1 : k / 8 * 8 / 16 * 16 / 8 = 2 * (k / 16) := by omega
      rw [e0, e1]
      by_cases e : i = k / 16
      · rw [← e, setAt_same, Bool.eq_iff_iff, anyIn_iff, anyIn_iff]
        constructor
        · rintro ⟨a, h1, h2, h3⟩
          rw [h32, anyIn_iff] at h3
          obtain ⟨b, h4, h5, h6⟩ := h3
          exact ⟨b, by omega, by omega, h6⟩
        · rintro ⟨b, h1, h2, h3⟩
          refine ⟨b / 8, by omega, by omega, ?_⟩
          rw [h32, anyIn_iff]
          exact ⟨b, by omega, by omega, h3⟩
      · rw [setAt_ne _ _ e, h.l64]
        apply anyIn_congr
        intro j h1 h2
        rw [setAt_ne]; omega
    · show m.free + 1 = countFree (setAt m.map4k k false) DATA_REGION_SECTORS
      rw [countFree_set_false _ _ _ hs hu, h.count]

theorem setUsed_map4k (m : SectorMap) (s i : Nat) :
    (m.setUsed s).map4k i = (m.map4k i || decide (i = s - 32)) := by
  unfold SectorMap.setUsed
  show (if m.map4k (s - 32) then m else _ : SectorMap).map4k i = _
  split
  · rename_i h
    by_cases e : i = s - 32
    · subst e; simp [h]
    · simp [e]
  · show setAt m.map4k (s-32) true i = _
    by_cases e : i = s - 32
    · subst e; simp [setAt_same]
    · simp [setAt_ne _ _ e, e]

theorem setUnused_map4k (m : SectorMap) (s i : Nat) :
    (m.setUnused s).map4k i = (m.map4k i && decide (i ≠ s - 32)) := by
  unfold SectorMap.setUnused
  show (if !m.map4k (s - 32) then m else _ : SectorMap).map4k i = _
  split
  · rename_i h
    by_cases e : i = s - 32
    · subst e; simpa using h
    · simp [e]
  · show setAt m.map4k (s-32) false i = _
    by_cases e : i = s - 32
    · subst e; simp [setAt_same]
    · simp [setAt_ne _ _ e, e]

theorem foldl_setUsed_map4k (l : List Nat) (m : SectorMap) (i : Nat) :
    (l.foldl SectorMap.setUsed m).map4k i = (m.map4k i || l.any fun s => decide (i = s - 32)) := by
  induction l generalizing m with
  | nil => simp
  | cons a l ih => rw [List.foldl_cons, ih, setUsed_map4k, List.any_cons, Bool.or_assoc]

theorem foldl_setUsed_Inv (l : List Nat) (m : SectorMap) (h : m.Inv)
    (hl : ∀ s ∈ l, s - 32 < DATA_REGION_SECTORS) : (l.foldl SectorMap.setUsed m).Inv := by
  induction l generalizing m with
  | nil => exact h
  | cons a l ih =>
    exact ih _ (h.setUsed a (hl a (List.mem_cons_self ..))) (fun s hs => hl s (List.mem_cons_of_mem _ hs))

/-- a sector of the data region -/
def InData (s : Nat) : Prop := 32 ≤ s ∧ s < SECTORS_COUNT

/-- invariant of the sector manager relative to the list `out` of sectors in use outside it -/
structure SectorsMng.Inv (s : SectorsMng) (out : List Nat) : Prop where
  map : s.map.Inv
  used : ∀ x, InData x → (s.map.map4k (x - 32) = true ↔ x ∈ out ++ s.ahead ++ s.asyncAhead)
  nodup : (out ++ s.ahead ++ s.asyncAhead).Nodup
  range : ∀ x ∈ out ++ s.ahead ++ s.asyncAhead, InData x
  lenA : s.ahead.length ≤ 16
  lenB : s.asyncAhead.length ≤ 16

theorem SectorsMng.Inv_new : SectorsMng.new.Inv [] := by
  refine ⟨SectorMap.Inv_new, ?_, by simp [SectorsMng.new], by simp [SectorsMng.new], by simp [SectorsMng.new],
    by simp [SectorsMng.new]⟩
  intro x _
  simp [SectorsMng.new, SectorMap.new]

/-- counting: the free counter is the number of sectors not accounted for -/
theorem countFree_of_mem (f : Nat → Bool) (n : Nat) (l : List Nat) (hn : l.Nodup) (hr : ∀ x ∈ l, 32 ≤ x ∧ x < 32 + n)
    (h : ∀ x, 32 ≤ x → x < 32 + n → (f (x - 32) = true ↔ x ∈ l)) : countFree f n + l.length = n := by
  have hp : l.Perm ((((List.range n).filter fun i => f i)).map (· + 32)) := by
    rw [List.perm_ext_iff_of_nodup hn]
    · intro a
      simp only [List.mem_map, List.mem_filter, List.mem_range]
      constructor
      · intro ha
        have := hr a ha
        exact ⟨a - 32, ⟨by omega, (h a this.1 this.2).mpr ha⟩, by omega⟩
      · rintro ⟨i, ⟨h1, h2⟩, rfl⟩
        exact (h (i + 32) (by omega) (by omega)).mp (by simpa using h2)
    · apply List.Nodup.map
      · intro a b hab; simpa using hab
      · exact List.Nodup.filter _ List.nodup_range
  have hl := hp.length_eq
  rw [List.length_map] at hl
  rw [hl, countFree, List.countP_eq_length_filter]
  have := List.length_eq_length_filter_add (l := List.range n) (fun i => f i)
  simp only [List.length_range] at this
  omega

theorem SectorsMng.Inv.free_eq {s : SectorsMng} {out : List Nat} (h : s.Inv out) :
    s.map.free + (out ++ s.ahead ++ s.asyncAhead).length = DATA_REGION_SECTORS := by
  rw [h.map.count]
  refine countFree_of_mem _ _ _ h.nodup ?_ ?_
  · intro x hx; have := h.range x hx; exact ⟨this.1, this.2⟩
  · intro x h1 h2; exact h.used x ⟨h1, h2⟩

theorem findClear_some {f : Nat → Bool} {n rng i : Nat} (h : findClear f n rng = some i) : i < n ∧ f i = false := by
  unfold findClear at h
  have h1 := List.find?_some h
  have h2 := List.mem_of_find?_eq_some h
  simp only [List.mem_map, List.mem_range] at h2
  obtain ⟨j, hj, rfl⟩ := h2
  exact ⟨Nat.mod_lt _ (by omega), by simpa using h1⟩

theorem findClear_none {f : Nat → Bool} {n rng : Nat} (h : findClear f n rng = none) : ∀ i, i < n → f i = true := by
  intro i hi
  unfold findClear at h
  rw [List.find?_eq_none] at h
  have := h i (by
    simp only [List.mem_map, List.mem_range]
    refine ⟨(i + (n - rng % n)) % n, Nat.mod_lt _ (by omega), ?_⟩
    have hr : rng % n < n := Nat.mod_lt _ (by omega)
    rw [Nat.mod_add_mod]
    have : i + (n - rng % n) + rng = i + n * (1 + rng / n) := by
      have := Nat.div_add_mod rng n
      rw [Nat.mul_add]
      omega
    rw [this, Nat.add_mul_mod_self_left, Nat.mod_eq_of_lt hi])
  simpa using this

/-- a region may be erased: inside the data region and all its sectors are clear -/
structure RegionFree (s : SectorsMng) (r : EraseRegion) : Prop where
  pos : 1 ≤ r.len
  le : r.len ≤ 16
  inside : r.first + r.len ≤ DATA_REGION_SECTORS
  clear : ∀ i, r.first ≤ i → i < r.first + r.len → s.map.map4k i = false
  size : r.len = 1 ∨ r.len = 8 ∨ r.len = 16
  align : r.first % r.len = 0

theorem claimEraseRegion_spec {s : SectorsMng} (h : s.map.Inv) (rng : Nat) :
    (s.map.free = 0 ∧ s.claimEraseRegion rng = none) ∨
    (s.map.free ≠ 0 ∧ ∃ r, s.claimEraseRegion rng = some (.ok r) ∧ RegionFree s r) := by
  unfold SectorsMng.claimEraseRegion
  by_cases h0 : s.map.free = 0
  · left; exact ⟨h0, by rw [if_pos h0]⟩
  · right
    refine ⟨h0, ?_⟩
    rw [if_neg h0]
    cases e1 : findClear s.map.map64k (DATA_REGION_SECTORS / 16) rng with
    | some i =>
      have ⟨hi, hc⟩ := findClear_some e1
      rw [h.l64, anyIn_false_iff] at hc
      exact ⟨_, rfl, by simp, by simp, by omegac, fun j h1 h2 => hc j (by simp only at h1; omega) (by simp only at h2; omega), by simp, by simp⟩
    | none =>
      cases e2 : findClear s.map.map32k (DATA_REGION_SECTORS / 8) rng with
      | some i =>
        have ⟨hi, hc⟩ := findClear_some e2
        rw [h.l32, anyIn_false_iff] at hc
        exact ⟨_, rfl, by simp, by simp, by omegac, fun j h1 h2 => hc j (by simp only at h1; omega) (by simp only at h2; omega), by simp, by simp⟩
      | none =>
        cases e3 : findClear s.map.map4k DATA_REGION_SECTORS rng with
        | some i =>
          have ⟨hi, hc⟩ := findClear_some e3
          refine ⟨_, rfl, by simp, by simp, by omegac, fun j h1 h2 => ?_, by simp, Nat.mod_one _⟩
          have : j = i := by simp only at h1 h2; omega
          rw [this]; exact hc
        | none =>
          exfalso
          have ha := findClear_none e3
          apply h0
          rw [h.count]
          have : ∀ n, n ≤ DATA_REGION_SECTORS → countFree s.map.map4k n = 0 := by
            intro n hn
            induction n with
            | zero => rfl
            | succ n ih => rw [countFree_succ, ih (by omega), ha n (by omega)]; rfl
          exact this _ (Nat.le_refl _)

theorem mem_sectors {r : EraseRegion} {x : Nat} :
    x ∈ r.sectors ↔ r.first + 32 ≤ x ∧ x < r.first + r.len + 32 := by
  simp only [EraseRegion.sectors, List.mem_map, List.mem_range]
  show (∃ a, a < r.len ∧ r.first + a + 32 = x) ↔ _
  constructor
  · rintro ⟨a, h1, rfl⟩; omega
  · intro h; exact ⟨x - 32 - r.first, by omega, by omega⟩

theorem sectors_nodup (r : EraseRegion) : r.sectors.Nodup := by
  apply List.Nodup.map
  · intro a b hab
    have : r.first + a + 32 = r.first + b + 32 := hab
    omega
  · exact List.nodup_range

/-- the device after erasing a region -/
def eraseRegionDev (r : EraseRegion) (dev : Dev) : Dev := dev.op (.erase r.address (r.len * SECTOR_SIZE))

theorem erase_spec {s : SectorsMng} {out : List Nat} (h : s.Inv out) {r : EraseRegion} (hr : RegionFree s r)
    (useAsync : Bool) (dev : Dev) (he : (if useAsync then s.asyncAhead else s.ahead) = []) :
    ∃ s', s.erase r useAsync dev = some (s', eraseRegionDev r dev) ∧ s'.Inv out ∧
      s'.ahead = (if useAsync then s.ahead else r.sectors) ∧
      s'.asyncAhead = (if useAsync then r.sectors else s.asyncAhead) := by
  have hlen : r.sectors.length = r.len := by simp [EraseRegion.sectors]
  have hle := hr.le
  have hins := hr.inside
  have hmem : ∀ x, (x ∈ r.sectors → x ∉ out ++ s.ahead ++ s.asyncAhead) := by
    intro x hx hx2
    rw [mem_sectors] at hx
    have hd : InData x := ⟨by omega, by omegac⟩
    have := (h.used x hd).mpr hx2
    rw [hr.clear (x - 32) (by omega) (by omega)] at this
    exact absurd this (by decide)
  have hrange : ∀ x ∈ r.sectors, InData x := by
    intro x hx
    rw [mem_sectors] at hx
    exact ⟨by omega, by omegac⟩
  have hmap : (r.sectors.foldl SectorMap.setUsed s.map).Inv := by
    apply foldl_setUsed_Inv _ _ h.map
    intro x hx
    have := hrange x hx
    have := this.2
    omegac
  have hused : ∀ x, InData x → ((r.sectors.foldl SectorMap.setUsed s.map).map4k (x - 32) = true ↔
      (x ∈ out ++ s.ahead ++ s.asyncAhead ∨ x ∈ r.sectors)) := by
    intro x hx
    rw [foldl_setUsed_map4k, Bool.or_eq_true, h.used x hx, List.any_eq_true]
    constructor
    · rintro (h1 | ⟨y, h1, h2⟩)
      · exact Or.inl h1
      · right
        have hy := (hrange y h1).1
        have hx1 := hx.1
        have e : x - 32 = y - 32 := of_decide_eq_true h2
        have : x = y := by omega
        rw [this]; exact h1
    · rintro (h1 | h1)
      · exact Or.inl h1
      · exact Or.inr ⟨x, h1, by simp⟩
  have hnd := h.nodup
  unfold SectorsMng.erase
  cases useAsync with
  | true =>
    simp only [if_true] at he ⊢
    rw [he, List.nil_append, if_neg (by omega)]
    refine ⟨_, rfl, ⟨hmap, ?_, ?_, ?_, h.lenA, by show r.sectors.length ≤ 16; omega⟩, rfl, rfl⟩
    · intro x hx
      show (r.sectors.foldl SectorMap.setUsed s.map).map4k (x - 32) = true ↔ x ∈ out ++ s.ahead ++ r.sectors
      rw [hused x hx, he]
      simp [or_assoc]
    · show (out ++ s.ahead ++ r.sectors).Nodup
      rw [he, List.append_nil] at hnd
      rw [List.nodup_append]
      refine ⟨hnd, sectors_nodup r, ?_⟩
      intro a ha b hb hab
      subst hab
      exact hmem a hb (by rw [he, List.append_nil]; exact ha)
    · intro x hx
      rw [List.mem_append] at hx
      rcases hx with hx | hx
      · exact h.range x (List.mem_append_left _ hx)
      · exact hrange x hx
  | false =>
    simp only [Bool.false_eq_true, if_false] at he ⊢
    rw [he, List.nil_append, if_neg (by omega)]
    refine ⟨_, rfl, ⟨hmap, ?_, ?_, ?_, by show r.sectors.length ≤ 16; omega, h.lenB⟩, rfl, rfl⟩
    · intro x hx
      show (r.sectors.foldl SectorMap.setUsed s.map).map4k (x - 32) = true ↔ x ∈ out ++ r.sectors ++ s.asyncAhead
      rw [hused x hx, he]
      simp only [List.append_nil, List.mem_append]
      tauto
    · show (out ++ r.sectors ++ s.asyncAhead).Nodup
      rw [he, List.append_nil] at hnd
      rw [List.nodup_append] at hnd
      rw [List.nodup_append, List.nodup_append]
      refine ⟨⟨hnd.1, sectors_nodup r, ?_⟩, hnd.2.1, ?_⟩
      · intro a ha b hb hab
        subst hab
        exact hmem a hb (by simp [ha])
      · intro a ha b hb hab
        subst hab
        rw [List.mem_append] at ha
        rcases ha with ha | ha
        · exact hnd.2.2 a ha a hb rfl
        · exact hmem a ha (by simp [hb])
    · intro x hx
      simp only [List.mem_append] at hx
      rcases hx with (hx | hx) | hx
      · exact h.range x (by simp [hx])
      · exact hrange x hx
      · exact h.range x (by simp [hx])

theorem pop_spec {s : SectorsMng} {out : List Nat} (h : s.Inv out) {x : Nat} {s' : SectorsMng}
    (hp : s.pop = some (x, s')) :
    s'.Inv (x :: out) ∧ x ∉ out ∧ InData x ∧ s.ahead = s'.ahead ++ [x] ∧ s'.asyncAhead = s.asyncAhead ∧ s'.map = s.map := by
  unfold SectorsMng.pop at hp
  cases e : s.ahead.getLast? with
  | none => rw [e] at hp; exact absurd hp (by simp)
  | some y =>
    rw [e] at hp
    simp only [Option.some.injEq, Prod.mk.injEq] at hp
    obtain ⟨rfl, rfl⟩ := hp
    have hne : s.ahead ≠ [] := by intro h0; rw [h0] at e; simp at e
    have hcat : s.ahead.dropLast ++ [y] = s.ahead := by
      have := List.dropLast_append_getLast hne
      rw [List.getLast?_eq_some_getLast hne, Option.some.injEq] at e
      rw [e] at this; exact this
    have hperm : (out ++ s.ahead ++ s.asyncAhead).Perm ((y :: out) ++ s.ahead.dropLast ++ s.asyncAhead) := by
      rw [← hcat]
      simp only [List.dropLast_concat, List.append_assoc, List.cons_append]
      have h1 : (out ++ (s.ahead.dropLast ++ y :: s.asyncAhead)).Perm (out ++ (y :: (s.ahead.dropLast ++ s.asyncAhead))) :=
        List.Perm.append_left _ List.perm_middle
      exact h1.trans List.perm_middle
    have hy : y ∈ s.ahead := by rw [← hcat]; simp
    refine ⟨⟨h.map, ?_, ?_, ?_, ?_, h.lenB⟩, ?_, ?_, hcat.symm, rfl, rfl⟩
    · intro z hz
      rw [show s.map.map4k (z-32) = true ↔ _ from h.used z hz]
      exact hperm.mem_iff
    · exact hperm.nodup_iff.mp h.nodup
    · intro z hz
      exact h.range z (hperm.mem_iff.mpr hz)
    · have := h.lenA
      simp; omega
    · intro hx
      have := h.nodup
      rw [List.nodup_append, List.nodup_append] at this
      exact this.1.2.2 y hx y hy rfl
    · exact h.range y (by simp [hy])

theorem pop_none {s : SectorsMng} (hp : s.pop = none) : s.ahead = [] := by
  unfold SectorsMng.pop at hp
  cases e : s.ahead.getLast? with
  | none => simpa using e
  | some y => rw [e] at hp; simp at hp

/-- reserved sectors are blank -/
def AheadBlank (s : SectorsMng) (fl : Flash) : Prop :=
  ∀ x ∈ s.ahead ++ s.asyncAhead, ∀ j, j < SECTOR_SIZE → fl (x * SECTOR_SIZE + j) = 0xFF

/-- `fl'` differs from `fl` only in sectors of the data region that are not in `out` -/
def SameExcept (out : List Nat) (fl fl' : Flash) : Prop :=
  ∀ a, (a / SECTOR_SIZE ∈ out ∨ ¬ InData (a / SECTOR_SIZE)) → fl' a = fl a

theorem SameExcept.refl (out : List Nat) (fl : Flash) : SameExcept out fl fl := fun _ _ => rfl

theorem SameExcept.trans {out : List Nat} {f g h : Flash} (h1 : SameExcept out f g) (h2 : SameExcept out g h) :
    SameExcept out f h := fun a ha => (h2 a ha).trans (h1 a ha)

theorem eraseRegionDev_flash (r : EraseRegion) (dev : Dev) (a : Nat) :
    (eraseRegionDev r dev).flash a = if a / SECTOR_SIZE ∈ r.sectors then 0xFF else dev.flash a := by
  show (if r.address ≤ a ∧ a < r.address + r.len * 4096 then (0xFF : UInt8) else dev.flash a) = _
  have : (r.address ≤ a ∧ a < r.address + r.len * 4096) ↔ a / SECTOR_SIZE ∈ r.sectors := by
    rw [mem_sectors]
    have : r.address = (r.first + 32) * 4096 := rfl
    rw [this]
    show _ ↔ r.first + 32 ≤ a / 4096 ∧ a / 4096 < r.first + r.len + 32
    omega
  simp only [this]

theorem eraseRegionDev_same {s : SectorsMng} {out : List Nat} (h : s.Inv out) {r : EraseRegion} (hr : RegionFree s r)
    (dev : Dev) : SameExcept out dev.flash (eraseRegionDev r dev).flash := by
  intro a ha
  rw [eraseRegionDev_flash, if_neg]
  intro hm
  have hm' := hm
  rw [mem_sectors] at hm
  have hins := hr.inside
  have hd : InData (a / SECTOR_SIZE) := ⟨by omega, by omegac⟩
  rcases ha with ha | ha
  · have := (h.used _ hd).mpr (by simp [ha])
    rw [hr.clear _ (by omega) (by omega)] at this
    exact absurd this (by decide)
  · exact ha hd

/-- what a claim guarantees -/
theorem claim_spec {s : SectorsMng} {out : List Nat} (h : s.Inv out) (rng1 rng2 : Nat) (dev : Dev)
    (hb : AheadBlank s dev.flash) :
    let res := s.claim rng1 rng2 dev
    (∃ x, res.1 = .ok x ∧ res.2.1.Inv (x :: out) ∧ x ∉ out ∧ InData x ∧
        (∀ j, j < SECTOR_SIZE → res.2.2.flash (x * SECTOR_SIZE + j) = 0xFF) ∧
        AheadBlank res.2.1 res.2.2.flash ∧ SameExcept out dev.flash res.2.2.flash ∧
        (∃ os, res.2.2 = dev.ops os ∧ ∀ o ∈ os, ∃ r, RegionFree s r ∧ o = .erase r.address (r.len * SECTOR_SIZE))) ∨
    (res = (.error .deviceFull, s, dev) ∧ out.length = DATA_REGION_SECTORS) := by
  intro res
  have key : ∀ (s2 : SectorsMng) (dev2 : Dev), s2.Inv out → AheadBlank s2 dev2.flash → s2.ahead ≠ [] →
      SameExcept out dev.flash dev2.flash →
      (∃ os, dev2 = dev.ops os ∧ ∀ o ∈ os, ∃ r, RegionFree s r ∧ o = .erase r.address (r.len * SECTOR_SIZE)) →
      ∃ x s3, s2.pop = some (x, s3) ∧ s3.Inv (x :: out) ∧ x ∉ out ∧ InData x ∧
        (∀ j, j < SECTOR_SIZE → dev2.flash (x * SECTOR_SIZE + j) = 0xFF) ∧
        AheadBlank s3 dev2.flash ∧ SameExcept out dev.flash dev2.flash ∧
        (∃ os, dev2 = dev.ops os ∧ ∀ o ∈ os, ∃ r, RegionFree s r ∧ o = .erase r.address (r.len * SECTOR_SIZE)) := by
    intro s2 dev2 h2 hb2 hne hsame hos
    cases e : s2.pop with
    | none => exact absurd (pop_none e) hne
    | some p =>
      obtain ⟨x, s3⟩ := p
      obtain ⟨h3, h4, h5, h6, h7, _⟩ := pop_spec h2 e
      refine ⟨x, s3, rfl, h3, h4, h5, ?_, ?_, hsame, hos⟩
      · exact hb2 x (by rw [h6]; simp)
      · intro y hy
        apply hb2
        rw [h6]
        rw [h7] at hy
        simp only [List.mem_append] at hy ⊢
        tauto
  by_cases ha : s.ahead = []
  · have hpop : s.pop = none := by unfold SectorsMng.pop; rw [ha]; rfl
    by_cases hasy : s.asyncAhead = []
    · -- both lists empty
      rcases claimEraseRegion_spec h.map rng1 with ⟨h0, hn⟩ | ⟨h0, r, hc, hr⟩
      · right
        have hf := h.free_eq
        rw [ha, hasy, h0] at hf
        refine ⟨?_, by simpa using hf⟩
        simp only [res, SectorsMng.claim, hpop, hasy, ne_eq, not_true_eq_false, if_false, hn, hpop]
      · left
        obtain ⟨s1, he1, hi1, ha1, hb1⟩ := erase_spec h hr false dev (by simpa using ha)
        simp only [Bool.false_eq_true, if_false] at ha1 hb1
        have hsame1 := eraseRegionDev_same h hr dev
        have hblank1 : AheadBlank s1 (eraseRegionDev r dev).flash := by
          intro x hx j hj
          rw [ha1, hb1, hasy, List.append_nil] at hx
          rw [eraseRegionDev_flash, if_pos]
          have : (x * SECTOR_SIZE + j) / SECTOR_SIZE = x := by omegac
          rw [this]; exact hx
        have hlen : r.sectors ≠ [] := by
          have := hr.pos
          intro h00
          have := congrArg List.length h00
          simp [EraseRegion.sectors] at this; omega
        rcases claimEraseRegion_spec hi1.map rng2 with ⟨h0', hn'⟩ | ⟨h0', r', hc', hr'⟩
        · obtain ⟨x, s3, hp, hrest⟩ := key s1 (eraseRegionDev r dev) hi1 hblank1 (by rw [ha1]; exact hlen) hsame1
            ⟨[_], rfl, by intro o ho; exact ⟨r, hr, by simpa using ho⟩⟩
          refine ⟨x, ?_⟩
          have hres : res = (.ok x, s3, eraseRegionDev r dev) := by
            simp only [res, SectorsMng.claim, hpop, hasy, ne_eq, not_true_eq_false, if_false, hc, he1, SectorsMng.claimAndErase, hn', hp]
          rw [hres]
          exact ⟨rfl, hrest⟩
        · obtain ⟨s2, he2, hi2, ha2, hb2⟩ := erase_spec hi1 hr' true (eraseRegionDev r dev) (by simp [hb1, hasy])
          simp only [if_true] at ha2 hb2
          have hsame2 := eraseRegionDev_same hi1 hr' (eraseRegionDev r dev)
          have hblank2 : AheadBlank s2 (eraseRegionDev r' (eraseRegionDev r dev)).flash := by
            intro x hx j hj
            rw [eraseRegionDev_flash]
            have hxj : (x * SECTOR_SIZE + j) / SECTOR_SIZE = x := by omegac
            rw [hxj]
            by_cases hxr : x ∈ r'.sectors
            · rw [if_pos hxr]
            · rw [if_neg hxr]
              rw [ha2, hb2, List.mem_append] at hx
              rcases hx with hx | hx
              · exact hblank1 x (by simp [hx]) j hj
              · exact absurd hx hxr
          have hr'2 : RegionFree s r' := by
            refine ⟨hr'.pos, hr'.le, hr'.inside, ?_, hr'.size, hr'.align⟩
            intro i h1 h2
            have hcl := hr'.clear i h1 h2
            rw [← Bool.not_eq_true]
            intro hs
            have hins := hr'.inside
            have hd : InData (i + 32) := ⟨by omega, by omegac⟩
            have hm := (h.used (i + 32) hd).mp (by simpa using hs)
            have hm2 := (hi1.used (i + 32) hd).mpr (by
              rw [ha, hasy] at hm
              simp only [List.append_nil] at hm
              simp [hm])
            rw [Nat.add_sub_cancel] at hm2
            rw [hm2] at hcl
            exact absurd hcl (by decide)
          obtain ⟨x, s3, hp, hrest⟩ := key s2 _ hi2 hblank2 (by rw [ha2, ha1]; exact hlen) (hsame1.trans hsame2)
            ⟨[.erase r.address (r.len * SECTOR_SIZE), .erase r'.address (r'.len * SECTOR_SIZE)],
              by simp [eraseRegionDev, Dev.op, Dev.ops, applyOps], by
                intro o ho
                simp only [List.mem_cons, List.not_mem_nil, or_false] at ho
                rcases ho with rfl | rfl
                · exact ⟨r, hr, rfl⟩
                · exact ⟨r', hr'2, rfl⟩⟩
          refine ⟨x, ?_⟩
          have hres : res = (.ok x, s3, eraseRegionDev r' (eraseRegionDev r dev)) := by
            simp only [res, SectorsMng.claim, hpop, hasy, ne_eq, not_true_eq_false, if_false, hc, he1, SectorsMng.claimAndErase, hc', he2, hp]
          rw [hres]
          exact ⟨rfl, hrest⟩
    · -- swap
      left
      have hswap : SectorsMng.Inv { s with ahead := s.asyncAhead, asyncAhead := s.ahead } out := by
        have hperm : (out ++ s.ahead ++ s.asyncAhead).Perm (out ++ s.asyncAhead ++ s.ahead) := by
          rw [List.append_assoc, List.append_assoc]
          exact List.Perm.append_left _ List.perm_append_comm
        exact ⟨h.map, fun x hx => (h.used x hx).trans hperm.mem_iff, hperm.nodup_iff.mp h.nodup,
          fun x hx => h.range x (hperm.mem_iff.mpr hx), h.lenB, h.lenA⟩
      rcases claimEraseRegion_spec hswap.map rng1 with ⟨h0, hn⟩ | ⟨h0, r, hc, hr⟩
      · obtain ⟨x, s3, hp, hrest⟩ := key _ dev hswap (by
            intro x hx; apply hb; simp only [List.mem_append] at hx ⊢; tauto) hasy (SameExcept.refl _ _)
            ⟨[], (Dev.ops_nil _).symm, by simp⟩
        refine ⟨x, ?_⟩
        have hres : res = (.ok x, s3, dev) := by
          simp only [res, SectorsMng.claim, hpop, ne_eq, hasy, not_false_eq_true, if_true, SectorsMng.claimAndErase, hn, hp]
        rw [hres]
        exact ⟨rfl, hrest⟩
      · obtain ⟨s1, he1, hi1, ha1, hb1⟩ := erase_spec hswap hr true dev (by simpa using ha)
        simp only [if_true] at ha1 hb1
        have hsame1 := eraseRegionDev_same hswap hr dev
        have hblank1 : AheadBlank s1 (eraseRegionDev r dev).flash := by
          intro x hx j hj
          rw [eraseRegionDev_flash]
          have hxj : (x * SECTOR_SIZE + j) / SECTOR_SIZE = x := by omegac
          rw [hxj]
          by_cases hxr : x ∈ r.sectors
          · rw [if_pos hxr]
          · rw [if_neg hxr]
            rw [ha1, hb1, List.mem_append] at hx
            rcases hx with hx | hx
            · exact hb x (by simp [hx]) j hj
            · exact absurd hx hxr
        obtain ⟨x, s3, hp, hrest⟩ := key s1 (eraseRegionDev r dev) hi1 hblank1 (by rw [ha1]; exact hasy) hsame1
            ⟨[_], rfl, by intro o ho; exact ⟨r, ⟨hr.pos, hr.le, hr.inside, hr.clear, hr.size, hr.align⟩, by simpa using ho⟩⟩
        refine ⟨x, ?_⟩
        have hres : res = (.ok x, s3, eraseRegionDev r dev) := by
          simp only [res, SectorsMng.claim, hpop, ne_eq, hasy, not_false_eq_true, if_true, SectorsMng.claimAndErase, hc, he1, hp]
        rw [hres]
        exact ⟨rfl, hrest⟩
  · left
    obtain ⟨x, s3, hp, hrest⟩ := key s dev h hb ha (SameExcept.refl _ _) ⟨[], (Dev.ops_nil _).symm, by simp⟩
    refine ⟨x, ?_⟩
    have hres : res = (.ok x, s3, dev) := by simp only [res, SectorsMng.claim, hp]
    rw [hres]
    exact ⟨rfl, hrest⟩

theorem returnSector_spec {s : SectorsMng} {out : List Nat} (h : s.Inv out) {x : Nat} (hx : x ∈ out) :
    (s.returnSector x).Inv (out.erase x) := by
  have hr := h.range x (by simp [hx])
  have hnd := h.nodup
  have hnd' := hnd
  rw [List.append_assoc, List.nodup_append] at hnd'
  have hno : out.Nodup := hnd'.1
  have hna : x ∉ s.ahead ++ s.asyncAhead := fun hm => hnd'.2.2 x hx x hm rfl
  have herase : (out ++ s.ahead ++ s.asyncAhead).erase x = out.erase x ++ s.ahead ++ s.asyncAhead := by
    rw [List.append_assoc, List.erase_append_left _ hx, List.append_assoc]
  refine ⟨h.map.setUnused x (by have := hr.1; have := hr.2; omegac), ?_, ?_, ?_, h.lenA, h.lenB⟩
  · intro y hy
    show (s.map.setUnused x).map4k (y - 32) = true ↔ y ∈ out.erase x ++ s.ahead ++ s.asyncAhead
    rw [setUnused_map4k, Bool.and_eq_true, h.used y hy, ← herase, hnd.mem_erase_iff, decide_eq_true_eq]
    have := hy.1
    have := hr.1
    have : y - 32 ≠ x - 32 ↔ y ≠ x := by omega
    rw [this]
    tauto
  · show (out.erase x ++ s.ahead ++ s.asyncAhead).Nodup
    rw [← herase]; exact hnd.erase x
  · intro y hy
    have hy : y ∈ out.erase x ++ s.ahead ++ s.asyncAhead := hy
    rw [← herase] at hy
    exact h.range y (List.mem_of_mem_erase hy)

theorem claimSector_spec {s : SectorsMng} {out : List Nat} (h : s.Inv out) (hA : s.ahead = []) (hB : s.asyncAhead = [])
    {x : Nat} (hx : InData x) (hx' : x ∉ out) : (s.claimSector x).Inv (x :: out) := by
  have e1 : (s.claimSector x).ahead = [] := hA
  have e2 : (s.claimSector x).asyncAhead = [] := hB
  have hused := h.used
  have hnd := h.nodup
  have hr := h.range
  rw [hA, hB, List.append_nil, List.append_nil] at hnd hr
  refine ⟨h.map.setUsed x (by have := hx.1; have := hx.2; omegac), ?_, ?_, ?_, by rw [e1]; simp, by rw [e2]; simp⟩
  · intro y hy
    show (s.map.setUsed x).map4k (y - 32) = true ↔ _
    rw [e1, e2, setUsed_map4k, Bool.or_eq_true, hused y hy, hA, hB, decide_eq_true_eq]
    have := hy.1
    have := hx.1
    have : y - 32 = x - 32 ↔ y = x := by omega
    rw [this]
    simp only [List.append_nil, List.mem_cons]
    tauto
  · rw [e1, e2, List.append_nil, List.append_nil, List.nodup_cons]
    exact ⟨hx', hnd⟩
  · rw [e1, e2, List.append_nil, List.append_nil]
    intro y hy
    rcases List.mem_cons.mp hy with rfl | hy
    · exact hx
    · exact hr y hy

end Verif.Vlfs
