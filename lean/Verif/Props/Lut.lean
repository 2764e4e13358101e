import Mathlib.Tactic.Linarith
import Mathlib.Tactic.Positivity
import Mathlib.Tactic.FieldSimp
import Mathlib.Tactic.Ring
import Mathlib.Algebra.Order.Field.Rat
import Verif.Model.Lut

/-!
C60: boot timestamps are converted to unix time by interpolation between the recorded sync points.
-/
namespace Verif.Props
open Verif.Lut

/-- points recorded in one run of the device: boot timestamps differ, and unix time does not run backwards -/
structure OneRun (l : List Point) : Prop where
  distinct : l.Pairwise fun p q => p.1 ≠ q.1
  forward : ∀ p ∈ l, ∀ q ∈ l, p.1 ≤ q.1 → p.2 ≤ q.2

/-- sorted by boot timestamp -/
def Ascending (pts : List Point) : Prop := ∀ (i j : Nat) (p q : Point), i < j → pts[i]? = some p → pts[j]? = some q → p.1 < q.1

theorem sort_mem (l : List Point) (p : Point) : p ∈ sort l ↔ p ∈ l := by unfold sort; exact List.mem_mergeSort

theorem sort_length (l : List Point) : (sort l).length = l.length := by unfold sort; exact List.length_mergeSort ..

theorem sort_ascending (l : List Point) (h : l.Pairwise fun p q => p.1 ≠ q.1) : Ascending (sort l) := by
  have hp : (sort l).Perm l := by unfold sort; exact List.mergeSort_perm ..
  have h1 : (sort l).Pairwise fun p q => p.1 ≠ q.1 := (List.Perm.pairwise_iff (fun {x y} h => Ne.symm h) hp).2 h
  have h2 : (sort l).Pairwise fun p q : Point => decide (p.1 ≤ q.1) = true := by
    unfold sort
    refine List.pairwise_mergeSort (fun a b c hab hbc => ?_) (fun a b => ?_) l
    · simp at *; exact le_trans hab hbc
    · simp; exact le_total _ _
  have h3 : (sort l).Pairwise fun p q : Point => p.1 < q.1 :=
    (h1.and h2).imp fun {a b} h => lt_of_le_of_ne (of_decide_eq_true h.2) h.1
  intro i j p q hij hi hj
  obtain ⟨hi', hi⟩ := List.getElem?_eq_some_iff.1 hi
  obtain ⟨hj', hj⟩ := List.getElem?_eq_some_iff.1 hj
  rw [← hi, ← hj]
  exact List.pairwise_iff_getElem.1 h3 i j hi' hj' hij

/-- C60: there is a result exactly if there are at least two points -/
theorem C60_none (pts : List Point) (t : Rat) (r : Found) : convert pts t r = .none ↔ pts.length < 2 := by
  unfold convert
  by_cases h : pts.length < 2
  · simp [h]
  · rw [if_neg h]
    cases r with
    | ok i => simp [h]
    | error i => simp only; split <;> simp [h]

/-- C60: at a sync point the conversion is exact: whatever was recorded, in whatever order -/
theorem C60_exact (l : List Point) (hd : l.Pairwise fun p q => p.1 ≠ q.1) (h2 : 2 ≤ l.length) (p : Point) (hp : p ∈ l) (r : Found)
    (hr : IsSearch (sort l) p.1 r) : convert (sort l) p.1 r = .value p.2 := by
  have hasc := sort_ascending l hd
  have hlen := sort_length l
  obtain ⟨k, hk⟩ := List.mem_iff_getElem?.1 ((sort_mem l p).2 hp)
  unfold convert
  rw [if_neg (by omega)]
  cases r with
  | ok i =>
    obtain ⟨q, hq, he⟩ := hr
    have : i = k := by
      rcases Nat.lt_trichotomy i k with h | h | h
      · have := hasc i k q p h hq hk; rw [he] at this; exact absurd this (lt_irrefl _)
      · exact h
      · have := hasc k i p q h hk hq; rw [he] at this; exact absurd this (lt_irrefl _)
    subst this
    simp [List.getD_eq_getElem?_getD, hk]
  | error i =>
    obtain ⟨_, h⟩ := hr
    have := h k p hk
    rcases Nat.lt_or_ge k i with hki | hki
    · exact absurd (this.1 hki) (lt_irrefl _)
    · exact absurd (this.2 hki) (lt_irrefl _)

/-- what a conversion between points is: the segment it uses, the formula, and where the time lies -/
theorem get_error (pts : List Point) (hasc : Ascending pts) (h2 : 2 ≤ pts.length) (t : Rat) (i : Nat) (hr : IsSearch pts t (.error i)) :
    ∃ k p q, pts[k]? = some p ∧ pts[k + 1]? = some q ∧ p.1 < q.1
      ∧ convert pts t (.error i) = .value ((t - p.1) * (q.2 - p.2) / (q.1 - p.1) + p.2)
      ∧ (k + 1 = i ∨ (i = 0 ∧ k = 0) ∨ (i = pts.length ∧ k + 2 = pts.length))
      ∧ (k ≠ 0 → p.1 < t) ∧ (k + 2 < pts.length → t < q.1) := by
  obtain ⟨hi, hs⟩ := hr
  have hseg : 1 ≤ segment pts.length i ∧ segment pts.length i < pts.length := by unfold segment; omega
  obtain ⟨k, hk⟩ : ∃ k, segment pts.length i = k + 1 := ⟨segment pts.length i - 1, by omega⟩
  have hk1 : k < pts.length := by omega
  have hk2 : k + 1 < pts.length := by omega
  have e1 : pts[k]? = some pts[k] := List.getElem?_eq_getElem hk1
  have e2 : pts[k + 1]? = some pts[k + 1] := List.getElem?_eq_getElem hk2
  have hlt : pts[k].1 < pts[k + 1].1 := hasc k (k + 1) _ _ (by omega) e1 e2
  refine ⟨k, pts[k], pts[k + 1], e1, e2, hlt, ?_, ?_, ?_, ?_⟩
  · unfold convert
    rw [if_neg (by omega)]
    simp only [hk, Nat.add_sub_cancel, List.getD_eq_getElem?_getD, e1, e2, Option.getD_some]
    unfold mapRange
    rw [if_neg (by intro h; linarith)]
  · unfold segment at hk; omega
  · intro hk0
    refine (hs k _ e1).1 ?_
    unfold segment at hk; omega
  · intro hkl
    refine (hs (k + 1) _ e2).2 ?_
    unfold segment at hk; omega

/-- C60: between two neighbouring sync points the result is the linear interpolation of the two -/
theorem C60_interpolates (l : List Point) (hd : l.Pairwise fun p q => p.1 ≠ q.1) (p q : Point) (hp : p ∈ l) (hq : q ∈ l) (t : Rat) (h1 : p.1 < t) (h2 : t < q.1)
    (hn : ∀ x ∈ l, x.1 ≤ p.1 ∨ q.1 ≤ x.1) (r : Found) (hr : IsSearch (sort l) t r) :
    convert (sort l) t r = .value (p.2 + (t - p.1) / (q.1 - p.1) * (q.2 - p.2)) := by
  have hasc := sort_ascending l hd
  obtain ⟨a, ha⟩ := List.mem_iff_getElem?.1 ((sort_mem l p).2 hp)
  obtain ⟨b, hb⟩ := List.mem_iff_getElem?.1 ((sort_mem l q).2 hq)
  have hinj : ∀ (i j : Nat) (x y : Point), (sort l)[i]? = some x → (sort l)[j]? = some y → x.1 < y.1 → i < j := by
    intro i j x y hi hj hxy
    rcases Nat.lt_trichotomy i j with h | h | h
    · exact h
    · subst h; rw [hi] at hj; injection hj with hj; subst hj; exact absurd hxy (lt_irrefl _)
    · have := hasc j i y x h hj hi; linarith
  have hab := hinj a b p q ha hb (by linarith)
  have hbl : b < (sort l).length := (List.getElem?_eq_some_iff.1 hb).1
  cases r with
  | ok i =>
    obtain ⟨x, hx, he⟩ := hr
    have hxm : x ∈ l := (sort_mem l x).1 (List.mem_iff_getElem?.2 ⟨i, hx⟩)
    rcases hn x hxm with h | h
    · rw [he] at h; linarith
    · rw [he] at h; linarith
  | error i =>
    obtain ⟨k, x, y, hx, hy, hxy, hval, hpos, hx1, hy1⟩ := get_error (sort l) hasc (by omega) t i hr
    obtain ⟨_, hs⟩ := hr
    have hai : a < i := by
      rcases Nat.lt_or_ge a i with h | h
      · exact h
      · have := (hs a p ha).2 h; linarith
    have hib : i ≤ b := by
      rcases Nat.lt_or_ge b i with h | h
      · have := (hs b q hb).1 h; linarith
      · exact h
    have hki : k + 1 = i := by omega
    -- nothing lies between the two points
    have hxm : x ∈ l := (sort_mem l x).1 (List.mem_iff_getElem?.2 ⟨k, hx⟩)
    have hym : y ∈ l := (sort_mem l y).1 (List.mem_iff_getElem?.2 ⟨k + 1, hy⟩)
    have hxt := (hs k x hx).1 (by omega)
    have hyt := (hs (k + 1) y hy).2 (by omega)
    have hxp : k = a := by
      rcases Nat.lt_trichotomy k a with h | h | h
      · omega
      · exact h
      · have := hasc a k p x h ha hx
        rcases hn x hxm with h' | h' <;> linarith
    have hyq : k + 1 = b := by
      rcases Nat.lt_trichotomy (k + 1) b with h | h | h
      · have := hasc (k + 1) b y q h hy hb
        rcases hn y hym with h' | h' <;> linarith
      · exact h
      · omega
    subst hxp
    rw [hyq] at hy
    rw [ha] at hx; injection hx with hx; subst hx
    rw [hb] at hy; injection hy with hy; subst hy
    rw [hval]
    congr 1
    have : q.1 - p.1 ≠ 0 := by intro h; linarith
    field_simp
    ring

theorem line_mono {t t' a b c d : Rat} (hab : a < b) (hcd : c ≤ d) (ht : t ≤ t') :
    (t - a) * (d - c) / (b - a) + c ≤ (t' - a) * (d - c) / (b - a) + c := by
  have h1 : (t - a) * (d - c) ≤ (t' - a) * (d - c) := mul_le_mul_of_nonneg_right (by linarith) (by linarith)
  have := div_le_div_of_nonneg_right h1 (by linarith : (0 : Rat) ≤ b - a)
  linarith

theorem line_end {a b c d : Rat} (hab : a < b) : (b - a) * (d - c) / (b - a) + c = d := by
  have : b - a ≠ 0 := by intro h; linarith
  field_simp; ring

theorem line_start {a b c d : Rat} : (a - a) * (d - c) / (b - a) + c = c := by simp

/-- C60: the conversion is monotone: for points of one run, a later boot timestamp never gets an earlier unix time, also outside the recorded range -/
theorem C60_monotone (l : List Point) (hl : OneRun l) (h2 : 2 ≤ l.length) (t t' : Rat) (htt : t ≤ t') (r r' : Found)
    (hr : IsSearch (sort l) t r) (hr' : IsSearch (sort l) t' r') :
    ∃ u u', convert (sort l) t r = .value u ∧ convert (sort l) t' r' = .value u' ∧ u ≤ u' := by
  have hasc := sort_ascending l hl.distinct
  have hlen := sort_length l
  have hmono : ∀ (i j : Nat) (x y : Point), (sort l)[i]? = some x → (sort l)[j]? = some y → i ≤ j → x.2 ≤ y.2 := by
    intro i j x y hi hj hij
    rcases Nat.lt_or_eq_of_le hij with h | h
    · exact hl.forward x ((sort_mem l x).1 (List.mem_iff_getElem?.2 ⟨i, hi⟩)) y ((sort_mem l y).1 (List.mem_iff_getElem?.2 ⟨j, hj⟩)) (le_of_lt (hasc i j x y h hi hj))
    · subst h; rw [hi] at hj; injection hj with hj; subst hj; exact le_refl _
  have hlt_idx : ∀ (i j : Nat) (x y : Point), (sort l)[i]? = some x → (sort l)[j]? = some y → x.1 ≤ y.1 → i ≤ j := by
    intro i j x y hi hj hxy
    rcases Nat.lt_or_ge j i with h | h
    · have := hasc j i y x h hj hi; linarith
    · exact h
  cases r with
  | ok i =>
    obtain ⟨x, hx, hxe⟩ := hr
    have hg : convert (sort l) t (.ok i) = .value x.2 := by
      unfold convert; rw [if_neg (by omega)]; simp [List.getD_eq_getElem?_getD, hx]
    cases r' with
    | ok j =>
      obtain ⟨y, hy, hye⟩ := hr'
      have hg' : convert (sort l) t' (.ok j) = .value y.2 := by
        unfold convert; rw [if_neg (by omega)]; simp [List.getD_eq_getElem?_getD, hy]
      exact ⟨x.2, y.2, hg, hg', hmono i j x y hx hy (hlt_idx i j x y hx hy (by rw [hxe, hye]; exact htt))⟩
    | error j =>
      obtain ⟨k, p, q, hp, hq, hpq, hval, hpos, hp1, hq1⟩ := get_error (sort l) hasc (by omega) t' j hr'
      obtain ⟨_, hs⟩ := hr'
      have hix := (List.getElem?_eq_some_iff.1 hx).1
      have hij : i < j := by
        rcases Nat.lt_or_ge i j with h | h
        · exact h
        · have := (hs i x hx).2 h; linarith
      -- the point is at or before the start of the segment, or at its end when the time lies behind the last point
      refine ⟨x.2, _, hg, hval, ?_⟩
      have hpq2 := hmono k (k + 1) p q hp hq (by omega)
      rcases hpos with h | ⟨h, _⟩ | ⟨h, hk⟩
      · have hik := hmono i k x p hx hp (by omega)
        have hpt : p.1 ≤ t' := le_of_lt ((hs k p hp).1 (by omega))
        have := line_mono (c := p.2) (d := q.2) hpq hpq2 hpt
        rw [line_start] at this
        linarith
      · omega
      · have hik := hmono i (k + 1) x q hx hq (by omega)
        have hqt : q.1 ≤ t' := le_of_lt ((hs (k + 1) q hq).1 (by omega))
        have := line_mono (c := p.2) (d := q.2) hpq hpq2 hqt
        rw [line_end hpq] at this
        linarith
  | error i =>
    obtain ⟨k, p, q, hp, hq, hpq, hval, hpos, hp1, hq1⟩ := get_error (sort l) hasc (by omega) t i hr
    obtain ⟨hi, hs⟩ := hr
    have hpq2 := hmono k (k + 1) p q hp hq (by omega)
    have hkl := (List.getElem?_eq_some_iff.1 hq).1
    cases r' with
    | ok j =>
      obtain ⟨y, hy, hye⟩ := hr'
      have hg' : convert (sort l) t' (.ok j) = .value y.2 := by
        unfold convert; rw [if_neg (by omega)]; simp [List.getD_eq_getElem?_getD, hy]
      have hjl := (List.getElem?_eq_some_iff.1 hy).1
      have hij : i ≤ j := by
        rcases Nat.lt_or_ge j i with h | h
        · have := (hs j y hy).1 h; linarith
        · exact h
      refine ⟨_, y.2, hval, hg', ?_⟩
      rcases hpos with h | ⟨h, hk⟩ | ⟨h, _⟩
      · have hik := hmono (k + 1) j q y hq hy (by omega)
        have hqt : t ≤ q.1 := le_of_lt ((hs (k + 1) q hq).2 (by omega))
        have := line_mono (c := p.2) (d := q.2) hpq hpq2 hqt
        rw [line_end hpq] at this
        linarith
      · have hik := hmono k j p y hp hy (by omega)
        have hpt : t ≤ p.1 := le_of_lt ((hs k p hp).2 (by omega))
        have := line_mono (c := p.2) (d := q.2) hpq hpq2 hpt
        rw [line_start] at this
        linarith
      · omega
    | error j =>
      obtain ⟨k', p', q', hp', hq', hpq', hval', hpos', hp1', hq1'⟩ := get_error (sort l) hasc (by omega) t' j hr'
      obtain ⟨hj, hs'⟩ := hr'
      have hpq2' := hmono k' (k' + 1) p' q' hp' hq' (by omega)
      have hkl' := (List.getElem?_eq_some_iff.1 hq').1
      have hij : i ≤ j := by
        rcases Nat.lt_or_ge j i with h | h
        · have hjlt : j < (sort l).length := by omega
          have hy : (sort l)[j]? = some (sort l)[j] := List.getElem?_eq_getElem hjlt
          have := (hs j _ hy).1 h
          have := (hs' j _ hy).2 (le_refl _)
          linarith
        · exact h
      refine ⟨_, _, hval, hval', ?_⟩
      rcases Nat.lt_trichotomy k k' with hkk | hkk | hkk
      · -- different segments: the end of the first is at or before the start of the second
        have hmid := hmono (k + 1) k' q p' hq hp' (by omega)
        have hqt : t ≤ q.1 := le_of_lt (hq1 (by omega))
        have hpt : p'.1 ≤ t' := le_of_lt (hp1' (by omega))
        have e1 := line_mono (c := p.2) (d := q.2) hpq hpq2 hqt
        rw [line_end hpq] at e1
        have e2 := line_mono (c := p'.2) (d := q'.2) hpq' hpq2' hpt
        rw [line_start] at e2
        linarith
      · subst hkk
        rw [hp] at hp'; injection hp' with hp'; subst hp'
        rw [hq] at hq'; injection hq' with hq'; subst hq'
        exact line_mono hpq hpq2 htt
      · omega

/-- C60: with distinct boot timestamps the result is always a number -/
theorem C60_finite (l : List Point) (hd : l.Pairwise fun p q => p.1 ≠ q.1) (t : Rat) (r : Found) (hr : IsSearch (sort l) t r) : convert (sort l) t r ≠ .notFinite := by
  have hasc := sort_ascending l hd
  by_cases h2 : 2 ≤ (sort l).length
  · cases r with
    | ok i => unfold convert; rw [if_neg (by omega)]; simp
    | error i => obtain ⟨_, _, _, _, _, _, hval, _⟩ := get_error (sort l) hasc h2 t i hr; rw [hval]; simp
  · unfold convert; rw [if_pos (by omega)]; simp

/-- a search that satisfies the specification exists: take the number of points before `t` -/
theorem C60_search_exists (pts : List Point) (hasc : Ascending pts) (t : Rat) : ∃ r, IsSearch pts t r := by
  by_cases h : ∃ (i : Nat) (p : Point), pts[i]? = some p ∧ p.1 = t
  · obtain ⟨i, hi⟩ := h; exact ⟨.ok i, hi⟩
  · have hne : ∀ (i : Nat) (p : Point), pts[i]? = some p → p.1 ≠ t := fun i p hp he => h ⟨i, p, hp, he⟩
    -- the least index whose point is not before `t`
    have : ∀ n, n ≤ pts.length → (∀ (j : Nat) (p : Point), pts[j]? = some p → j < n → p.1 < t) ∨ ∃ i, i < n ∧ IsSearch pts t (.error i) := by
      intro n
      induction n with
      | zero => intro _; exact .inl (fun j p _ hj => by omega)
      | succ n ih =>
        intro hn
        rcases ih (by omega) with hall | ⟨i, hi, hs⟩
        · have hget : pts[n]? = some pts[n] := List.getElem?_eq_getElem (by omega)
          rcases lt_or_gt_of_ne (hne n _ hget) with hlt | hgt
          · left
            intro j p hp hj
            rcases Nat.lt_or_eq_of_le (Nat.lt_succ_iff.1 hj) with hj' | hj'
            · exact hall j p hp hj'
            · subst hj'; rw [hget] at hp; injection hp with hp; subst hp; exact hlt
          · right
            refine ⟨n, by omega, by omega, fun j p hp => ⟨hall j p hp, fun hnj => ?_⟩⟩
            rcases Nat.lt_or_eq_of_le hnj with hj' | hj'
            · have := hasc n j _ p hj' hget hp; linarith
            · subst hj'; rw [hget] at hp; injection hp with hp; subst hp; exact hgt
        · exact .inr ⟨i, by omega, hs⟩
    rcases this pts.length (le_refl _) with hall | ⟨i, _, hs⟩
    · refine ⟨.error pts.length, le_refl _, fun j p hp => ⟨fun hj => hall j p hp hj, fun hj => ?_⟩⟩
      have := (List.getElem?_eq_some_iff.1 hp).1
      omega
    · exact ⟨.error i, hs⟩

/-- C60, finding: two sync points with the same boot timestamp make the conversion of earlier (or later) times infinite or undefined -/
theorem C60_same_stamp : IsSearch [(1, 5), (1, 7)] 0 (.error 0) ∧ convert [(1, 5), (1, 7)] 0 (.error 0) = .notFinite := by
  refine ⟨⟨by simp, fun j p hp => ⟨fun h => by omega, fun _ => ?_⟩⟩, by decide +kernel⟩
  match j with
  | 0 => simp at hp; rw [← hp]; decide +kernel
  | 1 => simp at hp; rw [← hp]; decide +kernel
  | j + 2 => simp at hp

/-- two runs of a device: the first from unix time 1000 on, the second from 5000 on -/
def firstRun : List Point := [(0, 1000), (100, 1100)]
def secondRun : List Point := [(50, 5000), (150, 5100)]

/-- C60, finding (the source says "should be per-file"): points of two runs in one table: a reading of the first run, 75 s after its start, is converted to a time that is in neither run -/
theorem C60_two_runs_mixed :
    OneRun firstRun ∧ OneRun secondRun ∧ convert firstRun 75 (.error 1) = .value 1075 ∧ convert (sort (firstRun ++ secondRun)) 75 (.error 2) = .value 3050
      ∧ IsSearch (sort (firstRun ++ secondRun)) 75 (.error 2) := by
  have hs : sort (firstRun ++ secondRun) = [(0, 1000), (50, 5000), (100, 1100), (150, 5100)] := by
    simp only [sort, firstRun, secondRun, List.cons_append, List.nil_append]
    simp [List.mergeSort, List.MergeSort.Internal.splitInTwo, List.merge]
    have e1 : ((50 : Rat) ≤ 150) = True := by simp only [eq_iff_iff, iff_true]; decide +kernel
    have e2 : ((0 : Rat) ≤ 50) = True := by simp only [eq_iff_iff, iff_true]; decide +kernel
    have e3 : ((100 : Rat) ≤ 50) = False := by simp only [eq_iff_iff, iff_false]; decide +kernel
    have e4 : ((100 : Rat) ≤ 150) = True := by simp only [eq_iff_iff, iff_true]; decide +kernel
    simp only [e1, if_true]
    simp [List.merge, e2, e3, e4]
  refine ⟨⟨by simp [firstRun], ?_⟩, ⟨by simp [secondRun], ?_⟩, by decide +kernel, by rw [hs]; decide +kernel, ?_⟩
  · intro p hp q hq
    simp [firstRun] at hp hq
    rcases hp with rfl | rfl <;> rcases hq with rfl | rfl <;> decide +kernel
  · intro p hp q hq
    simp [secondRun] at hp hq
    rcases hp with rfl | rfl <;> rcases hq with rfl | rfl <;> decide +kernel
  · rw [hs]
    refine ⟨by simp, fun j p hp => ?_⟩
    match j with
    | 0 => simp at hp; rw [← hp]; exact ⟨fun _ => by decide +kernel, fun h => by omega⟩
    | 1 => simp at hp; rw [← hp]; exact ⟨fun _ => by decide +kernel, fun h => by omega⟩
    | 2 => simp at hp; rw [← hp]; exact ⟨fun h => by omega, fun _ => by decide +kernel⟩
    | 3 => simp at hp; rw [← hp]; exact ⟨fun h => by omega, fun _ => by decide +kernel⟩
    | j + 4 => simp at hp

end Verif.Props
