import Verif.Model.Spectrogram
import Verif.Props.Resampler
import Mathlib.Tactic.Ring
import Mathlib.Tactic.NormNum
/-
C111: the frequency axis of the spectrogram.
-/
namespace Verif.Props
open Verif Ozys

theorem put_length (b : FBuf) (i : Int) (v : Option Rat) : (b.put i v).length = b.length := by
  unfold FBuf.put; split <;> simp

theorem put_get (b : FBuf) (i : Int) (v : Option Rat) (hi : 0 ≤ i) (j : Nat) (hj : j < b.length) : (b.put i v)[j]? = if (j : Int) = i then some v else b[j]? := by
  unfold FBuf.put
  rw [if_pos hi, List.getElem?_set]
  by_cases h : (j : Int) = i
  · rw [if_pos h, if_pos (by omega), if_pos (by omega)]
  · rw [if_neg h, if_neg (by omega)]

/-- storing consecutive cells, the first one `d`: cell `j` holds value `j - d` if there is one -/
theorem store_spec (a : FAxis) (F : Nat → Rat × Rat) (d : Int) (hF : ∀ k, a.index ((F k).1 / 1000) = k + d) (M : Nat) : ∀ (n k : Nat), k + n = M → ∀ (b : FBuf) (last : Int),
    let r := a.store ((List.range' k n).map F) b last
    r.2.1.length = b.length ∧ r.1 = decide (k < M ∧ (b.length : Int) ≤ (M : Int) - 1 + d) ∧
    (∀ j : Nat, j < b.length → r.2.1[j]? = if (k : Int) ≤ j - d ∧ (j : Int) - d < M then some (some (F (j - d).toNat).2) else b[j]?) ∧
    (r.1 = false → r.2.2 = if k < M ∧ 0 ≤ (M : Int) - 1 + d then (M : Int) - 1 + d else last) := by
  intro n
  induction n with
  | zero =>
    intro k hk b last
    simp only [List.range'_zero, List.map_nil, FAxis.store]
    refine ⟨trivial, ?_, fun j hj => ?_, fun _ => ?_⟩
    · symm; rw [decide_eq_false_iff_not]; omega
    · rw [if_neg (by omega)]
    · rw [if_neg (by omega)]
  | succ n ih =>
    intro k hk b last
    simp only [List.range'_succ, List.map_cons, FAxis.store, hF]
    split
    · next h1 =>
      refine ⟨rfl, ?_, fun j hj => ?_, fun h => by simp at h⟩
      · symm; rw [decide_eq_true_iff]; omega
      · rw [if_neg (by omega)]
    · next h1 =>
      split
      · next h2 =>
        obtain ⟨g1, g2, g3, g4⟩ := ih (k + 1) (by omega) b last
        refine ⟨g1, ?_, fun j hj => ?_, fun h => ?_⟩
        · rw [g2]; congr 1; apply propext; omega
        · rw [g3 j hj]
          by_cases hc : (k : Int) + 1 ≤ j - d ∧ (j : Int) - d < M
          · rw [if_pos (by push_cast; exact hc), if_pos (by omega)]
          · rw [if_neg (by push_cast; exact hc), if_neg (by omega)]
        · rw [g4 h]
          by_cases hc : k + 1 < M ∧ 0 ≤ (M : Int) - 1 + d
          · rw [if_pos hc, if_pos (by omega)]
          · rw [if_neg hc, if_neg (by omega)]
      · next h2 =>
        have g := ih (k + 1) (by omega) (b.put (k + d) (some (F k).2)) (k + d)
        rw [put_length] at g
        obtain ⟨g1, g2, g3, g4⟩ := g
        refine ⟨g1, ?_, fun j hj => ?_, fun h => ?_⟩
        · rw [g2]; congr 1; apply propext; omega
        · rw [g3 j hj, put_get _ _ _ (by omega) j hj]
          by_cases hc : ((k + 1 : Nat) : Int) ≤ j - d ∧ (j : Int) - d < M
          · rw [if_pos hc, if_pos (by omega)]
          · rw [if_neg hc]
            by_cases he : (j : Int) = k + d
            · rw [if_pos he, if_pos (by omega)]
              have : ((j : Int) - d).toNat = k := by omega
              rw [this]
            · rw [if_neg he, if_neg (by omega)]
        · rw [g4 h]
          by_cases hc : k + 1 < M
          · rw [if_pos (by omega), if_pos (by omega)]
          · rw [if_neg (by omega), if_pos (by omega)]; omega

/-- repeating the last value up to `top` -/
theorem fillUp_spec (top : Int) : ∀ (n : Nat) (b : FBuf) (last : Int), (top - last).toNat = n → -1 ≤ last →
    (fillUp top b last).1.length = b.length ∧ (fillUp top b last).2 = max last top ∧
    ∀ j : Nat, j < b.length → (fillUp top b last).1[j]? = if last < j ∧ (j : Int) ≤ top then some (if 0 ≤ last then b.at' last else none) else b[j]? := by
  intro n
  induction n with
  | zero =>
    intro b last hn hl
    rw [fillUp, if_neg (by omega)]
    refine ⟨rfl, by show last = _; omega, fun j _ => ?_⟩
    rw [if_neg (by omega)]
  | succ n ih =>
    intro b last hn hl
    rw [fillUp, if_pos (by omega)]
    obtain ⟨g1, g2, g3⟩ := ih (b.put (last + 1) (b.at' last)) (last + 1) (by omega) (by omega)
    rw [put_length] at g1 g3
    refine ⟨g1, by rw [g2]; omega, fun j hj => ?_⟩
    rw [g3 j hj, put_get _ _ _ (by omega) j hj]
    have hv : (b.put (last + 1) (b.at' last)).at' (last + 1) = if last + 1 < (b.length : Int) then b.at' last else none := by
      unfold FBuf.at'
      rw [if_pos (by omega)]
      by_cases hin : last + 1 < (b.length : Int)
      · rw [put_get _ _ _ (by omega) _ (by omega), if_pos (by omega), if_pos hin]; rfl
      · rw [List.getElem?_eq_none (by rw [put_length]; omega), if_neg hin]; rfl
    have hneg : last < 0 → b.at' last = none := by
      intro h; unfold FBuf.at'; rw [if_neg (by omega)]
    by_cases h1 : last + 1 < j ∧ (j : Int) ≤ top
    · rw [if_pos h1, if_pos (by omega), if_pos (by omega), hv, if_pos (by omega)]
      by_cases h0 : 0 ≤ last
      · rw [if_pos h0]
      · rw [if_neg h0, hneg (by omega)]
    · rw [if_neg h1]
      by_cases h2 : (j : Int) = last + 1
      · rw [if_pos h2, if_pos (by omega)]
        by_cases h0 : 0 ≤ last
        · rw [if_pos h0]
        · rw [if_neg h0, hneg (by omega)]
      · rw [if_neg h2, if_neg (by omega)]

/-- the samples of one half of the axis -/
theorem half_samples {σ : Type} (p : Filter σ) (fuel : Nat) (f0 : σ) (start sourceRate rate : Rat) (hs : 0 < sourceRate) (hr : 0 < rate) (xs ys : List Rat) (r : List (Rat × Rat) × Resampler σ)
    (hy : smoothed p fuel f0 xs = some ys) (h : (Resampler.new f0 start sourceRate rate 0).feed p fuel xs = some r) :
    ∃ M, r.1 = (List.range' 0 M).map (fun k : Nat => (start + 1000 * (k / rate), polygon ys (k / rate * sourceRate + 1))) ∧ ∀ k : Nat, k < M ↔ (k : Rat) / rate ≤ ((xs.length : Rat) - 2) / sourceRate := by
  obtain ⟨ys', M, h1, h2, h3⟩ := C104_samples p fuel f0 start sourceRate rate 0 hs hr (by have : 0 < 1000 / rate := div_pos (by norm_num) hr; linarith) xs r.1 r.2 h
  rw [hy] at h1
  cases h1
  have hf : firstSample 0 = 0 := by unfold firstSample; rw [if_neg (by norm_num)]
  refine ⟨M, ?_, fun k => ?_⟩
  · rw [h2, List.range_eq_range', hf]
    apply List.map_congr_left
    intro k _
    unfold sampleTime
    have e1 : ((0 + k : Nat) : Rat) * (1000 / rate) + 0 = 1000 * (k / rate) := by push_cast; ring
    have e2 : 1000 * ((k : Rat) / rate) / (1000 / sourceRate) = k / rate * sourceRate := by field_simp
    rw [e1, e2]
  · have := h3 k (by rw [hf]; omega)
    rw [hf, Nat.zero_add] at this
    rw [this]
    unfold sampleTime
    have e1 : (k : Rat) * (1000 / rate) + 0 = 1000 * (k / rate) := by ring
    have e2 : ((xs.length : Rat) - 2) * (1000 / sourceRate) = 1000 * (((xs.length : Rat) - 2) / sourceRate) := by ring
    rw [e1, e2]
    constructor <;> intro h <;> linarith

/-- the number of samples up to a frequency -/
theorem count_upto (rate c : Rat) (hr : 0 < rate) (hc : 0 ≤ c) : ∃ M : Nat, ∀ k : Nat, k < M ↔ (k : Rat) / rate ≤ c := by
  refine ⟨⌊c * rate⌋.toNat + 1, fun k => ?_⟩
  have h0 : 0 ≤ ⌊c * rate⌋ := Int.floor_nonneg.mpr (mul_nonneg hc hr.le)
  rw [div_le_iff₀ hr]
  have : ((k : Int) : Rat) ≤ c * rate ↔ (k : Int) ≤ ⌊c * rate⌋ := Int.le_floor.symm
  rw [show (k : Rat) = ((k : Int) : Rat) by norm_cast, this]
  omega

/-- the cells in terms of whole numbers: `m` samples below the lowest frequency, `T` below 2 kHz -/
theorem axis_cells {σ : Type} (a : FAxis) (p : Filter σ) (fuel : Nat) (fa fb : σ) (low high y0 y1 : List Rat) (b b' : FBuf) (m T : Nat) (hr : 0 < a.rate) (hm : a.min * a.rate = m) (hT : 2000 * a.rate = T)
    (hy0 : smoothed p fuel fa low = some y0) (hy1 : smoothed p fuel fb high = some y1) (hl : low.length = 200) (hh : high.length = 360) (h : a.resample p fuel fa fb low high b = some b') :
    ∃ M1 M2 : Nat, (∀ k : Nat, k < M1 ↔ (k : Rat) / a.rate ≤ 1980) ∧ (∀ k : Nat, k < M2 ↔ (k : Rat) / a.rate ≤ 17900) ∧ b'.length = b.length ∧
      ∀ j : Nat, j < b.length → b'[j]? =
        if j + m < M1 then some (some (polygon y0 (((j + m : Nat) : Rat) / a.rate * (1 / 10) + 1)))
        else if j + m < T then some (if m < M1 then some (polygon y0 (((M1 - 1 : Nat) : Rat) / a.rate * (1 / 10) + 1)) else none)
        else if j + m < T + M2 then some (some (polygon y1 (((j + m - T : Nat) : Rat) / a.rate * (1 / 50) + 1)))
        else if j + m ≤ 10 * T then some (if m < T + M2 then some (polygon y1 (((M2 - 1 : Nat) : Rat) / a.rate * (1 / 50) + 1)) else none)
        else b[j]? := by
  have idx : ∀ (t : Rat) (z : Int), t * a.rate = z → a.index t = z - m := by
    intro t z ht
    unfold FAxis.index
    have : (t - a.min) * a.rate = ((z - m : Int) : Rat) := by push_cast; rw [← ht, ← hm]; ring
    rw [this, Int.floor_intCast]
  have div : ∀ k : Nat, (k : Rat) / a.rate * a.rate = k := fun k => div_mul_cancel₀ _ hr.ne'
  have i2 : a.index 2000 = T - m := idx 2000 T (by rw [hT]; norm_cast)
  have i20 : a.index 20000 = 10 * T - m := idx 20000 (10 * T) (by push_cast; rw [← hT]; ring)
  unfold FAxis.resample at h
  obtain ⟨r1, hr1, h⟩ := Option.bind_eq_some_iff.mp h
  obtain ⟨M1, e1, hM1⟩ := half_samples p fuel fa 0 (1 / 10) a.rate (by norm_num) hr low y0 r1 hy0 hr1
  rw [hl] at hM1
  have hM1' : ∀ k : Nat, k < M1 ↔ (k : Rat) / a.rate ≤ 1980 := by
    intro k; rw [hM1 k]; norm_num
  have hM1pos : 0 < M1 := (hM1' 0).mpr (by norm_num)
  have hM1T : M1 ≤ T := by
    by_contra hc
    have := (hM1' T).mp (by omega)
    rw [← hT, mul_div_assoc, div_self hr.ne'] at this
    norm_num at this
  have s1 := store_spec a (fun k : Nat => ((0 : Rat) + 1000 * (k / a.rate), polygon y0 (k / a.rate * (1 / 10) + 1))) (-(m : Int)) (by
    intro k
    rw [idx _ k (by show (0 + 1000 * ((k : Rat) / a.rate)) / 1000 * a.rate = _; rw [zero_add, mul_div_assoc, mul_comm 1000, div_mul_cancel₀ _ (by norm_num), div]; norm_cast)]
    ring) M1 M1 0 (by omega) b (-1)
  rw [← e1] at s1
  generalize hst1 : a.store r1.1 b (-1) = st1 at s1 h
  obtain ⟨q1, c1, l1⟩ := st1
  obtain ⟨s1a, s1b, s1c, s1d⟩ := s1
  simp only at s1a s1b s1c s1d h
  cases q1 with
  | true =>
    rw [if_pos rfl] at h
    cases h
    have hret := of_decide_eq_true s1b.symm
    obtain ⟨M2, hM2⟩ := count_upto a.rate 17900 hr (by norm_num)
    refine ⟨M1, M2, hM1', hM2, s1a, fun j hj => ?_⟩
    rw [s1c j hj, if_pos (by omega), if_pos (by omega), show ((j : Int) - -(m : Int)).toNat = j + m by omega]
  | false =>
    rw [if_neg (by decide)] at h
    have hret : ¬ (b.length : Int) ≤ (M1 : Int) - 1 + -(m : Int) := by
      have := of_decide_eq_false s1b.symm
      intro hc; exact this ⟨hM1pos, hc⟩
    obtain ⟨r2, hr2, h⟩ := Option.bind_eq_some_iff.mp h
    obtain ⟨M2, e2, hM2⟩ := half_samples p fuel fb (2000 * 1000) (1 / 50) a.rate (by norm_num) hr high y1 r2 hy1 hr2
    rw [hh] at hM2
    have hM2' : ∀ k : Nat, k < M2 ↔ (k : Rat) / a.rate ≤ 17900 := by
      intro k; rw [hM2 k]; norm_num
    have hM2pos : 0 < M2 := (hM2' 0).mpr (by norm_num)
    have hM2T : T + M2 ≤ 10 * T := by
      by_contra hc
      have := (hM2' (9 * T)).mp (by omega)
      rw [show ((9 * T : Nat) : Rat) = 18000 * a.rate by push_cast; rw [← hT]; ring, mul_div_assoc, div_self hr.ne'] at this
      norm_num at this
    have s1d' := s1d rfl
    have hl1 : -1 ≤ l1 := by rw [s1d']; split <;> omega
    -- the value of the last cell stored
    have hat1 : 0 ≤ l1 → c1.at' l1 = some (polygon y0 (((M1 - 1 : Nat) : Rat) / a.rate * (1 / 10) + 1)) := by
      intro h0
      have hc : 0 < M1 ∧ 0 ≤ (M1 : Int) - 1 + -(m : Int) := by
        by_contra hc; rw [if_neg hc] at s1d'; omega
      rw [if_pos hc] at s1d'
      unfold FBuf.at'
      rw [if_pos h0, s1c l1.toNat (by omega), if_pos (by omega), show (((l1.toNat : Nat) : Int) - -(m : Int)).toNat = M1 - 1 by omega]
      rfl
    obtain ⟨f1, f2, f3⟩ := fillUp_spec (a.index 2000) _ c1 l1 rfl hl1
    rw [i2, s1a] at f3
    rw [s1a] at f1
    rw [i2] at f2 f1 h
    generalize fillUp ((T : Int) - m) c1 l1 = fu at f1 f2 f3 h
    obtain ⟨c2, l2⟩ := fu
    simp only at f1 f2 f3 h
    have s2 := store_spec a (fun k : Nat => ((2000 * 1000 : Rat) + 1000 * (k / a.rate), polygon y1 (k / a.rate * (1 / 50) + 1))) ((T : Int) - m) (by
      intro k
      rw [idx _ (k + T) (by
        show (2000 * 1000 + 1000 * ((k : Rat) / a.rate)) / 1000 * a.rate = _
        rw [show (2000 * 1000 + 1000 * ((k : Rat) / a.rate)) / 1000 = 2000 + (k : Rat) / a.rate by ring, add_mul, div, hT]
        push_cast; ring)]
      ring) M2 M2 0 (by omega) c2 l2
    rw [← e2] at s2
    generalize a.store r2.1 c2 l2 = st2 at s2 h
    obtain ⟨q2, c3, l3⟩ := st2
    obtain ⟨s2a, s2b, s2c, s2d⟩ := s2
    rw [f1] at s2a s2b s2c
    simp only at s2a s2b s2c s2d h
    -- cells below 2 kHz before the second half
    have hc2 : ∀ j : Nat, j < b.length → j + m < T → c2[j]? = if j + m < M1 then some (some (polygon y0 (((j + m : Nat) : Rat) / a.rate * (1 / 10) + 1)))
        else some (if m < M1 then some (polygon y0 (((M1 - 1 : Nat) : Rat) / a.rate * (1 / 10) + 1)) else none) := by
      intro j hj hjT
      rw [f3 j hj]
      by_cases h1 : j + m < M1
      · rw [if_pos h1, if_neg, s1c j hj, if_pos (by omega), show ((j : Int) - -(m : Int)).toNat = j + m by omega]
        rw [s1d', if_pos (by omega)]; omega
      · rw [if_neg h1]
        by_cases h2 : m < M1
        · rw [if_pos (by omega)] at s1d'
          rw [if_pos (by omega), if_pos (by omega), if_pos h2, hat1 (by omega)]
        · rw [if_neg (by omega)] at s1d'
          rw [if_pos (by omega), if_neg (by omega), if_neg h2]
    have hc3 : ∀ j : Nat, j < b.length → j + m < T + M2 → c3[j]? = if j + m < M1 then some (some (polygon y0 (((j + m : Nat) : Rat) / a.rate * (1 / 10) + 1)))
        else if j + m < T then some (if m < M1 then some (polygon y0 (((M1 - 1 : Nat) : Rat) / a.rate * (1 / 10) + 1)) else none)
        else some (some (polygon y1 (((j + m - T : Nat) : Rat) / a.rate * (1 / 50) + 1))) := by
      intro j hj hjT
      rw [s2c j hj]
      by_cases h1 : j + m < T
      · rw [if_neg (by omega), hc2 j hj h1]
        simp only [if_pos h1]
      · rw [if_pos (by omega), if_neg (by omega), if_neg h1, show ((j : Int) - ((T : Int) - m)).toNat = j + m - T by omega]
    refine ⟨M1, M2, hM1', hM2', ?_⟩
    cases q2 with
    | true =>
      rw [if_pos rfl] at h
      cases h
      have hret2 := of_decide_eq_true s2b.symm
      refine ⟨s2a, fun j hj => ?_⟩
      rw [hc3 j hj (by omega)]
      by_cases h1 : j + m < M1
      · rw [if_pos h1, if_pos h1]
      · rw [if_neg h1, if_neg h1]
        by_cases h2 : j + m < T
        · rw [if_pos h2, if_pos h2]
        · rw [if_neg h2, if_neg h2, if_pos (by omega)]
    | false =>
      rw [if_neg (by decide)] at h
      cases h
      have hret2 : ¬ (b.length : Int) ≤ (M2 : Int) - 1 + ((T : Int) - m) := by
        have := of_decide_eq_false s2b.symm
        intro hc; exact this ⟨hM2pos, hc⟩
      have s2d' := s2d rfl
      have hl2 : l2 = max l1 ((T : Int) - m) := f2
      have hl3 : -1 ≤ l3 := by
        rw [s2d']; split
        · omega
        · rw [hl2]; omega
      obtain ⟨g1, g2, g3⟩ := fillUp_spec (a.index 20000) _ c3 l3 rfl hl3
      rw [i20, s2a] at g3
      rw [s2a] at g1
      rw [i20] at g1 ⊢
      refine ⟨g1, fun j hj => ?_⟩
      rw [g3 j hj]
      by_cases hm2 : m < T + M2
      · -- the second half was stored
        rw [if_pos (by omega)] at s2d'
        by_cases h1 : j + m < T + M2
        · rw [if_neg (by omega), hc3 j hj h1]
          by_cases h2 : j + m < M1
          · rw [if_pos h2, if_pos h2]
          · rw [if_neg h2, if_neg h2]
            by_cases h3 : j + m < T
            · rw [if_pos h3, if_pos h3]
            · rw [if_neg h3, if_neg h3, if_pos h1]
        · rw [if_neg (show ¬ j + m < M1 by omega), if_neg (show ¬ j + m < T by omega), if_neg h1]
          by_cases h4 : j + m ≤ 10 * T
          · rw [if_pos (by omega), if_pos (by omega), if_pos h4, if_pos hm2]
            have : c3.at' l3 = some (polygon y1 (((M2 - 1 : Nat) : Rat) / a.rate * (1 / 50) + 1)) := by
              unfold FBuf.at'
              rw [if_pos (by omega), s2c l3.toNat (by omega), if_pos (by omega), show (((l3.toNat : Nat) : Int) - ((T : Int) - m)).toNat = M2 - 1 by omega]
              rfl
            rw [this]
          · rw [if_neg (by omega), if_neg h4, s2c j hj, if_neg (by omega), f3 j hj, if_neg (by omega), s1c j hj, if_neg (by omega)]
      · rw [if_neg (by omega)] at s2d'
        have hl1' : l1 = -1 := by rw [s1d', if_neg (by omega)]
        rw [if_neg (show ¬ j + m < M1 by omega), if_neg (show ¬ j + m < T by omega), if_neg (show ¬ j + m < T + M2 by omega)]
        by_cases h4 : j + m ≤ 10 * T
        · rw [if_pos (by omega), if_neg (by omega), if_pos h4, if_neg hm2]
        · rw [if_neg (by omega), if_neg h4, s2c j hj, if_neg (by omega), f3 j hj, if_neg (by omega), s1c j hj, if_neg (by omega)]

/-- the frequency (Hz) of cell `j` of the axis -/
def cellHz (a : FAxis) (j : Nat) : Rat := a.min + j / a.rate

/-- the highest frequency of the axis' grid (the multiples of the cell width `1 / rate`) that is at most `f` -/
def gridFloor (a : FAxis) (f : Rat) : Rat := ⌊f * a.rate⌋ / a.rate

/-- **C111.** The frequency axis of the spectrogram (200 bands of 10 Hz from 0, 360 bands of 50 Hz from 2 kHz, resampled to cells `1 / rate` Hz apart, `minFrequency` and 2 kHz being multiples of the cell width):
the cell of frequency `f` shows the polygon through the smoothed bands at the place of the NEXT band (`+ 1`); between the last shown bands and 2 kHz (20 kHz) the last value is repeated, which is not a number if it lies
below the lowest frequency; above 20 kHz the cell is left as it was. -/
theorem C111_axis {σ : Type} (a : FAxis) (p : Filter σ) (fuel : Nat) (fa fb : σ) (low high y0 y1 : List Rat) (b b' : FBuf) (m T : Nat) (hr : 0 < a.rate) (hm : a.min * a.rate = m) (hT : 2000 * a.rate = T)
    (hy0 : smoothed p fuel fa low = some y0) (hy1 : smoothed p fuel fb high = some y1) (hl : low.length = 200) (hh : high.length = 360) (h : a.resample p fuel fa fb low high b = some b') :
    b'.length = b.length ∧ ∀ j : Nat, j < b.length →
      (cellHz a j ≤ 1980 → b'[j]? = some (some (polygon y0 (cellHz a j / 10 + 1)))) ∧
      (1980 < cellHz a j → cellHz a j < 2000 → b'[j]? = some (if a.min ≤ 1980 then some (polygon y0 (gridFloor a 1980 / 10 + 1)) else none)) ∧
      (2000 ≤ cellHz a j → cellHz a j ≤ 19900 → b'[j]? = some (some (polygon y1 ((cellHz a j - 2000) / 50 + 1)))) ∧
      (19900 < cellHz a j → cellHz a j ≤ 20000 → b'[j]? = some (if a.min ≤ 19900 then some (polygon y1 ((gridFloor a 19900 - 2000) / 50 + 1)) else none)) ∧
      (20000 < cellHz a j → b'[j]? = b[j]?) := by
  obtain ⟨M1, M2, hM1, hM2, hlen, hc⟩ := axis_cells a p fuel fa fb low high y0 y1 b b' m T hr hm hT hy0 hy1 hl hh h
  have hmin : a.min = (m : Rat) / a.rate := by rw [← hm, mul_div_assoc, div_self hr.ne', mul_one]
  have hT' : (T : Rat) / a.rate = 2000 := by rw [← hT, mul_div_assoc, div_self hr.ne', mul_one]
  have hcell : ∀ j : Nat, cellHz a j = ((j + m : Nat) : Rat) / a.rate := by
    intro j; unfold cellHz; rw [hmin]; push_cast; ring
  have lt (x y : Nat) : x < y ↔ (x : Rat) / a.rate < (y : Rat) / a.rate := by
    rw [div_lt_div_iff_of_pos_right hr]; norm_cast
  have hM1' : ∀ k : Nat, M1 ≤ k ↔ 1980 < (k : Rat) / a.rate := by
    intro k; have := hM1 k; rw [← not_lt, this, not_le]
  have hM2' : ∀ k : Nat, T ≤ k → (T + M2 ≤ k ↔ 19900 < (k : Rat) / a.rate) := by
    intro k hk
    obtain ⟨i, rfl⟩ := Nat.exists_eq_add_of_le hk
    have := hM2 i
    have e : ((T + i : Nat) : Rat) / a.rate = 2000 + i / a.rate := by push_cast; rw [add_div, hT']
    rw [e]
    constructor
    · intro h; have h' : ¬ i < M2 := by omega
      rw [this] at h'; linarith
    · intro h; have h' : ¬ i < M2 := by rw [this]; linarith
      omega
  have pos1 : 0 < M1 := (hM1 0).mpr (by norm_num)
  have pos2 : 0 < M2 := (hM2 0).mpr (by norm_num)
  have grid : ∀ (c : Rat) (N : Nat), (∀ k : Nat, k < N ↔ (k : Rat) / a.rate ≤ c) → 0 < N → gridFloor a c = ((N - 1 : Nat) : Rat) / a.rate := by
    intro c N hN h0
    unfold gridFloor
    have h1 := (hN (N - 1)).mp (by omega)
    have h2 := mt (hN N).mpr (by omega)
    rw [div_le_iff₀ hr] at h1
    rw [div_le_iff₀ hr, not_le] at h2
    have : ⌊c * a.rate⌋ = ((N - 1 : Nat) : Int) := by
      rw [Int.floor_eq_iff]
      refine ⟨by exact_mod_cast h1, ?_⟩
      have e : (((N - 1 : Nat) : Int) : Rat) + 1 = N := by
        have : ((N - 1 : Nat) : Int) + 1 = N := by omega
        exact_mod_cast this
      rw [e]; exact h2
    rw [this]; norm_cast
  have g1 := grid 1980 M1 hM1 pos1
  have g2 : gridFloor a 19900 - 2000 = ((M2 - 1 : Nat) : Rat) / a.rate := by
    have := grid 19900 (T + M2) (by
      intro k
      by_cases hk : T ≤ k
      · have := hM2' k hk; rw [← not_le, this, not_lt]
      · refine ⟨fun _ => ?_, fun _ => by omega⟩
        have := (lt k T).mp (by omega)
        rw [hT'] at this; linarith) (by omega)
    rw [this, show T + M2 - 1 = T + (M2 - 1) by omega]
    push_cast
    rw [add_div, hT']; ring
  have minM1 : m < M1 ↔ a.min ≤ 1980 := by rw [hmin]; exact hM1 m
  have minM2 : m < T + M2 ↔ a.min ≤ 19900 := by
    rw [hmin]
    by_cases hk : T ≤ m
    · have := hM2' m hk; rw [← not_le, this, not_lt]
    · refine ⟨fun _ => ?_, fun _ => by omega⟩
      have := (lt m T).mp (by omega)
      rw [hT'] at this; linarith
  have hM1T : M1 ≤ T := by
    rw [hM1', hT']; norm_num
  have hM2T : T + M2 ≤ 10 * T := by
    rw [hM2' _ (by omega)]
    have : ((10 * T : Nat) : Rat) / a.rate = 20000 := by push_cast; rw [mul_div_assoc, hT']; norm_num
    rw [this]; norm_num
  refine ⟨hlen, fun j hj => ?_⟩
  rw [hc j hj, hcell j]
  have e1 := hM1 (j + m)
  have e2 := lt (j + m) T
  rw [hT'] at e2
  have e4 := lt (10 * T) (j + m)
  rw [show ((10 * T : Nat) : Rat) / a.rate = 20000 by push_cast; rw [mul_div_assoc, hT']; norm_num] at e4
  generalize hf : ((j + m : Nat) : Rat) / a.rate = f at *
  refine ⟨fun h1 => ?_, fun h1 h2 => ?_, fun h1 h2 => ?_, fun h1 h2 => ?_, fun h1 => ?_⟩
  · rw [if_pos (e1.mpr h1), mul_one_div]
  · rw [if_neg (by rw [e1]; linarith), if_pos (e2.mpr h2), g1, mul_one_div]
    simp only [minM1]
  · have n2 : ¬ j + m < T := by rw [e2]; linarith
    have e3 := hM2' (j + m) (by omega)
    rw [hf] at e3
    rw [if_neg (by rw [e1]; linarith), if_neg n2, if_pos (by by_contra hh'; have := e3.mp (by omega); linarith), mul_one_div]
    have : ((j + m - T : Nat) : Rat) / a.rate = f - 2000 := by
      rw [← hf, ← hT', ← sub_div]
      congr 1
      push_cast [Nat.cast_sub (show T ≤ j + m by omega)]
      ring
    rw [this]
  · have n2 : ¬ j + m < T := by rw [e2]; linarith
    have e3 := hM2' (j + m) (by omega)
    rw [hf] at e3
    have := e3.mpr h1
    have n4 : ¬ 10 * T < j + m := by rw [e4]; linarith
    rw [if_neg (by rw [e1]; linarith), if_neg n2, if_neg (by omega), if_pos (by omega), g2, mul_one_div]
    simp only [minM2]
  · have n4 := e4.mpr h1
    rw [if_neg (by omega), if_neg (by omega), if_neg (by omega), if_neg (by omega)]

/-- **C111 (finding).** Without smoothing the cell of the frequency of band `i` (10 `i` Hz) shows band `i + 1`: everything is drawn 10 Hz (above 2 kHz: 50 Hz) too low and band 0 is nowhere shown. -/
theorem C111_shift (a : FAxis) (fuel : Nat) (low high : List Rat) (b b' : FBuf) (m T : Nat) (hr : 0 < a.rate) (hm : a.min * a.rate = m) (hT : 2000 * a.rate = T)
    (hl : low.length = 200) (hh : high.length = 360) (h : a.resample noop fuel () () low high b = some b') (j i : Nat) (hj : j < b.length) :
    (i ≤ 198 → cellHz a j = 10 * i → b'[j]? = some (low[i + 1]?)) ∧ (i ≤ 358 → cellHz a j = 2000 + 50 * i → b'[j]? = some (high[i + 1]?)) := by
  obtain ⟨_, hc⟩ := C111_axis a noop fuel () () low high low high b b' m T hr hm hT (noop_smoothed _ _) (noop_smoothed _ _) hl hh h
  obtain ⟨c1, -, c3, -, -⟩ := hc j hj
  have poly : ∀ (ys : List Rat) (k : Nat), k < ys.length → polygon ys k = ys.getD k 0 := by
    intro ys k hk
    unfold polygon lerp
    simp
  constructor
  · intro hi e
    have hi' : (i : Rat) ≤ 198 := by exact_mod_cast hi
    rw [c1 (by rw [e]; linarith), e, show (10 * (i : Rat) / 10 + 1) = ((i + 1 : Nat) : Rat) by push_cast; ring, poly low _ (by omega)]
    simp [show i + 1 < low.length by omega]
  · intro hi e
    have hi' : (i : Rat) ≤ 358 := by exact_mod_cast hi
    have h0 : (0 : Rat) ≤ i := by exact_mod_cast Nat.zero_le i
    rw [c3 (by rw [e]; linarith) (by rw [e]; linarith), e, show ((2000 + 50 * (i : Rat) - 2000) / 50 + 1) = ((i + 1 : Nat) : Rat) by push_cast; ring, poly high _ (by omega)]
    simp [show i + 1 < high.length by omega]

/-- once the filter has settled the resampler returns -/
theorem feed_returns {σ : Type} (p : Filter σ) (fuel : Nat) (f0 : σ) (start sourceRate rate offset : Rat) (xs ys : List Rat) (h : smoothed p fuel f0 xs = some ys) :
    ∃ r, (Resampler.new f0 start sourceRate rate offset).feed p fuel xs = some r := by
  have mapSome : ∀ {α β : Type} {o : Option α} {f : α → β}, (∃ q, o = some q) → ∃ r, o.map f = some r := by
    rintro α β o f ⟨q, rfl⟩; exact ⟨_, rfl⟩
  have key : ∀ (xs : List Rat) (r : Resampler σ) (l : Rat), r.last = some l → ∃ q, r.feed p fuel xs = some q := by
    intro xs
    induction xs with
    | nil => intro r l _; exact ⟨_, rfl⟩
    | cons x xs ih =>
      intro r l hl
      unfold Resampler.feed Resampler.next
      simp only [hl, Option.bind_some]
      refine mapSome ?_
      exact ih _ _ rfl
  cases xs with
  | nil => exact ⟨_, rfl⟩
  | cons x xs =>
    unfold smoothed at h
    obtain ⟨s, hs, -⟩ := Option.map_eq_some_iff.mp h
    unfold Resampler.feed Resampler.next
    rw [show (Resampler.new f0 start sourceRate rate offset).last = none from rfl]
    rw [show (Resampler.new f0 start sourceRate rate offset).filter = f0 from rfl]
    simp only [hs, Option.map_some, Option.bind_some]
    refine mapSome ?_
    exact key xs _ _ rfl

/-- **C111.** The axis is computed whenever the filters settle on the first band of each half. -/
theorem C111_returns {σ : Type} (a : FAxis) (p : Filter σ) (fuel : Nat) (fa fb : σ) (low high y0 y1 : List Rat) (b : FBuf) (hy0 : smoothed p fuel fa low = some y0) (hy1 : smoothed p fuel fb high = some y1) :
    ∃ b', a.resample p fuel fa fb low high b = some b' := by
  obtain ⟨r1, h1⟩ := feed_returns p fuel fa 0 (1 / 10) a.rate 0 low y0 hy0
  obtain ⟨r2, h2⟩ := feed_returns p fuel fb (2000 * 1000) (1 / 50) a.rate 0 high y1 hy1
  unfold FAxis.resample
  rw [h1, h2]
  simp only [Option.bind_some]
  split
  · exact ⟨_, rfl⟩
  · split
    · exact ⟨_, rfl⟩
    · exact ⟨_, rfl⟩

/-- **C111 (finding).** If the lowest frequency shown lies between 1980 Hz and 2 kHz, the first cells are not numbers. -/
theorem C111_nan {σ : Type} (a : FAxis) (p : Filter σ) (fuel : Nat) (fa fb : σ) (low high y0 y1 : List Rat) (b b' : FBuf) (m T : Nat) (hr : 0 < a.rate) (hm : a.min * a.rate = m) (hT : 2000 * a.rate = T)
    (hy0 : smoothed p fuel fa low = some y0) (hy1 : smoothed p fuel fb high = some y1) (hl : low.length = 200) (hh : high.length = 360) (h : a.resample p fuel fa fb low high b = some b')
    (h1 : 1980 < a.min) (h2 : a.min < 2000) (hb : 0 < b.length) : b'[0]? = some none := by
  obtain ⟨_, hc⟩ := C111_axis a p fuel fa fb low high y0 y1 b b' m T hr hm hT hy0 hy1 hl hh h
  have e : cellHz a 0 = a.min := by unfold cellHz; simp
  rw [(hc 0 hb).2.1 (by rw [e]; exact h1) (by rw [e]; exact h2), if_neg (by linarith)]

/-- the axis from 1990 Hz to 2990 Hz with 1000 cells: the first cell is not a number -/
example (low high : List Rat) (hl : low.length = 200) (hh : high.length = 360) :
    ∃ b', (FAxis.new 1990 2990 1000).resample noop 0 () () low high (FBuf.new 1000) = some b' ∧ b'[0]? = some none := by
  obtain ⟨b', h⟩ := C111_returns (FAxis.new 1990 2990 1000) noop 0 () () low high low high (FBuf.new 1000) (noop_smoothed _ _) (noop_smoothed _ _)
  have hr : (FAxis.new 1990 2990 1000).rate = 1 := by unfold FAxis.new; norm_num
  refine ⟨b', h, C111_nan _ noop 0 () () low high low high _ b' 1990 2000 (by rw [hr]; norm_num) (by rw [hr]; unfold FAxis.new; norm_num) (by rw [hr]; norm_num) (noop_smoothed _ _) (noop_smoothed _ _) hl hh h
    (by unfold FAxis.new; norm_num) (by unfold FAxis.new; norm_num) (by rw [FBuf.new, List.length_replicate]; omega)⟩

/-- the second unit test of the app: ones below 2 kHz, twos above, shown from 1 kHz to 3 kHz in 4000 cells -/
example : ∃ b', (FAxis.new 1000 3000 4000).resample noop 0 () () (List.replicate 200 1) (List.replicate 360 2) (FBuf.new 4000) = some b' ∧ b'.length = 4000 ∧
    ∀ j : Nat, j < 4000 → b'[j]? = some (some (if j < 2000 then 1 else 2)) := by
  obtain ⟨b', h⟩ := C111_returns (FAxis.new 1000 3000 4000) noop 0 () () (List.replicate 200 1) (List.replicate 360 2) _ _ (FBuf.new 4000) (noop_smoothed _ _) (noop_smoothed _ _)
  have hr : (FAxis.new 1000 3000 4000).rate = 2 := by unfold FAxis.new; norm_num
  have hm : (FAxis.new 1000 3000 4000).min = 1000 := rfl
  obtain ⟨h1, h2⟩ := C111_axis (FAxis.new 1000 3000 4000) noop 0 () () _ _ _ _ _ b' 2000 4000 (by rw [hr]; norm_num) (by rw [hr, hm]; norm_num) (by rw [hr]; norm_num) (noop_smoothed _ _) (noop_smoothed _ _)
    (List.length_replicate ..) (List.length_replicate ..) h
  have hlen : (FBuf.new 4000).length = 4000 := List.length_replicate ..
  rw [hlen] at h1 h2
  refine ⟨b', h, h1, fun j hj => ?_⟩
  have poly : ∀ (c : Rat) (n k : Nat) (x : Rat), (k : Rat) ≤ x → x < k + 1 → k + 1 < n → polygon (List.replicate n c) x = c := by
    intro c n k x h1 h2 hk
    rw [polygon_between _ k x h1 h2.le]
    unfold lerp
    simp [hk, show k < n by omega]
  have floorOf : ∀ (c : Rat) (n : Nat) (x : Rat), 0 ≤ x → x + 1 < n → polygon (List.replicate n c) x = c := by
    intro c n x h1 h2
    obtain ⟨k, hk⟩ : ∃ k : Nat, ⌊x⌋ = k := ⟨⌊x⌋.toNat, by have := Int.floor_nonneg.mpr h1; omega⟩
    have hk' := Int.floor_eq_iff.mp hk
    have hk1 : (k : Rat) ≤ x := by exact_mod_cast hk'.1
    have hk2 : x < (k : Rat) + 1 := by exact_mod_cast hk'.2
    exact poly c n k x hk1 hk2 (by have : ((k : Rat) + 1) < n := by linarith
                                   exact_mod_cast this)
  have last : polygon (List.replicate 200 1) (1980 / 10 + 1) = 1 := by
    have e : (1980 / 10 + 1 : Rat) = ((198 : Nat) : Rat) + 1 := by norm_num
    rw [polygon_between _ 198 _ (by norm_num) (by norm_num), e]
    unfold lerp
    have h1 : ∀ k : Nat, k < 200 → (List.replicate 200 (1 : Rat)).getD k 0 = 1 := by
      intro k hk
      rw [List.getD_eq_getElem?_getD, List.getElem?_replicate, if_pos hk]
      rfl
    rw [h1 198 (by omega), h1 (198 + 1) (by omega)]
    ring
  have ec : cellHz (FAxis.new 1000 3000 4000) j = 1000 + j / 2 := by unfold cellHz; rw [hr, hm]
  obtain ⟨c1, c2, c3, -, -⟩ := h2 j hj
  rw [ec] at c1 c2 c3
  have hj' : (j : Rat) ≤ 3999 := by exact_mod_cast (by omega : j ≤ 3999)
  have hj0 : (0 : Rat) ≤ j := by exact_mod_cast Nat.zero_le j
  by_cases hs : j < 2000
  · have hs' : (j : Rat) ≤ 1999 := by exact_mod_cast (by omega : j ≤ 1999)
    rw [if_pos hs]
    by_cases ht : 1000 + (j : Rat) / 2 ≤ 1980
    · by_cases hu : 1000 + (j : Rat) / 2 < 1980
      · rw [c1 ht, floorOf _ _ _ (by linarith) (by norm_num; linarith)]
      · have he : (1000 : Rat) + (j : Rat) / 2 = 1980 := by linarith
        rw [c1 ht, he]
        rw [last]
    · rw [c2 (by linarith) (by linarith), if_pos (by rw [hm]; norm_num)]
      have : gridFloor (FAxis.new 1000 3000 4000) 1980 = 1980 := by
        unfold gridFloor; rw [hr, show ((1980 : Rat) * 2) = ((3960 : Int) : Rat) by norm_num, Int.floor_intCast]; norm_num
      rw [this, last]
  · have hs' : (2000 : Rat) ≤ j := by exact_mod_cast (by omega : 2000 ≤ j)
    rw [if_neg hs, c3 (by linarith) (by linarith), floorOf _ _ _ (by linarith) (by norm_num; linarith)]

end Verif.Props
