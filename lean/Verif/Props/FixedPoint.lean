import Verif.Lemmas.FixedPoint
import Mathlib.Tactic.NormNum
/-
C31: fixed-point quantisation.
-/
namespace Verif.Fix

theorem rel_err {rnd : ℚ → ℚ} {u : ℚ} {m : ℕ} (hr : Rounding rnd u m) (hu : 0 ≤ u) (x : ℚ) : ∃ d, |d| ≤ u ∧ rnd x = x * (1 + d) := by
  by_cases hx : x = 0
  · exact ⟨0, by simpa using hu, by rw [hx, rnd_zero hr]; ring⟩
  · refine ⟨(rnd x - x) / x, ?_, by field_simp; ring⟩
    rw [abs_div, div_le_iff₀ (abs_pos.mpr hx)]
    exact hr.err x

theorem prod_err {p A d u : ℚ} (h : |p - 1| ≤ A - 1) (hd : |d| ≤ u) (hu : 0 ≤ u) : |p * (1 + d) - 1| ≤ A * (1 + u) - 1 := by
  have h1 : p * (1 + d) - 1 = (p - 1) * (1 + d) + d := by ring
  have h2 : |1 + d| ≤ 1 + u := (abs_add_le _ _).trans (by rw [abs_one]; linarith)
  rw [h1]
  calc |(p - 1) * (1 + d) + d| ≤ |p - 1| * |1 + d| + |d| := by rw [← abs_mul]; exact abs_add_le _ _
    _ ≤ (A - 1) * (1 + u) + u := add_le_add (mul_le_mul h h2 (abs_nonneg _) (le_trans (abs_nonneg _) h)) hd
    _ = A * (1 + u) - 1 := by ring

theorem one_err {d u : ℚ} (h : |d| ≤ u) : |1 + d| ≤ 1 + u := (abs_add_le _ _).trans (by rw [abs_one]; linarith)

/-- the error of one encode/decode in floating point -/
theorem round_trip_error {f : Factory} (h : f.Valid) {rnd : ℚ → ℚ} {u : ℚ} {m : ℕ} (hr : Rounding rnd u m) (hu0 : 0 ≤ u) (hu : u < 1) (hm : f.bits ≤ m)
    {q : ℚ} (h1 : f.min ≤ q) (h2 : q ≤ f.max) {k : ℕ} (hk : f.quantize rnd q = some k) :
    |f.toFloat rnd k - q| ≤ (1 + u) ^ 4 * ((f.max - f.min) / (2 * f.targetMax)) + ((1 + u) ^ 6 - 1) * (q - f.min) + u * |f.min| := by
  obtain ⟨k', hk', _, hkr⟩ := quantize_some h hr hu hm h1 h2
  rw [hk] at hk'
  injection hk' with hk'
  subst hk'
  obtain ⟨c0, c1⟩ := code_range h hr hu hm h1 h2
  have hR : 0 < rnd (f.max - f.min) := rnd_pos hr hu (by have := h.range; linarith)
  have hMn := targetMax_pos h
  have hM : (0 : ℚ) < f.targetMax := by exact_mod_cast hMn
  have hnear := round_near c0
  have hkq : ((k : ℤ) : ℚ) = (k : ℚ) := by push_cast; rfl
  rw [← hkr, hkq] at hnear
  obtain ⟨d1, e1, r1⟩ := rel_err hr hu0 (q - f.min)
  obtain ⟨d2, e2, r2⟩ := rel_err hr hu0 (rnd (q - f.min) / rnd (f.max - f.min))
  obtain ⟨d3, e3, r3⟩ := rel_err hr hu0 (rnd (rnd (q - f.min) / rnd (f.max - f.min)) * f.targetMax)
  obtain ⟨d4, e4, r4⟩ := rel_err hr hu0 ((k : ℚ) / f.targetMax)
  obtain ⟨d5, e5, r5⟩ := rel_err hr hu0 (rnd ((k : ℚ) / f.targetMax) * rnd (f.max - f.min))
  obtain ⟨d6, e6, r6⟩ := rel_err hr hu0 (rnd (rnd ((k : ℚ) / f.targetMax) * rnd (f.max - f.min)) + f.min)
  obtain ⟨d0, e0, r0⟩ := rel_err hr hu0 (f.max - f.min)
  rw [r3] at hnear
  generalize hη : (k : ℚ) - rnd (rnd (q - f.min) / rnd (f.max - f.min)) * f.targetMax * (1 + d3) = η at hnear
  have hkeq : (k : ℚ) = rnd (rnd (q - f.min) / rnd (f.max - f.min)) * f.targetMax * (1 + d3) + η := by linarith
  have key : f.toFloat rnd k - q = (q - f.min) * ((1 + d1) * (1 + d2) * (1 + d3) * (1 + d4) * (1 + d5) * (1 + d6) - 1) +
      η * ((f.max - f.min) / f.targetMax) * ((1 + d4) * (1 + d5) * (1 + d6) * (1 + d0)) + f.min * d6 := by
    unfold Factory.toFloat
    simp only
    rw [r6, r5, r4, hkeq, r2, r1]
    have hR' := hR.ne'
    have e : (q - f.min) * (1 + d1) / rnd (f.max - f.min) * (1 + d2) * f.targetMax * (1 + d3) / f.targetMax * (1 + d4) * rnd (f.max - f.min) =
        (q - f.min) * (1 + d1) * (1 + d2) * (1 + d3) * (1 + d4) := by field_simp
    have e' : η / f.targetMax * (1 + d4) * rnd (f.max - f.min) = η * ((f.max - f.min) / f.targetMax) * (1 + d4) * (1 + d0) := by rw [r0]; field_simp
    rw [add_div, add_mul _ _ (1 + d4), add_mul _ _ (rnd (f.max - f.min)), e, e']
    ring
  have p1 : |(1 + d1) * (1 + d2) * (1 + d3) * (1 + d4) * (1 + d5) * (1 + d6) - 1| ≤ (1 + u) ^ 6 - 1 := by
    have s1 : |(1 + d1) - 1| ≤ (1 + u) - 1 := by simpa using e1
    have := prod_err (prod_err (prod_err (prod_err (prod_err s1 e2 hu0) e3 hu0) e4 hu0) e5 hu0) e6 hu0
    calc _ ≤ _ := this
      _ = _ := by ring
  have p2 : |(1 + d4) * (1 + d5) * (1 + d6) * (1 + d0)| ≤ (1 + u) ^ 4 := by
    rw [abs_mul, abs_mul, abs_mul]
    have hu1 : 0 ≤ 1 + u := by linarith
    calc _ ≤ (1 + u) * (1 + u) * (1 + u) * (1 + u) := by
          refine mul_le_mul (mul_le_mul (mul_le_mul (one_err e4) (one_err e5) (abs_nonneg _) hu1) (one_err e6) (abs_nonneg _) (by positivity)) (one_err e0) (abs_nonneg _) (by positivity)
      _ = (1 + u) ^ 4 := by ring
  have hx : 0 ≤ q - f.min := by linarith
  have hst : 0 ≤ (f.max - f.min) / f.targetMax := div_nonneg (by have := h.range; linarith) hM.le
  rw [key]
  refine (abs_add_le _ _).trans (add_le_add ((abs_add_le _ _).trans ?_) ?_)
  · rw [add_comm ((1 + u) ^ 4 * _)]
    refine add_le_add ?_ ?_
    · rw [abs_mul, abs_of_nonneg hx, mul_comm]
      exact mul_le_mul_of_nonneg_right p1 hx
    · rw [abs_mul, abs_mul, abs_of_nonneg hst, mul_comm]
      calc _ ≤ (1 + u) ^ 4 * (1 / 2 * ((f.max - f.min) / f.targetMax)) :=
            mul_le_mul p2 (mul_le_mul_of_nonneg_right hnear hst) (mul_nonneg (abs_nonneg _) hst) (by positivity)
        _ = _ := by field_simp
  · rw [abs_mul, mul_comm]
    exact mul_le_mul_of_nonneg_right e6 (abs_nonneg _)

end Verif.Fix

namespace Verif.Props
open Verif Verif.Fix

/-- **C31** A value in the range is accepted, with a code of the configured number of bits; a value outside the range, infinite values
included, is refused. This holds in floating point, for every monotone rounding. -/
theorem C31_accepts {f : Factory} (h : f.Valid) {rnd : ℚ → ℚ} {u : ℚ} {m : ℕ} (hr : Rounding rnd u m) (hu : u < 1) (hm : f.bits ≤ m) :
    (∀ q, f.min ≤ q → q ≤ f.max → ∃ k, f.toFixed rnd (.fin q) = some (some k) ∧ k < 2 ^ f.bits) ∧
    (∀ q, q < f.min ∨ f.max < q → f.toFixed rnd (.fin q) = some none) ∧
    (∀ neg, f.toFixed rnd (.inf neg) = some none) := by
  refine ⟨fun q h1 h2 => ?_, fun q h1 => ?_, fun _ => rfl⟩
  · obtain ⟨k, hk, hle, _⟩ := quantize_some h hr hu hm h1 h2
    refine ⟨k, ?_, ?_⟩
    · unfold Factory.toFixed
      simp only
      rw [if_neg (by rw [not_or, not_lt, not_lt]; exact ⟨h1, h2⟩), hk]
    · rw [targetMax_eq h] at hle
      have : 0 < 2 ^ f.bits := by positivity
      omega
  · unfold Factory.toFixed
    simp only
    rw [if_pos h1]

/-- **C31** A larger value never gets a smaller code. -/
theorem C31_monotone {f : Factory} (h : f.Valid) {rnd : ℚ → ℚ} {u : ℚ} {m : ℕ} (hr : Rounding rnd u m) (hu : u < 1) (hm : f.bits ≤ m)
    {p q : ℚ} (hpq : p ≤ q) {j k : ℕ} (hj : f.toFixed rnd (.fin p) = some (some j)) (hk : f.toFixed rnd (.fin q) = some (some k)) : j ≤ k := by
  have inr : ∀ {q k}, f.toFixed rnd (.fin q) = some (some k) → f.min ≤ q ∧ q ≤ f.max ∧ f.quantize rnd q = some k := by
    intro q k hq
    unfold Factory.toFixed at hq
    simp only at hq
    split at hq
    · simp at hq
    · next hc =>
      rw [not_or, not_lt, not_lt] at hc
      split at hq
      · next k' hk' =>
        injection hq with hq; injection hq with hq; subst hq
        exact ⟨hc.1, hc.2, hk'⟩
      · simp at hq
  obtain ⟨a1, a2, a3⟩ := inr hj
  obtain ⟨b1, b2, b3⟩ := inr hk
  obtain ⟨j', hj', _, ej⟩ := quantize_some h hr hu hm a1 a2
  obtain ⟨k', hk', _, ek⟩ := quantize_some h hr hu hm b1 b2
  rw [a3] at hj'; injection hj' with hj'; subst hj'
  rw [b3] at hk'; injection hk' with hk'; subst hk'
  have hR : 0 < rnd (f.max - f.min) := rnd_pos hr hu (by have := h.range; linarith)
  have : (j : ℤ) ≤ k := by
    rw [ej, ek]
    apply round_mono
    apply hr.mono
    apply mul_le_mul_of_nonneg_right _ (by positivity)
    apply hr.mono
    apply div_le_div_of_nonneg_right _ hR.le
    exact hr.mono _ _ (by linarith)
  exact_mod_cast this

/-- **C31** In exact arithmetic the decoded value is within half a quantisation step, and that is within the configured maximum error. -/
theorem C31_error_exact {f : Factory} (h : f.Valid) {q : ℚ} {k : ℕ} (hk : f.toFixed id (.fin q) = some (some k)) :
    |f.toFloat id k - q| ≤ (f.max - f.min) / (2 * (2 ^ f.bits - 1)) ∧ |f.toFloat id k - q| ≤ f.maxError := by
  unfold Factory.toFixed at hk
  simp only at hk
  split at hk
  · simp at hk
  · next hc =>
    rw [not_or, not_lt, not_lt] at hc
    split at hk
    · next k' hk' =>
      injection hk with hk; injection hk with hk; subst hk
      have := round_trip_error h (rounding_exact f.bits) (le_refl _) (by norm_num) (le_refl _) hc.1 hc.2 hk'
      have hM : (f.targetMax : ℚ) = 2 ^ f.bits - 1 := by
        rw [targetMax_eq h, Nat.cast_sub Nat.one_le_two_pow]; push_cast; rfl
      rw [hM] at this
      simp only [add_zero, one_pow, one_mul, sub_self, zero_mul] at this
      refine ⟨this, this.trans ?_⟩
      have hb := bits_spec f
      rw [div_le_iff₀ h.err] at hb
      have h2 : (2 : ℚ) ≤ 2 ^ f.bits := by
        calc (2 : ℚ) = 2 ^ 1 := by norm_num
          _ ≤ 2 ^ f.bits := pow_le_pow_right₀ (by norm_num) h.one
      rw [div_le_iff₀ (by linarith)]
      have he := h.err
      nlinarith
    · simp at hk

/-- **C31** In floating point (unit roundoff `u`) the error exceeds half a step only by the rounding of the operations. -/
theorem C31_error_float {f : Factory} (h : f.Valid) {rnd : ℚ → ℚ} {u : ℚ} {m : ℕ} (hr : Rounding rnd u m) (hu0 : 0 ≤ u) (hu : u < 1) (hm : f.bits ≤ m)
    {q : ℚ} {k : ℕ} (hk : f.toFixed rnd (.fin q) = some (some k)) :
    |f.toFloat rnd k - q| ≤ (1 + u) ^ 4 * ((f.max - f.min) / (2 * (2 ^ f.bits - 1))) + ((1 + u) ^ 6 - 1) * (f.max - f.min) + u * |f.min| := by
  unfold Factory.toFixed at hk
  simp only at hk
  split at hk
  · simp at hk
  · next hc =>
    rw [not_or, not_lt, not_lt] at hc
    split at hk
    · next k' hk' =>
      injection hk with hk; injection hk with hk; subst hk
      have := round_trip_error h hr hu0 hu hm hc.1 hc.2 hk'
      have hM : (f.targetMax : ℚ) = 2 ^ f.bits - 1 := by
        rw [targetMax_eq h, Nat.cast_sub Nat.one_le_two_pow]; push_cast; rfl
      rw [hM] at this
      have hp : (0 : ℚ) ≤ (1 + u) ^ 6 - 1 := by
        have : (1 : ℚ) ≤ (1 + u) ^ 6 := one_le_pow₀ (by linarith)
        linarith
      have := mul_le_mul_of_nonneg_left (a := (1 + u) ^ 6 - 1) (b := q - f.min) (c := f.max - f.min) (by linarith) hp
      linarith
    · simp at hk

/-- every factory of the firmware is well formed; the numbers of bits -/
theorem C31_bits : (f32Factories.map Factory.bits = [6, 7, 7, 7, 2, 6, 9, 8, 4, 12, 11, 11, 10, 9]) ∧ (f64Factories.map Factory.bits = [6, 5, 6, 6, 5, 5, 5]) := by
  decide +kernel

theorem C31_valid : ∀ f ∈ f32Factories ++ f64Factories, f.Valid ∧ f.bits ≤ 24 := by
  have hb : ∀ f ∈ f32Factories ++ f64Factories, f.min < f.max ∧ 0 < f.maxError ∧ 1 ≤ f.bits ∧ f.bits ≤ 24 := by decide +kernel
  intro f hf
  obtain ⟨h1, h2, h3, h4⟩ := hb f hf
  exact ⟨⟨h1, h2, h3, by omega⟩, h4⟩

/-- **C31** Every factory of the firmware keeps its configured maximum error in single precision (unit roundoff 2^-24), and so
in double precision. -/
theorem C31_firmware {f : Factory} (hf : f ∈ f32Factories ++ f64Factories) {rnd : ℚ → ℚ} (hr : Rounding rnd (1 / 2 ^ 24) 24) {q : ℚ} (h1 : f.min ≤ q) (h2 : q ≤ f.max) :
    ∃ k, f.toFixed rnd (.fin q) = some (some k) ∧ k < 2 ^ f.bits ∧ |f.toFloat rnd k - q| ≤ f.maxError := by
  have hv := (C31_valid f hf).1
  obtain ⟨k, hk, hl⟩ := (C31_accepts hv hr (by norm_num) (C31_valid f hf).2).1 q h1 h2
  refine ⟨k, hk, hl, (C31_error_float hv hr (by norm_num) (by norm_num) (C31_valid f hf).2 hk).trans ?_⟩
  have hb : ∀ f ∈ f32Factories ++ f64Factories, (1 + 1 / 2 ^ 24 : ℚ) ^ 4 * ((f.max - f.min) / (2 * (2 ^ f.bits - 1))) + ((1 + 1 / 2 ^ 24) ^ 6 - 1) * (f.max - f.min) + 1 / 2 ^ 24 * |f.min| ≤ f.maxError := by
    decide +kernel
  exact hb f hf

/-- **C31** The capped variant gives every value except NaN the code of the nearest value in the range. -/
theorem C31_capped {f : Factory} (h : f.Valid) (rnd : ℚ → ℚ) (q : ℚ) :
    f.toFixedCapped rnd (.fin q) = (f.toFixed rnd (.fin (max f.min (min q f.max)))).join ∧
    f.toFixedCapped rnd (.inf true) = (f.toFixed rnd (.fin f.min)).join ∧ f.toFixedCapped rnd (.inf false) = (f.toFixed rnd (.fin f.max)).join := by
  have hj : ∀ v, (match f.toFixed rnd v with | some (some k) => some k | _ => none) = (f.toFixed rnd v).join := by
    intro v
    cases f.toFixed rnd v with
    | none => rfl
    | some o => cases o <;> rfl
  have hlt := h.range
  refine ⟨?_, ?_, ?_⟩
  · rw [← hj]
    unfold Factory.toFixedCapped
    simp only
    by_cases h1 : q < f.min
    · rw [if_pos h1, min_eq_left (by linarith), max_eq_left (by linarith)]; rfl
    · rw [if_neg h1]
      by_cases h2 : f.max < q
      · rw [if_pos h2, min_eq_right (by linarith), max_eq_right (by linarith)]; rfl
      · rw [if_neg h2, min_eq_left (by linarith), max_eq_right (by linarith)]; rfl
  · rw [← hj]; rfl
  · rw [← hj]; rfl

/-- **C31** (finding) NaN is neither encoded nor refused: both conversions panic. -/
theorem C31_nan_panics (f : Factory) (rnd : ℚ → ℚ) : f.toFixed rnd .nan = none ∧ f.toFixedCapped rnd .nan = none := ⟨rfl, rfl⟩

/-- a barometer pressure difference of 7.3 Pa in exact arithmetic: the hypotheses are met and the code is the middle one -/
example : (slope 4000 5 1).Valid ∧ (slope 4000 5 1).toFixed id (.fin 7.3) = some (some 43) ∧ (slope 4000 5 1).toFixed id (.fin 21) = some none ∧ Rounding id (1 / 2 ^ 24) 24 := by
  refine ⟨(C31_valid _ (by simp [f32Factories])).1, by decide +kernel, by decide +kernel, ⟨fun _ _ h => h, fun _ _ => rfl, fun x => by simp⟩⟩

end Verif.Props
