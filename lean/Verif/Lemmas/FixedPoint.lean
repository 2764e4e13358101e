import Verif.Model.FixedPoint
import Mathlib.Tactic.Linarith
import Mathlib.Tactic.Positivity
import Mathlib.Tactic.FieldSimp
import Mathlib.Tactic.Ring
import Mathlib.Tactic.IntervalCases
namespace Verif.Fix

/-- what is assumed of a floating point format: rounding is monotone, keeps integers up to `2^m` and has relative error at most `u` -/
structure Rounding (rnd : ℚ → ℚ) (u : ℚ) (m : ℕ) : Prop where
  mono : ∀ x y, x ≤ y → rnd x ≤ rnd y
  int : ∀ n : ℕ, n ≤ 2 ^ m → rnd n = n
  err : ∀ x, |rnd x - x| ≤ u * |x|

theorem rounding_exact (m : ℕ) : Rounding id 0 m := ⟨fun _ _ h => h, fun _ _ => rfl, fun x => by simp⟩

/-- a factory that compiles: a proper range, at least one bit and at most 32 -/
structure Factory.Valid (f : Factory) : Prop where
  range : f.min < f.max
  err : 0 < f.maxError
  one : 1 ≤ f.bits
  top : f.bits ≤ 32

theorem targetMax_eq {f : Factory} (h : f.Valid) : f.targetMax = 2 ^ f.bits - 1 := by
  have h1 := h.one; have h2 := h.top
  unfold Factory.targetMax baseWidth
  simp only
  generalize f.bits = b at *
  interval_cases b <;> rfl

theorem targetMax_pos {f : Factory} (h : f.Valid) : 1 ≤ f.targetMax := by
  rw [targetMax_eq h]
  have h1 := h.one
  have : 2 ^ 1 ≤ 2 ^ f.bits := Nat.pow_le_pow_right (by omega) h1
  omega

theorem bits_spec (f : Factory) : (f.max - f.min) / f.maxError ≤ 2 ^ f.bits := by
  have h1 : ⌈(f.max - f.min) / f.maxError⌉₊ ≤ 2 ^ f.bits := Nat.le_pow_clog (by omega) _
  calc (f.max - f.min) / f.maxError ≤ (⌈(f.max - f.min) / f.maxError⌉₊ : ℚ) := Nat.le_ceil _
    _ ≤ ((2 ^ f.bits : ℕ) : ℚ) := by exact_mod_cast h1
    _ = 2 ^ f.bits := by push_cast; rfl

theorem round_mono {x y : ℚ} (h : x ≤ y) : roundHalfAway x ≤ roundHalfAway y := by
  unfold roundHalfAway
  split <;> split
  · exact Int.floor_mono (by linarith)
  · linarith
  · have h1 : ⌈x - 1 / 2⌉ ≤ 0 := by rw [Int.ceil_le]; push_cast; linarith
    have h2 : 0 ≤ ⌊y + 1 / 2⌋ := by rw [Int.le_floor]; push_cast; linarith
    omega
  · exact Int.ceil_mono (by linarith)

theorem round_nat (n : ℕ) : roundHalfAway (n : ℚ) = n := by
  unfold roundHalfAway
  rw [if_pos (by positivity), Int.floor_eq_iff]
  push_cast
  constructor <;> linarith

theorem round_near {x : ℚ} (h : 0 ≤ x) : |(roundHalfAway x : ℚ) - x| ≤ 1 / 2 := by
  unfold roundHalfAway
  rw [if_pos h, abs_le]
  have h1 := Int.floor_le (x + 1 / 2)
  have h2 := Int.lt_floor_add_one (x + 1 / 2)
  constructor <;> linarith

theorem rnd_pos {rnd : ℚ → ℚ} {u : ℚ} {m : ℕ} (hr : Rounding rnd u m) (hu : u < 1) {x : ℚ} (hx : 0 < x) : 0 < rnd x := by
  have := hr.err x
  rw [abs_le, abs_of_pos hx] at this
  nlinarith

theorem rnd_zero {rnd : ℚ → ℚ} {u : ℚ} {m : ℕ} (hr : Rounding rnd u m) : rnd 0 = 0 := by
  have := hr.int 0 (Nat.zero_le _); simpa using this

theorem rnd_one {rnd : ℚ → ℚ} {u : ℚ} {m : ℕ} (hr : Rounding rnd u m) : rnd 1 = 1 := by
  have := hr.int 1 Nat.one_le_two_pow; simpa using this

/-- the unrounded code of a value lies between 0 and the largest code -/
theorem code_range {f : Factory} (h : f.Valid) {rnd : ℚ → ℚ} {u : ℚ} {m : ℕ} (hr : Rounding rnd u m) (hu : u < 1) (hm : f.bits ≤ m)
    {q : ℚ} (h1 : f.min ≤ q) (h2 : q ≤ f.max) :
    0 ≤ rnd (rnd (rnd (q - f.min) / rnd (f.max - f.min)) * f.targetMax) ∧
    rnd (rnd (rnd (q - f.min) / rnd (f.max - f.min)) * f.targetMax) ≤ f.targetMax := by
  have hR : 0 < rnd (f.max - f.min) := rnd_pos hr hu (by have := h.range; linarith)
  have ha0 : 0 ≤ rnd (q - f.min) := by rw [← rnd_zero hr]; exact hr.mono _ _ (by linarith)
  have ha1 : rnd (q - f.min) ≤ rnd (f.max - f.min) := hr.mono _ _ (by linarith)
  have hb0 : 0 ≤ rnd (rnd (q - f.min) / rnd (f.max - f.min)) := by
    rw [← rnd_zero hr]; exact hr.mono _ _ (div_nonneg ha0 hR.le)
  have hb1 : rnd (rnd (q - f.min) / rnd (f.max - f.min)) ≤ 1 := by
    rw [← rnd_one hr]; exact hr.mono _ _ (by rw [div_le_one hR]; exact ha1)
  have hM : (0 : ℚ) ≤ f.targetMax := by positivity
  have hMe : rnd (f.targetMax : ℚ) = f.targetMax := by
    apply hr.int
    rw [targetMax_eq h]
    exact (Nat.sub_le _ _).trans (Nat.pow_le_pow_right (by omega) hm)
  constructor
  · rw [← rnd_zero hr]; exact hr.mono _ _ (mul_nonneg hb0 hM)
  · conv_rhs => rw [← hMe]
    exact hr.mono _ _ (by nlinarith)

theorem targetMax_lt_base {f : Factory} (h : f.Valid) : f.targetMax < 2 ^ baseWidth f.bits := by
  have h1 := h.one; have h2 := h.top
  rw [targetMax_eq h]
  unfold baseWidth
  generalize f.bits = b at *
  interval_cases b <;> decide

/-- in range: quantisation succeeds, with a code in range that is the rounded quotient -/
theorem quantize_some {f : Factory} (h : f.Valid) {rnd : ℚ → ℚ} {u : ℚ} {m : ℕ} (hr : Rounding rnd u m) (hu : u < 1) (hm : f.bits ≤ m)
    {q : ℚ} (h1 : f.min ≤ q) (h2 : q ≤ f.max) :
    ∃ k, f.quantize rnd q = some k ∧ k ≤ f.targetMax ∧
      (k : ℤ) = roundHalfAway (rnd (rnd (rnd (q - f.min) / rnd (f.max - f.min)) * f.targetMax)) := by
  obtain ⟨c0, c1⟩ := code_range h hr hu hm h1 h2
  have r0 := round_mono c0
  have r1 := round_mono c1
  rw [round_nat] at r1
  have : roundHalfAway 0 = 0 := by simpa using round_nat 0
  rw [this] at r0
  have hlt := targetMax_lt_base h
  refine ⟨(roundHalfAway (rnd (rnd (rnd (q - f.min) / rnd (f.max - f.min)) * f.targetMax))).toNat, ?_, by omega, by omega⟩
  unfold Factory.quantize castBase
  simp only
  rw [if_pos ⟨r0, by have : ((f.targetMax : ℕ) : ℤ) < ((2 ^ baseWidth f.bits : ℕ) : ℤ) := by exact_mod_cast hlt
                     push_cast at this; omega⟩]

end Verif.Fix
