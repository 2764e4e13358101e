import Verif.Spec.Calibration
import Mathlib.LinearAlgebra.Matrix.Determinant.Basic
/-
`calculate` in closed form: the scaling and rotation matrices only serve to invert a matrix.
-/
namespace Verif.Cal

open Matrix

theorem tryInverse_some {m : Mat} (h : m.det ≠ 0) : tryInverse m = some m⁻¹ := by
  unfold tryInverse
  rw [if_neg h]

/-- the rows of an invertible matrix are not zero -/
theorem rowSq_pos {m : Mat} (h : m.det ≠ 0) (i : Axis) : 0 < (m * mᵀ).diag i := by
  have hne : m i ≠ 0 := fun he => h (Matrix.det_eq_zero_of_row_eq_zero i (fun j => by rw [he]; rfl))
  have : (m * mᵀ).diag i = ∑ j, m i j * m i j := by
    simp [Matrix.diag, Matrix.mul_apply]
  rw [this]
  refine lt_of_le_of_ne (Finset.sum_nonneg fun j _ => mul_self_nonneg _) (fun he => hne ?_)
  funext j
  have := (Finset.sum_eq_zero_iff_of_nonneg (fun j _ => mul_self_nonneg (m i j))).1 he.symm j (Finset.mem_univ _)
  exact mul_self_eq_zero.1 this

theorem rowLengths_det {m : Mat} (h : m.det ≠ 0) : (rowLengths (m * mᵀ).diag).det ≠ 0 := by
  unfold rowLengths
  rw [Matrix.det_diagonal, Finset.prod_ne_zero_iff]
  intro i _
  exact (Real.sqrt_pos.2 (rowSq_pos h i)).ne'

/-- scaling and rotation together are the matrix they were taken from -/
theorem scale_rotate {k m : Mat} (hk : k.det ≠ 0) (hm : m.det ≠ 0) : (k⁻¹ * m).det ≠ 0 ∧ (k⁻¹ * m)⁻¹ * k⁻¹ = m⁻¹ := by
  have hku : IsUnit k.det := isUnit_iff_ne_zero.2 hk
  refine ⟨?_, ?_⟩
  · rw [Matrix.det_mul]
    refine mul_ne_zero ?_ hm
    rw [Matrix.det_nonsing_inv, Ring.inverse_eq_inv']
    exact inv_ne_zero hk
  · rw [Matrix.mul_inv_rev, Matrix.nonsing_inv_nonsing_inv _ hku, Matrix.mul_assoc, Matrix.mul_nonsing_inv _ hku, Matrix.mul_one]

/-- the accelerometer matrix: half the difference of the means, per unit of gravity -/
noncomputable def Inner.accel (c : Inner) : Mat :=
  (1 / (2 * c.gravity)) • ((fromColumns fun a => meanCol (c.stat a .plus).acc (c.stat a .plus).count) - fromColumns fun a => meanCol (c.stat a .minus).acc (c.stat a .minus).count)

/-- the accelerometer offset -/
noncomputable def Inner.accOffset (c : Inner) : Vec :=
  fun i => ((meanCol (c.stat i .plus).acc (c.stat i .plus).count) i + (meanCol (c.stat i .minus).acc (c.stat i .minus).count) i) / 2

/-- the gyroscope offset -/
noncomputable def Inner.gyroOffset (c : Inner) : Vec := (1 / (c.totalCount Static.count : ℝ)) • c.total Static.gyro

/-- the influence of acceleration on the gyroscope -/
noncomputable def Inner.influence (c : Inner) : Mat :=
  (1 / (2 * c.gravity)) • ((fromColumns fun a => meanCol (c.stat a .plus).gyro (c.stat a .plus).count) - fromColumns fun a => meanCol (c.stat a .minus).gyro (c.stat a .minus).count)

/-- the gyroscope matrix -/
noncomputable def Inner.rates (c : Inner) : Mat :=
  (fromColumns fun a => integrated (partialGyro c.accel⁻¹ c.influence c.accOffset c.gyroOffset (c.rot a)) (c.rot a)) * (c.expectedAngle • (1 : Mat))⁻¹

/-- the parameters without the noise -/
noncomputable def Inner.bare (c : Inner) : Info := ⟨c.accOffset, c.influence, c.gyroOffset, c.accel⁻¹, c.rates⁻¹, 0, 0⟩

/-- the mean of the squared deviations -/
noncomputable def Inner.avgVar (c : Inner) : Reading :=
  { timestamp := 0, acc := (1 / (c.totalCount Static.varCount : ℝ)) • c.total Static.accVar, gyro := (1 / (c.totalCount Static.varCount : ℝ)) • c.total Static.gyroVar }

theorem offset_eq (c : Inner) : ((1 / 2 : ℝ) • ((fromColumns fun a => meanCol (c.stat a .plus).acc (c.stat a .plus).count) + fromColumns fun a => meanCol (c.stat a .minus).acc (c.stat a .minus).count) : Mat).diag = c.accOffset := by
  funext i
  simp only [Matrix.diag, Matrix.smul_apply, Matrix.add_apply, fromColumns, Inner.accOffset, smul_eq_mul]
  ring

theorem ksq_eq (g : ℝ) (u : Mat) : ((1 / (4 * g * g)) • (u * uᵀ).diag : Vec) = (((1 / (2 * g)) • u) * ((1 / (2 * g)) • u)ᵀ).diag := by
  funext i
  simp only [Matrix.diag, Pi.smul_apply, Matrix.transpose_smul, Matrix.smul_mul, Matrix.mul_smul, Matrix.smul_apply, smul_eq_mul]
  ring

/-- `calculate` in closed form -/
theorem calculate_eq (c : Inner) (ha : c.accel.det ≠ 0) (he : c.expectedAngle ≠ 0) (hr : c.rates.det ≠ 0) :
    c.calculate = some { c.bare with accVariance := fun i => √|(c.bare.apply c.avgVar).acc i|, gyroVariance := fun i => √|(c.bare.apply c.avgVar).gyro i| } := by
  have hexp : (c.expectedAngle • (1 : Mat)).det ≠ 0 := by
    rw [Matrix.det_smul, Matrix.det_one, mul_one]
    exact pow_ne_zero _ he
  have hka := rowLengths_det ha
  have hkg := rowLengths_det hr
  obtain ⟨hra, hra'⟩ := scale_rotate hka ha
  obtain ⟨hrg, hrg'⟩ := scale_rotate hkg hr
  have hka' : rowLengths ((1 / (4 * c.gravity * c.gravity)) • (((fromColumns fun a => meanCol (c.stat a .plus).acc (c.stat a .plus).count) - fromColumns fun a => meanCol (c.stat a .minus).acc (c.stat a .minus).count) *
      ((fromColumns fun a => meanCol (c.stat a .plus).acc (c.stat a .plus).count) - fromColumns fun a => meanCol (c.stat a .minus).acc (c.stat a .minus).count)ᵀ).diag) = rowLengths (c.accel * c.accelᵀ).diag := by
    rw [ksq_eq]
    rfl
  unfold Inner.calculate
  simp only [hka', tryInverse_some hka, Option.bind_eq_bind, Option.bind_some]
  change (tryInverse ((rowLengths (c.accel * c.accelᵀ).diag)⁻¹ * c.accel)).bind _ = _
  rw [tryInverse_some hra, Option.bind_some]
  simp only [hra', offset_eq, tryInverse_some hexp, Option.bind_some]
  change (tryInverse (rowLengths (c.rates * c.ratesᵀ).diag)).bind _ = _
  rw [tryInverse_some hkg, Option.bind_some]
  have hraw : ∀ v w : Vec, Info.fromRaw (rowLengths (c.accel * c.accelᵀ).diag) ((rowLengths (c.accel * c.accelᵀ).diag)⁻¹ * c.accel) c.accOffset (rowLengths (c.rates * c.ratesᵀ).diag)
      ((rowLengths (c.rates * c.ratesᵀ).diag)⁻¹ * c.rates) c.influence c.gyroOffset v w = some { c.bare with accVariance := v, gyroVariance := w } := by
    intro v w
    unfold Info.fromRaw
    rw [tryInverse_some hra, tryInverse_some hka, tryInverse_some hrg, tryInverse_some hkg]
    simp only [Option.bind_eq_bind, Option.bind_some, hra', hrg']
    rfl
  change (Info.fromRaw (rowLengths (c.accel * c.accelᵀ).diag) ((rowLengths (c.accel * c.accelᵀ).diag)⁻¹ * c.accel) c.accOffset (rowLengths (c.rates * c.ratesᵀ).diag)
      ((rowLengths (c.rates * c.ratesᵀ).diag)⁻¹ * c.rates) c.influence c.gyroOffset 0 0).bind (fun info => Info.fromRaw (rowLengths (c.accel * c.accelᵀ).diag) ((rowLengths (c.accel * c.accelᵀ).diag)⁻¹ * c.accel) c.accOffset (rowLengths (c.rates * c.ratesᵀ).diag)
      ((rowLengths (c.rates * c.ratesᵀ).diag)⁻¹ * c.rates) c.influence c.gyroOffset (fun i => √|(info.apply c.avgVar).acc i|) (fun i => √|(info.apply c.avgVar).gyro i|)) = _
  rw [hraw, Option.bind_some, hraw]
  rfl

end Verif.Cal
