import Mathlib.LinearAlgebra.Matrix.Nondegenerate
import Verif.Lemmas.CalibrationSession
import Verif.Props.Calibration
/-
C84: the calibration finds the errors of a sensor; C85: the noise it reports.
-/
namespace Verif.Props

open Verif Cal Matrix

/-- parameters equal to the errors of the sensor undo them -/
theorem apply_exact {n : Sensor} (hA : n.accel.det ≠ 0) (hG : n.rates.det ≠ 0) {info : Info} (h1 : info.accMat = n.accel⁻¹) (h2 : info.b_a = n.accOffset) (h3 : info.gyroMat = n.rates⁻¹) (h4 : info.K_ga = n.influence)
    (h5 : info.b_g = n.gyroOffset) (t : ℝ) (a w : Vec) : info.apply (n.measure t a w) = ⟨t, a, w⟩ := by
  have hAu : IsUnit n.accel.det := isUnit_iff_ne_zero.2 hA
  have hGu : IsUnit n.rates.det := isUnit_iff_ne_zero.2 hG
  have hacc : info.calibrateAcc (n.measure t a w).acc = a := by
    unfold Info.calibrateAcc
    rw [h1, h2]
    simp only [Sensor.measure]
    rw [add_sub_cancel_right, Matrix.mulVec_mulVec, Matrix.nonsing_inv_mul _ hAu, Matrix.one_mulVec]
  unfold Info.apply
  rw [hacc]
  unfold Info.calibrateGyr
  rw [h3, h4, h5]
  simp only [Sensor.measure]
  have : n.rates.mulVec w + n.influence.mulVec a + n.gyroOffset - n.influence.mulVec a - n.gyroOffset = n.rates.mulVec w := by abel
  rw [this, Matrix.mulVec_mulVec, Matrix.nonsing_inv_mul _ hGu, Matrix.one_mulVec]

/-- the same for accumulators -/
theorem exact_inner {n : Sensor} {g ea : ℝ} (hg : g ≠ 0) (hea : ea ≠ 0) (hA : n.accel.det ≠ 0) (hG : n.rates.det ≠ 0) {x : Session} (hd : Documented n g ea x) (heq : ∀ a, (x.still a .plus).length = (x.still a .minus).length)
    {c : Inner} (c1 : c.gravity = g) (c2 : c.expectedAngle = ea) (c3 : ∀ a s, c.stat a s = staticOf (x.still a s) (x.variance a s)) (c4 : ∀ a, c.rot a = rotOf (x.turning a)) :
    c.bare = ⟨n.accOffset, n.influence, n.gyroOffset, n.accel⁻¹, n.rates⁻¹, 0, 0⟩ ∧
    c.calculate = some { c.bare with accVariance := fun i => √|(c.bare.apply c.avgVar).acc i|, gyroVariance := fun i => √|(c.bare.apply c.avgVar).gyro i| } := by
  obtain ⟨h1, h2, h3⟩ := session_accel hg hd c1 c3
  have h4 : c.gyroOffset = n.gyroOffset := by
    rw [session_offset hd c3]
    have : (fun a => ((x.still a .plus).length : ℝ) - (x.still a .minus).length) = (0 : Vec) := by
      funext a
      rw [heq a]
      simp
    rw [this, Matrix.mulVec_zero, smul_zero, add_zero]
  have h5 : c.rates = n.rates := by
    funext i a
    rw [session_rates hd c2 hea hA h1 h2 h3 c4, h4]
    simp
  refine ⟨?_, calculate_eq c (by rw [h1]; exact hA) (by rw [c2]; exact hea) (by rw [h5]; exact hG)⟩
  unfold Inner.bare
  rw [h1, h2, h3, h4, h5]

/-- C84: calibrating a sensor as documented, with equally many readings in the two directions of each axis, gives parameters that turn every reading of the sensor into the true acceleration and angular rate -/
theorem C84_exact {n : Sensor} {g ea : ℝ} (hg : g ≠ 0) (hea : ea ≠ 0) (hA : n.accel.det ≠ 0) (hG : n.rates.det ≠ 0) {x : Session} (hd : Documented n g ea x) (heq : ∀ a, (x.still a .plus).length = (x.still a .minus).length) :
    ∃ info, x.calibrate (some g) (some ea) = some info ∧ ∀ t a w, info.apply (n.measure t a w) = ⟨t, a, w⟩ := by
  obtain ⟨c1, c2, c3, c4⟩ := session_inner x (some g) (some ea)
  obtain ⟨hb, hc⟩ := exact_inner hg hea hA hG hd heq c1 c2 c3 c4
  refine ⟨_, hc, fun t a w => apply_exact hA hG ?_ ?_ ?_ ?_ ?_ t a w⟩ <;> rw [hb]

/-- the session of a run of the interactive calibrator -/
def sessionOf (tr : List (State × Reading)) : Session where
  still := fun a s => during (.at a s.dir .start) tr
  variance := fun a s => during (.at a s.dir .variance) tr
  turning := fun a => during (.at a .rotation .start) tr

/-- C84: the same with the interactive calibrator: a run that ends, whose readings were taken as documented, is a success and its parameters are exact -/
theorem C84_interactive {n : Sensor} {g ea : ℝ} (hg : g ≠ 0) (hea : ea ≠ 0) (hA : n.accel.det ≠ 0) (hG : n.rates.det ≠ 0) {threshold : Option ℝ} (rs : List Reading) {c : Calib} {h : Seen}
    (hr : feeds threshold (some g) (some ea) rs = some (c, h)) (hend : c.state = .success ∨ c.state = .failure) (hd : Documented n g ea (sessionOf h.trace))
    (heq : ∀ a, (during (.at a .plus .start) h.trace).length = (during (.at a .minus .start) h.trace).length) :
    c.state = .success ∧ ∃ info, c.info = some info ∧ ∀ t a w, info.apply (n.measure t a w) = ⟨t, a, w⟩ := by
  obtain ⟨hres, hiff⟩ := C65_result rs hr
  obtain ⟨i, hs, hi, _⟩ := hres hend
  obtain ⟨hb, hc⟩ := exact_inner hg hea hA hG hd heq hs.gravity hs.angle hs.stat hs.rot
  rw [hc] at hi
  refine ⟨hiff.1 (by rw [hi]; rfl), _, hi, fun t a w => apply_exact hA hG ?_ ?_ ?_ ?_ ?_ t a w⟩ <;> rw [hb]

/-- what every result of `calculate` contains -/
theorem calculate_parts {c : Inner} {info : Info} (h : c.calculate = some info) : info.b_a = c.accOffset ∧ info.K_ga = c.influence ∧ info.b_g = c.gyroOffset ∧ info.gyroMat.det ≠ 0 := by
  have hti : ∀ {m k : Mat}, tryInverse m = some k → k.det ≠ 0 := by
    intro m k hm
    unfold tryInverse at hm
    split at hm
    · cases hm
    · rename_i hne
      injection hm with hm
      rw [← hm, Matrix.det_nonsing_inv, Ring.inverse_eq_inv']
      exact inv_ne_zero hne
  have hraw : ∀ {a b c1 d e f g' v w} {i : Info}, Info.fromRaw a b c1 d e f g' v w = some i → i.b_a = c1 ∧ i.K_ga = f ∧ i.b_g = g' ∧ i.gyroMat.det ≠ 0 := by
    intro a b c1 d e f g' v w i hi
    unfold Info.fromRaw at hi
    simp only [Option.bind_eq_bind, Option.bind_eq_some_iff] at hi
    obtain ⟨ra, _, ka, _, rg, hrg, kg, hkg, hi⟩ := hi
    cases hi
    refine ⟨rfl, rfl, rfl, ?_⟩
    simp only [Matrix.det_mul]
    exact mul_ne_zero (hti hrg) (hti hkg)
  unfold Inner.calculate at h
  simp only [Option.bind_eq_bind, Option.bind_eq_some_iff, offset_eq] at h
  obtain ⟨_, _, _, _, _, _, _, _, _, _, _, _, h⟩ := h
  exact hraw h

/-- C84 (finding): with different numbers of readings in the two directions, the gyroscope offset is wrong by the influence of gravity, weighted with the difference: a sensor at rest in free fall is then calibrated to a rate other than zero -/
theorem C84_unequal_counts {n : Sensor} {g ea : ℝ} (hg : g ≠ 0) {x : Session} (hd : Documented n g ea x)
    (hne : n.influence.mulVec (fun a => ((x.still a .plus).length : ℝ) - (x.still a .minus).length) ≠ 0) {info : Info} (hi : x.calibrate (some g) (some ea) = some info) (t : ℝ) :
    (info.apply (n.measure t 0 0)).gyro ≠ 0 := by
  obtain ⟨c1, c2, c3, c4⟩ := session_inner x (some g) (some ea)
  generalize hc : x.inner (some g) (some ea) = c at c1 c2 c3 c4
  unfold Session.calibrate at hi
  rw [hc] at hi
  obtain ⟨p1, p2, p3, p4⟩ := calculate_parts hi
  obtain ⟨h1, h2, h3⟩ := session_accel hg hd c1 c3
  have hoff := session_offset hd c3
  have hacc : info.calibrateAcc (n.measure t 0 0).acc = 0 := by
    unfold Info.calibrateAcc
    rw [p1, h2]
    simp [Sensor.measure]
  unfold Info.apply
  rw [hacc]
  unfold Info.calibrateGyr
  rw [p3, hoff]
  simp only [Sensor.measure, Matrix.mulVec_zero, zero_add, sub_zero]
  intro h0
  have hzero := Matrix.eq_zero_of_mulVec_eq_zero p4 h0
  have hN : (c.totalCount Static.count : ℝ) ≠ 0 := by
    have hpos : 0 < (x.still .x .plus).length := List.length_pos_iff.2 (hd.still .x .plus).1
    have hcount : (c.stat .x .plus).count = (x.still .x .plus).length := by rw [c3]; rfl
    have : 0 < c.totalCount Static.count := by
      unfold Inner.totalCount
      omega
    exact_mod_cast this.ne'
  have : (g / (c.totalCount Static.count : ℝ)) • n.influence.mulVec (fun a => ((x.still a .plus).length : ℝ) - (x.still a .minus).length) = 0 := by
    have := sub_eq_zero.1 hzero
    have h2 : n.gyroOffset + 0 = n.gyroOffset + (g / (c.totalCount Static.count : ℝ)) • n.influence.mulVec (fun a => ((x.still a .plus).length : ℝ) - (x.still a .minus).length) := by rw [add_zero]; exact this
    exact (add_left_cancel h2).symm
  rcases smul_eq_zero.1 this with h | h
  · exact (div_ne_zero hg hN) h
  · exact hne h

/-- C85 (finding): for a sensor without noise the reported noise is not zero but depends on the offset: the mean square deviations are "calibrated" like a reading, offset and all -/
theorem C85_noise_free {n : Sensor} {g ea : ℝ} (hg : g ≠ 0) (hea : ea ≠ 0) (hA : n.accel.det ≠ 0) (hG : n.rates.det ≠ 0) {x : Session} (hd : Documented n g ea x) (heq : ∀ a, (x.still a .plus).length = (x.still a .minus).length)
    (hv : ∀ a s, ∀ r ∈ x.variance a s, ∃ t, r = n.measure t (along a (s.value * g)) 0) :
    ∃ info, x.calibrate (some g) (some ea) = some info ∧ info.accVariance = (fun i => √|n.accel⁻¹.mulVec n.accOffset i|) ∧ (n.accOffset ≠ 0 → info.accVariance ≠ 0) := by
  obtain ⟨c1, c2, c3, c4⟩ := session_inner x (some g) (some ea)
  obtain ⟨hb, hc⟩ := exact_inner hg hea hA hG hd heq c1 c2 c3 c4
  have hvar : ∀ a s, ((x.inner (some g) (some ea)).stat a s).accVar = 0 := by
    intro a s
    rw [c3]
    change ((x.variance a s).map fun r => sqDiff r.acc ((x.still a s).map Reading.acc).sum (x.still a s).length).sum = 0
    have hmean := meanCol_const (f := Reading.acc) (v := n.accel.mulVec (along a (s.value * g)) + n.accOffset) (hd.still a s).1 (fun r hr => by
      obtain ⟨t, rfl⟩ := (hd.still a s).2 r hr
      rfl)
    rw [sum_const (v := 0), smul_zero]
    intro r hr
    obtain ⟨t, rfl⟩ := hv a s r hr
    funext i
    have := congrFun hmean i
    unfold meanCol at this
    unfold sqDiff
    rw [this]
    simp [Sensor.measure]
  have hacc : ((x.inner (some g) (some ea)).bare.apply (x.inner (some g) (some ea)).avgVar).acc = -n.accel⁻¹.mulVec n.accOffset := by
    rw [hb]
    unfold Info.apply Info.calibrateAcc Inner.avgVar Inner.total
    simp only [hvar, add_zero, smul_zero, zero_sub, Matrix.mulVec_neg]
  refine ⟨_, hc, ?_, ?_⟩
  · funext i
    simp only [hacc, Pi.neg_apply, abs_neg]
  · intro hne h0
    apply hne
    refine Matrix.eq_zero_of_mulVec_eq_zero (M := n.accel⁻¹) ?_ ?_
    · rw [Matrix.det_nonsing_inv, Ring.inverse_eq_inv']
      exact inv_ne_zero hA
    · funext i
      have := congrFun h0 i
      simp only [hacc, Pi.neg_apply, abs_neg, Pi.zero_apply, Real.sqrt_eq_zero (abs_nonneg _), abs_eq_zero] at this
      exact this

/-- the demonstration sensor: an accelerometer that reads twice the acceleration, with an offset, and a gyroscope on which gravity has an influence -/
noncomputable def demoSensor (s : ℝ) : Sensor := ⟨(2 : ℝ) • 1, fun _ => 1, 1, s • 1, fun _ => 3⟩

/-- the demonstration session: `k` readings in the position x up, one in the others, two in each rotation, one second apart -/
noncomputable def demoSession (s : ℝ) (k : Nat) : Session where
  still := fun a d => List.replicate (if a = .x ∧ d = .plus then k else 1) ((demoSensor s).measure 0 (along a (d.value * 1)) 0)
  variance := fun a d => [(demoSensor s).measure 0 (along a (d.value * 1)) 0]
  turning := fun a => [(demoSensor s).measure 0 0 (along a 1), (demoSensor s).measure 1000 0 (along a 1)]

theorem demo_documented (s : ℝ) (k : Nat) (hk : 0 < k) : Documented (demoSensor s) 1 1 (demoSession s k) := by
  refine ⟨fun a d => ⟨?_, ?_⟩, fun a => ⟨[⟨0, 0, along a 1⟩, ⟨1000, 0, along a 1⟩], rfl, ?_⟩⟩
  · unfold demoSession
    simp only [ne_eq, List.replicate_eq_nil_iff]
    split <;> omega
  · intro r hr
    exact ⟨0, List.eq_of_mem_replicate hr⟩
  · funext i
    unfold turned
    simp
    ring

theorem demo_det (s : ℝ) : (demoSensor s).accel.det ≠ 0 ∧ (demoSensor s).rates.det ≠ 0 := by
  constructor
  · change ((2 : ℝ) • (1 : Mat)).det ≠ 0
    rw [Matrix.det_smul, Matrix.det_one, mul_one]
    exact pow_ne_zero _ (by norm_num)
  · change (1 : Mat).det ≠ 0
    rw [Matrix.det_one]
    exact one_ne_zero

/-- the hypotheses of C84_exact and C85_noise_free are met by a sensor with offsets, scale and influence -/
example : ∃ info, (demoSession 5 1).calibrate (some 1) (some 1) = some info ∧ (∀ t a w, info.apply ((demoSensor 5).measure t a w) = ⟨t, a, w⟩) ∧ info.accVariance ≠ 0 := by
  have heq : ∀ a, ((demoSession 5 1).still a .plus).length = ((demoSession 5 1).still a .minus).length := fun a => by simp [demoSession]
  obtain ⟨i1, h1, h2⟩ := C84_exact one_ne_zero one_ne_zero (demo_det 5).1 (demo_det 5).2 (demo_documented 5 1 one_pos) heq
  obtain ⟨i2, h3, _, h5⟩ := C85_noise_free one_ne_zero one_ne_zero (demo_det 5).1 (demo_det 5).2 (demo_documented 5 1 one_pos) heq (fun a s r hr => ⟨0, List.mem_singleton.1 hr⟩)
  rw [h1] at h3
  cases h3
  refine ⟨i1, h1, h2, h5 (fun h => ?_)⟩
  have := congrFun h .x
  simp [demoSensor] at this

theorem sum_axis (f : Axis → ℝ) : ∑ j, f j = f .x + f .y + f .z := by
  change (Finset.sum {Axis.x, Axis.y, Axis.z} f) = _
  rw [Finset.sum_insert (by decide), Finset.sum_insert (by decide), Finset.sum_singleton, add_assoc]

/-- C84 (finding), on a session: two readings with x up, one in each other position: the calibration succeeds and is wrong -/
theorem C84_unequal_demo : ∃ info, (demoSession 1 2).calibrate (some 1) (some 1) = some info ∧ (info.apply ((demoSensor 1).measure 0 0 0)).gyro ≠ 0 := by
  have hd := demo_documented 1 2 two_pos
  obtain ⟨c1, c2, c3, c4⟩ := session_inner (demoSession 1 2) (some 1) (some 1)
  generalize hc : (demoSession 1 2).inner (some 1) (some 1) = c at c1 c2 c3 c4
  obtain ⟨h1, h2, h3⟩ := session_accel one_ne_zero hd c1 c3
  have hdiff : (fun a => (((demoSession 1 2).still a .plus).length : ℝ) - ((demoSession 1 2).still a .minus).length) = along .x 1 := by
    funext a
    cases a <;> simp [demoSession, along] <;> norm_num
  have hoff := session_offset hd c3
  rw [hdiff] at hoff
  have hN : (c.totalCount Static.count : ℝ) = 7 := by
    unfold Inner.totalCount
    simp only [c3, staticOf, demoSession]
    simp
  rw [hN] at hoff
  have hr := session_rates hd c2 one_ne_zero (demo_det 1).1 h1 h2 h3 c4
  have htime : ∀ a, ((c.rot a).endTime - (c.rot a).startTime) / 1000 = 1 := by
    intro a
    rw [c4]
    simp [demoSession, rotOf, Sensor.measure]
  have hdet : c.rates.det ≠ 0 := by
    have hmul : c.rates * (Matrix.of fun i j => if i = j then (if i = .x then 7 / 6 else 1) else if i = .x then 1 / 6 else 0 : Mat) = 1 := by
      funext i j
      rw [Matrix.mul_apply, sum_axis]
      simp only [hr, hoff, htime, Matrix.of_apply, demoSensor, mulVec_along, Pi.add_apply, Pi.smul_apply, Matrix.smul_apply, smul_eq_mul]
      cases i <;> cases j <;> simp [Matrix.one_apply] <;> norm_num
    intro h0
    have := congrArg Matrix.det hmul
    rw [Matrix.det_mul, h0, zero_mul, Matrix.det_one] at this
    exact zero_ne_one this
  have hcalc := calculate_eq c (by rw [h1]; exact (demo_det 1).1) (by rw [c2]; exact one_ne_zero) hdet
  have hcal : ∃ info, (demoSession 1 2).calibrate (some 1) (some 1) = some info := by
    unfold Session.calibrate
    rw [hc]
    exact ⟨_, hcalc⟩
  obtain ⟨info, hcal⟩ := hcal
  refine ⟨_, hcal, C84_unequal_counts one_ne_zero hd ?_ hcal 0⟩
  rw [hdiff, mulVec_along]
  intro h0
  have := congrFun h0 .x
  simp [demoSensor] at this

end Verif.Props
