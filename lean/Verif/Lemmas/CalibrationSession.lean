import Verif.Lemmas.CalibrationMath
import Verif.Spec.Sensor
/-
The accumulators of a whole session.
-/
namespace Verif.Cal

theorem feedStill_eq (rs : List Reading) : ∀ (i : Inner) (a : Axis) (s : Sign), (i.feedStill a s rs).gravity = i.gravity ∧ (i.feedStill a s rs).expectedAngle = i.expectedAngle ∧ (i.feedStill a s rs).rot = i.rot ∧
    ∀ a' s', (i.feedStill a s rs).stat a' s' = if a' = a ∧ s' = s then { i.stat a' s' with count := (i.stat a' s').count + rs.length, acc := (i.stat a' s').acc + (rs.map Reading.acc).sum, gyro := (i.stat a' s').gyro + (rs.map Reading.gyro).sum } else i.stat a' s' := by
  induction rs with
  | nil =>
    intro i a s
    refine ⟨rfl, rfl, rfl, fun a' s' => ?_⟩
    split
    · simp [Inner.feedStill]
    · rfl
  | cons r rs ih =>
    intro i a s
    obtain ⟨h1, h2, h3, h4⟩ := ih (i.process a s r) a s
    refine ⟨h1, h2, h3, fun a' s' => (h4 a' s').trans ?_⟩
    split
    · rename_i h
      simp only [Inner.process, if_pos h, Static.add, List.length_cons, List.map_cons, List.sum_cons, add_assoc, Nat.add_comm, Nat.add_left_comm]
    · rename_i h
      simp only [Inner.process, if_neg h]

theorem feedVariance_eq (rs : List Reading) : ∀ (i : Inner) (a : Axis) (s : Sign), (i.feedVariance a s rs).gravity = i.gravity ∧ (i.feedVariance a s rs).expectedAngle = i.expectedAngle ∧ (i.feedVariance a s rs).rot = i.rot ∧
    ∀ a' s', (i.feedVariance a s rs).stat a' s' = if a' = a ∧ s' = s then { i.stat a' s' with varCount := (i.stat a' s').varCount + rs.length, accVar := (i.stat a' s').accVar + (rs.map fun r => sqDiff r.acc (i.stat a' s').acc (i.stat a' s').count).sum, gyroVar := (i.stat a' s').gyroVar + (rs.map fun r => sqDiff r.gyro (i.stat a' s').gyro (i.stat a' s').count).sum } else i.stat a' s' := by
  induction rs with
  | nil =>
    intro i a s
    refine ⟨rfl, rfl, rfl, fun a' s' => ?_⟩
    split
    · simp [Inner.feedVariance]
    · rfl
  | cons r rs ih =>
    intro i a s
    obtain ⟨h1, h2, h3, h4⟩ := ih (i.processVariance a s r) a s
    refine ⟨h1, h2, h3, fun a' s' => (h4 a' s').trans ?_⟩
    split
    · rename_i h
      simp only [Inner.processVariance, if_pos h, Static.addVariance, List.length_cons, List.map_cons, List.sum_cons, add_assoc, Nat.add_comm, Nat.add_left_comm]
    · rename_i h
      simp only [Inner.processVariance, if_neg h]

theorem feedTurning_eq (rs : List Reading) : ∀ (i : Inner) (a : Axis), (i.feedTurning a rs).gravity = i.gravity ∧ (i.feedTurning a rs).expectedAngle = i.expectedAngle ∧ (i.feedTurning a rs).stat = i.stat ∧
    ∀ a', (i.feedTurning a rs).rot a' = if a' = a then rs.foldl Rot.add (i.rot a') else i.rot a' := by
  induction rs with
  | nil =>
    intro i a
    refine ⟨rfl, rfl, rfl, fun a' => ?_⟩
    split <;> rfl
  | cons r rs ih =>
    intro i a
    obtain ⟨h1, h2, h3, h4⟩ := ih (i.processRotation a r) a
    refine ⟨h1, h2, h3, fun a' => (h4 a').trans ?_⟩
    split
    · rename_i h
      simp only [Inner.processRotation, if_pos h, List.foldl_cons]
    · rename_i h
      simp only [Inner.processRotation, if_neg h]

theorem rot_fold (rs : List Reading) : rs.foldl Rot.add .zero = rotOf rs := by
  have key : ∀ rs : List Reading, rs.reverse.foldl Rot.add .zero = rotOf rs.reverse := by
    intro rs
    induction rs with
    | nil => rfl
    | cons r rs ih =>
      rw [List.reverse_cons, List.foldl_append, ih]
      cases rs.reverse with
      | nil => simp [Rot.add, rotOf]
      | cons x l =>
        have : ((x :: l) ++ [r]).getLast? = some r := List.getLast?_concat
        simp only [List.foldl_cons, List.foldl_nil, Rot.add, rotOf, this]
        simp [add_assoc]
  have := key rs.reverse
  rwa [List.reverse_reverse] at this

theorem position_eq (x : Session) (i : Inner) (a : Axis) (s : Sign) : (i.position x a s).gravity = i.gravity ∧ (i.position x a s).expectedAngle = i.expectedAngle ∧ (i.position x a s).rot = i.rot ∧
    ∀ a' s', (a' = a ∧ s' = s → i.stat a s = .zero → (i.position x a s).stat a' s' = staticOf (x.still a s) (x.variance a s)) ∧ (¬ (a' = a ∧ s' = s) → (i.position x a s).stat a' s' = i.stat a' s') := by
  obtain ⟨h1, h2, h3, h4⟩ := feedStill_eq (x.still a s) i a s
  obtain ⟨g1, g2, g3, g4⟩ := feedVariance_eq (x.variance a s) (i.feedStill a s (x.still a s)) a s
  refine ⟨g1.trans h1, g2.trans h2, g3.trans h3, fun a' s' => ⟨?_, ?_⟩⟩
  · rintro ⟨rfl, rfl⟩ hz
    have := g4 a' s'
    rw [if_pos ⟨rfl, rfl⟩, h4, if_pos ⟨rfl, rfl⟩, hz] at this
    refine this.trans ?_
    simp [Static.zero, staticOf]
  · intro hn
    have := g4 a' s'
    rw [if_neg hn, h4, if_neg hn] at this
    exact this

/-- the accumulators at the end of a session -/
theorem session_inner (x : Session) (gravity expectedAngle : Option ℝ) : (x.inner gravity expectedAngle).gravity = gravity.getD 9.81 ∧ (x.inner gravity expectedAngle).expectedAngle = expectedAngle.getD (-360) ∧
    (∀ a s, (x.inner gravity expectedAngle).stat a s = staticOf (x.still a s) (x.variance a s)) ∧ ∀ a, (x.inner gravity expectedAngle).rot a = rotOf (x.turning a) := by
  unfold Session.inner
  simp only
  obtain ⟨a1, b1, c1, d1⟩ := position_eq x (Inner.new gravity expectedAngle) .x .plus
  generalize hj1 : (Inner.new gravity expectedAngle).position x .x .plus = j1 at a1 b1 c1 d1
  obtain ⟨a2, b2, c2, d2⟩ := position_eq x j1 .x .minus
  generalize hj2 : j1.position x .x .minus = j2 at a2 b2 c2 d2
  obtain ⟨a3, b3, c3, d3⟩ := position_eq x j2 .y .plus
  generalize hj3 : j2.position x .y .plus = j3 at a3 b3 c3 d3
  obtain ⟨a4, b4, c4, d4⟩ := position_eq x j3 .y .minus
  generalize hj4 : j3.position x .y .minus = j4 at a4 b4 c4 d4
  obtain ⟨a5, b5, c5, d5⟩ := position_eq x j4 .z .plus
  generalize hj5 : j4.position x .z .plus = j5 at a5 b5 c5 d5
  obtain ⟨a6, b6, c6, d6⟩ := position_eq x j5 .z .minus
  generalize hj6 : j5.position x .z .minus = j6 at a6 b6 c6 d6
  obtain ⟨e1, f1, g1, h1⟩ := feedTurning_eq (x.turning .x) j6 .x
  generalize hk1 : j6.feedTurning .x (x.turning .x) = k1 at e1 f1 g1 h1
  obtain ⟨e2, f2, g2, h2⟩ := feedTurning_eq (x.turning .y) k1 .y
  generalize hk2 : k1.feedTurning .y (x.turning .y) = k2 at e2 f2 g2 h2
  obtain ⟨e3, f3, g3, h3⟩ := feedTurning_eq (x.turning .z) k2 .z
  generalize hk3 : k2.feedTurning .z (x.turning .z) = k3 at e3 f3 g3 h3
  have z0 : ∀ a s, (Inner.new gravity expectedAngle).stat a s = .zero := fun _ _ => rfl
  have n1 : ∀ a s, ¬ (a = .x ∧ s = .plus) → j1.stat a s = .zero := fun a s h => ((d1 a s).2 h).trans (z0 a s)
  refine ⟨?_, ?_, fun a s => ?_, fun a => ?_⟩
  · rw [e3, e2, e1, a6, a5, a4, a3, a2, a1]; rfl
  · rw [f3, f2, f1, b6, b5, b4, b3, b2, b1]; rfl
  · rw [g3, g2, g1]
    cases a <;> cases s
    · rw [(d6 _ _).2 (by decide), (d5 _ _).2 (by decide), (d4 _ _).2 (by decide), (d3 _ _).2 (by decide), (d2 _ _).2 (by decide)]
      exact (d1 _ _).1 ⟨rfl, rfl⟩ rfl
    · rw [(d6 _ _).2 (by decide), (d5 _ _).2 (by decide), (d4 _ _).2 (by decide), (d3 _ _).2 (by decide)]
      exact (d2 _ _).1 ⟨rfl, rfl⟩ (n1 _ _ (by decide))
    · rw [(d6 _ _).2 (by decide), (d5 _ _).2 (by decide), (d4 _ _).2 (by decide)]
      refine (d3 _ _).1 ⟨rfl, rfl⟩ ?_
      rw [(d2 _ _).2 (by decide)]
      exact n1 _ _ (by decide)
    · rw [(d6 _ _).2 (by decide), (d5 _ _).2 (by decide)]
      refine (d4 _ _).1 ⟨rfl, rfl⟩ ?_
      rw [(d3 _ _).2 (by decide), (d2 _ _).2 (by decide)]
      exact n1 _ _ (by decide)
    · rw [(d6 _ _).2 (by decide)]
      refine (d5 _ _).1 ⟨rfl, rfl⟩ ?_
      rw [(d4 _ _).2 (by decide), (d3 _ _).2 (by decide), (d2 _ _).2 (by decide)]
      exact n1 _ _ (by decide)
    · refine (d6 _ _).1 ⟨rfl, rfl⟩ ?_
      rw [(d5 _ _).2 (by decide), (d4 _ _).2 (by decide), (d3 _ _).2 (by decide), (d2 _ _).2 (by decide)]
      exact n1 _ _ (by decide)
  · have hz : ∀ a, j6.rot a = .zero := fun a => by rw [c6, c5, c4, c3, c2, c1]; rfl
    rw [h3, h2, h1, hz]
    cases a
    · rw [if_neg (by decide), if_neg (by decide), if_pos rfl, rot_fold]
    · rw [if_neg (by decide), if_pos rfl, if_neg (by decide), rot_fold]
    · rw [if_pos rfl, if_neg (by decide), if_neg (by decide), rot_fold]

/-- the mean of equal vectors -/
theorem sum_const {l : List Reading} {f : Reading → Vec} {v : Vec} (h : ∀ r ∈ l, f r = v) : (l.map f).sum = (l.length : ℝ) • v := by
  induction l with
  | nil => simp
  | cons r l ih =>
    rw [List.map_cons, List.sum_cons, h r (by simp), ih (fun r hr => h r (by simp [hr])), List.length_cons]
    push_cast
    rw [add_smul, one_smul, add_comm]

theorem meanCol_const {l : List Reading} {f : Reading → Vec} {v : Vec} (hl : l ≠ []) (h : ∀ r ∈ l, f r = v) : meanCol (l.map f).sum l.length = v := by
  funext i
  unfold meanCol
  rw [sum_const h]
  have : (l.length : ℝ) ≠ 0 := by
    exact_mod_cast (List.length_pos_iff.2 hl).ne'
  simp only [Pi.smul_apply, smul_eq_mul]
  field_simp

theorem mulVec_along (m : Mat) (a : Axis) (v : ℝ) : m.mulVec (along a v) = fun i => v * m i a := by
  funext i
  unfold Matrix.mulVec dotProduct along
  rw [Finset.sum_eq_single a]
  · simp [mul_comm]
  · intro b _ hb
    simp [hb]
  · intro h; exact absurd (Finset.mem_univ a) h

theorem see_acc (n : Sensor) (l : List Motion) : ((l.map n.see).map Reading.acc).sum = n.accel.mulVec (l.map Motion.acc).sum + (l.length : ℝ) • n.accOffset := by
  induction l with
  | nil => simp
  | cons m l ih =>
    simp only [List.map_cons, List.sum_cons, List.length_cons, ih, Sensor.see, Sensor.measure, Matrix.mulVec_add]
    push_cast
    rw [add_smul, one_smul]
    abel

theorem see_gyro (n : Sensor) (l : List Motion) : ((l.map n.see).map Reading.gyro).sum = n.rates.mulVec (l.map Motion.rate).sum + n.influence.mulVec (l.map Motion.acc).sum + (l.length : ℝ) • n.gyroOffset := by
  induction l with
  | nil => simp
  | cons m l ih =>
    simp only [List.map_cons, List.sum_cons, List.length_cons, ih, Sensor.see, Sensor.measure, Matrix.mulVec_add]
    push_cast
    rw [add_smul, one_smul]
    abel

/-- the accelerometer part of a documented session -/
theorem session_accel {n : Sensor} {g ea : ℝ} (hg : g ≠ 0) {x : Session} (h : Documented n g ea x) {c : Inner} (hc : c.gravity = g) (hst : ∀ a s, c.stat a s = staticOf (x.still a s) (x.variance a s)) :
    c.accel = n.accel ∧ c.accOffset = n.accOffset ∧ c.influence = n.influence := by
  have hacc : ∀ a s, meanCol (c.stat a s).acc (c.stat a s).count = n.accel.mulVec (along a (s.value * g)) + n.accOffset := by
    intro a s
    rw [hst]
    refine meanCol_const (h.still a s).1 (fun r hr => ?_)
    obtain ⟨t, rfl⟩ := (h.still a s).2 r hr
    rfl
  have hgyr : ∀ a s, meanCol (c.stat a s).gyro (c.stat a s).count = n.influence.mulVec (along a (s.value * g)) + n.gyroOffset := by
    intro a s
    rw [hst]
    refine meanCol_const (h.still a s).1 (fun r hr => ?_)
    obtain ⟨t, rfl⟩ := (h.still a s).2 r hr
    simp [Sensor.measure]
  refine ⟨?_, ?_, ?_⟩
  · funext i j
    unfold Inner.accel
    simp only [Matrix.smul_apply, Matrix.sub_apply, fromColumns, hacc, mulVec_along, hc, Pi.add_apply, Sign.value, smul_eq_mul]
    field_simp
    ring
  · funext i
    unfold Inner.accOffset
    simp only [hacc, mulVec_along, Pi.add_apply, Sign.value]
    ring
  · funext i j
    unfold Inner.influence
    simp only [Matrix.smul_apply, Matrix.sub_apply, fromColumns, hgyr, mulVec_along, hc, Pi.add_apply, Sign.value, smul_eq_mul]
    field_simp
    ring

/-- the gyroscope offset of a documented session -/
theorem session_offset {n : Sensor} {g ea : ℝ} {x : Session} (h : Documented n g ea x) {c : Inner} (hst : ∀ a s, c.stat a s = staticOf (x.still a s) (x.variance a s)) :
    c.gyroOffset = n.gyroOffset + (g / (c.totalCount Static.count : ℝ)) • n.influence.mulVec (fun a => ((x.still a .plus).length : ℝ) - (x.still a .minus).length) := by
  have hgyr : ∀ a s, (c.stat a s).gyro = ((x.still a s).length : ℝ) • (n.influence.mulVec (along a (s.value * g)) + n.gyroOffset) := by
    intro a s
    rw [hst]
    refine sum_const (fun r hr => ?_)
    obtain ⟨t, rfl⟩ := (h.still a s).2 r hr
    simp [Sensor.measure]
  have hcount : ∀ a s, (c.stat a s).count = (x.still a s).length := fun a s => by rw [hst]; rfl
  have hpos : 0 < (x.still .x .plus).length := List.length_pos_iff.2 (h.still .x .plus).1
  funext i
  unfold Inner.gyroOffset Inner.total Inner.totalCount
  simp only [hgyr, hcount, mulVec_along]
  have hu : ∀ f : Axis → ℝ, ∑ j, f j = f .x + f .y + f .z := by
    intro f
    change (Finset.sum {Axis.x, Axis.y, Axis.z} f) = _
    rw [Finset.sum_insert (by decide), Finset.sum_insert (by decide), Finset.sum_singleton, add_assoc]
  have hN : ((x.still .x .plus).length : ℝ) + (x.still .y .plus).length + (x.still .z .plus).length + (x.still .x .minus).length + (x.still .y .minus).length + (x.still .z .minus).length ≠ 0 := by
    have : (0 : ℝ) < (x.still .x .plus).length := by exact_mod_cast hpos
    positivity
  simp only [Pi.smul_apply, Pi.add_apply, smul_eq_mul, Matrix.mulVec, dotProduct, hu, Sign.value]
  push_cast
  field_simp
  ring

/-- the rotations of a documented session, for any gyroscope offset estimate -/
theorem session_rates {n : Sensor} {g ea : ℝ} {x : Session} (h : Documented n g ea x) {c : Inner} (he : c.expectedAngle = ea) (hea : ea ≠ 0) (hA : n.accel.det ≠ 0)
    (h1 : c.accel = n.accel) (h2 : c.accOffset = n.accOffset) (h3 : c.influence = n.influence) (hrot : ∀ a, c.rot a = rotOf (x.turning a)) :
    ∀ i a, c.rates i a = n.rates i a + (n.gyroOffset i - c.gyroOffset i) * (((c.rot a).endTime - (c.rot a).startTime) / 1000) / ea := by
  have hAu : IsUnit n.accel.det := isUnit_iff_ne_zero.2 hA
  have hinv : (ea • (1 : Mat))⁻¹ = ea⁻¹ • (1 : Mat) := by
    apply Matrix.inv_eq_right_inv
    rw [Matrix.smul_mul, Matrix.one_mul, smul_smul, mul_inv_cancel₀ hea, one_smul]
  intro i a
  obtain ⟨l, hl, hturn⟩ := h.turning a
  have hcol : integrated (partialGyro c.accel⁻¹ c.influence c.accOffset c.gyroOffset (c.rot a)) (c.rot a) i = ea * n.rates i a + (n.gyroOffset i - c.gyroOffset i) * (((c.rot a).endTime - (c.rot a).startTime) / 1000) := by
    have hp : partialGyro c.accel⁻¹ c.influence c.accOffset c.gyroOffset (c.rot a) = n.rates.mulVec (l.map Motion.rate).sum + (l.length : ℝ) • (n.gyroOffset - c.gyroOffset) := by
      unfold partialGyro
      rw [hrot, hl, h1, h2, h3]
      simp only [rotOf, see_acc, see_gyro, List.length_map]
      have hcan : ∀ v : Vec, n.accel⁻¹.mulVec (n.accel.mulVec v) = v := fun v => by rw [Matrix.mulVec_mulVec, Matrix.nonsing_inv_mul _ hAu, Matrix.one_mulVec]
      rw [add_sub_cancel_right, hcan, smul_sub]
      abel
    have hlen : (c.rot a).count = l.length := by rw [hrot, hl]; simp [rotOf]
    have hend : (c.rot a).endTime = (l.getLast?.map Motion.time).getD 0 := by
      rw [hrot, hl]
      simp only [rotOf, List.getLast?_map, Option.map_map]
      rfl
    have hstart : (c.rot a).startTime = (l.head?.map Motion.time).getD 0 := by
      rw [hrot, hl]
      simp only [rotOf, List.head?_map, Option.map_map]
      rfl
    have hln : (l.length : ℝ) ≠ 0 := by
      intro h0
      rw [turned, h0] at hturn
      have := congrFun hturn a
      simp [along] at this
      exact hea this.symm
    have hm : n.rates.mulVec (turned l) = fun i => ea * n.rates i a := by rw [hturn, mulVec_along]
    have hm' := congrFun hm i
    rw [turned, ← hend, ← hstart, Matrix.mulVec_smul] at hm'
    simp only [Pi.smul_apply, smul_eq_mul] at hm'
    unfold integrated
    rw [hp, hlen]
    simp only [Pi.add_apply, Pi.smul_apply, Pi.sub_apply, smul_eq_mul]
    rw [div_div_eq_mul_div, add_mul, add_div, ← hm']
    field_simp
  unfold Inner.rates
  rw [he, hinv, Matrix.mul_smul, Matrix.mul_one, Matrix.smul_apply]
  simp only [fromColumns, hcol, smul_eq_mul]
  field_simp

end Verif.Cal
