import Verif.Model.SimSensors
import Mathlib.Tactic.Linarith
import Mathlib.Tactic.NormNum
import Mathlib.Tactic.FieldSimp
import Mathlib.Tactic.Ring
import Mathlib.Tactic.Positivity
import Mathlib.Tactic.Abel
import Mathlib.Algebra.BigOperators.Group.List.Basic
/-
C132: the sensors of the launch simulator.
-/
namespace Verif.Props
open Verif.SimSensors

/-- the acceleration of free fall, upwards: what an accelerometer at rest shows -/
noncomputable def gUp : V := ![0, 9.81, 0]

/-- an update after another: what is published -/
theorem simSensors_reading (s : Sender) (a u : Update) :
    ((s.update a).update u).snapshot = some ⟨u.time, u.orientation.symm (worldAcc a.time a.linvel u), u.orientation.symm (worldGyro u), baroImposter u.height 50, 50⟩ := by
  have : (s.update a).last = some (a.time, a.linvel) := by
    unfold Sender.update
    cases s.last <;> rfl
  simp only [Sender.update] at this ⊢
  rw [this]

/-- **C132** After any history, two updates publish a reading whose acceleration, turned into the world's axes, is the change of the velocity per second, plus 9.81 up, plus the noise; its turn rate is the
body's in degrees per second plus noise; it has the time of the second update, and the sensors are ready. -/
theorem C132_reading (us : List Update) (a u : Update) (ht : a.time < u.time) :
    ∃ r, (Sender.new.run (us ++ [a, u])).snapshot = some r ∧ (Sender.new.run (us ++ [a, u])).isReady = true ∧ r.time = u.time ∧
      ((u.time - a.time) / 1000) • (u.orientation r.acc - gUp - u.accNoise) = u.linvel - a.linvel ∧
      (Real.pi / 180) • (u.orientation r.gyro - u.gyroNoise) = u.angvel := by
  have e : Sender.new.run (us ++ [a, u]) = ((Sender.new.run us).update a).update u := by simp [Sender.run, List.foldl_append]
  rw [e]
  have h := simSensors_reading (Sender.new.run us) a u
  refine ⟨_, h, by simp [Sender.isReady, h], rfl, ?_, ?_⟩
  · rw [LinearEquiv.apply_symm_apply]
    unfold worldAcc gUp
    have hne : (u.time - a.time) / 1000 ≠ 0 := by
      have : 0 < (u.time - a.time) / 1000 := by linarith
      exact this.ne'
    have h1 : (1 / ((u.time - a.time) / 1000)) • (u.linvel - a.linvel) + u.accNoise + ![0, 9.81, 0] - ![0, 9.81, 0] - u.accNoise = (1 / ((u.time - a.time) / 1000)) • (u.linvel - a.linvel) := by abel
    rw [h1, smul_smul, mul_one_div_cancel hne, one_smul]
  · rw [LinearEquiv.apply_symm_apply]
    unfold worldGyro
    rw [add_sub_cancel_right, smul_smul]
    have : Real.pi / 180 * (1 / Real.pi * 180) = 1 := by
      have := Real.pi_ne_zero
      field_simp
    rw [this, one_smul]

/-- **C132** A rocket that does not move shows 9.81 up, in whatever orientation (and the noise) -/
theorem C132_at_rest (us : List Update) (a u : Update) (ht : a.time < u.time) (hv : u.linvel = a.linvel) :
    ∃ r, (Sender.new.run (us ++ [a, u])).snapshot = some r ∧ u.orientation r.acc = gUp + u.accNoise := by
  obtain ⟨r, h1, _, _, h2, _⟩ := C132_reading us a u ht
  refine ⟨r, h1, ?_⟩
  rw [hv, sub_self, smul_eq_zero] at h2
  rcases h2 with h2 | h2
  · have : 0 < (u.time - a.time) / 1000 := by linarith
    exact absurd h2 this.ne'
  · have h3 : u.orientation r.acc - (gUp + u.accNoise) = 0 := by rw [← h2]; abel
    exact sub_eq_zero.mp h3

/-- the velocity that the readings add up to: each acceleration, turned into the world's axes, without gravity and noise, times the time since the reading before -/
noncomputable def summedVelocity : ℝ → List (Update × Reading) → V
  | _, [] => 0
  | t, (u, r) :: l => ((r.time - t) / 1000) • (u.orientation r.acc - gUp - u.accNoise) + summedVelocity r.time l

theorem published_length (s : Sender) (h : s.last.isSome) (us : List Update) : (published s us).length = us.length := by
  induction us generalizing s with
  | nil => rfl
  | cons u us ih =>
    obtain ⟨x, hx⟩ := Option.isSome_iff_exists.mp h
    obtain ⟨t0, v0⟩ := x
    have e : s.update u = ⟨some (u.time, u.linvel), some ⟨u.time, u.orientation.symm (worldAcc t0 v0 u), u.orientation.symm (worldGyro u), baroImposter u.height 50, 50⟩⟩ := by
      simp only [Sender.update, hx]
    rw [published, e]
    simp only [List.length_cons]
    rw [ih _ rfl]

theorem summed_spec (us : List Update) : ∀ (s : Sender) (t0 : ℝ) (v0 : V), s.last = some (t0, v0) → (t0 :: us.map (·.time)).Pairwise (· < ·) →
    summedVelocity t0 (us.zip (published s us)) = ((us.getLast?.map (·.linvel)).getD v0) - v0 := by
  induction us with
  | nil => intro s t0 v0 _ _; simp [summedVelocity]
  | cons u us ih =>
    intro s t0 v0 hs hp
    have e : s.update u = ⟨some (u.time, u.linvel), some ⟨u.time, u.orientation.symm (worldAcc t0 v0 u), u.orientation.symm (worldGyro u), baroImposter u.height 50, 50⟩⟩ := by
      simp only [Sender.update, hs]
    rw [List.map_cons, List.pairwise_cons] at hp
    have ht : t0 < u.time := hp.1 _ List.mem_cons_self
    have hne : (u.time - t0) / 1000 ≠ 0 := by
      have : 0 < (u.time - t0) / 1000 := by linarith
      exact this.ne'
    rw [published, e]
    simp only [List.zip_cons_cons, summedVelocity]
    rw [ih _ u.time u.linvel rfl hp.2, LinearEquiv.apply_symm_apply]
    unfold worldAcc gUp
    have h1 : (1 / ((u.time - t0) / 1000)) • (u.linvel - v0) + u.accNoise + ![0, 9.81, 0] - ![0, 9.81, 0] - u.accNoise = (1 / ((u.time - t0) / 1000)) • (u.linvel - v0) := by abel
    rw [h1, smul_smul, mul_one_div_cancel hne, one_smul]
    cases hl : us.getLast? with
    | none =>
      rw [List.getLast?_eq_none_iff] at hl
      subst hl
      simp
    | some w =>
      have : (u :: us).getLast? = some w := by
        cases us with
        | nil => simp at hl
        | cons x us => rw [List.getLast?_cons_cons]; exact hl
      rw [this]
      simp

/-- **C132** Nothing is lost between the updates: for any updates at increasing times after the first, there is one reading for each, and their accelerations (without gravity and noise) times the times between
them add up to the change of the velocity since the first. -/
theorem C132_velocity (a : Update) (us : List Update) (hp : ((a :: us).map (·.time)).Pairwise (· < ·)) :
    (published Sender.new (a :: us)).length = us.length ∧
      summedVelocity a.time (us.zip (published Sender.new (a :: us))) = ((us.getLast?.map (·.linvel)).getD a.linvel) - a.linvel := by
  have e : Sender.new.update a = ⟨some (a.time, a.linvel), none⟩ := rfl
  have e2 : published Sender.new (a :: us) = published ⟨some (a.time, a.linvel), none⟩ us := by rw [published, e]
  rw [e2]
  exact ⟨published_length _ rfl us, summed_spec us _ a.time a.linvel rfl hp⟩

/-- before the second update there is no reading -/
theorem C132_not_ready (a : Update) : Sender.new.isReady = false ∧ (Sender.new.run [a]).isReady = false := ⟨rfl, rfl⟩

/-- the altitude of a pressure in the ICAO standard atmosphere below 11 km (from 22632 Pa on), which the firmware computes (driver/barometer.rs:88-89): 288.15 K and 101325 Pa at sea level, 6.5 K/km, and the exponent g/(R·L) -/
noncomputable def isaAltitude (pressure : ℝ) : ℝ := 288.15 / 0.0065 * (1 - (pressure / 101325) ^ (1 / (9.80665 / (287.05287 * 0.0065)) : ℝ))

/-- up to 12 km the simulated pressure is that of the lowest layer of the standard atmosphere (above 22632 Pa), so that `isaAltitude` is what the firmware computes -/
theorem simPressure_lowest_layer (h : ℝ) (h1 : h < 12000) : 22633 < baroImposter h 50 := by
  have hx : (0.7586 : ℝ) < 1 - 0.0065 * h / (50 + 273.15) := by
    have : 0.0065 * h / (50 + 273.15) < 0.2414 := by rw [div_lt_iff₀ (by norm_num)]; linarith
    linarith
  have hm : (0.7586 : ℝ) ^ (5.255 : ℝ) ≤ (1 - 0.0065 * h / (50 + 273.15)) ^ (5.255 : ℝ) := Real.rpow_le_rpow (by norm_num) hx.le (by norm_num)
  have h2 : (0.7586 : ℝ) ^ (5.26 : ℝ) ≤ (0.7586 : ℝ) ^ (5.255 : ℝ) := Real.rpow_le_rpow_of_exponent_ge (by norm_num) (by norm_num) (by norm_num)
  have h3 : ((0.7586 : ℝ) ^ (5.26 : ℝ)) ^ 50 = (0.7586 : ℝ) ^ 263 := by
    rw [← Real.rpow_natCast, ← Real.rpow_mul (by norm_num), ← Real.rpow_natCast]
    norm_num
  have h4 : (0.2234 : ℝ) < (0.7586 : ℝ) ^ (5.26 : ℝ) := by
    refine lt_of_pow_lt_pow_left₀ 50 (Real.rpow_nonneg (by norm_num) _) ?_
    rw [h3, show (263 : ℕ) = 200 + 63 from rfl, pow_add]
    norm_num
  unfold baroImposter
  linarith

/-- **C132 (finding)** The simulated pressure is that of air of 50 °C at the ground, the firmware reckons with 15 °C: from the readings of a rocket at any height above the ground, up to 12 km, it
computes less than nine tenths of the height. -/
theorem C132_altitude_too_low (h : ℝ) (h0 : 0 < h) (h1 : h < 12000) : 22633 < baroImposter h 50 ∧ isaAltitude (baroImposter h 50) < 0.9 * h := by
  refine ⟨simPressure_lowest_layer h h1, ?_⟩
  have hu0 : 0 < 1 - 0.0065 * h / (50 + 273.15) := by
    have : 0.0065 * h / (50 + 273.15) < 1 := by rw [div_lt_one (by norm_num)]; linarith
    linarith
  have hu1 : 1 - 0.0065 * h / (50 + 273.15) < 1 := by
    have : 0 < 0.0065 * h / (50 + 273.15) := by positivity
    linarith
  unfold isaAltitude baroImposter
  rw [mul_div_cancel_left₀ _ (by norm_num), ← Real.rpow_mul hu0.le]
  have hexp : (1 - 0.0065 * h / (50 + 273.15)) ^ (1 : ℝ) ≤ (1 - 0.0065 * h / (50 + 273.15)) ^ ((5.255 : ℝ) * (1 / (9.80665 / (287.05287 * 0.0065)))) :=
    Real.rpow_le_rpow_of_exponent_ge hu0 hu1.le (by norm_num)
  rw [Real.rpow_one] at hexp
  have : 288.15 / 0.0065 * (1 - (1 - 0.0065 * h / (50 + 273.15)) ^ ((5.255 : ℝ) * (1 / (9.80665 / (287.05287 * 0.0065))))) ≤ 288.15 / 0.0065 * (0.0065 * h / (50 + 273.15)) := by
    apply mul_le_mul_of_nonneg_left _ (by norm_num)
    linarith
  refine lt_of_le_of_lt this ?_
  have e : (288.15 : ℝ) / 0.0065 * (0.0065 * h / (50 + 273.15)) = 288.15 / 323.15 * h := by
    norm_num
    ring
  rw [e]
  exact mul_lt_mul_of_pos_right (by norm_num) h0

/-- at 3000 m (a typical flight) the firmware sees less than 2700 m -/
example : isaAltitude (baroImposter 3000 50) < 2700 := by
  have := (C132_altitude_too_low 3000 (by norm_num) (by norm_num)).2
  norm_num at this ⊢
  exact this

/-- times that increase (a case of the hypothesis of C132_velocity) -/
example (v w : V) (o : Orientation) : (([⟨0, v, 0, o, 0, 0, 0⟩, ⟨16, w, 0, o, 1, 0, 0⟩, ⟨33, v, 0, o, 2, 0, 0⟩] : List Update).map (·.time)).Pairwise (· < ·) := by
  norm_num

end Verif.Props
