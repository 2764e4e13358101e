import Mathlib.Tactic.Linarith
import Mathlib.Tactic.FieldSimp
import Mathlib.Tactic.Ring
import Mathlib.Tactic.Positivity
import Mathlib.Algebra.Order.Field.Rat
import Verif.Props.PrimaryCore
/-
C78: the vertical speed reported by the barometric filter, in exact arithmetic (any altitude function, any biquad coefficients).
C79: the barometer reading filter.
-/
namespace Verif.Props

open Verif Fc

/-- exact arithmetic with a given altitude function -/
abbrev exactF (alt : Rat → Rat) : Floats := ⟨Rat, Rat, ratOps, ratOps, id, alt⟩

/-- a barometer recording: time in milliseconds and pressure of each reading -/
structure Recording where
  time : Nat → Rat
  pressure : Nat → Rat

/-- the readings -/
def Recording.reading (b : Recording) (alt : Rat → Rat) (i : Nat) : Reading (exactF alt) := ⟨b.time i, b.pressure i⟩

/-- later readings have later times -/
def Recording.Increasing (b : Recording) : Prop := ∀ i, b.time i < b.time (i + 1)

/-- the filter coefficients -/
structure Coeffs where
  a1 : Rat
  a2 : Rat
  b0 : Rat
  b1 : Rat
  b2 : Rat

/-- a filter that has seen nothing -/
def Coeffs.biquad (c : Coeffs) (alt : Rat → Rat) : Biquad (exactF alt) := ⟨c.a1, c.a2, c.b0, c.b1, c.b2, (0 : Rat), (0 : Rat)⟩

/-- the filter after `n` readings -/
def vsState (alt : Rat → Rat) (c : Coeffs) (b : Recording) : Nat → VsFilter (exactF alt)
  | 0 => .new (c.biquad alt)
  | n + 1 => ((vsState alt c b n).feed (b.reading alt n)).2

/-- the speed reported for reading `n` -/
def vsOut (alt : Rat → Rat) (c : Coeffs) (b : Recording) (n : Nat) : Rat := ((vsState alt c b n).feed (b.reading alt n)).1

/-- Spec: rate of climb from reading `n - 1` to reading `n`, in m/s -/
def rate (alt : Rat → Rat) (b : Recording) (n : Nat) : Rat := (alt (b.pressure n) - alt (b.pressure (n - 1))) / ((b.time n - b.time (n - 1)) / 1000)

/-- Spec: is the reading compared with the one before it, or is the filter waiting for a time from which on a reading may be the first of a new comparison? -/
inductive Status
  | waiting (from_ : Rat)
  | comparing
  deriving DecidableEq

/-- Spec: more than 3000 m/s, up or down -/
def Fast (v : Rat) : Prop := 3000 < v ∨ v < -3000

instance (v : Rat) : Decidable (Fast v) := inferInstanceAs (Decidable (_ ∨ _))

/-- Spec: the status before reading `n`. Too fast a climb or fall makes the filter wait for 500 ms -/
def status (alt : Rat → Rat) (b : Recording) : Nat → Status
  | 0 => .waiting 0
  | n + 1 => match status alt b n with
    | .waiting t => if b.time n < t then .waiting t else .comparing
    | .comparing => if Fast (rate alt b n) then .waiting (b.time n + 500) else .comparing

/-- Spec: is the rate of reading `n` used? -/
def Used (alt : Rat → Rat) (b : Recording) (n : Nat) : Prop := status alt b n = .comparing ∧ ¬ Fast (rate alt b n)

instance (alt : Rat → Rat) (b : Recording) (n : Nat) : Decidable (Used alt b n) := inferInstanceAs (Decidable (_ ∧ _))

/-- Spec: the used rates of the first `n` readings, newest first -/
def rates (alt : Rat → Rat) (b : Recording) : Nat → List Rat
  | 0 => []
  | n + 1 => if Used alt b n then rate alt b n :: rates alt b n else rates alt b n

/-- Spec: the difference equation of a second-order filter, inputs newest first -/
def lowpass (c : Coeffs) : List Rat → Rat
  | [] => 0
  | [x] => c.b0 * x
  | [x, y] => c.b0 * x + c.b1 * y - c.a1 * lowpass c [y]
  | x :: y :: z :: l => c.b0 * x + c.b1 * y + c.b2 * z - c.a1 * lowpass c (y :: z :: l) - c.a2 * lowpass c (z :: l)

/-- a number as a rational -/
abbrev rat (x : Rat) : Rat := x

/-- the state of the biquad after the inputs `l` (newest first) -/
def bqAfter (alt : Rat → Rat) (c : Coeffs) : List Rat → Biquad (exactF alt)
  | [] => c.biquad alt
  | x :: l => ((bqAfter alt c l).run x).2

theorem bq_coeffs (alt : Rat → Rat) (c : Coeffs) (l : List Rat) :
    (bqAfter alt c l).a1 = c.a1 ∧ (bqAfter alt c l).a2 = c.a2 ∧ (bqAfter alt c l).b0 = c.b0 ∧ (bqAfter alt c l).b1 = c.b1 ∧ (bqAfter alt c l).b2 = c.b2 := by
  induction l with
  | nil => exact ⟨rfl, rfl, rfl, rfl, rfl⟩
  | cons x l ih => exact ih

theorem bq_next (alt : Rat → Rat) (c : Coeffs) (x : Rat) (l : List Rat) :
    ((bqAfter alt c l).run x).1 = rat (bqAfter alt c l).s1 + c.b0 * x ∧
    (bqAfter alt c (x :: l)).s1 = rat (bqAfter alt c l).s2 + c.b1 * x - c.a1 * rat ((bqAfter alt c l).run x).1 ∧
    (bqAfter alt c (x :: l)).s2 = c.b2 * x - c.a2 * rat ((bqAfter alt c l).run x).1 := by
  obtain ⟨h1, h2, h3, h4, h5⟩ := bq_coeffs alt c l
  refine ⟨?_, ?_, ?_⟩
  · show rat (bqAfter alt c l).s1 + rat (bqAfter alt c l).b0 * x = _
    rw [h3]
  · show rat (bqAfter alt c l).s2 + rat (bqAfter alt c l).b1 * x - rat (bqAfter alt c l).a1 * rat ((bqAfter alt c l).run x).1 = _
    rw [h4, h1]
  · show rat (bqAfter alt c l).b2 * x - rat (bqAfter alt c l).a2 * rat ((bqAfter alt c l).run x).1 = _
    rw [h5, h2]

/-- the biquad computes the difference equation -/
theorem bq_run (alt : Rat → Rat) (c : Coeffs) (x : Rat) (l : List Rat) : ((bqAfter alt c l).run x).1 = lowpass c (x :: l) := by
  induction l using lowpass.induct generalizing x with
  | case1 =>
    rw [(bq_next alt c x []).1]
    show (0 : Rat) + _ = c.b0 * x
    ring
  | case2 y =>
    rw [(bq_next alt c x _).1, (bq_next alt c y _).2.1, (bq_next alt c y _).1]
    show (0 : Rat) + c.b1 * y - c.a1 * (0 + c.b0 * y) + c.b0 * x = c.b0 * x + c.b1 * y - c.a1 * (c.b0 * y)
    ring
  | case3 y z ih =>
    have hy : ((bqAfter alt c [z]).run y).1 = lowpass c [y, z] := by
      rw [(bq_next alt c y _).1, (bq_next alt c z _).2.1, (bq_next alt c z _).1]
      show (0 : Rat) + c.b1 * z - c.a1 * (0 + c.b0 * z) + c.b0 * y = c.b0 * y + c.b1 * z - c.a1 * (c.b0 * z)
      ring
    rw [(bq_next alt c x _).1, (bq_next alt c y _).2.1, (bq_next alt c z _).2.2, hy, (bq_next alt c z _).1]
    show c.b2 * z - c.a2 * (0 + c.b0 * z) + c.b1 * y - c.a1 * lowpass c [y, z] + c.b0 * x = c.b0 * x + c.b1 * y + c.b2 * z - c.a1 * lowpass c [y, z] - c.a2 * (c.b0 * z)
    ring
  | case4 y z w l ih1 ih2 =>
    rw [(bq_next alt c x _).1, (bq_next alt c y _).2.1, (bq_next alt c z _).2.2, ih2, ih1]
    show c.b2 * z - c.a2 * lowpass c (z :: w :: l) + c.b1 * y - c.a1 * lowpass c (y :: z :: w :: l) + c.b0 * x =
      c.b0 * x + c.b1 * y + c.b2 * z - c.a1 * lowpass c (y :: z :: w :: l) - c.a2 * lowpass c (z :: w :: l)
    ring

/-- what the filter remembers after `n` readings -/
def VsInv (alt : Rat → Rat) (c : Coeffs) (b : Recording) (n : Nat) (f : VsFilter (exactF alt)) : Prop :=
  f.biquad = bqAfter alt c (rates alt b n) ∧
  (f.lastVs.getD (0 : Rat) : Rat) = lowpass c (rates alt b n) ∧
  (match status alt b n with
    | .waiting t => f.holdEnd = t ∧ f.prev = none
    | .comparing => ¬ (b.time (n - 1) < (f.holdEnd : Rat)) ∧ f.prev = some (b.time (n - 1), alt (b.pressure (n - 1)))) ∧
  f.physical = (match n with | 0 => ⟨none⟩ | n + 1 => ⟨some (b.time n, vsOut alt c b n)⟩)

theorem fast_iff (v : Rat) : (ratOps.lt (ratOps.lit 3000) (ratOps.abs v) = true) ↔ Fast v := by
  show decide ((3000 : Rat) < if v < 0 then -v else v) = true ↔ _
  rw [decide_eq_true_eq]
  unfold Fast
  split <;> constructor <;> intro h
  · exact .inr (by linarith)
  · rcases h with h | h <;> linarith
  · exact .inl h
  · rcases h with h | h <;> linarith

/-- one reading: the part before the speed limit -/
theorem inner_step (alt : Rat → Rat) (c : Coeffs) (b : Recording) (hb : b.Increasing) (n : Nat) (f : VsFilter (exactF alt)) (h : VsInv alt c b n f) :
    (f.feedInner (b.reading alt n)).2.biquad = bqAfter alt c (rates alt b (n + 1)) ∧
    (f.feedInner (b.reading alt n)).1 = (if Used alt b n then some (lowpass c (rates alt b (n + 1))) else none) ∧
    (f.feedInner (b.reading alt n)).2.lastVs = f.lastVs ∧ (f.feedInner (b.reading alt n)).2.physical = f.physical ∧
    (match status alt b (n + 1) with
      | .waiting t => (f.feedInner (b.reading alt n)).2.holdEnd = t ∧ (f.feedInner (b.reading alt n)).2.prev = none
      | .comparing => ¬ (b.time n < rat (f.feedInner (b.reading alt n)).2.holdEnd) ∧ (f.feedInner (b.reading alt n)).2.prev = some (b.time n, alt (b.pressure n))) := by
  obtain ⟨h1, h2, h3, h4⟩ := h
  unfold VsFilter.feedInner
  obtain ⟨s, hs⟩ : ∃ s, status alt b n = s := ⟨_, rfl⟩
  cases s with
  | waiting t =>
    rw [hs] at h3
    obtain ⟨h5, h6⟩ := h3
    have hu : ¬ Used alt b n := by
      rintro ⟨h, _⟩
      rw [hs] at h
      cases h
    have hr : rates alt b (n + 1) = rates alt b n := by rw [rates, if_neg hu]
    have hst : status alt b (n + 1) = if b.time n < t then .waiting t else .comparing := by rw [status, hs]
    rw [hr, hst, if_neg hu]
    have hc : (exactF alt).d.lt (b.reading alt n).timestamp f.holdEnd = decide (b.time n < t) := by rw [h5]; rfl
    rw [hc]
    by_cases ht : b.time n < t
    · rw [if_pos (by simpa using ht), if_pos ht]
      exact ⟨h1, rfl, rfl, rfl, h5, h6⟩
    · rw [if_neg (by simpa using ht), if_neg ht, h6]
      refine ⟨h1, rfl, rfl, rfl, ?_, rfl⟩
      show ¬ b.time n < rat f.holdEnd
      rw [h5]
      exact ht
  | comparing =>
    rw [hs] at h3
    obtain ⟨h5, h6⟩ := h3
    have hn : n ≠ 0 := by
      rintro rfl
      cases hs
    have hlt : b.time (n - 1) < b.time n := by
      have := hb (n - 1)
      rwa [Nat.sub_add_cancel (by omega)] at this
    have hc : (exactF alt).d.lt (b.reading alt n).timestamp f.holdEnd = false := by
      show decide (b.time n < rat f.holdEnd) = false
      rw [decide_eq_false_iff_not]
      intro h
      exact h5 (lt_trans hlt h)
    have hst : status alt b (n + 1) = if Fast (rate alt b n) then .waiting (b.time n + 500) else .comparing := by rw [status, hs]
    rw [if_neg (by rw [hc]; simp), h6, hst]
    have hrate : ratOps.div (ratOps.sub (b.reading alt n).altitude (alt (b.pressure (n - 1)))) (ratOps.div (id (ratOps.sub (b.reading alt n).timestamp (b.time (n - 1)))) (ratOps.lit 1000)) =
        rate alt b n := rfl
    simp only
    rw [hrate]
    by_cases hf : Fast (rate alt b n)
    · have hu : ¬ Used alt b n := fun h => h.2 hf
      rw [if_pos ((fast_iff _).2 hf), if_neg hu, if_pos hf]
      have hr : rates alt b (n + 1) = rates alt b n := by rw [rates, if_neg hu]
      rw [hr]
      exact ⟨h1, rfl, rfl, rfl, rfl, rfl⟩
    · have hu : Used alt b n := ⟨hs, hf⟩
      rw [if_neg (by rw [fast_iff]; exact hf), if_pos hu, if_neg hf]
      have hr : rates alt b (n + 1) = rate alt b n :: rates alt b n := by rw [rates, if_pos hu]
      rw [hr]
      refine ⟨by rw [h1]; rfl, ?_, rfl, rfl, ?_, rfl⟩
      · rw [h1]
        exact congrArg some (bq_run alt c _ _)
      · show ¬ b.time n < rat f.holdEnd
        intro h
        exact h5 (lt_trans hlt h)

theorem limit_eq (lastV v dt : Rat) (hdt : 0 < dt) : (if ratOps.lt (ratOps.neg (ratOps.lit 45)) (ratOps.div (ratOps.sub v lastV) dt) = true then v else lastV - 45 * dt) = max v (lastV - 45 * dt) := by
  have : ratOps.lt (ratOps.neg (ratOps.lit 45)) (ratOps.div (ratOps.sub v lastV) dt) = decide (-45 < (v - lastV) / dt) := rfl
  rw [this]
  by_cases h : -45 < (v - lastV) / dt
  · rw [if_pos (by simpa using h)]
    rw [lt_div_iff₀ hdt] at h
    rw [max_eq_left (by linarith)]
  · rw [if_neg (by simpa using h)]
    rw [lt_div_iff₀ hdt] at h
    rw [max_eq_right (by linarith)]

theorem physical_feed (alt : Rat → Rat) (t v lastT lastV : Rat) (h : lastT < t) :
    (Physical.feed (fl := exactF alt) ⟨some (lastT, lastV)⟩ t v).1 = max v (lastV - 45 * ((t - lastT) / 1000)) := by
  rw [← limit_eq lastV v ((t - lastT) / 1000) (by linarith)]
  unfold Physical.feed
  simp only
  split <;> rename_i hc
  · exact (if_pos hc).symm
  · exact (if_neg hc).symm

theorem physical_next (alt : Rat → Rat) (p : Physical (exactF alt)) (t v : Rat) : (p.feed t v).2 = ⟨some (t, (p.feed t v).1)⟩ := by
  unfold Physical.feed
  split
  · rfl
  · simp only
    split <;> rfl

theorem feed_lastVs (alt : Rat → Rat) (f : VsFilter (exactF alt)) (r : Reading (exactF alt)) : (f.feed r).2.lastVs = (f.feedInner r).1.or (f.feedInner r).2.lastVs := by
  unfold VsFilter.feed
  simp only
  cases (f.feedInner r).1 <;> rfl

theorem vs_inv (alt : Rat → Rat) (c : Coeffs) (b : Recording) (hb : b.Increasing) (n : Nat) : VsInv alt c b n (vsState alt c b n) := by
  induction n with
  | zero => exact ⟨rfl, rfl, ⟨rfl, rfl⟩, rfl⟩
  | succ n ih =>
    have hi := inner_step alt c b hb n _ ih
    obtain ⟨h1, h2, h3, h4, h5⟩ := hi
    refine ⟨h1, ?_, h5, ?_⟩
    · have hf : (vsState alt c b (n + 1)).lastVs = ((vsState alt c b n).feedInner (b.reading alt n)).1.or ((vsState alt c b n).feedInner (b.reading alt n)).2.lastVs := feed_lastVs alt _ _
      rw [hf, h2, h3]
      by_cases hu : Used alt b n
      · rw [if_pos hu]
        rfl
      · rw [if_neg hu, rates, if_neg hu]
        exact ih.2.1
    · exact physical_next alt _ _ _

theorem out_eq (alt : Rat → Rat) (c : Coeffs) (b : Recording) (hb : b.Increasing) (n : Nat) :
    vsOut alt c b n = ((vsState alt c b n).physical.feed (b.time n) (lowpass c (rates alt b (n + 1)))).1 := by
  obtain ⟨h1, h2, h3, h4, h5⟩ := inner_step alt c b hb n _ (vs_inv alt c b hb n)
  have hl := (vs_inv alt c b hb n).2.1
  unfold vsOut VsFilter.feed
  simp only [h2, h3, h4]
  by_cases hu : Used alt b n
  · simp only [if_pos hu]
    rfl
  · simp only [if_neg hu]
    rw [rates, if_neg hu, ← hl]
    rfl

/-- C78: the first speed is zero -/
theorem C78_first (alt : Rat → Rat) (c : Coeffs) (b : Recording) : vsOut alt c b 0 = 0 := by
  unfold vsOut vsState VsFilter.new VsFilter.feed VsFilter.feedInner
  simp only
  by_cases h : (exactF alt).d.lt (b.reading alt 0).timestamp ((exactF alt).d.lit 0)
  · rw [if_pos h]
    rfl
  · rw [if_neg h]
    rfl

/-- C78: every further speed is the low-passed rate of climb, except that it never falls by more than 45 m/s per second. Rates above 3000 m/s are not used, nor is anything for 500 ms
after one -/
theorem C78_speed (alt : Rat → Rat) (c : Coeffs) (b : Recording) (hb : b.Increasing) (n : Nat) :
    vsOut alt c b (n + 1) = max (lowpass c (rates alt b (n + 2))) (vsOut alt c b n - 45 * ((b.time (n + 1) - b.time n) / 1000)) := by
  rw [out_eq alt c b hb, (vs_inv alt c b hb (n + 1)).2.2.2]
  exact physical_feed alt _ _ _ _ (hb n)

/-- C78: between any two readings the speed falls by at most 45 m/s per second, whatever the barometer reads -/
theorem C78_limited (alt : Rat → Rat) (c : Coeffs) (b : Recording) (hb : b.Increasing) (m n : Nat) (h : m ≤ n) :
    vsOut alt c b m - 45 * ((b.time n - b.time m) / 1000) ≤ vsOut alt c b n := by
  induction n, h using Nat.le_induction with
  | base => linarith [sub_self (b.time m)]
  | succ n _ ih =>
    rw [C78_speed alt c b hb]
    refine le_trans ?_ (le_max_right _ _)
    linarith

theorem status_agree (alt : Rat → Rat) (b b' : Recording) (ht : b.time = b'.time) (n : Nat) (h : ∀ i < n, b.pressure i = b'.pressure i) : status alt b n = status alt b' n := by
  induction n with
  | zero => rfl
  | succ n ih =>
    have hr : rate alt b n = rate alt b' n := by
      unfold rate
      rw [ht, h n (by omega), h (n - 1) (by omega)]
    rw [status, status, ih fun i hi => h i (by omega), hr, ht]

/-- C78: after a rate above 3000 m/s, the readings of the next 500 ms have no influence: recordings that differ only there give the same speeds -/
theorem C78_hold (alt : Rat → Rat) (c : Coeffs) (b b' : Recording) (hb : b.Increasing) (ht : b.time = b'.time) (n : Nat)
    (hj : status alt b n = .comparing ∧ Fast (rate alt b n))
    (ha : ∀ i, i ≤ n ∨ b.time n + 500 ≤ b.time i → b.pressure i = b'.pressure i) (k : Nat) : vsOut alt c b k = vsOut alt c b' k := by
  have hb' : b'.Increasing := by
    intro i
    rw [← ht]
    exact hb i
  have hmono : ∀ i j, i < j → b.time i < b.time j := by
    intro i j hij
    induction j, hij using Nat.le_induction with
    | base => exact hb i
    | succ j _ ih => exact lt_trans ih (hb j)
  have hlow : ∀ i ≤ n, rate alt b i = rate alt b' i := by
    intro i hi
    unfold rate
    rw [ht, ha i (.inl hi), ha (i - 1) (.inl (by omega))]
  have hst : ∀ i ≤ n, status alt b i = status alt b' i := fun i hi => status_agree alt b b' ht i fun j hj => ha j (.inl (by omega))
  -- the status after the jump
  have hwait : ∀ i, n < i → (∀ j, n < j → j < i → b.time j < b.time n + 500) → status alt b i = .waiting (b.time n + 500) ∧ status alt b' i = .waiting (b.time n + 500) := by
    intro i hi
    induction i, hi using Nat.le_induction with
    | base =>
      intro _
      rw [status, status, ← hst n (le_refl n), hj.1, ← hlow n (le_refl n), ← ht]
      simp only [if_pos hj.2, and_self]
    | succ i hi ih =>
      intro hall
      obtain ⟨e1, e2⟩ := ih fun j h1 h2 => hall j h1 (by omega)
      rw [status, status, e1, e2, ← ht]
      simp only [if_pos (hall i hi (by omega)), and_self]
  have hall : ∀ i, status alt b i = status alt b' i ∧ (status alt b i = .comparing → rate alt b i = rate alt b' i) := by
    intro i
    induction i with
    | zero => exact ⟨rfl, fun h => by cases h⟩
    | succ i ih =>
      have e : status alt b (i + 1) = status alt b' (i + 1) := by
        rw [status, status, ← ih.1, ht]
        cases hs : status alt b i with
        | waiting t => rfl
        | comparing => simp only [ih.2 hs]
      refine ⟨e, fun hc => ?_⟩
      by_cases hi : i + 1 ≤ n
      · exact hlow _ hi
      · -- both readings are after the hold
        have hge : b.time n + 500 ≤ b.time i := by
          by_contra hlt
          have := (hwait (i + 1) (by omega) fun j h1 h2 => by
            rcases Nat.lt_or_ge j i with h | h
            · exact lt_trans (hmono j i h) (not_le.1 hlt)
            · rw [show j = i by omega]
              exact not_le.1 hlt).1
          rw [hc] at this
          cases this
        unfold rate
        rw [ht, Nat.add_sub_cancel, ha i (.inr hge), ha (i + 1) (.inr (le_trans hge (le_of_lt (hb i))))]
  have hrates : ∀ i, rates alt b i = rates alt b' i := by
    intro i
    induction i with
    | zero => rfl
    | succ i ih =>
      have hu : Used alt b i ↔ Used alt b' i := by
        unfold Used
        rw [← (hall i).1]
        constructor
        · rintro ⟨h1, h2⟩
          exact ⟨h1, by rwa [← (hall i).2 h1]⟩
        · rintro ⟨h1, h2⟩
          exact ⟨h1, by rwa [(hall i).2 h1]⟩
      rw [rates, rates, ih]
      by_cases h : Used alt b i
      · rw [if_pos h, if_pos (hu.1 h), (hall i).2 h.1]
      · rw [if_neg h, if_neg fun h' => h (hu.2 h')]
  induction k with
  | zero => rw [C78_first, C78_first]
  | succ k ih => rw [C78_speed alt c b hb, C78_speed alt c b' hb', hrates, ih, ht]

/-- a flight with exact arithmetic -/
def exactFlight (alt : Rat → Rat) (c : Coeffs) (b : Recording) (p : Profile (exactF alt)) : Flight (exactF alt) := ⟨p, c.biquad alt, b.reading alt⟩

theorem speed_eq (alt : Rat → Rat) (c : Coeffs) (b : Recording) (n : Nat) : speed (c.biquad alt) (b.reading alt) n = vsOut alt c b n := by
  have : ∀ n, filterAt (c.biquad alt) (b.reading alt) n = vsState alt c b n := by
    intro n
    induction n with
    | zero => rfl
    | succ n ih => rw [filterAt, vsState, ih]
  unfold speed vsOut
  rw [this]

/-- C78: no barometer readings whatever make the backup flight computer announce the drogue within `(v + 20) / 45` seconds (plus its delay) after it published a speed of `v`, for readings
that came before the announcement of the fall: the announcement at reading `i` needs a reading `a` at which the speed was below -20, at least that much later than each reading `m` before -/
theorem C78_no_early_drogue (alt : Rat → Rat) (c : Coeffs) (b : Recording) (hb : b.Increasing) (p : Profile (exactF alt)) (n : Nat) {s : Backup (exactF alt)} {evs : List (Nat × Event Rat)}
    (h : (Backup.new (c.biquad alt) p).after (b.reading alt) n = some (s, evs)) {i : Nat} (hi : (i, FcState.drogueChuteDeployed) ∈ announced evs) :
    ∃ a, a < i ∧ b.time a + rat p.drogueDelay < b.time i ∧ ∀ m v, m ≤ a → (m, Event.changeAirSpeed v) ∈ evs → (v + 20) / 45 * 1000 < b.time a - b.time m := by
  obtain ⟨a, h1, h2, h3⟩ := C42_drogue (exactFlight alt c b p) n h hi
  refine ⟨a, h1, by simpa [exactFlight, ratOps, Recording.reading] using h3, fun m v hm hv => ?_⟩
  obtain ⟨_, rfl⟩ := (C42_published (exactFlight alt c b p) n h m v).1 hv
  have hl := C78_limited alt c b hb m a hm
  have h2' : vsOut alt c b a < -20 := by
    rw [← speed_eq]
    simpa [exactFlight, ratOps] using h2
  have he : speed (exactFlight alt c b p).q (exactFlight alt c b p).r m = vsOut alt c b m := speed_eq alt c b m
  rw [he]
  linarith

/-! ### C79: the barometer reading filter of the primary flight computer -/

/-- the filter after `n` readings; `none` = panic -/
def bfState (alt : Rat → Rat) (b : Recording) : Nat → Option (BaroFilter (exactF alt))
  | 0 => some .new
  | n + 1 => (bfState alt b n).bind fun f => (f.feed (b.reading alt n)).map Prod.snd

/-- the output for reading `n`: is it to be ignored, and the reading given out -/
def bfOut (alt : Rat → Rat) (b : Recording) (n : Nat) : Option (Bool × Reading (exactF alt)) := (bfState alt b n).bind fun f => (f.feed (b.reading alt n)).map Prod.fst

/-- Spec: the pressure rises by more than 3000 Pa/s at reading `j` -/
def Surge (b : Recording) (j : Nat) : Prop := 0 < j ∧ 3000 < (b.pressure j - b.pressure (j - 1)) / ((b.time j - b.time (j - 1)) / 1000)

instance (b : Recording) (j : Nat) : Decidable (Surge b j) := inferInstanceAs (Decidable (_ ∧ _))

/-- Spec: the last surge among the first `n` readings -/
def lastSurge (b : Recording) : Nat → Option Nat
  | 0 => none
  | n + 1 => if Surge b n then some n else lastSurge b n

/-- what the filter remembers after `n` readings -/
def BfInv (alt : Rat → Rat) (b : Recording) (n : Nat) (f : BaroFilter (exactF alt)) : Prop :=
  (match n with | 0 => f.history = [] | n + 1 => f.history.head? = some (b.reading alt n)) ∧
  (match lastSurge b n with | none => rat f.ignoreEnd = 0 ∧ f.hold = none | some j => rat f.ignoreEnd = b.time j + 500 ∧ f.hold = some (b.reading alt j))

theorem bf_step (alt : Rat → Rat) (b : Recording) (h0 : ∀ i, 0 ≤ b.time i) (n : Nat) (f : BaroFilter (exactF alt)) (h : BfInv alt b n f) :
    ∃ f', f.feed (b.reading alt n) = some ((match lastSurge b (n + 1) with
      | none => (false, b.reading alt n)
      | some j => if b.time n < b.time j + 500 then (true, b.reading alt j) else (false, b.reading alt n)), f') ∧ BfInv alt b (n + 1) f' := by
  obtain ⟨h1, h2⟩ := h
  cases n with
  | zero =>
    have hs : ¬ Surge b 0 := fun h => absurd h.1 (by omega)
    simp only [lastSurge, if_neg hs] at h2 ⊢
    unfold BaroFilter.feed
    rw [h1]
    refine ⟨_, rfl, rfl, ?_⟩
    simp only [lastSurge, if_neg hs]
    exact h2
  | succ n =>
    simp only at h1
    cases hh : f.history with
    | nil => rw [hh] at h1; cases h1
    | cons x l =>
      rw [hh] at h1
      injection h1 with h1
      subst h1
      unfold BaroFilter.feed
      rw [hh]
      simp only
      have hc : ratOps.lt (ratOps.lit 3000) (ratOps.div (ratOps.sub (b.reading alt (n + 1)).pressure (b.reading alt n).pressure)
          (id (ratOps.div (ratOps.sub (b.reading alt (n + 1)).timestamp (b.reading alt n).timestamp) (ratOps.lit 1000)))) = true ↔ Surge b (n + 1) := by
        show decide (_ < _) = true ↔ _
        rw [decide_eq_true_eq]
        exact ⟨fun h => ⟨by omega, h⟩, fun h => h.2⟩
      by_cases hs : Surge b (n + 1)
      · rw [if_pos (hc.2 hs)]
        have hls : lastSurge b (n + 1 + 1) = some (n + 1) := by rw [lastSurge, if_pos hs]
        have hlt : ratOps.lt (b.reading alt (n + 1)).timestamp (ratOps.add (b.reading alt (n + 1)).timestamp (ratOps.lit 500)) = true := by
          show decide (b.time (n + 1) < b.time (n + 1) + 500) = true
          rw [decide_eq_true_eq]
          linarith
        simp only
        rw [if_pos hlt, hls]
        simp only
        rw [if_pos (by linarith)]
        refine ⟨_, rfl, rfl, ?_⟩
        rw [hls]
        exact ⟨rfl, rfl⟩
      · rw [if_neg fun h => hs (hc.1 h)]
        have hls : lastSurge b (n + 1 + 1) = lastSurge b (n + 1) := by rw [lastSurge, if_neg hs]
        rw [hls]
        cases hl : lastSurge b (n + 1) with
        | none =>
          rw [hl] at h2
          have hlt : ¬ (ratOps.lt (b.reading alt (n + 1)).timestamp f.ignoreEnd = true) := by
            show ¬ (decide (b.time (n + 1) < rat f.ignoreEnd) = true)
            rw [decide_eq_true_eq, h2.1]
            exact not_lt.2 (h0 _)
          simp only
          rw [if_neg hlt]
          refine ⟨_, rfl, rfl, ?_⟩
          rw [hls, hl]
          exact h2
        | some j =>
          rw [hl] at h2
          have hlt : (ratOps.lt (b.reading alt (n + 1)).timestamp f.ignoreEnd = true) ↔ b.time (n + 1) < b.time j + 500 := by
            show (decide (b.time (n + 1) < rat f.ignoreEnd) = true) ↔ _
            rw [decide_eq_true_eq, h2.1]
          simp only
          by_cases ht : b.time (n + 1) < b.time j + 500
          · rw [if_pos (hlt.2 ht), if_pos ht, h2.2]
            refine ⟨_, rfl, rfl, ?_⟩
            rw [hls, hl]
            exact ⟨h2.1, rfl⟩
          · rw [if_neg fun h => ht (hlt.1 h), if_neg ht]
            refine ⟨_, rfl, rfl, ?_⟩
            rw [hls, hl]
            exact h2

theorem bf_inv (alt : Rat → Rat) (b : Recording) (h0 : ∀ i, 0 ≤ b.time i) (n : Nat) : ∃ f, bfState alt b n = some f ∧ BfInv alt b n f := by
  induction n with
  | zero => exact ⟨_, rfl, rfl, rfl, rfl⟩
  | succ n ih =>
    obtain ⟨f, h1, h2⟩ := ih
    obtain ⟨f', h3, h4⟩ := bf_step alt b h0 n f h2
    exact ⟨f', by rw [bfState, h1, Option.bind_some, h3]; rfl, h4⟩

/-- C79: with times from zero on the filter does not panic. Within 500 ms after a surge (and at the surge itself) it says the reading is to be ignored, and gives the reading of the latest
surge; at all other times it gives the reading unchanged -/
theorem C79_output (alt : Rat → Rat) (b : Recording) (h0 : ∀ i, 0 ≤ b.time i) (n : Nat) :
    bfOut alt b n = some (match lastSurge b (n + 1) with
      | none => (false, b.reading alt n)
      | some j => if b.time n < b.time j + 500 then (true, b.reading alt j) else (false, b.reading alt n)) := by
  obtain ⟨f, h1, h2⟩ := bf_inv alt b h0 n
  obtain ⟨f', h3, _⟩ := bf_step alt b h0 n f h2
  rw [bfOut, h1, Option.bind_some, h3]
  rfl

/-- the specification's last surge is the last surge -/
theorem lastSurge_eq (b : Recording) (n j : Nat) : lastSurge b n = some j ↔ j < n ∧ Surge b j ∧ ∀ k, j < k → k < n → ¬ Surge b k := by
  induction n with
  | zero => simp [lastSurge]
  | succ n ih =>
    rw [lastSurge]
    by_cases h : Surge b n
    · rw [if_pos h, Option.some.injEq]
      constructor
      · rintro rfl
        exact ⟨by omega, h, fun k h1 h2 => by omega⟩
      · rintro ⟨h1, _, h3⟩
        by_cases hj : j = n
        · exact hj.symm
        · exact absurd h (h3 n (by omega) (by omega))
    · rw [if_neg h, ih]
      constructor
      · rintro ⟨h1, h2, h3⟩
        refine ⟨by omega, h2, fun k h4 h5 => ?_⟩
        by_cases hk : k = n
        · exact hk ▸ h
        · exact h3 k h4 (by omega)
      · rintro ⟨h1, h2, h3⟩
        have : j ≠ n := fun e => h (e ▸ h2)
        exact ⟨by omega, h2, fun k h4 h5 => h3 k h4 (by omega)⟩

/-- C79: the reading given out with a surge is the surge itself, marked as to be ignored; it is not the last good one -/
theorem C79_holds_surge (alt : Rat → Rat) (b : Recording) (h0 : ∀ i, 0 ≤ b.time i) (n : Nat) (h : Surge b n) : bfOut alt b n = some (true, b.reading alt n) := by
  rw [C79_output alt b h0, lastSurge, if_pos h]
  simp only
  rw [if_pos (by linarith)]

/-- a recording: a steady climb, then a surge in pressure at reading 10 -/
def demoRecording : Recording := ⟨fun i => 100 * i, fun i => if i < 10 then 1000 - 20 * i else if i = 10 then 5000 else 800⟩

/-- an altitude that falls with the pressure -/
def demoAlt (p : Rat) : Rat := 20000 - p

/-- a filter that changes nothing -/
def demoCoeffs : Coeffs := ⟨0, 0, 1, 0, 0⟩

theorem demo_increasing : demoRecording.Increasing := by
  intro i
  show (100 * (i : Rat)) < 100 * ((i + 1 : Nat) : Rat)
  push_cast
  linarith

/-- the hypotheses are met: reading 10 is a jump -/
example : status demoAlt demoRecording 10 = .comparing ∧ Fast (rate demoAlt demoRecording 10) := by decide +kernel

example : (List.range 20).map (vsOut demoAlt demoCoeffs demoRecording) = [0, 200, 200, 200, 200, 200, 200, 200, 200, 200, 200, 200, 200, 200, 200, 200, 391/2, 191, 373/2, 182] := by
  decide +kernel

example : Surge demoRecording 10 := by decide +kernel

example : ∀ i, 0 ≤ demoRecording.time i := by
  intro i
  show (0 : Rat) ≤ 100 * (i : Rat)
  positivity

end Verif.Props
