import Verif.Lemmas.CalibrationSteady
/-
C65: the sequence of the interactive calibrator.
-/
namespace Verif.Props

open Verif Cal

/-- C65: the announced states are the documented order, or a beginning of it, followed by the result; the state is the one announced last -/
theorem C65_order {threshold gravity expectedAngle : Option ℝ} (rs : List Reading) {c : Calib} {h : Seen} (hr : feeds threshold gravity expectedAngle rs = some (c, h)) :
    (h.announced <+: order ∨ h.announced = order ++ [.success] ∨ h.announced = order ++ [.failure]) ∧ c.state = ((State.idle :: h.announced).getLast?).getD .idle := by
  have hi := cal_inv rs hr
  refine ⟨?_, hi.state⟩
  rcases hi.live with ⟨i, k, _, _, ho, _⟩ | ⟨i, _, ha, hs, _⟩
  · exact .inl ⟨_, ho.symm⟩
  · right
    rw [ha, hs]
    cases i.calculate.isSome
    · exact .inr rfl
    · exact .inl rfl

theorem left_past {g ea : ℝ} {c : Calib} {h : Seen} (hi : CalInv g ea c h) {q : State} (ho : q ∈ order) (hq : q ∈ h.announced) (hn : c.state ≠ q) : q ∉ c.state :: after c.state := by
  intro hm
  rcases List.mem_cons.1 hm with e | hm
  · exact hn e.symm
  · rcases hi.live with ⟨i, k, _, _, ho', _⟩ | ⟨i, _, _, hs, _⟩
    · have hnd : order.Nodup := by decide
      rw [ho', List.nodup_append] at hnd
      exact hnd.2.2 q hq q hm rfl
    · rw [hs, after_final] at hm
      cases hm

/-- C65: a sampling state is left with the first reading at which more than 300 readings were taken over more than 3 s, and not before -/
theorem C65_sampling {threshold gravity expectedAngle : Option ℝ} (rs : List Reading) {c : Calib} {h : Seen} (hr : feeds threshold gravity expectedAngle rs = some (c, h)) {q : State} (hq : Sampling q) :
    (q ∈ h.announced → c.state ≠ q → Enough (during q h.trace)) ∧ (∀ p, p <+: during q h.trace → p ≠ during q h.trace → ¬ Enough p) ∧ (c.state = q → ¬ Enough (during q h.trace)) := by
  have hi := cal_inv rs hr
  have ho := sampling_order hq
  have hleft := fun h1 h2 => hi.sampled.done q hq (left_past hi ho h1 h2)
  refine ⟨fun h1 h2 => (hleft h1 h2).1, fun p hp hne => ?_, fun e => ?_⟩
  · by_cases hs : c.state = q
    · rw [← hs] at hq hp
      exact hi.sampled.notYet hq p hp
    · by_cases hm : q ∈ h.announced
      · exact (hleft hm hs).2 p hp hne
      · have : q ∈ after c.state := by
          rcases hi.live with ⟨i, k, _, _, ho', _⟩ | ⟨i, _, ha, _, _⟩
          · rw [ho', List.mem_append] at ho
            exact ho.resolve_left hm
          · rw [ha] at hm
            exact absurd (List.mem_append_left _ ho) hm
        rw [hi.future q this] at hp hne
        exact absurd (List.prefix_nil.1 hp) hne
  · subst e
    exact hi.sampled.notYet hq _ (List.prefix_rfl)

/-- C65: a state that waits for stillness is left only after readings more than 4.9 s apart -/
theorem C65_still {threshold gravity expectedAngle : Option ℝ} (rs : List Reading) {c : Calib} {h : Seen} (hr : feeds threshold gravity expectedAngle rs = some (c, h)) {q : State} (ho : q ∈ order) (hq : ¬ Sampling q)
    (h1 : q ∈ h.announced) (h2 : c.state ≠ q) : ∃ r0 ∈ during q h.trace, ∃ l ∈ during q h.trace, 4900 < l.timestamp - r0.timestamp :=
  (cal_inv rs hr).rested.done q ⟨ho, hq⟩ (left_past (cal_inv rs hr) ho h1 h2)

/-- C65: the result is calculated from the readings of each position, more than 300 each, and is there exactly for `Success` -/
theorem C65_result {threshold gravity expectedAngle : Option ℝ} (rs : List Reading) {c : Calib} {h : Seen} (hr : feeds threshold gravity expectedAngle rs = some (c, h)) :
    (c.state = .success ∨ c.state = .failure → ∃ i, Summary (gravity.getD 9.81) (expectedAngle.getD (-360)) i h.trace ∧ c.info = i.calculate ∧ ∀ a s, 300 < (i.stat a s).count ∧ 300 < (i.stat a s).varCount) ∧
    (c.info.isSome ↔ c.state = .success) := by
  have hi := cal_inv rs hr
  rcases hi.live with ⟨i, k, hin, hk, _, _⟩ | ⟨i, hin, ha, hs, hsum⟩
  · refine ⟨fun h => ?_, ?_⟩
    · rcases h with h | h <;> rw [h] at hk <;> cases hk
    · unfold Calib.info
      rw [hin]
      refine ⟨fun h => (by cases h), fun h => ?_⟩
      rw [h] at hk
      cases hk
  · refine ⟨fun _ => ⟨i, hsum, by unfold Calib.info; rw [hin], fun a s => ?_⟩, ?_⟩
    · have hne : ∀ q, q ∈ order → c.state ≠ q := by
        intro q hq e
        rw [hs] at e
        cases hb : i.calculate.isSome <;> rw [hb] at e <;> rw [← e] at hq <;> exact absurd hq (by decide)
      have key : ∀ q, Sampling q → 300 < (during q h.trace).length := by
        intro q hq
        have ho := sampling_order hq
        obtain ⟨_, _, _, _, h3, _⟩ := (C65_sampling rs hr hq).1 (by rw [ha]; exact List.mem_append_left _ ho) (hne q ho)
        exact h3
      rw [hsum.stat]
      exact ⟨key _ ⟨a, s, .inl rfl⟩, key _ ⟨a, s, .inr rfl⟩⟩
    · unfold Calib.info
      rw [hin, hs]
      cases hb : i.calculate.isSome <;> simp

/-- C65 (finding): a reading given after the result makes the program panic; before it never does -/
theorem C65_panic {threshold gravity expectedAngle : Option ℝ} (rs : List Reading) {c : Calib} {h : Seen} (hr : feeds threshold gravity expectedAngle rs = some (c, h)) (r : Reading) :
    c.process r = none ↔ c.state = .success ∨ c.state = .failure := by
  rcases (cal_inv rs hr).live with ⟨i, k, hin, hk, _, _⟩ | ⟨i, hin, ha, hs, hsum⟩
  · constructor
    · intro hn
      obtain ⟨c', a, hp⟩ := process_of (r := r) hin hk
      rw [hp] at hn
      cases hn
    · rintro (h | h) <;> rw [h] at hk <;> cases hk
  · constructor
    · intro _
      rw [hs]
      cases i.calculate.isSome
      · exact .inr rfl
      · exact .inl rfl
    · intro _
      unfold Calib.process
      rw [hin]

/-- a stream of readings with the angular rate `w`, more than 100 ms apart -/
def SteadyStream (w : Vec) (rs : List Reading) : Prop := (∀ r ∈ rs, r.gyro = w) ∧ rs.IsChain (fun a b => a.timestamp + 100 < b.timestamp)

theorem feeds_snoc (threshold gravity expectedAngle : Option ℝ) (rs : List Reading) (r : Reading) : feeds threshold gravity expectedAngle (rs ++ [r]) = feed (feeds threshold gravity expectedAngle rs) r := by
  unfold feeds
  rw [List.foldl_append]
  rfl

theorem steady_run {threshold gravity expectedAngle : Option ℝ} (hthr : threshold.getD 0.17 ≠ 0) {w : Vec} : ∀ rs : List Reading, SteadyStream w rs → rs.length ≤ 4213 →
    ∃ c h t, feeds threshold gravity expectedAngle rs = some (c, h) ∧ Steady w t c h ∧ (∀ l, rs.getLast? = some l → t = l.timestamp) ∧ 4213 + progress c h = total c.state + rs.length := by
  have key : ∀ rs : List Reading, SteadyStream w rs.reverse → rs.length ≤ 4213 →
      ∃ c h t, feeds threshold gravity expectedAngle rs.reverse = some (c, h) ∧ Steady w t c h ∧ (∀ l, rs.reverse.getLast? = some l → t = l.timestamp) ∧ 4213 + progress c h = total c.state + rs.length := by
    intro rs
    induction rs with
    | nil =>
      intro _ _
      refine ⟨_, _, 0, rfl, ⟨fun l hl => (by cases hl), fun h => absurd rfl h, rfl, rfl, ?_, by simp [Calib.new, Fc.SumSma.new], fun hq => ?_, fun hq => ?_⟩, fun l hl => (by cases hl), rfl⟩
      · exact mul_self_pos.2 hthr
      · obtain ⟨a, s, h | h⟩ := hq <;> cases h
      · obtain ⟨a, s, h | h⟩ := hq <;> cases h
    | cons r rs ih =>
      intro hst hlen
      rw [List.reverse_cons] at hst ⊢
      rw [List.length_cons] at hlen ⊢
      have hst' : SteadyStream w rs.reverse := ⟨fun x hx => hst.1 x (List.mem_append_left _ hx), hst.2.left_of_append⟩
      obtain ⟨c, h, t, hf, hs, ht, hp⟩ := ih hst' (by omega)
      have hnf : ¬ (c.state = .success ∨ c.state = .failure) := by
        intro hb
        have htot : total c.state = 0 := by rcases hb with hb | hb <;> rw [hb] <;> rfl
        rw [htot] at hp
        omega
      -- the time of the last reading so far
      have hts : ∃ t', Steady w t' c h ∧ t' + 100 < r.timestamp := by
        cases hrev : rs.reverse.getLast? with
        | none =>
          have hnil : rs.reverse = [] := List.getLast?_eq_none_iff.1 hrev
          rw [hnil] at hf
          cases hf
          exact ⟨r.timestamp - 101, ⟨fun l hl => (by cases hl), hs.some, hs.sum, hs.zero, hs.thr, hs.low, hs.few, fun hq => by obtain ⟨a, s, h | h⟩ := hq <;> cases h⟩, by linarith⟩
        | some l =>
          refine ⟨t, hs, ?_⟩
          rw [ht l hrev]
          exact (List.isChain_append.1 hst.2).2.2 l (by rw [hrev]; rfl) r (by simp)
      obtain ⟨t', hs', ht'⟩ := hts
      obtain ⟨c', a, hp', hst'', htot⟩ := steady_step (cal_inv _ hf) hs' r (hst.1 r (by simp)) ht' hnf
      refine ⟨c', ⟨h.trace ++ [(c.state, r)], h.announced ++ a.toList⟩, r.timestamp, ?_, hst'', ?_, by omega⟩
      · rw [feeds_snoc, hf]
        simp only [feed, Option.bind_some, hp', Option.map_some]
      · intro l hl
        rw [List.getLast?_concat] at hl
        cases hl
        rfl
  intro rs hst hlen
  have := key rs.reverse
  rw [List.reverse_reverse, List.length_reverse] at this
  exact this hst hlen

/-- C65: with a constant angular rate and readings more than 100 ms apart, the calibration ends with a result after 4213 readings and not before -/
theorem C65_steady {threshold gravity expectedAngle : Option ℝ} (hthr : threshold.getD 0.17 ≠ 0) {w : Vec} (rs : List Reading) (hs : SteadyStream w rs) (hlen : rs.length ≤ 4213) :
    ∃ c h, feeds threshold gravity expectedAngle rs = some (c, h) ∧ ((c.state = .success ∨ c.state = .failure) ↔ rs.length = 4213) := by
  obtain ⟨c, h, t, hf, hst, _, hp⟩ := steady_run (gravity := gravity) (expectedAngle := expectedAngle) hthr rs hs hlen
  refine ⟨c, h, hf, ?_⟩
  rcases (cal_inv rs hf).live with ⟨i, k, hin, hk, ho, _⟩ | ⟨i, hin, ha, hst', hsum⟩
  · have hlt : progress c h < total c.state := by
      unfold total
      rw [cost_eq hk]
      have h50 := hst.low
      unfold progress
      rw [hk]
      cases k with
      | idle n => simp [Kind.cost]
      | still n => simp only [Kind.cost]; omega
      | turn a n => simp only [Kind.cost]; omega
      | last => simp only [Kind.cost]; omega
      | mean a s n => have := hst.few ((sampling_kind hk).2 ⟨a, s, n, .inl rfl⟩); simp only [Kind.cost]; omega
      | vari a s n => have := hst.few ((sampling_kind hk).2 ⟨a, s, n, .inr rfl⟩); simp only [Kind.cost]; omega
    constructor
    · rintro (h | h) <;> rw [h] at hk <;> cases hk
    · intro h; omega
  · constructor
    · intro hb
      have htot : total c.state = 0 := by rcases hb with hb | hb <;> rw [hb] <;> rfl
      rw [htot] at hp
      omega
    · intro _
      rw [hst']
      cases i.calculate.isSome
      · exact .inr rfl
      · exact .inl rfl

/-- the demonstration stream: a device that turns at 100 °/s about its x axis all the time, read every 200 ms -/
noncomputable def spinning (n : Nat) : List Reading := (List.range n).map fun k : Nat => (⟨200 * (k : ℝ), 0, fun a => if a = .x then 100 else 0⟩ : Reading)

theorem spinning_steady (n : Nat) : SteadyStream (fun a => if a = .x then 100 else 0) (spinning n) := by
  constructor
  · intro r hr
    obtain ⟨k, _, rfl⟩ := List.mem_map.1 hr
    rfl
  · unfold spinning
    rw [List.isChain_map]
    cases n with
    | zero => exact .nil
    | succ n =>
      rw [List.isChain_iff_getElem]
      intro i hi
      simp only [List.getElem_range]
      push_cast
      linarith

theorem spinning_length (n : Nat) : (spinning n).length = n := by
  unfold spinning
  rw [List.length_map, List.length_range]

/-- C65 (finding): "still" means a constant angular rate, not rest: a device that spins at 100 °/s all the time passes every wait for stillness and is calibrated to the end -/
theorem C65_spinning_is_still : ∃ c h, feeds none none none (spinning 4213) = some (c, h) ∧ (c.state = .success ∨ c.state = .failure) ∧ ∀ q ∈ order, q ∈ h.announced := by
  obtain ⟨c, h, hf, hb⟩ := C65_steady (threshold := none) (gravity := none) (expectedAngle := none) (by norm_num) (spinning 4213) (spinning_steady _) (spinning_length _).le
  have hfin := hb.2 (spinning_length _)
  refine ⟨c, h, hf, hfin, fun q hq => ?_⟩
  rcases (cal_inv _ hf).live with ⟨i, k, hin, hk, ho, _⟩ | ⟨i, hin, ha, hst', hsum⟩
  · rcases hfin with h | h <;> rw [h] at hk <;> cases hk
  · rw [ha]
    exact List.mem_append_left _ hq

/-- the hypotheses of the C65 theorems are met by a run that goes through all the states -/
example : ∃ rs c h, feeds none none none rs = some (c, h) ∧ ∀ q, Sampling q → q ∈ h.announced ∧ c.state ≠ q := by
  obtain ⟨c, h, hf, hfin, hall⟩ := C65_spinning_is_still
  refine ⟨_, c, h, hf, fun q hq => ⟨hall q (sampling_order hq), fun e => ?_⟩⟩
  have ho := sampling_order hq
  rw [← e] at ho
  rcases hfin with h | h <;> rw [h] at ho <;> exact absurd ho (by decide)

end Verif.Props
