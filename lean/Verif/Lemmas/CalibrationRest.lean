import Verif.Lemmas.Calibration
/-
The states of the interactive calibrator that wait for the device to be still.
-/
namespace Verif.Cal

/-- the angular accelerations collected so far were taken from readings more than 100 ms apart -/
def Paced (c : Calib) (D : List Reading) : Prop :=
  c.avg.n = 50 ∧ c.avg.samples.length ≤ 50 ∧
  (c.avg.samples = [] ∨ ∃ r0 ∈ D, ∃ l ∈ D, c.last = some l ∧ 100 * ((c.avg.samples.length : ℝ) - 1) ≤ l.timestamp - r0.timestamp ∧
    (2 ≤ c.avg.samples.length → 100 * ((c.avg.samples.length : ℝ) - 1) < l.timestamp - r0.timestamp))

/-- two readings more than 4.9 s apart -/
def Long (D : List Reading) : Prop := ∃ r0 ∈ D, ∃ l ∈ D, 4900 < l.timestamp - r0.timestamp

theorem add_length {m : Fc.SumSma Vec} (hn : m.n = 50) (hl : m.samples.length ≤ 50) (x : Vec) :
    (m.add vecOps x).n = 50 ∧ (m.add vecOps x).samples.length = min (m.samples.length + 1) 50 := by
  unfold Fc.SumSma.add
  rw [if_neg (by rw [hn]; decide)]
  simp only
  split
  · rename_i h
    rw [hn] at h
    refine ⟨hn, ?_⟩
    simp only [List.length_cons, List.length_dropLast, h]
    rfl
  · rename_i h
    rw [hn] at h
    refine ⟨hn, ?_⟩
    simp only [List.length_cons]
    omega

theorem waitStill_paced {c : Calib} {D : List Reading} (h : Paced c D) (r : Reading) :
    ((c.waitStill r).2 = false → Paced (c.waitStill r).1 (D ++ [r])) ∧
    ((c.waitStill r).2 = true → (c.waitStill r).1.avg.n = 50 ∧ (c.waitStill r).1.avg.samples = [] ∧ Long (D ++ [r])) := by
  obtain ⟨hn, hl, hp⟩ := h
  unfold Calib.waitStill
  cases hlast : c.last with
  | none =>
    refine ⟨fun _ => ⟨hn, hl, .inl ?_⟩, fun h => (by cases h)⟩
    rcases hp with hp | ⟨_, _, l, _, hl, _⟩
    · exact hp
    · rw [hlast] at hl; cases hl
  | some l =>
    simp only
    split
    · rename_i hdt
      obtain ⟨hn', hl'⟩ := add_length hn hl (fun i => (r.gyro i - l.gyro i) / ((r.timestamp - l.timestamp) / 1000))
      generalize hm : c.avg.add vecOps (fun i => (r.gyro i - l.gyro i) / ((r.timestamp - l.timestamp) / 1000)) = m at hn' hl'
      have key : ∃ r0 ∈ D ++ [r], 100 * ((m.samples.length : ℝ) - 1) ≤ r.timestamp - r0.timestamp ∧ (2 ≤ m.samples.length → 100 * ((m.samples.length : ℝ) - 1) < r.timestamp - r0.timestamp) := by
        rcases hp with hp | ⟨r0, hr0, l', hl'm, hll, h1, h2⟩
        · refine ⟨r, by simp, ?_, ?_⟩
          · rw [hl', hp]; simp
          · rw [hl', hp]; simp
        · rw [hlast] at hll
          injection hll with hll
          subst hll
          have hk : (m.samples.length : ℝ) ≤ (c.avg.samples.length : ℝ) + 1 := by
            rw [hl']
            exact_mod_cast Nat.min_le_left _ _
          have : 100 * ((m.samples.length : ℝ) - 1) < r.timestamp - r0.timestamp := by linarith
          exact ⟨r0, by simp [hr0], this.le, fun _ => this⟩
      obtain ⟨r0, hr0, h1, h2⟩ := key
      split
      · rename_i hfull
        refine ⟨fun h => (by cases h), fun _ => ⟨hn', rfl, r0, hr0, r, by simp, ?_⟩⟩
        have h50 : m.samples.length = 50 := by
          have := hfull.1
          unfold Fc.SumSma.isFull at this
          rw [hn'] at this
          simpa using this
        have := h2 (by omega)
        rw [h50] at this
        norm_num at this
        exact this
      · refine ⟨fun _ => ⟨hn', by rw [hl']; exact Nat.min_le_right _ _, .inr ⟨r0, hr0, r, by simp, rfl, h1, h2⟩⟩, fun h => (by cases h)⟩
    · refine ⟨fun _ => ⟨hn, hl, ?_⟩, fun h => (by cases h)⟩
      rcases hp with hp | ⟨r0, hr0, l', hl'm, hll, h1, h2⟩
      · exact .inl hp
      · exact .inr ⟨r0, by simp [hr0], l', by simp [hl'm], hll, h1, h2⟩

/-- the resting states of a run -/
structure Rested (c : Calib) (h : Seen) : Prop where
  paced : Paced c (during c.state h.trace)
  empty : ¬ Resting c.state → c.avg.samples = []
  done : ∀ q, Resting q → q ∉ c.state :: after c.state → Long (during q h.trace)

theorem exec_rest {c : Calib} {i : Inner} {r : Reading} {k : Kind} {D : List Reading} (hk : plan c.state = some k) (h : Paced c D) (he : ¬ Resting c.state → c.avg.samples = []) :
    ((c.exec i r k).2 = none → Paced (c.exec i r k).1 (D ++ [r]) ∧ (¬ Resting c.state → (c.exec i r k).1.avg.samples = [])) ∧
    (∀ n, (c.exec i r k).2 = some n → (c.exec i r k).1.avg.n = 50 ∧ (c.exec i r k).1.avg.samples = [] ∧ (Resting c.state → Long (D ++ [r]))) := by
  have hsamp : Sampling c.state → c.avg.samples = [] := fun hs => he (fun hr => hr.2 hs)
  cases k with
  | idle n =>
    have : ¬ Resting c.state := by
      rw [plan_idle hk]
      intro h
      exact absurd h.1 (by decide)
    exact ⟨fun h => (by cases h), fun m _ => ⟨h.1, he this, fun hr => absurd hr this⟩⟩
  | still n =>
    have hr : Resting c.state := ⟨(order_plan hk).resolve_left (fun e => by rw [e] at hk; cases hk), fun hs => by obtain ⟨_, _, _, h | h⟩ := (sampling_kind hk).1 hs <;> cases h⟩
    obtain ⟨h1, h2⟩ := waitStill_paced h r
    simp only [Calib.exec, Calib.stillThen]
    split
    · rename_i hb
      exact ⟨fun h => (by cases h), fun m _ => ⟨(h2 hb).1, (h2 hb).2.1, fun _ => (h2 hb).2.2⟩⟩
    · rename_i hb
      exact ⟨fun _ => ⟨h1 (by simpa using hb), fun hn => absurd hr hn⟩, fun m hm => (by cases hm)⟩
  | mean a s n =>
    have hs := (sampling_kind hk).2 ⟨a, s, n, .inl rfl⟩
    simp only [Calib.exec, Calib.mean, Calib.sample]
    split
    · exact ⟨fun h => (by cases h), fun m _ => ⟨h.1, hsamp hs, fun hr => absurd hs hr.2⟩⟩
    · exact ⟨fun _ => ⟨⟨h.1, h.2.1, .inl (hsamp hs)⟩, fun _ => hsamp hs⟩, fun m hm => (by cases hm)⟩
  | vari a s n =>
    have hs := (sampling_kind hk).2 ⟨a, s, n, .inr rfl⟩
    simp only [Calib.exec, Calib.vari, Calib.sample]
    split
    · exact ⟨fun h => (by cases h), fun m _ => ⟨h.1, hsamp hs, fun hr => absurd hs hr.2⟩⟩
    · exact ⟨fun _ => ⟨⟨h.1, h.2.1, .inl (hsamp hs)⟩, fun _ => hsamp hs⟩, fun m hm => (by cases hm)⟩
  | turn a n =>
    have hr : Resting c.state := ⟨(order_plan hk).resolve_left (fun e => by rw [e] at hk; cases hk), fun hs => by obtain ⟨_, _, _, h | h⟩ := (sampling_kind hk).1 hs <;> cases h⟩
    obtain ⟨h1, h2⟩ := waitStill_paced (c := { c with inner := .inl (i.processRotation a r) }) h r
    simp only [Calib.exec, Calib.turn, Calib.stillThen]
    split
    · rename_i hb
      exact ⟨fun h => (by cases h), fun m _ => ⟨(h2 hb).1, (h2 hb).2.1, fun _ => (h2 hb).2.2⟩⟩
    · rename_i hb
      exact ⟨fun _ => ⟨h1 (by simpa using hb), fun hn => absurd hr hn⟩, fun m hm => (by cases hm)⟩
  | last =>
    have hr : Resting c.state := ⟨(order_plan hk).resolve_left (fun e => by rw [e] at hk; cases hk), fun hs => by obtain ⟨_, _, _, h | h⟩ := (sampling_kind hk).1 hs <;> cases h⟩
    obtain ⟨h1, h2⟩ := waitStill_paced (c := { c with inner := .inl (i.processRotation .z r) }) h r
    simp only [Calib.exec, Calib.lastTurn]
    split
    · rename_i hb
      exact ⟨fun h => (by cases h), fun m _ => ⟨(h2 hb).1, (h2 hb).2.1, fun _ => (h2 hb).2.2⟩⟩
    · rename_i hb
      exact ⟨fun _ => ⟨h1 (by simpa using hb), fun hn => absurd hr hn⟩, fun m hm => (by cases hm)⟩

theorem rested_step {c c' : Calib} {h : Seen} {r : Reading} {a : Option State} (hs : Rested c h) (hp : c.process r = some (c', a)) :
    Rested c' ⟨h.trace ++ [(c.state, r)], h.announced ++ a.toList⟩ := by
  obtain ⟨i, k, hi, hk, ha, hc⟩ := process_cases hp
  obtain ⟨hnone, hsome⟩ := exec_rest (i := i) (r := r) hk hs.paced hs.empty
  have hpast : ∀ q, Resting q → q ∉ after c.state → q ≠ c.state → Long (during q (h.trace ++ [(c.state, r)])) := by
    intro q hq hqa hqn
    rw [during_other r _ (Ne.symm hqn)]
    exact hs.done q hq (fun hm => (List.mem_cons.1 hm).elim hqn hqa)
  cases a with
  | none =>
    have hst : c'.state = c.state := by rw [hc]; rfl
    obtain ⟨h1, h2⟩ := hnone ha.symm
    constructor
    · rw [hst, during_same, hc]
      exact h1
    · rw [hst, hc]
      exact h2
    · intro q hq hqn
      rw [hst] at hqn
      exact hpast q hq (fun hm => hqn (List.mem_cons_of_mem _ hm)) (fun e => hqn (by rw [e]; exact List.mem_cons_self))
  | some n =>
    have hst : c'.state = n := by rw [hc]; rfl
    obtain ⟨h1, h2, h3⟩ := hsome n ha.symm
    have hemp : c'.avg.samples = [] := by rw [hc]; exact h2
    constructor
    · refine ⟨by rw [hc]; exact h1, by rw [hemp]; simp, .inl hemp⟩
    · intro _; exact hemp
    · intro q hq hqn
      have hqa := after_step hk ha.symm hst q hqn
      by_cases hqc : q = c.state
      · rw [hqc, during_same]
        exact h3 (hqc ▸ hq)
      · exact hpast q hq hqa hqc

/-- everything that is known of a run -/
structure CalInv (g ea : ℝ) (c : Calib) (h : Seen) : Prop where
  live : Live g ea c h
  future : Future c h
  sampled : Sampled c h
  rested : Rested c h
  state : c.state = ((State.idle :: h.announced).getLast?).getD .idle

theorem cal_induct {threshold gravity expectedAngle : Option ℝ} {P : Calib → Seen → Prop} (h0 : P (.new threshold gravity expectedAngle) ⟨[], []⟩)
    (hs : ∀ c h r c' a, P c h → c.process r = some (c', a) → P c' ⟨h.trace ++ [(c.state, r)], h.announced ++ a.toList⟩) (rs : List Reading) {c : Calib} {h : Seen}
    (hr : feeds threshold gravity expectedAngle rs = some (c, h)) : P c h := by
  have key : ∀ (rs : List Reading) (c : Calib) (h : Seen), feeds threshold gravity expectedAngle rs.reverse = some (c, h) → P c h := by
    intro rs
    induction rs with
    | nil =>
      intro c h hr
      unfold feeds at hr
      simp only [List.reverse_nil, List.foldl_nil, Option.some.injEq, Prod.mk.injEq] at hr
      rw [← hr.1, ← hr.2]
      exact h0
    | cons r rs ih =>
      intro c h hr
      unfold feeds at hr
      rw [List.reverse_cons, List.foldl_append] at hr
      change feed (feeds threshold gravity expectedAngle rs.reverse) r = _ at hr
      cases hf : feeds threshold gravity expectedAngle rs.reverse with
      | none => rw [hf] at hr; cases hr
      | some p =>
        obtain ⟨c1, h1⟩ := p
        rw [hf] at hr
        simp only [feed, Option.bind_some] at hr
        cases hp : c1.process r with
        | none => rw [hp] at hr; cases hr
        | some q =>
          obtain ⟨c2, a⟩ := q
          rw [hp] at hr
          simp only [Option.map_some, Option.some.injEq, Prod.mk.injEq] at hr
          rw [← hr.1, ← hr.2]
          exact hs c1 h1 r c2 a (ih c1 h1 hf) hp
  have := key rs.reverse c h
  rw [List.reverse_reverse] at this
  exact this hr

theorem cal_inv {threshold gravity expectedAngle : Option ℝ} (rs : List Reading) {c : Calib} {h : Seen} (hr : feeds threshold gravity expectedAngle rs = some (c, h)) :
    CalInv (gravity.getD 9.81) (expectedAngle.getD (-360)) c h := by
  refine cal_induct (P := CalInv (gravity.getD 9.81) (expectedAngle.getD (-360))) ?_ ?_ rs hr
  · have hns : ¬ Sampling .idle := by rintro ⟨a, s, h | h⟩ <;> cases h
    have hmem : ∀ q, q ∈ order → q ∉ State.idle :: after .idle → False := fun q hq hn => hn (List.mem_cons_of_mem _ (by exact hq))
    refine ⟨.inl ⟨_, _, rfl, rfl, rfl, .init _ _⟩, fun s _ => rfl, ?_, ?_, rfl⟩
    · exact ⟨fun h => absurd h hns, fun _ => rfl, fun h => absurd h hns, fun q hq hn => (hmem q (sampling_order hq) hn).elim⟩
    · exact ⟨⟨rfl, by simp [Calib.new, Fc.SumSma.new], .inl rfl⟩, fun _ => rfl, fun q hq hn => (hmem q hq.1 hn).elim⟩
  · intro c h r c' a hi hp
    have hl := live_step hi.live hi.future hp
    refine ⟨hl.1, hl.2, sampled_step hi.live hi.future hi.sampled hp, rested_step hi.rested hp, ?_⟩
    obtain ⟨i, k, _, _, _, hc⟩ := process_cases hp
    have hst : c'.state = a.getD c.state := by rw [hc]
    rw [hst]
    cases a with
    | none =>
      rw [Option.getD_none, hi.state]
      simp
    | some n =>
      rw [Option.getD_some]
      simp only [Option.toList_some, ← List.cons_append, List.getLast?_concat, Option.getD_some]

end Verif.Cal
