import Verif.Lemmas.CalibrationRest
/-
The interactive calibrator under readings with a constant angular rate.
-/
namespace Verif.Cal

/-- how many readings a table entry takes -/
def Kind.cost : Kind → Nat
  | .idle _ => 1
  | .still _ => 50
  | .mean _ _ _ => 301
  | .vari _ _ _ => 301
  | .turn _ _ => 50
  | .last => 50

/-- how many readings a state takes -/
def cost (q : State) : Nat := match plan q with | some k => k.cost | none => 0

/-- how many readings are needed from the begin of a state -/
def total (q : State) : Nat := cost q + ((after q).map cost).sum

/-- how many readings of the current state count -/
def progress (c : Calib) (h : Seen) : Nat :=
  match plan c.state with
  | some (.still _) => c.avg.samples.length
  | some (.turn _ _) => c.avg.samples.length
  | some .last => c.avg.samples.length
  | some (.mean _ _ _) => (during c.state h.trace).length
  | some (.vari _ _ _) => (during c.state h.trace).length
  | _ => 0

/-- a run whose readings so far had the angular rate `w`, the last one at time `t` -/
structure Steady (w : Vec) (t : ℝ) (c : Calib) (h : Seen) : Prop where
  last : ∀ l, c.last = some l → l.gyro = w ∧ l.timestamp ≤ t
  some : c.state ≠ .idle → c.last ≠ none
  sum : c.avg.sum = 0
  zero : c.avg.zero = 0
  thr : 0 < c.thresholdSq
  low : c.avg.samples.length < 50
  few : Sampling c.state → (during c.state h.trace).length < 301
  time : Sampling c.state → ∀ f, (during c.state h.trace).head? = Option.some f → 100 * (((during c.state h.trace).length : ℝ) - 1) ≤ t - f.timestamp

theorem exec_threshold (c : Calib) (i : Inner) (r : Reading) (k : Kind) : (c.exec i r k).1.thresholdSq = c.thresholdSq := by
  cases k with
  | idle n => rfl
  | still n =>
    simp only [Calib.exec, Calib.stillThen]
    split <;> exact (waitStill_state c r).2.2.2
  | mean a s n =>
    simp only [Calib.exec, Calib.mean, Calib.sample]
    split <;> rfl
  | vari a s n =>
    simp only [Calib.exec, Calib.vari, Calib.sample]
    split <;> rfl
  | turn a n =>
    simp only [Calib.exec, Calib.turn, Calib.stillThen]
    split <;> exact (waitStill_state _ r).2.2.2
  | last =>
    simp only [Calib.exec, Calib.lastTurn]
    split <;> exact (waitStill_state _ r).2.2.2

/-- waiting for stillness under a constant rate -/
theorem waitStill_steady {w : Vec} {t : ℝ} {c : Calib} (r : Reading) (hn : c.avg.n = 50) (hlast : ∀ l, c.last = some l → l.gyro = w ∧ l.timestamp ≤ t) (hsome : c.last ≠ none)
    (hsum : c.avg.sum = 0) (hz : c.avg.zero = 0) (hthr : 0 < c.thresholdSq) (hlow : c.avg.samples.length < 50) (hr : r.gyro = w) (ht : t + 100 < r.timestamp) :
    (c.waitStill r).1.last = some r ∧ (c.waitStill r).1.avg.sum = 0 ∧ (c.waitStill r).1.avg.zero = 0 ∧
    ((c.waitStill r).2 = true ↔ c.avg.samples.length = 49) ∧
    ((c.waitStill r).2 = false → (c.waitStill r).1.avg.samples.length = c.avg.samples.length + 1) ∧
    ((c.waitStill r).2 = true → (c.waitStill r).1.avg.samples.length = 0) := by
  unfold Calib.waitStill
  cases hl : c.last with
  | none => exact absurd hl hsome
  | some l =>
    obtain ⟨hg, hlt⟩ := hlast l hl
    simp only
    rw [if_pos (by linarith)]
    have hx : (fun i => (r.gyro i - l.gyro i) / ((r.timestamp - l.timestamp) / 1000)) = (0 : Vec) := by
      funext i
      rw [hr, hg]
      simp
    rw [hx]
    have hadd : c.avg.add vecOps (0 : Vec) = { c.avg with sum := 0, samples := 0 :: c.avg.samples } := by
      unfold Fc.SumSma.add
      rw [if_neg (by rw [hn]; decide)]
      simp only
      rw [if_neg (by rw [hn]; omega), hsum]
      simp [vecOps]
    rw [hadd]
    have havg : normSq (Fc.SumSma.average vecOps { c.avg with sum := (0 : Vec), samples := 0 :: c.avg.samples }) = 0 := by
      unfold Fc.SumSma.average normSq
      simp [vecOps]
    have hfull : Fc.SumSma.isFull { c.avg with sum := (0 : Vec), samples := 0 :: c.avg.samples } = true ↔ c.avg.samples.length = 49 := by
      unfold Fc.SumSma.isFull
      simp [hn]
    split
    · rename_i h
      have h49 := hfull.1 h.1
      refine ⟨rfl, ?_, ?_, ⟨fun _ => h49, fun _ => rfl⟩, fun h => (by cases h), fun _ => rfl⟩
      · exact hz
      · exact hz
    · rename_i h
      have h49 : c.avg.samples.length ≠ 49 := fun e => h ⟨hfull.2 e, by rw [havg]; exact hthr⟩
      exact ⟨rfl, rfl, hz, ⟨fun h => (by cases h), fun e => absurd e h49⟩, fun _ => rfl, fun h => (by cases h)⟩

theorem cost_eq {q : State} {k : Kind} (h : plan q = some k) : cost q = k.cost := by
  unfold cost
  rw [h]

/-- one reading of a steady stream -/
theorem steady_step {g ea : ℝ} {w : Vec} {t : ℝ} {c : Calib} {h : Seen} (hc : CalInv g ea c h) (hs : Steady w t c h) (r : Reading) (hr : r.gyro = w) (ht : t + 100 < r.timestamp)
    (hlive : ¬ (c.state = .success ∨ c.state = .failure)) :
    ∃ c' a, c.process r = some (c', a) ∧ Steady w r.timestamp c' ⟨h.trace ++ [(c.state, r)], h.announced ++ a.toList⟩ ∧
      total c.state + progress c' ⟨h.trace ++ [(c.state, r)], h.announced ++ a.toList⟩ = total c'.state + progress c h + 1 := by
  rcases hc.live with ⟨i, k, hi, hk, ho, hsum⟩ | ⟨j, _, _, hst, _⟩
  swap
  · exfalso
    apply hlive
    rw [hst]
    cases j.calculate.isSome
    · exact .inr rfl
    · exact .inl rfl
  obtain ⟨c', a, hp⟩ := process_of (r := r) hi hk
  refine ⟨c', a, hp, ?_⟩
  obtain ⟨i', k', hi', hk', ha, hc'⟩ := process_cases hp
  rw [hi] at hi'
  injection hi' with hi'
  subst hi'
  rw [hk] at hk'
  injection hk' with hk'
  subst hk'
  have hfut := (live_step hc.live hc.future hp).2
  -- what the entry does to the moving average and the last reading
  have hthr : 0 < c'.thresholdSq := by rw [hc']; exact (exec_threshold c i r k).symm ▸ hs.thr
  -- facts on the next state
  have hnew : ∀ n, a = some n → c'.state = n ∧ (∀ x : Nat, x + 1 = k.cost → total c.state = total n + (x + 1)) ∧ (n ∈ order → during n (h.trace ++ [(c.state, r)]) = []) := by
    rintro n rfl
    refine ⟨by rw [hc']; rfl, fun x hx => ?_, fun hn => (during_next hk ha.symm hc.future hn).1⟩
    have hpn := plan_next hk
    rcases exec_next ha.symm with hn | ⟨hn, hn'⟩
    · rw [hn] at hpn
      unfold total
      rw [hpn.1, cost_eq hk, ← hx, List.map_cons, List.sum_cons]
      omega
    · rw [hn] at hpn
      simp only [Kind.next?] at hpn
      unfold total
      rw [hpn, cost_eq hk, ← hx, hn', after_final]
      cases (i.processRotation .z r).calculate.isSome <;> simp [cost, plan]
  have hprog0 : ∀ n, a = some n → c'.avg.samples.length = 0 → progress c' ⟨h.trace ++ [(c.state, r)], h.announced ++ a.toList⟩ = 0 := by
    intro n hn hl
    obtain ⟨h1, _, h3⟩ := hnew n hn
    unfold progress
    cases hq : plan c'.state with
    | none => rfl
    | some k2 =>
      have hne : c'.state ≠ .idle := by
        rw [h1]
        rcases exec_next (hn ▸ ha.symm : (c.exec i r k).2 = some n) with hnn | ⟨_, hnn⟩
        · have hpn := plan_next hk
          rw [hnn] at hpn
          intro e
          rw [e] at hpn
          exact absurd hpn.2.1 (by decide)
        · rw [hnn]
          cases (i.processRotation .z r).calculate.isSome <;> exact fun e => by cases e
      have ho2 := (order_plan hq).resolve_left hne
      rw [h1] at ho2
      cases k2 <;> simp only [hl] <;> rw [h1, h3 ho2] <;> rfl
  have hmove : ∀ n, a = some n → progress c h + 1 = k.cost → c'.avg.sum = 0 → c'.avg.zero = 0 → c'.avg.samples.length = 0 → (∀ l, c'.last = some l → l.gyro = w ∧ l.timestamp ≤ r.timestamp) → c'.last ≠ none →
      Steady w r.timestamp c' ⟨h.trace ++ [(c.state, r)], h.announced ++ a.toList⟩ ∧
      total c.state + progress c' ⟨h.trace ++ [(c.state, r)], h.announced ++ a.toList⟩ = total c'.state + progress c h + 1 := by
    intro n hn hpg h1 h2 h3 h4 h5
    obtain ⟨g1, g2, g3⟩ := hnew n hn
    refine ⟨⟨h4, fun _ => h5, h1, h2, hthr, by omega, fun hq => ?_, fun hq f hf => ?_⟩, ?_⟩
    · rw [g1] at hq ⊢
      rw [g3 (sampling_order hq)]
      decide
    · rw [g1] at hq hf
      rw [g3 (sampling_order hq)] at hf
      cases hf
    · rw [hprog0 n hn h3, g2 _ hpg, g1]
      omega
  -- resting states
  have hrestm : ∀ (cc : Calib), cc.avg = c.avg → cc.last = c.last → cc.thresholdSq = c.thresholdSq → c.state ≠ .idle → progress c h = c.avg.samples.length → k.cost = 50 → ¬ Sampling c.state →
      (∀ c2 : Calib, progress { c2 with state := c.state } ⟨h.trace ++ [(c.state, r)], h.announced⟩ = c2.avg.samples.length) →
      (a.isSome = (cc.waitStill r).2) → c'.avg = (cc.waitStill r).1.avg → c'.last = (cc.waitStill r).1.last →
      Steady w r.timestamp c' ⟨h.trace ++ [(c.state, r)], h.announced ++ a.toList⟩ ∧
      total c.state + progress c' ⟨h.trace ++ [(c.state, r)], h.announced ++ a.toList⟩ = total c'.state + progress c h + 1 := by
    intro cc e1 e2 e3 hni hpg hcost hns hpg' hb havg hlast
    obtain ⟨w1, w2, w3, w4, w5, w6⟩ := waitStill_steady (w := w) (t := t) (c := cc) r (by rw [e1]; exact hc.rested.paced.1) (by rw [e2]; exact hs.last) (by rw [e2]; exact hs.some hni)
      (by rw [e1]; exact hs.sum) (by rw [e1]; exact hs.zero) (by rw [e3]; exact hs.thr) (by rw [e1]; exact hs.low) hr ht
    have hl1 : ∀ l, c'.last = some l → l.gyro = w ∧ l.timestamp ≤ r.timestamp := by
      intro l hl
      rw [hlast, w1] at hl
      cases hl
      exact ⟨hr, le_refl _⟩
    have hl2 : c'.last ≠ none := by rw [hlast, w1]; exact fun e => by cases e
    cases a with
    | none =>
      have hf : (cc.waitStill r).2 = false := hb.symm
      have hst : c'.state = c.state := by rw [hc']; rfl
      have hlen := w5 hf
      have h49 : cc.avg.samples.length ≠ 49 := fun e => by
        have := w4.2 e
        rw [hf] at this
        cases this
      rw [e1] at hlen h49
      refine ⟨⟨hl1, fun _ => hl2, by rw [havg]; exact w2, by rw [havg]; exact w3, hthr, ?_, fun hq => ?_, fun hq => ?_⟩, ?_⟩
      · rw [havg, hlen]
        have := hs.low
        omega
      · rw [hst] at hq; exact absurd hq hns
      · rw [hst] at hq; exact absurd hq hns
      · have hce : c' = { c' with state := c.state } := by rw [← hst]
        have hpn : progress c' ⟨h.trace ++ [(c.state, r)], h.announced ++ (none : Option State).toList⟩ = c'.avg.samples.length := by
          have := hpg' c'
          rw [← hce] at this
          rw [← this]
          simp
        rw [hst, hpn, hpg, havg, hlen]
        omega
    | some n =>
      have hf : (cc.waitStill r).2 = true := hb.symm
      have h49 := w4.1 hf
      rw [e1] at h49
      exact hmove n rfl (by rw [hpg, hcost, h49]) (by rw [havg]; exact w2) (by rw [havg]; exact w3) (by rw [havg]; exact w6 hf) hl1 hl2
  -- sampling states
  have hsampm : Sampling c.state → progress c h = (during c.state h.trace).length → k.cost = 301 → c'.avg = c.avg → c'.last = c.last →
      (a = none → progress c' ⟨h.trace ++ [(c.state, r)], h.announced⟩ = (during c.state (h.trace ++ [(c.state, r)])).length) →
      Steady w r.timestamp c' ⟨h.trace ++ [(c.state, r)], h.announced ++ a.toList⟩ ∧
      total c.state + progress c' ⟨h.trace ++ [(c.state, r)], h.announced ++ a.toList⟩ = total c'.state + progress c h + 1 := by
    intro hq hpg hcost havg hlast hpg'
    have hni : c.state ≠ .idle := fun e => by
      rw [e] at hq
      obtain ⟨a, s, h | h⟩ := hq <;> cases h
    have hl1 : ∀ l, c'.last = some l → l.gyro = w ∧ l.timestamp ≤ r.timestamp := by
      intro l hl
      rw [hlast] at hl
      obtain ⟨h1, h2⟩ := hs.last l hl
      exact ⟨h1, by linarith⟩
    have hl2 : c'.last ≠ none := by rw [hlast]; exact hs.some hni
    have hemp : c.avg.samples = [] := hc.rested.empty (fun h => h.2 hq)
    have htime : ∀ f, (during c.state h.trace ++ [r]).head? = some f → 100 * ((((during c.state h.trace).length + 1 : Nat) : ℝ) - 1) ≤ r.timestamp - f.timestamp := by
      intro f hf
      have h1 := hs.time hq
      cases hd : during c.state h.trace with
      | nil =>
        rw [hd] at hf
        cases hf
        simp
      | cons x l =>
        rw [hd] at hf h1
        cases hf
        have := h1 _ rfl
        push_cast at this ⊢
        linarith
    obtain ⟨hnone, hsome⟩ := exec_sampling (r := r) hk hsum hq (hc.sampled.start hq)
    cases a with
    | none =>
      have hne := (hnone ha.symm).1
      have hst : c'.state = c.state := by rw [hc']; rfl
      refine ⟨⟨hl1, fun _ => hl2, by rw [havg]; exact hs.sum, by rw [havg]; exact hs.zero, hthr, by rw [havg]; exact hs.low, fun _ => ?_, fun _ f hf => ?_⟩, ?_⟩
      · rw [hst, during_same, List.length_append, List.length_singleton]
        by_contra hcon
        have h300 : (during c.state h.trace).length = 300 := by have := hs.few hq; omega
        apply hne
        rw [enough_snoc]
        refine ⟨by omega, ?_⟩
        obtain ⟨f, hf⟩ : ∃ f, (during c.state h.trace).head? = some f := by
          cases hd : during c.state h.trace with
          | nil => rw [hd] at h300; cases h300
          | cons x l => exact ⟨x, rfl⟩
        rw [hf]
        simp only [Option.map_some, Option.getD_some]
        have := hs.time hq f hf
        rw [h300] at this
        norm_num at this
        linarith
      · rw [hst, during_same] at hf
        rw [hst, during_same, List.length_append, List.length_singleton]
        exact htime f hf
      · have := hpg' rfl
        simp only [Option.toList_none, List.append_nil]
        rw [this, hst, during_same, hpg, List.length_append, List.length_singleton]
        omega
    | some n =>
      have hen := (hsome n ha.symm).1
      rw [enough_snoc] at hen
      have := hs.few hq
      exact hmove n rfl (by rw [hpg, hcost]; omega) (by rw [havg]; exact hs.sum) (by rw [havg]; exact hs.zero) (by rw [havg, hemp]; rfl) hl1 hl2
  cases k with
  | idle n =>
    have hidle := plan_idle hk
    have hemp : c.avg.samples = [] := hc.rested.empty (fun h => by rw [hidle] at h; exact absurd h.1 (by decide))
    have hc2 : c' = { c with last := some r, state := n } := by rw [hc', ha]; rfl
    refine hmove n ha ?_ (by rw [hc2]; exact hs.sum) (by rw [hc2]; exact hs.zero) (by rw [hc2]; simp [hemp]) (fun l hl => ?_) (by rw [hc2]; exact fun e => by cases e)
    · unfold progress; rw [hk]; rfl
    · rw [hc2] at hl
      cases hl
      exact ⟨hr, le_refl _⟩
  | still n =>
    refine hrestm c rfl rfl rfl (fun e => by rw [e] at hk; cases hk) (by unfold progress; rw [hk]) rfl (fun hq => ?_) (fun c2 => by unfold progress; simp only [hk]) ?_ ?_ ?_
    · obtain ⟨_, _, _, h | h⟩ := (sampling_kind hk).1 hq <;> cases h
    · rw [ha]
      simp only [Calib.exec, Calib.stillThen]
      split <;> simp_all
    · rw [hc']
      simp only [Calib.exec, Calib.stillThen]
      split <;> rfl
    · rw [hc']
      simp only [Calib.exec, Calib.stillThen]
      split <;> rfl
  | turn x n =>
    refine hrestm { c with inner := .inl (i.processRotation x r) } rfl rfl rfl (fun e => by rw [e] at hk; cases hk) (by unfold progress; rw [hk]) rfl (fun hq => ?_) (fun c2 => by unfold progress; simp only [hk]) ?_ ?_ ?_
    · obtain ⟨_, _, _, h | h⟩ := (sampling_kind hk).1 hq <;> cases h
    · rw [ha]
      simp only [Calib.exec, Calib.turn, Calib.stillThen]
      split <;> simp_all
    · rw [hc']
      simp only [Calib.exec, Calib.turn, Calib.stillThen]
      split <;> rfl
    · rw [hc']
      simp only [Calib.exec, Calib.turn, Calib.stillThen]
      split <;> rfl
  | last =>
    refine hrestm { c with inner := .inl (i.processRotation .z r) } rfl rfl rfl (fun e => by rw [e] at hk; cases hk) (by unfold progress; rw [hk]) rfl (fun hq => ?_) (fun c2 => by unfold progress; simp only [hk]) ?_ ?_ ?_
    · obtain ⟨_, _, _, h | h⟩ := (sampling_kind hk).1 hq <;> cases h
    · rw [ha]
      simp only [Calib.exec, Calib.lastTurn]
      split <;> simp_all
    · rw [hc']
      simp only [Calib.exec, Calib.lastTurn]
      split <;> rfl
    · rw [hc']
      simp only [Calib.exec, Calib.lastTurn]
      split <;> rfl
  | mean x s n =>
    refine hsampm ((sampling_kind hk).2 ⟨x, s, n, .inl rfl⟩) (by unfold progress; rw [hk]) rfl ?_ ?_ (fun hn => ?_)
    · rw [hc']
      simp only [Calib.exec, Calib.mean, Calib.sample]
      split <;> rfl
    · rw [hc']
      simp only [Calib.exec, Calib.mean, Calib.sample]
      split <;> rfl
    · have hst : c'.state = c.state := by rw [hc', hn]; rfl
      unfold progress
      rw [hst, hk]
  | vari x s n =>
    refine hsampm ((sampling_kind hk).2 ⟨x, s, n, .inr rfl⟩) (by unfold progress; rw [hk]) rfl ?_ ?_ (fun hn => ?_)
    · rw [hc']
      simp only [Calib.exec, Calib.vari, Calib.sample]
      split <;> rfl
    · rw [hc']
      simp only [Calib.exec, Calib.vari, Calib.sample]
      split <;> rfl
    · have hst : c'.state = c.state := by rw [hc', hn]; rfl
      unfold progress
      rw [hst, hk]

end Verif.Cal
