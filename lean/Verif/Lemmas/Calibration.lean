import Verif.Spec.Calibration
/-
Invariants of the interactive calibrator.
-/
namespace Verif.Cal

/-- the states that follow a state -/
def after (q : State) : List State := (((State.idle :: order).dropWhile (fun p => p ≠ q))).tail

/-- what a state does -/
inductive Kind
  | idle (n : State)
  | still (n : State)
  | mean (a : Axis) (s : Sign) (n : State)
  | vari (a : Axis) (s : Sign) (n : State)
  | turn (a : Axis) (n : State)
  | last

/-- the table of `process` -/
def plan : State → Option Kind
  | .idle => some (.idle .waitingStill)
  | .waitingStill => some (.still (.at .x .plus .start))
  | .at .x .plus .start => some (.mean .x .plus (.at .x .plus .variance))
  | .at .x .plus .variance => some (.vari .x .plus (.at .x .plus .finish))
  | .at .x .plus .finish => some (.still (.at .x .minus .start))
  | .at .x .minus .start => some (.mean .x .minus (.at .x .minus .variance))
  | .at .x .minus .variance => some (.vari .x .minus (.at .x .minus .finish))
  | .at .x .minus .finish => some (.still (.at .y .plus .start))
  | .at .y .plus .start => some (.mean .y .plus (.at .y .plus .variance))
  | .at .y .plus .variance => some (.vari .y .plus (.at .y .plus .finish))
  | .at .y .plus .finish => some (.still (.at .y .minus .start))
  | .at .y .minus .start => some (.mean .y .minus (.at .y .minus .variance))
  | .at .y .minus .variance => some (.vari .y .minus (.at .y .minus .finish))
  | .at .y .minus .finish => some (.still (.at .z .plus .start))
  | .at .z .plus .start => some (.mean .z .plus (.at .z .plus .variance))
  | .at .z .plus .variance => some (.vari .z .plus (.at .z .plus .finish))
  | .at .z .plus .finish => some (.still (.at .z .minus .start))
  | .at .z .minus .start => some (.mean .z .minus (.at .z .minus .variance))
  | .at .z .minus .variance => some (.vari .z .minus (.at .z .minus .finish))
  | .at .z .minus .finish => some (.still (.at .x .rotation .start))
  | .at .x .rotation .start => some (.turn .x (.at .x .rotation .finish))
  | .at .x .rotation .finish => some (.still (.at .y .rotation .start))
  | .at .y .rotation .start => some (.turn .y (.at .y .rotation .finish))
  | .at .y .rotation .finish => some (.still (.at .z .rotation .start))
  | .at .z .rotation .start => some .last
  | _ => none

/-- one entry of the table -/
noncomputable def Calib.exec (c : Calib) (i : Inner) (r : Reading) : Kind → Calib × Option State
  | .idle n => ({ c with last := some r }, some n)
  | .still n => c.stillThen r n
  | .mean a s n => c.mean i a s r n
  | .vari a s n => c.vari i a s r n
  | .turn a n => c.turn i a r n
  | .last => c.lastTurn i .z r

theorem arm_eq (c : Calib) (i : Inner) (r : Reading) : c.arm i r = (plan c.state).map (c.exec i r) := by
  obtain ⟨q, inner, last, t, avg, ps⟩ := c
  cases q with
  | idle => rfl
  | waitingStill => rfl
  | success => rfl
  | failure => rfl
  | «at» a d e => cases a <;> cases d <;> cases e <;> rfl

/-- the state a table entry leads to -/
def Kind.next? : Kind → Option State
  | .idle n => some n
  | .still n => some n
  | .mean _ _ n => some n
  | .vari _ _ n => some n
  | .turn _ n => some n
  | .last => none

/-- the states are exhausted by cases -/
theorem plan_next {q : State} {k : Kind} (h : plan q = some k) : match k.next? with
    | some n => after q = n :: after n ∧ n ∈ order ∧ q ∉ after q
    | none => after q = [] := by
  cases q with
  | idle => cases h; exact ⟨rfl, by decide, by decide⟩
  | waitingStill => cases h; exact ⟨rfl, by decide, by decide⟩
  | success => cases h
  | failure => cases h
  | «at» a d e => cases a <;> cases d <;> cases e <;> cases h <;> first | rfl | exact ⟨rfl, by decide, by decide⟩

theorem plan_idle {q : State} {n : State} (h : plan q = some (.idle n)) : q = .idle := by
  cases q with
  | idle => rfl
  | «at» a d e => cases a <;> cases d <;> cases e <;> cases h
  | _ => cases h

theorem plan_mean {q : State} {a : Axis} {s : Sign} {n : State} (h : plan q = some (.mean a s n)) : q = .at a s.dir .start ∧ n = .at a s.dir .variance := by
  cases q with
  | «at» a d e => cases a <;> cases d <;> cases e <;> cases h <;> exact ⟨rfl, rfl⟩
  | _ => cases h

theorem plan_vari {q : State} {a : Axis} {s : Sign} {n : State} (h : plan q = some (.vari a s n)) : q = .at a s.dir .variance ∧ n = .at a s.dir .finish := by
  cases q with
  | «at» a d e => cases a <;> cases d <;> cases e <;> cases h <;> exact ⟨rfl, rfl⟩
  | _ => cases h

theorem plan_turn {q : State} {a : Axis} {n : State} (h : plan q = some (.turn a n)) : q = .at a .rotation .start := by
  cases q with
  | «at» a d e => cases a <;> cases d <;> cases e <;> cases h <;> rfl
  | _ => cases h

theorem plan_last {q : State} (h : plan q = some .last) : q = .at .z .rotation .start := by
  cases q with
  | «at» a d e => cases a <;> cases d <;> cases e <;> cases h <;> rfl
  | _ => cases h

theorem plan_still {q : State} {n : State} (h : plan q = some (.still n)) : q = .waitingStill ∨ ∃ a d, q = .at a d .finish := by
  cases q with
  | waitingStill => exact .inl rfl
  | «at» a d e => cases a <;> cases d <;> cases e <;> cases h <;> exact .inr ⟨_, _, rfl⟩
  | _ => cases h

theorem sampling_kind {q : State} {k : Kind} (h : plan q = some k) : Sampling q ↔ (∃ a s n, k = .mean a s n ∨ k = .vari a s n) := by
  constructor
  · rintro ⟨a, s, rfl | rfl⟩
    · cases a <;> cases s <;> cases h <;> exact ⟨_, _, _, .inl rfl⟩
    · cases a <;> cases s <;> cases h <;> exact ⟨_, _, _, .inr rfl⟩
  · rintro ⟨a, s, n, rfl | rfl⟩
    · exact ⟨a, s, .inl (plan_mean h).1⟩
    · exact ⟨a, s, .inr (plan_vari h).1⟩

theorem plan_order {q : State} (h : q ∈ order) : ∃ k, plan q = some k := by
  have : order.all (fun q => (plan q).isSome) = true := by decide
  exact Option.isSome_iff_exists.1 (List.all_eq_true.1 this q h)

theorem order_plan {q : State} {k : Kind} (h : plan q = some k) : q = .idle ∨ q ∈ order := by
  cases q with
  | idle => exact .inl rfl
  | waitingStill => exact .inr (by decide)
  | success => cases h
  | failure => cases h
  | «at» a d e => cases a <;> cases d <;> cases e <;> cases h <;> exact .inr (by decide)

theorem during_snoc (s q : State) (r : Reading) (tr : List (State × Reading)) : during s (tr ++ [(q, r)]) = during s tr ++ if q = s then [r] else [] := by
  unfold during
  rw [List.filter_append, List.map_append]
  by_cases h : q = s
  · rw [if_pos h, List.filter_cons_of_pos (by simpa using h)]
    rfl
  · rw [if_neg h, List.filter_cons_of_neg (by simpa using h)]
    rfl

theorem during_same (q : State) (r : Reading) (tr : List (State × Reading)) : during q (tr ++ [(q, r)]) = during q tr ++ [r] := by rw [during_snoc, if_pos rfl]

theorem during_other {s q : State} (r : Reading) (tr : List (State × Reading)) (h : q ≠ s) : during s (tr ++ [(q, r)]) = during s tr := by rw [during_snoc, if_neg h, List.append_nil]

theorem Summary.init (gravity expectedAngle : Option ℝ) : Summary (gravity.getD 9.81) (expectedAngle.getD (-360)) (.new gravity expectedAngle) [] :=
  ⟨rfl, rfl, fun _ _ => rfl, fun _ => rfl⟩

/-- a reading in a state without accumulators -/
theorem Summary.skip {g ea : ℝ} {i : Inner} {tr : List (State × Reading)} (h : Summary g ea i tr) (q : State) (r : Reading) (hs : ¬ Sampling q) (hr : ∀ a, q ≠ .at a .rotation .start) :
    Summary g ea i (tr ++ [(q, r)]) := by
  refine ⟨h.gravity, h.angle, fun a s => ?_, fun a => ?_⟩
  · rw [during_other r tr (fun e => hs ⟨a, s, .inl e⟩), during_other r tr (fun e => hs ⟨a, s, .inr e⟩)]
    exact h.stat a s
  · rw [during_other r tr (hr a)]
    exact h.rot a

theorem dir_inj {s s' : Sign} (h : s.dir = s'.dir) : s = s' := by cases s <;> cases s' <;> first | rfl | cases h

theorem at_ne_event {a a' : Axis} {d d' : Dir} {e e' : Event} (h : e ≠ e') : State.at a d e ≠ State.at a' d' e' := fun he => h (by injection he)

theorem at_ne_rot {a a' : Axis} {s : Sign} {e e' : Event} : State.at a s.dir e ≠ State.at a' .rotation e' := fun he => by
  injection he with _ h2
  cases s <;> cases h2

theorem at_ne_pos {a a' : Axis} {s s' : Sign} {e : Event} (h : ¬ (a' = a ∧ s' = s)) : State.at a s.dir e ≠ State.at a' s'.dir e := fun he => by
  injection he with h1 h2
  exact h ⟨h1.symm, (dir_inj h2).symm⟩

theorem Summary.mean {g ea : ℝ} {i : Inner} {tr : List (State × Reading)} (h : Summary g ea i tr) (a : Axis) (s : Sign) (r : Reading)
    (hv : during (.at a s.dir .variance) tr = []) : Summary g ea (i.process a s r) (tr ++ [(.at a s.dir .start, r)]) := by
  refine ⟨h.gravity, h.angle, fun a' s' => ?_, fun a' => ?_⟩
  · rw [during_other r tr (at_ne_event (e' := .variance) (by decide))]
    by_cases he : a' = a ∧ s' = s
    · obtain ⟨rfl, rfl⟩ := he
      rw [during_same, hv]
      simp only [Inner.process, and_self, if_true, h.stat, hv, Static.add, staticOf]
      simp
    · rw [during_other r tr (at_ne_pos he)]
      simp only [Inner.process, if_neg he]
      exact h.stat a' s'
  · rw [during_other r tr at_ne_rot]
    exact h.rot a'

theorem Summary.vari {g ea : ℝ} {i : Inner} {tr : List (State × Reading)} (h : Summary g ea i tr) (a : Axis) (s : Sign) (r : Reading) :
    Summary g ea (i.processVariance a s r) (tr ++ [(.at a s.dir .variance, r)]) := by
  refine ⟨h.gravity, h.angle, fun a' s' => ?_, fun a' => ?_⟩
  · rw [during_other r tr (at_ne_event (e' := .start) (by decide))]
    by_cases he : a' = a ∧ s' = s
    · obtain ⟨rfl, rfl⟩ := he
      rw [during_same]
      simp only [Inner.processVariance, and_self, if_true, h.stat, Static.addVariance, staticOf]
      simp
    · rw [during_other r tr (at_ne_pos he)]
      simp only [Inner.processVariance, if_neg he]
      exact h.stat a' s'
  · rw [during_other r tr at_ne_rot]
    exact h.rot a'

theorem Summary.turn {g ea : ℝ} {i : Inner} {tr : List (State × Reading)} (h : Summary g ea i tr) (a : Axis) (r : Reading) :
    Summary g ea (i.processRotation a r) (tr ++ [(.at a .rotation .start, r)]) := by
  refine ⟨h.gravity, h.angle, fun a' s' => ?_, fun a' => ?_⟩
  · rw [during_other r tr at_ne_rot.symm, during_other r tr at_ne_rot.symm]
    exact h.stat a' s'
  · by_cases he : a' = a
    · subst he
      rw [during_same]
      simp only [Inner.processRotation, if_true, h.rot, Rot.add, rotOf]
      cases during (.at a' .rotation .start) tr with
      | nil => simp
      | cons x l =>
        have : ((x :: l) ++ [r]).getLast? = some r := List.getLast?_concat
        rw [this]
        simp [add_assoc]
    · rw [during_other r tr (fun e => he (by injection e with e1; exact e1.symm))]
      simp only [Inner.processRotation, if_neg he]
      exact h.rot a'

theorem waitStill_state (c : Calib) (r : Reading) : (c.waitStill r).1.state = c.state ∧ (c.waitStill r).1.inner = c.inner ∧ (c.waitStill r).1.phaseStart = c.phaseStart ∧ (c.waitStill r).1.thresholdSq = c.thresholdSq := by
  unfold Calib.waitStill
  cases c.last with
  | none => exact ⟨rfl, rfl, rfl, rfl⟩
  | some l =>
    simp only
    split
    · split <;> exact ⟨rfl, rfl, rfl, rfl⟩
    · exact ⟨rfl, rfl, rfl, rfl⟩

theorem exec_state (c : Calib) (i : Inner) (r : Reading) (k : Kind) : (c.exec i r k).1.state = c.state := by
  cases k with
  | idle n => rfl
  | still n =>
    simp only [Calib.exec, Calib.stillThen]
    split <;> exact (waitStill_state c r).1
  | mean a s n =>
    simp only [Calib.exec, Calib.mean, Calib.sample]
    split <;> rfl
  | vari a s n =>
    simp only [Calib.exec, Calib.vari, Calib.sample]
    split <;> rfl
  | turn a n =>
    simp only [Calib.exec, Calib.turn, Calib.stillThen]
    split <;> exact (waitStill_state _ r).1
  | last =>
    simp only [Calib.exec, Calib.lastTurn]
    split <;> exact (waitStill_state _ r).1

/-- a call of `process` that does not panic is one entry of the table -/
theorem process_cases {c c' : Calib} {r : Reading} {a : Option State} (h : c.process r = some (c', a)) :
    ∃ i k, c.inner = .inl i ∧ plan c.state = some k ∧ a = (c.exec i r k).2 ∧ c' = { (c.exec i r k).1 with state := a.getD c.state } := by
  unfold Calib.process at h
  cases hi : c.inner with
  | inr x => rw [hi] at h; cases h
  | inl i =>
    rw [hi] at h
    simp only [arm_eq] at h
    cases hp : plan c.state with
    | none => rw [hp] at h; cases h
    | some k =>
      rw [hp] at h
      simp only [Option.map_some] at h
      refine ⟨i, k, rfl, rfl, ?_⟩
      have hs := exec_state c i r k
      cases he : (c.exec i r k).2 with
      | none =>
        rw [he] at h
        cases h
        refine ⟨rfl, ?_⟩
        rw [Option.getD_none, ← hs]
      | some n =>
        rw [he] at h
        cases h
        exact ⟨rfl, rfl⟩

theorem process_of {c : Calib} {r : Reading} {i : Inner} {k : Kind} (hi : c.inner = .inl i) (hp : plan c.state = some k) : ∃ c' a, c.process r = some (c', a) := by
  unfold Calib.process
  rw [hi]
  simp only [arm_eq, hp, Option.map_some]
  exact ⟨_, _, rfl⟩

/-- what a table entry announces -/
theorem exec_next {c : Calib} {i : Inner} {r : Reading} {k : Kind} {n : State} (h : (c.exec i r k).2 = some n) :
    k.next? = some n ∨ (k = .last ∧ n = if (i.processRotation .z r).calculate.isSome then .success else .failure) := by
  cases k with
  | idle n => exact .inl h
  | still m =>
    simp only [Calib.exec, Calib.stillThen] at h
    split at h
    · exact .inl h
    · cases h
  | mean a s m =>
    simp only [Calib.exec, Calib.mean, Calib.sample] at h
    split at h
    · exact .inl h
    · cases h
  | vari a s m =>
    simp only [Calib.exec, Calib.vari, Calib.sample] at h
    split at h
    · exact .inl h
    · cases h
  | turn a m =>
    simp only [Calib.exec, Calib.turn, Calib.stillThen] at h
    split at h
    · exact .inl h
    · cases h
  | last =>
    simp only [Calib.exec, Calib.lastTurn] at h
    split at h
    · injection h with h
      exact .inr ⟨rfl, h.symm⟩
    · cases h

/-- the accumulators after a table entry -/
theorem exec_inner {g ea : ℝ} {c : Calib} {i : Inner} {r : Reading} {k : Kind} {tr : List (State × Reading)} (hi : c.inner = .inl i) (hp : plan c.state = some k) (hs : Summary g ea i tr)
    (hf : ∀ s ∈ after c.state, during s tr = []) :
    (k ≠ .last ∨ (c.exec i r k).2 = none → ∃ j, (c.exec i r k).1.inner = .inl j ∧ Summary g ea j (tr ++ [(c.state, r)])) ∧
    (k = .last → ∀ n, (c.exec i r k).2 = some n → ∃ j, (c.exec i r k).1.inner = .inr j.calculate ∧ Summary g ea j (tr ++ [(c.state, r)]) ∧ n = if j.calculate.isSome then .success else .failure) := by
  cases k with
  | idle n =>
    refine ⟨fun _ => ⟨i, hi, ?_⟩, fun h => by cases h⟩
    rw [plan_idle hp]
    exact hs.skip _ r (by rintro ⟨a, s, h | h⟩ <;> cases h) (fun a h => by cases h)
  | still n =>
    refine ⟨fun _ => ⟨i, ?_, ?_⟩, fun h => by cases h⟩
    · simp only [Calib.exec, Calib.stillThen]
      split <;> exact (waitStill_state c r).2.1.trans hi
    · refine hs.skip _ r (fun h => ?_) (fun a h => ?_)
      · obtain ⟨_, _, _, h | h⟩ := (sampling_kind hp).1 h <;> cases h
      · rcases plan_still hp with e | ⟨_, _, e⟩ <;> rw [e] at h <;> cases h
  | mean a s n =>
    have hm : (c.exec i r (.mean a s n)).1.inner = .inl (i.process a s r) := by
      simp only [Calib.exec, Calib.mean, Calib.sample]
      split <;> rfl
    refine ⟨fun _ => ⟨_, hm, ?_⟩, fun h => by cases h⟩
    obtain ⟨h1, h2⟩ := plan_mean hp
    have h3 := plan_next hp
    simp only [Kind.next?] at h3
    rw [h1]
    refine hs.mean a s r (hf _ ?_)
    rw [h3.1, h2]
    exact List.mem_cons_self
  | vari a s n =>
    have hm : (c.exec i r (.vari a s n)).1.inner = .inl (i.processVariance a s r) := by
      simp only [Calib.exec, Calib.vari, Calib.sample]
      split <;> rfl
    refine ⟨fun _ => ⟨_, hm, ?_⟩, fun h => by cases h⟩
    rw [(plan_vari hp).1]
    exact hs.vari a s r
  | turn a n =>
    have hm : (c.exec i r (.turn a n)).1.inner = .inl (i.processRotation a r) := by
      simp only [Calib.exec, Calib.turn, Calib.stillThen]
      split <;> exact (waitStill_state _ r).2.1
    refine ⟨fun _ => ⟨_, hm, ?_⟩, fun h => by cases h⟩
    rw [plan_turn hp]
    exact hs.turn a r
  | last =>
    have ht := hs.turn .z r
    rw [← plan_last hp] at ht
    simp only [Calib.exec, Calib.lastTurn]
    split
    · refine ⟨fun h => ?_, fun _ n hn => ⟨_, rfl, ht, ?_⟩⟩
      · rcases h with h | h
        · exact absurd rfl h
        · cases h
      · injection hn with hn; exact hn.symm
    · refine ⟨fun _ => ⟨_, (waitStill_state _ r).2.1, ht⟩, fun _ n hn => by cases hn⟩

/-- where a run is -/
def Live (g ea : ℝ) (c : Calib) (h : Seen) : Prop :=
  (∃ i k, c.inner = .inl i ∧ plan c.state = some k ∧ order = h.announced ++ after c.state ∧ Summary g ea i h.trace) ∨
  (∃ i : Inner, c.inner = .inr i.calculate ∧ h.announced = order ++ [c.state] ∧ c.state = (if i.calculate.isSome then .success else .failure) ∧ Summary g ea i h.trace)

/-- nothing was recorded for a state that has not been reached -/
def Future (c : Calib) (h : Seen) : Prop := ∀ s ∈ after c.state, during s h.trace = []

theorem not_mem_after {q : State} {k : Kind} (h : plan q = some k) : q ∉ after q := by
  have := plan_next h
  cases hk : k.next? with
  | none => rw [hk] at this; simp only at this; rw [this]; exact List.not_mem_nil
  | some n => rw [hk] at this; exact this.2.2

theorem after_final (b : Bool) : after (if b then .success else .failure) = [] := by cases b <;> rfl

theorem live_step {g ea : ℝ} {c c' : Calib} {h : Seen} {r : Reading} {a : Option State} (hl : Live g ea c h) (hf : Future c h) (hp : c.process r = some (c', a)) :
    Live g ea c' ⟨h.trace ++ [(c.state, r)], h.announced ++ a.toList⟩ ∧ Future c' ⟨h.trace ++ [(c.state, r)], h.announced ++ a.toList⟩ := by
  obtain ⟨i, k, hi, hk, ha, hc⟩ := process_cases hp
  rcases hl with ⟨i', k', hi', hk', ho, hs⟩ | ⟨j, hj, _⟩
  swap
  · rw [hi] at hj; cases hj
  rw [hi] at hi'
  injection hi' with hi'
  subst hi'
  have hin := exec_inner (r := r) hi hk hs hf
  have hnm := not_mem_after hk
  have hstay : ∀ s ∈ after c.state, during s (h.trace ++ [(c.state, r)]) = [] := by
    intro s hs
    rw [during_other (s := s) (q := c.state) r _ (fun e => by rw [← e] at hs; exact hnm hs)]
    exact hf s hs
  cases a with
  | none =>
    have hst : c'.state = c.state := by rw [hc]; rfl
    refine ⟨.inl ?_, ?_⟩
    · obtain ⟨j, hj, hsj⟩ := hin.1 (.inr ha.symm)
      refine ⟨j, k, by rw [hc]; exact hj, by rw [hst]; exact hk, ?_, hsj⟩
      rw [hst]
      simpa using ho
    · unfold Future
      rw [hst]
      exact hstay
  | some n =>
    have hst : c'.state = n := by rw [hc]; rfl
    rcases exec_next ha.symm with hn | ⟨hn, hn'⟩
    · have hpn := plan_next hk
      rw [hn] at hpn
      simp only at hpn
      have hkl : k ≠ .last := fun e => by rw [e] at hn; cases hn
      obtain ⟨j, hj, hsj⟩ := hin.1 (.inl hkl)
      obtain ⟨k'', hk''⟩ := plan_order hpn.2.1
      refine ⟨.inl ⟨j, k'', by rw [hc]; exact hj, by rw [hst]; exact hk'', ?_, hsj⟩, ?_⟩
      · rw [hst, ho, hpn.1]
        simp
      · unfold Future
        rw [hst]
        intro s hs
        exact hstay s (by rw [hpn.1]; exact List.mem_cons_of_mem _ hs)
    · have hpn := plan_next hk
      rw [hn] at hpn
      simp only [Kind.next?] at hpn
      obtain ⟨j, hj, hsj, hjn⟩ := hin.2 hn n ha.symm
      refine ⟨.inr ⟨j, by rw [hc]; exact hj, ?_, by rw [hst]; exact hjn, hsj⟩, ?_⟩
      · rw [hst, ho, hpn]
        simp
      · unfold Future
        rw [hst, hjn, after_final]
        intro s hs
        cases hs

theorem enough_snoc (D : List Reading) (r : Reading) : Enough (D ++ [r]) ↔ 300 < D.length + 1 ∧ 3000 < r.timestamp - (D.head?.map Reading.timestamp).getD r.timestamp := by
  unfold Enough
  rw [List.getLast?_concat, List.length_append, List.length_singleton]
  cases D with
  | nil =>
    simp only [List.nil_append, List.head?_cons, List.head?_nil, Option.map_none, Option.getD_none, List.length_nil]
    constructor
    · rintro ⟨f, z, h1, h2, h3, h4⟩; exact absurd h3 (by omega)
    · rintro ⟨h3, h4⟩; exact absurd h3 (by omega)
  | cons x D =>
    simp only [List.cons_append, List.head?_cons, Option.map_some, Option.getD_some]
    constructor
    · rintro ⟨f, z, h1, h2, h3, h4⟩
      cases h1
      cases h2
      exact ⟨h3, h4⟩
    · rintro ⟨h3, h4⟩
      exact ⟨x, r, rfl, rfl, h3, h4⟩

theorem not_enough_nil : ¬ Enough [] := by
  rintro ⟨f, z, h1, _⟩
  cases h1

/-- the phase start and the readings of a sampling state, after a table entry -/
theorem exec_sampling {g ea : ℝ} {c : Calib} {i : Inner} {r : Reading} {k : Kind} {tr : List (State × Reading)} (hp : plan c.state = some k) (hs : Summary g ea i tr) (hq : Sampling c.state)
    (hst : c.phaseStart = (during c.state tr).head?.map Reading.timestamp) :
    ((c.exec i r k).2 = none → ¬ Enough (during c.state tr ++ [r]) ∧ (c.exec i r k).1.phaseStart = (during c.state tr ++ [r]).head?.map Reading.timestamp) ∧
    (∀ n, (c.exec i r k).2 = some n → Enough (during c.state tr ++ [r]) ∧ (c.exec i r k).1.phaseStart = none) := by
  have hh : some (((during c.state tr).head?.map Reading.timestamp).getD r.timestamp) = (during c.state tr ++ [r]).head?.map Reading.timestamp := by
    cases during c.state tr <;> rfl
  rw [enough_snoc, ← hst]
  rw [← hst] at hh
  obtain ⟨a, s, n, rfl | rfl⟩ := (sampling_kind hp).1 hq
  · have hc : ((i.process a s r).stat a s).count = (during c.state tr).length + 1 := by
      simp only [Inner.process, and_self, if_true, Static.add, hs.stat, staticOf, (plan_mean hp).1]
    simp only [Calib.exec, Calib.mean, Calib.sample, hc]
    split
    · rename_i h
      exact ⟨fun h => (by cases h), fun m hm => ⟨h, rfl⟩⟩
    · rename_i h
      exact ⟨fun _ => ⟨h, hh⟩, fun m hm => (by cases hm)⟩
  · have hc : ((i.processVariance a s r).stat a s).varCount = (during c.state tr).length + 1 := by
      simp only [Inner.processVariance, and_self, if_true, Static.addVariance, hs.stat, staticOf, (plan_vari hp).1]
    simp only [Calib.exec, Calib.vari, Calib.sample, hc]
    split
    · rename_i h
      exact ⟨fun h => (by cases h), fun m hm => ⟨h, rfl⟩⟩
    · rename_i h
      exact ⟨fun _ => ⟨h, hh⟩, fun m hm => (by cases hm)⟩

theorem exec_phase_other {c : Calib} {i : Inner} {r : Reading} {k : Kind} (hp : plan c.state = some k) (hq : ¬ Sampling c.state) : (c.exec i r k).1.phaseStart = c.phaseStart := by
  cases k with
  | idle n => rfl
  | still n =>
    simp only [Calib.exec, Calib.stillThen]
    split <;> exact (waitStill_state c r).2.2.1
  | mean a s n => exact absurd ((sampling_kind hp).2 ⟨a, s, n, .inl rfl⟩) hq
  | vari a s n => exact absurd ((sampling_kind hp).2 ⟨a, s, n, .inr rfl⟩) hq
  | turn a n =>
    simp only [Calib.exec, Calib.turn, Calib.stillThen]
    split <;> exact (waitStill_state _ r).2.2.1
  | last =>
    simp only [Calib.exec, Calib.lastTurn]
    split <;> exact (waitStill_state _ r).2.2.1

/-- the sampling states of a run -/
structure Sampled (c : Calib) (h : Seen) : Prop where
  start : Sampling c.state → c.phaseStart = (during c.state h.trace).head?.map Reading.timestamp
  noStart : ¬ Sampling c.state → c.phaseStart = none
  notYet : Sampling c.state → ∀ p, p <+: during c.state h.trace → ¬ Enough p
  done : ∀ q, Sampling q → q ∉ c.state :: after c.state → Enough (during q h.trace) ∧ ∀ p, p <+: during q h.trace → p ≠ during q h.trace → ¬ Enough p

theorem prefix_snoc_cases {p D : List Reading} {r : Reading} (h : p <+: D ++ [r]) : p = D ++ [r] ∨ p <+: D := by
  rwa [List.prefix_concat_iff] at h

/-- the states after the next one -/
theorem after_step {c c' : Calib} {i : Inner} {r : Reading} {k : Kind} {n : State} (hk : plan c.state = some k) (ha : (c.exec i r k).2 = some n) (hst : c'.state = n) :
    ∀ x, x ∉ c'.state :: after c'.state → x ∉ after c.state := by
  intro x hx
  rw [hst] at hx
  have hpn := plan_next hk
  rcases exec_next ha with hn | ⟨hn, _⟩
  · rw [hn] at hpn
    rw [hpn.1]
    exact hx
  · rw [hn] at hpn
    simp only [Kind.next?] at hpn
    rw [hpn]
    exact List.not_mem_nil

theorem during_next {c : Calib} {h : Seen} {i : Inner} {r : Reading} {k : Kind} {n : State} (hk : plan c.state = some k) (ha : (c.exec i r k).2 = some n) (hf : Future c h) (hq : n ∈ order) :
    during n (h.trace ++ [(c.state, r)]) = [] ∧ n ≠ c.state := by
  have hpn := plan_next hk
  rcases exec_next ha with hn | ⟨hn, hn'⟩
  · rw [hn] at hpn
    have hm : n ∈ after c.state := by rw [hpn.1]; exact List.mem_cons_self
    have hne : c.state ≠ n := fun e => hpn.2.2 (by rw [e] at hm ⊢; exact hm)
    rw [during_other r _ hne]
    exact ⟨hf n hm, hne.symm⟩
  · rw [hn'] at hq
    cases hb : (i.processRotation .z r).calculate.isSome <;> rw [hb] at hq <;> exact absurd hq (by decide)

theorem sampling_order {q : State} (h : Sampling q) : q ∈ order := by
  obtain ⟨a, s, rfl | rfl⟩ := h <;> cases a <;> cases s <;> decide

theorem sampled_step {g ea : ℝ} {c c' : Calib} {h : Seen} {r : Reading} {a : Option State} (hl : Live g ea c h) (hf : Future c h) (hs : Sampled c h) (hp : c.process r = some (c', a)) :
    Sampled c' ⟨h.trace ++ [(c.state, r)], h.announced ++ a.toList⟩ := by
  obtain ⟨i, k, hi, hk, ha, hc⟩ := process_cases hp
  rcases hl with ⟨i', k', hi', hk', ho, hsum⟩ | ⟨j, hj, _⟩
  swap
  · rw [hi] at hj; cases hj
  rw [hi] at hi'
  injection hi' with hi'
  subst hi'
  have hps : c'.phaseStart = (c.exec i r k).1.phaseStart := by rw [hc]
  have hpast : ∀ q, Sampling q → q ∉ after c.state → q ≠ c.state → Enough (during q (h.trace ++ [(c.state, r)])) ∧ ∀ p, p <+: during q (h.trace ++ [(c.state, r)]) → p ≠ during q (h.trace ++ [(c.state, r)]) → ¬ Enough p := by
    intro q hq hqa hqn
    rw [during_other r _ (Ne.symm hqn)]
    exact hs.done q hq (fun hm => (List.mem_cons.1 hm).elim hqn hqa)
  by_cases hq : Sampling c.state
  · obtain ⟨hnone, hsome⟩ := exec_sampling (r := r) hk hsum hq (hs.start hq)
    cases a with
    | none =>
      have hst : c'.state = c.state := by rw [hc]; rfl
      obtain ⟨h1, h2⟩ := hnone ha.symm
      constructor
      · intro _
        rw [hst, during_same, hps]
        exact h2
      · intro hn
        rw [hst] at hn
        exact absurd hq hn
      · intro _ p hpre
        rw [hst, during_same] at hpre
        rcases prefix_snoc_cases hpre with rfl | hpre
        · exact h1
        · exact hs.notYet hq p hpre
      · intro q hq' hqn
        rw [hst] at hqn
        exact hpast q hq' (fun hm => hqn (List.mem_cons_of_mem _ hm)) (fun e => hqn (by rw [e]; exact List.mem_cons_self))
    | some n =>
      have hst : c'.state = n := by rw [hc]; rfl
      obtain ⟨h1, h2⟩ := hsome n ha.symm
      constructor
      · intro hn
        rw [hst] at hn ⊢
        rw [hps, h2, (during_next hk ha.symm hf (sampling_order hn)).1]
        rfl
      · intro _
        rw [hps, h2]
      · intro hn p hpre
        rw [hst] at hn hpre
        rw [(during_next hk ha.symm hf (sampling_order hn)).1] at hpre
        rw [List.prefix_nil.1 hpre]
        exact not_enough_nil
      · intro q hq' hqn
        have hqa := after_step hk ha.symm hst q hqn
        by_cases hqc : q = c.state
        · rw [hqc, during_same]
          refine ⟨h1, fun p hpre hne => ?_⟩
          rcases prefix_snoc_cases hpre with hpe | hpre
          · exact absurd hpe hne
          · exact hs.notYet hq p hpre
        · exact hpast q hq' hqa hqc
  · have hps' : c'.phaseStart = none := by rw [hps, exec_phase_other hk hq, hs.noStart hq]
    cases a with
    | none =>
      have hst : c'.state = c.state := by rw [hc]; rfl
      constructor
      · intro h; rw [hst] at h; exact absurd h hq
      · intro _; exact hps'
      · intro h; rw [hst] at h; exact absurd h hq
      · intro q hq' hqn
        rw [hst] at hqn
        exact hpast q hq' (fun hm => hqn (List.mem_cons_of_mem _ hm)) (fun e => hqn (by rw [e]; exact List.mem_cons_self))
    | some n =>
      have hst : c'.state = n := by rw [hc]; rfl
      constructor
      · intro hn
        rw [hst] at hn ⊢
        rw [hps', (during_next hk ha.symm hf (sampling_order hn)).1]
        rfl
      · intro _; exact hps'
      · intro hn p hpre
        rw [hst] at hn hpre
        rw [(during_next hk ha.symm hf (sampling_order hn)).1] at hpre
        rw [List.prefix_nil.1 hpre]
        exact not_enough_nil
      · intro q hq' hqn
        have hqa := after_step hk ha.symm hst q hqn
        exact hpast q hq' hqa (fun e => hq (e ▸ hq'))

end Verif.Cal
