import Verif.Model.MasterSwitch
/-
C135: a module's switch as the flight computer sees it.
-/
namespace Verif.Props
open Verif.MasterSwitch

/-- whether a step loses an event: the queue of five overflows, the answer to a poll is lost, or a poll overwrites an event that its driver has not taken yet -/
def losesEvent (s : Sys) : Step → Prop
  | .change _ | .otherEvent => s.queue.length = 5
  | .poll true => s.queue ≠ [] ∧ s.slot ≠ none
  | .poll false => s.queue ≠ []
  | _ => False

/-- no step of the schedule loses an event -/
def NoEventLost (s : Sys) : List Step → Prop
  | [] => True
  | x :: l => ¬ losesEvent s x ∧ NoEventLost (s.step x) l

/-- the positions on their way to the driver, oldest first -/
def positionsOnTheWay (s : Sys) : List Bool := (s.slot.toList ++ s.queue).filterMap fun | .switch p => some p | .other => none

/-- the newest position on its way is that of the switch; with none on the way and a first request that was answered, the driver has it -/
def SwitchUpToDate (s : Sys) : Prop := match (positionsOnTheWay s).getLast? with
  | some p => p = s.real
  | none => s.started = some true → s.kept = s.real

theorem positionsOnTheWay_change {s : Sys} {p : Bool} (h : s.queue.length ≠ 5) : positionsOnTheWay (s.step (.change p)) = positionsOnTheWay s ++ [p] := by
  simp [positionsOnTheWay, Sys.step, push, h]

theorem step_upToDate {s : Sys} (x : Step) (h : SwitchUpToDate s) (hl : ¬ losesEvent s x) : SwitchUpToDate (s.step x) := by
  cases x with
  | change p =>
    unfold SwitchUpToDate
    rw [positionsOnTheWay_change hl]
    simp [Sys.step]
  | otherEvent =>
    have : positionsOnTheWay (s.step .otherEvent) = positionsOnTheWay s := by
      have h5 : s.queue.length ≠ 5 := hl
      simp [positionsOnTheWay, Sys.step, push, h5]
    unfold SwitchUpToDate at *
    rw [this]
    exact h
  | poll a =>
    cases a with
    | false =>
      have : s.queue = [] := by simpa [losesEvent] using hl
      simpa [Sys.step, this, SwitchUpToDate, positionsOnTheWay] using h
    | true =>
      cases hq : s.queue with
      | nil => simpa [Sys.step, hq] using h
      | cons e q =>
        have hs : s.slot = none := by simpa [losesEvent, hq] using hl
        simpa [Sys.step, hq, SwitchUpToDate, positionsOnTheWay, hs] using h
  | start ok =>
    cases hst : s.started with
    | some b => simpa [Sys.step, hst] using h
    | none =>
      cases ok with
      | true =>
        unfold SwitchUpToDate at *
        have : positionsOnTheWay (s.step (.start true)) = positionsOnTheWay s := by simp [positionsOnTheWay, Sys.step, hst]
        rw [this]
        cases hg : (positionsOnTheWay s).getLast? with
        | some p => rw [hg] at h; simpa [Sys.step, hst] using h
        | none => simp [Sys.step, hst]
      | false =>
        unfold SwitchUpToDate at *
        have : positionsOnTheWay (s.step (.start false)) = positionsOnTheWay s := by simp [positionsOnTheWay, Sys.step, hst]
        rw [this]
        cases hg : (positionsOnTheWay s).getLast? with
        | some p => rw [hg] at h; simpa [Sys.step, hst] using h
        | none => simp [Sys.step, hst]
  | run =>
    cases hst : s.started with
    | none => simpa [Sys.step, hst] using h
    | some b =>
      cases hsl : s.slot with
      | none => simpa [Sys.step, hst, hsl] using h
      | some e =>
        cases e with
        | other => simpa [Sys.step, hst, hsl] using h
        | switch p =>
          have hw : positionsOnTheWay s = p :: positionsOnTheWay (s.step .run) := by simp [positionsOnTheWay, Sys.step, hst, hsl]
          have hr : (s.step .run).real = s.real ∧ (s.step .run).kept = p := by simp [Sys.step, hst, hsl]
          unfold SwitchUpToDate at *
          rw [hw] at h
          rw [hr.1, hr.2]
          cases hg : (positionsOnTheWay (s.step .run)).getLast? with
          | some q => simpa [List.getLast?_cons, hg] using h
          | none =>
            rw [List.getLast?_eq_none_iff] at hg
            rw [hg] at h
            exact fun _ => h
  | runOther =>
    by_cases hsl : s.slot = some .other
    · simpa [Sys.step, hsl, SwitchUpToDate, positionsOnTheWay] using h
    · simpa [Sys.step, hsl] using h
  | wait =>
    cases hsi : s.signal with
    | none => simpa [Sys.step, hsi] using h
    | some p => simpa [Sys.step, hsi, SwitchUpToDate, positionsOnTheWay] using h

/-- the application was told the value kept last, or there is a signal with it -/
def WillBeTold (s : Sys) : Prop := match s.signal with
  | some p => p = s.kept
  | none => s.started = some true → s.told.getLast? = some s.kept

theorem step_willBeTold {s : Sys} (x : Step) (h : WillBeTold s) : WillBeTold (s.step x) := by
  cases x with
  | change p => exact h
  | otherEvent => exact h
  | poll a =>
    cases a with
    | false => exact h
    | true => cases hq : s.queue <;> simpa [Sys.step, hq, WillBeTold] using h
  | start ok =>
    cases hst : s.started with
    | some b => simpa [Sys.step, hst] using h
    | none =>
      cases ok with
      | true => simp [Sys.step, hst, WillBeTold]
      | false =>
        cases hsi : s.signal with
        | none => simp [Sys.step, hst, WillBeTold, hsi]
        | some p => simpa [Sys.step, hst, WillBeTold, hsi] using h
  | run =>
    cases hst : s.started with
    | none => simpa [Sys.step, hst] using h
    | some b =>
      cases hsl : s.slot with
      | none => simpa [Sys.step, hst, hsl] using h
      | some e => cases e with
        | other => simpa [Sys.step, hst, hsl] using h
        | switch p => simp [Sys.step, hst, hsl, WillBeTold]
  | runOther =>
    by_cases hsl : s.slot = some .other
    · simpa [Sys.step, hsl, WillBeTold] using h
    · simpa [Sys.step, hsl] using h
  | wait =>
    cases hsi : s.signal with
    | none => simpa [Sys.step, hsi] using h
    | some p =>
      simp only [WillBeTold, hsi] at h
      simp [Sys.step, hsi, WillBeTold, h]

theorem switch_exec_inv (l : List Step) : ∀ (s : Sys), SwitchUpToDate s → WillBeTold s → NoEventLost s l → SwitchUpToDate (s.exec l) ∧ WillBeTold (s.exec l) := by
  induction l with
  | nil => intro s h1 h2 _; exact ⟨h1, h2⟩
  | cons x l ih => intro s h1 h2 h3; exact ih _ (step_upToDate x h1 h3.1) (step_willBeTold x h2) h3.2

/-- **C135** If no event is lost and the driver's first request was answered, then for every schedule: once no position is on its way, reading the switch gives its position, and the application, if there is nothing
more to be told, was told this position last. -/
theorem C135_settles (real : Bool) (l : List Step) (hl : NoEventLost (.new real) l) (hs : ((Sys.new real).exec l).started = some true) (hw : positionsOnTheWay ((Sys.new real).exec l) = []) :
    ((Sys.new real).exec l).read = ((Sys.new real).exec l).real ∧
      (((Sys.new real).exec l).signal = none → ((Sys.new real).exec l).told.getLast? = some ((Sys.new real).exec l).real) ∧
      (((Sys.new real).exec (l ++ [.wait])).told.getLast? = some ((Sys.new real).exec l).real) := by
  obtain ⟨h1, h2⟩ := switch_exec_inv l (.new real) (by simp [SwitchUpToDate, positionsOnTheWay, Sys.new]) (by simp [WillBeTold, Sys.new]) hl
  have e : (Sys.new real).exec (l ++ [.wait]) = ((Sys.new real).exec l).step .wait := by simp [Sys.exec]
  rw [e]
  generalize (Sys.new real).exec l = s at *
  have hk : s.kept = s.real := by
    unfold SwitchUpToDate at h1
    rw [hw] at h1
    exact h1 hs
  refine ⟨hk, fun hn => ?_, ?_⟩
  · unfold WillBeTold at h2
    rw [hn] at h2
    rw [← hk]
    exact h2 hs
  · unfold WillBeTold at h2
    cases hsi : s.signal with
    | none =>
      rw [hsi] at h2
      simp only [Sys.step, hsi]
      rw [← hk]
      exact h2 hs
    | some p =>
      rw [hsi] at h2
      simp only [Sys.step, hsi]
      simpa [← hk] using h2

/-- the positions that the switch has had -/
def switchPositions (real : Bool) (l : List Step) : List Bool := real :: l.filterMap fun | .change p => some p | _ => none

/-- **C135** Whatever is lost, the application is told only positions that the switch has had, and reading gives one of them, or false before the driver knows any. -/
theorem C135_no_inventions (real : Bool) (l : List Step) :
    (∀ p ∈ ((Sys.new real).exec l).told, p ∈ switchPositions real l) ∧ (((Sys.new real).exec l).read ∈ switchPositions real l ∨ ((Sys.new real).exec l).read = false) := by
  let P : List Bool → Sys → Prop := fun ps s => s.real ∈ ps ∧ (∀ p, .switch p ∈ s.queue → p ∈ ps) ∧ (∀ p, s.slot = some (.switch p) → p ∈ ps) ∧ (∀ p, s.signal = some p → p ∈ ps) ∧ (∀ p ∈ s.told, p ∈ ps) ∧
    (s.kept ∈ ps ∨ s.kept = false)
  have hpush : ∀ (q : List Event) (e x : Event), x ∈ push q e → x ∈ q ∨ x = e := by
    intro q e x hx
    unfold push at hx
    rw [List.mem_append, List.mem_singleton] at hx
    rcases hx with hx | hx
    · split at hx
      · exact .inl (List.mem_of_mem_drop hx)
      · exact .inl hx
    · exact .inr hx
  have key : ∀ (l : List Step) (ps : List Bool) (s : Sys), P ps s → (∀ p, .change p ∈ l → p ∈ ps) → P ps (s.exec l) := by
    intro l
    induction l with
    | nil => intro ps s h _; exact h
    | cons x l ih =>
      intro ps s h hc
      refine ih ps (s.step x) ?_ (fun p hp => hc p (List.mem_cons_of_mem _ hp))
      have same : ∀ t : Sys, t = s → P ps t := fun t e => e ▸ h
      obtain ⟨h1, h2, h3, h4, h5, h6⟩ := h
      cases x with
      | change p =>
        have hp := hc p List.mem_cons_self
        refine ⟨hp, fun q hq => ?_, h3, h4, h5, h6⟩
        rcases hpush _ _ _ hq with hq | hq
        · exact h2 q hq
        · cases hq; exact hp
      | otherEvent =>
        refine ⟨h1, fun q hq => ?_, h3, h4, h5, h6⟩
        rcases hpush _ _ _ hq with hq | hq
        · exact h2 q hq
        · cases hq
      | poll a =>
        cases a with
        | false => exact ⟨h1, fun q hq => h2 q (List.mem_of_mem_drop hq), h3, h4, h5, h6⟩
        | true =>
          cases hq : s.queue with
          | nil => exact same _ (by simp [Sys.step, hq])
          | cons e q =>
            simp only [Sys.step, hq]
            refine ⟨h1, fun p hp => h2 p (hq ▸ List.mem_cons_of_mem _ hp), fun p hp => h2 p ?_, h4, h5, h6⟩
            simp only [Option.some.injEq] at hp
            rw [hq, hp]
            exact List.mem_cons_self
      | start ok =>
        cases hst : s.started with
        | some b => exact same _ (by simp [Sys.step, hst])
        | none =>
          cases ok with
          | true =>
            simp only [Sys.step, hst]
            exact ⟨h1, h2, h3, fun p hp => by simp at hp; exact hp ▸ h1, h5, .inl h1⟩
          | false =>
            simp only [Sys.step, hst]
            exact ⟨h1, h2, h3, h4, h5, h6⟩
      | run =>
        cases hst : s.started with
        | none => exact same _ (by simp [Sys.step, hst])
        | some b =>
          cases hsl : s.slot with
          | none => exact same _ (by simp [Sys.step, hst, hsl])
          | some e => cases e with
            | other => exact same _ (by simp [Sys.step, hst, hsl])
            | switch p =>
              simp only [Sys.step, hst, hsl]
              exact ⟨h1, h2, by simp, fun q hq => by simp at hq; exact hq ▸ h3 p hsl, h5, .inl (h3 p hsl)⟩
      | runOther =>
        by_cases hsl : s.slot = some .other
        · simp only [Sys.step, if_pos hsl]
          exact ⟨h1, h2, by simp, h4, h5, h6⟩
        · exact same _ (by simp [Sys.step, hsl])
      | wait =>
        cases hsi : s.signal with
        | none => exact same _ (by simp [Sys.step, hsi])
        | some p =>
          simp only [Sys.step, hsi]
          refine ⟨h1, h2, h3, by simp, fun q hq => ?_, h6⟩
          rw [List.mem_append, List.mem_singleton] at hq
          rcases hq with hq | hq
          · exact h5 q hq
          · exact hq ▸ h4 p hsi
  have := key l (switchPositions real l) (.new real) ⟨List.mem_cons_self, by simp [Sys.new], by simp [Sys.new], by simp [Sys.new], by simp [Sys.new], .inr rfl⟩
    (fun p hp => List.mem_cons_of_mem _ (List.mem_filterMap.mpr ⟨_, hp, rfl⟩))
  exact ⟨this.2.2.2.2.1, this.2.2.2.2.2⟩

/-- nothing more happens to the switch, its driver has been started -/
def SwitchUndisturbed (l : List Step) : Prop := ∀ x ∈ l, ∀ p, x ≠ .change p

theorem switch_exec_undisturbed (l : List Step) : ∀ (s : Sys), SwitchUndisturbed l → positionsOnTheWay s = [] → s.started.isSome → (s.exec l).kept = s.kept ∧ (s.exec l).real = s.real := by
  induction l with
  | nil => intro s _ _ _; exact ⟨rfl, rfl⟩
  | cons x l ih =>
    intro s hu hw hs
    have hu2 : SwitchUndisturbed l := fun y hy => hu y (List.mem_cons_of_mem _ hy)
    obtain ⟨b, hb⟩ := Option.isSome_iff_exists.mp hs
    have hsl : ∀ p, s.slot ≠ some (.switch p) := by
      intro p hp
      rw [positionsOnTheWay, hp] at hw
      simp at hw
    have hqe : ∀ e ∈ s.queue, e = .other := by
      intro e he
      cases e with
      | other => rfl
      | switch p =>
        rw [positionsOnTheWay, List.filterMap_eq_nil_iff] at hw
        have := hw (.switch p) (List.mem_append_right _ he)
        simp at this
    have way : ∀ (t : Sys), (∀ p, t.slot ≠ some (.switch p)) → (∀ e ∈ t.queue, e = .other) → positionsOnTheWay t = [] := by
      intro t h1 h2
      rw [positionsOnTheWay, List.filterMap_eq_nil_iff]
      intro e he
      rw [List.mem_append, Option.mem_toList] at he
      cases e with
      | other => rfl
      | switch p =>
        rcases he with he | he
        · exact absurd he (h1 p)
        · exact absurd (h2 _ he) (by simp)
    show ((s.step x).exec l).kept = s.kept ∧ ((s.step x).exec l).real = s.real
    have hpush : ∀ e ∈ push s.queue .other, e = .other := by
      intro e he
      unfold push at he
      rw [List.mem_append, List.mem_singleton] at he
      rcases he with he | he
      · split at he
        · exact hqe e (List.mem_of_mem_drop he)
        · exact hqe e he
      · exact he
    have fin : ∀ (t : Sys), t.kept = s.kept → t.real = s.real → t.started = s.started → (∀ p, t.slot ≠ some (.switch p)) → (∀ e ∈ t.queue, e = .other) →
        (t.exec l).kept = s.kept ∧ (t.exec l).real = s.real := by
      intro t h1 h2 h3 h4 h5
      have := ih t hu2 (way t h4 h5) (h3 ▸ hs)
      rw [h1, h2] at this
      exact this
    cases x with
    | change p => exact absurd rfl (hu _ List.mem_cons_self p)
    | otherEvent => exact fin _ rfl rfl rfl hsl hpush
    | poll a =>
      cases a with
      | false => exact fin _ rfl rfl rfl hsl fun e he => hqe e (List.mem_of_mem_drop he)
      | true =>
        cases hq : s.queue with
        | nil =>
          have : s.step (.poll true) = s := by simp [Sys.step, hq]
          rw [this]
          exact fin s rfl rfl rfl hsl hqe
        | cons e q =>
          have : s.step (.poll true) = { s with queue := q, slot := some e } := by simp [Sys.step, hq]
          rw [this]
          refine fin _ rfl rfl rfl (fun p => ?_) fun x hx => hqe x (hq ▸ List.mem_cons_of_mem _ hx)
          have he := hqe e (hq ▸ List.mem_cons_self)
          simp [he]
    | start ok =>
      have : s.step (.start ok) = s := by simp [Sys.step, hb]
      rw [this]
      exact fin s rfl rfl rfl hsl hqe
    | run =>
      have : s.step .run = s := by
        cases h : s.slot with
        | none => simp [Sys.step, hb, h]
        | some e => cases e with
          | other => simp [Sys.step, hb, h]
          | switch p => exact absurd h (hsl p)
      rw [this]
      exact fin s rfl rfl rfl hsl hqe
    | runOther =>
      by_cases h : s.slot = some .other
      · have : s.step .runOther = { s with slot := none } := by simp [Sys.step, h]
        rw [this]
        exact fin _ rfl rfl rfl (by simp) hqe
      · have : s.step .runOther = s := by simp [Sys.step, h]
        rw [this]
        exact fin s rfl rfl rfl hsl hqe
    | wait =>
      cases h : s.signal with
      | none =>
        have : s.step .wait = s := by simp [Sys.step, h]
        rw [this]
        exact fin s rfl rfl rfl hsl hqe
      | some p =>
        have : s.step .wait = { s with signal := none, told := s.told ++ [p] } := by simp [Sys.step, h]
        rw [this]
        exact fin _ rfl rfl rfl hsl hqe

/-- **C135 (finding)** A lost event is not made up for: the answer to the poll that brings "disarmed" is lost, and the flight computer takes the switch for armed for as long as nobody moves it, whatever is polled. -/
theorem C135_lost_event (l : List Step) (hu : SwitchUndisturbed l) :
    ((Sys.new false).exec ([.start true, .change true, .poll true, .run, .change false, .poll false] ++ l)).read = true ∧
      ((Sys.new false).exec ([.start true, .change true, .poll true, .run, .change false, .poll false] ++ l)).real = false := by
  have e : ∀ m : List Step, (Sys.new false).exec (m ++ l) = ((Sys.new false).exec m).exec l := fun m => by simp [Sys.exec]
  rw [e]
  exact switch_exec_undisturbed l _ hu rfl rfl

/-- **C135 (finding)** If the driver's first request is not answered, an armed switch is read as disarmed for as long as nobody moves it: it is not asked for again. -/
theorem C135_first_request (l : List Step) (hu : SwitchUndisturbed l) :
    ((Sys.new true).exec (.start false :: l)).read = false ∧ ((Sys.new true).exec (.start false :: l)).real = true :=
  switch_exec_undisturbed l ((Sys.new true).step (.start false)) hu rfl rfl

/-- **C135 (finding)** A change may be an old one: the switch was moved to armed and back before the driver started; the driver's first answer is "disarmed", then it tells "armed" although the switch is not. -/
theorem C135_old_change : NoEventLost (.new false) [.change true, .change false, .start true, .wait, .poll true, .run, .wait] ∧
    ((Sys.new false).exec [.change true, .change false, .start true, .wait, .poll true, .run, .wait]).told = [false, true] ∧
    ((Sys.new false).exec [.change true, .change false, .start true, .wait, .poll true, .run, .wait]).read = true ∧
    ((Sys.new false).exec [.change true, .change false, .start true, .wait, .poll true, .run, .wait]).real = false := by
  refine ⟨?_, rfl, rfl, rfl⟩
  simp [NoEventLost, losesEvent, Sys.step, Sys.new, push]

/-- the switch is moved three times, each event is polled and taken (a case of the hypotheses of C135_settles) -/
example : NoEventLost (.new false) [.start true, .wait, .change true, .poll true, .run, .change false, .change true, .poll true, .run, .poll true, .run] ∧
    ((Sys.new false).exec [.start true, .wait, .change true, .poll true, .run, .change false, .change true, .poll true, .run, .poll true, .run]).started = some true ∧
    positionsOnTheWay ((Sys.new false).exec [.start true, .wait, .change true, .poll true, .run, .change false, .change true, .poll true, .run, .poll true, .run]) = [] := by
  refine ⟨?_, rfl, rfl⟩
  simp [NoEventLost, losesEvent, Sys.step, Sys.new, push]

end Verif.Props
