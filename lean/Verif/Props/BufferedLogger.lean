import Verif.Model.BufferedLogger
/-
C63: the buffered logger.
-/
namespace Verif.Props
open Verif Verif.Buffered

/-- the readings handed to the logger behind the buffer, in order -/
def handed {α : Type} : List (Call α) → List α
  | [] => []
  | .log x :: cs => x :: handed cs
  | .flush :: cs => handed cs

/-- the last `n` elements -/
def lastOf {α : Type} (n : Nat) (l : List α) : List α := l.drop (l.length - n)

theorem handed_append {α : Type} (a b : List (Call α)) : handed (a ++ b) = handed a ++ handed b := by
  induction a with
  | nil => rfl
  | cons c a ih => cases c <;> simp [handed, ih]

theorem buf_snoc {α : Type} (s : St α) (evs : List (Ev α)) (e : Ev α) : s.run (evs ++ [e]) = (s.run evs).step e := by
  unfold St.run; rw [List.foldl_append]; rfl

theorem buf_append {α : Type} (s : St α) (a b : List (Ev α)) : s.run (a ++ b) = (s.run a).run b := by
  unfold St.run; rw [List.foldl_append]

/-- induction over histories -/
theorem buf_induct {α : Type} {cap : Nat} {P : St α → Prop} (h0 : P (St.new cap)) (hs : ∀ s e, P s → P (s.step e)) (evs : List (Ev α)) : P ((St.new cap).run evs) := by
  suffices h : ∀ evs : List (Ev α), P ((St.new cap).run evs.reverse) by
    have := h evs.reverse
    rwa [List.reverse_reverse] at this
  intro evs
  induction evs with
  | nil => exact h0
  | cons e evs ih => rw [List.reverse_cons, buf_snoc]; exact hs _ _ ih

/-- a step either publishes a reading, moves the oldest queued reading to the logger, or changes neither queue nor readings handed over -/
theorem step_cases {α : Type} (s : St α) (e : Ev α) :
    (∃ x, (s.step e) = s.publish x) ∨
    (∃ x q, s.queue = x :: q ∧ (s.step e).queue = q ∧ (s.step e).published = s.published ∧ (s.step e).calls = s.calls ++ [.log x] ∧ (s.step e).runner = s.runner ∧ s.runner.holds = true) ∨
    ((s.step e).queue = s.queue ∧ (s.step e).published = s.published ∧ handed (s.step e).calls = handed s.calls) := by
  cases e with
  | log x => by_cases h : s.client = .ready
             · exact .inl ⟨x, by simp [St.step, h]⟩
             · exact .inr (.inr (by simp [St.step, h]))
  | flush => exact .inr (.inr (by by_cases h : s.client = .ready <;> simp [St.step, h]))
  | dropFlush => exact .inr (.inr (by by_cases h : s.client = .flushing <;> simp [St.step, h]))
  | intoInner => exact .inr (.inr (by by_cases h : s.client = .ready <;> simp [St.step, h]))
  | pollClient =>
    refine .inr (.inr ?_)
    simp only [St.step]
    split <;> (try split) <;> (try split) <;> simp
  | pollRunner =>
    refine .inr ?_
    simp only [St.step, St.poll]
    cases hr : s.runner with
    | notStarted => right; simp only; split <;> simp
    | select =>
      cases hq : s.queue with
      | cons x q => left; exact ⟨x, q, rfl, rfl, rfl, rfl, by simp [hr], rfl⟩
      | nil => right; simp only; split <;> (try split) <;> simp [hq]
    | drainFlush =>
      cases hq : s.queue with
      | cons x q => left; exact ⟨x, q, rfl, rfl, rfl, rfl, by simp [hr], rfl⟩
      | nil => right; simp [hq, handed_append, handed]
    | drainStop =>
      cases hq : s.queue with
      | cons x q => left; exact ⟨x, q, rfl, rfl, rfl, rfl, by simp [hr], rfl⟩
      | nil => right; simp [hq, handed_append, handed]
    | stopped => right; simp
    | panicked => right; simp

theorem push_sublist {α : Type} (cap : Nat) (q : List α) (x : α) : (push cap q x).Sublist (q ++ [x]) := by
  unfold push
  split
  · exact List.Sublist.refl _
  · exact List.Sublist.append (List.drop_sublist 1 q) (List.Sublist.refl _)

/-- **C63** Readings reach the logger in the order they were given to `log`, each at most once; what is queued comes after them. -/
theorem C63_order {α : Type} (cap : Nat) (evs : List (Ev α)) :
    let s := (St.new cap).run evs
    (handed s.calls ++ s.queue).Sublist s.published := by
  refine buf_induct (P := fun s => (handed s.calls ++ s.queue).Sublist s.published) (by simp [St.new, handed]) ?_ evs
  intro s e h
  rcases step_cases s e with ⟨x, hx⟩ | ⟨x, q, h1, h2, h3, h4, _⟩ | ⟨h1, h2, h3⟩
  · rw [hx]
    show (handed s.calls ++ (if s.runner.started then push s.cap s.queue x else s.queue)).Sublist (s.published ++ [x])
    split
    · exact ((List.Sublist.refl _).append (push_sublist ..)).trans (by rw [← List.append_assoc]; exact h.append (List.Sublist.refl _))
    · exact h.trans (List.sublist_append_left _ _)
  · rw [h2, h3, h4, handed_append]
    rw [h1] at h
    simpa [handed] using h
  · rw [h1, h2, h3]; exact h

theorem step_cap {α : Type} (s : St α) (e : Ev α) : (s.step e).cap = s.cap := by
  cases e <;> simp only [St.step, St.publish, St.poll] <;> (repeat' split) <;> rfl

theorem step_started {α : Type} {s : St α} (h : s.runner.started = true) (e : Ev α) : (s.step e).runner.started = true := by
  have key : s.poll.runner.started = true := by
    unfold St.poll
    cases hr : s.runner <;> rw [hr] at h <;> simp only [Runner.started, Bool.false_eq_true] at h <;> simp only <;> (repeat' split) <;> simp [hr, Runner.started]
  cases e <;> simp only [St.step, St.publish] <;> (repeat' split) <;> first | exact h | exact key

/-- what holds from the start of the runner on: `n` readings were given before -/
structure QueueKept (cap : Nat) {α : Type} (n : Nat) (s : St α) : Prop where
  capEq : s.cap = cap
  started : s.runner.started = true
  bound : s.queue.length ≤ cap
  pub : n ≤ s.published.length
  late : (handed s.calls ++ s.queue).Sublist (s.published.drop n)
  newest : lastOf cap (s.published.drop n) <:+ handed s.calls ++ s.queue

theorem lastOf_snoc {α : Type} (n : Nat) (h : 0 < n) (l : List α) (x : α) : lastOf n (l ++ [x]) = lastOf (n - 1) l ++ [x] := by
  unfold lastOf
  rw [List.length_append, List.drop_append_of_le_length (by simp; omega)]
  congr 2
  simp; omega

theorem lastOf_suffix {α : Type} {m n : Nat} (h : m ≤ n) (l : List α) : lastOf m l <:+ lastOf n l := by
  unfold lastOf
  have : l.drop (l.length - m) = (l.drop (l.length - n)).drop ((l.length - m) - (l.length - n)) := by rw [List.drop_drop]; congr 1; omega
  rw [this]
  exact List.drop_suffix _ _

theorem suffix_eq_lastOf {α : Type} {a l : List α} (h : a <:+ l) : a = lastOf a.length l := by
  obtain ⟨b, rfl⟩ := h
  unfold lastOf
  rw [List.length_append, show b.length + a.length - a.length = b.length by omega, List.drop_left]

theorem kept_step {α : Type} {cap n : Nat} (hc : 0 < cap) {s : St α} (h : QueueKept cap n s) (e : Ev α) : QueueKept cap n (s.step e) := by
  obtain ⟨h1, h2, h3, h4, h5, h6⟩ := h
  refine ⟨(step_cap s e).trans h1, step_started h2 e, ?_, ?_, ?_, ?_⟩ <;>
    rcases step_cases s e with ⟨x, hx⟩ | ⟨x, q, g1, g2, g3, g4, _⟩ | ⟨g1, g2, g3⟩
  · rw [hx]
    show (if s.runner.started then push s.cap s.queue x else s.queue).length ≤ cap
    rw [if_pos h2]
    unfold push
    split <;> simp <;> omega
  · rw [g2]; rw [g1] at h3; simp at h3; omega
  · rw [g1]; exact h3
  · rw [hx]; show n ≤ (s.published ++ [x]).length; simp; omega
  · rw [g3]; exact h4
  · rw [g2]; exact h4
  · rw [hx]
    show (handed s.calls ++ (if s.runner.started then push s.cap s.queue x else s.queue)).Sublist ((s.published ++ [x]).drop n)
    rw [if_pos h2, List.drop_append_of_le_length h4]
    exact ((List.Sublist.refl _).append (push_sublist ..)).trans (by rw [← List.append_assoc]; exact h5.append (List.Sublist.refl _))
  · rw [g2, g3, g4, handed_append]
    rw [g1] at h5
    simpa [handed] using h5
  · rw [g1, g2, g3]; exact h5
  · rw [hx]
    show lastOf cap ((s.published ++ [x]).drop n) <:+ handed s.calls ++ (if s.runner.started then push s.cap s.queue x else s.queue)
    rw [if_pos h2, List.drop_append_of_le_length h4, lastOf_snoc _ hc]
    unfold push
    rw [h1]
    split
    · rename_i hlt
      rw [← List.append_assoc]
      obtain ⟨b, hb⟩ := (lastOf_suffix (Nat.sub_le cap 1) _).trans h6
      exact ⟨b, by rw [← List.append_assoc, hb]⟩
    · rename_i hge
      have hlen : s.queue.length = cap := by omega
      -- the queue is what was given last
      have hq : lastOf (cap - 1) (s.published.drop n) <:+ s.queue.drop 1 := by
        have a1 : lastOf (cap - 1) (s.published.drop n) <:+ handed s.calls ++ s.queue := (lastOf_suffix (Nat.sub_le cap 1) _).trans h6
        have a2 : s.queue.drop 1 <:+ handed s.calls ++ s.queue := (List.drop_suffix _ _).trans (List.suffix_append _ _)
        refine List.suffix_of_suffix_length_le a1 a2 ?_
        unfold lastOf
        simp only [List.length_drop]
        omega
      obtain ⟨b, hb⟩ := hq
      exact ⟨handed s.calls ++ b, by rw [List.append_assoc, ← List.append_assoc b, hb]⟩
  · rw [g2, g3, g4, handed_append]
    rw [g1] at h6
    simpa [handed] using h6
  · rw [g1, g2, g3]; exact h6

theorem before_start {α : Type} (cap : Nat) (evs : List (Ev α)) (h : ((St.new cap).run evs).runner = .notStarted) :
    ((St.new cap).run evs).calls = [] ∧ ((St.new cap).run evs).queue = [] ∧ ((St.new cap).run evs).cap = cap := by
  have := buf_induct (cap := cap) (P := fun s : St α => s.cap = cap ∧ (s.runner = .notStarted ∨ s.runner = .panicked → s.calls = [] ∧ s.queue = [])) ⟨rfl, fun _ => ⟨rfl, rfl⟩⟩ ?_ evs
  · exact ⟨(this.2 (.inl h)).1, (this.2 (.inl h)).2, this.1⟩
  · intro s e ⟨h1, h2⟩
    refine ⟨(step_cap s e).trans h1, ?_⟩
    by_cases hst : s.runner.started = true
    · intro hx
      have := step_started hst e
      rcases hx with hx | hx <;> rw [hx] at this <;> exact absurd this (by decide)
    · have hno : s.runner = .notStarted ∨ s.runner = .panicked := by
        cases hr : s.runner <;> rw [hr] at hst <;> simp [Runner.started] at hst <;> simp
      obtain ⟨c1, c2⟩ := h2 hno
      intro _
      have hf : s.runner.started = false := by simpa using hst
      cases e <;> simp only [St.step, St.publish, St.poll] <;> (try rcases hno with hno | hno <;> rw [hno]) <;> (repeat' split) <;> simp_all [Runner.started]

/-- the state in which the runner starts -/
def Starts {α : Type} (cap : Nat) (evs : List (Ev α)) : Prop := ((St.new cap).run evs).runner = .notStarted ∧ ((St.new cap).run evs).present = true

theorem kept_run {α : Type} {cap n : Nat} (hc : 0 < cap) (evs : List (Ev α)) : ∀ {s : St α}, QueueKept cap n s → QueueKept cap n (s.run evs) := by
  induction evs with
  | nil => exact fun h => h
  | cons e evs ih => exact fun h => ih (kept_step hc h e)

theorem kept_start {α : Type} {cap : Nat} {evs : List (Ev α)} (hs : Starts cap evs) :
    QueueKept cap ((St.new cap).run evs).published.length (((St.new cap).run evs).step .pollRunner) := by
  obtain ⟨h1, h2⟩ := hs
  obtain ⟨g1, g2, g3⟩ := before_start cap evs h1
  generalize (St.new cap).run evs = s at *
  have e : s.step .pollRunner = { s with runner := .select } := by simp [St.step, St.poll, h1, h2]
  rw [e]
  refine ⟨g3, rfl, by simp [g2], Nat.le_refl _, ?_, ?_⟩
  · simp [g1, g2, handed]
  · simp [g1, g2, handed, lastOf]

/-- **C63** From its start on, the runner loses nothing but the oldest readings, and only while the queue is full: of the readings given since (`late`), those handed
over and queued are a subsequence that contains the newest `cap`; the queue never holds more than `cap`. -/
theorem C63_newest_kept {α : Type} {cap : Nat} (hc : 0 < cap) (evs1 evs2 : List (Ev α)) (hs : Starts cap evs1) :
    let s0 := (St.new cap).run evs1
    let s := (St.new cap).run (evs1 ++ .pollRunner :: evs2)
    ∃ late, s.published = s0.published ++ late ∧ (handed s.calls ++ s.queue).Sublist late ∧ lastOf cap late <:+ handed s.calls ++ s.queue ∧ s.queue.length ≤ cap := by
  intro s0 s
  have hk := kept_run hc evs2 (kept_start hs)
  have hrun : s = (s0.step .pollRunner).run evs2 := by
    show (St.new cap).run (evs1 ++ .pollRunner :: evs2) = _
    rw [buf_append]; rfl
  have hpre : s0.published <+: s.published := by
    rw [hrun]
    have key : ∀ (evs : List (Ev α)) (t : St α), t.published <+: (t.run evs).published := by
      intro evs
      induction evs with
      | nil => exact fun t => List.prefix_rfl
      | cons e evs ih =>
        intro t
        refine List.IsPrefix.trans ?_ (ih (t.step e))
        rcases step_cases t e with ⟨x, hx⟩ | ⟨x, q, _, _, g3, _⟩ | ⟨_, g2, _⟩
        · rw [hx]; exact List.prefix_append _ _
        · rw [g3]; exact List.prefix_rfl
        · rw [g2]; exact List.prefix_rfl
    have h1 : s0.published <+: (s0.step .pollRunner).published := key [.pollRunner] s0
    exact h1.trans (key evs2 _)
  obtain ⟨late, hl⟩ := hpre
  refine ⟨late, hl.symm, ?_, ?_, ?_⟩
  · have := hk.late; rw [← hrun, ← hl, List.drop_left] at this; exact this
  · have := hk.newest; rw [← hrun, ← hl, List.drop_left] at this; exact this
  · have := hk.bound; rw [← hrun] at this; exact this

/-- no reading is given while the queue is full -/
def NoOverflow {α : Type} (s : St α) : List (Ev α) → Prop
  | [] => True
  | e :: es => (match e with | .log _ => s.queue.length < s.cap | _ => True) ∧ NoOverflow (s.step e) es

/-- **C63** Without overflow every reading given since the start of the runner is handed over or queued. -/
theorem C63_nothing_lost {α : Type} {cap : Nat} (evs1 evs2 : List (Ev α)) (hs : Starts cap evs1)
    (ho : NoOverflow (((St.new cap).run evs1).step .pollRunner) evs2) :
    let s := (St.new cap).run (evs1 ++ .pollRunner :: evs2)
    s.published = ((St.new cap).run evs1).published ++ (handed s.calls ++ s.queue) := by
  intro s
  have key : ∀ (evs : List (Ev α)) (t : St α) (p : List α), t.runner.started = true → NoOverflow t evs → t.published = p ++ (handed t.calls ++ t.queue) →
      (t.run evs).published = p ++ (handed (t.run evs).calls ++ (t.run evs).queue) := by
    intro evs
    induction evs with
    | nil => exact fun t p _ _ h => h
    | cons e evs ih =>
      intro t p hst hno h
      refine ih (t.step e) p (step_started hst e) hno.2 ?_
      by_cases hlog : ∃ x, e = .log x
      · obtain ⟨x, rfl⟩ := hlog
        have h1 : t.queue.length < t.cap := hno.1
        simp only [St.step]
        split
        · simp [St.publish, hst, push, h1, h]
        · exact h
      · rcases step_cases t e with ⟨x, hx⟩ | ⟨x, q, g1, g2, g3, g4, _⟩ | ⟨g1, g2, g3⟩
        · exfalso
          have : (t.step e).published = t.published ++ [x] := by rw [hx]; rfl
          have h2 : (t.step e).published = t.published := by
            cases e <;> simp only [St.step, St.poll] <;> (repeat' split) <;> first | rfl | exact absurd ⟨_, rfl⟩ hlog
          rw [h2] at this
          exact absurd (congrArg List.length this) (by simp)
        · rw [g2, g3, g4, handed_append, h, g1]; simp [handed]
        · rw [g1, g2, g3]; exact h
  have hrun : s = (((St.new cap).run evs1).step .pollRunner).run evs2 := by
    show (St.new cap).run (evs1 ++ .pollRunner :: evs2) = _
    rw [buf_append]; rfl
  rw [hrun]
  refine key evs2 _ _ (kept_start hs).started ho ?_
  obtain ⟨g1, g2, _⟩ := before_start cap evs1 hs.1
  simp [St.step, St.poll, hs.1, hs.2, g1, g2, handed]

/-- **C63** (finding) Readings given before the runner first runs are lost, although `log` reports success. -/
theorem C63_early_lost {α : Type} {cap : Nat} (evs1 evs2 : List (Ev α)) (hs : Starts cap evs1) (hc : 0 < cap) :
    let s := (St.new cap).run (evs1 ++ .pollRunner :: evs2)
    (handed s.calls ++ s.queue).Sublist (s.published.drop ((St.new cap).run evs1).published.length) := by
  intro s
  have hk := kept_run hc evs2 (kept_start hs)
  have hrun : s = (((St.new cap).run evs1).step .pollRunner).run evs2 := by
    show (St.new cap).run (evs1 ++ .pollRunner :: evs2) = _
    rw [buf_append]; rfl
  rw [hrun]
  exact hk.late

/-- polls of the runner that empty the queue -/
theorem drain {α : Type} : ∀ (q : List α) (s : St α), s.queue = q → s.runner.holds = true →
    s.run (List.replicate q.length .pollRunner) = { s with queue := [], calls := s.calls ++ q.map .log } := by
  intro q
  induction q with
  | nil => intro s h _; cases s; simp only at h; subst h; simp [St.run]
  | cons x q ih =>
    intro s h hr
    rw [List.length_cons, List.replicate_succ]
    show (s.step .pollRunner).run _ = _
    have e : s.step .pollRunner = { s with queue := q, calls := s.calls ++ [.log x] } := by
      simp only [St.step, St.poll]
      cases hh : s.runner <;> rw [hh] at hr <;> simp [Runner.holds] at hr <;> simp [h]
    rw [e, ih { s with queue := q, calls := s.calls ++ [.log x] } rfl hr]
    simp

/-- **C63** A flush request is served: once the runner has emptied the queue, every reading given before was handed to the logger, and it was flushed after them. -/
theorem C63_flush_served {α : Type} (s : St α) (hr : s.runner = .select) (hq : s.request = true) :
    s.run (List.replicate s.queue.length .pollRunner ++ [.pollRunner, .pollRunner]) =
      { s with queue := [], request := false, calls := s.calls ++ s.queue.map .log ++ [.flush] } := by
  rw [buf_append, drain s.queue s rfl (by rw [hr]; rfl)]
  simp [St.run, St.step, St.poll, hr, hq]

/-- **C63** (finding) `flush` never returns: whatever happens, a caller in `flush` stays there, because the runner sends no response. -/
theorem C63_flush_never_returns {α : Type} (cap : Nat) (evs evs2 : List (Ev α)) (hf : ((St.new cap).run evs).client = .flushing)
    (hd : ∀ e ∈ evs2, (match e with | .dropFlush => False | _ => True)) : ((St.new cap).run (evs ++ evs2)).client = .flushing := by
  have h1 : ((St.new cap).run evs).response = false := by
    refine buf_induct (P := fun s => s.response = false) rfl ?_ evs
    intro s e h
    cases e <;> simp only [St.step, St.publish, St.poll] <;> (repeat' split) <;> simp_all
  rw [buf_append]
  generalize (St.new cap).run evs = s at hf h1
  induction evs2 generalizing s with
  | nil => exact hf
  | cons e evs2 ih =>
    refine ih (fun e he => hd e (List.mem_cons_of_mem _ he)) (s.step e) ?_ ?_
    · have := hd e (List.mem_cons_self ..)
      cases e <;> simp only [St.step, St.publish, St.poll] <;> (repeat' split) <;> simp_all
    · cases e <;> simp only [St.step, St.publish, St.poll] <;> (repeat' split) <;> simp_all

/-- the protocol of stopping -/
structure StopInv {α : Type} (s : St α) : Prop where
  stop : s.stop = true → s.client = .stopping ∨ s.client = .done
  drain : s.runner = .drainStop → s.client = .stopping
  stopped : s.runner = .stopped → (s.client = .stopping ∨ s.client = .done) ∧ s.queue = [] ∧ ∃ cs, s.calls = cs ++ [.flush]
  done : s.client = .done → s.present = false ∧ s.runner.holds = false
  held : s.client ≠ .done → s.present = true
  early : s.runner.started = false → s.queue = []

theorem stopInv {α : Type} (cap : Nat) (evs : List (Ev α)) : StopInv ((St.new cap).run evs) := by
  refine buf_induct (P := StopInv) ⟨by simp [St.new], by simp [St.new], by simp [St.new], by simp [St.new], by simp [St.new], by simp [St.new]⟩ ?_ evs
  intro s e ⟨h1, h2, h3, h4, h5, h6⟩
  cases e with
  | log x =>
    simp only [St.step]
    split
    · rename_i hc
      refine ⟨h1, h2, fun hx => ?_, h4, h5, fun hx => ?_⟩
      · have := (h3 hx).1; simp_all
      · have hx : s.runner.started = false := hx
        simp [St.publish, hx, h6 hx]
    · exact ⟨h1, h2, h3, h4, h5, h6⟩
  | flush =>
    simp only [St.step]
    split
    · rename_i hc
      refine ⟨fun hx => ?_, fun hx => ?_, fun hx => ?_, by simp, fun _ => h5 (by simp [hc]), h6⟩
      · have := h1 hx; simp_all
      · have := h2 hx; simp_all
      · have := (h3 hx).1; simp_all
    · exact ⟨h1, h2, h3, h4, h5, h6⟩
  | dropFlush =>
    simp only [St.step]
    split
    · rename_i hc
      refine ⟨fun hx => ?_, fun hx => ?_, fun hx => ?_, by simp, fun _ => h5 (by simp [hc]), h6⟩
      · have := h1 hx; simp_all
      · have := h2 hx; simp_all
      · have := (h3 hx).1; simp_all
    · exact ⟨h1, h2, h3, h4, h5, h6⟩
  | intoInner =>
    simp only [St.step]
    split
    · rename_i hc
      refine ⟨fun _ => .inl rfl, fun _ => rfl, fun hx => ?_, by simp, fun _ => h5 (by simp [hc]), h6⟩
      have := (h3 hx).1; simp_all
    · exact ⟨h1, h2, h3, h4, h5, h6⟩
  | pollClient =>
    simp only [St.step]
    split
    · rename_i hc
      split
      · refine ⟨fun hx => ?_, fun hx => ?_, fun hx => ?_, by simp, fun _ => h5 (by simp [hc]), h6⟩
        · have := h1 hx; simp_all
        · have := h2 hx; simp_all
        · have := (h3 hx).1; simp_all
      · exact ⟨h1, h2, h3, h4, h5, h6⟩
    · rename_i hc
      split
      · exact ⟨h1, h2, h3, h4, h5, h6⟩
      · rename_i hh
        split
        · refine ⟨fun _ => .inr rfl, fun hx => ?_, fun hx => ⟨.inr rfl, (h3 hx).2⟩, fun _ => ⟨rfl, by simpa using hh⟩, by simp, h6⟩
          have hx : s.runner = .drainStop := hx
          rw [hx] at hh; exact absurd rfl hh
        · exact ⟨h1, h2, h3, h4, h5, h6⟩
    · exact ⟨h1, h2, h3, h4, h5, h6⟩
  | pollRunner =>
    simp only [St.step, St.poll]
    cases hr : s.runner with
    | notStarted =>
      simp only
      have hq := h6 (by rw [hr]; rfl)
      split
      · rename_i hp
        exact ⟨h1, by simp, by simp, fun hx => by have := (h4 hx).1; simp_all, h5, fun _ => hq⟩
      · exact ⟨h1, by simp, by simp, fun hx => ⟨(h4 hx).1, rfl⟩, h5, fun _ => hq⟩
    | select =>
      have hd : s.client ≠ .done := fun hx => by have := (h4 hx).2; rw [hr] at this; exact absurd this (by decide)
      simp only
      cases hq : s.queue with
      | cons x q => exact ⟨h1, fun hx => by simp [hr] at hx, fun hx => by simp [hr] at hx, fun hx => absurd hx hd, h5, fun hx => by simp [hr, Runner.started] at hx⟩
      | nil =>
        simp only
        split
        · exact ⟨h1, by simp, by simp, fun hx => absurd hx hd, h5, fun _ => rfl⟩
        · split
          · rename_i hs
            refine ⟨by simp, fun _ => ?_, by simp, fun hx => absurd hx hd, h5, fun _ => rfl⟩
            rcases h1 hs with h | h
            · exact h
            · exact absurd h hd
          · exact ⟨h1, h2, h3, h4, h5, h6⟩
    | drainFlush =>
      have hd : s.client ≠ .done := fun hx => by have := (h4 hx).2; rw [hr] at this; exact absurd this (by decide)
      simp only
      cases hq : s.queue with
      | cons x q => exact ⟨h1, fun hx => by simp [hr] at hx, fun hx => by simp [hr] at hx, fun hx => absurd hx hd, h5, fun hx => by simp [hr, Runner.started] at hx⟩
      | nil => exact ⟨h1, by simp, by simp, fun hx => absurd hx hd, h5, fun _ => rfl⟩
    | drainStop =>
      have hd : s.client ≠ .done := fun hx => by have := (h4 hx).2; rw [hr] at this; exact absurd this (by decide)
      simp only
      cases hq : s.queue with
      | cons x q => exact ⟨h1, fun _ => h2 hr, fun hx => by simp [hr] at hx, fun hx => absurd hx hd, h5, fun hx => by simp [hr, Runner.started] at hx⟩
      | nil => exact ⟨h1, by simp, fun _ => ⟨.inl (h2 hr), rfl, _, rfl⟩, fun hx => absurd hx hd, h5, fun _ => rfl⟩
    | stopped => exact ⟨h1, h2, h3, h4, h5, h6⟩
    | panicked => exact ⟨h1, h2, h3, h4, h5, h6⟩

/-- **C63** When `into_inner` has returned the logger and the runner had been started, the queue is empty and the last call of the logger was `flush`: with `C63_nothing_lost`,
all readings given since the start are stored. -/
theorem C63_stop {α : Type} (cap : Nat) (evs : List (Ev α)) (hd : ((St.new cap).run evs).client = .done) (hs : ((St.new cap).run evs).runner.started = true) :
    ((St.new cap).run evs).queue = [] ∧ ∃ cs, ((St.new cap).run evs).calls = cs ++ [.flush] := by
  have hi := stopInv cap evs
  have h1 := (hi.done hd).2
  have : ((St.new cap).run evs).runner = .stopped := by
    revert h1 hs
    generalize ((St.new cap).run evs).runner = r
    cases r <;> simp [Runner.holds, Runner.started]
  exact (hi.stopped this).2

/-- **C63** `into_inner` returns, once the runner is polled often enough. -/
theorem C63_stop_returns {α : Type} (s : St α) (hr : s.runner = .select) (hq : s.request = false) (hs : s.stop = true) (hc : s.client = .stopping) (hp : s.present = true) :
    s.run (List.replicate s.queue.length .pollRunner ++ [.pollRunner, .pollRunner, .pollClient]) =
      { s with queue := [], stop := false, present := false, client := .done, runner := .stopped, calls := s.calls ++ s.queue.map .log ++ [.flush] } := by
  rw [buf_append, drain s.queue s rfl (by rw [hr]; rfl)]
  simp [St.run, St.step, St.poll, hr, hq, hs, hc, hp, Runner.holds]

/-- **C63** (finding) `into_inner` before the runner was first polled takes the logger away, and the runner panics when it is polled. -/
theorem C63_stop_before_start_panics {α : Type} (cap : Nat) (evs : List (Ev α)) (hs : Starts cap evs) (hc : ((St.new cap).run evs).client = .ready) :
    ((St.new cap).run (evs ++ [.intoInner, .pollClient, .pollRunner])).runner = .panicked := by
  obtain ⟨h1, h2⟩ := hs
  rw [buf_append]
  simp [St.run] at h1 h2 hc ⊢
  simp [St.step, St.poll, h1, h2, hc, Runner.holds]

/-- a run with capacity 2: one reading before the start is lost, one is lost by overflow, the rest is stored, and `flush` hangs -/
def demoBuf : List (Ev Nat) := [.log 1, .pollRunner, .log 2, .pollRunner, .log 3, .log 4, .log 5, .flush, .pollRunner, .pollRunner, .pollRunner, .pollRunner, .pollClient, .pollClient]

example : Starts (α := Nat) 2 [.log 1] := ⟨rfl, rfl⟩
example : ((St.new 2).run demoBuf).calls = [.log 2, .log 4, .log 5, .flush] ∧ ((St.new 2).run demoBuf).client = .flushing := by decide
example : NoOverflow (((St.new 3).run [Ev.log 1]).step .pollRunner) [.log 2, .pollRunner, .log 3, .log 4, .log 5] := by
  refine ⟨?_, trivial, ?_, ?_, ?_, trivial⟩ <;> decide
example : ((St.new 2).run [.pollRunner, .log 7, .intoInner, .pollClient, .pollRunner, .pollRunner, .pollRunner, .pollClient]).client = .done ∧
    ((St.new 2).run [.pollRunner, .log 7, .intoInner, .pollClient, .pollRunner, .pollRunner, .pollRunner, .pollClient]).calls = [.log 7, .flush] := by decide

end Verif.Props
