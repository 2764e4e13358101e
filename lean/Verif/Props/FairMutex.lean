import Verif.Spec.FairMutex
import Mathlib.Data.List.Perm.Subperm
/-
C94: the mutex of vlfs/src/utils/fair_mutex.rs.
-/
namespace Verif.FairMutex

theorem poll_true {n : Nat} {l l' : Lock} {t : Nat} (h : l.poll n t = (true, l')) : l.locked = false ∧ l' = { l with locked := true } := by
  unfold Lock.poll at h
  split at h
  · simp at h
  · next hl => injection h with _ h; exact ⟨by simpa using hl, h.symm⟩

theorem poll_false {n : Nat} {l l' : Lock} {t : Nat} (h : l.poll n t = (false, l')) : l.locked = true ∧ l' = if l.queue.length < n then { l with queue := l.queue ++ [t] } else l := by
  unfold Lock.poll at h
  split at h
  · next hl => injection h with _ h; exact ⟨hl, h.symm⟩
  · simp at h

/-- the guards -/
theorem reach_holders {n : Nat} {calm : Prop} {w : World} (h : Reach n calm w) : w.holders.length = if w.lock.locked then 1 else 0 := by
  induction h with
  | start => rfl
  | @step w w' _ hs ih =>
    cases hs with
    | ready t l hc h =>
      obtain ⟨h1, rfl⟩ := poll_true h
      rw [h1] at ih
      simpa using ih
    | pending t l hc h =>
      obtain ⟨h1, rfl⟩ := poll_false h
      rw [h1] at ih
      show w.holders.length = if (if _ then _ else _ : Lock).locked then 1 else 0
      split <;> simp [h1, ih]
    | cancel t hc h => exact ih
    | drop t l wk hm h =>
      injection h with h1 h2
      have := List.length_erase_of_mem hm
      have := List.length_pos_of_mem hm
      rw [← h1]
      split at ih
      · simp only [Bool.false_eq_true, if_false]; omega
      · omega

structure Calm (n : Nat) (w : World) : Prop where
  small : ∀ t ∈ w.lock.queue, t < n
  nodup : w.lock.queue.Nodup
  apart : ∀ t ∈ w.lock.queue, t ∉ w.woken
  waits : ∀ t ∈ w.lock.queue, t ∈ w.waiting
  kept : ∀ t ∈ w.waiting, t ∈ w.lock.queue ∨ t ∈ w.woken
  wokenWaits : ∀ t ∈ w.woken, t ∈ w.waiting
  go : w.lock.locked = false → w.lock.queue ≠ [] → w.woken ≠ []
  nodupW : w.waiting.Nodup

theorem short {n : Nat} {l : List Nat} (h1 : ∀ t ∈ l, t < n) (h2 : l.Nodup) : l.length ≤ n := by
  have := (List.subperm_of_subset h2 (fun t ht => List.mem_range.mpr (h1 t ht) : l ⊆ List.range n)).length_le
  simpa using this

theorem Calm.step {n : Nat} {w w' : World} (hi : Calm n w) (hs : Step n True w w') : Calm n w' := by
  obtain ⟨h1, h2, h3, h4, h5, h6, h7, h8⟩ := hi
  cases hs with
  | ready t l hc h =>
    obtain ⟨hl, rfl⟩ := poll_true h
    obtain ⟨hn, hw⟩ := hc trivial
    have htq : t ∉ w.lock.queue := fun hq => h3 t hq (hw (h4 t hq))
    refine ⟨h1, h2, ?_, ?_, ?_, ?_, by simp, h8.erase t⟩
    · intro x hx hx2; exact h3 x hx (List.mem_filter.mp hx2).1
    · intro x hx; exact (List.mem_erase_of_ne (fun e : x = t => htq (e ▸ hx))).mpr (h4 x hx)
    · intro x hx
      have hne : x ≠ t := fun e => by subst e; exact (List.Nodup.not_mem_erase h8) hx
      rcases h5 x (List.mem_of_mem_erase hx) with h | h
      · exact .inl h
      · exact .inr (List.mem_filter.mpr ⟨h, by simpa using hne⟩)
    · intro x hx
      obtain ⟨a, b⟩ := List.mem_filter.mp hx
      exact (List.mem_erase_of_ne (by simpa using b)).mpr (h6 x a)
  | pending t l hc h =>
    obtain ⟨hl, rfl⟩ := poll_false h
    obtain ⟨hn, hw⟩ := hc trivial
    have htq : t ∉ w.lock.queue := fun hq => h3 t hq (hw (h4 t hq))
    have hnd : (w.lock.queue ++ [t]).Nodup := List.nodup_append.mpr ⟨h2, by simp, by intro a ha b hb; rw [List.mem_singleton.mp hb]; exact fun e => htq (e ▸ ha)⟩
    have hsm : ∀ x ∈ w.lock.queue ++ [t], x < n := by
      intro x hx
      rcases List.mem_append.mp hx with hx | hx
      · exact h1 x hx
      · rw [List.mem_singleton.mp hx]; exact hn
    have hlt : w.lock.queue.length < n := by have := short hsm hnd; simp at this; omega
    rw [if_pos hlt]
    have hmem : ∀ x, x ∈ w.waiting → x ∈ (if t ∈ w.waiting then w.waiting else w.waiting ++ [t]) := by intro x hx; split; exact hx; exact List.mem_append_left _ hx
    have hself : t ∈ (if t ∈ w.waiting then w.waiting else w.waiting ++ [t]) := by split; assumption; simp
    refine ⟨hsm, hnd, ?_, ?_, ?_, ?_, by simp [hl], ?_⟩
    · intro x hx hx2
      obtain ⟨a, b⟩ := List.mem_filter.mp hx2
      rcases List.mem_append.mp hx with hx | hx
      · exact h3 x hx a
      · exact absurd (List.mem_singleton.mp hx) (by simpa using b)
    · intro x hx
      rcases List.mem_append.mp hx with hx | hx
      · exact hmem x (h4 x hx)
      · rw [List.mem_singleton.mp hx]; exact hself
    · intro x hx
      by_cases hxt : x = t
      · left; rw [hxt]; simp
      · have hxw : x ∈ w.waiting := by
          simp only at hx
          split at hx
          · exact hx
          · rcases List.mem_append.mp hx with hx | hx
            · exact hx
            · exact absurd (List.mem_singleton.mp hx) hxt
        rcases h5 x hxw with h | h
        · exact .inl (List.mem_append_left _ h)
        · exact .inr (List.mem_filter.mpr ⟨h, by simpa using hxt⟩)
    · intro x hx; exact hmem x (h6 x (List.mem_filter.mp hx).1)
    · show (if t ∈ w.waiting then w.waiting else w.waiting ++ [t]).Nodup
      split
      · exact h8
      · next hq => exact List.nodup_append.mpr ⟨h8, by simp, by intro a ha b hb; rw [List.mem_singleton.mp hb]; exact fun e => hq (e ▸ ha)⟩
  | cancel t hc h => exact absurd trivial hc
  | drop t l wk hm h =>
    injection h with e1 e2
    subst e1 e2
    have htail : ∀ x ∈ w.lock.queue.tail, x ∈ w.lock.queue := fun x hx => List.mem_of_mem_tail hx
    cases hq : w.lock.queue with
    | nil =>
      refine ⟨by simp, by simp, by simp, by simp, ?_, ?_, by simp, h8⟩
      · intro x hx
        rcases h5 x hx with h | h
        · rw [hq] at h; simp at h
        · right; exact List.mem_append_left _ h
      · intro x hx
        simp [hq] at hx
        exact h6 x hx
    | cons a q =>
      rw [hq] at h1 h2 h3 h4 h5
      refine ⟨fun x hx => h1 x (List.mem_cons_of_mem _ hx), (List.nodup_cons.mp h2).2, ?_, fun x hx => h4 x (List.mem_cons_of_mem _ hx), ?_, ?_, by simp, h8⟩
      · intro x hx hx2
        rcases List.mem_append.mp hx2 with h | h
        · exact h3 x (List.mem_cons_of_mem _ hx) h
        · simp at h
          exact (List.nodup_cons.mp h2).1 (h ▸ hx)
      · intro x hx
        rcases h5 x hx with h | h
        · rcases List.mem_cons.mp h with h | h
          · right; simp [h]
          · exact .inl h
        · right; exact List.mem_append_left _ h
      · intro x hx
        rcases List.mem_append.mp hx with h | h
        · exact h6 x h
        · simp at h; subst h; exact h4 x (by simp)

theorem reach_calm {n : Nat} {w : World} (h : Reach n True w) : Calm n w := by
  induction h with
  | start => constructor <;> simp [World.new, Lock.new]
  | step _ hs ih => exact ih.step hs

end Verif.FairMutex

namespace Verif.Props
open Verif.FairMutex

/-- **C94** In every schedule at most one guard exists at a time, and the mutex is taken exactly while one exists. -/
theorem C94_exclusion {n : Nat} {calm : Prop} {w : World} (h : FairMutex.Reach n calm w) : w.holders.length ≤ 1 ∧ (w.lock.locked = true ↔ w.holders ≠ []) := by
  have := FairMutex.reach_holders h
  split at this
  · next hl => exact ⟨by omega, by simp [hl]; intro e; simp [e] at this⟩
  · next hl => have hz := List.length_eq_zero_iff.mp this; exact ⟨by omega, by simp [hl, hz]⟩

/-- **C94** A free mutex is given to any task that asks; a taken one to none. -/
theorem C94_grant {n : Nat} {calm : Prop} {w : World} (h : FairMutex.Reach n calm w) (t : Nat) : (w.lock.poll n t).1 = true ↔ w.holders = [] := by
  have := (C94_exclusion h).2
  unfold Lock.poll
  cases hl : w.lock.locked with
  | true => have := this.mp hl; simp [this]
  | false =>
    have : w.holders = [] := by by_contra hc; have := this.mpr hc; rw [hl] at this; simp at this
    simp [this]

/-- **C94** At most `n` tasks, no pending `lock()` is dropped, and pending ones are polled after wake-ups only: a waiting task is never forgotten. It stands in the queue or has been woken; and whenever the mutex is free and
tasks wait, one of them has been woken and gets the mutex when it is polled next. -/
theorem C94_progress {n : Nat} {w : World} (h : FairMutex.Reach n True w) :
    (∀ t ∈ w.waiting, t ∈ w.lock.queue ∨ t ∈ w.woken) ∧
    (w.holders = [] → w.waiting ≠ [] → ∃ t ∈ w.woken, t ∈ w.waiting ∧ (w.lock.poll n t).1 = true) := by
  have hc := FairMutex.reach_calm h
  refine ⟨hc.kept, fun hf hw => ?_⟩
  have hl : w.lock.locked = false := by
    cases hl : w.lock.locked with
    | false => rfl
    | true => exact absurd hf ((C94_exclusion h).2.mp hl)
  have hne : w.woken ≠ [] := by
    by_cases hq : w.lock.queue = []
    · obtain ⟨t, ht⟩ := List.exists_mem_of_ne_nil _ hw
      rcases hc.kept t ht with hx | hx
      · rw [hq] at hx; simp at hx
      · exact List.ne_nil_of_mem hx
    · exact hc.go hl hq
  obtain ⟨t, ht⟩ := List.exists_mem_of_ne_nil _ hne
  exact ⟨t, ht, hc.wokenWaits t ht, (C94_grant h t).mpr hf⟩

/-- **C94** A release wakes the task that has stood in the queue longest, and no other. -/
theorem C94_release {n : Nat} {calm : Prop} {w w' : World} {t : Nat} (h : FairMutex.Reach n calm w) (hs : FairMutex.Step n calm w w') (hm : t ∈ w.holders) (hd : w'.holders = w.holders.erase t) :
    ∃ l, w.lock.queue = (w'.woken.drop w.woken.length) ++ l ∧ w'.lock.queue = l ∧ (w'.woken.drop w.woken.length).length = min 1 w.lock.queue.length := by
  have hlen : w.holders.length ≤ 1 := (C94_exclusion h).1
  have hpos := List.length_pos_of_mem hm
  have her := List.length_erase_of_mem hm
  have hl := congrArg List.length hd
  rw [her] at hl
  cases hs with
  | ready t' l hc h => simp only [List.length_cons] at hl; omega
  | pending t' l hc h => simp only at hl; omega
  | cancel t' hc h => simp only at hl; omega
  | drop t' l wk hm' h =>
    injection h with e1 e2
    subst e1 e2
    refine ⟨w.lock.queue.tail, ?_, rfl, ?_⟩ <;> cases w.lock.queue <;> simp

/-- **C94** (finding) The mutex is not fair: task 1 waits all the time and is polled after every wake-up, and task 0 takes the mutex `k` times in a row, for any `k`. -/
theorem C94_barging (n : Nat) (hn : 1 < n) : ∃ w, FairMutex.Reach n True w ∧ w.waiting = [1] ∧
    ∀ k, ∃ w', FairMutex.Steps n True (fun v => v.waiting = [1]) w w' ∧ w'.grants = w.grants ++ List.replicate k 0 ∧ w'.woken = [] ∧ w'.lock.queue = [1] := by
  have r0 : FairMutex.Reach n True World.new := .start
  have r1 := r0.step (.ready _ 0 ⟨true, []⟩ (fun _ => ⟨by omega, by simp [World.new]⟩) rfl)
  have r2 := r1.step (.pending _ 1 ⟨true, [1]⟩ (fun _ => ⟨hn, by simp [World.new]⟩) (by simp [Lock.poll, World.new]; omega))
  refine ⟨_, r2, rfl, fun k => ?_⟩
  show ∃ w', FairMutex.Steps n True (fun v => v.waiting = [1]) ⟨⟨true, [1]⟩, [0], [1], [], [0]⟩ w' ∧ w'.grants = [0] ++ List.replicate k 0 ∧ w'.woken = [] ∧ w'.lock.queue = [1]
  suffices FairMutex.Steps n True (fun v => v.waiting = [1]) ⟨⟨true, [1]⟩, [0], [1], [], [0]⟩ ⟨⟨true, [1]⟩, [0], [1], [], [0] ++ List.replicate k 0⟩ from ⟨_, this, rfl, rfl, rfl⟩
  induction k with
  | zero => exact .refl rfl
  | succ k ih =>
    -- task 0 releases the mutex, which wakes task 1, and takes it again before task 1 is polled
    have s1 := ih.step (.drop _ 0 ⟨false, []⟩ [1] (by simp) rfl) rfl
    have s2 := s1.step (.ready _ 0 ⟨true, []⟩ (fun _ => ⟨by omega, by simp⟩) rfl) rfl
    have s3 := s2.step (.pending _ 1 ⟨true, [1]⟩ (fun _ => ⟨hn, by simp⟩) (by simp [Lock.poll]; omega)) (by simp)
    rw [List.replicate_succ', ← List.append_assoc]
    exact s3

theorem fair_fill (n k : Nat) (hk : k ≤ n) : ∃ w, FairMutex.Reach n False w ∧ w.lock = ⟨true, List.range' 1 k⟩ ∧ w.holders = [0] ∧ w.waiting = List.range' 1 k ∧ w.woken = [] := by
  induction k with
  | zero => exact ⟨_, Reach.start.step (.ready _ 0 ⟨true, []⟩ False.elim rfl), rfl, rfl, rfl, rfl⟩
  | succ k ih =>
    obtain ⟨w, h1, h2, h3, h4, h5⟩ := ih (by omega)
    refine ⟨_, h1.step (.pending w (k + 1) ⟨true, List.range' 1 (k + 1)⟩ False.elim ?_), rfl, h3, ?_, ?_⟩
    · rw [h2]; simp [Lock.poll, List.range'_concat, Nat.add_comm]; omega
    · have : k + 1 ∉ w.waiting := by rw [h4, List.mem_range'_1]; omega
      show (if _ then _ else _) = _
      rw [if_neg this, h4, List.range'_concat, Nat.add_comm k 1]; simp
    · show w.woken.filter _ = []; rw [h5]; rfl

theorem fair_drain {n : Nat} (q : List Nat) (x : Nat) {w : World} (h : FairMutex.Reach n False w) (hl : w.lock = ⟨true, q⟩) {t : Nat} (ho : w.holders = [t]) (hw : w.waiting = q ++ [x]) (hk : w.woken = []) :
    ∃ w', FairMutex.Reach n False w' ∧ w'.lock = ⟨false, []⟩ ∧ w'.holders = [] ∧ w'.waiting = [x] ∧ w'.woken = [] := by
  induction q generalizing w t with
  | nil =>
    refine ⟨_, h.step (.drop w t ⟨false, []⟩ [] (by rw [ho]; simp) (by rw [hl]; rfl)), rfl, ?_, hw, ?_⟩
    · show w.holders.erase t = []; rw [ho]; simp
    · show w.woken ++ [] = []; rw [hk]; rfl
  | cons a q ih =>
    have s1 := h.step (.drop w t ⟨false, q⟩ [a] (by rw [ho]; simp) (by rw [hl]; rfl))
    have s2 := s1.step (.ready _ a ⟨true, q⟩ False.elim rfl)
    refine ih s2 rfl (t := a) ?_ ?_ ?_
    · show a :: w.holders.erase t = [a]; rw [ho]; simp
    · show w.waiting.erase a = q ++ [x]; rw [hw]; simp
    · show (w.woken ++ [a]).filter _ = []; rw [hk]; simp

/-- **C94** (finding) With `n + 1` waiting tasks a waker is dropped silently: all the others get and release the mutex, and then the mutex is free, no task is scheduled, and one still waits for ever. -/
theorem C94_queue_full (n : Nat) : ∃ w, FairMutex.Reach n False w ∧ w.lock = ⟨false, []⟩ ∧ w.holders = [] ∧ w.waiting = [n + 1] ∧ w.woken = [] := by
  obtain ⟨w, h1, h2, h3, h4, h5⟩ := fair_fill n n (Nat.le_refl n)
  have s := h1.step (.pending w (n + 1) ⟨true, List.range' 1 n⟩ False.elim (by rw [h2]; simp [Lock.poll]))
  refine fair_drain (List.range' 1 n) (n + 1) s rfl h3 ?_ ?_
  · have : n + 1 ∉ w.waiting := by rw [h4, List.mem_range'_1]; omega
    show (if _ then _ else _) = _
    rw [if_neg this, h4]
  · show w.woken.filter _ = []; rw [h5]; rfl

/-- **C94** (finding) A task that was woken drops its `lock()`: the wake-up is lost. The mutex is free, no task is scheduled, and task 2 waits for ever although its waker is in the queue. -/
theorem C94_cancelled (n : Nat) (hn : 1 < n) : ∃ w, FairMutex.Reach n False w ∧ w.lock = ⟨false, [2]⟩ ∧ w.holders = [] ∧ w.waiting = [2] ∧ w.woken = [] := by
  obtain ⟨w, h1, h2, h3, h4, h5⟩ := fair_fill n 2 (by omega)
  have s1 := h1.step (.drop w 0 ⟨false, [2]⟩ [1] (by rw [h3]; simp) (by rw [h2]; rfl))
  have s2 := s1.step (.cancel _ 1 (by simp) (by show 1 ∈ w.waiting; rw [h4]; simp))
  refine ⟨_, s2, rfl, ?_, ?_, ?_⟩
  · show w.holders.erase 0 = []; rw [h3]; rfl
  · show w.waiting.erase 1 = [2]; rw [h4]; rfl
  · show (w.woken ++ [1]).filter _ = []; rw [h5]; rfl

/-- the hypotheses of `C94_progress` hold with a free mutex and a task that waits -/
example : ∃ w, FairMutex.Reach 5 True w ∧ w.holders = [] ∧ w.waiting = [1] := by
  have r0 : FairMutex.Reach 5 True World.new := .start
  have r1 := r0.step (.ready _ 0 ⟨true, []⟩ (fun _ => ⟨by decide, by simp [World.new]⟩) rfl)
  have r2 := r1.step (.pending _ 1 ⟨true, [1]⟩ (fun _ => ⟨by decide, by simp [World.new]⟩) rfl)
  have r3 := r2.step (.drop _ 0 ⟨false, []⟩ [1] (by simp) rfl)
  exact ⟨_, r3, rfl, rfl⟩

/-- the hypotheses of `C94_release` hold with two tasks in the queue -/
example : ∃ w w', FairMutex.Reach 2 False w ∧ FairMutex.Step 2 False w w' ∧ 0 ∈ w.holders ∧ w'.holders = w.holders.erase 0 ∧ w.lock.queue = [1, 2] := by
  obtain ⟨w, h1, h2, h3, h4, h5⟩ := fair_fill 2 2 (Nat.le_refl 2)
  exact ⟨w, _, h1, .drop w 0 ⟨false, [2]⟩ [1] (by rw [h3]; simp) (by rw [h2]; rfl), by rw [h3]; simp, rfl, by rw [h2]; rfl⟩

end Verif.Props
