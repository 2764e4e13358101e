import Verif.Spec.RwLockHistory
/-
C22, C23: the reader/writer lock.
-/
namespace Verif.RwLock

/-- what the lock word means -/
structure Inv (n : Nat) (w : World) : Prop where
  word : match w.lock.locked with
    | .unlocked => w.readers = [] ∧ w.writers = []
    | .read k => w.readers.length = k ∧ 1 ≤ k ∧ w.writers = []
    | .write => w.readers = [] ∧ w.writers.length = 1
  pending : w.lock.pending = w.waitW.length + w.cancelled
  quiet : w.lock.locked = .unlocked → w.lock.wakers = []
  sched : ∀ t ∈ w.waitW, t ∈ w.lock.wakers ∨ t ∈ w.woken
  nodup : w.waitW.Nodup

theorem register_locked (n : Nat) (l : Lock) (t : Nat) : (l.register n t).1.locked = l.locked := by
  unfold Lock.register; split; rfl; split <;> rfl

theorem register_pending (n : Nat) (l : Lock) (t : Nat) : (l.register n t).1.pending = l.pending := by
  unfold Lock.register; split; rfl; split <;> rfl

theorem register_self (n : Nat) (l : Lock) (t : Nat) : t ∈ (l.register n t).1.wakers := by
  unfold Lock.register; split; assumption; split <;> simp

theorem register_keep (n : Nat) (l : Lock) (t x : Nat) (h : x ∈ l.wakers) : x ∈ (l.register n t).1.wakers ∨ x ∈ (l.register n t).2 := by
  unfold Lock.register
  split
  · exact Or.inl h
  · split
    · exact Or.inr h
    · exact Or.inl (List.mem_append_left _ h)

theorem pollRead_false {n : Nat} {l l' : Lock} {t : Nat} {wk : List Nat} (h : l.pollRead n t = (false, l', wk)) :
    (0 < l.pending ∧ l' = l ∧ wk = []) ∨ (l.locked = .write ∧ (l', wk) = l.register n t) := by
  unfold Lock.pollRead at h
  split at h
  · next hp => injection h with _ h; injection h with h1 h2; exact Or.inl ⟨hp, h1.symm, h2.symm⟩
  · split at h
    · injection h with h _; exact absurd h (by simp)
    · injection h with h _; exact absurd h (by simp)
    · next hl => injection h with _ h; exact Or.inr ⟨hl, h.symm⟩

theorem pollRead_true {n : Nat} {l l' : Lock} {t : Nat} {wk : List Nat} (h : l.pollRead n t = (true, l', wk)) :
    l.pending = 0 ∧ wk = [] ∧ ((l.locked = .unlocked ∧ l' = { l with locked := .read 1 }) ∨
      ∃ k, l.locked = .read k ∧ l' = { l with locked := .read (k + 1) }) := by
  unfold Lock.pollRead at h
  split at h
  · injection h with h _; exact absurd h (by simp)
  · next hp =>
    split at h
    · next hl => injection h with _ h; injection h with h1 h2; exact ⟨by omega, h2.symm, Or.inl ⟨hl, h1.symm⟩⟩
    · next k hl => injection h with _ h; injection h with h1 h2; exact ⟨by omega, h2.symm, Or.inr ⟨k, hl, h1.symm⟩⟩
    · injection h with h _; exact absurd h (by simp)

theorem pollWrite_true {n : Nat} {l l' : Lock} {t : Nat} {wk : List Nat} (h : l.pollWrite n t = (true, l', wk)) :
    wk = [] ∧ l.locked = .unlocked ∧ l' = { l with pending := l.pending - 1, locked := .write } := by
  unfold Lock.pollWrite at h
  split at h
  · next hl => injection h with _ h; injection h with h1 h2; exact ⟨h2.symm, hl, h1.symm⟩
  · injection h with h _; exact absurd h (by simp)

theorem pollWrite_false {n : Nat} {l l' : Lock} {t : Nat} {wk : List Nat} (h : l.pollWrite n t = (false, l', wk)) :
    l.locked ≠ .unlocked ∧ (l', wk) = l.register n t := by
  unfold Lock.pollWrite at h
  split at h
  · injection h with h _; exact absurd h (by simp)
  · next hl => injection h with _ h; exact ⟨hl, h.symm⟩

theorem mem_woken {woken wk : List Nat} {t x : Nat} (hx : x ≠ t) (h : x ∈ woken) : x ∈ woken.filter (· ≠ t) ++ wk :=
  List.mem_append_left _ (List.mem_filter.mpr ⟨h, by simpa using hx⟩)

theorem Inv.step {n : Nat} {w w' : World} (hi : Inv n w) (hs : Step n w w') : Inv n w' := by
  have hw := hi.word
  cases hs with
  | readReady t l wk hn h =>
    obtain ⟨hp, hwk, h2⟩ := pollRead_true h
    have hz : w.waitW = [] := by
      have := hi.pending; rw [hp] at this
      exact List.length_eq_zero_iff.mp (by omega)
    rcases h2 with ⟨hl, rfl⟩ | ⟨k, hl, rfl⟩
    · rw [hl] at hw
      refine ⟨⟨by simp [hw.1], by decide, hw.2⟩, hi.pending, by simp, ?_, hi.nodup⟩
      simp [hz]
    · rw [hl] at hw
      refine ⟨⟨by simp [hw.1], by omega, hw.2.2⟩, hi.pending, by simp, ?_, hi.nodup⟩
      simp [hz]
  | readPending t l wk hn h =>
    rcases pollRead_false h with ⟨_, rfl, rfl⟩ | ⟨hl, hreg⟩
    · refine ⟨hw, hi.pending, hi.quiet, ?_, hi.nodup⟩
      intro x hx
      rcases hi.sched x hx with h | h
      · exact Or.inl h
      · exact Or.inr (mem_woken (by intro e; subst e; exact hn hx) h)
    · have e1 : l = (w.lock.register n t).1 := congrArg Prod.fst hreg
      have e2 : wk = (w.lock.register n t).2 := congrArg Prod.snd hreg
      subst e1; subst e2
      refine ⟨by rw [register_locked]; exact hw, by rw [register_pending]; exact hi.pending, by rw [register_locked, hl]; simp, ?_, hi.nodup⟩
      intro x hx
      rcases hi.sched x hx with h | h
      · rcases register_keep n w.lock t x h with h | h
        · exact Or.inl h
        · exact Or.inr (List.mem_append_right _ h)
      · exact Or.inr (mem_woken (by intro e; subst e; exact hn hx) h)
  | readCancel t h => exact ⟨hw, hi.pending, hi.quiet, hi.sched, hi.nodup⟩
  | writeStartReady t l wk hn hr h =>
    obtain ⟨rfl, hl, rfl⟩ := pollWrite_true h
    have hl' : w.lock.locked = .unlocked := hl
    rw [hl'] at hw
    refine ⟨⟨hw.1, by simp [hw.2]⟩, ?_, by simp, ?_, hi.nodup⟩
    · have := hi.pending; simp only [Lock.startWrite]; omega
    · intro x hx
      rcases hi.sched x hx with h | h
      · rw [hi.quiet hl'] at h; simp at h
      · exact Or.inr (mem_woken (by intro e; subst e; exact hn hx) h)
  | writeStartPending t l wk hn hr h =>
    obtain ⟨hl, hreg⟩ := pollWrite_false h
    have e1 : l = (w.lock.startWrite.register n t).1 := congrArg Prod.fst hreg
    have e2 : wk = (w.lock.startWrite.register n t).2 := congrArg Prod.snd hreg
    subst e1; subst e2
    refine ⟨by rw [register_locked]; exact hw, ?_, ?_, ?_, List.nodup_cons.mpr ⟨hn, hi.nodup⟩⟩
    · rw [register_pending]; have := hi.pending; simp only [Lock.startWrite, List.length_cons]; omega
    · rw [register_locked]; intro h; exact absurd h hl
    · intro x hx
      rcases List.mem_cons.mp hx with rfl | hx2
      · exact Or.inl (register_self _ _ _)
      · rcases hi.sched x hx2 with h | h
        · rcases register_keep n w.lock.startWrite t x h with h | h
          · exact Or.inl h
          · exact Or.inr (List.mem_append_right _ h)
        · exact Or.inr (mem_woken (by intro e; subst e; exact hn hx2) h)
  | writeReady t l wk hwt h =>
    obtain ⟨rfl, hl, rfl⟩ := pollWrite_true h
    rw [hl] at hw
    refine ⟨⟨hw.1, by simp [hw.2]⟩, ?_, by simp, ?_, hi.nodup.erase _⟩
    · have := hi.pending
      have h1 := List.length_erase_of_mem hwt
      have h2 : 0 < w.waitW.length := List.length_pos_of_mem hwt
      simp only; omega
    · intro x hx
      have hx2 : x ∈ w.waitW := List.mem_of_mem_erase hx
      rcases hi.sched x hx2 with h | h
      · rw [hi.quiet hl] at h; simp at h
      · by_cases hxt : x = t
        · -- the same task cannot wait twice
          subst hxt
          exact absurd hx (hi.nodup.not_mem_erase)
        · exact Or.inr (mem_woken hxt h)
  | writePending t l wk hwt h =>
    obtain ⟨hl, hreg⟩ := pollWrite_false h
    have e1 : l = (w.lock.register n t).1 := congrArg Prod.fst hreg
    have e2 : wk = (w.lock.register n t).2 := congrArg Prod.snd hreg
    subst e1; subst e2
    refine ⟨by rw [register_locked]; exact hw, by rw [register_pending]; exact hi.pending, by rw [register_locked]; intro h; exact absurd h hl, ?_, hi.nodup⟩
    intro x hx
    by_cases hxt : x = t
    · subst hxt; exact Or.inl (register_self _ _ _)
    · rcases hi.sched x hx with h | h
      · rcases register_keep n w.lock t x h with h | h
        · exact Or.inl h
        · exact Or.inr (List.mem_append_right _ h)
      · exact Or.inr (mem_woken hxt h)
  | writeCancel t h =>
    refine ⟨hw, ?_, hi.quiet, fun x hx => hi.sched x (List.mem_of_mem_erase hx), hi.nodup.erase _⟩
    have := hi.pending
    have h1 := List.length_erase_of_mem h
    have h2 : 0 < w.waitW.length := List.length_pos_of_mem h
    simp only; omega
  | readDrop t l wk hr h =>
    unfold Lock.dropRead at h
    split at h
    · next k hl =>
      injection h with h
      injection h with h1 h2
      subst h1; subst h2
      rw [hl] at hw
      have hlen := List.length_erase_of_mem hr
      refine ⟨?_, hi.pending, fun _ => rfl, ?_, hi.nodup⟩
      · by_cases hk : k = 1
        · rw [if_pos hk]
          exact ⟨List.length_eq_zero_iff.mp (by simp only; omega), hw.2.2⟩
        · rw [if_neg hk]
          exact ⟨by simp only; omega, by omega, hw.2.2⟩
      · intro x hx
        rcases hi.sched x hx with h | h
        · exact Or.inr (List.mem_append_right _ h)
        · exact Or.inr (List.mem_append_left _ h)
    · exact absurd h (by simp)
  | writeDrop t l wk hr h =>
    unfold Lock.dropWrite at h
    split at h
    · next hl =>
      injection h with h
      injection h with h1 h2
      subst h1; subst h2
      rw [hl] at hw
      have hlen := List.length_erase_of_mem hr
      refine ⟨⟨hw.1, List.length_eq_zero_iff.mp (by simp only; omega)⟩, hi.pending, fun _ => rfl, ?_, hi.nodup⟩
      intro x hx
      rcases hi.sched x hx with h | h
      · exact Or.inr (List.mem_append_right _ h)
      · exact Or.inr (List.mem_append_left _ h)
    · exact absurd h (by simp)

theorem reach_inv {n : Nat} {w : World} (h : Reach n w) : Inv n w := by
  induction h with
  | start => exact ⟨⟨rfl, rfl⟩, rfl, fun _ => rfl, by simp [World.new], by simp [World.new]⟩
  | step _ hs ih => exact ih.step hs

theorem Reach.steps {n : Nat} {w w' : World} (h : Reach n w) (hs : Steps n w w') : Reach n w' := by
  induction hs with
  | refl => exact h
  | step _ hs ih => exact ih.step hs

end Verif.RwLock

namespace Verif.Props
open Verif Verif.RwLock

/-! ### C22 -/

/-- **C22** In every schedule: while a write guard exists it is the only guard. -/
theorem C22_exclusion {n : Nat} {w : World} (h : RwLock.Reach n w) (hw : w.writers ≠ []) : w.writers.length = 1 ∧ w.readers = [] := by
  have hi := (RwLock.reach_inv h).word
  split at hi
  · exact absurd hi.2 hw
  · exact absurd hi.2.2 hw
  · exact ⟨hi.2, hi.1⟩

/-- **C22** Dropping a guard never panics and the lock ends up free exactly when the last guard is gone. -/
theorem C22_drop {n : Nat} {w : World} (h : RwLock.Reach n w) :
    (w.readers ≠ [] → ∃ l wk, w.lock.dropRead = some (l, wk) ∧ (l.locked = .unlocked ↔ w.readers.length = 1)) ∧
    (w.writers ≠ [] → ∃ l wk, w.lock.dropWrite = some (l, wk) ∧ l.locked = .unlocked) ∧
    (w.lock.locked = .unlocked ↔ w.readers = [] ∧ w.writers = []) := by
  have hi := (RwLock.reach_inv h).word
  split at hi
  · next hl =>
    exact ⟨fun hn => absurd hi.1 hn, fun hn => absurd hi.2 hn, ⟨fun _ => hi, fun _ => hl⟩⟩
  · next k hl =>
    refine ⟨fun _ => ?_, fun hn => absurd hi.2.2 hn, ⟨fun hn => by rw [hl] at hn; simp at hn, fun hn => ?_⟩⟩
    · refine ⟨_, _, by unfold Lock.dropRead; rw [hl], ?_⟩
      simp only [Lock.wake, hi.1]
      split <;> simp_all
    · rw [hn.1] at hi; simp at hi; omega
  · next hl =>
    refine ⟨fun hn => absurd hi.1 hn, fun _ => ⟨_, _, by unfold Lock.dropWrite; rw [hl], rfl⟩,
      ⟨fun hn => by rw [hl] at hn; simp at hn, fun hn => ?_⟩⟩
    rw [hn.2] at hi; simp at hi

/-- **C22** With no writer around, any number of readers can hold the lock at once. -/
theorem C22_readers_share (n k : Nat) : ∃ w, RwLock.Reach n w ∧ w.readers = List.replicate k 7 ∧ w.writers = [] ∧ w.lock.pending = 0 ∧ w.waitW = [] ∧
    w.lock.locked = (if k = 0 then .unlocked else .read k) := by
  induction k with
  | zero => exact ⟨_, .start, rfl, rfl, rfl, rfl, rfl⟩
  | succ k ih =>
    obtain ⟨w, h1, h2, h3, h4, h5, h6⟩ := ih
    have hp : w.lock.pollRead n 7 = (true, { w.lock with locked := .read (k + 1) }, []) := by
      unfold Lock.pollRead
      rw [if_neg (by omega), h6]
      by_cases hk : k = 0
      · subst hk; rfl
      · rw [if_neg hk]
    refine ⟨_, h1.step (.readReady w 7 _ _ (by rw [h5]; simp) hp), by rw [h2]; rfl, h3, h4, h5, by simp⟩

/-! ### C23 -/

/-- **C23** (what holds) A waiting writer is never forgotten: it is registered for the next release or has been woken already,
and whenever the lock is free it has been woken. -/
theorem C23_writer_woken {n : Nat} {w : World} (h : RwLock.Reach n w) {t : Nat} (ht : t ∈ w.waitW) :
    (t ∈ w.lock.wakers ∨ t ∈ w.woken) ∧ (w.lock.locked = .unlocked → t ∈ w.woken ∧
      ∃ l wk, w.lock.pollWrite n t = (true, l, wk)) := by
  have hi := RwLock.reach_inv h
  refine ⟨hi.sched t ht, ?_⟩
  intro hl
  refine ⟨?_, _, _, by unfold Lock.pollWrite; rw [hl]⟩
  rcases hi.sched t ht with h | h
  · rw [hi.quiet hl] at h; simp at h
  · exact h

/-- **C23** (what does not hold, 1) There is a schedule without cancellations after which the lock is free and nobody holds or waits for
it except one reader, which has not been woken and never will be: no task is scheduled. -/
theorem C23_reader_lost (n : Nat) (hn : 0 < n) : ∃ w, RwLock.Reach n w ∧ w.lock.locked = .unlocked ∧ w.lock.pending = 0 ∧ w.lock.wakers = [] ∧
    w.readers = [] ∧ w.writers = [] ∧ w.waitW = [] ∧ w.cancelled = 0 ∧ w.woken = [] ∧ w.waitR = [3] := by
  have r0 : RwLock.Reach n World.new := .start
  -- task 1 reads
  have r1 := r0.step (.readReady _ 1 ⟨.read 1, 0, []⟩ [] (by simp [World.new]) rfl)
  -- task 2 wants to write and waits
  have r2 := r1.step (.writeStartPending _ 2 ⟨.read 1, 1, [2]⟩ [] (by simp [World.new]) (by simp [World.new]) (by
    simp [Lock.startWrite, Lock.pollWrite, Lock.register]; try omega))
  -- task 3 wants to read and waits, unregistered
  have r3 := r2.step (.readPending _ 3 ⟨.read 1, 1, [2]⟩ [] (by simp [World.new]) (by simp [Lock.pollRead]))
  -- task 1 releases, task 2 is woken, writes and releases
  have r4 := r3.step (.readDrop _ 1 ⟨.unlocked, 1, []⟩ [2] (by simp [World.new]) (by simp [Lock.dropRead, Lock.wake]))
  have r5 := r4.step (.writeReady _ 2 ⟨.write, 0, []⟩ [] (by simp [World.new]) (by simp [Lock.pollWrite]))
  have r6 := r5.step (.writeDrop _ 2 ⟨.unlocked, 0, []⟩ [] (by simp) (by simp [Lock.dropWrite, Lock.wake]))
  refine ⟨_, r6, rfl, rfl, rfl, ?_, ?_, ?_, rfl, ?_, ?_⟩ <;> simp [World.new]

/-- **C23** (what does not hold, 2) Once a pending `write()` has been dropped, no `read()` is ever granted again, whatever happens. -/
theorem C23_cancelled_writer_blocks {n : Nat} {w w' : World} (h : RwLock.Reach n w) {t : Nat} (ht : t ∈ w.waitW)
    (hs : RwLock.Steps n { w with waitW := w.waitW.erase t, cancelled := w.cancelled + 1 } w') (x : Nat) :
    ∃ l wk, w'.lock.pollRead n x = (false, l, wk) := by
  have hr : RwLock.Reach n { w with waitW := w.waitW.erase t, cancelled := w.cancelled + 1 } := h.step (.writeCancel w t ht)
  have hc : 0 < w'.cancelled := by
    clear hr
    induction hs with
    | refl => exact Nat.succ_pos _
    | step _ hs ih => cases hs <;> simp only <;> omega
  have hp := (RwLock.reach_inv (hr.steps hs)).pending
  exact ⟨_, _, by unfold Lock.pollRead; rw [if_pos (by omega)]⟩

/-- hypotheses of C22/C23 are met: a writer waits while another one holds the lock -/
example : ∃ w, RwLock.Reach 10 w ∧ w.writers = [1] ∧ w.waitW = [2] := by
  have r1 := RwLock.Reach.start (n := 10) |>.step (.writeStartReady _ 1 ⟨.write, 0, []⟩ [] (by simp [World.new]) (by simp [World.new]) rfl)
  have r2 := r1.step (.writeStartPending _ 2 ⟨.write, 1, [2]⟩ [] (by simp [World.new]) (by simp [World.new]) (by
    simp [Lock.startWrite, Lock.pollWrite, Lock.register]))
  exact ⟨_, r2, rfl, rfl⟩

end Verif.Props
