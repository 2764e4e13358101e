import Verif.Spec.SimClock
import Mathlib.Tactic.Linarith
import Mathlib.Data.List.Induction
/- C116: the simulated clock of the Simulink bridge. -/
namespace Verif.Props
open Verif.SimClock

theorem simrun_append (w : World) (a b : List Op) : w.run (a ++ b) = ((w.run a).1 ++ ((w.run a).2.run b).1, ((w.run a).2.run b).2) := by
  induction a generalizing w with
  | nil => rfl
  | cons o a ih => simp only [List.cons_append, World.run, ih, List.append_assoc]

theorem simrun_snoc (w : World) (a : List Op) (o : Op) : (w.run (a ++ [o])).2 = ((w.run a).2.step o).2 := by
  rw [simrun_append]; rfl

theorem now_snoc (a : List Op) (o : Op) : now (a ++ [o]) = match o with | .update t' => t' | _ => now a := by
  rw [now, List.foldl_append]
  cases o <;> rfl

theorem poll_time (w : World) (id : Nat) : (w.poll id).2.clock.time = w.clock.time := by
  unfold World.poll
  split
  · split
    · rfl
    · unfold World.pollFn; split <;> rfl
  · unfold World.pollFn; split <;> rfl
  · rfl
  · rfl

/-- **C116 (the clock)**: `now_ms` is the time last set, in milliseconds; nothing else moves the clock. -/
theorem C116_now (ops : List Op) : (World.init.run ops).2.nowMs = now ops * 1000 := by
  unfold World.nowMs
  congr 1
  induction ops using List.reverseRecOn with
  | nil => rfl
  | append_singleton ops o ih =>
    rw [simrun_snoc, now_snoc]
    cases o with
    | create id d => simp only [World.step]; split <;> exact ih
    | poll id => exact (poll_time _ _).trans ih
    | drop id => simp only [World.step]; split <;> exact ih
    | update t => rfl

theorem sim_time (ops : List Op) : (World.init.run ops).2.clock.time = now ops := by
  have h := C116_now ops
  unfold World.nowMs at h
  linarith

theorem peek_none {l : List Entry} (h : peek l = none) : l = [] := by
  cases l with
  | nil => rfl
  | cons e l =>
    rw [peek] at h
    split at h
    · cases h
    · split at h <;> cases h

theorem peek_min {l : List Entry} {e : Entry} (h : peek l = some e) : ∀ f ∈ l, e.1 ≤ f.1 := by
  induction l generalizing e with
  | nil => simp
  | cons x l ih =>
    intro f hf
    rw [peek] at h
    split at h
    · rename_i hn
      cases h
      rw [peek_none hn] at hf
      simp at hf; subst hf; exact le_refl _
    · rename_i g hg
      have := ih hg
      rcases List.mem_cons.mp hf with rfl | hf
      · split at h <;> cases h
        · rename_i hlt; exact le_of_lt hlt
        · exact le_refl _
      · have h2 := this f hf
        split at h <;> cases h
        · exact h2
        · rename_i hlt; linarith [not_lt.mp hlt]

/-- what the loop of `update_time` does -/
theorem wakeLoop_spec (t : Rat) (l : List Entry) : ∃ l1 : List Entry, (wakeLoop t l).1 = l1.map (·.2) ∧ l1.Pairwise (fun e f => e.1 ≤ f.1) ∧ (∀ e ∈ l1, e.1 ≤ t) ∧
    (∀ e ∈ (wakeLoop t l).2, t < e.1) ∧ (l1 ++ (wakeLoop t l).2).Perm l := by
  induction hn : l.length using Nat.strong_induction_on generalizing l with
  | _ n ih =>
    rw [wakeLoop]
    split
    · rename_i h
      rw [peek_none h]
      exact ⟨[], rfl, List.Pairwise.nil, by simp, by simp, List.Perm.refl _⟩
    · rename_i e h
      have hm := peek_mem h
      split
      · rename_i hle
        have hlen := List.length_pos_of_mem hm
        obtain ⟨l1, h1, h2, h3, h4, h5⟩ := ih (l.erase e).length (by rw [List.length_erase_of_mem hm]; omega) _ rfl
        refine ⟨e :: l1, by rw [List.map_cons, ← h1], List.pairwise_cons.mpr ⟨?_, h2⟩, ?_, h4, ?_⟩
        · intro f hf
          exact peek_min h f (List.mem_of_mem_erase (h5.subset (List.mem_append_left _ hf)))
        · intro f hf
          rcases List.mem_cons.mp hf with rfl | hf
          · exact hle
          · exact h3 f hf
        · exact (List.Perm.cons e h5).trans (List.perm_cons_erase hm).symm
      · rename_i hle
        exact ⟨[], rfl, List.Pairwise.nil, by simp, fun f hf => lt_of_lt_of_le (not_le.mp hle) (peek_min h f hf), List.Perm.refl _⟩

theorem wakeLoop_keep (t : Rat) (l : List Entry) (e : Entry) : e ∈ (wakeLoop t l).2 ↔ e ∈ l ∧ t < e.1 := by
  obtain ⟨l1, _, _, h3, h4, h5⟩ := wakeLoop_spec t l
  constructor
  · intro h; exact ⟨h5.subset (List.mem_append_right _ h), h4 e h⟩
  · rintro ⟨h, hlt⟩
    rcases List.mem_append.mp (h5.symm.subset h) with h | h
    · exact absurd (h3 e h) (not_le.mpr hlt)
    · exact h

theorem wakeLoop_wakes (t : Rat) (l : List Entry) (i : Nat) : i ∈ (wakeLoop t l).1 ↔ ∃ x, (x, i) ∈ l ∧ x ≤ t := by
  obtain ⟨l1, h1, _, h3, h4, h5⟩ := wakeLoop_spec t l
  rw [h1]
  constructor
  · intro h
    obtain ⟨e, he, rfl⟩ := List.mem_map.mp h
    exact ⟨e.1, h5.subset (List.mem_append_left _ he), h3 e he⟩
  · rintro ⟨x, hx, hle⟩
    rcases List.mem_append.mp (h5.symm.subset hx) with h | h
    · exact List.mem_map.mpr ⟨_, h, rfl⟩
    · exact absurd hle (not_le.mpr (h4 _ h))

/-! ### One delay -/

theorem setDelay_self (w : World) (id : Nat) (s : DelaySt) : (w.setDelay id s).delays id = s := by simp [World.setDelay]
theorem setDelay_other (w : World) (id i : Nat) (s : DelaySt) (h : i ≠ id) : (w.setDelay id s).delays i = w.delays i := by simp [World.setDelay, h]

theorem poll_other (w : World) (id i : Nat) (h : i ≠ id) : (w.poll id).2.delays i = w.delays i := by
  unfold World.poll
  split
  · split
    · exact setDelay_other _ _ _ _ h
    · unfold World.pollFn; split <;> exact setDelay_other _ _ _ _ h
  · unfold World.pollFn; split <;> exact setDelay_other _ _ _ _ h
  · rfl
  · rfl

theorem poll_other_ready (w : World) (id i : Nat) (h : i ≠ id) : .ready i ∉ (w.poll id).1 := by
  unfold World.poll
  split
  · split
    · simp [h]
    · unfold World.pollFn; split <;> simp [h]
  · unfold World.pollFn; split <;> simp [h]
  · simp
  · simp

theorem poll_other_heap (w : World) (id i : Nat) (h : i ≠ id) (x : Rat) : (x, i) ∈ (w.poll id).2.clock.wakers ↔ (x, i) ∈ w.clock.wakers := by
  unfold World.poll
  split
  · split
    · rfl
    · unfold World.pollFn; split
      · rfl
      · simp [h]
  · unfold World.pollFn; split
    · rfl
    · simp [h]
  · rfl
  · rfl

theorem poll_no_woke (w : World) (id i : Nat) : .woke i ∉ (w.poll id).1 := by
  unfold World.poll
  split
  · split
    · simp
    · unfold World.pollFn; split <;> simp
  · unfold World.pollFn; split <;> simp
  · simp
  · simp

/-- what an operation not about a delay does to it -/
theorem step_delay (w : World) (o : Op) (id : Nat) (hp : o ≠ .poll id) (hd : o ≠ .drop id) (hc : ∀ d, o = .create id d → w.delays id ≠ .absent) : (w.step o).2.delays id = w.delays id := by
  cases o with
  | create i d =>
    simp only [World.step]
    split
    · rename_i h
      by_cases hi : i = id
      · subst hi; exact absurd h (hc d rfl)
      · exact setDelay_other _ _ _ _ (Ne.symm hi)
    · rfl
  | poll i => exact poll_other w i id (fun h => hp (by rw [h]))
  | drop i =>
    simp only [World.step]
    split
    · rfl
    · exact setDelay_other _ _ _ _ (fun h => hd (by rw [h]))
  | update t => rfl

/-- before it is called there is no delay -/
theorem absent_before (a : List Op) (id : Nat) (h : ∀ d', .create id d' ∉ a) : (World.init.run a).2.delays id = .absent ∧ ∀ x, (x, id) ∉ (World.init.run a).2.clock.wakers := by
  induction a using List.reverseRecOn with
  | nil => exact ⟨rfl, by simp [World.run, World.init]⟩
  | append_singleton a o ih =>
    obtain ⟨h1, h2⟩ := ih (fun d' h' => h d' (List.mem_append_left _ h'))
    rw [simrun_snoc]
    generalize (World.init.run a).2 = w at h1 h2
    cases o with
    | create i d =>
      have hi : i ≠ id := fun e => h d (by rw [e]; simp)
      simp only [World.step]
      split
      · exact ⟨by rw [setDelay_other _ _ _ _ (Ne.symm hi)]; exact h1, h2⟩
      · exact ⟨h1, h2⟩
    | poll i =>
      by_cases hi : i = id
      · subst hi
        have : w.step (.poll i) = ([], w) := by show w.poll i = _; unfold World.poll; rw [h1]
        rw [this]; exact ⟨h1, h2⟩
      · exact ⟨(poll_other w i id (Ne.symm hi)).trans h1, fun x hx => h2 x ((poll_other_heap w i id (Ne.symm hi) x).mp hx)⟩
    | drop i =>
      simp only [World.step]
      split
      · exact ⟨h1, h2⟩
      · rename_i hne
        have hi : i ≠ id := by rintro rfl; exact hne h1
        exact ⟨by rw [setDelay_other _ _ _ _ (Ne.symm hi)]; exact h1, h2⟩
    | update t => exact ⟨h1, fun x hx => h2 x ((wakeLoop_keep _ _ _).mp hx).1⟩

theorem step_heap_fresh (w : World) (o : Op) (id : Nat) (hp : o ≠ .poll id) (h2 : ∀ x, (x, id) ∉ w.clock.wakers) : ∀ x, (x, id) ∉ (w.step o).2.clock.wakers := by
  intro x hx
  cases o with
  | create i d => apply h2 x; revert hx; simp only [World.step]; split <;> exact fun h => h
  | poll i => exact h2 x ((poll_other_heap w i id (fun h => hp (by rw [h])) x).mp hx)
  | drop i => apply h2 x; revert hx; simp only [World.step]; split <;> exact fun h => h
  | update t => exact h2 x ((wakeLoop_keep _ _ _).mp hx).1

/-- called and not polled yet -/
theorem fresh_after (a b : List Op) (id : Nat) (d : Rat) (h : ∀ d', .create id d' ∉ a) (hp : .poll id ∉ b) (hd : .drop id ∉ b) :
    (World.init.run (a ++ .create id d :: b)).2.delays id = .fresh d ∧ ∀ x, (x, id) ∉ (World.init.run (a ++ .create id d :: b)).2.clock.wakers := by
  induction b using List.reverseRecOn with
  | nil =>
    obtain ⟨h1, h2⟩ := absent_before a id h
    rw [simrun_snoc]
    simp only [World.step, h1]
    exact ⟨setDelay_self _ _ _, h2⟩
  | append_singleton b o ih =>
    obtain ⟨h1, h2⟩ := ih (fun h' => hp (List.mem_append_left _ h')) (fun h' => hd (List.mem_append_left _ h'))
    rw [show a ++ .create id d :: (b ++ [o]) = (a ++ .create id d :: b) ++ [o] by simp, simrun_snoc]
    have e1 : o ≠ .poll id := fun e => hp (by rw [e]; simp)
    have e2 : o ≠ .drop id := fun e => hd (by rw [e]; simp)
    exact ⟨by rw [step_delay _ _ _ e1 e2 (fun _ _ => by rw [h1]; simp)]; exact h1, step_heap_fresh _ _ _ e1 h2⟩

theorem alive_snoc (pre c : List Op) (o : Op) (id : Nat) (wake : Rat) : Alive pre (c ++ [o]) id wake ↔ Alive pre c id wake ∧ o ≠ .drop id ∧ (o = .poll id → now (pre ++ c) < wake) := by
  constructor
  · rintro ⟨h1, h2⟩
    refine ⟨⟨fun h => h1 (List.mem_append_left _ h), fun c1 c2 e => h2 c1 (c2 ++ [o]) (by rw [e]; simp)⟩, fun e => h1 (by rw [e]; simp), fun e => h2 c [] (by rw [e])⟩
  · rintro ⟨⟨h1, h2⟩, h3, h4⟩
    refine ⟨fun h => ?_, fun c1 c2 e => ?_⟩
    · rcases List.mem_append.mp h with h | h
      · exact h1 h
      · exact h3 (List.mem_singleton.mp h).symm
    · rcases List.eq_nil_or_concat c2 with rfl | ⟨c2, x, rfl⟩
      · obtain ⟨rfl, h⟩ := List.append_inj' e rfl
        exact h4 (by simpa using h)
      · have : c ++ [o] = (c1 ++ .poll id :: c2) ++ [x] := by rw [e]; simp
        obtain ⟨rfl, _⟩ := List.append_inj' this rfl
        exact h2 c1 c2 rfl

/-- the entry of a pending poll is still in the heap -/
def Registered (pre c : List Op) (id : Nat) (wake : Rat) : Prop :=
  ∃ c1 c2, c = c1 ++ .poll id :: c2 ∧ Alive pre (c1 ++ [.poll id]) id wake ∧ ∀ t, .update t ∈ c2 → t < wake

theorem registered_snoc (pre c : List Op) (o : Op) (id : Nat) (wake : Rat) : Registered pre (c ++ [o]) id wake ↔
    (Registered pre c id wake ∧ ∀ t, o = .update t → t < wake) ∨ (o = .poll id ∧ Alive pre (c ++ [.poll id]) id wake) := by
  constructor
  · rintro ⟨c1, c2, e, h1, h2⟩
    rcases List.eq_nil_or_concat c2 with rfl | ⟨c2, x, rfl⟩
    · obtain ⟨rfl, h⟩ := List.append_inj' e rfl
      exact .inr ⟨by simpa using h, h1⟩
    · have : c ++ [o] = (c1 ++ .poll id :: c2) ++ [x] := by rw [e]; simp
      obtain ⟨rfl, h⟩ := List.append_inj' this rfl
      obtain rfl : o = x := by simpa using h
      exact .inl ⟨⟨c1, c2, rfl, h1, fun t ht => h2 t (by simp [ht])⟩, fun t ht => h2 t (by simp [ht])⟩
  · rintro (⟨⟨c1, c2, rfl, h1, h2⟩, h3⟩ | ⟨rfl, h⟩)
    · refine ⟨c1, c2 ++ [o], by simp, h1, fun t ht => ?_⟩
      rcases List.mem_append.mp ht with ht | ht
      · exact h2 t ht
      · exact h3 t (List.mem_singleton.mp ht).symm
    · exact ⟨c, [], rfl, h, by simp⟩

theorem not_registered_nil (pre : List Op) (id : Nat) (wake : Rat) : ¬ Registered pre [] id wake := by
  rintro ⟨c1, c2, e, _⟩; cases c1 <;> simp at e

theorem drop_step (w : World) (id : Nat) (h : w.delays id ≠ .absent) : w.step (.drop id) = ([], w.setDelay id .over) := by
  unfold World.step
  cases h' : w.delays id with
  | absent => exact absurd h' h
  | _ => simp only [h']

/-- the state of a delay once it is polled -/
theorem delay_state (pre c : List Op) (id : Nat) (wake : Rat) (h : Begun pre id wake) :
    (Alive pre (.poll id :: c) id wake → (World.init.run (pre ++ .poll id :: c)).2.delays id = .waiting wake) ∧
    (¬ Alive pre (.poll id :: c) id wake → (World.init.run (pre ++ .poll id :: c)).2.delays id = .over) ∧
    ∀ x, (x, id) ∈ (World.init.run (pre ++ .poll id :: c)).2.clock.wakers ↔ x = wake ∧ Registered pre (.poll id :: c) id wake := by
  induction c using List.reverseRecOn with
  | nil =>
    obtain ⟨a, b, d, rfl, h1, h2, h3, hw⟩ := h
    obtain ⟨hf, hh⟩ := fresh_after a b id d h1 h2 h3
    have ht := sim_time (a ++ .create id d :: b)
    generalize hpre : a ++ .create id d :: b = pre at *
    rw [show [Op.poll id] = [] ++ [.poll id] from rfl] at *
    rw [alive_snoc, List.nil_append, simrun_snoc]
    have hal : Alive pre [] id wake := ⟨by simp, fun c1 c2 e => by cases c1 <;> simp at e⟩
    have hreg := registered_snoc pre [] (.poll id) id wake
    rw [alive_snoc] at hreg
    simp only [List.nil_append, List.append_nil] at hreg ⊢
    simp only [hal, true_and, not_registered_nil, false_and, false_or, ne_eq, reduceCtorEq, not_false_eq_true, forall_const] at hreg ⊢
    rw [hreg]
    generalize (World.init.run pre).2 = w at *
    show _ ∧ _ ∧ ∀ x, (x, id) ∈ (w.poll id).2.clock.wakers ↔ _
    change (_ → (w.poll id).2.delays id = _) ∧ (_ → (w.poll id).2.delays id = _) ∧ _
    unfold World.poll
    rw [hf]
    by_cases hd : d ≤ 0
    · simp only [hd, if_true]
      have : ¬ now pre < wake := by rw [hw]; linarith
      exact ⟨fun h => absurd h this, fun _ => setDelay_self _ _ _, fun x => ⟨fun hx => absurd hx (hh x), fun hx => absurd hx.2 this⟩⟩
    · simp only [hd, if_false]
      have hlt : now pre < wake := by rw [hw]; linarith [not_le.mp hd]
      rw [show w.clock.time + d = wake by rw [ht, hw]]
      unfold World.pollFn
      rw [if_neg (by rw [ht]; linarith)]
      refine ⟨fun _ => setDelay_self _ _ _, fun h => absurd hlt h, fun x => ?_⟩
      show (x, id) ∈ (wake, id) :: w.clock.wakers ↔ _
      simp [hh, hlt]
  | append_singleton c o ih =>
    obtain ⟨i1, i2, i3⟩ := ih
    rw [show pre ++ Op.poll id :: (c ++ [o]) = (pre ++ .poll id :: c) ++ [o] by simp, show Op.poll id :: (c ++ [o]) = (.poll id :: c) ++ [o] from rfl, alive_snoc, registered_snoc, alive_snoc, simrun_snoc]
    have ht := sim_time (pre ++ .poll id :: c)
    generalize hcc : Op.poll id :: c = cc at *
    generalize (World.init.run (pre ++ cc)).2 = w at *
    have hns : w.delays id ≠ .absent := by
      by_cases hA : Alive pre cc id wake
      · rw [i1 hA]; simp
      · rw [i2 hA]; simp
    by_cases hp : o = .poll id
    · subst hp
      change (_ → (w.poll id).2.delays id = _) ∧ (_ → (w.poll id).2.delays id = _) ∧ ∀ x, (x, id) ∈ (w.poll id).2.clock.wakers ↔ _
      simp only [ne_eq, reduceCtorEq, not_false_eq_true, true_and, forall_const, true_implies, IsEmpty.forall_iff, and_true]
      by_cases hA : Alive pre cc id wake
      · unfold World.poll
        rw [i1 hA]
        simp only [hA, true_and]
        unfold World.pollFn
        rw [ht]
        by_cases hlt : now (pre ++ cc) < wake
        · simp only [hlt, not_true, false_implies, true_implies, if_neg (not_le.mpr hlt), true_and, and_true, or_true]
          refine ⟨setDelay_self _ _ _, fun x => ?_⟩
          show (x, id) ∈ (wake, id) :: w.clock.wakers ↔ _
          constructor
          · intro hx
            rcases List.mem_cons.mp hx with hx | hx
            · cases hx; rfl
            · exact ((i3 x).mp hx).1
          · rintro rfl; simp
        · simp only [hlt, false_implies, not_false_eq_true, true_implies, if_pos (not_lt.mp hlt), true_and, or_false]
          exact ⟨setDelay_self _ _ _, i3⟩
      · unfold World.poll
        rw [i2 hA]
        simp only [hA, false_and, false_implies, not_false_eq_true, true_implies, true_and, or_false]
        exact ⟨i2 hA, i3⟩
    by_cases hd : o = .drop id
    · subst hd
      simp only [ne_eq, not_true, false_and, and_false, false_implies, not_false_eq_true, true_implies, reduceCtorEq, IsEmpty.forall_iff, implies_true, and_true, or_false, true_and]
      rw [drop_step w id hns]
      exact ⟨setDelay_self _ _ _, i3⟩
    · rw [step_delay w o id hp hd (fun _ _ => hns)]
      simp only [hp, hd, false_and, or_false, false_implies, and_true, ne_eq, not_false_eq_true]
      refine ⟨i1, i2, fun x => ?_⟩
      cases o with
      | create i d =>
        have : (World.step w (.create i d)).2.clock = w.clock := by simp only [World.step]; split <;> rfl
        rw [this, i3]; simp
      | poll i =>
        rw [show (World.step w (.poll i)).2 = (w.poll i).2 from rfl, poll_other_heap w i id (fun h => hp (by rw [h])) x, i3]; simp
      | drop i =>
        have : (World.step w (.drop i)).2.clock = w.clock := by simp only [World.step]; split <;> rfl
        rw [this, i3]; simp
      | update t =>
        show (x, id) ∈ (wakeLoop t w.clock.wakers).2 ↔ _
        rw [wakeLoop_keep, i3]
        constructor
        · rintro ⟨⟨rfl, hr⟩, hlt⟩; exact ⟨rfl, hr, fun t' e => by cases e; exact hlt⟩
        · rintro ⟨rfl, hr, hlt⟩; exact ⟨⟨rfl, hr⟩, hlt t rfl⟩

/-- what one more operation shows about a delay that was polled -/
theorem delay_seen (pre c : List Op) (o : Op) (id : Nat) (wake : Rat) (h : Begun pre id wake) :
    .ready id ∈ seenAt (pre ++ .poll id :: c) o ↔ o = .poll id ∧ Alive pre (.poll id :: c) id wake ∧ wake ≤ now (pre ++ .poll id :: c) := by
  obtain ⟨h1, h2, _⟩ := delay_state pre c id wake h
  have ht := sim_time (pre ++ .poll id :: c)
  unfold seenAt
  generalize hcc : Op.poll id :: c = cc at *
  generalize (World.init.run (pre ++ cc)).2 = w at *
  cases o with
  | create i d => simp [World.step]
  | drop i => simp [World.step]
  | update t => simp [World.step, World.update]
  | poll i =>
    by_cases hi : i = id
    · subst hi
      show .ready i ∈ (w.poll i).1 ↔ _
      by_cases hA : Alive pre cc i wake
      · unfold World.poll
        rw [h1 hA]
        simp only [World.pollFn, ht, hA, true_and]
        split <;> simp_all
      · unfold World.poll
        rw [h2 hA]
        simp [hA]
    · have := poll_other_ready w i id (Ne.symm hi)
      show .ready id ∈ (w.poll i).1 ↔ _
      simp [this, hi]

theorem first_seen (pre : List Op) (id : Nat) (wake : Rat) (h : Begun pre id wake) : .ready id ∈ seenAt pre (.poll id) ↔ wake ≤ now pre := by
  obtain ⟨a, b, d, rfl, h1, h2, h3, hw⟩ := h
  obtain ⟨hf, _⟩ := fresh_after a b id d h1 h2 h3
  have ht := sim_time (a ++ .create id d :: b)
  unfold seenAt
  generalize a ++ .create id d :: b = pre at *
  generalize (World.init.run pre).2 = w at *
  show .ready id ∈ (w.poll id).1 ↔ _
  unfold World.poll
  rw [hf]
  by_cases hd : d ≤ 0
  · simp [hd, hw]
  · simp only [hd, if_false, World.pollFn, ht, hw]
    split <;> simp_all

/-- in what a history shows, an event comes from one of its operations -/
theorem mem_seen (pre rest : List Op) (e : Ev) : e ∈ seen (pre ++ rest) ↔ e ∈ seen pre ∨ ∃ c1 o c2, rest = c1 ++ o :: c2 ∧ e ∈ seenAt (pre ++ c1) o := by
  induction rest using List.reverseRecOn with
  | nil => simp
  | append_singleton rest o ih =>
    have : seen (pre ++ (rest ++ [o])) = seen (pre ++ rest) ++ seenAt (pre ++ rest) o := by
      unfold seen seenAt
      rw [← List.append_assoc, simrun_append]
      simp [World.run]
    rw [this, List.mem_append, ih]
    constructor
    · rintro ((h | ⟨c1, o', c2, rfl, h⟩) | h)
      · exact .inl h
      · exact .inr ⟨c1, o', c2 ++ [o], by simp, h⟩
      · exact .inr ⟨rest, o, [], rfl, h⟩
    · rintro (h | ⟨c1, o', c2, e', h⟩)
      · exact .inl (.inl h)
      · rcases List.eq_nil_or_concat c2 with rfl | ⟨c2, x, rfl⟩
        · obtain ⟨rfl, h'⟩ := List.append_inj' e' rfl
          obtain rfl : o = o' := by simpa using h'
          exact .inr h
        · have : rest ++ [o] = (c1 ++ o' :: c2) ++ [x] := by rw [e']; simp
          obtain ⟨rfl, _⟩ := List.append_inj' this rfl
          exact .inl (.inr ⟨c1, o', c2, rfl, h⟩)

/-- **C116 (delay)**: a delay polled for the first time after `pre` returns at exactly that poll which is the first to find the clock at or past the time of the first poll plus the duration: never before, whatever
wakes it and however the clock jumps, and with nothing to wait for at the first poll. -/
theorem C116_ready (pre c : List Op) (o : Op) (id : Nat) (wake : Rat) (h : Begun pre id wake) :
    (.ready id ∈ seenAt pre (.poll id) ↔ wake ≤ now pre) ∧
    (.ready id ∈ seenAt (pre ++ .poll id :: c) o ↔ o = .poll id ∧ Alive pre (.poll id :: c) id wake ∧ wake ≤ now (pre ++ .poll id :: c)) :=
  ⟨first_seen pre id wake h, delay_seen pre c o id wake h⟩

example : Begun [.update 5, .create 7 (1 / 2), .update 6] 7 (13 / 2) := ⟨[.update 5], [.update 6], 1 / 2, rfl, by simp, by simp, by simp, by norm_num [now]⟩

/-- **C116 (waker)**: at an update of the clock the waker of a delay is called exactly if the delay is due and has been polled, in vain, since the last update at which it was due. -/
theorem C116_woke (pre c : List Op) (t : Rat) (id : Nat) (wake : Rat) (h : Begun pre id wake) :
    .woke id ∈ seenAt (pre ++ .poll id :: c) (.update t) ↔
      wake ≤ t ∧ ∃ c1 c2, .poll id :: c = c1 ++ .poll id :: c2 ∧ Alive pre (c1 ++ [.poll id]) id wake ∧ ∀ t', .update t' ∈ c2 → t' < wake := by
  obtain ⟨_, _, h3⟩ := delay_state pre c id wake h
  unfold seenAt
  show Ev.woke id ∈ List.map _ _ ↔ _
  rw [List.mem_map]
  constructor
  · rintro ⟨i, hi, e⟩
    cases e
    obtain ⟨x, hx, hle⟩ := (wakeLoop_wakes _ _ _).mp hi
    obtain ⟨rfl, hr⟩ := (h3 x).mp hx
    exact ⟨hle, hr⟩
  · rintro ⟨hle, hr⟩
    exact ⟨id, (wakeLoop_wakes _ _ _).mpr ⟨wake, (h3 wake).mpr ⟨rfl, hr⟩, hle⟩, rfl⟩

/-- **C116 (no wakeup is lost)**: a delay that waits is woken by the first update at which it is due, whatever happens in between – other delays, further polls, updates back and forth – and if it is then polled it returns. -/
theorem C116_prompt (pre c : List Op) (t : Rat) (id : Nat) (wake : Rat) (h : Begun pre id wake) (hw : now pre < wake) (hd : .drop id ∉ c) (hu : ∀ t', .update t' ∈ c → t' < wake) (ht : wake ≤ t) :
    .woke id ∈ seenAt (pre ++ .poll id :: c) (.update t) ∧ .ready id ∉ seen (pre ++ .poll id :: c) ∧ .ready id ∈ seenAt (pre ++ .poll id :: c ++ [.update t]) (.poll id) := by
  have hnow : ∀ c', (∀ t', .update t' ∈ c' → t' < wake) → now (pre ++ c') < wake := by
    intro c' hc'
    induction c' using List.reverseRecOn with
    | nil => simpa using hw
    | append_singleton c' o ih =>
      rw [← List.append_assoc, now_snoc]
      have := ih (fun t' h' => hc' t' (List.mem_append_left _ h'))
      cases o with
      | update t' => exact hc' t' (by simp)
      | _ => exact this
  have hal : Alive pre (.poll id :: c) id wake := by
    refine ⟨by simp [hd], fun c1 c2 e => hnow c1 fun t' ht' => hu t' ?_⟩
    have : Op.update t' ∈ Op.poll id :: c := by rw [e]; exact List.mem_append_left _ ht'
    simpa using this
  refine ⟨?_, ?_, ?_⟩
  · rw [C116_woke pre c t id wake h]
    exact ⟨ht, [], c, rfl, ⟨by simp, fun c1 c2 e => by cases c1 with
      | nil => simpa using hw
      | cons x c1 => simp at e⟩, hu⟩
  · rw [mem_seen]
    rintro (h' | ⟨c1, o, c2, e, h'⟩)
    · obtain ⟨a, b, d, rfl, h1, h2, h3, hw'⟩ := h
      have key : ∀ b' : List Op, b' <+: b → .ready id ∉ seen (a ++ .create id d :: b') := by
        intro b'
        induction b' using List.reverseRecOn with
        | nil =>
          intro _ hm
          rcases (mem_seen a [.create id d] _).mp hm with hm | ⟨c1, o, c2, e, hm⟩
          · have : ∀ a' : List Op, a' <+: a → .ready id ∉ seen a' := by
              intro a'
              induction a' using List.reverseRecOn with
              | nil => intro _; simp [seen, World.run]
              | append_singleton a' o ih =>
                intro hpre hm
                rcases (mem_seen a' [o] _).mp hm with hm' | ⟨c1, o', c2, e, hm'⟩
                · exact ih ((List.prefix_append _ _).trans hpre) hm'
                · clear hm; rename' hm' => hm
                  obtain ⟨rfl, rfl, rfl⟩ : c1 = [] ∧ o' = o ∧ c2 = [] := by cases c1 <;> simp_all
                  have hab := (absent_before a' id (fun d' h' => h1 d' (hpre.subset (List.mem_append_left _ h')))).1
                  rw [List.append_nil] at hm
                  unfold seenAt at hm
                  generalize (World.init.run a').2 = w at hab hm
                  cases o' with
                  | poll i =>
                    by_cases hi : i = id
                    · subst hi
                      have : w.step (.poll i) = ([], w) := by show w.poll i = _; unfold World.poll; rw [hab]
                      rw [this] at hm; simp at hm
                    · exact poll_other_ready w i id (Ne.symm hi) hm
                  | update t => simp [World.step, World.update] at hm
                  | create i d => simp [World.step] at hm
                  | drop i => simp [World.step] at hm
            exact this a (List.prefix_refl _) hm
          · obtain ⟨rfl, rfl, rfl⟩ : c1 = [] ∧ o = .create id d ∧ c2 = [] := by cases c1 <;> simp_all
            simp [seenAt, World.step] at hm
        | append_singleton b' o ih =>
          intro hpre hm
          rw [show a ++ Op.create id d :: (b' ++ [o]) = (a ++ .create id d :: b') ++ [o] by simp] at hm
          rcases (mem_seen _ [o] _).mp hm with hm' | ⟨c1, o', c2, e, hm'⟩
          · exact ih ((List.prefix_append _ _).trans hpre) hm'
          · clear hm; rename' hm' => hm
            obtain ⟨rfl, rfl, rfl⟩ : c1 = [] ∧ o' = o ∧ c2 = [] := by cases c1 <;> simp_all
            have hne : o' ≠ .poll id := fun e => h2 (hpre.subset (by rw [e]; simp))
            unfold seenAt at hm
            generalize (World.init.run (a ++ .create id d :: b' ++ [])).2 = w at hm
            cases o' with
            | poll i => exact poll_other_ready w i id (fun e => hne (by rw [e])) hm
            | update t => simp [World.step, World.update] at hm
            | create i d => simp [World.step] at hm
            | drop i => simp [World.step] at hm
      exact key b (List.prefix_refl _) h'
    · cases c1 with
      | nil =>
        obtain ⟨rfl, rfl⟩ : Op.poll id = o ∧ c = c2 := by simpa using e
        rw [List.append_nil, first_seen pre id wake h] at h'
        linarith
      | cons x c1 =>
        obtain ⟨rfl, rfl⟩ : Op.poll id = x ∧ c = c1 ++ o :: c2 := by simpa using e
        rw [delay_seen pre c1 o id wake h] at h'
        have := hnow (.poll id :: c1) (fun t' ht' => hu t' (by simp at ht'; simp [ht']))
        linarith [h'.2.2]
  · rw [show pre ++ Op.poll id :: c ++ [Op.update t] = pre ++ .poll id :: (c ++ [.update t]) by simp, delay_seen _ _ _ _ _ h]
    refine ⟨rfl, ?_, ?_⟩
    · rw [show Op.poll id :: (c ++ [.update t]) = (.poll id :: c) ++ [.update t] from rfl, alive_snoc]
      exact ⟨hal, by simp, by simp⟩
    · rw [show pre ++ Op.poll id :: (c ++ [.update t]) = (pre ++ .poll id :: c) ++ [.update t] by simp, now_snoc]
      exact ht

/-- **C116 (order)**: one update wakes the delays in the order in which they are due, each of them called, polled and due by then. -/
theorem C116_order (ops : List Op) (t : Rat) : ∃ l : List (Rat × Nat), seenAt ops (.update t) = l.map (fun e => .woke e.2) ∧ l.Pairwise (fun e f => e.1 ≤ f.1) ∧
    ∀ e ∈ l, e.1 ≤ t ∧ ∃ pre c, ops = pre ++ .poll e.2 :: c ∧ Begun pre e.2 e.1 := by
  obtain ⟨l1, h1, h2, h3, h4, h5⟩ := wakeLoop_spec t (World.init.run ops).2.clock.wakers
  refine ⟨l1, ?_, h2, fun e he => ⟨h3 e he, ?_⟩⟩
  · unfold seenAt
    show List.map _ _ = _
    rw [h1, List.map_map]; rfl
  · have hm : e ∈ (World.init.run ops).2.clock.wakers := h5.subset (List.mem_append_left _ he)
    -- the entry was pushed by a poll
    have key : ∀ ops : List Op, ∀ x, (x, e.2) ∈ (World.init.run ops).2.clock.wakers → ∃ pre c, ops = pre ++ .poll e.2 :: c ∧ Begun pre e.2 x := by
      intro ops
      by_cases hc : ∃ d, .create e.2 d ∈ ops
      · obtain ⟨a, rest, hops, ha⟩ : ∃ a rest, ops = a ++ rest ∧ (∀ d', .create e.2 d' ∉ a) ∧ ∃ d r, rest = .create e.2 d :: r := by
          obtain ⟨d, hd⟩ := hc
          clear hm he h5 h4 h3 h2 h1
          induction ops with
          | nil => simp at hd
          | cons o ops ih =>
            by_cases ho : ∃ d, o = .create e.2 d
            · obtain ⟨d, rfl⟩ := ho
              exact ⟨[], _, rfl, by simp, d, ops, rfl⟩
            · have : Op.create e.2 d ∈ ops := by
                rcases List.mem_cons.mp hd with h | h
                · exact absurd ⟨d, h.symm⟩ ho
                · exact h
              obtain ⟨a, rest, rfl, ha, hr⟩ := ih this
              exact ⟨o :: a, rest, rfl, fun d' h' => by
                rcases List.mem_cons.mp h' with h' | h'
                · exact ho ⟨d', h'.symm⟩
                · exact ha d' h', hr⟩
        obtain ⟨ha, d, r, rfl⟩ := ha
        subst hops
        -- does `r` begin with operations that neither poll nor drop, then a poll or a drop?
        obtain ⟨b, s, rfl, hb1, hb2, hs⟩ : ∃ b s, r = b ++ s ∧ .poll e.2 ∉ b ∧ .drop e.2 ∉ b ∧ (s = [] ∨ (∃ s', s = .poll e.2 :: s') ∨ ∃ s', s = .drop e.2 :: s') := by
          clear hc
          induction r with
          | nil => exact ⟨[], [], rfl, by simp, by simp, .inl rfl⟩
          | cons o r ih =>
            by_cases h1 : o = .poll e.2
            · subst h1; exact ⟨[], _, rfl, by simp, by simp, .inr (.inl ⟨_, rfl⟩)⟩
            by_cases h2 : o = .drop e.2
            · subst h2; exact ⟨[], _, rfl, by simp, by simp, .inr (.inr ⟨_, rfl⟩)⟩
            obtain ⟨b, s, rfl, hb1, hb2, hs⟩ := ih
            exact ⟨o :: b, s, rfl, by simp [hb1, Ne.symm h1], by simp [hb2, Ne.symm h2], hs⟩
        have hfr := fresh_after a b e.2 d ha hb1 hb2
        have hbeg : Begun (a ++ .create e.2 d :: b) e.2 (now (a ++ .create e.2 d :: b) + d) := ⟨a, b, d, rfl, ha, hb1, hb2, rfl⟩
        rcases hs with rfl | ⟨s', rfl⟩ | ⟨s', rfl⟩
        · rw [List.append_nil]
          exact fun x hx => absurd hx (hfr.2 x)
        · have hds := delay_state _ s' e.2 _ hbeg
          rw [show a ++ Op.create e.2 d :: (b ++ .poll e.2 :: s') = (a ++ .create e.2 d :: b) ++ .poll e.2 :: s' by simp]
          exact fun x hx => ⟨_, s', rfl, by rw [((hds.2.2 x).mp hx).1]; exact hbeg⟩
        · rw [show a ++ Op.create e.2 d :: (b ++ .drop e.2 :: s') = (a ++ .create e.2 d :: b) ++ .drop e.2 :: s' by simp]
          have hov : ∀ s'' : List Op, (World.init.run (a ++ .create e.2 d :: b ++ .drop e.2 :: s'')).2.delays e.2 = .over ∧ ∀ x, (x, e.2) ∉ (World.init.run (a ++ .create e.2 d :: b ++ .drop e.2 :: s'')).2.clock.wakers := by
            intro s''
            induction s'' using List.reverseRecOn with
            | nil =>
              rw [simrun_snoc, drop_step _ _ (by rw [hfr.1]; simp)]
              exact ⟨setDelay_self _ _ _, hfr.2⟩
            | append_singleton s'' o ih =>
              rw [show a ++ Op.create e.2 d :: b ++ .drop e.2 :: (s'' ++ [o]) = (a ++ .create e.2 d :: b ++ .drop e.2 :: s'') ++ [o] by simp, simrun_snoc]
              generalize (World.init.run (a ++ .create e.2 d :: b ++ .drop e.2 :: s'')).2 = w at ih
              by_cases hp : o = .poll e.2
              · subst hp
                have : w.step (.poll e.2) = ([], w) := by show w.poll e.2 = _; unfold World.poll; rw [ih.1]
                rw [this]; exact ih
              by_cases hd : o = .drop e.2
              · subst hd
                rw [drop_step _ _ (by rw [ih.1]; simp)]
                exact ⟨setDelay_self _ _ _, ih.2⟩
              · exact ⟨by rw [step_delay _ _ _ hp hd (fun _ _ => by rw [ih.1]; simp)]; exact ih.1, step_heap_fresh _ _ _ hp ih.2⟩
          exact fun x hx => absurd hx ((hov s').2 x)
      · have hab := absent_before ops e.2 (fun d' h' => hc ⟨d', h'⟩)
        exact fun x hx => absurd hx (hab.2 x)
    exact key ops e.1 hm

/-- **C116 (once)**: a delay returns at most once. -/
theorem C116_once (pre c : List Op) (id : Nat) (wake : Rat) (h : Begun pre id wake) (hr : .ready id ∈ seenAt (pre ++ .poll id :: c) (.poll id)) (c' : List Op) (o : Op) :
    .ready id ∉ seenAt (pre ++ .poll id :: c ++ .poll id :: c') o := by
  obtain ⟨_, hA, hle⟩ := (delay_seen pre c _ id wake h).mp hr
  intro h'
  rw [show pre ++ Op.poll id :: c ++ .poll id :: c' = pre ++ .poll id :: (c ++ .poll id :: c') by simp, delay_seen _ _ _ _ _ h] at h'
  have := h'.2.1.2 (.poll id :: c) c' rfl
  linarith

example : seen [.create 1 2, .create 2 1, .poll 1, .poll 2, .update (1 / 2), .update 2, .poll 2, .poll 1] = [.woke 2, .woke 1, .ready 2, .ready 1] := by decide +kernel
example : seen [.create 1 2, .poll 1, .update 2, .update 1, .poll 1, .update 3, .poll 1] = [.woke 1, .woke 1, .ready 1] := by decide +kernel

end Verif.Props
