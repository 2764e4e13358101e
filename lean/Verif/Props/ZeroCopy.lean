import Verif.Model.ZeroCopy
/-
C52: the zero-copy channel.
-/
namespace Verif.Props

open Verif Zc

/-- Spec: an ideal queue of at most `n` values that drops the oldest when it is full. `Fifo n l q` = the visible events `l` can happen, and then the values of `q` (oldest first) are unread -/
inductive Fifo {T : Type} (n : Nat) : List (Ev T) → List T → Prop
  | start : Fifo n [] []
  | sent {l q} (v : T) : Fifo n l q → Fifo n (l ++ [.sent v]) ((q ++ [v]).drop ((q ++ [v]).length - n))
  | got {l v q} : Fifo n l (v :: q) → Fifo n (l ++ [.got v]) q

/-- Spec: at no poll of `receive` in the schedule are there `n` unread values while the sender is in the middle of a send -/
def NoClash {T : Type} (n : Nat) (default : T) (l : List (Op T)) : Prop :=
  ∀ m r, l = m ++ .receive :: r → ¬ ((Chan.run n default m).sending = true ∧ (Chan.run n default m).ready.length = n)

theorem zrun_snoc {T : Type} (n : Nat) (d : T) (l : List (Op T)) (o : Op T) : Chan.run n d (l ++ [o]) = (Chan.run n d l).step o := by
  unfold Chan.run
  rw [List.foldl_append]
  rfl

/-- the unread indices are those of the last slots before the sender's -/
def idxs (n curr len : Nat) : List Nat := (List.range len).map fun j => (curr + n - len + j) % n

theorem idxs_succ (n curr len : Nat) (hc : curr < n) (hl : len < n) : idxs n (if n ≤ curr + 1 then 0 else curr + 1) (len + 1) = idxs n curr len ++ [curr] := by
  have hm : ∀ a, ((if n ≤ curr + 1 then 0 else curr + 1) + n - (len + 1) + a) % n = (curr + n - len + a) % n := by
    intro a
    split
    · have : curr + n - len + a = (0 + n - (len + 1) + a) + n := by omega
      rw [this, Nat.add_mod_right]
    · congr 1
      omega
  unfold idxs
  rw [List.range_succ, List.map_append, List.map_singleton]
  congr 1
  · exact List.map_congr_left fun a _ => hm a
  · rw [hm, show curr + n - len + len = curr + n by omega, Nat.add_mod_right, Nat.mod_eq_of_lt hc]

theorem idxs_full (n curr : Nat) (hc : curr < n) : idxs n (if n ≤ curr + 1 then 0 else curr + 1) n = (idxs n curr n ++ [curr]).drop 1 := by
  obtain ⟨k, rfl⟩ : ∃ k, n = k + 1 := ⟨n - 1, by omega⟩
  have hm : ∀ a, ((if k + 1 ≤ curr + 1 then 0 else curr + 1) + (k + 1) - (k + 1) + a) % (k + 1) = (curr + (k + 1) - (k + 1) + (a + 1)) % (k + 1) := by
    intro a
    split
    · have : curr = k := by omega
      subst this
      have : curr + (curr + 1) - (curr + 1) + (a + 1) = 0 + (curr + 1) - (curr + 1) + a + (curr + 1) := by omega
      rw [this, Nat.add_mod_right]
    · congr 1
      omega
  unfold idxs
  rw [List.range_succ, List.map_append, List.map_singleton, hm]
  rw [show (List.range k ++ [k]) = 0 :: (List.range k).map (· + 1) by rw [← List.range_succ, List.range_succ_eq_map]]
  rw [List.map_cons, List.cons_append, List.drop_succ_cons, List.drop_zero, List.map_map]
  congr 1
  · exact List.map_congr_left fun a _ => hm a
  · rw [show curr + (k + 1) - (k + 1) + (k + 1) = curr + (k + 1) by omega, Nat.add_mod_right, Nat.mod_eq_of_lt hc]

theorem idxs_head (n curr len : Nat) (_ : curr < n) (hl : len + 1 ≤ n) : idxs n curr (len + 1) = ((curr + n - (len + 1)) % n) :: idxs n curr len := by
  unfold idxs
  rw [List.range_succ_eq_map, List.map_cons, List.map_map]
  congr 1
  refine List.map_congr_left fun a _ => ?_
  show (curr + n - (len + 1) + (a + 1)) % n = _
  congr 1
  omega

theorem idxs_ne (n curr len : Nat) (hc : curr < n) (hl : len < n) : ∀ i ∈ idxs n curr len, i ≠ curr := by
  intro i hi
  unfold idxs at hi
  obtain ⟨j, hj, rfl⟩ := List.mem_map.1 hi
  rw [List.mem_range] at hj
  intro h
  rcases Nat.lt_or_ge (curr + n - len + j) n with h1 | h1
  · rw [Nat.mod_eq_of_lt h1] at h
    omega
  · rw [Nat.mod_eq_sub_mod h1, Nat.mod_eq_of_lt (by omega)] at h
    omega

theorem idxs_length (n curr len : Nat) : (idxs n curr len).length = len := by simp [idxs]

/-- what holds at every point of every schedule -/
def ChanInv {T : Type} (n : Nat) (c : Chan T) : Prop :=
  c.n = n ∧ c.curr < n ∧ (∃ len, len ≤ n ∧ c.ready = idxs n c.curr len) ∧ (∀ i, c.recv = .holds i → i < n ∧ ¬ (c.sending = true ∧ c.curr = i) ∧ ∃ t, c.trace = t ++ [.got (c.values i)] ∨
    ∃ s, c.trace = t ++ .got (c.values i) :: s ∧ ∀ e ∈ s, ∃ v, e = .sent v) ∧ (∀ i, c.recv = .wants i → i < n)

theorem lock_inv {T : Type} (n : Nat) (c : Chan T) (h : ChanInv n c) (i : Nat) (hi : i < n) : ChanInv n (c.lock i) := by
  obtain ⟨h1, h2, h3, h4, h5⟩ := h
  unfold Chan.lock
  split
  · refine ⟨h1, h2, h3, fun j hj => ?_, fun j hj => ?_⟩
    · cases hj
    · injection hj with hj; omega
  · rename_i hc
    refine ⟨h1, h2, h3, fun j hj => ?_, fun j hj => ?_⟩
    · injection hj with hj
      subst hj
      exact ⟨hi, hc, _, .inl rfl⟩
    · cases hj

theorem step_inv {T : Type} (n : Nat) (c : Chan T) (h : ChanInv n c) (o : Op T) : ChanInv n (c.step o) := by
  obtain ⟨h1, h2, ⟨len, hl, h3⟩, h4, h5⟩ := h
  cases o with
  | startSend =>
    show ChanInv n c.startSend
    unfold Chan.startSend
    split
    · rename_i hc
      refine ⟨h1, h2, ⟨len, hl, h3⟩, fun i hi => ?_, h5⟩
      obtain ⟨e1, e2, e3⟩ := h4 i hi
      refine ⟨e1, fun ⟨_, e⟩ => ?_, e3⟩
      exact hc.2 (by rw [show c.curr = i from e]; exact hi)
    · exact ⟨h1, h2, ⟨len, hl, h3⟩, h4, h5⟩
  | finish v =>
    show ChanInv n (c.finish v)
    unfold Chan.finish
    split
    · rename_i hs
      refine ⟨h1, ?_, ?_, ?_, h5⟩
      · simp only
        split <;> omega
      · simp only
        rw [h3, h1, List.length_append, idxs_length, List.length_singleton]
        by_cases hf : len < n
        · refine ⟨len + 1, by omega, ?_⟩
          rw [idxs_succ n c.curr len h2 hf, Nat.sub_eq_zero_of_le (by omega), List.drop_zero]
        · have : len = n := by omega
          subst this
          refine ⟨len, Nat.le_refl _, ?_⟩
          rw [idxs_full len c.curr h2, show len + 1 - len = 1 by omega]
      · intro i hi
        obtain ⟨e1, e2, t, e3⟩ := h4 i hi
        have hne : i ≠ c.curr := fun e => e2 ⟨hs, e.symm⟩
        refine ⟨e1, fun ⟨e, _⟩ => Bool.noConfusion e, t, .inr ?_⟩
        simp only [if_neg hne]
        rcases e3 with e3 | ⟨s, e3, e4⟩
        · exact ⟨[.sent v], by rw [e3]; simp, fun e he => ⟨v, by simpa using he⟩⟩
        · refine ⟨s ++ [.sent v], by rw [e3]; simp, fun e he => ?_⟩
          rcases List.mem_append.1 he with he | he
          · exact e4 e he
          · exact ⟨v, by simpa using he⟩
    · exact ⟨h1, h2, ⟨len, hl, h3⟩, h4, h5⟩
  | receive =>
    show ChanInv n c.receive
    unfold Chan.receive
    split
    · exact ⟨h1, h2, ⟨len, hl, h3⟩, h4, h5⟩
    · rename_i i hi
      exact lock_inv n c ⟨h1, h2, ⟨len, hl, h3⟩, h4, h5⟩ i (h5 i hi)
    · rename_i hi
      split
      · exact ⟨h1, h2, ⟨len, hl, h3⟩, h4, h5⟩
      · rename_i i rest hr
        cases len with
        | zero => rw [h3] at hr; cases hr
        | succ len =>
          rw [h3, idxs_head n c.curr len h2 hl] at hr
          injection hr with e1 e2
          refine lock_inv n { c with ready := rest } ⟨h1, h2, ⟨len, by omega, e2.symm⟩, fun j hj => ?_, fun j hj => ?_⟩ i (by rw [← e1]; exact Nat.mod_lt _ (by omega))
          · rw [show c.recv = _ from hi] at hj; cases hj
          · rw [show c.recv = _ from hi] at hj; cases hj
  | release =>
    show ChanInv n c.release
    unfold Chan.release
    split
    · exact ⟨h1, h2, ⟨len, hl, h3⟩, fun i hi => by simp at hi, fun i hi => by simp at hi⟩
    · exact ⟨h1, h2, ⟨len, hl, h3⟩, h4, h5⟩

theorem zrun_inv {T : Type} (n : Nat) (hn : 0 < n) (d : T) (l : List (Op T)) : ChanInv n (Chan.run n d l) := by
  have key : ∀ (l : List (Op T)) (c : Chan T), ChanInv n c → ChanInv n (l.foldl Chan.step c) := by
    intro l
    induction l with
    | nil => exact fun c h => h
    | cons o l ih => exact fun c h => ih _ (step_inv n c h o)
  exact key l _ ⟨rfl, hn, ⟨0, by omega, rfl⟩, fun i hi => by simp [Chan.new] at hi, fun i hi => by simp [Chan.new] at hi⟩

/-- C52: on every schedule, while the receiver holds a guard, the value behind it does not change: it stays the value received last -/
theorem C52_no_tear {T : Type} (n : Nat) (hn : 0 < n) (d : T) (l : List (Op T)) (i : Nat) (h : (Chan.run n d l).recv = .holds i) :
    ∃ t s, (Chan.run n d l).trace = t ++ .got ((Chan.run n d l).values i) :: s ∧ ∀ e ∈ s, ∃ v, e = .sent v := by
  obtain ⟨_, _, t, h1 | ⟨s, h1, h2⟩⟩ := (zrun_inv n hn d l).2.2.2.1 i h
  · exact ⟨t, [], h1, by simp⟩
  · exact ⟨t, s, h1, h2⟩

theorem fifo_inv {T : Type} (n : Nat) (hn : 0 < n) (d : T) (l : List (Op T)) (hc : NoClash n d l) :
    Fifo n (Chan.run n d l).trace ((Chan.run n d l).ready.map (Chan.run n d l).values) ∧ ∀ i, (Chan.run n d l).recv ≠ .wants i := by
  have key : ∀ l : List (Op T), NoClash n d l.reverse →
      Fifo n (Chan.run n d l.reverse).trace ((Chan.run n d l.reverse).ready.map (Chan.run n d l.reverse).values) ∧ ∀ i, (Chan.run n d l.reverse).recv ≠ .wants i := by
    intro l
    induction l with
    | nil => exact fun _ => ⟨.start, fun i h => by simp [Chan.run, Chan.new] at h⟩
    | cons o l ih =>
      rw [List.reverse_cons]
      intro hc
      have hc' : NoClash n d l.reverse := fun m r h => hc m (r ++ [o]) (by rw [h]; simp)
      have hlast : o = .receive → ¬ ((Chan.run n d l.reverse).sending = true ∧ (Chan.run n d l.reverse).ready.length = n) := fun h => hc l.reverse [] (by rw [h])
      obtain ⟨ih1, ih2⟩ := ih hc'
      rw [zrun_snoc]
      have hi := zrun_inv n hn d l.reverse
      revert ih1 ih2 hlast hi
      generalize Chan.run n d l.reverse = c
      rintro hlast ih1 ih2 ⟨h1, h2, ⟨len, hl, h3⟩, h4, h5⟩
      cases o with
      | startSend =>
        show Fifo n c.startSend.trace (c.startSend.ready.map c.startSend.values) ∧ _
        unfold Chan.step Chan.startSend
        simp only
        split <;> exact ⟨ih1, ih2⟩
      | release =>
        unfold Chan.step Chan.release
        simp only
        split
        · exact ⟨ih1, fun i h => by simp at h⟩
        · exact ⟨ih1, ih2⟩
      | finish v =>
        unfold Chan.step Chan.finish
        simp only
        split
        · refine ⟨?_, ih2⟩
          simp only
          have hs := Fifo.sent v ih1
          have he : (c.ready.map c.values ++ [v]).drop ((c.ready.map c.values ++ [v]).length - n) =
              ((c.ready ++ [c.curr]).drop ((c.ready ++ [c.curr]).length - c.n)).map fun i => if i = c.curr then v else c.values i := by
            rw [h1, List.map_drop, List.length_append, List.length_append, List.length_map, List.length_singleton, List.length_singleton, List.map_append, List.map_singleton, if_pos rfl]
            by_cases hf : len < n
            · have hne := idxs_ne n c.curr len h2 hf
              rw [← h3] at hne
              congr 2
              exact List.map_congr_left fun i hi => (if_neg (hne i hi)).symm
            · have : len = n := by omega
              subst this
              obtain ⟨k, rfl⟩ : ∃ k, len = k + 1 := ⟨len - 1, by omega⟩
              have hne := idxs_ne (k + 1) c.curr k h2 (by omega)
              rw [h3, idxs_length, idxs_head (k + 1) c.curr k h2 (Nat.le_refl _), show k + 1 + 1 - (k + 1) = 1 by omega]
              simp only [List.map_cons, List.cons_append, List.drop_succ_cons, List.drop_zero]
              congr 1
              exact List.map_congr_left fun i hi => (if_neg (hne i hi)).symm
          rw [he] at hs
          exact hs
        · exact ⟨ih1, ih2⟩
      | receive =>
        unfold Chan.step Chan.receive
        simp only
        split
        · exact ⟨ih1, ih2⟩
        · rename_i i hi
          exact absurd hi (ih2 i)
        · rename_i hi
          split
          · exact ⟨ih1, ih2⟩
          · rename_i i rest hr
            cases len with
            | zero => rw [h3] at hr; cases hr
            | succ len =>
              have hr' := hr
              rw [h3, idxs_head n c.curr len h2 hl] at hr'
              injection hr' with e1 e2
              have hfree : ¬ (c.sending = true ∧ c.curr = i) := by
                rintro ⟨s1, s2⟩
                by_cases hfull : len + 1 = n
                · exact hlast rfl ⟨s1, by rw [h3, idxs_length, hfull]⟩
                · refine idxs_ne n c.curr (len + 1) h2 (by omega) i ?_ s2.symm
                  rw [idxs_head n c.curr len h2 hl, e1]
                  exact List.mem_cons_self
              unfold Chan.lock
              simp only
              rw [if_neg hfree]
              refine ⟨?_, fun j hj => by simp at hj⟩
              rw [hr, List.map_cons] at ih1
              exact ih1.got
  have := key l.reverse
  rw [List.reverse_reverse] at this
  exact this hc

/-- C52: if no poll of `receive` comes in the middle of a send while `n` values are unread, the channel is the ideal queue: values arrive unchanged, in the order sent, at most once, and only
the oldest are lost, when more than `n` are unread -/
theorem C52_fifo {T : Type} (n : Nat) (hn : 0 < n) (d : T) (l : List (Op T)) (hc : NoClash n d l) :
    Fifo n (Chan.run n d l).trace ((Chan.run n d l).ready.map (Chan.run n d l).values) := (fifo_inv n hn d l hc).1

/-- C52: and a poll of `receive` delivers the oldest unread value at once -/
theorem C52_delivers {T : Type} (n : Nat) (hn : 0 < n) (d : T) (l : List (Op T)) (hc : NoClash n d (l ++ [.receive])) (hi : (Chan.run n d l).recv = .idle)
    {v : T} {q : List T} (hq : (Chan.run n d l).ready.map (Chan.run n d l).values = v :: q) : (Chan.run n d (l ++ [.receive])).trace = (Chan.run n d l).trace ++ [.got v] := by
  have hw := (fifo_inv n hn d _ hc).2
  rw [zrun_snoc] at hw ⊢
  unfold Chan.step Chan.receive at hw ⊢
  simp only [hi] at hw ⊢
  cases hr : (Chan.run n d l).ready with
  | nil => rw [hr] at hq; cases hq
  | cons i rest =>
    rw [hr] at hq
    injection hq with e1 e2
    simp only [hr] at hw ⊢
    unfold Chan.lock at hw ⊢
    simp only at hw ⊢
    split
    · rename_i h
      rw [if_pos h] at hw
      exact absurd rfl (hw i)
    · rw [e1]

/-- the values received -/
def gots {T : Type} (l : List (Ev T)) : List T := l.filterMap fun e => match e with | .got v => some v | .sent _ => none

/-- C52 (finding): otherwise not. With two slots, the values 1 and 2 unread and 3 being sent: the receiver waits for the slot of 1, gets 3, then 2, and then 3 again -/
theorem C52_clash : gots (Chan.run 2 0 [.startSend, .finish 1, .startSend, .finish 2, .startSend, .receive, .finish 3, .receive, .release, .receive, .release, .receive]).trace = [3, 2, 3] := by
  decide

/-- a schedule without a clash: three values with two slots, of which the first is lost -/
def demoSends : List (Op Nat) := [.startSend, .finish 1, .startSend, .finish 2, .startSend, .finish 3, .receive, .release, .receive]

example : NoClash 2 0 demoSends := by
  intro m r h
  have : m = demoSends.take m.length := by rw [h]; simp
  have hl : m.length < 9 := by
    have := congrArg List.length h
    simp [demoSends] at this
    omega
  have hk : ∀ k < 9, ¬ ((Chan.run 2 0 (demoSends.take k)).sending = true ∧ (Chan.run 2 0 (demoSends.take k)).ready.length = 2 ∧ (demoSends.drop k).head?.any (fun o => match o with | .receive => true | _ => false) = true) := by
    decide
  intro hh
  rw [this] at hh
  refine hk m.length hl ⟨hh.1, hh.2, ?_⟩
  rw [h]
  simp

example : (Chan.run 2 0 demoSends).trace = [.sent 1, .sent 2, .sent 3, .got 2, .got 3] := by decide

end Verif.Props
