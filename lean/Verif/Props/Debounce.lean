import Verif.Model.Debounce
/-
C48: the debounced signal.
-/
namespace Verif.Props

open Verif Deb

/-- what happens at poll `i`: the time, and the value that has been signalled since the poll before -/
abbrev Inputs (V : Type) := Nat → Nat × Option V

/-- the task after `n` polls and what it has signalled, with the number of the poll -/
def debRun {V : Type} [DecidableEq V] (T : Nat) (x : Inputs V) : Nat → Deb V × List (Nat × V)
  | 0 => (.first, [])
  | n + 1 =>
    let p := debRun T x n
    let r := p.1.poll T (x n).1 (x n).2
    (r.1, p.2 ++ (match r.2 with | some v => [(n, v)] | none => []))

/-- `i` is the last poll before `n` with a value, and the value is `v` -/
def LastInput {V : Type} (x : Inputs V) (n i : Nat) (v : V) : Prop := i < n ∧ (x i).2 = some v ∧ ∀ k, i < k → k < n → (x k).2 = none

/-- an output of the debouncer is justified: it is the first value there was, or it differs from the output before and was the newest value for the whole debounce time -/
inductive Justified {V : Type} (T : Nat) (x : Inputs V) : List (Nat × V) → Prop
  | nil : Justified T x []
  | first (i : Nat) (v : V) : (x i).2 = some v → (∀ k, k < i → (x k).2 = none) → Justified T x [(i, v)]
  | next (l : List (Nat × V)) (j i k : Nat) (v w : V) : Justified T x (l ++ [(k, w)]) → v ≠ w → k < j → LastInput x j i v → (x i).1 + T ≤ (x j).1 →
      Justified T x (l ++ [(k, w)] ++ [(j, v)])

/-- which state goes with which history -/
inductive DInv {V : Type} (T : Nat) (x : Inputs V) (n : Nat) : Deb V → List (Nat × V) → Prop
  | first : (∀ k, k < n → (x k).2 = none) → DInv T x n .first []
  | second (i : Nat) (s : V) : LastInput x n i s → (∀ k, k < i → (x k).2 = none) → DInv T x n (.second s) [(i, s)]
  | loop (l : List (Nat × V)) (j i : Nat) (s v : V) (d : Nat) : Justified T x (l ++ [(j, s)]) → j < n → LastInput x n i v → (v = s ∨ d = (x i).1 + T) →
      DInv T x n (.loop s v d) (l ++ [(j, s)])

theorem LastInput.skip {V : Type} {x : Inputs V} {n i : Nat} {v : V} (h : LastInput x n i v) (h' : (x n).2 = none) : LastInput x (n + 1) i v := by
  refine ⟨by have := h.1; omega, h.2.1, fun k k1 k2 => ?_⟩
  rcases Nat.lt_succ_iff_lt_or_eq.1 k2 with k3 | rfl
  · exact h.2.2 k k1 k3
  · exact h'

theorem LastInput.new {V : Type} {x : Inputs V} {n : Nat} {v : V} (h : (x n).2 = some v) : LastInput x (n + 1) n v :=
  ⟨by omega, h, fun k k1 k2 => by omega⟩

theorem deb_inv {V : Type} [DecidableEq V] (T : Nat) (x : Inputs V) (n : Nat) : DInv T x n (debRun T x n).1 (debRun T x n).2 := by
  induction n with
  | zero => exact .first (fun k h => absurd h (Nat.not_lt_zero _))
  | succ n ih =>
    simp only [debRun]
    revert ih
    generalize (debRun T x n).1 = d
    generalize (debRun T x n).2 = l
    intro ih
    cases ih with
    | first h =>
      cases hx : (x n).2 with
      | none =>
        simp only [Deb.poll, List.append_nil]
        refine .first fun k hk => ?_
        rcases Nat.lt_succ_iff_lt_or_eq.1 hk with h3 | rfl
        · exact h k h3
        · exact hx
      | some v =>
        simp only [Deb.poll]
        exact .second n v (.new hx) h
    | second i s h h0 =>
      cases hx : (x n).2 with
      | none =>
        simp only [Deb.poll, List.append_nil]
        exact .second i s (h.skip hx) h0
      | some v =>
        simp only [Deb.poll]
        exact .loop [] i n s v _ (.first i s h.2.1 h0) (by have := h.1; omega) (.new hx) (.inr rfl)
    | loop l j i s v d hj hjn hl hd =>
      simp only [Deb.poll]
      by_cases ht : d ≤ (x n).1
      · rw [if_pos ht]
        by_cases hv : v = s
        · subst hv
          simp only [ne_eq, not_true_eq_false, if_false]
          cases hx : (x n).2 with
          | none => simp only [List.append_nil]; exact .loop l j i v v _ hj (by omega) (hl.skip hx) (.inl rfl)
          | some w => simp only [List.append_nil]; exact .loop l j n v w _ hj (by omega) (.new hx) (.inr rfl)
        · have hd' : d = (x i).1 + T := hd.resolve_left hv
          have hj' : Justified T x (l ++ [(j, s)] ++ [(n, v)]) := .next l n i j v s hj hv hjn hl (by omega)
          simp only [ne_eq, hv, not_false_eq_true, if_true]
          cases hx : (x n).2 with
          | none => exact .loop _ n i v v _ hj' (by omega) (hl.skip hx) (.inl rfl)
          | some w => exact .loop _ n n v w _ hj' (by omega) (.new hx) (.inr rfl)
      · rw [if_neg ht]
        cases hx : (x n).2 with
        | none => simp only [List.append_nil]; exact .loop l j i s v _ hj (by omega) (hl.skip hx) hd
        | some w => simp only [List.append_nil]; exact .loop l j n s w _ hj (by omega) (.new hx) (.inr rfl)

/-- C48: every output is justified: it is the very first value, or it differs from the output before it and had been the newest value, unchanged, for at least the debounce time -/
theorem C48_outputs {V : Type} [DecidableEq V] (T : Nat) (x : Inputs V) (n : Nat) : Justified T x (debRun T x n).2 := by
  have h := deb_inv T x n
  revert h
  generalize (debRun T x n).1 = d
  generalize (debRun T x n).2 = l
  intro h
  cases h with
  | first _ => exact .nil
  | second i s h h0 => exact .first i s h.2.1 h0
  | loop l j i s v d hj _ _ _ => exact hj

/-- C48: the first value is signalled at once -/
theorem C48_first {V : Type} [DecidableEq V] (T : Nat) (x : Inputs V) (i : Nat) (v : V) (hv : (x i).2 = some v) (h0 : ∀ k, k < i → (x k).2 = none) :
    (debRun T x (i + 1)).2 = [(i, v)] := by
  have h := deb_inv T x i
  simp only [debRun]
  revert h
  generalize (debRun T x i).1 = d
  generalize (debRun T x i).2 = l
  intro h
  cases h with
  | first _ => rw [hv]; rfl
  | second k s h _ => have := h0 k h.1; rw [h.2.1] at this; cases this
  | loop l j k s w d _ _ h _ => have := h0 k h.1; rw [h.2.1] at this; cases this

/-- C48: outputs are never repeated: two outputs in a row differ -/
theorem C48_no_repeat {V : Type} [DecidableEq V] (T : Nat) (x : Inputs V) (n : Nat) (a b : List (Nat × V)) (p q : Nat × V)
    (h : (debRun T x n).2 = a ++ [p, q] ++ b) : p.2 ≠ q.2 := by
  have hj := C48_outputs T x n
  rw [h] at hj
  clear h
  generalize hl : a ++ [p, q] ++ b = l at hj
  induction hj generalizing b with
  | nil => simp at hl
  | first i v _ _ =>
    have := congrArg List.length hl
    simp at this
    omega
  | next l j i k v w hj hne _ _ _ ih =>
    rcases List.eq_nil_or_concat b with rfl | ⟨b', z, rfl⟩
    · rw [List.append_nil, show a ++ [p, q] = a ++ [p] ++ [q] by simp] at hl
      obtain ⟨h1, h2⟩ := List.append_inj' hl rfl
      obtain ⟨h3, h4⟩ := List.append_inj' h1 rfl
      have e1 : p = (k, w) := by simpa using h4
      have e2 : q = (j, v) := by simpa using h2
      rw [e1, e2]
      exact fun h => hne h.symm
    · refine ih b' ?_
      rw [List.concat_eq_append, ← List.append_assoc] at hl
      exact (List.append_inj' hl rfl).1

/-- C48: a value that stays the newest one for the debounce time, up to a poll, is the last output at that poll -/
theorem C48_settles {V : Type} [DecidableEq V] (T : Nat) (x : Inputs V) (i j : Nat) (v : V) (hi : LastInput x (j + 1) i v) (ht : (x i).1 + T ≤ (x j).1) (hij : i < j) :
    ∃ k, (debRun T x (j + 1)).2.getLast? = some (k, v) := by
  have h := deb_inv T x j
  have hx : (x j).2 = none := hi.2.2 j hij (by omega)
  have uniq : ∀ i' v', LastInput x j i' v' → i' = i ∧ v' = v := by
    intro i' v' h
    have : i' = i := by
      rcases Nat.lt_trichotomy i' i with h1 | h1 | h1
      · have := h.2.2 i h1 hij
        rw [hi.2.1] at this
        cases this
      · exact h1
      · have := hi.2.2 i' h1 (by have := h.1; omega)
        rw [h.2.1] at this
        cases this
    subst this
    have := h.2.1
    rw [hi.2.1] at this
    exact ⟨rfl, (Option.some.inj this).symm⟩
  simp only [debRun, hx]
  revert h
  generalize (debRun T x j).1 = d
  generalize (debRun T x j).2 = l
  intro h
  cases h with
  | first h0 => have := h0 i hij; rw [hi.2.1] at this; cases this
  | second k s h h0 =>
    obtain ⟨rfl, rfl⟩ := uniq _ _ h
    simp only [Deb.poll]
    exact ⟨k, by simp⟩
  | loop l m k s w d _ _ h hd =>
    obtain ⟨rfl, rfl⟩ := uniq _ _ h
    simp only [Deb.poll]
    by_cases hw : w = s
    · subst hw
      simp only [ne_eq, not_true_eq_false, if_false]
      by_cases hl : d ≤ (x j).1
      · rw [if_pos hl]; exact ⟨m, by simp⟩
      · rw [if_neg hl]; exact ⟨m, by simp⟩
    · have hd' := hd.resolve_left hw
      rw [if_pos (by omega)]
      simp only [ne_eq, hw, not_false_eq_true, if_true]
      exact ⟨j, by simp⟩

/-- a switch that bounces: on at 0, off at 10, on at 15, off at 30 for good: outputs on at once and off at 1030 -/
def bounce : Inputs Bool := fun i => ([(0, some true), (10, some false), (15, some true), (30, some false), (500, none), (1030, none)] : List (Nat × Option Bool)).getD i (2000, none)

example : (debRun 1000 bounce 7).2 = [(0, true), (5, false)] := by decide +kernel

example : LastInput bounce 6 3 false := ⟨by decide, by decide, fun k h1 h2 => by
  have : k = 4 ∨ k = 5 := by omega
  rcases this with rfl | rfl <;> rfl⟩

end Verif.Props
