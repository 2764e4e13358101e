import Verif.Model.MovingAverage
import Verif.Props.PrimaryCore
/-
C49: moving averages.
-/
namespace Verif.Props

open Verif Fc

/-- the samples added since the last clear, oldest first -/
def since {F : Type} : List (SmaOp F) → List F
  | [] => []
  | .add x :: l => if l.any (fun o => match o with | .clear => true | _ => false) then since l else x :: since l
  | .clear :: l => since l

/-- the last `n` of a list -/
def lastN {F : Type} (n : Nat) (l : List F) : List F := l.drop (l.length - n)

theorem since_snoc {F : Type} (l : List (SmaOp F)) (o : SmaOp F) : since (l ++ [o]) = match o with | .add x => since l ++ [x] | .clear => [] := by
  induction l with
  | nil => cases o <;> rfl
  | cons y l ih =>
    cases y with
    | clear => cases o <;> simp only [List.cons_append, since, ih]
    | add x =>
      cases o with
      | add z =>
        simp only [List.cons_append, since, ih, List.any_append, List.any_cons, List.any_nil, Bool.or_false]
        split <;> simp
      | clear =>
        simp [since, ih]

theorem lastN_snoc {F : Type} (n : Nat) (hn : 0 < n) (l : List F) (x : F) : (lastN n (l ++ [x])).reverse = if l.length < n then x :: (lastN n l).reverse else x :: (lastN n l).reverse.dropLast := by
  unfold lastN
  rw [List.length_append, List.length_singleton]
  split
  · rename_i h
    rw [Nat.sub_eq_zero_of_le (by omega), Nat.sub_eq_zero_of_le (by omega)]
    simp
  · rename_i h
    rw [List.drop_append_of_le_length (by omega), List.reverse_append, List.dropLast_reverse, List.tail_drop]
    have : l.length + 1 - n = l.length - n + 1 := by omega
    rw [this]
    rfl

theorem lastN_length {F : Type} (n : Nat) (l : List F) : (lastN n l).length = min n l.length := by
  unfold lastN
  rw [List.length_drop]
  omega

/-- C49: after any history the window holds the last `n` samples since the last clear, newest first -/
theorem C49_window {F : Type} (n : Nat) (zero : F) (l : List (SmaOp F)) : (Sma.run n zero l).samples = (lastN n (since l)).reverse ∧ (Sma.run n zero l).n = n ∧ (Sma.run n zero l).zero = zero := by
  have key : ∀ l : List (SmaOp F), (Sma.run n zero l.reverse).samples = (lastN n (since l.reverse)).reverse ∧ (Sma.run n zero l.reverse).n = n ∧ (Sma.run n zero l.reverse).zero = zero := by
    intro l
    induction l with
    | nil => exact ⟨by simp [Sma.run, Sma.new, lastN, since], rfl, rfl⟩
    | cons o l ih =>
      rw [List.reverse_cons, since_snoc]
      have hr : Sma.run n zero (l.reverse ++ [o]) = (match o with | .add x => (Sma.run n zero l.reverse).add x | .clear => (Sma.run n zero l.reverse).clear) := by
        unfold Sma.run
        rw [List.foldl_append]
        cases o <;> rfl
      rw [hr]
      revert ih
      generalize Sma.run n zero l.reverse = m
      rintro ⟨h1, h2, h3⟩
      cases o with
      | clear => exact ⟨by simp [Sma.clear, lastN], h2, h3⟩
      | add x =>
        simp only
        unfold Sma.add
        by_cases hn : n = 0
        · rw [if_pos (h2.trans hn)]
          refine ⟨?_, h2, h3⟩
          rw [h1, hn]
          simp [lastN]
        · rw [if_neg (by rw [h2]; exact hn)]
          have hlen : m.samples.length = min n (since l.reverse).length := by rw [h1, List.length_reverse, lastN_length]
          rw [lastN_snoc n (by omega)]
          by_cases hf : m.samples.length = m.n
          · rw [if_pos hf, if_neg (by omega)]
            exact ⟨by rw [h1], h2, h3⟩
          · rw [if_neg hf, if_pos (by omega)]
            exact ⟨by rw [h1], h2, h3⟩
  have := key l.reverse
  rwa [List.reverse_reverse] at this

/-- C49: with any arithmetic, the average is the sum of the last `n` samples (from the newest on) divided by their number, or zero if there are none -/
theorem C49_average {F : Type} (o : Ops F) (n : Nat) (zero : F) (l : List (SmaOp F)) :
    (Sma.run n zero l).average o = if min n (since l).length = 0 then zero else o.div ((lastN n (since l)).reverse.foldl o.add zero) (o.lit (min n (since l).length : Nat)) := by
  obtain ⟨h1, h2, h3⟩ := C49_window n zero l
  unfold Sma.average
  rw [h1, h3, List.length_reverse, lastN_length]

/-- C49: full exactly if at least `n` samples were added since the last clear -/
theorem C49_full {F : Type} (n : Nat) (zero : F) (l : List (SmaOp F)) : (Sma.run n zero l).isFull = true ↔ n ≤ (since l).length := by
  obtain ⟨h1, h2, _⟩ := C49_window n zero l
  unfold Sma.isFull
  rw [h1, h2, List.length_reverse, lastN_length, decide_eq_true_eq]
  omega

theorem foldl_add_reverse (l : List Rat) (z : Rat) : l.reverse.foldl ratOps.add z = z + l.sum := by
  induction l generalizing z with
  | nil => simp [Rat.add_zero]
  | cons x l ih =>
    rw [List.reverse_cons, List.foldl_append, ih, List.sum_cons]
    show z + l.sum + x = z + (x + l.sum)
    rw [Rat.add_comm x, Rat.add_assoc]

/-- C49: in exact arithmetic this is the mean of the last `n` samples -/
theorem C49_mean (n : Nat) (l : List (SmaOp Rat)) : (Sma.run n 0 l).average ratOps = if min n (since l).length = 0 then 0 else (lastN n (since l)).sum / ((min n (since l).length : Nat) : Rat) := by
  rw [C49_average, foldl_add_reverse, Rat.zero_add]
  rfl

/-- the same window for the other implementation -/
theorem sum_window {F : Type} (o : Ops F) (n : Nat) (zero : F) (l : List (SmaOp F)) :
    (SumSma.run o n zero l).samples = (Sma.run n zero l).samples ∧ (SumSma.run o n zero l).n = (Sma.run n zero l).n ∧ (SumSma.run o n zero l).zero = (Sma.run n zero l).zero := by
  have key : ∀ (l : List (SmaOp F)) (a : SumSma F) (b : Sma F), a.samples = b.samples → a.n = b.n → a.zero = b.zero →
      (l.foldl (fun m op => match op with | .add x => m.add o x | .clear => m.clear) a).samples = (l.foldl (fun m op => match op with | .add x => m.add x | .clear => m.clear) b).samples ∧
      (l.foldl (fun m op => match op with | .add x => m.add o x | .clear => m.clear) a).n = (l.foldl (fun m op => match op with | .add x => m.add x | .clear => m.clear) b).n ∧
      (l.foldl (fun m op => match op with | .add x => m.add o x | .clear => m.clear) a).zero = (l.foldl (fun m op => match op with | .add x => m.add x | .clear => m.clear) b).zero := by
    intro l
    induction l with
    | nil => exact fun a b h1 h2 h3 => ⟨h1, h2, h3⟩
    | cons op l ih =>
      intro a b h1 h2 h3
      rw [List.foldl_cons, List.foldl_cons]
      cases op with
      | clear => exact ih _ _ rfl h2 h3
      | add x =>
        refine ih _ _ ?_ ?_ ?_
        all_goals
          simp only [SumSma.add, Sma.add, h1, h2]
          split
          · assumption
          · split <;> simp only [h1, h2, h3]
  exact key l _ _ rfl rfl rfl

/-- C49: in exact arithmetic the running sum is the sum of the window, so the second implementation gives the same mean -/
theorem C49_single_sum (n : Nat) (l : List (SmaOp Rat)) : (SumSma.run ratOps n 0 l).average ratOps = (Sma.run n 0 l).average ratOps := by
  have key : ∀ l : List (SmaOp Rat), (SumSma.run ratOps n 0 l.reverse).sum = (SumSma.run ratOps n 0 l.reverse).samples.sum := by
    intro l
    induction l with
    | nil => rfl
    | cons op l ih =>
      rw [List.reverse_cons]
      have hr : SumSma.run ratOps n 0 (l.reverse ++ [op]) = (match op with | .add x => (SumSma.run ratOps n 0 l.reverse).add ratOps x | .clear => (SumSma.run ratOps n 0 l.reverse).clear) := by
        unfold SumSma.run
        rw [List.foldl_append]
        cases op <;> rfl
      have hz : (SumSma.run ratOps n 0 l.reverse).zero = 0 := by rw [(sum_window ratOps n 0 _).2.2, (C49_window n (0 : Rat) _).2.2]
      rw [hr]
      revert ih hz
      generalize SumSma.run ratOps n 0 l.reverse = m
      intro ih hz
      cases op with
      | clear => exact hz
      | add x =>
        simp only
        unfold SumSma.add
        split
        · exact ih
        · rename_i hn
          simp only
          split
          · rename_i hf
            have hne : m.samples ≠ [] := by
              intro h
              rw [h] at hf
              exact hn hf.symm
            have hs : m.samples.sum = m.samples.dropLast.sum + m.samples.getLast hne := by
              conv => lhs; rw [← List.dropLast_concat_getLast hne]
              rw [List.sum_append]
              simp [Rat.add_zero]
            simp only [List.sum_cons, List.getLast?_eq_some_getLast hne, Option.getD_some]
            show m.sum + x - m.samples.getLast hne = _
            rw [ih, hs]
            grind
          · simp only [List.sum_cons]
            show m.sum + x = _
            rw [ih, Rat.add_comm]
  have h := key l.reverse
  rw [List.reverse_reverse] at h
  have hw := (sum_window ratOps n 0 l).1
  unfold SumSma.average Sma.average
  rw [h, hw, (C49_window n (0 : Rat) l).2.2]
  split
  · rename_i h0
    rw [List.eq_nil_of_length_eq_zero h0]
    rfl
  · have : (Sma.run n 0 l).samples.foldl ratOps.add 0 = (Sma.run n 0 l).samples.sum := by
      have := foldl_add_reverse (Sma.run n 0 l).samples.reverse 0
      rw [List.reverse_reverse, Rat.zero_add] at this
      rw [this, List.sum_reverse]
    rw [this]

/-- C49 (finding): with rounding the second implementation never recovers from a large sample. In any arithmetic in which, as in f64, `2^53 + 1` is `2^53`, a window of one sample shows
0 / 1 after the samples `2^53` and `1`, although the only sample in the window is 1 -/
theorem C49_cancellation {F : Type} (o : Ops F) (big : F) (h0 : o.add (o.lit 0) big = big) (h1 : o.add big (o.lit 1) = big) (h2 : o.sub big big = o.lit 0) :
    (SumSma.run o 1 (o.lit 0) [.add big, .add (o.lit 1)]).samples = [o.lit 1] ∧ (SumSma.run o 1 (o.lit 0) [.add big, .add (o.lit 1)]).average o = o.div (o.lit 0) (o.lit 1) := by
  simp [SumSma.run, SumSma.new, SumSma.add, SumSma.average, h0, h1, h2]

/-- rounding to even above 2^53, as f64 does there (exact below; only used up to 2^53 + 1) -/
def toyOps : Ops Rat := { ratOps with add := fun a b => if a + b = 9007199254740993 then 9007199254740992 else a + b }

/-- the hypotheses are met -/
example : toyOps.add (toyOps.lit 0) 9007199254740992 = 9007199254740992 ∧ toyOps.add 9007199254740992 (toyOps.lit 1) = 9007199254740992 ∧
    toyOps.sub 9007199254740992 9007199254740992 = toyOps.lit 0 := by decide +kernel

example : (Sma.run 3 0 [.add 1, .add 5, .clear, .add 2, .add 4, .add 6, .add 8]).average ratOps = 6 := by decide +kernel

end Verif.Props
