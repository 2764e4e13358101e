import Mathlib.Tactic.Linarith
import Mathlib.Tactic.FieldSimp
import Mathlib.Tactic.Ring
import Verif.Model.Ticker
/-
C50: tickers.
-/
namespace Verif.Props

open Verif Tick

theorem after_eq (t : Ticker) (cs : Nat → Call) (k : Nat) : t.after cs k = { t with i := t.i + k } := by
  induction k with
  | zero => simp [Ticker.after]
  | succ k ih =>
    rw [Ticker.after, ih]
    unfold Ticker.next
    simp only
    split <;> simp [add_assoc]

/-- C50: the `k`-th tick (from 0) is due at the start plus `k + 1` intervals. If it is called for before, it returns at that time (plus what the delay driver oversleeps): errors do not
accumulate. If it is called for later, it returns at once -/
theorem C50_due (start interval : Rat) (cs : Nat → Call) (k : Nat) :
    (Ticker.everyStartsAt interval start).tick cs k = if start + (k + 1) * interval ≤ (cs k).now then (cs k).now else start + (k + 1) * interval + (cs k).late := by
  unfold Ticker.tick
  rw [after_eq]
  unfold Ticker.returns Ticker.next Ticker.everyStartsAt
  simp only [zero_add]
  by_cases h : start + (k + 1) * interval ≤ (cs k).now
  · simp only [if_pos h]
  · simp only [if_neg h]
    ring

/-- `every` is `every_starts_at` now -/
theorem C50_every (now interval : Rat) : Ticker.every now interval = Ticker.everyStartsAt interval now := rfl

/-- C50: no tick returns before it is due, however the calls are spaced -/
theorem C50_not_early (start interval : Rat) (cs : Nat → Call) (hl : ∀ k, 0 ≤ (cs k).late) (k : Nat) :
    start + (k + 1) * interval ≤ (Ticker.everyStartsAt interval start).tick cs k := by
  rw [C50_due]
  have := hl k
  split <;> linarith

/-- C50: so by the time `T` at most `(T - start) / interval` ticks have returned -/
theorem C50_count (start interval : Rat) (cs : Nat → Call) (hi : 0 < interval) (hl : ∀ k, 0 ≤ (cs k).late) (k : Nat) (T : Rat)
    (h : (Ticker.everyStartsAt interval start).tick cs k ≤ T) : ((k + 1 : Nat) : Rat) ≤ (T - start) / interval := by
  have := C50_not_early start interval cs hl k
  rw [le_div_iff₀ hi]
  push_cast
  linarith

/-- C50: missed ticks are not skipped: after falling behind, the ticker returns at once until it has caught up. If calls come one after another without work in between, every overdue tick
returns at the same time -/
theorem C50_burst (start interval : Rat) (cs : Nat → Call) (hi : 0 < interval) (k n : Nat) (h : ∀ j, k ≤ j → j ≤ k + n → (cs j).now = (cs k).now)
    (hd : start + ((k + n : Nat) + 1) * interval ≤ (cs k).now) (j : Nat) (h1 : k ≤ j) (h2 : j ≤ k + n) : (Ticker.everyStartsAt interval start).tick cs j = (cs k).now := by
  rw [C50_due, h j h1 h2, if_pos]
  have : (j : Rat) ≤ ((k + n : Nat) : Rat) := by exact_mod_cast h2
  nlinarith

/-- C50: `next_skip_missed` returns at the least multiple of the interval that is not before the call (plus what the delay driver oversleeps), whatever the start is -/
theorem C50_skip (t : Ticker) (c : Call) (hi : 0 < t.interval) (hl : c.late = 0) :
    (∃ n : Int, t.returnsSkip c = n * t.interval) ∧ c.now ≤ t.returnsSkip c ∧ ∀ m : Int, c.now ≤ m * t.interval → t.returnsSkip c ≤ m * t.interval := by
  unfold Ticker.returnsSkip Ticker.nextSkipMissed
  rw [hl]
  refine ⟨⟨⌈c.now / t.interval⌉, by ring⟩, ?_, fun m hm => ?_⟩
  · have h := Int.le_ceil (c.now / t.interval)
    rw [div_le_iff₀ hi] at h
    linarith
  · have : ⌈c.now / t.interval⌉ ≤ m := by
      rw [Int.ceil_le, div_le_iff₀ hi]
      exact hm
    have : (⌈c.now / t.interval⌉ : Rat) ≤ m := by exact_mod_cast this
    nlinarith

/-- C50 (finding): a ticker made with `every_starts_at` does not tick on its own grid when missed ticks are skipped: the start is not used -/
theorem C50_skip_off_grid : ∃ (start interval : Rat) (c : Call), 0 < interval ∧ c.late = 0 ∧ ∀ n : Int, (Ticker.everyStartsAt interval start).returnsSkip c ≠ start + n * interval := by
  refine ⟨300, 1000, ⟨1500, 0⟩, by norm_num, rfl, fun n h => ?_⟩
  obtain ⟨⟨m, hm⟩, _⟩ := C50_skip (Ticker.everyStartsAt 1000 300) ⟨1500, 0⟩ (by show (0 : Rat) < 1000; norm_num) rfl
  rw [hm] at h
  have h' : (m : Rat) * 1000 = 300 + n * 1000 := h
  have : m * 1000 = 300 + n * 1000 := by exact_mod_cast h'
  omega

/-- C50 (finding): called again while the clock still reads the time of the tick, `next_skip_missed` returns at once: the same tick is delivered again -/
theorem C50_skip_repeats (t : Ticker) (c : Call) (hi : 0 < t.interval) (hl : c.late = 0) : t.returnsSkip ⟨t.returnsSkip c, 0⟩ = t.returnsSkip c := by
  obtain ⟨⟨n, h1⟩, _⟩ := C50_skip t c hi hl
  obtain ⟨_, h2, h3⟩ := C50_skip t ⟨t.returnsSkip c, 0⟩ hi rfl
  exact le_antisymm ((h3 n (le_of_eq h1)).trans (le_of_eq h1.symm)) h2

/-- a ticker of 1 s started at 300 ms, called at 400 and 1400 (late by 10), then at 5000 three times -/
example : (List.range 5).map ((Ticker.everyStartsAt 1000 300).tick (fun k => [⟨400, 0⟩, ⟨1400, 10⟩, ⟨5000, 0⟩, ⟨5000, 0⟩, ⟨5000, 0⟩].getD k ⟨0, 0⟩)) = [1300, 2310, 5000, 5000, 5300] := by
  decide +kernel

/-- the hypotheses of `C50_burst` are met there: the third and fourth tick return at once -/
example : (300 : Rat) + ((2 + 1 : Nat) + 1) * 1000 ≤ 5000 := by norm_num

example : (Ticker.everyStartsAt 1000 300).returnsSkip ⟨1500, 0⟩ = 2000 := by decide +kernel

end Verif.Props
