import Verif.Spec.StrainGauge
/-
Lemmas for C92: one channel, one read.
-/
namespace Verif.SG
open Verif Verif.Spec

variable {F S T : Type}

/-- the filter's state after a sequence of samples -/
def filterEnd (a : Arith F S) : S → List F → S
  | s, [] => s
  | s, x :: xs => filterEnd a (a.filter s x).2 xs

theorem filterOut_append (a : Arith F S) : ∀ (xs ys : List F) (s : S), filterOut a s (xs ++ ys) = filterOut a s xs ++ filterOut a (filterEnd a s xs) ys
  | [], _, _ => rfl
  | x :: xs, ys, s => by simp [filterOut, filterEnd, filterOut_append a xs ys]

theorem filterEnd_append (a : Arith F S) : ∀ (xs ys : List F) (s : S), filterEnd a s (xs ++ ys) = filterEnd a (filterEnd a s xs) ys
  | [], _, _ => rfl
  | x :: xs, ys, s => by simp [filterEnd, filterEnd_append a xs ys]

theorem filterOut_length (a : Arith F S) : ∀ (xs : List F) (s : S), (filterOut a s xs).length = xs.length
  | [], _ => rfl
  | x :: xs, s => by simp [filterOut, filterOut_length a xs]

/-- the sums of the windows: position and sum -/
def accStep (a : Arith F S) (k : Nat) (s : F × Nat) (x : F) : F × Nat := (if s.2 % 2130 = k then a.add s.1 x else s.1, s.2 + 1)

theorem acc_snd (a : Arith F S) (k : Nat) : ∀ (xs : List F) (s : F × Nat), (xs.foldl (accStep a k) s).2 = s.2 + xs.length
  | [], s => rfl
  | x :: xs, s => by rw [List.foldl_cons, acc_snd a k xs]; simp [accStep]; omega

/-- the sum of the samples at position `k` of the windows -/
def acc (a : Arith F S) (xs : List F) (k : Nat) : F := (xs.foldl (accStep a k) (a.zero, 0)).1

theorem acc_snoc (a : Arith F S) (xs : List F) (x : F) (k : Nat) : acc a (xs ++ [x]) k = if xs.length % 2130 = k then a.add (acc a xs k) x else acc a xs k := by
  unfold acc
  rw [List.foldl_append, List.foldl_cons, List.foldl_nil]
  have := acc_snd a k xs (a.zero, 0)
  simp only [accStep, this, Nat.zero_add]

/-- the FFT part of a processor after the samples `xs` of a batch -/
structure Win (a : Arith F S) (xs : List F) (c : Chan F S) : Prop where
  len : c.sum.length = 2048
  idx : c.fftI = if xs.length % 2130 < 2048 then xs.length % 2130 else 0
  cnt : c.count = (xs.length + 82) / 2130
  sums : ∀ k < 2048, c.sum[k]? = some (acc a xs k)

theorem window_spec {a : Arith F S} {xs : List F} {c : Chan F S} (h : Win a xs c) (x : F) :
    ∃ c', c.window a (decide (2048 ≤ xs.length % 2130)) x = some (c', decide (2048 ≤ (xs.length % 2130) + 1)) ∧ Win a (xs ++ [x]) c' ∧ c'.samples = c.samples ∧ c'.filt = c.filt := by
  unfold Chan.window
  have hm : xs.length % 2130 < 2130 := Nat.mod_lt _ (by decide)
  by_cases hs : 2048 ≤ xs.length % 2130
  · rw [if_pos (by simpa using hs)]
    refine ⟨c, by rw [decide_eq_true (by omega)], ⟨h.len, ?_, ?_, fun k hk => ?_⟩, rfl, rfl⟩
    · rw [h.idx, List.length_append, List.length_singleton, if_neg (by omega)]
      by_cases h2 : (xs.length + 1) % 2130 < 2048
      · rw [if_pos h2]; omega
      · rw [if_neg h2]
    · rw [h.cnt, List.length_append, List.length_singleton]; omega
    · rw [h.sums k hk, acc_snoc, if_neg (by omega)]
  · rw [if_neg (by simpa using hs)]
    have hi : c.fftI = xs.length % 2130 := by rw [h.idx, if_pos (by omega)]
    have hl : c.fftI < c.sum.length := by rw [h.len]; omega
    rw [dif_pos hl]
    have hget : c.sum[c.fftI] = acc a xs (xs.length % 2130) := by
      have h1 := h.sums (xs.length % 2130) (by omega)
      rw [← hi, List.getElem?_eq_getElem hl] at h1
      rw [← hi]; exact Option.some.inj h1
    have hsum : ∀ k < 2048, (c.sum.set c.fftI (a.add (c.sum[c.fftI]) x))[k]? = some (acc a (xs ++ [x]) k) := by
      intro k hk
      rw [List.getElem?_set, acc_snoc]
      by_cases hk2 : c.fftI = k
      · rw [if_pos hk2, if_pos (by rw [h.len]; omega), if_pos (by omega), hget]
        have : k = xs.length % 2130 := by omega
        rw [this]
      · rw [if_neg hk2, if_neg (by omega), h.sums k hk]
    simp only []
    by_cases he : c.fftI + 1 = fftSize
    · rw [if_pos he]
      have he' : xs.length % 2130 + 1 = 2048 := by rw [← hi]; exact he
      rw [decide_eq_true (show 2048 ≤ xs.length % 2130 + 1 by omega)]
      refine ⟨_, rfl, ⟨?_, ?_, ?_, hsum⟩, rfl, rfl⟩
      · simp [h.len]
      · simp only [List.length_append, List.length_singleton]
        rw [if_neg (by omega)]
      · simp only [List.length_append, List.length_singleton, h.cnt]; omega
    · rw [if_neg he]
      have he' : xs.length % 2130 + 1 ≠ 2048 := by rw [← hi]; exact he
      rw [decide_eq_false (show ¬ 2048 ≤ xs.length % 2130 + 1 by omega)]
      refine ⟨_, rfl, ⟨?_, ?_, ?_, hsum⟩, rfl, rfl⟩
      · simp [h.len]
      · simp only [List.length_append, List.length_singleton]
        rw [if_pos (by omega), hi]; omega
      · simp only [List.length_append, List.length_singleton, h.cnt]; omega

theorem loop_spec {a : Arith F S} : ∀ (n i : Nat) (skip : Bool) (ys zs : List F) (c : Chan F S), i + n = 213 → n ≤ ys.length → (zs.length + n) % 213 = 0 →
    (0 < n → skip = decide (2048 ≤ zs.length % 2130)) → Win a zs c → c.samples.length < 40 →
    ∃ c', c.loop a n i skip ys = some c' ∧ Win a (zs ++ ys.take n) c' ∧ c'.filt = filterEnd a c.filt (ys.take n) ∧
      c'.samples = c.samples ++ (filterOut a c.filt (ys.take n)).getLast?.toList
  | 0, i, skip, ys, zs, c, _, _, _, _, hw, _ => ⟨c, rfl, by simpa using hw, rfl, by simp [filterOut]⟩
  | n + 1, i, skip, [], zs, c, _, h, _, _, _, _ => absurd h (by simp)
  | n + 1, i, skip, y :: ys, zs, c, hi, hl, hm, hs, hw, hc => by
    obtain ⟨k, hk, hkf, hkw, hks⟩ : ∃ k, c.keep a i y = some k ∧ k.filt = (a.filter c.filt y).2 ∧ Win a zs k ∧
        k.samples = c.samples ++ (if n = 0 then [(a.filter c.filt y).1] else []) := by
      unfold Chan.keep
      by_cases hn : i = 212
      · have h0 : n = 0 := by omega
        rw [if_pos (show i = samplesPerRead - 1 from hn), if_pos (show c.samples.length < listCap from hc), if_pos h0]
        exact ⟨_, rfl, rfl, ⟨hw.len, hw.idx, hw.cnt, hw.sums⟩, rfl⟩
      · have h0 : n ≠ 0 := by omega
        rw [if_neg (show ¬ i = samplesPerRead - 1 from hn), if_neg h0]
        exact ⟨_, rfl, rfl, ⟨hw.len, hw.idx, hw.cnt, hw.sums⟩, by simp⟩
    obtain ⟨w, hww, hwin, hws, hwf⟩ := window_spec hkw y
    unfold Chan.loop
    rw [hk, hs (by omega)]
    simp only []
    rw [hww]
    simp only []
    cases n with
    | zero =>
      refine ⟨w, rfl, by simpa using hwin, ?_, ?_⟩
      · rw [hwf, hkf]; simp [filterEnd]
      · rw [hws, hks]; simp [filterOut]
    | succ n =>
      have hc' : w.samples.length < 40 := by rw [hws, hks]; simpa using hc
      obtain ⟨c', e1, e2, e3, e4⟩ := loop_spec (n + 1) (i + 1) (decide (2048 ≤ zs.length % 2130 + 1)) ys (zs ++ [y]) w (by omega) (by simpa using hl)
        (by rw [List.length_append, List.length_singleton]; omega)
        (fun _ => by
          rw [List.length_append, List.length_singleton]
          congr 1
          rw [eq_iff_iff]
          omega) hwin hc'
      refine ⟨c', e1, ?_, ?_, ?_⟩
      · rw [List.take_succ_cons]; simpa using e2
      · rw [e3, hwf, hkf, List.take_succ_cons, filterEnd]
      · rw [e4, hws, hks, hwf, hkf, List.take_succ_cons, filterOut]
        rw [if_neg (by omega), List.append_nil]
        congr 2
        have hne : filterOut a (a.filter c.filt y).2 (ys.take (n + 1)) ≠ [] := by
          intro h
          have := congrArg List.length h
          rw [filterOut_length, List.length_take, List.length_nil] at this
          rw [List.length_cons] at hl
          omega
        rw [List.getLast?_cons, List.getLast?_eq_some_getLast hne]
        rfl

/-- one read of one channel -/
theorem process_spec {a : Arith F S} {zs ys : List F} {c : Chan F S} (hy : 213 ≤ ys.length) (hz : zs.length % 213 = 0) (hw : Win a zs c) (hc : c.samples.length < 40) :
    ∃ c', c.process a ys = some c' ∧ Win a (zs ++ ys.take 213) c' ∧ c'.filt = filterEnd a c.filt (ys.take 213) ∧
      c'.samples = c.samples ++ (filterOut a c.filt (ys.take 213)).getLast?.toList :=
  loop_spec 213 0 false ys zs c rfl hy (by omega) (fun _ => by rw [decide_eq_false]; omega) hw hc

/-- a window of 2130 samples contributes its `k`-th sample -/
theorem acc_window (a : Arith F S) (k : Nat) (ys : List F) (s : F) (i0 : Nat) (hi : i0 % 2130 = 0) : ∀ n, n ≤ 2130 → n ≤ ys.length →
    (ys.take n).foldl (accStep a k) (s, i0) = (if h : k < n ∧ k < ys.length then a.add s ys[k] else s, i0 + n) := by
  intro n
  induction n with
  | zero => intro _ _; simp
  | succ n ih =>
    intro h1 h2
    rw [List.take_succ_eq_append_getElem (by omega), List.foldl_append, ih (by omega) (by omega)]
    simp only [List.foldl_cons, List.foldl_nil, accStep]
    rw [show (i0 + n) % 2130 = n by omega]
    by_cases hk : n = k
    · subst hk
      rw [if_pos rfl, dif_neg (by omega), dif_pos (by omega)]; rfl
    · rw [if_neg hk]
      by_cases hk2 : k < n
      · rw [dif_pos (by omega), dif_pos (by omega)]; rfl
      · rw [dif_neg (by omega), dif_neg (by omega)]; rfl

/-- what is summed up over four windows -/
theorem acc_four (a : Arith F S) (xs : List F) (k : Nat) (hl : xs.length = 8520) (hk : k < 2048) :
    ∃ x0 x1 x2 x3, xs[k]? = some x0 ∧ xs[2130 + k]? = some x1 ∧ xs[4260 + k]? = some x2 ∧ xs[6390 + k]? = some x3 ∧
      acc a xs k = a.add (a.add (a.add (a.add a.zero x0) x1) x2) x3 := by
  refine ⟨xs[k]'(by omega), xs[2130 + k]'(by omega), xs[4260 + k]'(by omega), xs[6390 + k]'(by omega), List.getElem?_eq_getElem _, List.getElem?_eq_getElem _,
    List.getElem?_eq_getElem _, List.getElem?_eq_getElem _, ?_⟩
  have hsplit : xs = xs.take 2130 ++ ((xs.drop 2130).take 2130 ++ ((xs.drop 4260).take 2130 ++ (xs.drop 6390).take 2130)) := by
    have h4 : (xs.drop 6390).take 2130 = xs.drop 6390 := List.take_of_length_le (by rw [List.length_drop]; omega)
    rw [h4]
    have h3 : (xs.drop 4260).take 2130 ++ xs.drop 6390 = xs.drop 4260 := by
      rw [show xs.drop 6390 = (xs.drop 4260).drop 2130 by rw [List.drop_drop]]; exact List.take_append_drop _ _
    rw [h3]
    have h2 : (xs.drop 2130).take 2130 ++ xs.drop 4260 = xs.drop 2130 := by
      rw [show xs.drop 4260 = (xs.drop 2130).drop 2130 by rw [List.drop_drop]]; exact List.take_append_drop _ _
    rw [h2, List.take_append_drop]
  unfold acc
  conv => lhs; rw [hsplit]
  rw [List.foldl_append, List.foldl_append, List.foldl_append]
  rw [acc_window a k xs a.zero 0 (by decide) 2130 (by decide) (by omega), dif_pos (by omega)]
  rw [acc_window a k (xs.drop 2130) _ (0 + 2130) (by decide) 2130 (by decide) (by rw [List.length_drop]; omega), dif_pos (by rw [List.length_drop]; omega)]
  rw [acc_window a k (xs.drop 4260) _ (0 + 2130 + 2130) (by decide) 2130 (by decide) (by rw [List.length_drop]; omega), dif_pos (by rw [List.length_drop]; omega)]
  rw [acc_window a k (xs.drop 6390) _ (0 + 2130 + 2130 + 2130) (by decide) 2130 (by decide) (by rw [List.length_drop]; omega), dif_pos (by rw [List.length_drop]; omega)]
  simp only [List.getElem_drop]

end Verif.SG
