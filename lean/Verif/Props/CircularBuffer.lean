import Verif.Spec.CircularBuffer
/-
C103: the circular buffer of the OZYS app is a bounded deque.
-/
namespace Verif.Props
open Verif Verif.Ozys

/-- around the end of the array, once -/
def wrapTo (c a : Nat) : Nat := if a < c then a else a - c

theorem wrap_cases (c a : Nat) : (a < c ∧ wrapTo c a = a) ∨ (c ≤ a ∧ wrapTo c a + c = a) := by
  unfold wrapTo; split <;> omega

/-- the circular buffer holds the list `l` -/
structure Holds {α : Type} (b : CBuf α) (l : List α) : Prop where
  cap : 0 < b.capacity
  len : b.buffer.length = b.capacity
  size : b.size = l.length
  le : l.length ≤ b.capacity
  head : b.head < b.capacity
  tail : b.tail = wrapTo b.capacity (b.head + l.length)
  cell : ∀ i, i < l.length → b.cell (wrapTo b.capacity (b.head + i)) = l[i]?

theorem cb_mod (c a : Nat) (h : a < 2 * c) : a % c = wrapTo c a := by
  unfold wrapTo
  split
  · exact Nat.mod_eq_of_lt (by assumption)
  · rw [Nat.mod_eq_sub_mod (by omega)]; exact Nat.mod_eq_of_lt (by omega)

theorem cb_cell_set {α : Type} (b : CBuf α) (j : Nat) (v : Option α) (i : Nat) (h : i < b.buffer.length) :
    ((b.buffer.set j v)[i]?).getD none = if j = i then v else b.cell i := by
  unfold CBuf.cell
  rw [List.getElem?_set]
  split
  · rename_i e; subst e; simp [h]
  · rfl

theorem cb_slice {α : Type} {b : CBuf α} {l : List α} (h : Holds b l) (s e : Nat) (he : e ≤ l.length) (hs : s ≤ e) :
    b.slice s e = ((l.take e).drop s).map some := by
  apply List.ext_getElem?
  intro i
  unfold CBuf.slice
  rw [List.getElem?_map, List.getElem?_map, List.getElem?_drop]
  by_cases hi : i < e - s
  · rw [List.getElem?_range hi, Option.map_some]
    have h1 := h.cell (s + i) (by omega)
    have := h.head
    have := h.le
    rw [cb_mod _ _ (by omega), h1, List.getElem?_take_of_lt (by omega), List.getElem?_eq_getElem (by omega)]
    rfl
  · rw [List.getElem?_eq_none (by simp; omega), List.getElem?_eq_none (by simp; omega)]; rfl

theorem cb_peek {α : Type} {b : CBuf α} {l : List α} (h : Holds b l) (i : Int) : b.peek i = dqPeek l i := by
  have hs := h.size; have hle := h.le; have hh := h.head; have ht := h.tail; have hc := h.cap
  have w := wrap_cases b.capacity (b.head + l.length)
  rw [← ht] at w
  unfold CBuf.peek dqPeek
  split
  · rename_i h1
    rw [hs] at h1
    split
    · rw [List.getElem?_eq_none (by omega)]
    · rw [List.getElem?_eq_none (by rw [List.length_reverse]; omega)]
  · rename_i h1
    rw [hs] at h1
    by_cases hi : i ≥ 0
    · simp only [if_pos hi]
      obtain ⟨n, rfl⟩ : ∃ n : Nat, i = n := ⟨i.toNat, by omega⟩
      have e : ((b.head : Int) + (n : Int)).tmod b.capacity = (((b.head + n) % b.capacity : Nat) : Int) := by
        rw [Int.tmod_eq_emod_of_nonneg (by omega)]; rfl
      rw [e, Int.toNat_natCast, Int.toNat_natCast, cb_mod _ _ (by omega)]
      exact h.cell n (by omega)
    · simp only [if_neg hi]
      obtain ⟨n, rfl⟩ : ∃ n : Nat, i = -(n : Int) := ⟨(-i).toNat, by omega⟩
      have w2 := wrap_cases b.capacity (b.head + (l.length - n))
      have key : (if ((b.tail : Int) + -(n : Int)).tmod b.capacity < 0 then ((b.tail : Int) + -(n : Int)).tmod b.capacity + b.capacity else ((b.tail : Int) + -(n : Int)).tmod b.capacity).toNat =
          wrapTo b.capacity (b.head + (l.length - n)) := by
        by_cases hn : n ≤ b.tail
        · have e : ((b.tail : Int) + -(n : Int)).tmod b.capacity = (b.tail - n : Nat) := by
            rw [Int.tmod_eq_of_lt (by omega) (by omega)]; omega
          rw [e, if_neg (by omega)]
          omega
        · by_cases hf : n - b.tail = b.capacity
          · have e : ((b.tail : Int) + -(n : Int)).tmod b.capacity = 0 := by
              have : ((b.tail : Int) + -(n : Int)) = -(b.capacity : Int) := by omega
              rw [this, Int.neg_tmod, Int.tmod_self]; rfl
            rw [e, if_neg (by omega)]
            omega
          · have e : ((b.tail : Int) + -(n : Int)).tmod b.capacity = (b.tail : Int) - n := by
              have : ((b.tail : Int) + -(n : Int)) = -(((n - b.tail : Nat)) : Int) := by omega
              rw [this, Int.neg_tmod, Int.tmod_eq_of_lt (by omega) (by omega)]; omega
            rw [e, if_pos (by omega)]
            omega
      rw [key, h.cell _ (by omega), List.getElem?_reverse (by omega)]
      congr 1; omega

theorem cb_holds_new {α : Type} (c : Nat) (h : 0 < c) : Holds (⟨List.replicate c none, c, 0, 0, 0⟩ : CBuf α) [] := by
  refine ⟨h, List.length_replicate, rfl, Nat.zero_le _, h, ?_, ?_⟩
  · have := wrap_cases c (0 + 0)
    show 0 = wrapTo c (0 + 0); omega
  · intro i hi; simp at hi

theorem cb_addLast {α : Type} {b : CBuf α} {l : List α} (h : Holds b l) (v : α) : Holds (b.addLast v) (dqAddLast b.capacity l v) ∧ (b.addLast v).capacity = b.capacity := by
  have hs := h.size; have hle := h.le; have hh := h.head; have ht := h.tail; have hc := h.cap
  have w := wrap_cases b.capacity (b.head + l.length)
  rw [← ht] at w
  have m1 : (b.tail + 1) % b.capacity = wrapTo b.capacity (b.tail + 1) := cb_mod _ _ (by omega)
  have m2 : (b.head + 1) % b.capacity = wrapTo b.capacity (b.head + 1) := cb_mod _ _ (by omega)
  have w1 := wrap_cases b.capacity (b.tail + 1)
  have w2 := wrap_cases b.capacity (b.head + 1)
  unfold CBuf.addLast dqAddLast
  by_cases hf : b.size = b.capacity
  · rw [if_pos hf, if_pos (by omega), m1, m2]
    refine ⟨?_, rfl⟩
    have hl0 : l.length ≠ 0 := by omega
    have hlen : (l.tail ++ [v]).length = l.length := by simp; omega
    refine ⟨hc, by show (b.buffer.set _ _).length = _; rw [List.length_set]; exact h.len, by rw [hlen]; exact hs, by rw [hlen]; exact hle, by show wrapTo b.capacity (b.head + 1) < b.capacity; omega, ?_, ?_⟩
    · rw [hlen]
      show wrapTo b.capacity (b.tail + 1) = wrapTo b.capacity (wrapTo b.capacity (b.head + 1) + l.length)
      have w3 := wrap_cases b.capacity (wrapTo b.capacity (b.head + 1) + l.length)
      omega
    · intro i hi
      rw [hlen] at hi
      show ((b.buffer.set b.tail (some v))[wrapTo b.capacity (wrapTo b.capacity (b.head + 1) + i)]?).getD none = _
      have w3 := wrap_cases b.capacity (wrapTo b.capacity (b.head + 1) + i)
      have w4 := wrap_cases b.capacity (b.head + (i + 1))
      have hp : wrapTo b.capacity (wrapTo b.capacity (b.head + 1) + i) = wrapTo b.capacity (b.head + (i + 1)) := by omega
      rw [hp, cb_cell_set _ _ _ _ (by rw [h.len]; omega)]
      by_cases hi1 : i + 1 < l.length
      · rw [if_neg (by omega), List.getElem?_append_left (by simp; omega), List.getElem?_tail, ← h.cell (i + 1) hi1]
      · rw [if_pos (by omega), List.getElem?_append_right (by simp; omega)]
        have : i - l.tail.length = 0 := by simp; omega
        rw [this]; rfl
  · rw [if_neg hf, if_neg (by omega), m1]
    refine ⟨?_, rfl⟩
    have hlen : (l ++ [v]).length = l.length + 1 := by simp
    refine ⟨hc, by show (b.buffer.set _ _).length = _; rw [List.length_set]; exact h.len, by rw [hlen]; show b.size + 1 = _; omega, by rw [hlen]; show _ ≤ b.capacity; omega, hh, ?_, ?_⟩
    · rw [hlen]
      show wrapTo b.capacity (b.tail + 1) = wrapTo b.capacity (b.head + (l.length + 1))
      have w3 := wrap_cases b.capacity (b.head + (l.length + 1))
      omega
    · intro i hi
      rw [hlen] at hi
      show ((b.buffer.set b.tail (some v))[wrapTo b.capacity (b.head + i)]?).getD none = _
      have w3 := wrap_cases b.capacity (b.head + i)
      rw [cb_cell_set _ _ _ _ (by rw [h.len]; omega)]
      by_cases hi1 : i < l.length
      · rw [if_neg (by omega), List.getElem?_append_left hi1, ← h.cell i hi1]
      · rw [if_pos (by omega), List.getElem?_append_right (by omega)]
        have : i - l.length = 0 := by omega
        rw [this]; rfl

theorem cb_addStart {α : Type} {b : CBuf α} {l : List α} (h : Holds b l) (v : α) : Holds (b.addStart v) (dqAddStart b.capacity l v) ∧ (b.addStart v).capacity = b.capacity := by
  have hs := h.size; have hle := h.le; have hh := h.head; have ht := h.tail; have hc := h.cap
  have w := wrap_cases b.capacity (b.head + l.length)
  rw [← ht] at w
  have m : (b.head + b.capacity - 1) % b.capacity = wrapTo b.capacity (b.head + b.capacity - 1) := cb_mod _ _ (by omega)
  have w1 := wrap_cases b.capacity (b.head + b.capacity - 1)
  unfold CBuf.addStart dqAddStart
  simp only [m]
  generalize hhd : wrapTo b.capacity (b.head + b.capacity - 1) = hd at w1
  have cellc : ∀ n i (hn : n ≤ l.length), i < n + 1 → n < b.capacity → ((b.buffer.set hd (some v))[wrapTo b.capacity (hd + i)]?).getD none = (v :: l.take n)[i]? := by
    intro n i hn hi hnc
    have w2 := wrap_cases b.capacity (hd + i)
    rw [cb_cell_set _ _ _ _ (by rw [h.len]; omega)]
    cases i with
    | zero => rw [if_pos (by omega)]; rfl
    | succ i =>
      have w3 := wrap_cases b.capacity (b.head + i)
      have e : wrapTo b.capacity (hd + (i + 1)) = wrapTo b.capacity (b.head + i) := by omega
      rw [if_neg (by omega), List.getElem?_cons_succ, List.getElem?_take_of_lt (by omega), ← h.cell i (by omega), e]
  by_cases hf : b.size = b.capacity
  · rw [if_pos hf, if_pos (by omega)]
    refine ⟨?_, rfl⟩
    have hdl : l.dropLast = l.take (l.length - 1) := List.dropLast_eq_take
    have hlen : (v :: l.dropLast).length = l.length := by simp; omega
    refine ⟨hc, by show (b.buffer.set _ _).length = _; rw [List.length_set]; exact h.len, by rw [hlen]; exact hs, by rw [hlen]; exact hle, by show hd < b.capacity; omega, ?_, ?_⟩
    · rw [hlen]
      show hd = wrapTo b.capacity (hd + l.length)
      have w2 := wrap_cases b.capacity (hd + l.length)
      omega
    · intro i hi
      rw [hlen] at hi
      rw [hdl]
      exact cellc (l.length - 1) i (by omega) (by omega) (by omega)
  · rw [if_neg hf, if_neg (by omega)]
    refine ⟨?_, rfl⟩
    refine ⟨hc, by show (b.buffer.set _ _).length = _; rw [List.length_set]; exact h.len, by show b.size + 1 = _; rw [List.length_cons]; omega, by rw [List.length_cons]; show _ ≤ b.capacity; omega,
      by show hd < b.capacity; omega, ?_, ?_⟩
    · rw [List.length_cons]
      show b.tail = wrapTo b.capacity (hd + (l.length + 1))
      have w2 := wrap_cases b.capacity (hd + (l.length + 1))
      omega
    · intro i hi
      rw [List.length_cons] at hi
      have := cellc l.length i (Nat.le_refl _) hi (by omega)
      rw [List.take_length] at this
      exact this

theorem cb_removeFirst {α : Type} {b : CBuf α} {l : List α} (h : Holds b l) : b.removeFirst.1 = l.head? ∧ Holds b.removeFirst.2 l.tail ∧ b.removeFirst.2.capacity = b.capacity := by
  have hs := h.size; have hle := h.le; have hh := h.head; have ht := h.tail; have hc := h.cap
  have w := wrap_cases b.capacity (b.head + l.length)
  rw [← ht] at w
  unfold CBuf.removeFirst
  by_cases h0 : b.size = 0
  · rw [if_pos h0]
    have : l = [] := List.length_eq_zero_iff.mp (by omega)
    subst this
    exact ⟨rfl, h, rfl⟩
  · have m2 : (b.head + 1) % b.capacity = wrapTo b.capacity (b.head + 1) := cb_mod _ _ (by omega)
    have w2 := wrap_cases b.capacity (b.head + 1)
    rw [if_neg h0, m2]
    refine ⟨?_, ?_, rfl⟩
    · have := h.cell 0 (by omega)
      have w0 := wrap_cases b.capacity (b.head + 0)
      have e : wrapTo b.capacity (b.head + 0) = b.head := by omega
      rw [e] at this
      show b.cell b.head = _
      rw [List.head?_eq_getElem?, ← this]
    · refine ⟨hc, by show (b.buffer.set _ _).length = _; rw [List.length_set]; exact h.len, by rw [List.length_tail]; show b.size - 1 = _; omega, by rw [List.length_tail]; show _ ≤ b.capacity; omega,
        by show wrapTo b.capacity (b.head + 1) < b.capacity; omega, ?_, ?_⟩
      · rw [List.length_tail]
        show b.tail = wrapTo b.capacity (wrapTo b.capacity (b.head + 1) + (l.length - 1))
        have w3 := wrap_cases b.capacity (wrapTo b.capacity (b.head + 1) + (l.length - 1))
        omega
      · intro i hi
        rw [List.length_tail] at hi
        show ((b.buffer.set b.head none)[wrapTo b.capacity (wrapTo b.capacity (b.head + 1) + i)]?).getD none = _
        have w3 := wrap_cases b.capacity (wrapTo b.capacity (b.head + 1) + i)
        have w4 := wrap_cases b.capacity (b.head + (i + 1))
        have hp : wrapTo b.capacity (wrapTo b.capacity (b.head + 1) + i) = wrapTo b.capacity (b.head + (i + 1)) := by omega
        rw [hp, cb_cell_set _ _ _ _ (by rw [h.len]; omega), if_neg (by omega), List.getElem?_tail, ← h.cell (i + 1) (by omega)]

theorem cb_removeLast {α : Type} {b : CBuf α} {l : List α} (h : Holds b l) : b.removeLast.1 = l.getLast? ∧ Holds b.removeLast.2 l.dropLast ∧ b.removeLast.2.capacity = b.capacity := by
  have hs := h.size; have hle := h.le; have hh := h.head; have ht := h.tail; have hc := h.cap
  have w := wrap_cases b.capacity (b.head + l.length)
  rw [← ht] at w
  unfold CBuf.removeLast
  by_cases h0 : b.size = 0
  · rw [if_pos h0]
    have : l = [] := List.length_eq_zero_iff.mp (by omega)
    subst this
    exact ⟨rfl, h, rfl⟩
  · rw [if_neg h0]
    have w1 := wrap_cases b.capacity (b.tail + b.capacity - 1)
    have w2 := wrap_cases b.capacity (b.head + (l.length - 1))
    have m : (b.tail + b.capacity - 1) % b.capacity = wrapTo b.capacity (b.head + (l.length - 1)) := by
      rw [cb_mod _ _ (by omega)]; omega
    simp only [m]
    refine ⟨?_, ?_, trivial⟩
    · rw [h.cell _ (by omega), List.getLast?_eq_getElem?]
    · refine ⟨hc, by show (b.buffer.set _ _).length = _; rw [List.length_set]; exact h.len, by rw [List.length_dropLast]; show b.size - 1 = _; omega, by rw [List.length_dropLast]; show _ ≤ b.capacity; omega, hh, ?_, ?_⟩
      · rw [List.length_dropLast]
      · intro i hi
        rw [List.length_dropLast] at hi
        have w3 := wrap_cases b.capacity (b.head + i)
        show ((b.buffer.set (wrapTo b.capacity (b.head + (l.length - 1))) none)[wrapTo b.capacity (b.head + i)]?).getD none = _
        rw [cb_cell_set _ _ _ _ (by rw [h.len]; omega), if_neg (by omega), List.dropLast_eq_take, List.getElem?_take_of_lt hi, ← h.cell i (by omega)]

/-- one call -/
theorem cb_call {α : Type} {b : CBuf α} {l : List α} (h : Holds b l) (o : COp α) :
    (b.call o).1 = (dqCall b.capacity l o).1 ∧ Holds (b.call o).2 (dqCall b.capacity l o).2 ∧ (b.call o).2.capacity = b.capacity := by
  have hs := h.size
  cases o with
  | addStart v => exact ⟨rfl, cb_addStart h v⟩
  | addLast v => exact ⟨rfl, cb_addLast h v⟩
  | removeFirst => exact ⟨congrArg CRes.item (cb_removeFirst h).1, (cb_removeFirst h).2⟩
  | removeLast => exact ⟨congrArg CRes.item (cb_removeLast h).1, (cb_removeLast h).2⟩
  | clear => exact ⟨rfl, cb_holds_new _ h.cap, rfl⟩
  | peek i => exact ⟨congrArg CRes.item (cb_peek h i), h, rfl⟩
  | toArray =>
    refine ⟨congrArg CRes.items ?_, h, rfl⟩
    unfold CBuf.toArray
    rw [cb_slice h _ _ (by omega) (Nat.zero_le _), hs, List.take_length]; rfl
  | firstN n =>
    refine ⟨congrArg CRes.items ?_, h, rfl⟩
    unfold CBuf.firstN
    split
    · have : n.toNat = 0 := by omega
      rw [this]; rfl
    · rw [cb_slice h _ _ (by omega) (Nat.zero_le _), List.drop_zero, hs]
      congr 1
      by_cases hn : n.toNat ≤ l.length
      · rw [Nat.min_eq_left hn]
      · rw [Nat.min_eq_right (by omega), List.take_length, List.take_of_length_le (by omega)]
  | lastN n =>
    refine ⟨congrArg CRes.items ?_, h, rfl⟩
    unfold CBuf.lastN
    split
    · have : l.length - n.toNat = l.length := by omega
      rw [this, List.drop_length]; rfl
    · rw [cb_slice h _ _ (by omega) (by omega), hs, List.take_length]
      congr 2; omega
  | length => exact ⟨congrArg CRes.count hs, h, rfl⟩
  | isEmpty =>
    refine ⟨congrArg CRes.flag ?_, h, rfl⟩
    rw [hs]
    cases l <;> simp

/-- C103: for every capacity above zero and every list of calls, of any length and in any order, the circular buffer answers every call as a bounded deque does: a plain list, where adding at one end of
a full one drops the item at the other end -/
theorem C103_deque {α : Type} (capacity : Int) (b : CBuf α) (hb : CBuf.new capacity = some b) (os : List (COp α)) : b.calls os = dqCalls capacity.toNat [] os := by
  unfold CBuf.new at hb
  split at hb
  · cases hb
  · obtain rfl := Option.some.inj hb
    have key : ∀ (os : List (COp α)) (b : CBuf α) (l : List α), Holds b l → b.calls os = dqCalls b.capacity l os := by
      intro os
      induction os with
      | nil => exact fun _ _ _ => rfl
      | cons o os ih =>
        intro b l h
        obtain ⟨h1, h2, h3⟩ := cb_call h o
        show (b.call o).1 :: (b.call o).2.calls os = (dqCall b.capacity l o).1 :: dqCalls b.capacity (dqCall b.capacity l o).2 os
        rw [h1, ih _ _ h2, h3]
    exact key os _ [] (cb_holds_new _ (by omega))

/-- C103: it never holds more than its capacity -/
theorem C103_bounded {α : Type} (capacity : Int) (b : CBuf α) (hb : CBuf.new capacity = some b) (os : List (COp α)) : Holds (b.after os) (dqAfter capacity.toNat [] os) ∧ (dqAfter capacity.toNat [] os).length ≤ capacity.toNat := by
  unfold CBuf.new at hb
  split at hb
  · cases hb
  · obtain rfl := Option.some.inj hb
    have key : ∀ (os : List (COp α)) (b : CBuf α) (l : List α), Holds b l → Holds (b.after os) (dqAfter b.capacity l os) ∧ (dqAfter b.capacity l os).length ≤ b.capacity := by
      intro os
      induction os with
      | nil => exact fun _ _ h => ⟨h, h.le⟩
      | cons o os ih =>
        intro b l h
        obtain ⟨h1, h2, h3⟩ := cb_call h o
        have := ih _ _ h2
        rw [h3] at this
        exact this
    exact key os _ [] (cb_holds_new _ (by omega))

/-- C103: a capacity of zero or less is refused, any other accepted -/
theorem C103_new {α : Type} (capacity : Int) : (CBuf.new (α := α) capacity).isSome ↔ 0 < capacity := by
  unfold CBuf.new
  split
  · constructor
    · intro h; cases h
    · intro h; omega
  · constructor
    · intro _; omega
    · intro _; rfl

/-- four items through a buffer of three, and from both ends -/
example : ((CBuf.new (α := Nat) 3).map fun b => (b.after [.addLast 1, .addLast 2, .addLast 3, .addLast 4, .addStart 9]).toArray) = some [some 9, some 2, some 3] ∧
    ((CBuf.new (α := Nat) 3).map fun b => (b.after [.addLast 1, .addLast 2, .addLast 3, .addLast 4]).peek (-1)) = some (some 4) := by decide

end Verif.Props
