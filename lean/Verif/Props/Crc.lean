import Verif.Model.Crc
/-
C24: the checksum does not depend on how the bytes are split into calls.
-/
namespace Verif.Crc

/-- specification: the complete big-endian 32-bit words at the beginning of a byte string -/
def words : List UInt8 → List Nat
  | a :: b :: c :: d :: rest => (((a.toNat * 256 + b.toNat) * 256 + c.toNat) * 256 + d.toNat) :: words rest
  | _ => []

/-- specification: the bytes behind the complete words -/
def leftover : List UInt8 → List UInt8
  | _ :: _ :: _ :: _ :: rest => leftover rest
  | l => l

theorem split4 {l : List UInt8} (h : 4 ≤ l.length) : ∃ a b c d r, l = a :: b :: c :: d :: r := by
  match l, h with
  | a :: b :: c :: d :: r, _ => exact ⟨a, b, c, d, r, rfl⟩

theorem words_short {l : List UInt8} (h : l.length < 4) : words l = [] := by
  match l with
  | [] | [_] | [_, _] | [_, _, _] => rfl
  | _ :: _ :: _ :: _ :: _ => simp at h; omega

theorem leftover_short {l : List UInt8} (h : l.length < 4) : leftover l = l := by
  match l with
  | [] | [_] | [_, _] | [_, _, _] => rfl
  | _ :: _ :: _ :: _ :: _ => simp at h; omega

theorem leftover_length (l : List UInt8) : (leftover l).length = l.length % 4 := by
  induction l using leftover.induct with
  | case1 a b c d rest ih => rw [leftover, ih]; simp; omega
  | case2 l h =>
    have hl : l.length < 4 := by
      apply Nat.not_le.mp; intro hc
      obtain ⟨a, b, c, d, r, rfl⟩ := split4 hc
      exact h _ _ _ _ _ rfl
    rw [leftover_short hl]; omega

/-- appending: the leftover bytes come first -/
theorem words_append (xs ys : List UInt8) : words (xs ++ ys) = words xs ++ words (leftover xs ++ ys) ∧ leftover (xs ++ ys) = leftover (leftover xs ++ ys) := by
  induction xs using leftover.induct with
  | case1 a b c d rest ih =>
    rw [leftover]
    simp only [List.cons_append]
    rw [words, words, leftover]
    exact ⟨by rw [ih.1]; rfl, ih.2⟩
  | case2 l h =>
    have hl : l.length < 4 := by
      apply Nat.not_le.mp; intro hc
      obtain ⟨a, b, c, d, r, rfl⟩ := split4 hc
      exact h _ _ _ _ _ rfl
    rw [leftover_short hl, words_short hl]
    exact ⟨rfl, rfl⟩

/-- what the buffer holds after the bytes `xs` -/
structure Holds {σ : Type} (u : Unit σ) (c : U8Crc σ) (xs : List UInt8) : Prop where
  state : c.state = (words xs).foldl u.feed u.reset
  index : c.index = (leftover xs).length
  buffer : c.buffer.take c.index = leftover xs
  len : c.buffer.length = 4

theorem beWord4 (a b c d : UInt8) : beWord [a, b, c, d] = ((a.toNat * 256 + b.toNat) * 256 + c.toNat) * 256 + d.toNat := by
  simp [beWord]

theorem whole_spec {σ : Type} (u : Unit σ) (c : U8Crc σ) (data xs : List UInt8) (hc : Holds u c xs) (h0 : leftover xs = []) :
    Holds u (c.whole u data) (xs ++ data) := by
  induction data using leftover.induct generalizing c xs with
  | case1 a b d e rest ih =>
    rw [U8Crc.whole, dif_pos (by simp)]
    have hw := words_append xs [a, b, d, e]
    rw [h0] at hw
    have key := ih { c with state := u.feed c.state (beWord [a, b, d, e]) } (xs ++ [a, b, d, e]) ⟨by
      rw [hw.1, List.foldl_append, ← hc.state]
      simp only [List.nil_append, words, List.foldl_cons, List.foldl_nil, beWord4], by
      show c.index = _
      rw [hw.2, hc.index, h0]; rfl, by
      show List.take c.index c.buffer = _
      rw [hw.2, hc.buffer, h0]; rfl, hc.len⟩ (by rw [hw.2]; rfl)
    simpa using key
  | case2 l h =>
    have hl : l.length < 4 := by
      apply Nat.not_le.mp; intro hc'
      obtain ⟨a, b, c, d, r, rfl⟩ := split4 hc'
      exact h _ _ _ _ _ rfl
    have hw := words_append xs l
    rw [h0] at hw
    simp only [List.nil_append, words_short hl, leftover_short hl, List.append_nil] at hw
    rw [U8Crc.whole, dif_neg (by omega)]
    by_cases hz : l.length > 0
    · rw [if_pos hz]
      refine ⟨by rw [hw.1]; exact hc.state, by rw [hw.2], ?_, ?_⟩
      · rw [hw.2]; simp [copyInto]
      · simp [copyInto, hc.len]; omega
    · rw [if_neg hz]
      have : l = [] := List.length_eq_zero_iff.mp (by omega)
      subst this
      rw [List.append_nil]; exact hc

theorem process_spec {σ : Type} (u : Unit σ) (c : U8Crc σ) (data xs : List UInt8) (hc : Holds u c xs) :
    Holds u (c.process u data) (xs ++ data) := by
  have hlen := leftover_length xs
  have hi := hc.index
  have hlt : (leftover xs).length < 4 := by omega
  unfold U8Crc.process
  simp only
  have hw := words_append xs data
  by_cases hz : c.index = 0
  · have h0 : (if c.index ≠ 0 then 4 - c.index else 0) = 0 := by rw [hz]; rfl
    rw [h0, if_neg (by omega), if_neg (by simp)]
    exact whole_spec u c data xs hc (List.length_eq_zero_iff.mp (by omega))
  · rw [if_pos hz]
    by_cases hs : data.length < 4 - c.index
    · rw [if_pos hs]
      have hshort : (leftover xs ++ data).length < 4 := by rw [List.length_append]; omega
      rw [words_short hshort, leftover_short hshort, List.append_nil] at hw
      refine ⟨by rw [hw.1]; exact hc.state, by rw [hw.2, List.length_append, hi], ?_, ?_⟩
      · rw [hw.2]
        simp only [copyInto]
        rw [hc.buffer, List.take_append_of_le_length (by rw [List.length_append]; omega), List.take_of_length_le (by rw [List.length_append]; omega)]
      · have := hc.len
        simp only [copyInto, List.length_append, List.length_take, List.length_drop]; omega
    · rw [if_neg hs, if_pos (by omega)]
      -- the buffered bytes and the first new ones form a word
      have hbuf : copyInto c.buffer c.index (data.take (4 - c.index)) = leftover xs ++ data.take (4 - c.index) := by
        simp only [copyInto]
        rw [hc.buffer, List.drop_eq_nil_of_le (by rw [List.length_take, hc.len]; omega), List.append_nil]
      have h4 : (leftover xs ++ data.take (4 - c.index)).length = 4 := by rw [List.length_append, List.length_take]; omega
      obtain ⟨a, b, d, e, r, hr⟩ := split4 (Nat.le_of_eq h4.symm)
      have hr0 : r = [] := by rw [hr] at h4; simp at h4; exact h4
      subst hr0
      have hw2 := words_append xs (data.take (4 - c.index))
      rw [hr] at hw2
      have hd : xs ++ data = (xs ++ data.take (4 - c.index)) ++ data.drop (4 - c.index) := by
        rw [List.append_assoc, List.take_append_drop]
      rw [hd, hbuf, hr]
      refine whole_spec u _ _ _ ⟨?_, ?_, ?_, rfl⟩ ?_
      · rw [hw2.1, List.foldl_append, ← hc.state, beWord4]; rfl
      · rw [hw2.2]; rfl
      · rw [hw2.2]; rfl
      · rw [hw2.2]; rfl

/-- specification: bytes padded with 0xFF to a whole number of words -/
def padded (data : List UInt8) : List UInt8 := data ++ List.replicate ((4 - data.length % 4) % 4) 0xFF

theorem feedPadded_spec {σ : Type} (u : Unit σ) (s : σ) (data : List UInt8) : feedPadded u s data = (words (padded data)).foldl u.feed s := by
  induction data using leftover.induct generalizing s with
  | case1 a b d e rest ih =>
    rw [feedPadded, dif_pos (by simp)]
    have : padded (a :: b :: d :: e :: rest) = a :: b :: d :: e :: padded rest := by
      unfold padded
      have : (a :: b :: d :: e :: rest).length % 4 = rest.length % 4 := by simp only [List.length_cons]; omega
      rw [this]; rfl
    rw [this, words, List.foldl_cons]
    have := ih (u.feed s (beWord [a, b, d, e]))
    rw [beWord4] at this
    simpa [beWord4] using this
  | case2 l h =>
    have hl : l.length < 4 := by
      apply Nat.not_le.mp; intro hc'
      obtain ⟨a, b, c, d, r, rfl⟩ := split4 hc'
      exact h _ _ _ _ _ rfl
    rw [feedPadded, dif_neg (by omega)]
    match l, hl with
    | [], _ => rfl
    | [a], _ => simp [padded, words, copyInto, beWord]
    | [a, b], _ => simp [padded, words, copyInto, beWord]
    | [a, b, c], _ => simp [padded, words, copyInto, beWord]

end Verif.Crc

namespace Verif.Props
open Verif Verif.Crc

/-- **C24** For every checksum unit and every way of cutting a byte string into `process` calls, the unit ends up having been fed
exactly the complete big-endian words of the whole string, and the bytes not yet fed are the ones behind the last complete word. -/
theorem C24_chunking {σ : Type} (u : Crc.Unit σ) (chunks : List (List UInt8)) :
    let c := chunks.foldl (U8Crc.process u) (U8Crc.new u)
    c.readCrc u = u.read ((words chunks.flatten).foldl u.feed u.reset) ∧ c.buffer.take c.index = leftover chunks.flatten ∧ c.index < 4 := by
  have key : ∀ (chunks : List (List UInt8)) (c : U8Crc σ) (xs : List UInt8), Holds u c xs →
      Holds u (chunks.foldl (U8Crc.process u) c) (xs ++ chunks.flatten) := by
    intro chunks
    induction chunks with
    | nil => intro c xs h; simpa using h
    | cons d ds ih =>
      intro c xs h
      have := ih _ _ (process_spec u c d xs h)
      simpa using this
  have h := key chunks (U8Crc.new u) [] ⟨rfl, rfl, rfl, rfl⟩
  rw [List.nil_append] at h
  refine ⟨?_, h.buffer, ?_⟩
  · unfold U8Crc.readCrc; rw [h.state]
  · have := h.index; have := leftover_length chunks.flatten; omega

/-- **C24** Two ways of cutting the same bytes give the same checksum. -/
theorem C24_same_crc {σ : Type} (u : Crc.Unit σ) (c1 c2 : List (List UInt8)) (h : c1.flatten = c2.flatten) :
    (c1.foldl (U8Crc.process u) (U8Crc.new u)).readCrc u = (c2.foldl (U8Crc.process u) (U8Crc.new u)).readCrc u := by
  have h1 := (C24_chunking u c1).1
  have h2 := (C24_chunking u c2).1
  rw [h1, h2, h]

/-- **C24** The one-shot `calculate` is the checksum of the words of the data padded with 0xFF; for data of a whole number of words it is
what any chunked computation gives. -/
theorem C24_calculate {σ : Type} (u : Crc.Unit σ) (data : List UInt8) :
    calculate u data = u.read ((words (padded data)).foldl u.feed u.reset) ∧
    (data.length % 4 = 0 → ∀ chunks : List (List UInt8), chunks.flatten = data →
      (chunks.foldl (U8Crc.process u) (U8Crc.new u)).readCrc u = calculate u data) := by
  have h1 : calculate u data = u.read ((words (padded data)).foldl u.feed u.reset) := by
    unfold calculate; rw [feedPadded_spec]
  refine ⟨h1, ?_⟩
  intro hz chunks hc
  have h2 := (C24_chunking u chunks).1
  rw [h2, h1, hc]
  have : padded data = data := by unfold padded; rw [hz]; simp
  rw [this]

/-- **C24** (limit of the statement) For data that is not a whole number of words the chunked checksum ignores the last bytes, so it
differs in general from `calculate`. -/
theorem C24_incomplete_word_ignored : ∃ (u : Crc.Unit Nat), (([[1]] : List (List UInt8)).foldl (U8Crc.process u) (U8Crc.new u)).readCrc u ≠ calculate u [1] := by
  refine ⟨⟨0, fun s w => s + w, id⟩, ?_⟩
  rw [(C24_chunking _ _).1, (C24_calculate _ _).1]
  decide

/-- the statements are not empty: ten bytes in chunks of 3, 0, 6 and 1 -/
example : words ([[1, 2, 3], [], [4, 5, 6, 7, 8, 9], [10]] : List (List UInt8)).flatten = [0x01020304, 0x05060708] ∧
    leftover ([[1, 2, 3], [], [4, 5, 6, 7, 8, 9], [10]] : List (List UInt8)).flatten = [9, 10] := by decide

end Verif.Props
