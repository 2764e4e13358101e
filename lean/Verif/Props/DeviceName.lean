import Verif.Model.DeviceName
/-
C108: the name of a device, from the configuration to the line printed by `detect`. The UTF-8 encoding is Lean's own: `String.toByteArray`, `String.utf8ByteSize`.
-/
namespace Verif.Props
open Verif DevName

/-- C108: the fixed-size vector keeps what it is made from, up to its capacity -/
theorem C108_vector {α : Type} (d : α) (n : Nat) (l : List α) :
    (RkyvVec.fromSlice d n l).asSlice = l.take n ∧ (RkyvVec.fromSlice d n l).data.length = n ∧
    (∀ i, (RkyvVec.fromSlice d n l).index i = if i < n then some (l.getD i d) else none) := by
  have h1 : l.take (min l.length n) = l.take n := by
    rcases Nat.le_total l.length n with h | h
    · rw [Nat.min_eq_left h, List.take_length, List.take_of_length_le h]
    · rw [Nat.min_eq_right h]
  refine ⟨?_, ?_, ?_⟩
  · simp only [RkyvVec.asSlice, RkyvVec.fromSlice, h1]
    rw [List.take_append_of_le_length (by simp; omega), ← h1, List.take_take, Nat.min_self]
  · simp [RkyvVec.fromSlice]; omega
  · intro i
    simp only [RkyvVec.index, RkyvVec.fromSlice, h1]
    split
    · next h =>
      by_cases hi : i < l.length
      · rw [List.getElem?_append_left (by simp; omega), List.getElem?_take_of_lt h, List.getElem?_eq_getElem hi]
        simp [List.getD, List.getElem?_eq_getElem hi]
      · rw [List.getElem?_append_right (by simp; omega), List.getElem?_replicate]
        rw [if_pos (by simp; omega)]
        simp [List.getD, List.getElem?_eq_none (Nat.le_of_not_lt hi)]
    · next h => exact List.getElem?_eq_none (by simp; omega)

/-- C108: an element can be assigned exactly within the capacity (also beyond the elements in use, which does not make it one of them), and this changes only that one -/
theorem C108_assign {α : Type} (d : α) (n : Nat) (l : List α) (i : Nat) (x : α) :
    (n ≤ i → (RkyvVec.fromSlice d n l).assign i x = none) ∧
    (i < n → ∃ v, (RkyvVec.fromSlice d n l).assign i x = some v ∧ v.asSlice = (l.take n).set i x ∧ ∀ j, v.index j = if j = i then some x else (RkyvVec.fromSlice d n l).index j) := by
  obtain ⟨h1, h2, -⟩ := C108_vector d n l
  unfold RkyvVec.assign
  rw [h2]
  refine ⟨fun h => by rw [if_neg (by omega)], fun h => ⟨_, by rw [if_pos h], ?_, ?_⟩⟩
  · rw [← h1]; unfold RkyvVec.asSlice; simp only [List.take_set]
  · intro j
    unfold RkyvVec.index
    simp only
    rw [List.getElem?_set, h2]
    by_cases hj : j = i
    · subst hj; simp [h]
    · rw [if_neg (by omega), if_neg hj]


theorem asBytes_length (s : String) : (asBytes s).length = s.utf8ByteSize := rfl

theorem fromUtf8_some (b : Bytes) (r : String) : fromUtf8 b = some r ↔ asBytes r = b := by
  unfold fromUtf8 String.fromUTF8? asBytes
  constructor
  · intro h
    split at h
    · cases h
      simp [String.fromUTF8]
    · cases h
  · intro h
    have e : b.toByteArray = r.toByteArray := by
      rw [← h]; exact ByteArray.ext (by simp)
    rw [e, dif_pos r.isValidUTF8]
    rfl

/-- the bytes in use -/
theorem toDevice_slice (s : String) : (toDevice s).asSlice = (asBytes s).take 64 := by
  unfold toDevice
  rw [(C108_vector 0 64 _).1]
  split
  · rw [List.take_take, Nat.min_self]
  · rfl

/-- C108: a name of up to 64 bytes (UTF-8) is shown as it was configured -/
theorem C108_short (s : String) (h : s.utf8ByteSize ≤ 64) : shown (some (toDevice s)) = some s := by
  show fromUtf8 _ = _
  rw [fromUtf8_some, toDevice_slice, List.take_of_length_le (by rw [asBytes_length]; exact h)]

/-- a string whose bytes are the first bytes of another is made of its first characters -/
theorem prefix_of_bytes (r s : String) (k : Nat) : asBytes r = (asBytes s).take k ↔ (r.toList <+: s.toList ∧ (asBytes r).length = min k (asBytes s).length) := by
  constructor
  · intro h
    refine ⟨?_, by rw [h, List.length_take]⟩
    apply List.isPrefix_of_utf8Encode_append_eq_utf8Encode ((asBytes s).drop k).toByteArray
    rw [String.utf8Encode_toList, String.utf8Encode_toList]
    apply ByteArray.ext
    have : asBytes r ++ (asBytes s).drop k = asBytes s := by rw [h, List.take_append_drop]
    have := congrArg List.toArray this
    simpa [asBytes, ← List.append_toArray] using this
  · rintro ⟨⟨t, ht⟩, hl⟩
    have e : asBytes s = asBytes r ++ t.utf8Encode.data.toList := by
      unfold asBytes
      rw [← String.utf8Encode_toList (b := s), ← ht, List.utf8Encode_append, String.utf8Encode_toList]
      simp
    rw [e]
    have hk : (asBytes r).length = k ∨ ((asBytes r).length < k ∧ (asBytes r).length = (asBytes s).length) := by omega
    rcases hk with hk | ⟨_, hk⟩
    · rw [← hk, List.take_left]
    · have : t.utf8Encode.data.toList = [] := by
        apply List.eq_nil_of_length_eq_zero
        rw [e, List.length_append] at hk; omega
      rw [this, List.append_nil, List.take_of_length_le (by omega)]

/-- C108: what is shown for a longer name: its first characters, exactly 64 bytes of them -/
theorem C108_long (s r : String) (h : 64 < s.utf8ByteSize) : shown (some (toDevice s)) = some r ↔ r.toList <+: s.toList ∧ r.utf8ByteSize = 64 := by
  show fromUtf8 _ = _ ↔ _
  rw [fromUtf8_some, toDevice_slice, prefix_of_bytes, asBytes_length, asBytes_length, Nat.min_eq_left (by omega)]

/-- C108 (finding): the tool panics when it lists the device exactly if the name is longer than 64 bytes and its 64th byte does not end a character -/
theorem C108_panic (s : String) : shown (some (toDevice s)) = none ↔ 64 < s.utf8ByteSize ∧ ∀ r : String, r.toList <+: s.toList → r.utf8ByteSize ≠ 64 := by
  constructor
  · intro h
    have h64 : 64 < s.utf8ByteSize := by
      rcases Nat.lt_or_ge 64 s.utf8ByteSize with h' | h'
      · exact h'
      · rw [C108_short s h'] at h; cases h
    refine ⟨h64, fun r hr hr2 => ?_⟩
    have := (C108_long s r h64).mpr ⟨hr, hr2⟩
    rw [this] at h; cases h
  · rintro ⟨h64, h⟩
    cases e : shown (some (toDevice s)) with
    | none => rfl
    | some r =>
      have := (C108_long s r h64).mp e
      exact absurd this.2 (h r this.1)

/-- characters of one byte each -/
theorem ascii_size (l : List Char) (hl : ∀ c ∈ l, c.utf8Size = 1) : (String.ofList l).utf8ByteSize = l.length := by
  show l.utf8Encode.size = _
  induction l with
  | nil => rfl
  | cons c l ih =>
    rw [List.utf8Encode_cons, ByteArray.size_append, ih (fun c hc => hl c (List.mem_cons_of_mem _ hc)), List.utf8Encode_singleton]
    have := hl c List.mem_cons_self
    rw [List.size_toByteArray, String.length_utf8EncodeChar, this, List.length_cons]; omega

/-- C108: a name of ASCII characters only is shown, cut after 64 characters -/
theorem C108_ascii (s : String) (h : ∀ c ∈ s.toList, c.utf8Size = 1) : shown (some (toDevice s)) = some (String.ofList (s.toList.take 64)) := by
  have hs : s = String.ofList s.toList := by simp
  have hn : s.utf8ByteSize = s.toList.length := by
    have := ascii_size s.toList h
    rwa [← hs] at this
  rcases Nat.lt_or_ge 64 s.utf8ByteSize with h' | h'
  · rw [C108_long s _ h']
    refine ⟨by simpa using List.take_prefix 64 s.toList, ?_⟩
    rw [ascii_size _ (fun c hc => h c (List.mem_of_mem_take hc)), List.length_take]
    omega
  · rw [C108_short s h', List.take_of_length_le (by omega)]
    simp

/-- C108: a device without a configuration has the empty name -/
theorem C108_none : shown none = some "" := rfl

/-- C108 (finding): 63 letters and then any character that is not ASCII: the device cannot be listed any more -/
theorem C108_panic_witness (c : Char) (hc : c.utf8Size ≠ 1) (t : List Char) : shown (some (toDevice (String.ofList (List.replicate 63 'a' ++ c :: t)))) = none := by
  have ha : ∀ k, ∀ c ∈ List.replicate k 'a', Char.utf8Size c = 1 := by
    intro k c h; rw [(List.mem_replicate.mp h).2]; decide
  have hc2 : 2 ≤ c.utf8Size := by have := c.utf8Size_pos; omega
  have size : ∀ u : List Char, (String.ofList (List.replicate 63 'a' ++ c :: u)).utf8ByteSize ≥ 65 := by
    intro u
    show (List.utf8Encode (List.replicate 63 'a' ++ c :: u)).size ≥ 65
    rw [List.utf8Encode_append, List.utf8Encode_cons, ByteArray.size_append, ByteArray.size_append, List.utf8Encode_singleton, List.size_toByteArray, String.length_utf8EncodeChar]
    have : (List.replicate 63 'a').utf8Encode.size = 63 := by
      have := ascii_size _ (ha 63)
      rw [List.length_replicate] at this
      exact this
    omega
  rw [C108_panic]
  refine ⟨by have := size t; omega, fun r hr hr2 => ?_⟩
  rw [String.toList_ofList] at hr
  obtain ⟨v, hv⟩ := hr
  have hro : r = String.ofList r.toList := by simp
  rcases List.append_eq_append_iff.mp hv with ⟨a, hv, _⟩ | ⟨u, hu, hw⟩
  · have e := congrArg List.length hv
    have hall : ∀ c ∈ r.toList, c.utf8Size = 1 := by
      intro d hd
      refine ha 63 d ?_
      rw [hv]; exact List.mem_append_left _ hd
    have := ascii_size _ hall
    rw [← hro, hr2] at this
    rw [List.length_append, List.length_replicate] at e
    omega
  · cases u with
    | nil =>
      rw [List.append_nil] at hu
      have := ascii_size _ (ha 63)
      rw [← hu, ← hro, hr2, hu, List.length_replicate] at this
      omega
    | cons d u =>
      cases hw
      have := size u
      rw [← hu, ← hro, hr2] at this
      omega

/-- a name of exactly 64 bytes with characters of several bytes is fine -/
example : shown (some (toDevice (String.ofList (List.replicate 32 'é')))) = some (String.ofList (List.replicate 32 'é')) := C108_short _ (by decide +kernel)

/-- é is not ASCII -/
example : 'é'.utf8Size ≠ 1 := by decide

end Verif.Props
