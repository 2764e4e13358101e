import Verif.Model.Directory
import Verif.Props.Hamming
/-
Directory records: round trip, and what a partially written ("torn") record decodes to.
-/
namespace Verif.Vlfs
open Verif Verif.Hamming

/-- values that fit their fields: u64 id, u16 type, sector index other than the "none" marker -/
structure FileEntry.WF (e : FileEntry) : Prop where
  id : e.id < 2 ^ 64
  typ : e.typ < 2 ^ 16
  first : ∀ s, e.first = some s → s < 0xFFFF

/-- the 12 data bytes of a record -/
def FileEntry.record (e : FileEntry) : Bytes :=
  beBytes 2 e.typ ++ beBytes 2 (e.first.getD 0xFFFF) ++ beBytes 8 e.id

theorem FileEntry.record_length (e : FileEntry) : e.record.length = 12 := by
  simp [FileEntry.record, beBytes_length]

theorem FileEntry.serialize_eq (e : FileEntry) : e.serialize = encode (e.record ++ [0]) := by
  simp [FileEntry.serialize, FileEntry.record]

theorem encode_length (d : Bytes) : (encode d).length = 13 := by unfold encode; exact ofBits_length _ _

theorem FileEntry.serialize_length (e : FileEntry) : e.serialize.length = 13 := encode_length _
theorem headerSerialize_length (s : Nat) : (headerSerialize s).length = 13 := encode_length _
theorem footerSerialize_length (s : Nat) : (footerSerialize s).length = 13 := encode_length _

theorem ofRecord_record (e : FileEntry) (h : e.WF) : FileEntry.ofRecord e.record = e := by
  have e1 : (e.record).take 2 = beBytes 2 e.typ := by
    rw [FileEntry.record, List.append_assoc, List.take_append_of_le_length (by simp [beBytes_length]), List.take_of_length_le (by simp [beBytes_length])]
  have e2 : (e.record.drop 2).take 2 = beBytes 2 (e.first.getD 0xFFFF) := by
    rw [FileEntry.record, List.append_assoc, List.drop_append_of_le_length (by simp [beBytes_length]),
      List.drop_of_length_le (by simp [beBytes_length]), List.nil_append,
      List.take_append_of_le_length (by simp [beBytes_length]), List.take_of_length_le (by simp [beBytes_length])]
  have e3 : (e.record.drop 4).take 8 = beBytes 8 e.id := by
    rw [FileEntry.record, List.drop_append_of_le_length (by simp [beBytes_length]),
      List.drop_of_length_le (by simp [beBytes_length]), List.nil_append, List.take_of_length_le (by simp [beBytes_length])]
  unfold FileEntry.ofRecord
  simp only [e1, e2, e3]
  rw [beNat_beBytes_of_lt (show e.typ < 256 ^ 2 by have := h.typ; omega),
    beNat_beBytes_of_lt (show e.id < 256 ^ 8 by have := h.id; omega)]
  have hf : e.first.getD 0xFFFF < 256 ^ 2 := by
    cases hc : e.first with
    | none => simp
    | some s => have := h.first s hc; simp; omega
  rw [beNat_beBytes_of_lt hf]
  cases e with
  | mk id typ first =>
    simp only [FileEntry.mk.injEq, true_and]
    cases first with
    | none => rfl
    | some s => have := h.first s rfl; simp; omega

theorem deserialize_serialize (e : FileEntry) (h : e.WF) : FileEntry.deserialize e.serialize = some e := by
  rw [FileEntry.deserialize, FileEntry.serialize_eq, Props.C01_ecc_round_trip _ e.record_length, Option.map_some,
    ofRecord_record e h]

theorem headerDeserialize_serialize (seq : Nat) (h : seq < 2 ^ 64) : headerDeserialize (headerSerialize seq) = some seq := by
  have hl : (beBytes 4 VLFS_VERSION ++ beBytes 8 seq).length = 12 := by simp [beBytes_length]
  unfold headerDeserialize headerSerialize
  rw [Props.C01_ecc_round_trip _ hl]
  have e1 : (beBytes 4 VLFS_VERSION ++ beBytes 8 seq).take 4 = beBytes 4 VLFS_VERSION := by
    rw [List.take_append_of_le_length (by simp [beBytes_length]), List.take_of_length_le (by simp [beBytes_length])]
  have e2 : ((beBytes 4 VLFS_VERSION ++ beBytes 8 seq).drop 4).take 8 = beBytes 8 seq := by
    rw [List.drop_append_of_le_length (by simp [beBytes_length]),
      List.drop_of_length_le (by simp [beBytes_length]), List.nil_append, List.take_of_length_le (by simp [beBytes_length])]
  simp only [e1, e2]
  rw [beNat_beBytes_of_lt (by decide), beNat_beBytes_of_lt (by omega)]
  simp

/-! ### Torn records -/

theorem decodeBits_ones (b : Nat → Bool) (h : ∀ i, 16 ≤ i → i < 104 → b i = true) : decodeBits b = none := by
  have hp : ∀ p, p = 4 ∨ p = 5 ∨ p = 6 → parityLoop b (p + 1) = true := by
    intro p hp
    rw [parityLoop_eq _ _ (by omega), Nat.add_sub_cancel]
    have : xorL (List.range' 1 103) (fun i => i.testBit p && b i) = xorL (List.range' 1 103) (fun i => i.testBit p) := by
      apply xorL_congr
      intro i hi
      rw [List.mem_range'_1] at hi
      by_cases h16 : 16 ≤ i
      · rw [h i h16 (by omega), Bool.and_true]
      · have : i.testBit p = false := by
          apply Nat.testBit_lt_two_pow
          have : (2:Nat) ^ 4 ≤ 2 ^ p := Nat.pow_le_pow_right (by decide) (by omega)
          omega
        rw [this]; rfl
    rw [this]
    rcases hp with rfl | rfl | rfl <;> decide +kernel
  have h4 : (syndrome b).testBit 4 = true := by rw [syndrome_testBit, hp 4 (by simp)]; rfl
  have h5 : (syndrome b).testBit 5 = true := by rw [syndrome_testBit, hp 5 (by simp)]; rfl
  have h6 : (syndrome b).testBit 6 = true := by rw [syndrome_testBit, hp 6 (by simp)]; rfl
  have hlt := syndrome_lt b
  have hge : 112 ≤ syndrome b := by
    generalize syndrome b = s at *
    have : ∀ s, s < 128 → s.testBit 4 = true → s.testBit 5 = true → s.testBit 6 = true → 112 ≤ s := by decide +kernel
    exact this s hlt h4 h5 h6
  rw [decodeBits_eq, if_neg (by omega)]
  split
  · rw [if_pos (by omega)]
  · rfl

/-- `l` with everything from byte `k` on erased -/
def torn (l : Bytes) (k : Nat) : Bytes := l.take k ++ List.replicate (13 - k) 0xFF

theorem torn_getD (l : Bytes) (k i : Nat) (hl : l.length = 13) (hk : k ≤ 13) (hi : i < 13) :
    (torn l k).getD i 0 = if i < k then l.getD i 0 else 0xFF := by
  unfold torn
  rw [List.getD_eq_getElem?_getD, List.getD_eq_getElem?_getD]
  by_cases h : i < k
  · rw [if_pos h, List.getElem?_append_left (by rw [List.length_take]; omega), List.getElem?_take_of_lt h]
  · rw [if_neg h, List.getElem?_append_right (by rw [List.length_take]; omega), List.length_take,
      List.getElem?_replicate, if_pos (by omega)]; rfl

theorem bitAt_torn (l : Bytes) (k i : Nat) (hl : l.length = 13) (hk : k ≤ 13) (hi : i < 104) :
    bitAt (torn l k) i = if i / 8 < k then bitAt l i else true := by
  unfold bitAt
  rw [torn_getD _ _ _ hl hk (by omega)]
  split
  · rfl
  · have : i % 8 < 8 := Nat.mod_lt _ (by decide)
    generalize i % 8 = j at *
    have : ∀ j, j < 8 → (255 : UInt8).toNat.testBit j = true := by decide
    exact this j (by omega)

theorem decode_torn_small (l : Bytes) (k : Nat) (hl : l.length = 13) (hk : k ≤ 2) : decode (torn l k) = none := by
  unfold decode
  rw [decodeBits_ones]
  · rfl
  · intro i h1 h2
    rw [bitAt_torn _ _ _ hl (by omega) h2, if_neg (by omega)]

theorem pos_inj16 : ∀ i, i < 16 → ∀ j, j < 16 → pos i = pos j → i = j := by decide
theorem pos_lt16 : ∀ i, i < 16 → pos i < 24 := by decide

/-- decoding a word whose first three bytes are those of the codeword of `d` changes at most one of the first
16 data bits -/
theorem decode_prefix3 (w d r : Bytes) (pad : UInt8) (hd : d.length = 12)
    (hw : ∀ i, i < 24 → bitAt w i = bitAt (encode (d ++ [pad])) i) (hr : decode w = some r) :
    ∃ p, ∀ i, i < 16 → i ≠ p → bitAt r i = bitAt d i := by
  have hgen : ∀ i, i < 16 → bitAt w (pos i) = bitAt d i := by
    intro i hi
    rw [hw _ (pos_lt16 i hi)]
    have : pos i < 104 := pos_lt i (by omega)
    rw [show bitAt (encode (d ++ [pad])) (pos i) = encodeBits (bitAt (d ++ [pad])) (pos i) from
      (by unfold encode; exact bitAt_ofBits 13 _ _ (by omega)), encode_data _ _ (by omega), bitAt_append_left _ _ _ (by omega)]
  unfold decode at hr
  rw [decodeBits_eq] at hr
  have key : ∀ c : Nat → Bool, ∀ i, i < 16 → bitAt (ofBits 12 (extract c)) i = c (pos i) := by
    intro c i hi
    rw [bitAt_ofBits _ _ _ (by omega), extract_eq _ _ (by omega)]
  split at hr
  · rw [Option.map_some, Option.some.injEq] at hr
    subst hr
    exact ⟨0, fun i hi _ => by rw [key _ i hi, hgen i hi]⟩
  · split at hr
    · split at hr
      · simp at hr
      · rw [Option.map_some, Option.some.injEq] at hr
        subst hr
        generalize syndrome (bitAt w) = s at *
        by_cases hex : ∃ p, p < 16 ∧ pos p = s
        · obtain ⟨p, hp, hps⟩ := hex
          refine ⟨p, fun i hi hne => ?_⟩
          rw [key _ i hi]
          unfold setBit
          rw [if_neg]
          · exact hgen i hi
          · intro he
            exact hne (pos_inj16 i hi p hp (he.trans hps.symm))
        · refine ⟨0, fun i hi _ => ?_⟩
          rw [key _ i hi]
          unfold setBit
          rw [if_neg]
          · exact hgen i hi
          · intro he; exact hex ⟨i, hi, he⟩
    · simp at hr

theorem decode_length (w r : Bytes) (h : decode w = some r) : r.length = 12 := by
  unfold decode at h
  cases hd : decodeBits (bitAt w) with
  | none => rw [hd] at h; simp at h
  | some c => rw [hd, Option.map_some, Option.some.injEq] at h; subst h; exact ofBits_length _ _

theorem footer_bits (r : Bytes) (hl : r.length = 12) (h : beNat (r.take 2) = 0xFFFF) :
    ∀ i, i < 16 → bitAt r i = true := by
  have h2 : r.take 2 = [0xFF, 0xFF] := by
    have := beBytes_beNat (r.take 2)
    rw [h, List.length_take, hl] at this
    exact this.symm.trans (by decide)
  have e : r = [0xFF, 0xFF] ++ r.drop 2 := by rw [← h2, List.take_append_drop]
  intro i hi
  rw [e, bitAt_append_left _ _ _ (by simpa using hi)]
  have : ∀ i, i < 16 → bitAt [0xFF, 0xFF] i = true := by decide
  exact this i hi

theorem typ_bits (e : FileEntry) (h : e.typ < 0x4000) : bitAt e.record 6 = false ∧ bitAt e.record 7 = false := by
  have hb : (e.record).getD 0 0 = UInt8.ofNat (e.typ / 256) := by
    simp [FileEntry.record, beBytes]
  have hlt : e.typ / 256 < 64 := by omega
  unfold bitAt
  show (e.record.getD 0 0).toNat.testBit 6 = false ∧ (e.record.getD 0 0).toNat.testBit 7 = false
  rw [hb, UInt8.toNat_ofNat', Nat.mod_eq_of_lt (by omega)]
  exact ⟨Nat.testBit_lt_two_pow (by omega), Nat.testBit_lt_two_pow (by omega)⟩

/-- a torn file record is never taken for a footer (types below 0x4000) -/
theorem torn_not_footer (e : FileEntry) (ht : e.typ < 0x4000) (k : Nat) (hk : k ≤ 13) (f : FileEntry)
    (hf : FileEntry.deserialize (torn e.serialize k) = some f) : f.isFooter = false := by
  by_cases h3 : k ≤ 2
  · rw [FileEntry.deserialize, decode_torn_small _ _ e.serialize_length h3] at hf
    simp at hf
  · unfold FileEntry.deserialize at hf
    cases hd : decode (torn e.serialize k) with
    | none => rw [hd] at hf; simp at hf
    | some r =>
      rw [hd, Option.map_some, Option.some.injEq] at hf
      subst hf
      have hrl := decode_length _ _ hd
      obtain ⟨p, hp⟩ := decode_prefix3 _ e.record r 0 e.record_length (by
        intro i hi
        rw [bitAt_torn _ _ _ e.serialize_length hk (by omega), if_pos (by omega), e.serialize_eq]) hd
      show (beNat (r.take 2) == 0xFFFF) = false
      rw [← Bool.not_eq_true]
      intro hc
      have hc := footer_bits r hrl (by simpa using hc)
      obtain ⟨h6, h7⟩ := typ_bits e ht
      by_cases hp6 : p = 6
      · have := hp 7 (by decide) (by omega)
        rw [hc 7 (by decide), h7] at this; exact absurd this (by decide)
      · have := hp 6 (by decide) (by omega)
        rw [hc 6 (by decide), h6] at this; exact absurd this (by decide)

theorem deserialize_blank : FileEntry.deserialize (List.replicate 13 0xFF) = none := by
  unfold FileEntry.deserialize
  rw [(Props.C04_blank_rejected 0xFF (Or.inl rfl)).1]; rfl

theorem headerDeserialize_blank : headerDeserialize (List.replicate 13 0xFF) = none := by
  unfold headerDeserialize
  rw [(Props.C04_blank_rejected 0xFF (Or.inl rfl)).1]

end Verif.Vlfs
