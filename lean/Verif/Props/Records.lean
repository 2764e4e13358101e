import Verif.Lemmas.Records
/-
C05, C06: directory records and the four-fold redundant sector fields.
-/
namespace Verif.Props
open Verif Verif.Vlfs

/-- **C05** Records read back as written: every file entry with a u64 id, u16 type and sector index below 0xFFFF,
every footer, every header with a u64 sequence number. A file (type other than 0xFFFF) is never read as a footer,
a footer always is; and a header of a different version is rejected. -/
theorem C05_record_round_trip :
    (∀ (id typ : Nat) (first : Option Nat), id < 2 ^ 64 → typ < 2 ^ 16 → (∀ s, first = some s → s < 0xFFFF) →
      FileEntry.deserialize (FileEntry.serialize ⟨id, typ, first⟩) = some ⟨id, typ, first⟩ ∧
      (FileEntry.isFooter ⟨id, typ, first⟩ = true ↔ typ = 0xFFFF)) ∧
    (∀ maxId, maxId < 2 ^ 64 → ∃ f, FileEntry.deserialize (footerSerialize maxId) = some f ∧
      f.isFooter = true ∧ f.id = maxId) ∧
    (∀ seq, seq < 2 ^ 64 → headerDeserialize (headerSerialize seq) = some seq) ∧
    (∀ version seq, version < 2 ^ 32 → version ≠ 19 →
      headerDeserialize (Hamming.encode (beBytes 4 version ++ beBytes 8 seq ++ [0])) = none) := by
  refine ⟨fun id typ first h1 h2 h3 => ⟨deserialize_serialize _ ⟨h1, h2, h3⟩, by simp [FileEntry.isFooter]⟩,
    fun m hm => ⟨⟨m, 0xFFFF, none⟩, deserialize_serialize _ ⟨hm, by simp, by simp⟩, rfl, rfl⟩,
    fun seq h => headerDeserialize_serialize seq h, fun v seq hv hne => ?_⟩
  have hl : (beBytes 4 v ++ beBytes 8 seq).length = 12 := by simp [beBytes_length]
  unfold headerDeserialize
  rw [C01_ecc_round_trip _ hl]
  have e1 : (beBytes 4 v ++ beBytes 8 seq).take 4 = beBytes 4 v := by
    rw [List.take_append_of_le_length (by simp [beBytes_length]), List.take_of_length_le (by simp [beBytes_length])]
  simp only [e1]
  rw [beNat_beBytes_of_lt (by omega), if_pos hne]

example : FileEntry.deserialize (FileEntry.serialize ⟨0x123456789ABCDEF, 0x3042, some 0xFFFE⟩)
    = some ⟨0x123456789ABCDEF, 0x3042, some 0xFFFE⟩ :=
  (C05_record_round_trip.1 _ _ _ (by decide) (by decide) (by simp)).1

/-- reading four 16-bit values back from 8 bytes -/
private theorem mostCommon_bytes (a b c d : Nat) (ha : a < 2 ^ 16) (hb : b < 2 ^ 16) (hc : c < 2 ^ 16) (hd : d < 2 ^ 16) :
    mostCommonU16 (beBytes 2 a ++ beBytes 2 b ++ beBytes 2 c ++ beBytes 2 d) = findMostCommon a b c d := by
  have e1 : (beBytes 2 a ++ beBytes 2 b ++ beBytes 2 c ++ beBytes 2 d).take 2 = beBytes 2 a := by simp [beBytes]
  have e2 : ((beBytes 2 a ++ beBytes 2 b ++ beBytes 2 c ++ beBytes 2 d).drop 2).take 2 = beBytes 2 b := by simp [beBytes]
  have e3 : ((beBytes 2 a ++ beBytes 2 b ++ beBytes 2 c ++ beBytes 2 d).drop 4).take 2 = beBytes 2 c := by simp [beBytes]
  have e4 : ((beBytes 2 a ++ beBytes 2 b ++ beBytes 2 c ++ beBytes 2 d).drop 6).take 2 = beBytes 2 d := by simp [beBytes]
  unfold mostCommonU16
  rw [e1, e2, e3, e4, beNat_beBytes_of_lt (by omega), beNat_beBytes_of_lt (by omega), beNat_beBytes_of_lt (by omega),
    beNat_beBytes_of_lt (by omega)]

/-- **C06** (i) The 8 bytes stored for a 16-bit value read back as that value, also after any one of the four copies
has been replaced by anything. (ii) Of any four stored 16-bit values, a value is reported only if at least two
copies hold it, and the field is unknown exactly when the four copies are pairwise different. -/
theorem C06_fourfold_redundancy :
    (∀ v, v < 2 ^ 16 → mostCommonU16 (u16x4 v) = some v) ∧
    (∀ v x, v < 2 ^ 16 → x < 2 ^ 16 →
      mostCommonU16 (beBytes 2 x ++ beBytes 2 v ++ beBytes 2 v ++ beBytes 2 v) = some v ∧
      mostCommonU16 (beBytes 2 v ++ beBytes 2 x ++ beBytes 2 v ++ beBytes 2 v) = some v ∧
      mostCommonU16 (beBytes 2 v ++ beBytes 2 v ++ beBytes 2 x ++ beBytes 2 v) = some v ∧
      mostCommonU16 (beBytes 2 v ++ beBytes 2 v ++ beBytes 2 v ++ beBytes 2 x) = some v) ∧
    (∀ a b c d v, a < 2 ^ 16 → b < 2 ^ 16 → c < 2 ^ 16 → d < 2 ^ 16 →
      (mostCommonU16 (beBytes 2 a ++ beBytes 2 b ++ beBytes 2 c ++ beBytes 2 d) = some v → 2 ≤ [a, b, c, d].count v) ∧
      (mostCommonU16 (beBytes 2 a ++ beBytes 2 b ++ beBytes 2 c ++ beBytes 2 d) = none ↔ [a, b, c, d].Nodup)) := by
  refine ⟨fun v hv => ?_, fun v x hv hx => ⟨?_, ?_, ?_, ?_⟩, fun a b c d v ha hb hc hd => ⟨?_, ?_⟩⟩
  · unfold u16x4
    rw [mostCommon_bytes _ _ _ _ hv hv hv hv]
    simp [findMostCommon]
  · rw [mostCommon_bytes _ _ _ _ hx hv hv hv]; unfold findMostCommon; grind
  · rw [mostCommon_bytes _ _ _ _ hv hx hv hv]; unfold findMostCommon; grind
  · rw [mostCommon_bytes _ _ _ _ hv hv hx hv]; unfold findMostCommon; grind
  · rw [mostCommon_bytes _ _ _ _ hv hv hv hx]; unfold findMostCommon; grind
  · rw [mostCommon_bytes _ _ _ _ ha hb hc hd]
    unfold findMostCommon
    intro h
    simp only [List.count_cons, List.count_nil, beq_iff_eq]
    repeat' split at h
    all_goals first
      | (injection h with h; subst h; simp_all; try omega)
      | (exact absurd h (by simp))
  · rw [mostCommon_bytes _ _ _ _ ha hb hc hd]
    unfold findMostCommon
    simp only [List.nodup_cons, List.mem_cons, List.not_mem_nil, or_false, not_or, List.nodup_nil, and_true]
    grind

/-- a two-against-two tie is decided for the first copy's value -/
example : mostCommonU16 (beBytes 2 5 ++ beBytes 2 6 ++ beBytes 2 6 ++ beBytes 2 5) = some 5 := by decide +kernel

end Verif.Props
