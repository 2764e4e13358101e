import Verif.Lemmas.Hamming
import Verif.Lemmas.Bits
/-
C01 - C04: the error correcting code of directory records (vlfs/src/fs/hamming.rs).
`Hamming.encode`/`Hamming.decode` model `hamming_encode`/`hamming_decode`; a record is any 12 bytes,
the 13th byte passed to the encoder is ignored by it (`pad`).
-/
namespace Verif.Props
open Verif Verif.Hamming Verif.Spec

private theorem bits_encode (d : Bytes) (i : Nat) (h : i < 104) :
    bitAt (encode d) i = encodeBits (bitAt d) i := by
  unfold encode; exact bitAt_ofBits 13 _ i (by omega)

private theorem extract_data (d : Bytes) (hd : d.length = 12) (pad : UInt8) :
    ofBits 12 (extract (encodeBits (bitAt (d ++ [pad])))) = d := by
  rw [ofBits_congr 12 _ (bitAt d)]
  · rw [← hd, ofBits_bitAt]
  · intro i hi
    rw [extract_codeword _ _ (by omega), bitAt_append_left _ _ _ (by omega)]

private theorem bits_flip (d : Bytes) (k i : Nat) (hk : k < 104) (h : i < 104) :
    bitAt (flipBit (encode d) k) i
      = setBit (encodeBits (bitAt d)) k (!(encodeBits (bitAt d) k)) i := by
  have hl : (encode d).length = 13 := by unfold encode; exact ofBits_length _ _
  rw [bitAt_flipBit _ _ _ (by omega), bits_encode _ _ h]
  unfold setBit
  by_cases e : i = k
  · subst e; simp
  · simp [e]

/-- **C01** Encoding any 12-byte record and decoding the 13 stored bytes returns the record. -/
theorem C01_ecc_round_trip (data : Bytes) (hlen : data.length = 12) (pad : UInt8) :
    decode (encode (data ++ [pad])) = some data := by
  rw [decode_eq_of_bits _ _ (fun i hi => bits_encode _ i hi), decodeBits_eq, syndrome_codeword,
    if_pos rfl, Option.map_some, extract_data data hlen pad]

/-- **C02** Flipping any one of the 104 stored bits does not change the decoded record. -/
theorem C02_single_bit_corrected (data : Bytes) (hlen : data.length = 12) (pad : UInt8)
    (k : Nat) (hk : k < 104) :
    decode (flipBit (encode (data ++ [pad])) k) = some data := by
  rw [decode_eq_of_bits _ _ (fun i hi => bits_flip _ k i hk hi), decodeBits_eq,
    syndrome_flip _ _ hk, syndrome_codeword, Nat.zero_xor]
  by_cases h0 : k = 0
  · subst h0
    rw [if_pos rfl, Option.map_some]
    have : ofBits 12 (extract (setBit (encodeBits (bitAt (data ++ [pad]))) 0
        (!encodeBits (bitAt (data ++ [pad])) 0))) = data := by
      refine Eq.trans ?_ (extract_data data hlen pad)
      apply ofBits_congr
      intro i hi
      rw [extract_eq _ _ (by omega), extract_eq _ _ (by omega)]
      unfold setBit
      rw [if_neg (pos_ne_zero i)]
    rw [this]
  · rw [if_neg h0, whole_flip _ _ hk, whole_codeword, Bool.not_false, if_pos rfl,
      if_neg (by omega), setBit_setBit, setBit_same, Bool.not_not, setBit_self, Option.map_some,
      extract_data data hlen pad]

/-- **C03** Flipping any two distinct stored bits is reported as an error. -/
theorem C03_double_bit_detected (data : Bytes) (_hlen : data.length = 12) (pad : UInt8)
    (j k : Nat) (hj : j < 104) (hk : k < 104) (hne : j ≠ k) :
    decode (flipBit (flipBit (encode (data ++ [pad])) j) k) = none := by
  have hl : (encode (data ++ [pad])).length = 13 := by unfold encode; exact ofBits_length _ _
  have hb : ∀ i, i < 104 → bitAt (flipBit (flipBit (encode (data ++ [pad])) j) k) i
      = setBit (setBit (encodeBits (bitAt (data ++ [pad]))) j (!(encodeBits (bitAt (data ++ [pad])) j))) k
          (!(setBit (encodeBits (bitAt (data ++ [pad]))) j (!(encodeBits (bitAt (data ++ [pad])) j)) k)) i := by
    intro i hi
    rw [bitAt_flipBit _ _ _ (by rw [flipBit_length]; omega), bits_flip _ _ _ hj hi]
    by_cases e : i = k
    · subst e; simp [setBit]
    · simp [setBit, e]
  rw [decode_eq_of_bits _ _ hb, decodeBits_eq, syndrome_flip _ _ hk, syndrome_flip _ _ hj,
    syndrome_codeword, whole_flip _ _ hk, whole_flip _ _ hj, whole_codeword, Nat.zero_xor]
  have hx : j ^^^ k ≠ 0 := by
    intro h
    apply hne
    apply Nat.eq_of_testBit_eq
    intro i
    have := congrArg (fun x => x.testBit i) h
    simp only [Nat.testBit_xor, Nat.zero_testBit] at this
    cases ha : j.testBit i <;> cases hb : k.testBit i <;> simp_all
  rw [if_neg hx]
  rfl

private theorem decode_const (v : Bool) : syndrome (fun _ => v) = 127 ∧ wholeParity (fun _ => v) 0 104 = true := by
  constructor
  · apply Nat.eq_of_testBit_eq
    intro i
    rw [syndrome_testBit]
    by_cases hi : i < 7
    · have : parityLoop (fun _ => v) (i + 1) = true := by
        rw [parityLoop_eq _ _ (by omega)]
        have h7 : i = 0 ∨ i = 1 ∨ i = 2 ∨ i = 3 ∨ i = 4 ∨ i = 5 ∨ i = 6 := by omega
        rcases h7 with h | h | h | h | h | h | h <;> subst h <;> cases v <;> decide +kernel
      rw [this]
      have h7 : i = 0 ∨ i = 1 ∨ i = 2 ∨ i = 3 ∨ i = 4 ∨ i = 5 ∨ i = 6 := by omega
      rcases h7 with h | h | h | h | h | h | h <;> subst h <;> decide
    · have : (127 : Nat).testBit i = false := by
        apply Nat.testBit_lt_two_pow
        have : (2:Nat) ^ 7 ≤ 2 ^ i := Nat.pow_le_pow_right (by decide) (by omega)
        omega
      simp [hi, this]
  · rw [wholeParity_eq]; cases v <;> decide +kernel

/-- **C04** Erased flash (13 bytes 0xFF) and 13 zero bytes are not accepted as a record, not even
after one further bit of them is disturbed. -/
theorem C04_blank_rejected (b : UInt8) (hb : b = 0xFF ∨ b = 0x00) :
    decode (List.replicate 13 b) = none ∧
    ∀ k, k < 104 → decode (flipBit (List.replicate 13 b) k) = none := by
  obtain ⟨v, hv⟩ : ∃ v : Bool, ∀ j, j < 8 → b.toNat.testBit j = v := by
    rcases hb with h | h
    · exact ⟨true, by subst h; decide⟩
    · exact ⟨false, by subst h; decide⟩
  have h0 : ∀ i, i < 104 → bitAt (List.replicate 13 b) i = (fun _ => v) i := by
    intro i hi
    rw [bitAt_replicate _ _ _ (by omega), hv _ (by omega)]
  obtain ⟨hs, hw⟩ := decode_const v
  constructor
  · rw [decode_eq_of_bits _ _ h0, decodeBits_eq, hs, hw]
    rfl
  · intro k hk
    have h1 : ∀ i, i < 104 → bitAt (flipBit (List.replicate 13 b) k) i
        = setBit (fun _ => v) k (!((fun _ => v) k)) i := by
      intro i hi
      rw [bitAt_flipBit _ _ _ (by simp; omega), h0 i hi]
      unfold setBit
      by_cases e : i = k
      · subst e; simp
      · simp [e]
    rw [decode_eq_of_bits _ _ h1, decodeBits_eq, syndrome_flip _ _ hk, whole_flip _ _ hk, hs, hw]
    have : 127 ^^^ k ≠ 0 := by
      intro h
      have := congrArg (fun x => x ^^^ k) h
      simp only [Nat.xor_assoc, Nat.xor_self, Nat.xor_zero, Nat.zero_xor] at this
      omega
    rw [if_neg this]
    rfl

/-- witness: the hypotheses are met by a concrete record, and the encoding is not the identity. -/
example : (([0x69,0,1,2,3,4,5,6,7,8,9,255] : Bytes)).length = 12 := rfl
example : (encode ([0x69,0,1,2,3,4,5,6,7,8,9,255] ++ [0]) : Bytes) ≠
    [0x69,0,1,2,3,4,5,6,7,8,9,255] ++ [0] := by decide +kernel
example : decode (flipBit (encode ([0x69,0,1,2,3,4,5,6,7,8,9,255] ++ [7])) 50)
    = some [0x69,0,1,2,3,4,5,6,7,8,9,255] := C02_single_bit_corrected _ rfl _ _ (by decide)

end Verif.Props
