import Verif.Spec.Bits
namespace Verif
open Spec

theorem flipBit_length (l : Bytes) (k : Nat) : (flipBit l k).length = l.length := by
  simp [flipBit]

theorem bitAt_flipBit (l : Bytes) (k i : Nat) (hk : k < 8 * l.length) :
    bitAt (flipBit l k) i = (bitAt l i ^^ decide (i = k)) := by
  have hk8 : k / 8 < l.length := by omega
  unfold bitAt flipBit
  rw [List.getD_eq_getElem?_getD, List.getElem?_modify, List.getD_eq_getElem?_getD]
  by_cases h : k / 8 = i / 8
  · have hi8 : i / 8 < l.length := by omega
    simp only [h, if_true, List.getElem?_eq_getElem hi8, Option.map_eq_map, Option.map_some, Option.getD_some]
    rw [UInt8.toNat_xor, Nat.testBit_xor]
    congr 1
    have hlt : 2 ^ (k % 8) < 256 := by
      have : (2:Nat) ^ (k % 8) ≤ 2 ^ 7 := Nat.pow_le_pow_right (by decide) (by omega)
      omega
    rw [UInt8.toNat_ofNat', Nat.mod_eq_of_lt hlt, Nat.testBit_two_pow]
    by_cases e : i = k
    · subst e; simp
    · have : ¬ (k % 8 = i % 8) := by omega
      simp [this, e]
  · have e : ¬ i = k := by intro e; subst e; exact h rfl
    simp [h, e]

theorem bitAt_replicate (n : Nat) (b : UInt8) (i : Nat) (h : i < 8 * n) :
    bitAt (List.replicate n b) i = b.toNat.testBit (i % 8) := by
  have : i / 8 < n := by omega
  unfold bitAt
  simp [List.getD_eq_getElem?_getD, this]

theorem bitAt_append_left (a b : Bytes) (i : Nat) (h : i < 8 * a.length) :
    bitAt (a ++ b) i = bitAt a i := by
  have : i / 8 < a.length := by omega
  unfold bitAt
  simp [List.getD_eq_getElem?_getD, List.getElem?_append_left this]

end Verif
