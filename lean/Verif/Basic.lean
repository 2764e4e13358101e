/-
Shared vocabulary of the model: bytes, big-endian byte strings, bits of byte strings (Lsb0).
Nothing here models a particular function of /repo; it models the Rust standard library
(`to_be_bytes`, `from_be_bytes`) and the `bitvec` view `BitArray<_, Lsb0>` of a byte array.
-/
namespace Verif

/-- A byte string (Rust `&[u8]`). -/
abbrev Bytes := List UInt8

/-- `to_be_bytes` of a `k`-byte unsigned integer (value taken modulo 256^k). -/
def beBytes : Nat → Nat → Bytes
  | 0, _ => []
  | k + 1, n => UInt8.ofNat (n / 256 ^ k) :: beBytes k n

/-- `from_be_bytes`. -/
def beNat (l : Bytes) : Nat := l.foldl (fun acc b => acc * 256 + b.toNat) 0

/-- bit `i` of a byte string seen as `BitArray<_, Lsb0>` (bit 0 = least significant bit of byte 0);
bits beyond the end read as `false`. -/
def bitAt (l : Bytes) (i : Nat) : Bool := (l.getD (i / 8) 0).toNat.testBit (i % 8)

/-- value of the `n` bits `f 0 .. f (n-1)`, bit 0 least significant. -/
def bitsNat : Nat → (Nat → Bool) → Nat
  | 0, _ => 0
  | n + 1, f => (f 0).toNat + 2 * bitsNat n (fun i => f (i + 1))

/-- the byte string of `n` bytes whose bits (Lsb0) are `f`. -/
def ofBits (n : Nat) (f : Nat → Bool) : Bytes :=
  (List.range n).map fun k => UInt8.ofNat (bitsNat 8 (fun j => f (8 * k + j)))

theorem beBytes_length (k n : Nat) : (beBytes k n).length = k := by
  induction k with
  | zero => rfl
  | succ k ih => simp [beBytes, ih]

theorem beNat_foldl (l : Bytes) (a : Nat) :
    l.foldl (fun acc b => acc * 256 + b.toNat) a = a * 256 ^ l.length + beNat l := by
  induction l generalizing a with
  | nil => simp [beNat]
  | cons b l ih =>
    simp only [List.foldl_cons, List.length_cons, beNat]
    rw [ih, ih (0 * 256 + b.toNat)]
    grind

theorem beNat_cons (b : UInt8) (l : Bytes) : beNat (b :: l) = b.toNat * 256 ^ l.length + beNat l := by
  show List.foldl _ (0 * 256 + b.toNat) l = _
  rw [beNat_foldl]; simp

theorem beNat_beBytes (k n : Nat) : beNat (beBytes k n) = n % 256 ^ k := by
  induction k with
  | zero => simp [beBytes, beNat, Nat.mod_one]
  | succ k ih =>
    simp only [beBytes, beNat_cons, beBytes_length, ih]
    have h2 : (UInt8.ofNat (n / 256 ^ k)).toNat = n / 256 ^ k % 256 := by
      simp
    rw [h2, Nat.pow_succ, Nat.mod_mul]
    grind

theorem beNat_beBytes_of_lt {k n : Nat} (h : n < 256 ^ k) : beNat (beBytes k n) = n := by
  rw [beNat_beBytes, Nat.mod_eq_of_lt h]

theorem beNat_lt (l : Bytes) : beNat l < 256 ^ l.length := by
  induction l with
  | nil => simp [beNat]
  | cons b l ih =>
    rw [beNat_cons, List.length_cons, Nat.pow_succ]
    have hb : b.toNat < 256 := b.toNat_lt
    calc b.toNat * 256 ^ l.length + beNat l < b.toNat * 256 ^ l.length + 256 ^ l.length := by omega
      _ = (b.toNat + 1) * 256 ^ l.length := by rw [Nat.add_mul]; omega
      _ ≤ 256 * 256 ^ l.length := Nat.mul_le_mul_right _ (by omega)
      _ = _ := Nat.mul_comm _ _

theorem beBytes_mod (k n : Nat) : beBytes k (n % 256 ^ k) = beBytes k n := by
  suffices h : ∀ (j m : Nat), j ≤ k → beBytes j (n % 256 ^ k) = beBytes j n from h k n (Nat.le_refl _)
  intro j m hj
  induction j with
  | zero => rfl
  | succ j ih =>
    simp only [beBytes]
    rw [ih (by omega)]
    congr 1
    apply UInt8.toNat_inj.mp
    simp only [UInt8.toNat_ofNat']
    obtain ⟨d, rfl⟩ : ∃ d, k = j + 1 + d := ⟨k - (j+1), by omega⟩
    have : 256 ^ (j + 1 + d) = 256 ^ j * (256 * 256 ^ d) := by
      rw [Nat.pow_add, Nat.pow_succ]; grind
    rw [this, Nat.mod_mul_right_div_self, Nat.mod_mul_right_mod]

theorem beBytes_beNat (l : Bytes) : beBytes l.length (beNat l) = l := by
  induction l with
  | nil => rfl
  | cons b l ih =>
    have hlt := beNat_lt l
    have hpos : 0 < 256 ^ l.length := Nat.pow_pos (by decide)
    simp only [List.length_cons, beBytes, beNat_cons]
    have h1 : (b.toNat * 256 ^ l.length + beNat l) / 256 ^ l.length = b.toNat := by
      rw [Nat.mul_comm, Nat.mul_add_div hpos, Nat.div_eq_of_lt hlt]; omega
    rw [h1]
    congr 1
    · simp
    · rw [← beBytes_mod]
      rw [Nat.mul_comm, Nat.mul_add_mod, Nat.mod_eq_of_lt hlt, ih]

theorem bitsNat_lt (n : Nat) (f : Nat → Bool) : bitsNat n f < 2 ^ n := by
  induction n generalizing f with
  | zero => simp [bitsNat]
  | succ n ih =>
    simp only [bitsNat, Nat.pow_succ]
    have := ih (fun i => f (i + 1))
    have hb : (f 0).toNat ≤ 1 := Bool.toNat_le _
    omega

theorem bitsNat_testBit (n : Nat) (f : Nat → Bool) (i : Nat) :
    (bitsNat n f).testBit i = (decide (i < n) && f i) := by
  induction n generalizing f i with
  | zero => simp [bitsNat]
  | succ n ih =>
    cases i with
    | zero =>
      simp only [bitsNat, Nat.testBit_zero]
      cases f 0 <;> simp <;> omega
    | succ i =>
      simp only [bitsNat, Nat.testBit_succ]
      have hb : ((f 0).toNat + 2 * bitsNat n (fun i => f (i + 1))) / 2 = bitsNat n (fun i => f (i+1)) := by
        have hb : (f 0).toNat ≤ 1 := Bool.toNat_le _
        omega
      rw [hb, ih]
      simp

theorem bitsNat_testBit_self (n m : Nat) (h : m < 2 ^ n) : bitsNat n (fun i => m.testBit i) = m := by
  apply Nat.eq_of_testBit_eq
  intro i
  rw [bitsNat_testBit]
  by_cases hi : i < n
  · simp [hi]
  · simp only [hi, decide_false, Bool.false_and]
    symm
    apply Nat.testBit_lt_two_pow
    exact Nat.lt_of_lt_of_le h (Nat.pow_le_pow_right (by decide) (by omega))

theorem ofBits_length (n : Nat) (f : Nat → Bool) : (ofBits n f).length = n := by simp [ofBits]

theorem bitAt_ofBits (n : Nat) (f : Nat → Bool) (i : Nat) (h : i < 8 * n) :
    bitAt (ofBits n f) i = f i := by
  have h1 : i / 8 < n := by omega
  have h2 : i % 8 < 8 := Nat.mod_lt _ (by decide)
  simp only [bitAt, ofBits, List.getD_eq_getElem?_getD, List.getElem?_map, List.getElem?_range h1]
  simp only [Option.map_some, Option.getD_some, UInt8.toNat_ofNat']
  rw [Nat.mod_eq_of_lt (bitsNat_lt 8 _), bitsNat_testBit]
  simp only [h2, decide_true, Bool.true_and]
  congr 1
  omega

theorem ofBits_bitAt (l : Bytes) : ofBits l.length (bitAt l) = l := by
  apply List.ext_getElem
  · simp [ofBits]
  · intro k h1 h2
    simp only [ofBits, List.getElem_map, List.getElem_range]
    have : (fun j => bitAt l (8 * k + j)) = fun j => bitAt l (8 * k + j) := rfl
    apply UInt8.toNat_inj.mp
    simp only [UInt8.toNat_ofNat']
    rw [Nat.mod_eq_of_lt (bitsNat_lt 8 _)]
    apply Nat.eq_of_testBit_eq
    intro i
    rw [bitsNat_testBit]
    by_cases hi : i < 8
    · have a : (8 * k + i) / 8 = k := by omega
      have b : (8 * k + i) % 8 = i := by omega
      simp [hi, bitAt, a, b, List.getD_eq_getElem?_getD, List.getElem?_eq_getElem h2]
    · simp only [hi, decide_false, Bool.false_and]
      symm
      apply Nat.testBit_lt_two_pow
      have := (l[k]).toNat_lt
      exact Nat.lt_of_lt_of_le this (Nat.pow_le_pow_right (n := 2) (i := 8) (by decide) (by omega))

theorem ofBits_congr (n : Nat) (f g : Nat → Bool) (h : ∀ i, i < 8 * n → f i = g i) :
    ofBits n f = ofBits n g := by
  apply List.map_congr_left
  intro k hk
  rw [List.mem_range] at hk
  congr 1
  apply Nat.eq_of_testBit_eq
  intro i
  rw [bitsNat_testBit, bitsNat_testBit]
  by_cases hi : i < 8
  · simp [h (8 * k + i) (by omega)]
  · simp [hi]

end Verif
