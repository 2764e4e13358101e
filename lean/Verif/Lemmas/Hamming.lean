import Verif.Model.Hamming
namespace Verif.Hamming

/-- XOR of `f` over a list of indices. -/
def xorL (l : List Nat) (f : Nat → Bool) : Bool := l.foldl (fun acc i => acc ^^ f i) false

theorem foldl_xor (l : List Nat) (f : Nat → Bool) (a : Bool) :
    l.foldl (fun acc i => acc ^^ f i) a = (a ^^ xorL l f) := by
  induction l generalizing a with
  | nil => simp [xorL]
  | cons x l ih =>
    unfold xorL
    rw [List.foldl_cons, List.foldl_cons, ih, ih (false ^^ f x)]
    cases a <;> cases f x <;> simp

theorem xorL_cons (x : Nat) (l : List Nat) (f : Nat → Bool) : xorL (x :: l) f = (f x ^^ xorL l f) := by
  show List.foldl _ (false ^^ f x) l = _
  rw [foldl_xor]; simp

theorem xorL_congr (l : List Nat) (f g : Nat → Bool) (h : ∀ i ∈ l, f i = g i) : xorL l f = xorL l g := by
  induction l with
  | nil => rfl
  | cons x l ih =>
    rw [xorL_cons, xorL_cons, h x (by simp), ih (fun i hi => h i (by simp [hi]))]

theorem xorL_xor (l : List Nat) (f g : Nat → Bool) :
    xorL l (fun i => f i ^^ g i) = (xorL l f ^^ xorL l g) := by
  induction l with
  | nil => rfl
  | cons x l ih => rw [xorL_cons, xorL_cons, xorL_cons, ih]; cases f x <;> cases g x <;> simp

theorem xorL_single (l : List Nat) (k : Nat) (v : Bool) (hn : l.Nodup) :
    xorL l (fun i => decide (i = k) && v) = (decide (k ∈ l) && v) := by
  induction l with
  | nil => simp [xorL]
  | cons x l ih =>
    rw [xorL_cons, ih hn.of_cons]
    have hx : x ∉ l := (List.nodup_cons.mp hn).1
    by_cases h : x = k
    · subst h; simp [hx]
    · have h' : ¬ k = x := fun e => h e.symm
      simp [h, h']

theorem setBit_eq_xor (b : Nat → Bool) (k : Nat) (v : Bool) (i : Nat) :
    setBit b k v i = (b i ^^ (decide (i = k) && (v ^^ b k))) := by
  unfold setBit
  by_cases h : i = k
  · subst h; cases v <;> cases b i <;> simp
  · simp [h]

/-- number-theoretic form of the mask test -/
theorem mask_ne_zero (i p : Nat) : (i &&& (1 <<< p) ≠ 0) ↔ i.testBit p = true := by
  rw [Nat.one_shiftLeft]
  constructor
  · intro h
    obtain ⟨j, hj⟩ := Nat.exists_testBit_of_ne_zero h
    rw [Nat.testBit_and, Nat.testBit_two_pow] at hj
    simp at hj
    rw [hj.2]; exact hj.1
  · intro h e
    have := congrArg (fun x => x.testBit p) e
    simp [Nat.testBit_and, h] at this

theorem inner_loop (l : List Nat) (hn : l.Nodup) (i : Nat) (v : Bool) (pb : Nat → Bool) (p : Nat) :
    l.foldl (fun pb p => if i &&& (1 <<< (p - 1)) ≠ 0 then setBit pb p (pb p ^^ v) else pb) pb p
      = (pb p ^^ (decide (p ∈ l) && (i.testBit (p - 1) && v))) := by
  induction l generalizing pb with
  | nil => simp
  | cons q l ih =>
    rw [List.foldl_cons, ih hn.of_cons]
    have hq : q ∉ l := (List.nodup_cons.mp hn).1
    by_cases hb : i &&& (1 <<< (q - 1)) ≠ 0
    · rw [if_pos hb]
      have hb' := (mask_ne_zero _ _).mp hb
      by_cases h : p = q
      · subst h; simp [setBit, hq, hb']
      · simp [setBit, h]
    · rw [if_neg hb]
      have hb' : i.testBit (q - 1) = false := by
        cases h : i.testBit (q-1)
        · rfl
        · exact absurd ((mask_ne_zero _ _).mpr h) hb
      by_cases h : p = q
      · subst h; simp [hq, hb']
      · simp [h]

theorem parityLoop_eq (b : Nat → Bool) (p : Nat) (hp : 1 ≤ p ∧ p ≤ 7) :
    parityLoop b p = !(xorL (List.range' 1 103) (fun i => i.testBit (p - 1) && b i)) := by
  have hmem : p ∈ List.range' 1 7 := by rw [List.mem_range'_1]; omega
  have key : ∀ (l : List Nat) (pb : Nat → Bool),
      l.foldl (fun pb bit_i =>
        (List.range' 1 7).foldl
          (fun pb p => if bit_i &&& (1 <<< (p - 1)) ≠ 0 then setBit pb p (pb p ^^ b bit_i) else pb) pb) pb p
      = (pb p ^^ xorL l (fun i => i.testBit (p - 1) && b i)) := by
    intro l
    induction l with
    | nil => intro pb; simp [xorL]
    | cons x l ih =>
      intro pb
      rw [List.foldl_cons, ih, inner_loop _ (by decide), xorL_cons]
      simp [hmem]
  unfold parityLoop
  rw [key]
  cases xorL (List.range' 1 103) (fun i => i.testBit (p - 1) && b i) <;> rfl

theorem parityLoop_setBit (b : Nat → Bool) (k : Nat) (hk : k < 104) (v : Bool) (p : Nat)
    (hp : 1 ≤ p ∧ p ≤ 7) :
    parityLoop (setBit b k v) p = (parityLoop b p ^^ (k.testBit (p - 1) && (v ^^ b k))) := by
  rw [parityLoop_eq _ _ hp, parityLoop_eq _ _ hp]
  have h1 : xorL (List.range' 1 103) (fun i => i.testBit (p - 1) && setBit b k v i)
      = xorL (List.range' 1 103) (fun i => (i.testBit (p-1) && b i) ^^ (decide (i = k) && (k.testBit (p - 1) && (v ^^ b k)))) := by
    apply xorL_congr
    intro i _
    rw [setBit_eq_xor]
    by_cases h : i = k
    · subst h; cases i.testBit (p-1) <;> simp
    · simp [h]
  rw [h1, xorL_xor, xorL_single _ _ _ List.nodup_range']
  by_cases h0 : k = 0
  · subst h0; simp [List.mem_range'_1]
  · have hm : k ∈ List.range' 1 103 := by rw [List.mem_range'_1]; omega
    simp [hm]

theorem wholeParity_eq (b : Nat → Bool) (s n : Nat) :
    wholeParity b s n = !(xorL (List.range' s n) b) := by
  unfold wholeParity
  rw [foldl_xor]; simp

theorem wholeParity_setBit (b : Nat → Bool) (k : Nat) (v : Bool) (s n : Nat) (hk : s ≤ k ∧ k < s + n) :
    wholeParity (setBit b k v) s n = (wholeParity b s n ^^ (v ^^ b k)) := by
  rw [wholeParity_eq, wholeParity_eq]
  have h1 : xorL (List.range' s n) (setBit b k v)
      = xorL (List.range' s n) (fun i => b i ^^ (decide (i = k) && (v ^^ b k))) :=
    xorL_congr _ _ _ (fun i _ => setBit_eq_xor _ _ _ _)
  rw [h1, xorL_xor, xorL_single _ _ _ List.nodup_range']
  have hm : k ∈ List.range' s n := by rw [List.mem_range'_1]; omega
  simp [hm]

/-! ### The codeword -/

/-- the buffer of `hamming_encode` after the data bits were spread and the parity bits cleared -/
def spread (f : Nat → Bool) : Nat → Bool :=
  let b := copyWithin f 57 96 65
  let b := copyWithin b 26 57 33
  let b := copyWithin b 11 26 17
  let b := copyWithin b 4 11 9
  let b := copyWithin b 1 4 5
  let b := copyWithin b 0 1 3
  let b := setBit b 0 false
  (List.range' 1 7).foldl (fun b p => setBit b (1 <<< (p - 1)) false) b

def withParity (f : Nat → Bool) : Nat → Bool :=
  (List.range' 1 7).foldl (fun b p => setBit b (1 <<< (p - 1)) (parityLoop (spread f) p)) (spread f)

theorem encodeBits_eq (f : Nat → Bool) :
    encodeBits f = setBit (withParity f) 0 (wholeParity (withParity f) 1 103) := rfl

theorem spread_pow (f : Nat → Bool) (q : Nat) (hq : q < 7) : spread f (1 <<< q) = false := by
  have : q = 0 ∨ q = 1 ∨ q = 2 ∨ q = 3 ∨ q = 4 ∨ q = 5 ∨ q = 6 := by omega
  rcases this with h | h | h | h | h | h | h <;> subst h <;> rfl

theorem parity_fold (l : List Nat) (hl : ∀ q ∈ l, 1 ≤ q ∧ q ≤ 7) (hn : l.Nodup) (w b : Nat → Bool)
    (hw : ∀ q ∈ l, b (1 <<< (q - 1)) = false)
    (p : Nat) (hp : 1 ≤ p ∧ p ≤ 7) :
    parityLoop (l.foldl (fun b p => setBit b (1 <<< (p - 1)) (w p)) b) p
      = (parityLoop b p ^^ (decide (p ∈ l) && w p)) := by
  induction l generalizing b with
  | nil => simp
  | cons q l ih =>
    have hq := hl q (by simp)
    have hqn : q ∉ l := (List.nodup_cons.mp hn).1
    have hlt : (1 <<< (q - 1)) < 104 := by
      rw [Nat.one_shiftLeft]
      have : (2:Nat) ^ (q - 1) ≤ 2 ^ 6 := Nat.pow_le_pow_right (by decide) (by omega)
      omega
    rw [List.foldl_cons, ih (fun x hx => hl x (by simp [hx])) hn.of_cons]
    · rw [parityLoop_setBit _ _ hlt _ _ hp, hw q (by simp)]
      rw [Nat.one_shiftLeft, Nat.testBit_two_pow]
      by_cases h : p = q
      · subst h; simp [hqn]
      · have : ¬ (q - 1 = p - 1) := by omega
        simp [this, h]
    · intro x hx
      have hxl := hl x (by simp [hx])
      unfold setBit
      rw [if_neg]
      · exact hw x (by simp [hx])
      · intro e
        rw [Nat.one_shiftLeft, Nat.one_shiftLeft] at e
        have := Nat.pow_right_inj (Nat.lt_succ_self 1) |>.mp e
        have : x = q := by omega
        subst this; exact hqn hx

theorem parity_codeword (f : Nat → Bool) (p : Nat) (hp : 1 ≤ p ∧ p ≤ 7) :
    parityLoop (encodeBits f) p = false := by
  rw [encodeBits_eq, parityLoop_setBit _ 0 (by decide) _ _ hp]
  simp only [Nat.zero_testBit, Bool.false_and, Bool.xor_false]
  unfold withParity
  rw [parity_fold _ _ (by decide) _ _ _ _ hp]
  · have hmem : p ∈ List.range' 1 7 := by rw [List.mem_range'_1]; omega
    simp [hmem]
  · intro q hq; rw [List.mem_range'_1] at hq; omega
  · intro q hq; rw [List.mem_range'_1] at hq; exact spread_pow f _ (by omega)

theorem whole_codeword (f : Nat → Bool) : wholeParity (encodeBits f) 0 104 = false := by
  rw [encodeBits_eq, wholeParity_setBit _ _ _ _ _ (by omega)]
  rw [wholeParity_eq, wholeParity_eq]
  show (!xorL (0 :: List.range' 1 103) _ ^^ _) = _
  rw [xorL_cons]
  cases withParity f 0 <;> cases xorL (List.range' 1 103) (withParity f) <;> rfl

/-! ### Data positions -/

/-- position of data bit `j` in the codeword -/
def pos (j : Nat) : Nat :=
  if j < 1 then 3 else if j < 4 then j + 4 else if j < 11 then j + 5 else if j < 26 then j + 6
  else if j < 57 then j + 7 else j + 8

/-- index form of `copyWithin` -/
def cwIdx (σ : Nat → Nat) (s e d : Nat) : Nat → Nat :=
  fun i => if d ≤ i ∧ i < d + (e - s) then σ (s + (i - d)) else σ i

theorem copyWithin_comp (b : Nat → Bool) (σ : Nat → Nat) (s e d : Nat) :
    copyWithin (fun i => b (σ i)) s e d = fun i => b (cwIdx σ s e d i) := by
  funext i; unfold copyWithin cwIdx; split <;> rfl

theorem cw_step {g b : Nat → Bool} {σ : Nat → Nat} {s e d : Nat} (h : g = fun i => b (σ i)) :
    copyWithin g s e d = fun i => b (cwIdx σ s e d i) := by
  rw [h, copyWithin_comp]

def extractIdx : Nat → Nat :=
  cwIdx (cwIdx (cwIdx (cwIdx (cwIdx (cwIdx id 3 4 0) 5 8 1) 9 16 4) 17 32 11) 33 64 26) 65 104 57

theorem extract_idx (b : Nat → Bool) : extract b = fun i => b (extractIdx i) := by
  unfold extract extractIdx
  iterate 6 apply cw_step
  rfl

theorem extract_eq (b : Nat → Bool) (j : Nat) (hj : j < 96) : extract b j = b (pos j) := by
  rw [extract_idx]
  have : ∀ j, j < 96 → extractIdx j = pos j := by decide
  simp only [this j hj]

def spreadIdx : Nat → Nat :=
  cwIdx (cwIdx (cwIdx (cwIdx (cwIdx (cwIdx id 57 96 65) 26 57 33) 11 26 17) 4 11 9) 1 4 5) 0 1 3

/-- a position that is neither 0 nor a power of two -/
theorem pos_ne_pow (j q : Nat) (hj : j < 96) : pos j ≠ 1 <<< q := by
  rw [Nat.one_shiftLeft]
  intro h
  have hlt : pos j < 104 := by unfold pos; repeat' split
                               all_goals omega
  have hq : q < 7 := by
    by_cases h7 : q < 7
    · exact h7
    · have : (2:Nat) ^ 7 ≤ 2 ^ q := Nat.pow_le_pow_right (by decide) (by omega)
      omega
  have : q = 0 ∨ q = 1 ∨ q = 2 ∨ q = 3 ∨ q = 4 ∨ q = 5 ∨ q = 6 := by omega
  unfold pos at h
  rcases this with h' | h' | h' | h' | h' | h' | h' <;> subst h' <;> (repeat' split at h) <;> omega

theorem pos_ne_zero (j : Nat) : pos j ≠ 0 := by
  unfold pos; repeat' split
  all_goals omega

theorem fold_setBit_other (l : List Nat) (w b : Nat → Bool) (i : Nat)
    (h : ∀ q, i ≠ 1 <<< q) :
    l.foldl (fun b p => setBit b (1 <<< (p - 1)) (w p)) b i = b i := by
  induction l generalizing b with
  | nil => rfl
  | cons q l ih => rw [List.foldl_cons, ih]; simp [setBit, h (q - 1)]

theorem encode_data (f : Nat → Bool) (j : Nat) (hj : j < 96) : encodeBits f (pos j) = f j := by
  rw [encodeBits_eq]
  unfold setBit
  rw [if_neg (pos_ne_zero j)]
  unfold withParity
  rw [fold_setBit_other _ _ _ _ (fun q => pos_ne_pow j q hj)]
  unfold spread
  rw [fold_setBit_other _ (fun _ => false) _ _ (fun q => pos_ne_pow j q hj)]
  unfold setBit
  rw [if_neg (pos_ne_zero j)]
  have h : ∀ j, j < 96 → spreadIdx (pos j) = j := by decide
  have e : copyWithin (copyWithin (copyWithin (copyWithin (copyWithin (copyWithin f 57 96 65) 26 57 33)
      11 26 17) 4 11 9) 1 4 5) 0 1 3 = fun i => f (spreadIdx i) := by
    unfold spreadIdx
    iterate 6 apply cw_step
    rfl
  rw [e]
  simp only [h j hj]

theorem extract_codeword (f : Nat → Bool) (j : Nat) (hj : j < 96) : extract (encodeBits f) j = f j := by
  rw [extract_eq _ _ hj, encode_data _ _ hj]

/-! ### Decoder -/

/-- syndrome as read by the decoder -/
def syndrome (b : Nat → Bool) : Nat := bitsNat 7 (fun p => parityLoop b (p + 1))

theorem syndrome_lt (b : Nat → Bool) : syndrome b < 128 := bitsNat_lt 7 _

theorem decodeBits_eq (b : Nat → Bool) : decodeBits b =
    if syndrome b = 0 then some (extract b)
    else if wholeParity b 0 104 then
      if 104 ≤ syndrome b ∧ syndrome b < 128 then none
      else some (extract (setBit b (syndrome b) (!(b (syndrome b)))))
    else none := rfl

theorem syndrome_testBit (b : Nat → Bool) (i : Nat) :
    (syndrome b).testBit i = (decide (i < 7) && parityLoop b (i + 1)) := bitsNat_testBit _ _ _

theorem syndrome_codeword (f : Nat → Bool) : syndrome (encodeBits f) = 0 := by
  apply Nat.eq_of_testBit_eq
  intro i
  rw [syndrome_testBit]
  by_cases hi : i < 7
  · rw [parity_codeword _ _ (by omega)]; simp
  · simp [hi]

theorem syndrome_flip (b : Nat → Bool) (k : Nat) (hk : k < 104) :
    syndrome (setBit b k (!(b k))) = syndrome b ^^^ k := by
  apply Nat.eq_of_testBit_eq
  intro i
  rw [Nat.testBit_xor, syndrome_testBit, syndrome_testBit]
  by_cases hi : i < 7
  · rw [parityLoop_setBit _ _ hk _ _ (by omega)]
    simp [hi]
  · have : k.testBit i = false := by
      apply Nat.testBit_lt_two_pow
      have : (2:Nat) ^ 7 ≤ 2 ^ i := Nat.pow_le_pow_right (by decide) (by omega)
      omega
    simp [hi, this]

theorem whole_flip (b : Nat → Bool) (k : Nat) (hk : k < 104) :
    wholeParity (setBit b k (!(b k))) 0 104 = !(wholeParity b 0 104) := by
  rw [wholeParity_setBit _ _ _ _ _ (by omega)]
  simp

theorem setBit_setBit (b : Nat → Bool) (k : Nat) (u v : Bool) :
    setBit (setBit b k u) k v = setBit b k v := by
  funext i; unfold setBit; split <;> rfl

theorem setBit_self (b : Nat → Bool) (k : Nat) : setBit b k (b k) = b := by
  funext i; unfold setBit; split
  · rename_i h; rw [h]
  · rfl

theorem setBit_same (b : Nat → Bool) (k : Nat) (v : Bool) : setBit b k v k = v := by simp [setBit]

/-! locality: only the first 104 bits matter -/

theorem parityLoop_congr (b c : Nat → Bool) (h : ∀ i, i < 104 → b i = c i) (p : Nat) (hp : 1 ≤ p ∧ p ≤ 7) :
    parityLoop b p = parityLoop c p := by
  rw [parityLoop_eq _ _ hp, parityLoop_eq _ _ hp]
  rw [xorL_congr _ _ (fun i => i.testBit (p - 1) && c i)]
  intro i hi
  rw [List.mem_range'_1] at hi
  rw [h i (by omega)]

theorem syndrome_congr (b c : Nat → Bool) (h : ∀ i, i < 104 → b i = c i) : syndrome b = syndrome c := by
  apply Nat.eq_of_testBit_eq
  intro i
  rw [syndrome_testBit, syndrome_testBit]
  by_cases hi : i < 7
  · rw [parityLoop_congr b c h _ (by omega)]
  · simp [hi]

theorem wholeParity_congr (b c : Nat → Bool) (h : ∀ i, i < 104 → b i = c i) :
    wholeParity b 0 104 = wholeParity c 0 104 := by
  rw [wholeParity_eq, wholeParity_eq]
  rw [xorL_congr _ b c]
  intro i hi
  rw [List.mem_range'_1] at hi
  rw [h i (by omega)]

theorem pos_lt (j : Nat) (hj : j < 96) : pos j < 104 := by
  unfold pos; repeat' split
  all_goals omega

/-- decoding depends only on the 104 stored bits -/
theorem decode_congr (b c : Nat → Bool) (h : ∀ i, i < 104 → b i = c i) :
    (decodeBits b).map (ofBits 12) = (decodeBits c).map (ofBits 12) := by
  rw [decodeBits_eq, decodeBits_eq, syndrome_congr b c h, wholeParity_congr b c h]
  have hx : ∀ b c : Nat → Bool, (∀ i, i < 104 → b i = c i) → ofBits 12 (extract b) = ofBits 12 (extract c) := by
    intro b c h
    apply ofBits_congr
    intro i hi
    rw [extract_eq _ _ (by omega), extract_eq _ _ (by omega), h _ (pos_lt i (by omega))]
  have hlt := syndrome_lt c
  generalize syndrome c = s at hlt ⊢
  generalize wholeParity c 0 104 = w
  by_cases h0 : s = 0
  · rw [if_pos h0, if_pos h0, Option.map_some, Option.map_some, hx b c h]
  · rw [if_neg h0, if_neg h0]
    cases w with
    | false => simp only [Bool.false_eq_true, if_false, Option.map_none]
    | true =>
      simp only [if_true]
      by_cases h1 : 104 ≤ s ∧ s < 128
      · rw [if_pos h1, if_pos h1]
      · rw [if_neg h1, if_neg h1, Option.map_some, Option.map_some]
        rw [hx (setBit b s (!b s)) (setBit c s (!c s))]
        intro i hi
        have hs : s < 104 := by omega
        unfold setBit
        split
        · rw [h _ hs]
        · exact h i hi

theorem decode_eq_of_bits (w : Bytes) (b : Nat → Bool) (h : ∀ i, i < 104 → bitAt w i = b i) :
    decode w = (decodeBits b).map (ofBits 12) := by
  unfold decode
  exact decode_congr _ _ h

end Verif.Hamming
