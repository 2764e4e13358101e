import Verif.Model.BitSlice
/-
Bit lists, bytes and primitive codecs.
-/
namespace Verif.Bit

theorem byteBits_length (b : UInt8) : (byteBits b).length = 8 := by simp [byteBits]

theorem bytesBits_length (l : Bytes) : (bytesBits l).length = 8 * l.length := by
  induction l with
  | nil => rfl
  | cons b l ih =>
    have : bytesBits (b :: l) = byteBits b ++ bytesBits l := rfl
    rw [this, List.length_append, byteBits_length, ih, List.length_cons]; omega

theorem bytesBits_append (a b : Bytes) : bytesBits (a ++ b) = bytesBits a ++ bytesBits b := by simp [bytesBits]

theorem leNat_lt (l : List Bool) : leNat l < 2 ^ l.length := by
  induction l with
  | nil => simp [leNat]
  | cons b l ih =>
    rw [leNat, List.length_cons, Nat.pow_succ]
    have : b.toNat ≤ 1 := by cases b <;> decide
    omega

theorem testBit_leNat (l : List Bool) (i : Nat) : (leNat l).testBit i = l.getD i false := by
  induction l generalizing i with
  | nil => simp [leNat]
  | cons b l ih =>
    cases i with
    | zero =>
      rw [leNat, Nat.testBit_zero]
      cases b <;> simp <;> omega
    | succ i =>
      rw [leNat, Nat.testBit_succ]
      have : (b.toNat + 2 * leNat l) / 2 = leNat l := by
        have : b.toNat ≤ 1 := by cases b <;> decide
        omega
      rw [this, ih]
      simp

theorem byteBits_leNat {l : List Bool} (h : l.length = 8) : byteBits (UInt8.ofNat (leNat l)) = l := by
  apply List.ext_getElem?
  intro i
  by_cases hi : i < 8
  · have h1 : i < l.length := by omega
    have hlt := leNat_lt l
    rw [h] at hlt
    simp only [byteBits, List.getElem?_map, List.getElem?_range hi, Option.map_some, List.getElem?_eq_getElem h1]
    rw [UInt8.toNat_ofNat', Nat.mod_eq_of_lt hlt, testBit_leNat, List.getD_eq_getElem?_getD, List.getElem?_eq_getElem h1]
    rfl
  · rw [List.getElem?_eq_none (by rw [byteBits_length]; omega), List.getElem?_eq_none (by omega)]

theorem bytesBits_bitsBytes (n : Nat) (l : List Bool) (h : 8 * n ≤ l.length) : bytesBits (bitsBytes n l) = l.take (8 * n) := by
  induction n generalizing l with
  | zero => rfl
  | succ n ih =>
    have : bytesBits (bitsBytes (n + 1) l) = byteBits (UInt8.ofNat (leNat (l.take 8))) ++ bytesBits (bitsBytes n (l.drop 8)) := rfl
    rw [this, byteBits_leNat (by rw [List.length_take]; omega), ih _ (by rw [List.length_drop]; omega)]
    have h8 : 8 * (n + 1) = 8 + 8 * n := by omega
    rw [h8, List.take_add]

theorem bitsBytes_length (n : Nat) (l : List Bool) : (bitsBytes n l).length = n := by
  induction n generalizing l with
  | zero => rfl
  | succ n ih => rw [bitsBytes, List.length_cons, ih]

/-- A codec that reads back what it wrote, writes only its own bits and looks only at its own bits. -/
structure Good {α : Type} (p : Prim α) : Prop where
  ok : ∀ (v : α) (s : List Bool), p.len ≤ s.length → ∃ e, e.length = p.len ∧ p.write v s = some (e ++ s.drop p.len) ∧
    ∀ t, p.read (e ++ t) = some v
  short : ∀ (v : α) (s : List Bool), s.length < p.len → p.write v s = none

theorem good_bool : Good Prim.bool := by
  refine ⟨fun v s h => ⟨[v], rfl, ?_, ?_⟩, fun v s h => by simp only [Prim.bool] at h ⊢; rw [if_pos h]⟩
  · have h : 1 ≤ s.length := h
    simp only [Prim.bool]
    rw [if_neg (by omega)]; rfl
  · intro t; rfl

theorem good_uint (n : Nat) : Good (Prim.uint n) := by
  refine ⟨fun v s h => ⟨(List.range n).map (fun i => v.getLsbD i), by simp [Prim.uint], ?_, ?_⟩, fun v s h => by simp only [Prim.uint] at h ⊢; rw [if_pos h]⟩
  · have h : n ≤ s.length := h
    simp only [Prim.uint]
    rw [if_neg (by omega)]
  · intro t
    simp only [Prim.uint]
    rw [if_neg (by simp)]
    rw [List.take_append_of_le_length (by simp), List.take_of_length_le (by simp)]
    congr 1
    apply BitVec.eq_of_getLsbD_eq
    intro i hi
    rw [BitVec.getLsbD_ofNat, testBit_leNat, List.getD_eq_getElem?_getD, List.getElem?_map, List.getElem?_range hi]
    simp [hi]

theorem good_pair {α : Type} {p : Prim α} (hp : Good p) (hl : p.len = 64) : Good p.pair := by
  refine ⟨fun v s h => ?_, fun v s h => ?_⟩
  · have h : 64 + 64 ≤ s.length := h
    obtain ⟨e1, l1, w1, r1⟩ := hp.ok v.1 (s.take p.len) (by rw [List.length_take]; omega)
    obtain ⟨e2, l2, w2, r2⟩ := hp.ok v.2 (s.drop p.len) (by rw [List.length_drop]; omega)
    refine ⟨e1 ++ e2, ?_, ?_, ?_⟩
    · simp only [Prim.pair, List.length_append, l1, l2]; omega
    · simp only [Prim.pair]
      rw [if_neg (by omega), w1, w2]
      simp only
      have e0 : (s.take p.len).drop p.len = [] := List.drop_eq_nil_of_le (by rw [List.length_take]; omega)
      rw [e0, List.append_nil, List.drop_drop, List.append_assoc, hl]
    · intro t
      simp only [Prim.pair]
      rw [if_neg (by simp only [List.length_append, l1]; omega)]
      have t1 : (e1 ++ e2 ++ t).take p.len = e1 ++ [] := by
        rw [List.append_assoc, List.take_append_of_le_length (by omega), List.take_of_length_le (by omega), List.append_nil]
      have t2 : (e1 ++ e2 ++ t).drop p.len = e2 ++ t := by
        rw [List.append_assoc, List.drop_append_of_le_length (by omega), List.drop_eq_nil_of_le (by omega)]; rfl
      rw [t1, t2, r1, r2]
  · have h : s.length < 64 + 64 := h
    simp only [Prim.pair]
    by_cases h1 : s.length < p.len
    · rw [if_pos h1]
    · rw [if_neg h1, hp.short v.2 (s.drop p.len) (by rw [List.length_drop]; omega)]
      cases p.write v.1 (s.take p.len) <;> rfl

theorem writeArr_short {α : Type} {p : Prim α} : ∀ (vs : List α) (s : List Bool), s.length < vs.length * p.len → writeArr p vs s = none := by
  intro vs
  induction vs with
  | nil => intro s h; simp at h
  | cons v vs ih =>
    intro s h
    rw [List.length_cons, Nat.succ_mul] at h
    rw [writeArr]
    split
    · rfl
    · rw [ih (s.drop p.len) (by rw [List.length_drop]; omega)]
      cases p.write v (s.take p.len) <;> rfl

theorem writeArr_spec {α : Type} {p : Prim α} (hp : Good p) : ∀ (vs : List α) (s : List Bool), vs.length * p.len ≤ s.length →
    ∃ e, e.length = vs.length * p.len ∧ writeArr p vs s = some (e ++ s.drop (vs.length * p.len)) ∧ ∀ t, readArr p vs.length (e ++ t) = some vs := by
  intro vs
  induction vs with
  | nil => intro s _; exact ⟨[], by simp, by simp [writeArr], fun t => rfl⟩
  | cons v vs ih =>
    intro s h
    rw [List.length_cons, Nat.succ_mul] at h
    obtain ⟨e1, l1, w1, r1⟩ := hp.ok v (s.take p.len) (by rw [List.length_take]; omega)
    obtain ⟨e2, l2, w2, r2⟩ := ih (s.drop p.len) (by rw [List.length_drop]; omega)
    refine ⟨e1 ++ e2, ?_, ?_, ?_⟩
    · rw [List.length_append, l1, l2, List.length_cons, Nat.succ_mul]; omega
    · rw [writeArr, if_neg (by omega), w1, w2]
      simp only
      have e0 : (s.take p.len).drop p.len = [] := List.drop_eq_nil_of_le (by rw [List.length_take]; omega)
      rw [e0, List.append_nil, List.drop_drop, List.append_assoc, List.length_cons, Nat.succ_mul, Nat.add_comm p.len]
    · intro t
      rw [List.length_cons, readArr, if_neg (by simp only [List.length_append, l1]; omega)]
      have t1 : (e1 ++ e2 ++ t).take p.len = e1 ++ [] := by
        rw [List.append_assoc, List.take_append_of_le_length (by omega), List.take_of_length_le (by omega), List.append_nil]
      have t2 : (e1 ++ e2 ++ t).drop p.len = e2 ++ t := by
        rw [List.append_assoc, List.drop_append_of_le_length (by omega), List.drop_eq_nil_of_le (by omega)]; rfl
      rw [t1, t2, r1, r2]

theorem good_arr {α : Type} {p : Prim α} (hp : Good p) (n : Nat) : Good (p.arr n) := by
  refine ⟨fun v s h => ?_, fun v s h => writeArr_short v.1 s (by rw [v.2]; exact h)⟩
  obtain ⟨vs, hv⟩ := v
  have h : n * p.len ≤ s.length := h
  subst hv
  obtain ⟨e, l, w, r⟩ := writeArr_spec hp vs s h
  refine ⟨e, l, w, ?_⟩
  intro t
  simp only [Prim.arr]
  rw [r t]
  simp

theorem good_opt {α : Type} {p : Prim α} (hp : Good p) : Good p.opt := by
  refine ⟨fun v s h => ?_, fun v s h => ?_⟩
  rotate_left
  · have h : s.length < p.len + 1 := h
    cases s with
    | nil => rfl
    | cons b rest =>
      rw [List.length_cons] at h
      cases v with
      | some x => simp only [Prim.opt]; rw [hp.short x rest (by omega)]
      | none => simp only [Prim.opt]; rw [if_pos (by omega)]
  have h : p.len + 1 ≤ s.length := h
  cases s with
  | nil => simp at h
  | cons b rest =>
    rw [List.length_cons] at h
    cases v with
    | some x =>
      obtain ⟨e, l, w, r⟩ := hp.ok x rest (by omega)
      refine ⟨true :: e, by rw [List.length_cons, l]; rfl, ?_, ?_⟩
      · simp only [Prim.opt]; rw [w]; rfl
      · intro t
        simp only [Prim.opt, List.cons_append]
        rw [r t]
    | none =>
      refine ⟨false :: List.replicate p.len true, by rw [List.length_cons, List.length_replicate]; rfl, ?_, ?_⟩
      · simp only [Prim.opt]; rw [if_neg (by omega)]; rfl
      · intro t; rfl

end Verif.Bit
