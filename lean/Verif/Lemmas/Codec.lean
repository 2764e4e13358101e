import Verif.Lemmas.BitSlice
/-
Codecs seen through bits: what a writer holds (`wbits`) and what a reader has left (`Reader.pend`).
-/
namespace Verif.Bit

/-- a codec that, given enough room, writes only its own bits and reads back what it wrote whatever follows -/
def Codec {α : Type} (p : Prim α) : Prop :=
  ∀ (v : α) (s : List Bool), p.len ≤ s.length → ∃ e, e.length = p.len ∧ p.write v s = some (e ++ s.drop p.len) ∧ ∀ t, p.read (e ++ t) = some v

theorem Good.codec {α : Type} {p : Prim α} (h : Good p) : Codec p := h.ok

/-- `seg` is an encoding of `v` -/
def Seg {α : Type} (p : Prim α) (v : α) (seg : List Bool) : Prop := seg.length = p.len ∧ ∀ t, p.read (seg ++ t) = some v

/-- two fields in a row -/
theorem Codec.seq {α β : Type} {p : Prim α} {q : Prim β} (hp : Codec p) (hq : Codec q) : Codec (p.seq q) := by
  intro v s h
  have h : p.len + q.len ≤ s.length := h
  obtain ⟨e1, l1, w1, r1⟩ := hp v.1 s (by omega)
  obtain ⟨e2, l2, w2, r2⟩ := hq v.2 (s.drop p.len) (by rw [List.length_drop]; omega)
  refine ⟨e1 ++ e2, by simp only [Prim.seq, List.length_append, l1, l2], ?_, ?_⟩
  · simp only [Prim.seq, w1]
    rw [if_neg (by simp only [List.length_append, l1]; omega)]
    have : (e1 ++ s.drop p.len).drop p.len = s.drop p.len := by rw [← l1, List.drop_left]
    rw [this, w2]
    have : (e1 ++ s.drop p.len).take p.len = e1 := by rw [← l1, List.take_left]
    simp only [this]
    rw [List.append_assoc, List.drop_drop]
  · intro t
    simp only [Prim.seq]
    rw [List.append_assoc, r1]
    simp only
    rw [if_neg (by simp only [List.length_append, l1]; omega)]
    have : (e1 ++ (e2 ++ t)).drop p.len = e2 ++ t := by rw [← l1, List.drop_left]
    rw [this, r2]

/-- a pair of values of at most 64 bits each; it takes 128 bits -/
theorem Codec.pair {α : Type} {p : Prim α} (hp : Codec p) (hl : p.len ≤ 64) : Codec p.pair := by
  intro v s h
  have h : 64 + 64 ≤ s.length := h
  obtain ⟨e1, l1, w1, r1⟩ := hp v.1 (s.take p.len) (by rw [List.length_take]; omega)
  obtain ⟨e2, l2, w2, r2⟩ := hp v.2 (s.drop p.len) (by rw [List.length_drop]; omega)
  refine ⟨e1 ++ e2 ++ (s.drop (p.len + p.len)).take (128 - (p.len + p.len)), ?_, ?_, ?_⟩
  · simp only [Prim.pair, List.length_append, l1, l2, List.length_take, List.length_drop]; omega
  · simp only [Prim.pair]
    rw [if_neg (by omega), w1, w2]
    simp only
    have e0 : (s.take p.len).drop p.len = [] := List.drop_eq_nil_of_le (by rw [List.length_take]; omega)
    have e3 : s.drop (64 + 64) = (s.drop (p.len + p.len)).drop (128 - (p.len + p.len)) := by rw [List.drop_drop]; congr 1; omega
    rw [e0, List.append_nil, List.drop_drop, e3, List.append_assoc (e1 ++ e2), List.take_append_drop, List.append_assoc]
  · intro t
    simp only [Prim.pair]
    rw [if_neg (by simp only [List.length_append, l1]; omega)]
    have t1 : ∀ x, (e1 ++ x).take p.len = e1 ++ [] := by
      intro x; rw [← l1, List.take_left, List.append_nil]
    have t2 : ∀ x, (e1 ++ x).drop p.len = x := by intro x; rw [← l1, List.drop_left]
    rw [List.append_assoc, List.append_assoc, t1, t2, r1, r2]

/-- writing a struct is writing its fields -/
theorem write_seq {α β : Type} {p : Prim α} {q : Prim β} (hp : Codec p) (w : Writer) (v : α × β) (hr : w.len + p.len ≤ w.data.length) :
    w.write (p.seq q) v = (w.write p v.1).bind (fun w' => w'.write q v.2) := by
  obtain ⟨e, l, wr, _⟩ := hp v.1 (w.data.drop w.len) (by rw [List.length_drop]; omega)
  unfold Writer.write
  rw [if_neg (by omega), if_neg (by omega), wr]
  show _ = (if (w.data.take w.len ++ (e ++ (w.data.drop w.len).drop p.len)).length < w.len + p.len then none
      else match q.write v.2 ((w.data.take w.len ++ (e ++ (w.data.drop w.len).drop p.len)).drop (w.len + p.len)) with
        | some s => some (Writer.mk (w.len + p.len + q.len) ((w.data.take w.len ++ (e ++ (w.data.drop w.len).drop p.len)).take (w.len + p.len) ++ s))
        | none => none)
  simp only [Prim.seq, wr]
  rw [if_neg (by simp only [List.length_append, l]; omega), if_neg (by simp only [List.length_append, List.length_take, List.length_drop, l]; omega)]
  have e1 : (e ++ (w.data.drop w.len).drop p.len).drop p.len = w.data.drop (w.len + p.len) := by rw [← l, List.drop_left, List.drop_drop]
  have e2 : (w.data.take w.len ++ (e ++ (w.data.drop w.len).drop p.len)).drop (w.len + p.len) = w.data.drop (w.len + p.len) := by
    have hl : w.len + p.len = (w.data.take w.len ++ e).length := by simp only [List.length_append, List.length_take, l]; omega
    rw [← List.append_assoc]
    conv => lhs; rw [hl]
    rw [List.drop_left, List.drop_drop]
  have e3 : (e ++ (w.data.drop w.len).drop p.len).take p.len = e := by rw [← l, List.take_left]
  have e4 : (w.data.take w.len ++ (e ++ (w.data.drop w.len).drop p.len)).take (w.len + p.len) = w.data.take w.len ++ e := by
    have hl : w.len + p.len = (w.data.take w.len ++ e).length := by simp only [List.length_append, List.length_take, l]; omega
    rw [← List.append_assoc]
    conv => lhs; rw [hl]
    rw [List.take_left]
  rw [e1, e2, e3, e4]
  cases q.write v.2 (w.data.drop (w.len + p.len)) with
  | none => rfl
  | some t => simp only [List.append_assoc, Nat.add_assoc]

/-- reading a struct is reading its fields, when all its bits are there -/
theorem read_seq {α β : Type} {p : Prim α} {q : Prim β} (r : Reader) (h : p.len + q.len ≤ r.lenBits) (hb : r.stop ≤ r.buffer.length) :
    r.read (p.seq q) = match r.read p with
      | some (some a, r') =>
        match r'.read q with
        | some (some b, r'') => some (some (a, b), r'')
        | _ => none
      | _ => none := by
  have h' : p.len + q.len ≤ r.stop - r.start := h
  unfold Reader.read
  rw [if_neg (by simp only [Prim.seq]; omega), if_neg (by omega)]
  simp only [Prim.seq]
  cases hp : p.read ((r.buffer.drop r.start).take (r.stop - r.start)) with
  | none => rfl
  | some a =>
    simp only
    rw [if_neg (by simp only [List.length_take, List.length_drop]; omega), if_neg (by simp only [Reader.lenBits]; omega)]
    have e : ((r.buffer.drop r.start).take (r.stop - r.start)).drop p.len = (r.buffer.drop (r.start + p.len)).take (r.stop - (r.start + p.len)) := by
      rw [List.drop_take, List.drop_drop]; congr 1; omega
    rw [e]
    cases q.read ((r.buffer.drop (r.start + p.len)).take (r.stop - (r.start + p.len))) with
    | none => rfl
    | some b => simp only [Nat.add_assoc]

/-- the bits a writer holds -/
def wbits (w : Writer) : List Bool := w.data.take w.len

theorem write_ok {α : Type} {p : Prim α} (hp : Codec p) {n : Nat} {w : Writer} (hd : w.data.length = 8 * n) (hf : w.len + p.len ≤ 8 * n) (v : α) :
    ∃ w' seg, w.write p v = some w' ∧ Seg p v seg ∧ wbits w' = wbits w ++ seg ∧ w'.len = w.len + p.len ∧ w'.data.length = 8 * n := by
  obtain ⟨e, l, wr, rd⟩ := hp v (w.data.drop w.len) (by rw [List.length_drop]; omega)
  refine ⟨⟨w.len + p.len, w.data.take w.len ++ (e ++ (w.data.drop w.len).drop p.len)⟩, e, ?_, ⟨l, rd⟩, ?_, rfl, ?_⟩
  · unfold Writer.write
    rw [if_neg (by omega), wr]
  · have hl : w.len + p.len = (w.data.take w.len ++ e).length := by simp only [List.length_append, List.length_take, l]; omega
    simp only [wbits]
    rw [← List.append_assoc]
    conv => lhs; rw [hl]
    rw [List.take_left]
  · simp only [List.length_append, List.length_take, List.length_drop, l]; omega

theorem clear_ok {n : Nat} {w : Writer} (hd : w.data.length = 8 * n) (hl : w.len < 8 * n) :
    ∃ w', w.clearFull = some w' ∧ bytesBits w.fullBytes ++ wbits w' = wbits w ∧ w'.len = w.len % 8 ∧ w'.data.length = 8 * n := by
  refine ⟨⟨w.len % 8, (w.data.drop (8 * (w.len / 8))).take 8 ++ w.data.drop 8⟩, ?_, ?_, rfl, ?_⟩
  · unfold Writer.clearFull
    simp only
    rw [if_neg (by omega)]
  · have hb : bytesBits w.fullBytes = w.data.take (8 * (w.len / 8)) := bytesBits_bitsBytes _ _ (by omega)
    have ht : (((w.data.drop (8 * (w.len / 8))).take 8) ++ w.data.drop 8).take (w.len % 8) = (w.data.drop (8 * (w.len / 8))).take (w.len % 8) := by
      rw [List.take_append_of_le_length (by simp only [List.length_take, List.length_drop]; omega), List.take_take]
      congr 1; omega
    simp only [wbits]
    rw [ht, hb, ← List.take_add]
    congr 1; omega
  · simp only [List.length_append, List.length_take, List.length_drop]; omega

/-- taking all bytes adds the padding of the last byte -/
theorem all_ok {n : Nat} {w : Writer} (hd : w.data.length = 8 * n) (hl : w.len ≤ 8 * n) :
    ∃ pad, bytesBits w.allBytes = wbits w ++ pad ∧ pad.length < 8 ∧ (w.len + pad.length) % 8 = 0 := by
  refine ⟨(w.data.drop w.len).take (8 * ((w.len + 7) / 8) - w.len), ?_, ?_, ?_⟩
  · have hb : bytesBits w.allBytes = w.data.take (8 * ((w.len + 7) / 8)) := bytesBits_bitsBytes _ _ (by omega)
    rw [hb, wbits, ← List.take_add]
    congr 1; omega
  · simp only [List.length_take, List.length_drop]; omega
  · simp only [List.length_take, List.length_drop]; omega

end Verif.Bit
