import Verif.Lemmas.BitSlice
/-
C27: what the bit writer wrote is what the bit reader reads.
-/
namespace Verif.Bit

/-- a value together with the codec used for it -/
structure Item where
  α : Type
  p : Prim α
  v : α

/-- specification: the use of a writer with an `n`-byte buffer: any values are written and the full bytes are taken away at any time.
`drained` are the bytes taken away so far, `items` what was written. -/
inductive WriterRun (n : Nat) : Writer → Bytes → List Item → Prop
  | start : WriterRun n (Writer.new n) [] []
  | write {w w' : Writer} {drained : Bytes} {items : List Item} (it : Item) (hr : WriterRun n w drained items) (hg : Good it.p)
      (h : w.write it.p it.v = some w') : WriterRun n w' drained (items ++ [it])
  | drain {w w' : Writer} {drained : Bytes} {items : List Item} (hr : WriterRun n w drained items) (h : w.clearFull = some w') :
      WriterRun n w' (drained ++ w.fullBytes) items

/-- specification: the use of a reader with an `m`-byte buffer that expects the kinds of values in `items`: it is fed bytes in any portions
and asked for the next value at any time. `fed` are the bytes given so far, `got` the values it returned, `rest` what it still expects. -/
inductive ReaderRun (m : Nat) (items : List Item) : Reader → Bytes → List Item → List Item → Prop
  | start : ReaderRun m items (Reader.new m) [] [] items
  | feed {r r' : Reader} {fed : Bytes} {got rest : List Item} (hr : ReaderRun m items r fed got rest) (data : Bytes)
      (h : r.replenish data = some r') : ReaderRun m items r' (fed ++ data) got rest
  | value {r r' : Reader} {fed : Bytes} {got rest : List Item} {it : Item} (hr : ReaderRun m items r fed got (it :: rest)) (v : it.α)
      (h : r.read it.p = some (some v, r')) : ReaderRun m items r' fed (got ++ [⟨it.α, it.p, v⟩]) rest

/-- the bits of a list of items -/
inductive Segs : List Item → List Bool → Prop
  | nil : Segs [] []
  | cons (it : Item) (seg : List Bool) {its : List Item} {bits : List Bool} (hl : seg.length = it.p.len)
      (hr : ∀ t, it.p.read (seg ++ t) = some it.v) (h : Segs its bits) : Segs (it :: its) (seg ++ bits)

theorem Segs.snoc {its : List Item} {bits : List Bool} (h : Segs its bits) (it : Item) (seg : List Bool) (hl : seg.length = it.p.len)
    (hr : ∀ t, it.p.read (seg ++ t) = some it.v) : Segs (its ++ [it]) (bits ++ seg) := by
  induction h with
  | nil => simpa using Segs.cons it seg hl hr .nil
  | cons x s hl' hr' _ ih => rw [List.append_assoc]; exact .cons x s hl' hr' ih

theorem writerRun_inv {n : Nat} {w : Writer} {drained : Bytes} {items : List Item} (h : WriterRun n w drained items) :
    w.data.length = 8 * n ∧ w.len ≤ 8 * n ∧ Segs items (bytesBits drained ++ w.data.take w.len) := by
  induction h with
  | start => exact ⟨by simp [Writer.new], by simp [Writer.new], by simpa [Writer.new, bytesBits] using (Segs.nil : Segs [] [])⟩
  | @write w w' drained items it hr hg h ih =>
    obtain ⟨h1, h2, h3⟩ := ih
    unfold Writer.write at h
    rw [if_neg (by omega)] at h
    by_cases hf : it.p.len ≤ (w.data.drop w.len).length
    · obtain ⟨e, l, wr, rd⟩ := hg.ok it.v _ hf
      rw [wr] at h
      injection h with h
      subst h
      rw [List.length_drop] at hf
      refine ⟨?_, by simp only; omega, ?_⟩
      · simp only [List.length_append, List.length_take, List.length_drop, l]; omega
      · have ht : (w.data.take w.len ++ (e ++ (w.data.drop w.len).drop it.p.len)).take (w.len + it.p.len) = w.data.take w.len ++ e := by
          rw [← List.append_assoc, List.take_append_of_le_length (by simp only [List.length_append, List.length_take, l]; omega),
            List.take_of_length_le (by simp only [List.length_append, List.length_take, l]; omega)]
        simp only
        rw [ht, ← List.append_assoc]
        exact h3.snoc it e l rd
    · -- a write that does not fit
      rw [hg.short it.v _ (by omega)] at h
      exact absurd h (by simp)
  | @drain w w' drained items hr h ih =>
    obtain ⟨h1, h2, h3⟩ := ih
    unfold Writer.clearFull at h
    simp only at h
    split at h
    · exact absurd h (by simp)
    · next hc =>
      injection h with h
      subst h
      refine ⟨?_, by simp only; omega, ?_⟩
      · simp only [List.length_append, List.length_take, List.length_drop]; omega
      · have hb : bytesBits w.fullBytes = w.data.take (8 * (w.len / 8)) := bytesBits_bitsBytes _ _ (by omega)
        rw [bytesBits_append, hb]
        have ht : (((w.data.drop (8 * (w.len / 8))).take 8) ++ w.data.drop 8).take (w.len % 8) = (w.data.drop (8 * (w.len / 8))).take (w.len % 8) := by
          rw [List.take_append_of_le_length (by simp only [List.length_take, List.length_drop]; omega), List.take_take]
          congr 1; omega
        simp only
        rw [ht, List.append_assoc]
        have h8 : w.len = 8 * (w.len / 8) + w.len % 8 := by omega
        have : w.data.take w.len = w.data.take (8 * (w.len / 8)) ++ (w.data.drop (8 * (w.len / 8))).take (w.len % 8) := by
          conv => lhs; rw [h8]
          rw [List.take_add]
        rw [← this]; exact h3

/-- a writer accepts a value exactly when it fits into the buffer -/
theorem writer_accepts {n : Nat} {w : Writer} {drained : Bytes} {items : List Item} (h : WriterRun n w drained items) (it : Item) (hg : Good it.p) :
    (∃ w', w.write it.p it.v = some w') ↔ w.len + it.p.len ≤ 8 * n := by
  obtain ⟨h1, h2, _⟩ := writerRun_inv h
  unfold Writer.write
  rw [if_neg (by omega)]
  constructor
  · intro ⟨w', hw⟩
    apply Nat.not_lt.mp
    intro hlt
    rw [hg.short it.v _ (by rw [List.length_drop]; omega)] at hw
    exact absurd hw (by simp)
  · intro hle
    obtain ⟨e, _, wr, _⟩ := hg.ok it.v (w.data.drop w.len) (by rw [List.length_drop]; omega)
    rw [wr]; exact ⟨_, rfl⟩

/-- what a reader has left -/
def Reader.pend (r : Reader) : List Bool := (r.buffer.drop r.start).take (r.stop - r.start)

structure RInv (m : Nat) (r : Reader) : Prop where
  len : r.buffer.length = 8 * m
  order : r.start ≤ r.stop
  stop : r.stop ≤ 8 * m
  align : r.stop % 8 = 0

theorem RInv.pend_length {m : Nat} {r : Reader} (h : RInv m r) : r.pend.length = r.lenBits := by
  have := h.len; have := h.order; have := h.stop
  simp only [Reader.pend, Reader.lenBits, List.length_take, List.length_drop]; omega

theorem replenish_inv {m : Nat} {r r' : Reader} {data : Bytes} (hi : RInv m r) (h : r.replenish data = some r') :
    RInv m r' ∧ r'.pend = r.pend ++ bytesBits data := by
  have h1 := hi.len; have h2 := hi.order; have h3 := hi.stop
  have hp := hi.pend_length
  unfold Reader.replenish at h
  simp only at h
  split at h
  · exact absurd h (by simp)
  · next hc =>
    injection h with h
    subst h
    have hk : (r.buffer.drop r.start).take r.lenBits = r.pend := rfl
    rw [hk]
    have hb := bytesBits_length data
    have hm : (r.buffer.take ((8 - r.lenBits % 8) % 8) ++ r.pend ++ r.buffer.drop ((8 - r.lenBits % 8) % 8 + r.lenBits)).take ((8 - r.lenBits % 8) % 8 + r.lenBits) =
        r.buffer.take ((8 - r.lenBits % 8) % 8) ++ r.pend := by
      rw [List.take_append_of_le_length (by simp only [List.length_append, List.length_take, hp]; omega),
        List.take_of_length_le (by simp only [List.length_append, List.length_take, hp]; omega)]
    rw [hm]
    refine ⟨⟨?_, by simp only; omega, by simp only; omega, by simp only; omega⟩, ?_⟩
    · simp only [List.length_append, List.length_take, List.length_drop, hp, hb]; omega
    · generalize hpe : r.pend = pe at hp hm ⊢
      unfold Reader.pend
      simp only
      have hd : ((r.buffer.take ((8 - r.lenBits % 8) % 8)) ++ pe ++ bytesBits data ++
          List.drop ((8 - r.lenBits % 8) % 8 + r.lenBits + 8 * data.length)
            (r.buffer.take ((8 - r.lenBits % 8) % 8) ++ pe ++ r.buffer.drop ((8 - r.lenBits % 8) % 8 + r.lenBits))).drop ((8 - r.lenBits % 8) % 8) =
          pe ++ bytesBits data ++ List.drop ((8 - r.lenBits % 8) % 8 + r.lenBits + 8 * data.length)
            (r.buffer.take ((8 - r.lenBits % 8) % 8) ++ pe ++ r.buffer.drop ((8 - r.lenBits % 8) % 8 + r.lenBits)) := by
        simp only [List.append_assoc]
        rw [List.drop_append_of_le_length (by rw [List.length_take]; omega), List.drop_eq_nil_of_le (by rw [List.length_take]; omega)]; rfl
      rw [hd]
      change List.take _ (pe ++ bytesBits data ++ _) = pe ++ bytesBits data
      rw [List.take_append_of_le_length (by simp only [List.length_append, hp, hb]; omega),
        List.take_of_length_le (by simp only [List.length_append, hp, hb]; omega)]

theorem read_inv {m : Nat} {r : Reader} (hi : RInv m r) {α : Type} (p : Prim α) (hl : p.len ≤ r.lenBits) (v : α) (h : p.read r.pend = some v) :
    r.read p = some (some v, { r with start := r.start + p.len }) ∧ RInv m { r with start := r.start + p.len } ∧
    ({ r with start := r.start + p.len } : Reader).pend = r.pend.drop p.len := by
  have h1 := hi.len; have h2 := hi.order; have h3 := hi.stop
  have hl2 : p.len ≤ r.stop - r.start := hl
  refine ⟨?_, ⟨h1, by simp only; omega, h3, hi.align⟩, ?_⟩
  · unfold Reader.read
    rw [if_neg (by omega)]
    have h : p.read ((r.buffer.drop r.start).take (r.stop - r.start)) = some v := h
    rw [h]
  · unfold Reader.pend
    simp only
    rw [List.drop_take, List.drop_drop]
    congr 1; omega

/-- the main invariant of a reader fed from the bits of `items` -/
theorem readerRun_inv {m : Nat} {items : List Item} {r : Reader} {fed : Bytes} {got rest : List Item} {bits tail : List Bool}
    (h : ReaderRun m items r fed got rest) (hs : Segs items bits) :
    bytesBits fed <+: bits ++ tail →
    RInv m r ∧ got ++ rest = items ∧ ∃ used left, Segs rest left ∧ bits = used ++ left ∧ bytesBits fed = used ++ r.pend := by
  induction h with
  | start =>
    intro _
    exact ⟨⟨by simp [Reader.new], Nat.le_refl _, Nat.zero_le _, rfl⟩, rfl, [], bits, hs, rfl, by simp [Reader.new, Reader.pend, bytesBits]⟩
  | feed _ data h ih =>
    intro hpre
    rw [bytesBits_append] at hpre
    obtain ⟨h1, h2, used, left, h3, h4, h5⟩ := ih (List.IsPrefix.trans (List.prefix_append _ _) hpre)
    obtain ⟨g1, g2⟩ := replenish_inv h1 h
    exact ⟨g1, h2, used, left, h3, h4, by rw [bytesBits_append, h5, g2, List.append_assoc]⟩
  | @value r r' fed got rest it hr v h ih =>
    intro hpre
    obtain ⟨h1, h2, used, left, h3, h4, h5⟩ := ih hpre
    cases h3 with
    | cons _ seg hl hrd h3 =>
      next bits' =>
      have hlen : it.p.len ≤ r.lenBits := by
        unfold Reader.read at h
        apply Nat.not_lt.mp
        intro hlt
        rw [if_pos hlt] at h
        injection h with h; injection h with h _; exact absurd h (by simp)
      have hpl := h1.pend_length
      -- the pending bits start with the segment
      have hpp : r.pend <+: seg ++ (bits' ++ tail) := by
        rw [h5, h4] at hpre
        simp only [List.append_assoc] at hpre
        exact (List.prefix_append_right_inj used).mp hpre
      obtain ⟨t, ht⟩ : seg <+: r.pend := by
        apply List.prefix_of_prefix_length_le (List.prefix_append seg (bits' ++ tail)) hpp
        omega
      have hread : it.p.read r.pend = some it.v := by rw [← ht]; exact hrd t
      obtain ⟨g1, g2, g3⟩ := read_inv h1 it.p hlen it.v hread
      rw [g1] at h
      injection h with h
      injection h with ha hb
      injection ha with ha
      subst ha; subst hb
      refine ⟨g2, by rw [← h2]; simp, used ++ seg, bits', h3, by rw [h4, List.append_assoc], ?_⟩
      rw [g3, h5, ← ht, List.append_assoc]
      congr 2
      rw [← hl, List.drop_left]

end Verif.Bit

namespace Verif.Props
open Verif Verif.Bit

/-- every codec of the firmware satisfies the codec law: booleans, fixed-width integers and floats, pairs of 64-bit values, arrays, options -/
theorem C27_primitives : Good Prim.bool ∧ (∀ n, Good (Prim.uint n)) ∧ (∀ {α : Type} (p : Prim α), Good p → p.len = 64 → Good p.pair) ∧
    (∀ {α : Type} (p : Prim α) n, Good p → Good (p.arr n)) ∧ (∀ {α : Type} (p : Prim α), Good p → Good p.opt) :=
  ⟨good_bool, good_uint, fun _ h hl => good_pair h hl, fun _ n h => good_arr h n, fun _ h => good_opt h⟩

/-- **C27** Whatever values are written, however the bytes are taken from the writer, and however they are fed to the reader: the values read are
exactly the values written, in order, and no value is lost (what has been read and what is still expected make up what was written).
The bytes may come from the drained part and the final partial byte. -/
theorem C27_round_trip {n m : Nat} {w : Writer} {drained : Bytes} {items : List Item} {r : Reader} {fed : Bytes} {got rest : List Item}
    (hw : WriterRun n w drained items) (hr : ReaderRun m items r fed got rest) (hp : fed <+: drained ++ w.allBytes) : got ++ rest = items := by
  obtain ⟨h1, h2, h3⟩ := writerRun_inv hw
  have hb : bytesBits w.allBytes = w.data.take (8 * ((w.len + 7) / 8)) := bytesBits_bitsBytes _ _ (by omega)
  have hsplit : w.data.take (8 * ((w.len + 7) / 8)) = w.data.take w.len ++ (w.data.drop w.len).take (8 * ((w.len + 7) / 8) - w.len) := by
    have : 8 * ((w.len + 7) / 8) = w.len + (8 * ((w.len + 7) / 8) - w.len) := by omega
    conv => lhs; rw [this]
    rw [List.take_add]
  have hpre : bytesBits fed <+: (bytesBits drained ++ w.data.take w.len) ++ (w.data.drop w.len).take (8 * ((w.len + 7) / 8) - w.len) := by
    obtain ⟨x, hx⟩ := hp
    refine ⟨bytesBits x, ?_⟩
    rw [← bytesBits_append, hx, bytesBits_append, hb, hsplit, List.append_assoc]
  exact (readerRun_inv hr h3 hpre).2.1

/-- **C27** Once all bytes have been fed, the reader returns the next value, as long as one is left; before that it either returns it or says
that more data is needed. It never panics and never invents a value. -/
theorem C27_reader_answers {n m : Nat} {w : Writer} {drained : Bytes} {items : List Item} {r : Reader} {fed : Bytes} {got rest : List Item} {it : Item}
    (hw : WriterRun n w drained items) (hr : ReaderRun m items r fed got (it :: rest)) (hp : fed <+: drained ++ w.allBytes) :
    (r.read it.p = some (none, r) ∨ ∃ r', r.read it.p = some (some it.v, r')) ∧
    (fed = drained ++ w.allBytes → ∃ r', r.read it.p = some (some it.v, r')) := by
  obtain ⟨h1, h2, h3⟩ := writerRun_inv hw
  have hb : bytesBits w.allBytes = w.data.take (8 * ((w.len + 7) / 8)) := bytesBits_bitsBytes _ _ (by omega)
  have hsplit : w.data.take (8 * ((w.len + 7) / 8)) = w.data.take w.len ++ (w.data.drop w.len).take (8 * ((w.len + 7) / 8) - w.len) := by
    have : 8 * ((w.len + 7) / 8) = w.len + (8 * ((w.len + 7) / 8) - w.len) := by omega
    conv => lhs; rw [this]
    rw [List.take_add]
  have hpre : bytesBits fed <+: (bytesBits drained ++ w.data.take w.len) ++ (w.data.drop w.len).take (8 * ((w.len + 7) / 8) - w.len) := by
    obtain ⟨x, hx⟩ := hp
    refine ⟨bytesBits x, ?_⟩
    rw [← bytesBits_append, hx, bytesBits_append, hb, hsplit, List.append_assoc]
  obtain ⟨g1, g2, used, left, g3, g4, g5⟩ := readerRun_inv hr h3 hpre
  have hpl := g1.pend_length
  cases g3 with
  | cons _ seg hl hrd g3 =>
    next bits' =>
    have hgood : it.p.len ≤ r.lenBits → ∃ r', r.read it.p = some (some it.v, r') := by
      intro hlen
      have hpp : r.pend <+: seg ++ (bits' ++ (w.data.drop w.len).take (8 * ((w.len + 7) / 8) - w.len)) := by
        rw [g5, g4] at hpre
        simp only [List.append_assoc] at hpre
        exact (List.prefix_append_right_inj used).mp hpre
      obtain ⟨t, ht⟩ : seg <+: r.pend := by
        apply List.prefix_of_prefix_length_le (List.prefix_append seg _) hpp
        omega
      exact ⟨_, (read_inv g1 it.p hlen it.v (by rw [← ht]; exact hrd t)).1⟩
    constructor
    · by_cases hlen : it.p.len ≤ r.lenBits
      · exact Or.inr (hgood hlen)
      · left; unfold Reader.read; rw [if_pos (by omega)]
    · intro hall
      apply hgood
      have hlenall : (bytesBits fed).length = (bytesBits drained).length + 8 * ((w.len + 7) / 8) := by
        rw [hall, bytesBits_append, List.length_append, hb, List.length_take, h1]; omega
      have e1 : (bytesBits drained ++ w.data.take w.len).length = (used ++ (seg ++ bits')).length := by rw [g4]
      rw [g5] at hlenall
      simp only [List.length_append, List.length_take, hl] at e1 hlenall
      omega

/-- **C27** The writer takes a value exactly when it fits its buffer; otherwise it panics (it never cuts a value). -/
theorem C27_writer_capacity {n : Nat} {w : Writer} {drained : Bytes} {items : List Item} (h : WriterRun n w drained items) (it : Item) (hg : Good it.p) :
    (∃ w', w.write it.p it.v = some w') ↔ w.len + it.p.len ≤ 8 * n := writer_accepts h it hg

/-- **C27** (limit) The pair codec has a fixed length of 128 bits: with components wider than 64 bits the second one is cut off. -/
theorem C27_pair_too_wide : ¬ Good (Prim.uint 65).pair := by
  intro h
  obtain ⟨e, l, wr, rd⟩ := h.ok (0, BitVec.ofNat 65 (2 ^ 64)) (List.replicate 130 false) (by simp [Prim.pair])
  obtain ⟨e', l', wr', rd'⟩ := h.ok (0, 0) (List.replicate 130 false) (by simp [Prim.pair])
  have r1 := rd [false, false]
  have r2 := rd' [false, false]
  have hw : (Prim.uint 65).pair.write (0, BitVec.ofNat 65 (2 ^ 64)) (List.replicate 130 false) = some (List.replicate 129 false ++ [true]) := by decide +kernel
  have hw' : (Prim.uint 65).pair.write (0, 0) (List.replicate 130 false) = some (List.replicate 130 false) := by decide +kernel
  rw [hw] at wr
  rw [hw'] at wr'
  injection wr with wr
  injection wr' with wr'
  have e1 : e = List.replicate 128 false := by
    have h1 : (List.replicate 129 false ++ [true]).take 128 = (e ++ List.drop (Prim.uint 65).pair.len (List.replicate 130 false)).take 128 := congrArg (List.take 128) wr
    rw [List.take_append_of_le_length (l₁ := e) (by rw [l]; exact Nat.le_refl _), List.take_of_length_le (l := e) (by rw [l]; exact Nat.le_refl _)] at h1
    rw [← h1]; decide +kernel
  have e2 : e' = List.replicate 128 false := by
    have h1 : (List.replicate 130 false).take 128 = (e' ++ List.drop (Prim.uint 65).pair.len (List.replicate 130 false)).take 128 := congrArg (List.take 128) wr'
    rw [List.take_append_of_le_length (l₁ := e') (by rw [l']; exact Nat.le_refl _), List.take_of_length_le (l := e') (by rw [l']; exact Nat.le_refl _)] at h1
    rw [← h1]; decide +kernel
  rw [e1] at r1
  rw [e2, r1] at r2
  injection r2 with r2
  injection r2 with _ r2
  exact absurd r2 (by decide)

/-- hypotheses of C27 are met: an option of a byte and a 3-bit number, drained in between, and a reader that got everything -/
example : ∃ (w : Writer) (drained : Bytes) (r : Reader) (fed : Bytes) (got : List Item),
    WriterRun 4 w drained [⟨_, (Prim.uint 8).opt, some 0xA5#8⟩, ⟨_, Prim.uint 3, 5#3⟩] ∧ drained = [0x4B] ∧ w.allBytes = [0xB] ∧
    ReaderRun 4 [⟨_, (Prim.uint 8).opt, some 0xA5#8⟩, ⟨_, Prim.uint 3, 5#3⟩] r fed got [] ∧ fed = drained ++ w.allBytes := by
  have w1 := WriterRun.write (n := 4) ⟨_, (Prim.uint 8).opt, some 0xA5#8⟩ .start (good_opt (good_uint 8)) (w' := ⟨9, bytesBits [0x4B, 1, 0, 0]⟩) (by decide +kernel)
  have w2 := w1.drain (w' := ⟨1, bytesBits [1, 1, 0, 0]⟩) (by decide +kernel)
  have w3 := w2.write ⟨_, Prim.uint 3, 5#3⟩ (good_uint 3) (w' := ⟨4, bytesBits [0xB, 1, 0, 0]⟩) (by decide +kernel)
  have r1 := ReaderRun.start (m := 4) (items := [⟨_, (Prim.uint 8).opt, some 0xA5#8⟩, ⟨_, Prim.uint 3, 5#3⟩]) |>.feed [0x4B, 0xB] (r' := ⟨bytesBits [0x4B, 0xB, 0, 0], 0, 16⟩) (by decide +kernel)
  have r2 := r1.value (some 0xA5#8) (r' := ⟨bytesBits [0x4B, 0xB, 0, 0], 9, 16⟩) (by rfl)
  have r3 := r2.value 5#3 (r' := ⟨bytesBits [0x4B, 0xB, 0, 0], 12, 16⟩) (by rfl)
  exact ⟨_, _, _, _, _, w3, by decide +kernel, by decide +kernel, r3, by decide +kernel⟩

end Verif.Props
