import Verif.Model.FlashFault
import Verif.Lemmas.SystemUse
/-
Writers after a page program was refused.
-/
namespace Verif.Vlfs
open Verif Verif.Spec

theorem writePageF_ok (crc : Bytes → UInt32) (w : FileWriter) (addr : Nat) (o : Option Nat) (dev : Dev) :
    w.writePageF crc addr o dev true = (.ok (), (w.writePage crc addr o dev).1, (w.writePage crc addr o dev).2) := by
  cases o <;> rfl

theorem writePageF_refused (crc : Bytes → UInt32) (w : FileWriter) (addr : Nat) (o : Option Nat) (dev : Dev) :
    w.writePageF crc addr o dev false = (.error .flash, w.withCrc crc o, dev) := rfl

theorem flushToF_ok (crc : Bytes → UInt32) (w : FileWriter) (next : Nat) (dev : Dev) (ok : Nat → Bool) (h : ∀ i, ok i = true) :
    w.flushToF crc next dev ok = (.ok (), (w.flushTo crc next dev).1, (w.flushTo crc next dev).2) := by
  unfold FileWriter.flushToF FileWriter.flushTo
  rw [h, h]
  by_cases h0 : w.len = 0
  · rw [if_pos h0, if_pos h0]; rfl
  · rw [if_neg h0, if_neg h0]
    by_cases h1 : w.isLastDataPage = true
    · rw [if_pos h1, writePageF_ok]; simp only [h1, if_true]
    · rw [if_neg h1]
      simp only [h1]
      by_cases h2 : w.offset > 0
      · simp only [h2, if_true]; rfl
      · simp only [h2, if_false]; rfl

theorem flushF_ok (crc : Bytes → UInt32) (w : FileWriter) (m : SectorsMng) (dev : Dev) (r1 r2 : Nat) (ok : Nat → Bool) (h : ∀ i, ok i = true) :
    w.flushF crc m dev r1 r2 ok = (((w.flush crc m dev r1 r2).1.mapError FErr.fs), (w.flush crc m dev r1 r2).2) := by
  unfold FileWriter.flushF FileWriter.flush
  by_cases h0 : w.len = 0
  · rw [if_pos h0, if_pos h0]; rfl
  · rw [if_neg h0, if_neg h0]
    obtain ⟨res, m1, d1⟩ := m.claim r1 r2 dev
    cases res with
    | error e => rfl
    | ok next =>
      dsimp only
      rw [flushToF_ok _ _ _ _ _ h]
      rfl

/-- overwriting the same place -/
theorem put_same (b : Bytes) (o : Nat) (d d' : Bytes) (hl : d.length = d'.length) (ho : o ≤ b.length) : put (put b o d) o d' = put b o d' := by
  unfold put
  have h1 : (b.take o).length = o := by rw [List.length_take]; omega
  have e1 : (b.take o ++ d ++ b.drop (o + d.length)).take o = b.take o := by
    rw [List.append_assoc, List.take_append_of_le_length (by omega), List.take_of_length_le (by omega)]
  have e2 : (b.take o ++ d ++ b.drop (o + d.length)).drop (o + d'.length) = b.drop (o + d.length) := by
    rw [List.drop_append, List.drop_eq_nil_of_le (by rw [List.length_append]; omega), List.nil_append, List.length_append, h1, hl, Nat.sub_self, List.drop_zero]
  rw [e1, e2, hl]

/-- the checksum does not count itself -/
theorem withCrc_idem (crc : Bytes → UInt32) (w : FileWriter) (o : Nat) (ho : o ≤ w.buffer.length) : (w.withCrc crc (some o)).withCrc crc (some o) = w.withCrc crc (some o) := by
  have e : (put w.buffer o (beBytes 4 (crc (w.buffer.take o)).toNat)).take o = w.buffer.take o := put_take _ _ _ _ (Nat.le_refl _) ho
  show ({ w with buffer := put (put w.buffer o _) o (beBytes 4 (crc ((put w.buffer o _).take o)).toNat) } : FileWriter) = _
  rw [e, put_same _ _ _ _ (by simp only [beBytes_length]) ho]
  rfl

/-- length, next sector and checksum are put in anew -/
theorem meta_again (crc : Bytes → UInt32) (w : FileWriter) (o n1 n2 : Nat) (hb : w.buffer.length = 256) (ho : o ≤ 236) :
    (((w.writeMeta n1).withCrc crc (some o)).writeMeta n2).withCrc crc (some o) = (w.writeMeta n2).withCrc crc (some o) := by
  have hput : ∀ (b d : Bytes) (p : Nat), b.length = 256 → p + d.length ≤ 256 → (put b p d).length = 256 := by
    intro b d p h1 h2; rw [put_length _ _ _ (by omega), h1]
  have t : ∀ (b d : Bytes) (p : Nat), b.length = 256 → o ≤ p → p ≤ 256 → (put b p d).take o = b.take o := fun b d p h1 h2 h3 => put_take _ _ _ _ h2 (by omega)
  have l8 : ∀ n, (u16x4 n).length = 8 := u16x4_length
  have l4 : ∀ n, (beBytes 4 n).length = 4 := fun n => beBytes_length ..
  generalize hc : (beBytes 4 (crc (w.buffer.take o)).toNat) = c
  have lc : c.length = 4 := by rw [← hc, l4]
  have b1 : (put (put w.buffer 240 (u16x4 w.len)) 248 (u16x4 n1)).length = 256 := hput _ _ _ (hput _ _ _ hb (by have := l8 w.len; have := l8 n1; have := l8 n2; omega)) (by have := l8 w.len; have := l8 n1; have := l8 n2; omega)
  have b1' : (put (put w.buffer 240 (u16x4 w.len)) 248 (u16x4 n2)).length = 256 := hput _ _ _ (hput _ _ _ hb (by have := l8 w.len; have := l8 n1; have := l8 n2; omega)) (by have := l8 w.len; have := l8 n1; have := l8 n2; omega)
  have e1 : ((w.writeMeta n1).withCrc crc (some o)).buffer = put (put (put w.buffer 240 (u16x4 w.len)) 248 (u16x4 n1)) o c := by
    show put _ o (beBytes 4 (crc ((put (put w.buffer 240 (u16x4 w.len)) 248 (u16x4 n1)).take o)).toNat) = _
    rw [t _ _ _ (hput _ _ _ hb (by have := l8 w.len; have := l8 n1; have := l8 n2; omega)) (by omega) (by omega), t _ _ _ hb (by omega) (by omega), hc]
    rfl
  have b2 : (put (put (put w.buffer 240 (u16x4 w.len)) 248 (u16x4 n1)) o c).length = 256 := hput _ _ _ b1 (by omega)
  have e2 : ((((w.writeMeta n1).withCrc crc (some o)).writeMeta n2).withCrc crc (some o)).buffer =
      put (put (put (put (put (put w.buffer 240 (u16x4 w.len)) 248 (u16x4 n1)) o c) 240 (u16x4 w.len)) 248 (u16x4 n2)) o c := by
    show put (put (put ((w.writeMeta n1).withCrc crc (some o)).buffer 240 (u16x4 w.len)) 248 (u16x4 n2)) o
      (beBytes 4 (crc ((put (put ((w.writeMeta n1).withCrc crc (some o)).buffer 240 (u16x4 w.len)) 248 (u16x4 n2)).take o)).toNat) = _
    rw [e1, t _ _ _ (hput _ _ _ b2 (by have := l8 w.len; have := l8 n1; have := l8 n2; omega)) (by omega) (by omega), t _ _ _ b2 (by omega) (by omega), t _ _ o b1 (Nat.le_refl _) (by omega),
      t _ _ _ (hput _ _ _ hb (by have := l8 w.len; have := l8 n1; have := l8 n2; omega)) (by omega) (by omega), t _ _ _ hb (by omega) (by omega), hc]
  have e3 : ((w.writeMeta n2).withCrc crc (some o)).buffer = put (put (put w.buffer 240 (u16x4 w.len)) 248 (u16x4 n2)) o c := by
    show put _ o (beBytes 4 (crc ((put (put w.buffer 240 (u16x4 w.len)) 248 (u16x4 n2)).take o)).toNat) = _
    rw [t _ _ _ (hput _ _ _ hb (by have := l8 w.len; have := l8 n1; have := l8 n2; omega)) (by omega) (by omega), t _ _ _ hb (by omega) (by omega), hc]
    rfl
  have b3 := hput _ (u16x4 w.len) 240 b2 (by have := l8 w.len; have := l8 n1; have := l8 n2; omega)
  have b4 := hput _ (u16x4 n2) 248 b3 (by have := l8 w.len; have := l8 n1; have := l8 n2; omega)
  have eb : ((((w.writeMeta n1).withCrc crc (some o)).writeMeta n2).withCrc crc (some o)).buffer = ((w.writeMeta n2).withCrc crc (some o)).buffer := by
    rw [e2, e3]
    refine ext_getD ?_ ?_
    · rw [hput _ _ _ b4 (by omega), hput _ _ _ b1' (by omega)]
    · intro i _
      have b0 := hput _ (u16x4 w.len) 240 hb (by have := l8 w.len; omega)
      have g : ∀ (b d : Bytes) (p : Nat), b.length = 256 → p + d.length ≤ 256 → (put b p d).getD i 0xFF = if p ≤ i ∧ i < p + d.length then d.getD (i - p) 0xFF else b.getD i 0xFF :=
        fun b d p h1 h2 => put_getD _ _ _ (by omega) _
      have q1 := l8 w.len
      have q2 := l8 n1
      have q3 := l8 n2
      rw [g _ c o b4 (by omega), g _ (u16x4 n2) 248 b3 (by omega), g _ (u16x4 w.len) 240 b2 (by omega), g _ c o b1 (by omega), g _ (u16x4 n1) 248 b0 (by omega), g _ c o b1' (by omega),
        g _ (u16x4 n2) 248 b0 (by omega), g _ (u16x4 w.len) 240 hb (by omega)]
      simp only [l8, lc]
      by_cases c1 : o ≤ i ∧ i < o + 4
      · simp only [if_pos c1]
      · by_cases c2 : 248 ≤ i ∧ i < 248 + 8
        · simp only [if_neg c1, if_pos c2]
        · by_cases c3 : 240 ≤ i ∧ i < 240 + 8
          · simp only [if_neg c1, if_neg c2, if_pos c3]
          · simp only [if_neg c1, if_neg c2, if_neg c3]
  calc _ = { w with buffer := ((((w.writeMeta n1).withCrc crc (some o)).writeMeta n2).withCrc crc (some o)).buffer } := rfl
    _ = { w with buffer := ((w.writeMeta n2).withCrc crc (some o)).buffer } := by rw [eb]
    _ = _ := rfl

/-- length and next sector are put in anew -/
theorem meta_meta (w : FileWriter) (n1 n2 : Nat) (hb : w.buffer.length = 256) : (w.writeMeta n1).writeMeta n2 = w.writeMeta n2 := by
  have hput : ∀ (b d : Bytes) (p : Nat), b.length = 256 → p + d.length ≤ 256 → (put b p d).length = 256 := by
    intro b d p h1 h2; rw [put_length _ _ _ (by omega), h1]
  have q1 : (u16x4 w.len).length = 8 := u16x4_length _
  have q2 : (u16x4 n1).length = 8 := u16x4_length _
  have q3 : (u16x4 n2).length = 8 := u16x4_length _
  have b1 := hput _ (u16x4 w.len) 240 hb (by omega)
  have b2 := hput _ (u16x4 n1) 248 b1 (by omega)
  have b3 := hput _ (u16x4 w.len) 240 b2 (by omega)
  have b4 := hput _ (u16x4 n2) 248 b3 (by omega)
  have eb : put (put (put (put w.buffer 240 (u16x4 w.len)) 248 (u16x4 n1)) 240 (u16x4 w.len)) 248 (u16x4 n2) = put (put w.buffer 240 (u16x4 w.len)) 248 (u16x4 n2) := by
    refine ext_getD ?_ ?_
    · rw [b4, hput _ _ _ b1 (by omega)]
    · intro i _
      have g : ∀ (b d : Bytes) (p : Nat), b.length = 256 → p + d.length ≤ 256 → (put b p d).getD i 0xFF = if p ≤ i ∧ i < p + d.length then d.getD (i - p) 0xFF else b.getD i 0xFF :=
        fun b d p h1 h2 => put_getD _ _ _ (by omega) _
      rw [g _ (u16x4 n2) 248 b3 (by omega), g _ (u16x4 w.len) 240 b2 (by omega), g _ (u16x4 n1) 248 b1 (by omega), g _ (u16x4 n2) 248 b1 (by omega), g _ (u16x4 w.len) 240 hb (by omega)]
      simp only [q1, q2, q3]
      by_cases c2 : 248 ≤ i ∧ i < 248 + 8
      · simp only [if_pos c2]
      · by_cases c3 : 240 ≤ i ∧ i < 240 + 8
        · simp only [if_neg c2, if_pos c3]
        · simp only [if_neg c2, if_neg c3]
  show ({ w with buffer := _ } : FileWriter) = { w with buffer := _ }
  exact congrArg (fun b => ({ w with buffer := b } : FileWriter)) eb

/-- a page that could not be programmed: the writer and the chip as they are, and as they would be had the page been accepted -/
def StuckPage (crc : Bytes → UInt32) (wF : FileWriter) (devF : Dev) (w0 : FileWriter) (dev0 : Dev) : Prop :=
  ∃ w1 : FileWriter, w1.buffer.length = 256 ∧ w1.offset = 252 ∧ 0 < w1.len ∧ w1.len ≤ 252 * 15 ∧ wF = w1.withCrc crc (some 252) ∧
    w0 = { w1 with buffer := blankPage, offset := 0 } ∧ dev0 = devF.ops [pageOp crc w1]

theorem StuckPage.flushTo {crc : Bytes → UInt32} {wF w0 : FileWriter} {devF dev0 : Dev} (h : StuckPage crc wF devF w0 dev0) (next : Nat) :
    wF.flushTo crc next devF = w0.flushTo crc next dev0 := by
  obtain ⟨w1, h1, h2, h3, h4, rfl, rfl, rfl⟩ := h
  have l : ¬ (w1.withCrc crc (some 252)).len = 0 := by show ¬ w1.len = 0; omega
  have l' : ¬ ({ w1 with buffer := blankPage, offset := 0 } : FileWriter).len = 0 := by show ¬ w1.len = 0; omega
  have k : (w1.withCrc crc (some 252)).isLastDataPage = false := by show decide (w1.len > 252 * 15) = false; exact decide_eq_false (by omega)
  have k' : ({ w1 with buffer := blankPage, offset := 0 } : FileWriter).isLastDataPage = false := by show decide (w1.len > 252 * 15) = false; exact decide_eq_false (by omega)
  have o : (w1.withCrc crc (some 252)).offset = 252 := h2
  unfold FileWriter.flushTo
  rw [if_neg l, if_neg l']
  simp only [k, k', o, Bool.false_eq_true, if_false]
  have e : (w1.withCrc crc (some 252)).writePage crc (w1.withCrc crc (some 252)).pageAddress (some 252) devF = ({ w1 with buffer := blankPage, offset := 0 }, devF.ops [pageOp crc w1]) := by
    have i := congrArg FileWriter.buffer (withCrc_idem crc w1 252 (by omega))
    have hp : pageOp crc w1 = .page w1.pageAddress (w1.withCrc crc (some 252)).buffer := by unfold pageOp; rw [h2]; rfl
    rw [hp, ← i]
    rfl
  rw [if_pos (by decide), e]
  rfl

/-- bytes put into the page buffer -/
def FileWriter.fill (w : FileWriter) (d : Bytes) : FileWriter := { w with buffer := put w.buffer w.offset d, offset := w.offset + d.length, len := w.len + d.length }

/-- a writer between two calls -/
structure Ready (w : FileWriter) : Prop where
  len : w.len ≤ 4016
  offset : w.offset = w.len % 252
  buffer : w.buffer.length = 256

theorem WSt.ready {crc : Bytes → UInt32} {rest : List Nat} {first : Nat} {segs : List (Nat × Bytes)} {w : FileWriter} {D : Bytes} {m : SectorsMng} {dev : Dev}
    (h : WSt crc rest first segs w D m dev) : Ready w := by
  have hw := h.winv
  have h1 := hw.len
  have h2 := hw.max
  have h3 := hw.offset
  refine ⟨by omega, by omega, ?_⟩
  rw [hw.buffer, bufOf_length _ (by rw [List.length_drop]; omega)]

theorem willBeLast_true {w : FileWriter} (h : 3780 ≤ w.len) : decide (w.len ≥ 252 * 15) = true := decide_eq_true (by omega)
theorem willBeLast_false {w : FileWriter} (h : w.len < 3780) : decide (w.len ≥ 252 * 15) = false := decide_eq_false (by omega)

theorem loop_fit (crc : Bytes → UInt32) (rng : Nat → Nat × Nat) (ok : Nat → Bool) (fuel : Nat) {w : FileWriter} (m : SectorsMng) (dev : Dev) {slice : Bytes} (hw : Ready w) (h0 : 0 < slice.length)
    (hf : slice.length < if 3780 ≤ w.len then 4016 - w.len else 252 - w.len % 252) :
    w.extendLoop crc rng (fuel + 1) m dev slice = (.ok (), w.fill slice, m, dev) ∧ w.extendLoopF crc rng ok (fuel + 1) m dev slice = (.ok (), w.fill slice, m, dev) := by
  have hl := hw.len
  have ho := hw.offset
  rw [FileWriter.extendLoop, FileWriter.extendLoopF, if_pos h0, if_pos h0]
  by_cases h : 3780 ≤ w.len
  · rw [if_pos h] at hf
    simp only [willBeLast_true h, if_true]
    rw [if_pos (by omega), if_neg (by omega), if_pos (by omega)]
    exact ⟨rfl, rfl⟩
  · rw [if_neg h] at hf
    simp only [willBeLast_false (w := w) (by omega), Bool.false_eq_true, if_false]
    rw [if_pos (by omega), if_neg (by omega), if_pos (by omega)]
    exact ⟨rfl, rfl⟩

theorem loop_page (crc : Bytes → UInt32) (rng : Nat → Nat × Nat) (ok : Nat → Bool) (fuel : Nat) {w : FileWriter} (m : SectorsMng) (dev : Dev) {slice : Bytes} {n : Nat} (hw : Ready w)
    (hl : w.len < 3780) (hn : n = 252 - w.len % 252) (hs : n ≤ slice.length) :
    w.extendLoop crc rng (fuel + 1) m dev slice = ({ w.fill (slice.take n) with buffer := blankPage, offset := 0 } : FileWriter).extendLoop crc rng fuel m (dev.ops [pageOp crc (w.fill (slice.take n))]) (slice.drop n) ∧
    w.extendLoopF crc rng ok (fuel + 1) m dev slice = if ok fuel
      then ({ w.fill (slice.take n) with buffer := blankPage, offset := 0 } : FileWriter).extendLoopF crc rng ok fuel m (dev.ops [pageOp crc (w.fill (slice.take n))]) (slice.drop n)
      else (.error .flash, (w.fill (slice.take n)).withCrc crc (some 252), m, dev) := by
  have ho := hw.offset
  have htl : (slice.take n).length = n := by rw [List.length_take]; omega
  have efree : 256 - w.offset - 4 = n := by omega
  have efill : ({ w with buffer := put w.buffer w.offset (slice.take n), offset := w.offset + n, len := w.len + n } : FileWriter) = w.fill (slice.take n) := by
    unfold FileWriter.fill; rw [htl]
  have eoff : (w.fill (slice.take n)).offset = 252 := by show w.offset + (slice.take n).length = 252; omega
  have eop : pageOp crc (w.fill (slice.take n)) = .page (w.fill (slice.take n)).pageAddress ((w.fill (slice.take n)).withCrc crc (some 252)).buffer := by
    unfold pageOp; rw [eoff]; rfl
  have g0 : slice.length > 0 := by omega
  have g1 : ¬ 256 < w.offset + 4 := by omega
  have g2 : ¬ slice.length < n := by omega
  rw [FileWriter.extendLoop, FileWriter.extendLoopF, if_pos g0, if_pos g0]
  simp only [willBeLast_false hl, Bool.false_eq_true, if_false, efree]
  rw [if_neg g1, if_neg g2, if_neg g2, efill]
  have eoff2 : w.offset + n = 252 := by omega
  rw [eoff2]
  constructor
  · rw [eop]; rfl
  · cases h : ok fuel
    · rw [writePageF_refused]; rfl
    · rw [writePageF_ok, eop]; rfl

/-- a full sector is finished with one page -/
theorem flushTo_full (crc : Bytes → UInt32) (w : FileWriter) (hl : w.len = 4016) (ho : w.offset = 236) (next : Nat) (dev : Dev) :
    w.flushTo crc next dev = (⟨blankPage, 0, 0, w.sector, w.id⟩, dev.op (.page w.pageAddress ((w.writeMeta next).withCrc crc (some 236)).buffer)) := by
  have k : w.isLastDataPage = true := by show decide (w.len > 252 * 15) = true; exact decide_eq_true (by omega)
  unfold FileWriter.flushTo
  rw [if_neg (by omega)]
  simp only [k, if_true, ho]
  rfl

theorem loop_sector (crc : Bytes → UInt32) (rng : Nat → Nat × Nat) (ok : Nat → Bool) (fuel : Nat) {w : FileWriter} (m : SectorsMng) (dev : Dev) {slice : Bytes} {n : Nat} (hw : Ready w)
    (hl : 3780 ≤ w.len) (hn : n = 4016 - w.len) (h0 : 0 < slice.length) (hs : n ≤ slice.length) :
    (∀ e m1 dev1, m.claim (rng fuel).1 (rng fuel).2 dev = (.error e, m1, dev1) →
      w.extendLoop crc rng (fuel + 1) m dev slice = (.error e, w.fill (slice.take n), m1, dev1) ∧ w.extendLoopF crc rng ok (fuel + 1) m dev slice = (.error (.fs e), w.fill (slice.take n), m1, dev1)) ∧
    (∀ x m1 dev1, m.claim (rng fuel).1 (rng fuel).2 dev = (.ok x, m1, dev1) →
      w.extendLoop crc rng (fuel + 1) m dev slice = (⟨blankPage, 0, 0, x, w.id⟩ : FileWriter).extendLoop crc rng fuel m1 ((w.fill (slice.take n)).flushTo crc x dev1).2 (slice.drop n) ∧
      w.extendLoopF crc rng ok (fuel + 1) m dev slice = if ok fuel then (⟨blankPage, 0, 0, x, w.id⟩ : FileWriter).extendLoopF crc rng ok fuel m1 ((w.fill (slice.take n)).flushTo crc x dev1).2 (slice.drop n)
        else (.error .flash, ((w.fill (slice.take n)).writeMeta x).withCrc crc (some 236), m1, dev1)) := by
  have ho := hw.offset
  have hl2 := hw.len
  have htl : (slice.take n).length = n := by rw [List.length_take]; omega
  have efree : 256 - w.offset - 20 = n := by omega
  have efill : ({ w with buffer := put w.buffer w.offset (slice.take n), offset := w.offset + n, len := w.len + n } : FileWriter) = w.fill (slice.take n) := by
    unfold FileWriter.fill; rw [htl]
  have eoff : (w.fill (slice.take n)).offset = 236 := by show w.offset + (slice.take n).length = 236; omega
  have g0 : slice.length > 0 := by omega
  have g1 : ¬ 256 < w.offset + 20 := by omega
  have g2 : ¬ slice.length < n := by omega
  rw [FileWriter.extendLoop, FileWriter.extendLoopF, if_pos g0, if_pos g0]
  simp only [willBeLast_true hl, if_true, efree]
  rw [if_neg g1, if_neg g2, if_neg g2, efill]
  constructor
  · intro e m1 dev1 hc
    rw [hc]
    exact ⟨rfl, rfl⟩
  · intro x m1 dev1 hc
    rw [hc]
    have eoff2 : ((w.fill (slice.take n)).writeMeta x).offset = 236 := eoff
    have elen : (w.fill (slice.take n)).len = 4016 := by show w.len + (slice.take n).length = 4016; omega
    rw [flushTo_full crc _ elen eoff x dev1]
    dsimp only
    rw [eoff2]
    refine ⟨rfl, ?_⟩
    cases h : ok fuel
    · rw [writePageF_refused]; rfl
    · rw [writePageF_ok]; rfl

/-- a sector whose last page could not be programmed: the writer, the chip and the sector manager as they are, and as they were before a sector was claimed -/
def StuckSector (crc : Bytes → UInt32) (d : Bytes) (wF : FileWriter) (mF : SectorsMng) (devF : Dev) (w0 : FileWriter) (m0 : SectorsMng) (dev0 : Dev) : Prop :=
  ∃ x r1 r2, 3780 ≤ w0.len ∧ w0.len + d.length = 4016 ∧ m0.claim r1 r2 dev0 = (.ok x, mF, devF) ∧ wF = ((w0.fill d).writeMeta x).withCrc crc (some 236)

/-- a write that ended with a refused page program -/
structure RefusedWrite (crc : Bytes → UInt32) (rng : Nat → Nat × Nat) (fuel : Nat) (w : FileWriter) (m : SectorsMng) (dev : Dev) (slice : Bytes) (r : WResF)
    (taken d : Bytes) (w0 : FileWriter) (m0 : SectorsMng) (dev0 : Dev) : Prop where
  res : r.1 = .error .flash
  pre : taken ++ d <+: slice
  some : taken = [] → 3780 ≤ w.len
  loop : w.extendLoop crc rng fuel m dev taken = (.ok (), w0, m0, dev0)
  stuck : (d = [] ∧ r.2.2.1 = m0 ∧ StuckPage crc r.2.1 r.2.2.2 w0 dev0) ∨ StuckSector crc d r.2.1 r.2.2.1 r.2.2.2 w0 m0 dev0

theorem WSt.fill {crc : Bytes → UInt32} {rest : List Nat} {first : Nat} {segs : List (Nat × Bytes)} {w : FileWriter} {D d : Bytes} {m : SectorsMng} {dev : Dev}
    (h : WSt crc rest first segs w D m dev) (hl : 3780 ≤ w.len) (hd : w.len + d.length = 4016) : WSt crc rest first segs (w.fill d) (D ++ d) m dev := by
  have hlen := h.winv.len
  refine ⟨h.chain, ?_, h.inv, h.blank⟩
  have hw : WBuf crc dev.flash w D 15 := by
    have := h.winv
    have e : D.length / 252 = 15 := by omega
    unfold WInv at this
    rwa [e] at this
  have := hw.append d (by omega) (by omega)
  show WBuf crc _ _ (D ++ d) ((D ++ d).length / 252)
  rw [List.length_append, show (D.length + d.length) / 252 = 15 by omega]
  exact this

theorem extendLoopF_nil (crc : Bytes → UInt32) (rng : Nat → Nat × Nat) (ok : Nat → Bool) (fuel : Nat) (w : FileWriter) (m : SectorsMng) (dev : Dev) :
    w.extendLoopF crc rng ok (fuel + 1) m dev [] = (.ok (), w, m, dev) := by
  rw [FileWriter.extendLoopF]; simp

theorem loopF_cases {crc : Bytes → UInt32} {rng : Nat → Nat × Nat} {ok : Nat → Bool} {rest : List Nat} {first : Nat} : ∀ (fuel : Nat) (segs : List (Nat × Bytes)) (w : FileWriter) (D : Bytes) (m : SectorsMng)
    (dev : Dev) (slice : Bytes), WSt crc rest first segs w D m dev → slice.length + 1 + (if w.len = 4016 then 1 else 0) ≤ fuel →
    w.extendLoopF crc rng ok fuel m dev slice = ((w.extendLoop crc rng fuel m dev slice).1.mapError FErr.fs, (w.extendLoop crc rng fuel m dev slice).2) ∨
    ((∃ i, ok i = false) ∧ ∃ taken d w0 m0 dev0, RefusedWrite crc rng fuel w m dev slice (w.extendLoopF crc rng ok fuel m dev slice) taken d w0 m0 dev0) := by
  intro fuel
  induction fuel with
  | zero => exact fun _ _ _ _ _ _ _ h => absurd h (by omega)
  | succ fuel ih =>
    intro segs w D m dev slice h hf
    have hr := h.ready
    have hrl := hr.len
    by_cases h0 : slice.length > 0
    · by_cases hfit : slice.length < if 3780 ≤ w.len then 4016 - w.len else 252 - w.len % 252
      · left
        obtain ⟨e1, e2⟩ := loop_fit crc rng ok fuel m dev hr h0 hfit
        rw [e1, e2]; rfl
      · by_cases hl : 3780 ≤ w.len
        · rw [if_pos hl] at hfit
          generalize hn : 4016 - w.len = n at hfit
          have hs : n ≤ slice.length := by omega
          have htl : (slice.take n).length = n := by rw [List.length_take]; omega
          obtain ⟨s1, s2⟩ := loop_sector crc rng ok fuel m dev hr hl hn.symm h0 hs
          obtain ⟨res, m1, dev1, hc⟩ : ∃ res m1 dev1, m.claim (rng fuel).1 (rng fuel).2 dev = (res, m1, dev1) := ⟨_, _, _, rfl⟩
          cases res with
          | error e =>
            left
            obtain ⟨e1, e2⟩ := s1 e m1 dev1 hc
            rw [e1, e2]; rfl
          | ok x =>
            obtain ⟨e1, e2⟩ := s2 x m1 dev1 hc
            cases hok : ok fuel with
            | false =>
              right
              rw [hok] at e2
              refine ⟨⟨fuel, hok⟩, [], slice.take n, w, m, dev, ?_, ?_, fun _ => hl, ?_, ?_⟩
              · rw [e2]; rfl
              · rw [List.nil_append]; exact List.take_prefix ..
              · exact extendLoop_zero ..
              · right
                rw [e2]
                exact ⟨x, _, _, hl, by rw [htl]; omega, hc, rfl⟩
            | true =>
              rw [hok, if_pos rfl] at e2
              have hst := h.fill (d := slice.take n) hl (by rw [htl]; omega)
              obtain ⟨segs', D', os, c1, c2⟩ := flush_call hst (rng fuel).1 (rng fuel).2
              have hlen : (w.fill (slice.take n)).len = 4016 := by show w.len + (slice.take n).length = 4016; omega
              have hoff : (w.fill (slice.take n)).offset = 236 := by show w.offset + (slice.take n).length = 236; have := hr.offset; omega
              have efl : (w.fill (slice.take n)).flush crc m dev (rng fuel).1 (rng fuel).2 = (.ok (), ⟨blankPage, 0, 0, x, w.id⟩, m1, ((w.fill (slice.take n)).flushTo crc x dev1).2) := by
                unfold FileWriter.flush
                rw [if_neg (by omega), hc]
                dsimp only
                rw [flushTo_full crc _ hlen hoff x dev1]
                rfl
              rw [efl] at c1 c2
              have hst2 : WSt crc rest first segs' ⟨blankPage, 0, 0, x, w.id⟩ D' m1 ((w.fill (slice.take n)).flushTo crc x dev1).2 := c1.st
              rcases ih _ _ _ _ _ (slice.drop n) hst2 (by rw [List.length_drop, if_neg (show ¬ (0 : Nat) = 4016 by decide)]; split at hf <;> omega) with g | ⟨g0, taken, d, w0, m0, dev0, g⟩
              · left
                rw [e1, e2]; exact g
              · right
                refine ⟨g0, slice.take n ++ taken, d, w0, m0, dev0, ?_⟩
                rw [e2]
                have hne : taken ≠ [] := fun hx => absurd (g.some hx) (show ¬ 3780 ≤ (0 : Nat) by decide)
                refine ⟨g.res, ?_, ?_, ?_, g.stuck⟩
                · obtain ⟨q, hq⟩ := g.pre
                  exact ⟨q, by rw [List.append_assoc, List.append_assoc, ← List.append_assoc taken, hq, List.take_append_drop]⟩
                · intro hx; exact absurd (List.append_eq_nil_iff.mp hx).2 hne
                · have hp : 0 < taken.length := List.length_pos_iff.mpr hne
                  have t1 : (slice.take n ++ taken).take n = slice.take n := by rw [List.take_append_of_le_length (by omega), List.take_of_length_le (by omega)]
                  have t2 : (slice.take n ++ taken).drop n = taken := by rw [List.drop_append_of_le_length (by omega), List.drop_eq_nil_of_le (by omega), List.nil_append]
                  obtain ⟨_, s2'⟩ := loop_sector crc rng ok fuel m dev (slice := slice.take n ++ taken) hr hl hn.symm (by rw [List.length_append]; omega) (by rw [List.length_append]; omega)
                  rw [(s2' x m1 dev1 hc).1, t1, t2]
                  exact g.loop
        · rw [if_neg hl] at hfit
          generalize hn : 252 - w.len % 252 = n at hfit
          have hnpos : 0 < n := by omega
          have hs : n ≤ slice.length := by omega
          have htl : (slice.take n).length = n := by rw [List.length_take]; omega
          have hfl : (w.fill (slice.take n)).len = w.len + n := by show w.len + (slice.take n).length = _; omega
          have hfo : (w.fill (slice.take n)).offset = 252 := by show w.offset + (slice.take n).length = _; have := hr.offset; omega
          have one : ∀ t : Bytes, w.extendLoop crc rng (fuel + 1) m dev (slice.take n ++ t) =
              ({ w.fill (slice.take n) with buffer := blankPage, offset := 0 } : FileWriter).extendLoop crc rng fuel m (dev.ops [pageOp crc (w.fill (slice.take n))]) t := by
            intro t
            rw [(loop_page crc rng ok fuel m dev (slice := slice.take n ++ t) hr (by omega) hn.symm (by rw [List.length_append]; omega)).1]
            have t1 : (slice.take n ++ t).take n = slice.take n := by rw [List.take_append_of_le_length (by omega), List.take_of_length_le (by omega)]
            have t2 : (slice.take n ++ t).drop n = t := by rw [List.drop_append_of_le_length (by omega), List.drop_eq_nil_of_le (by omega), List.nil_append]
            rw [t1, t2]
          have hfuel : 1 ≤ fuel := by omega
          obtain ⟨f', rfl⟩ : ∃ f', fuel = f' + 1 := ⟨fuel - 1, by omega⟩
          have one' : w.extendLoop crc rng (f' + 1 + 1) m dev (slice.take n) = (.ok (), { w.fill (slice.take n) with buffer := blankPage, offset := 0 }, m, dev.ops [pageOp crc (w.fill (slice.take n))]) := by
            have := one []
            rw [List.append_nil, extendLoop_zero] at this
            exact this
          obtain ⟨e1, e2⟩ := loop_page crc rng ok (f' + 1) m dev (slice := slice) hr (by omega) hn.symm hs
          cases hok : ok (f' + 1) with
          | false =>
            right
            rw [hok] at e2
            refine ⟨⟨f' + 1, hok⟩, slice.take n, [], _, _, _, ?_, ?_, ?_, one', ?_⟩
            · rw [e2]; rfl
            · rw [List.append_nil]; exact List.take_prefix ..
            · intro hx
              rw [hx] at htl
              simp at htl; omega
            · left
              rw [e2]
              have hbl : (w.fill (slice.take n)).buffer.length = 256 := by
                show (put w.buffer w.offset (slice.take n)).length = 256
                have := hr.offset
                have := hr.buffer
                rw [put_length _ _ _ (by omega)]; omega
              exact ⟨rfl, rfl, w.fill (slice.take n), hbl, hfo, by omega, by omega, rfl, rfl, rfl⟩
          | true =>
            rw [hok, if_pos rfl] at e2
            obtain ⟨segs', D', os, pre, c1⟩ := extendLoop_spec' (rng := rng) (f' + 1 + 1 + 1) segs w D m dev (slice.take n) h (by rw [htl]; split <;> omega)
            have one2 : w.extendLoop crc rng (f' + 1 + 1 + 1) m dev (slice.take n) = (.ok (), { w.fill (slice.take n) with buffer := blankPage, offset := 0 }, m, dev.ops [pageOp crc (w.fill (slice.take n))]) := by
              rw [(loop_page crc rng ok (f' + 1 + 1) m dev (slice := slice.take n) hr (by omega) hn.symm (by omega)).1, List.drop_eq_nil_of_le (by omega), extendLoop_zero, List.take_take, Nat.min_self]
            rw [one2] at c1
            have hst2 := c1.st
            rcases ih _ _ _ _ _ (slice.drop n) hst2 (by
              have : ({ w.fill (slice.take n) with buffer := blankPage, offset := 0 } : FileWriter).len = w.len + n := hfl
              rw [List.length_drop, this, if_neg (by omega)]; omega) with g | ⟨g0, taken, d, w0, m0, dev0, g⟩
            · left
              rw [e1, e2]; exact g
            · right
              refine ⟨g0, slice.take n ++ taken, d, w0, m0, dev0, ?_⟩
              rw [e2]
              refine ⟨g.res, ?_, ?_, ?_, g.stuck⟩
              · obtain ⟨q, hq⟩ := g.pre
                exact ⟨q, by rw [List.append_assoc, List.append_assoc, ← List.append_assoc taken, hq, List.take_append_drop]⟩
              · intro hx
                have := (List.append_eq_nil_iff.mp hx).1
                rw [this] at htl
                simp at htl; omega
              · rw [one taken]; exact g.loop
    · have : slice = [] := List.eq_nil_of_length_eq_zero (by omega)
      subst this
      left
      rw [extendLoop_zero, extendLoopF_nil]
      rfl

end Verif.Vlfs
