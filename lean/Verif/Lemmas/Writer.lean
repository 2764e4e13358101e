import Verif.Lemmas.Touch
import Verif.Lemmas.WriteOnce
/-
The writer: what is on the chip and in the page buffer while a file is written.
-/
namespace Verif.Vlfs
open Verif Verif.Spec

/-- bytes `c` in a page buffer, rest 0xFF -/
def bufOf (c : Bytes) : Bytes := c ++ List.replicate (256 - c.length) 0xFF

theorem bufOf_length (c : Bytes) (h : c.length ≤ 256) : (bufOf c).length = 256 := by simp [bufOf]; omega
theorem bufOf_getD (c : Bytes) (i : Nat) : (bufOf c).getD i 0xFF = c.getD i 0xFF := getD_append_ff _ _ _
theorem bufOf_nil : bufOf [] = blankPage := by unfold bufOf blankPage; rw [List.nil_append, List.length_nil]

theorem ext_getD {a b : Bytes} (hl : a.length = b.length) (h : ∀ i, i < a.length → a.getD i 0xFF = b.getD i 0xFF) : a = b := by
  apply List.ext_getElem hl
  intro i h1 h2
  have := h i h1
  simpa [List.getD_eq_getElem?_getD, List.getElem?_eq_getElem h1, List.getElem?_eq_getElem h2] using this

theorem getD_append (a b : Bytes) (i : Nat) : (a ++ b).getD i 0xFF = if i < a.length then a.getD i 0xFF else b.getD (i - a.length) 0xFF := by
  simp only [List.getD_eq_getElem?_getD]
  split
  · rw [List.getElem?_append_left (by assumption)]
  · rw [List.getElem?_append_right (by omega)]

theorem getD_of_le (a : Bytes) (i : Nat) (h : a.length ≤ i) : a.getD i 0xFF = 0xFF := by
  rw [List.getD_eq_getElem?_getD, List.getElem?_eq_none h]; rfl

/-- appending to a page buffer -/
theorem put_bufOf (c d : Bytes) (h : c.length + d.length ≤ 256) : put (bufOf c) c.length d = bufOf (c ++ d) := by
  have hc := bufOf_length c (by omega)
  have hcd := bufOf_length (c ++ d) (by rw [List.length_append]; omega)
  apply ext_getD
  · rw [put_length _ _ _ (by omega), hc, hcd]
  · intro i hi
    rw [put_getD _ _ _ (by omega), bufOf_getD, bufOf_getD, getD_append]
    by_cases h1 : i < c.length
    · rw [if_neg (by omega), if_pos h1]
    · rw [if_neg h1]
      by_cases h2 : i < c.length + d.length
      · rw [if_pos (by omega)]
      · rw [if_neg (by omega), getD_of_le _ _ (by omega), getD_of_le _ _ (by omega)]

/-- the page buffer padded to a multiple of 4 is `pad4` -/
theorem bufOf_take_pad (c : Bytes) (h : c.length ≤ 252) : (bufOf c).take ((c.length + 3) / 4 * 4) = pad4 c := by
  have hc := bufOf_length c (by omega)
  apply ext_getD
  · rw [List.length_take, hc, pad4_length]; omega
  · intro i hi
    rw [List.length_take, hc] at hi
    rw [getD_take, if_pos (by omega), bufOf_getD]
    unfold pad4
    rw [getD_append_ff]

/-- the page buffer with the CRC put behind the data -/
theorem put_crc (crc : Bytes → UInt32) (c : Bytes) (h : c.length ≤ 252) (i : Nat) :
    (put (bufOf c) ((c.length + 3) / 4 * 4) (beBytes 4 (crc ((bufOf c).take ((c.length + 3) / 4 * 4))).toNat)).getD i 0xFF
      = (dataImage crc c).getD i 0xFF := by
  have hc := bufOf_length c (by omega)
  rw [bufOf_take_pad c h, put_getD _ _ _ (by rw [beBytes_length, hc]; omega), beBytes_length, dataImage, getD_append, pad4_length, bufOf_getD]
  by_cases h1 : i < (c.length + 3) / 4 * 4
  · rw [if_neg (by omega), if_pos h1]
    unfold pad4
    rw [getD_append_ff]
  · rw [if_neg h1]
    by_cases h2 : i < (c.length + 3) / 4 * 4 + 4
    · rw [if_pos (by omega)]
    · rw [if_neg (by omega), getD_of_le c i (by omega), getD_of_le _ _ (by rw [beBytes_length]; omega)]

/-- State of a writer: `D` are the bytes appended to the current sector; pages below `k` are on the chip, the rest is in
the page buffer and the rest of the sector is blank. -/
structure WBuf (crc : Bytes → UInt32) (fl : Flash) (w : FileWriter) (D : Bytes) (k : Nat) : Prop where
  len : w.len = D.length
  lo : 252 * k ≤ D.length
  hi : D.length ≤ 252 * k + 252
  max : D.length ≤ 4016
  k15 : k ≤ 15
  offset : w.offset = D.length - 252 * k
  buffer : w.buffer = bufOf (D.drop (252 * k))
  pages : ∀ p, p < k → ∀ i, i < 256 → fl (w.sector * 4096 + 256 * p + i) = (dataImage crc (chunk D p)).getD i 0xFF
  blank : ∀ j, 256 * k ≤ j → j < 4096 → fl (w.sector * 4096 + j) = 0xFF

/-- a writer between two calls -/
def WInv (crc : Bytes → UInt32) (fl : Flash) (w : FileWriter) (D : Bytes) : Prop := WBuf crc fl w D (D.length / 252)

theorem WBuf.congr {crc : Bytes → UInt32} {f g : Flash} {w : FileWriter} {D : Bytes} {k : Nat} (h : WBuf crc f w D k)
    (hs : SameSector f g w.sector) : WBuf crc g w D k := by
  have hk := h.k15
  refine ⟨h.len, h.lo, h.hi, h.max, h.k15, h.offset, h.buffer, ?_, ?_⟩
  · intro p hp i hi
    rw [← h.pages p hp i hi, Nat.add_assoc]
    exact (hs _ (by omega)).symm
  · intro j h1 h2
    rw [← hs j h2]; exact h.blank j h1 h2

/-- a new writer on a blank sector -/
theorem WInv.new {crc : Bytes → UInt32} {fl : Flash} (w : FileWriter) (h1 : w.buffer = blankPage) (h2 : w.offset = 0) (h3 : w.len = 0)
    (hb : ∀ j, j < 4096 → fl (w.sector * 4096 + j) = 0xFF) : WInv crc fl w [] := by
  refine ⟨by simpa using h3, by simp, by simp, by simp, by simp, by simpa using h2, ?_, ?_, ?_⟩
  · rw [h1]; exact bufOf_nil.symm
  · intro p hp; simp at hp
  · intro j _ hj; exact hb j hj

theorem chunk_append {D d : Bytes} {p : Nat} (h : 252 * p + 252 ≤ D.length) : chunk (D ++ d) p = chunk D p := by
  unfold chunk
  rw [List.drop_append_of_le_length (by omega), List.take_append_of_le_length (by rw [List.length_drop]; omega)]

/-- appending to the page buffer -/
theorem WBuf.append {crc : Bytes → UInt32} {fl : Flash} {w : FileWriter} {D : Bytes} {k : Nat} (h : WBuf crc fl w D k) (d : Bytes)
    (h1 : D.length + d.length ≤ 252 * k + 252) (h2 : D.length + d.length ≤ 4016) :
    WBuf crc fl { w with buffer := put w.buffer w.offset d, offset := w.offset + d.length, len := w.len + d.length } (D ++ d) k := by
  have hlo := h.lo
  have hoff := h.offset
  have hlen := h.len
  refine ⟨?_, ?_, ?_, ?_, h.k15, ?_, ?_, ?_, ?_⟩
  · simp [hlen]
  · simp; omega
  · simp; omega
  · simp; omega
  · simp [hoff]; omega
  · show put w.buffer w.offset d = _
    have e : w.offset = (D.drop (252 * k)).length := by rw [List.length_drop]; omega
    rw [h.buffer, e, put_bufOf _ _ (by rw [List.length_drop]; omega), List.drop_append_of_le_length (by omega)]
  · intro p hp i hi
    rw [chunk_append (by omega)]
    exact h.pages p hp i hi
  · exact h.blank

/-- the part of the data in the page buffer is the last chunk -/
theorem chunk_last {D : Bytes} {k : Nat} (h : D.length ≤ 252 * k + 252) : chunk D k = D.drop (252 * k) := by
  unfold chunk
  rw [List.take_of_length_le (by rw [List.length_drop]; omega)]

/-- the page that is programmed when the buffer is written out -/
def pageOp (crc : Bytes → UInt32) (w : FileWriter) : FlashOp :=
  .page w.pageAddress (put w.buffer ((w.offset + 3) / 4 * 4) (beBytes 4 (crc (w.buffer.take ((w.offset + 3) / 4 * 4))).toNat))

theorem WBuf.pageAddress {crc : Bytes → UInt32} {fl : Flash} {w : FileWriter} {D : Bytes} {k : Nat} (h : WBuf crc fl w D k)
    (hp : 252 * k < D.length) : w.pageAddress = w.sector * 4096 + 256 * k := by
  have hhi := h.hi
  unfold FileWriter.pageAddress
  rw [h.len, if_neg (by omega), show (D.length - 1) / 252 = k by omega]
  unfold SECTOR_SIZE
  omega

/-- content of the page programmed when the buffer is written out -/
theorem WBuf.image {crc : Bytes → UInt32} {fl : Flash} {w : FileWriter} {D : Bytes} {k : Nat} (h : WBuf crc fl w D k) (i : Nat) :
    (put w.buffer ((w.offset + 3) / 4 * 4) (beBytes 4 (crc (w.buffer.take ((w.offset + 3) / 4 * 4))).toNat)).getD i 0xFF
      = (dataImage crc (chunk D k)).getD i 0xFF := by
  have hlo := h.lo
  have hhi := h.hi
  have e : w.offset = (D.drop (252 * k)).length := by rw [List.length_drop, h.offset]
  rw [h.buffer, e, put_crc crc _ (by rw [List.length_drop]; omega), chunk_last hhi]

/-- writing out a full page -/
theorem WBuf.page {crc : Bytes → UInt32} {fl : Flash} {w : FileWriter} {D : Bytes} {k : Nat} (h : WBuf crc fl w D k)
    (hp : D.length = 252 * k + 252) (hk : k < 15) :
    WBuf crc ((pageOp crc w).apply fl) { w with buffer := blankPage, offset := 0 } D (k + 1) := by
  have hpa := h.pageAddress (by omega)
  have hnt : ∀ j, (j < 256 * k ∨ 256 * k + 256 ≤ j) → (pageOp crc w).apply fl (w.sector * 4096 + j) = fl (w.sector * 4096 + j) := by
    intro j hj
    refine apply_untouched ?_
    show ¬ (w.pageAddress ≤ w.sector * 4096 + j ∧ w.sector * 4096 + j < w.pageAddress + 256)
    rw [hpa]; omega
  refine ⟨h.len, by omega, by omega, h.max, by omega, ?_, ?_, ?_, ?_⟩
  · show 0 = _; omega
  · show blankPage = _
    rw [List.drop_eq_nil_of_le (by omega), bufOf_nil]
  · intro p hp i hi
    show (pageOp crc w).apply fl (w.sector * 4096 + 256 * p + i) = _
    by_cases h1 : p < k
    · rw [Nat.add_assoc, hnt _ (by omega), ← Nat.add_assoc]
      exact h.pages p h1 i hi
    · have : p = k := by omega
      subst this
      unfold pageOp
      rw [hpa, apply_page_blank (fun i hi => by rw [Nat.add_assoc]; exact h.blank _ (by omega) (by omega)) i hi, h.image]
  · intro j h1 h2
    show (pageOp crc w).apply fl (w.sector * 4096 + j) = _
    rw [hnt _ (by omega)]
    exact h.blank j (by omega) h2

/-! ### finishing a sector -/

/-- nothing written yet to the last 16 bytes: the sector reads as empty and last -/
theorem secHolds_blank {crc : Bytes → UInt32} {fl : Flash} {s : Nat} (h : ∀ j, 4080 ≤ j → j < 4096 → fl (s * 4096 + j) = 0xFF) :
    SecHolds crc fl s [] 0xFFFF := by
  have h1 : mostCommonU16 (fl.read (s * 4096 + 4080) 8) = some 0xFFFF :=
    mostCommon_blank fun i hi => by rw [Nat.add_assoc]; exact h _ (by omega) (by omega)
  have h2 : mostCommonU16 (fl.read (s * 4096 + 4096 - 8) 8) = some 0xFFFF :=
    mostCommon_blank fun i hi => by rw [show s * 4096 + 4096 - 8 + i = s * 4096 + (4088 + i) by omega]; exact h _ (by omega) (by omega)
  exact ⟨by rw [sectorItems_blank h1 (by omega)]; rfl, h2, _, h1, .inr ⟨rfl, rfl⟩⟩

/-- the outcomes of finishing a sector -/
inductive Finish (crc : Bytes → UInt32) (fl : Flash) (s : Nat) (D : Bytes) (next : Nat) : Prop
  | empty (h : SecHolds crc fl s [] 0xFFFF)
  | noNext (h : SecHolds crc fl s D 0xFFFF)
  | full (h : SecHolds crc fl s D next)

/-- the last page is cut off after `t` bytes; when more than 240 bytes have been written the data is complete -/
theorem finish_torn {crc : Bytes → UInt32} {fl : Flash} {s t next : Nat} {D : Bytes} (hD : D.length ≤ 4016) (hn : next < 65536)
    (h1 : ∀ i, i < 8 → fl (s * 4096 + 4080 + i) = tornField D.length (t - 240) i)
    (h2 : ∀ i, i < 8 → fl (s * 4096 + 4088 + i) = tornField next (t - 248) i)
    (hp : 240 < t → ∀ p, 252 * p < D.length → ∀ i, i < ((chunk D p).length + 3) / 4 * 4 + 4 →
      fl (s * 4096 + 256 * p + i) = (dataImage crc (chunk D p)).getD i 0xFF) :
    Finish crc fl s D next ∧ (252 ≤ t → SecHolds crc fl s D next) := by
  have e : s * 4096 + 4096 - 8 = s * 4096 + 4088 := by omega
  obtain ⟨a1, a2, a3⟩ := mostCommon_torn (v := D.length) (t := t - 240) (by omega) h1
  obtain ⟨b1, b2, b3⟩ := mostCommon_torn (v := next) (t := t - 248) hn h2
  have items : 240 < t → mostCommonU16 (fl.read (s * 4096 + 4080) 8) = some D.length → sectorItems crc fl s = D.map .byte :=
    fun ht hl => sectorItems_of hD hl (hp ht)
  refine ⟨?_, ?_⟩
  · by_cases ht : 244 ≤ t
    · have hl := a2 (by omega)
      have hi := items (by omega) hl
      rcases b1 with hb | hb
      · exact .full ⟨hi, by rw [e]; exact hb, _, hl, .inl ⟨rfl, hD⟩⟩
      · exact .noNext ⟨hi, by rw [e]; exact hb, _, hl, .inl ⟨rfl, hD⟩⟩
    · have hb := b3 (by omega)
      rcases a1 with hl | hl
      · by_cases ht0 : 240 < t
        · exact .noNext ⟨items ht0 hl, by rw [e]; exact hb, _, hl, .inl ⟨rfl, hD⟩⟩
        · have hl := a3 (by omega)
          exact .empty ⟨by rw [sectorItems_blank hl (by omega)]; rfl, by rw [e]; exact hb, _, hl, .inr ⟨rfl, rfl⟩⟩
      · exact .empty ⟨by rw [sectorItems_blank hl (by omega)]; rfl, by rw [e]; exact hb, _, hl, .inr ⟨rfl, rfl⟩⟩
  · intro ht
    have hl := a2 (by omega)
    exact ⟨items (by omega) hl, by rw [e]; exact b2 (by omega), _, hl, .inl ⟨rfl, hD⟩⟩

/-- content of a page buffer with length and next pointer put in -/
theorem meta_getD (buf : Bytes) (hb : buf.length = 256) (n next i : Nat) :
    (put (put buf 240 (u16x4 n)) 248 (u16x4 next)).getD i 0xFF =
      if 248 ≤ i ∧ i < 256 then (u16x4 next).getD (i - 248) 0xFF
      else if 240 ≤ i ∧ i < 248 then (u16x4 n).getD (i - 240) 0xFF else buf.getD i 0xFF := by
  have h1 : (put buf 240 (u16x4 n)).length = 256 := by rw [put_length _ _ _ (by rw [u16x4_length]; omega), hb]
  rw [put_getD _ _ _ (by rw [u16x4_length]; omega), put_getD _ _ _ (by rw [u16x4_length]; omega), u16x4_length, u16x4_length]

/-- programming the last page of a sector, complete or cut off. `buf` is the page buffer before length and next pointer
were put in; `img` what ends up in the page. -/
theorem lastPage_torn {crc : Bytes → UInt32} {fl : Flash} {s next t : Nat} {D : Bytes} {img : Bytes} (hD : D.length ≤ 4016) (hn : next < 65536)
    (hb : ∀ j, 3840 ≤ j → j < 4096 → fl (s * 4096 + j) = 0xFF)
    (hl : ∀ i, i < 8 → img.getD (240 + i) 0xFF = (u16x4 D.length).getD i 0xFF)
    (hx : ∀ i, i < 8 → img.getD (248 + i) 0xFF = (u16x4 next).getD i 0xFF)
    (hp : ∀ p, 252 * p < D.length → p < 15 → ∀ i, i < 256 → fl (s * 4096 + 256 * p + i) = (dataImage crc (chunk D p)).getD i 0xFF)
    (hq : 252 * 15 < D.length → ∀ i, i < 240 → img.getD i 0xFF = (dataImage crc (chunk D 15)).getD i 0xFF) :
    let fl' := (FlashOp.page (s * 4096 + 3840) (img.take t)).apply fl
    Finish crc fl' s D next ∧ (252 ≤ t → SecHolds crc fl' s D next) := by
  intro fl'
  have hin : ∀ i, i < 256 → fl' (s * 4096 + 3840 + i) = (img.take t).getD i 0xFF :=
    fun i hi => apply_page_blank (fun i hi => by rw [Nat.add_assoc]; exact hb _ (by omega) (by omega)) i hi
  refine finish_torn (t := t) hD hn ?_ ?_ ?_
  · intro i hi
    rw [show s * 4096 + 4080 + i = s * 4096 + 3840 + (240 + i) by omega, hin _ (by omega), getD_take]
    unfold tornField
    by_cases h : 240 + i < t
    · rw [if_pos h, if_pos (by omega), hl i hi]
    · rw [if_neg h, if_neg (by omega)]
  · intro i hi
    rw [show s * 4096 + 4088 + i = s * 4096 + 3840 + (248 + i) by omega, hin _ (by omega), getD_take]
    unfold tornField
    by_cases h : 248 + i < t
    · rw [if_pos h, if_pos (by omega), hx i hi]
    · rw [if_neg h, if_neg (by omega)]
  · intro ht p hpl i hi
    have hcl := chunk_length D p
    by_cases h15 : p < 15
    · rw [← hp p hpl h15 i (by omega)]
      refine apply_untouched ?_
      show ¬ (s * 4096 + 3840 ≤ s * 4096 + 256 * p + i ∧ _)
      omega
    · have : p = 15 := by omega
      subst this
      rw [show s * 4096 + 256 * 15 + i = s * 4096 + 3840 + i by omega, hin _ (by omega), getD_take, if_pos (by omega), hq hpl i (by omega)]

theorem put_take (buf : Bytes) (off o : Nat) (d : Bytes) (h : o ≤ off) (h2 : off ≤ buf.length) : (put buf off d).take o = buf.take o := by
  unfold put
  rw [List.append_assoc, List.take_append_of_le_length (by rw [List.length_take]; omega), List.take_take, Nat.min_eq_left h]

/-- length and next pointer do not interfere with the data -/
theorem lastImage (crc : Bytes → UInt32) (buf : Bytes) (hb : buf.length = 256) (n next o i : Nat) (ho : o ≤ 236) :
    let b := put (put buf 240 (u16x4 n)) 248 (u16x4 next)
    (put b o (beBytes 4 (crc (b.take o)).toNat)).getD i 0xFF =
      if 248 ≤ i ∧ i < 256 then (u16x4 next).getD (i - 248) 0xFF
      else if 240 ≤ i ∧ i < 248 then (u16x4 n).getD (i - 240) 0xFF
      else (put buf o (beBytes 4 (crc (buf.take o)).toNat)).getD i 0xFF := by
  intro b
  have h1 : (put buf 240 (u16x4 n)).length = 256 := by rw [put_length _ _ _ (by rw [u16x4_length]; omega), hb]
  have h2 : b.length = 256 := by rw [put_length _ _ _ (by rw [u16x4_length]; omega), h1]
  have h3 : b.take o = buf.take o := by
    rw [put_take _ _ _ _ (by omega) (by omega), put_take _ _ _ _ (by omega) (by omega)]
  rw [h3, put_getD b o _ (by rw [beBytes_length]; omega), put_getD buf o _ (by rw [beBytes_length]; omega), beBytes_length,
    meta_getD buf hb]
  by_cases h4 : o ≤ i ∧ i < o + 4
  · rw [if_pos h4, if_pos h4, if_neg (by omega), if_neg (by omega)]
  · rw [if_neg h4, if_neg h4]

/-- what `_flush` does -/
structure FlushSpec (crc : Bytes → UInt32) (w : FileWriter) (D : Bytes) (next : Nat) (dev : Dev) (os : List FlashOp) : Prop where
  res : w.flushTo crc next dev = (⟨blankPage, 0, 0, w.sector, w.id⟩, dev.ops os)
  touch : ∀ o ∈ os, ∀ a, o.touches a → a / 4096 = w.sector
  done : SecHolds crc (applyOps dev.flash os) w.sector D next
  crash : ∀ fl', CrashImage dev.flash os fl' → Finish crc fl' w.sector D next
  ok : w.sector < 16384 → OpsOk dev.flash os

theorem flushTo_meta {crc : Bytes → UInt32} {dev : Dev} {s next : Nat} {D : Bytes} {buf : Bytes} (hD : D.length ≤ 4016) (hn : next < 65536)
    (hbuf : buf.length = 256)
    (hb : ∀ j, 3840 ≤ j → j < 4096 → dev.flash (s * 4096 + j) = 0xFF)
    (hp : ∀ p, 252 * p < D.length → p < 15 → ∀ i, i < 256 → dev.flash (s * 4096 + 256 * p + i) = (dataImage crc (chunk D p)).getD i 0xFF)
    (hq : ¬ 252 * 15 < D.length) :
    let o := FlashOp.page (s * 4096 + 3840) (put (put buf 240 (u16x4 D.length)) 248 (u16x4 next))
    SecHolds crc (o.apply dev.flash) s D next ∧ ∀ fl', CrashImage dev.flash [o] fl' → Finish crc fl' s D next := by
  intro o
  have key := fun t => lastPage_torn (t := t) (crc := crc) hD hn hb
    (img := put (put buf 240 (u16x4 D.length)) 248 (u16x4 next))
    (fun i hi => by rw [meta_getD buf hbuf, if_neg (by omega), if_pos (by omega), Nat.add_sub_cancel_left])
    (fun i hi => by rw [meta_getD buf hbuf, if_pos (by omega), Nat.add_sub_cancel_left]) hp (fun h => absurd h hq)
  have hlen : (put (put buf 240 (u16x4 D.length)) 248 (u16x4 next)).length = 256 := by
    rw [put_length _ _ _ (by rw [put_length _ _ _ (by rw [u16x4_length]; omega), u16x4_length]; omega),
      put_length _ _ _ (by rw [u16x4_length]; omega), hbuf]
  refine ⟨?_, ?_⟩
  · have := (key 256).2 (by omega)
    rw [List.take_of_length_le (by omega)] at this
    exact this
  · intro fl' hc
    obtain ⟨t, rfl⟩ := crash_page hc
    exact (key t).1

theorem flushTo_spec {crc : Bytes → UInt32} {w : FileWriter} {D : Bytes} {dev : Dev} {next : Nat} (h : WInv crc dev.flash w D)
    (hn : next < 65536) : ∃ os, FlushSpec crc w D next dev os := by
  have hlen := h.len
  have hlo := h.lo
  have hhi := h.hi
  have hmax := h.max
  have hoff := h.offset
  have hbl : w.buffer.length = 256 := by
    rw [h.buffer, bufOf_length _ (by rw [List.length_drop]; omega)]
  have hs1 : w.sector * SECTOR_SIZE + (SECTOR_SIZE - PAGE_SIZE) = w.sector * 4096 + 3840 := by
    show w.sector * 4096 + (4096 - 256) = _; omega
  have tch : ∀ d : Bytes, ∀ a, (FlashOp.page (w.sector * 4096 + 3840) d).touches a → a / 4096 = w.sector := by
    intro d a ha
    have : w.sector * 4096 + 3840 ≤ a ∧ a < w.sector * 4096 + 3840 + 256 := ha
    omega
  have hml : ∀ (buf : Bytes) (n : Nat), buf.length = 256 → (put (put buf 240 (u16x4 n)) 248 (u16x4 next)).length = 256 := by
    intro buf n hb
    rw [put_length _ _ _ (by rw [put_length _ _ _ (by rw [u16x4_length]; omega), u16x4_length]; omega),
      put_length _ _ _ (by rw [u16x4_length]; omega), hb]
  have lastOk : ∀ (fl : Flash) (d : Bytes), w.sector < 16384 → d.length = 256 → (∀ j, 3840 ≤ j → j < 4096 → fl (w.sector * 4096 + j) = 0xFF) →
      OpOk fl (.page (w.sector * 4096 + 3840) d) :=
    fun fl d hs hd hb => opOk_page (p := 15) hs (by omega) (by omega) (fun i hi => by rw [Nat.add_assoc]; exact hb _ (by omega) (by omega))
  by_cases h0 : D.length = 0
  · have hw0 : w.len = 0 := by omega
    have hw1 : w.offset = 0 := by omega
    obtain ⟨a1, a2⟩ := flushTo_meta (crc := crc) (dev := dev) (s := w.sector) (D := D) (buf := w.buffer) hmax hn hbl
      (fun j h1 h2 => h.blank j (by omega) h2) (fun p hp => by omega) (by omega)
    refine ⟨[.page (w.sector * 4096 + 3840) (put (put w.buffer 240 (u16x4 D.length)) 248 (u16x4 next))], ⟨?_, ?_, a1, a2,
      fun hs => opsOk_one (lastOk _ _ hs (hml _ _ hbl) fun j h1 h2 => h.blank j (by omega) h2)⟩⟩
    · unfold FileWriter.flushTo
      rw [if_pos hw0, hs1]
      unfold FileWriter.writePage FileWriter.writeMeta
      simp only [hlen, h0, Dev.op_eq_ops]
    · intro o ho a ha
      rw [List.mem_singleton.mp ho] at ha
      exact tch _ a ha
  · by_cases h15 : 252 * 15 < D.length
    · -- last data page
      have hk : D.length / 252 = 15 := by omega
      have hpa := h.pageAddress (by omega)
      rw [hk] at hpa hlo hhi hoff
      have ho : (w.offset + 3) / 4 * 4 ≤ 236 := by omega
      let img := put (put (put w.buffer 240 (u16x4 w.len)) 248 (u16x4 next)) ((w.offset + 3) / 4 * 4)
        (beBytes 4 (crc ((put (put w.buffer 240 (u16x4 w.len)) 248 (u16x4 next)).take ((w.offset + 3) / 4 * 4))).toNat)
      have himg : ∀ i, img.getD i 0xFF = _ := fun i => lastImage crc w.buffer hbl w.len next ((w.offset + 3) / 4 * 4) i ho
      have hil : img.length = 256 := by
        have e1 : (put w.buffer 240 (u16x4 w.len)).length = 256 := by rw [put_length _ _ _ (by rw [u16x4_length]; omega), hbl]
        have e2 : (put (put w.buffer 240 (u16x4 w.len)) 248 (u16x4 next)).length = 256 := by
          rw [put_length _ _ _ (by rw [u16x4_length]; omega), e1]
        show (put _ _ _).length = 256
        rw [put_length _ _ _ (by rw [beBytes_length]; omega), e2]
      have key := fun t => lastPage_torn (t := t) (crc := crc) hmax hn (img := img) (fl := dev.flash) (s := w.sector) (D := D)
        (fun j h1 h2 => h.blank j (by omega) h2)
        (fun i hi => by rw [himg, if_neg (by omega), if_pos (by omega), Nat.add_sub_cancel_left, hlen])
        (fun i hi => by rw [himg, if_pos (by omega), Nat.add_sub_cancel_left])
        (fun p hp h1 => h.pages p (by omega))
        (fun _ i hi => by rw [himg, if_neg (by omega), if_neg (by omega)]; have := h.image (crc := crc) i; rw [hk] at this; exact this)
      refine ⟨[.page (w.sector * 4096 + 3840) img], ⟨?_, ?_, ?_, ?_,
        fun hs => opsOk_one (lastOk _ _ hs hil fun j h1 h2 => h.blank j (by omega) h2)⟩⟩
      · unfold FileWriter.flushTo
        have hil2 : w.isLastDataPage = true := by unfold FileWriter.isLastDataPage; exact decide_eq_true (by omega)
        rw [if_neg (by omega)]
        simp only [hil2, if_true, hpa]
        rfl
      · intro o ho a ha
        rw [List.mem_singleton.mp ho] at ha
        exact tch _ a ha
      · have := (key 256).2 (by omega)
        rw [List.take_of_length_le (by omega)] at this
        exact this
      · intro fl' hc
        obtain ⟨t, rfl⟩ := crash_page hc
        exact (key t).1
    · have hil2 : w.isLastDataPage = false := by unfold FileWriter.isLastDataPage; exact decide_eq_false (by omega)
      by_cases ho : w.offset > 0
      · -- a partial page, then the last page
        obtain ⟨k, hk⟩ : ∃ k, k = D.length / 252 := ⟨_, rfl⟩
        have h' : WBuf crc dev.flash w D k := hk ▸ h
        rw [← hk] at hlo hhi hoff
        have hpa := h'.pageAddress (by omega)
        have hfl : ∀ j, (j < 256 * k ∨ 256 * k + 256 ≤ j) → (pageOp crc w).apply dev.flash (w.sector * 4096 + j) = dev.flash (w.sector * 4096 + j) := by
          intro j hj
          refine apply_untouched ?_
          show ¬ (w.pageAddress ≤ w.sector * 4096 + j ∧ w.sector * 4096 + j < w.pageAddress + 256)
          rw [hpa]; omega
        have hkb : k < 15 := by omega
        obtain ⟨a1, a2⟩ := flushTo_meta (crc := crc) (dev := dev.op (pageOp crc w)) (s := w.sector) (D := D) (buf := blankPage) hmax hn
          (by unfold blankPage; rw [List.length_replicate])
          (fun j h1 h2 => by
            show (pageOp crc w).apply dev.flash _ = _
            rw [hfl _ (by omega)]; exact h'.blank j (by omega) h2)
          (fun p hp h1 i hi => by
            show (pageOp crc w).apply dev.flash _ = _
            by_cases hpk : p < k
            · rw [Nat.add_assoc, hfl _ (by omega), ← Nat.add_assoc]; exact h'.pages p hpk i hi
            · have hpe : p = k := by omega
              rw [hpe]
              unfold pageOp
              rw [hpa, apply_page_blank (fun i hi => by rw [Nat.add_assoc]; exact h'.blank _ (by omega) (by omega)) i hi, h'.image])
          h15
        refine ⟨[pageOp crc w] ++ [.page (w.sector * 4096 + 3840) (put (put blankPage 240 (u16x4 D.length)) 248 (u16x4 next))], ⟨?_, ?_, by rw [applyOps_append]; exact a1, ?_, fun hs => opsOk_append (opsOk_one ?_) (opsOk_one (lastOk _ _ hs (hml _ _ (by unfold blankPage; rw [List.length_replicate])) fun j h1 h2 => ?_))⟩⟩
        · unfold FileWriter.flushTo
          rw [if_neg (by omega)]
          simp only [hil2, if_pos ho]
          unfold FileWriter.writePage FileWriter.writeMeta
          simp only [hs1, hlen]
          rw [← Dev.ops_ops, ← Dev.op_eq_ops, ← Dev.op_eq_ops]
          simp [pageOp]
        · intro o ho a ha
          rcases List.mem_append.mp ho with ho | ho
          · rw [List.mem_singleton.mp ho] at ha
            have : w.pageAddress ≤ a ∧ a < w.pageAddress + 256 := ha
            rw [hpa] at this
            omega
          · rw [List.mem_singleton.mp ho] at ha
            exact tch _ a ha
        · intro fl' hc
          rcases crash_append hc with hc | hc
          · obtain ⟨t, rfl⟩ := crash_page hc
            refine .empty (secHolds_blank fun j h1 h2 => ?_)
            rw [← h'.blank j (by omega) h2]
            refine apply_untouched ?_
            show ¬ (w.pageAddress ≤ w.sector * 4096 + j ∧ w.sector * 4096 + j < w.pageAddress + 256)
            rw [hpa]; omega
          · exact a2 _ hc
        · unfold pageOp
          rw [hpa]
          refine opOk_page hs (by omega) ?_ (fun i hi => by rw [Nat.add_assoc]; exact h'.blank _ (by omega) (by omega))
          rw [put_length _ _ _ (by rw [beBytes_length]; omega)]; omega
        · show (pageOp crc w).apply dev.flash _ = _
          rw [hfl _ (by omega)]; exact h'.blank j (by omega) h2
      · obtain ⟨a1, a2⟩ := flushTo_meta (crc := crc) (dev := dev) (s := w.sector) (D := D) (buf := w.buffer) hmax hn hbl
          (fun j h1 h2 => h.blank j (by omega) h2) (fun p hp h1 i hi => h.pages p (by omega) i hi) h15
        refine ⟨[.page (w.sector * 4096 + 3840) (put (put w.buffer 240 (u16x4 D.length)) 248 (u16x4 next))], ⟨?_, ?_, a1, a2,
          fun hs => opsOk_one (lastOk _ _ hs (hml _ _ hbl) fun j h1 h2 => h.blank j (by omega) h2)⟩⟩
        · unfold FileWriter.flushTo
          rw [if_neg (by omega)]
          simp only [hil2, if_neg ho]
          unfold FileWriter.writePage FileWriter.writeMeta
          simp only [hs1, hlen, Dev.op_eq_ops]
          simp
        · intro o ho a ha
          rw [List.mem_singleton.mp ho] at ha
          exact tch _ a ha

end Verif.Vlfs
