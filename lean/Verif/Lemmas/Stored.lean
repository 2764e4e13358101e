import Verif.Lemmas.Reader
import Verif.Lemmas.DirOps
import Verif.Spec.Crash
/-
How file data lies in a sector, and what a reader finds there.
-/
namespace Verif.Vlfs
open Verif Verif.Spec

/-! ### buffers -/

theorem put_length (buf : Bytes) (off : Nat) (d : Bytes) (h : off + d.length ≤ buf.length) : (put buf off d).length = buf.length := by
  simp [put, List.length_take, List.length_drop]; omega

theorem put_getD (buf : Bytes) (off : Nat) (d : Bytes) (h : off + d.length ≤ buf.length) (i : Nat) :
    (put buf off d).getD i 0xFF = if off ≤ i ∧ i < off + d.length then d.getD (i - off) 0xFF else buf.getD i 0xFF := by
  unfold put
  simp only [List.getD_eq_getElem?_getD]
  have hl : (buf.take off).length = off := by rw [List.length_take]; omega
  by_cases h1 : i < off
  · rw [if_neg (by omega), List.append_assoc, List.getElem?_append_left (by omega), List.getElem?_take_of_lt h1]
  · by_cases h2 : i < off + d.length
    · rw [if_pos (by omega), List.getElem?_append_left (by rw [List.length_append]; omega),
        List.getElem?_append_right (by omega), hl]
    · rw [if_neg (by omega), List.getElem?_append_right (by rw [List.length_append]; omega), List.length_append, hl,
        List.getElem?_drop]
      congr 2; omega

theorem getD_replicate_ff (n i : Nat) : (List.replicate n (0xFF : UInt8)).getD i 0xFF = 0xFF := by
  rw [List.getD_eq_getElem?_getD, List.getElem?_replicate]
  split <;> rfl

theorem getD_append_ff (l : Bytes) (n i : Nat) : (l ++ List.replicate n 0xFF).getD i 0xFF = l.getD i 0xFF := by
  rw [List.getD_eq_getElem?_getD, List.getD_eq_getElem?_getD]
  by_cases h : i < l.length
  · rw [List.getElem?_append_left h]
  · rw [List.getElem?_append_right (by omega), List.getElem?_eq_none (l := l) (by omega), List.getElem?_replicate]
    split <;> rfl

/-- data of a page, padded to a multiple of 4 -/
def pad4 (c : Bytes) : Bytes := c ++ List.replicate ((c.length + 3) / 4 * 4 - c.length) 0xFF

theorem pad4_length (c : Bytes) : (pad4 c).length = (c.length + 3) / 4 * 4 := by
  simp [pad4]; omega

theorem pad4_take (c : Bytes) : (pad4 c).take c.length = c := by
  unfold pad4; rw [List.take_left' rfl]

/-- data, padding, CRC -/
def dataImage (crc : Bytes → UInt32) (c : Bytes) : Bytes := pad4 c ++ beBytes 4 (crc (pad4 c)).toNat

theorem dataImage_length (crc : Bytes → UInt32) (c : Bytes) : (dataImage crc c).length = (c.length + 3) / 4 * 4 + 4 := by
  simp [dataImage, pad4_length, beBytes_length]

/-- content of page `p` of sector `s` -/
def PageIs (fl : Flash) (s p : Nat) (f : Nat → UInt8) : Prop := ∀ i, i < 256 → fl (s * 4096 + 256 * p + i) = f i

/-- the part of the data that goes to page `p` -/
def chunk (D : Bytes) (p : Nat) : Bytes := (D.drop (252 * p)).take 252

theorem chunk_length (D : Bytes) (p : Nat) : (chunk D p).length = min (D.length - 252 * p) 252 := by
  simp [chunk, List.length_take, List.length_drop]; omega

theorem flatMap_chunk (D : Bytes) (k : Nat) : (List.range k).flatMap (chunk D) = D.take (252 * k) := by
  induction k with
  | zero => simp
  | succ k ih =>
    rw [List.range_succ, List.flatMap_append, ih, List.flatMap_singleton]
    unfold chunk
    rw [Nat.mul_add, Nat.mul_one, List.take_add]

theorem Flash.read_eq_of_getD (fl : Flash) (a : Nat) (l : Bytes) (off n : Nat) (hn : off + n ≤ l.length)
    (h : ∀ i, i < n → fl (a + i) = l.getD (off + i) 0xFF) : fl.read a n = (l.drop off).take n := by
  have hlen : ((l.drop off).take n).length = n := by rw [List.length_take, List.length_drop]; omega
  have := Flash.read_eq_of fl a ((l.drop off).take n) (by
    rw [hlen]
    intro i hi
    rw [h i hi, List.getD_eq_getElem?_getD, List.getD_eq_getElem?_getD, List.getElem?_take_of_lt hi, List.getElem?_drop])
  rw [hlen] at this
  exact this

/-- a page that carries the image of its data reads as its data -/
theorem pageItems_of {crc : Bytes → UInt32} {fl : Flash} {s n p : Nat} {c : Bytes} (hc : c.length = min (n - 252 * p) 252)
    (h : ∀ i, i < (c.length + 3) / 4 * 4 + 4 → fl (s * 4096 + 256 * p + i) = (dataImage crc c).getD i 0xFF) :
    pageItems crc fl s n p = c.map .byte := by
  have hl := dataImage_length crc c
  have hpl := pad4_length c
  have e1 : fl.read (s * 4096 + 256 * p) ((c.length + 3) / 4 * 4) = pad4 c := by
    rw [Flash.read_eq_of_getD fl _ (dataImage crc c) 0 _ (by omega) (fun i hi => by rw [h i (by omega), Nat.zero_add])]
    unfold dataImage
    rw [List.drop_zero, List.take_left' hpl]
  have e2 : fl.read (s * 4096 + 256 * p + (c.length + 3) / 4 * 4) 4 = beBytes 4 (crc (pad4 c)).toNat := by
    rw [Flash.read_eq_of_getD fl _ (dataImage crc c) ((c.length + 3) / 4 * 4) 4 (by omega)
      (fun i hi => by rw [Nat.add_assoc, h _ (by omega)])]
    unfold dataImage
    rw [List.drop_left' hpl, List.take_of_length_le (Nat.le_of_eq (beBytes_length ..))]
  have e3 : fl.read (s * 4096 + 256 * p) c.length = c := by
    have : c.length ≤ (c.length + 3) / 4 * 4 := by omega
    rw [← Flash.read_take _ _ _ _ this, e1, pad4_take]
  unfold pageItems
  simp only [← hc]
  rw [e1, e2, e3, beNat_beBytes_of_lt (by have := (crc (pad4 c)).toNat_lt; simpa using this), if_pos rfl]

/-- a sector whose stored length is `n` and whose pages carry the data -/
theorem sectorItems_of {crc : Bytes → UInt32} {fl : Flash} {s : Nat} {D : Bytes} (hD : D.length ≤ 4016)
    (hn : mostCommonU16 (fl.read (s * 4096 + 4080) 8) = some D.length)
    (h : ∀ p, 252 * p < D.length → ∀ i, i < ((chunk D p).length + 3) / 4 * 4 + 4 →
      fl (s * 4096 + 256 * p + i) = (dataImage crc (chunk D p)).getD i 0xFF) :
    sectorItems crc fl s = D.map .byte := by
  have hl : sectorLength fl s = D.length := by
    unfold sectorLength; rw [hn]; simp [hD]
  unfold sectorItems
  rw [hl]
  have : (List.range ((D.length + 251) / 252)).flatMap (pageItems crc fl s D.length)
      = (List.range ((D.length + 251) / 252)).flatMap (fun p => (chunk D p).map .byte) := by
    rw [List.flatMap_def, List.flatMap_def]
    refine congrArg List.flatten (List.map_congr_left ?_)
    intro p hp
    rw [List.mem_range] at hp
    exact pageItems_of (chunk_length D p) (h p (by omega))
  rw [this, ← List.map_flatMap, flatMap_chunk, List.take_of_length_le (by omega)]

/-- a sector whose stored length is blank -/
theorem sectorItems_blank {crc : Bytes → UInt32} {fl : Flash} {s n : Nat} (hn : mostCommonU16 (fl.read (s * 4096 + 4080) 8) = some n)
    (h : 4016 < n) : sectorItems crc fl s = [] := by
  have hl : sectorLength fl s = 0 := by
    unfold sectorLength; rw [hn]; simp; omega
  unfold sectorItems
  rw [hl]; rfl

/-! ### redundant 16-bit fields, possibly cut off -/

/-- the first `t` of the 8 bytes of a stored field, the rest blank -/
def tornField (v t : Nat) (i : Nat) : UInt8 := if i < t then (u16x4 v).getD i 0xFF else 0xFF

theorem u16x4_length (v : Nat) : (u16x4 v).length = 8 := by simp [u16x4, beBytes_length]

theorem read8 (fl : Flash) (a : Nat) : fl.read a 8 = [fl a, fl (a + 1), fl (a + 2), fl (a + 3), fl (a + 4), fl (a + 5), fl (a + 6), fl (a + 7)] := by
  simp [Flash.read, List.range_succ]

theorem u16_hilo (v : Nat) (hv : v < 65536) : beNat [UInt8.ofNat (v / 256), UInt8.ofNat v] = v := by
  have := beNat_beBytes_of_lt (k := 2) (n := v) (by simpa using hv)
  simpa [beBytes] using this

theorem mostCommon_torn {fl : Flash} {a v t : Nat} (hv : v < 65536) (h : ∀ i, i < 8 → fl (a + i) = tornField v t i) :
    (mostCommonU16 (fl.read a 8) = some v ∨ mostCommonU16 (fl.read a 8) = some 0xFFFF) ∧
    (4 ≤ t → mostCommonU16 (fl.read a 8) = some v) ∧ (t = 0 → mostCommonU16 (fl.read a 8) = some 0xFFFF) := by
  have h0 := h 0 (by omega)
  have hx : ∀ i, i < 8 → fl (a + i) = if i < t then (if i % 2 = 0 then UInt8.ofNat (v / 256) else UInt8.ofNat v) else 0xFF := by
    intro i hi
    rw [h i hi]
    unfold tornField
    split
    · rcases (show i = 0 ∨ i = 1 ∨ i = 2 ∨ i = 3 ∨ i = 4 ∨ i = 5 ∨ i = 6 ∨ i = 7 by omega) with h | h | h | h | h | h | h | h <;>
        subst h <;> simp [u16x4, beBytes]
    · rfl
  have hv' := u16_hilo v hv
  have hff : beNat [0xFF, 0xFF] = 0xFFFF := by decide
  have e : fl a = fl (a + 0) := rfl
  rw [read8, e, hx 0 (by omega), hx 1 (by omega), hx 2 (by omega), hx 3 (by omega), hx 4 (by omega), hx 5 (by omega), hx 6 (by omega),
    hx 7 (by omega)]
  generalize UInt8.ofNat (v / 256) = hi at *
  generalize UInt8.ofNat v = lo at *
  have ht : t = 0 ∨ t = 1 ∨ t = 2 ∨ t = 3 ∨ t = 4 ∨ t = 5 ∨ t = 6 ∨ t = 7 ∨ 8 ≤ t := by omega
  rcases ht with h | h | h | h | h | h | h | h | h
  · subst h
    simp [mostCommonU16, findMostCommon, hff]
  · subst h
    simp only [mostCommonU16, findMostCommon]
    simp [hff]
    by_cases hz : beNat [hi, 255] = 65535
    · simp [hz]
    · simp [hz]
  · subst h
    simp only [mostCommonU16, findMostCommon]
    simp [hff, hv']
    by_cases hz : v = 65535
    · simp [hz]
    · simp [hz]
  · subst h
    simp only [mostCommonU16, findMostCommon]
    simp [hff, hv']
    by_cases hz : v = beNat [hi, 255]
    · simp [hz]
    · by_cases hz2 : v = 65535
      · simp [hz2]
      · by_cases hz3 : beNat [hi, 255] = 65535
        · simp [hz2, hz3]
        · simp [hz, hz2, hz3]
  all_goals
    have h4 : 4 ≤ t := by omega
    simp only [mostCommonU16, findMostCommon]
    simp [hv', show (0 : Nat) < t by omega, show 1 < t by omega, show 2 < t by omega, show 3 < t by omega]
    try omega

theorem mostCommon_full {fl : Flash} {a v : Nat} (hv : v < 65536) (h : ∀ i, i < 8 → fl (a + i) = (u16x4 v).getD i 0xFF) :
    mostCommonU16 (fl.read a 8) = some v :=
  (mostCommon_torn (t := 8) hv (fun i hi => by rw [h i hi, tornField, if_pos hi])).2.1 (by omega)

theorem mostCommon_blank {fl : Flash} {a : Nat} (h : ∀ i, i < 8 → fl (a + i) = 0xFF) : mostCommonU16 (fl.read a 8) = some 0xFFFF :=
  (mostCommon_torn (v := 0) (t := 0) (by omega) (fun i hi => by rw [h i hi, tornField, if_neg (by omega)])).2.2 rfl

/-! ### sectors and files -/

/-- sector `s` reads as the bytes `D`, and its next pointer is `next` -/
structure SecHolds (crc : Bytes → UInt32) (fl : Flash) (s : Nat) (D : Bytes) (next : Nat) : Prop where
  items : sectorItems crc fl s = D.map .byte
  next : mostCommonU16 (fl.read (s * 4096 + 4096 - 8) 8) = some next
  size : ∃ n, mostCommonU16 (fl.read (s * 4096 + 4080) 8) = some n ∧ ((n = D.length ∧ n ≤ 4016) ∨ (n = 0xFFFF ∧ D = []))

/-- all bytes of a sector are the same in two flash contents -/
def SameSector (f g : Flash) (s : Nat) : Prop := ∀ j, j < 4096 → f (s * 4096 + j) = g (s * 4096 + j)

theorem SameSector.symm {f g : Flash} {s : Nat} (h : SameSector f g s) : SameSector g f s := fun j hj => (h j hj).symm
theorem SameSector.trans {f g k : Flash} {s : Nat} (h : SameSector f g s) (h2 : SameSector g k s) : SameSector f k s :=
  fun j hj => (h j hj).trans (h2 j hj)

theorem SameSector.read {f g : Flash} {s : Nat} (h : SameSector f g s) (a n : Nat) (ha : a + n ≤ 4096) :
    f.read (s * 4096 + a) n = g.read (s * 4096 + a) n := by
  apply Flash.read_congr
  intro i hi
  rw [Nat.add_assoc]
  exact h _ (by omega)

theorem SameSector.sectorLength {f g : Flash} {s : Nat} (h : SameSector f g s) : sectorLength f s = sectorLength g s := by
  unfold Spec.sectorLength
  rw [h.read 4080 8 (by omega)]

theorem SameSector.items {crc : Bytes → UInt32} {f g : Flash} {s : Nat} (h : SameSector f g s) :
    sectorItems crc f s = sectorItems crc g s := by
  unfold sectorItems
  rw [h.sectorLength]
  have hle := sectorLength_le g s
  rw [List.flatMap_def, List.flatMap_def]
  refine congrArg List.flatten (List.map_congr_left ?_)
  intro p hp
  rw [List.mem_range] at hp
  unfold pageItems
  generalize hk : min (Spec.sectorLength g s - 252 * p) 252 = k
  have hk1 : k ≤ 252 := by omega
  have hp2 : p ≤ 15 := by omega
  simp only
  rw [Nat.add_assoc (s * 4096), h.read (256 * p) _ (by omega), h.read (256 * p + (k + 3) / 4 * 4) 4 (by omega), h.read (256 * p) k (by omega)]

theorem SecHolds.congr {crc : Bytes → UInt32} {f g : Flash} {s : Nat} {D : Bytes} {next : Nat} (h : SecHolds crc f s D next)
    (hs : SameSector f g s) : SecHolds crc g s D next := by
  have e : s * 4096 + 4096 - 8 = s * 4096 + 4088 := by omega
  refine ⟨by rw [← hs.items]; exact h.items, ?_, ?_⟩
  · rw [e, ← hs.read 4088 8 (by omega), ← e]; exact h.next
  · rw [← hs.read 4080 8 (by omega)]; exact h.size

/-- a complete file: its sectors with the bytes they hold -/
inductive Stored (crc : Bytes → UInt32) (fl : Flash) : Option Nat → List (Nat × Bytes) → Prop
  | nil : Stored crc fl none []
  | cons (s : Nat) (D : Bytes) (next : Nat) (l : List (Nat × Bytes)) (h : SecHolds crc fl s D next)
      (ht : Stored crc fl (if next = 0xFFFF then none else some next) l) : Stored crc fl (some s) ((s, D) :: l)

/-- the sectors of a list of segments -/
abbrev secs (l : List (Nat × Bytes)) : List Nat := l.map Prod.fst
/-- the bytes of a list of segments -/
abbrev bytesOf (l : List (Nat × Bytes)) : Bytes := l.flatMap Prod.snd

theorem Stored.chain {crc : Bytes → UInt32} {fl : Flash} {o : Option Nat} {l : List (Nat × Bytes)} (h : Stored crc fl o l) :
    Chain fl o (secs l) := by
  induction h with
  | nil => exact .nil
  | cons s D next l h ht ih => exact .cons s next _ h.next ih

theorem Stored.items {crc : Bytes → UInt32} {fl : Flash} {o : Option Nat} {l : List (Nat × Bytes)} (h : Stored crc fl o l) :
    fileItems crc fl (secs l) = (bytesOf l).map .byte := by
  induction h with
  | nil => rfl
  | cons s D next l h ht ih =>
    show sectorItems crc fl s ++ fileItems crc fl (secs l) = (D ++ bytesOf l).map .byte
    rw [ih, h.items, List.map_append]

theorem Stored.congr {crc : Bytes → UInt32} {f g : Flash} {o : Option Nat} {l : List (Nat × Bytes)} (h : Stored crc f o l)
    (hs : ∀ s ∈ secs l, SameSector f g s) : Stored crc g o l := by
  induction h with
  | nil => exact .nil
  | cons s D next l h ht ih =>
    exact .cons s D next l (h.congr (hs s (List.mem_cons_self ..))) (ih fun x hx => hs x (List.mem_cons_of_mem _ hx))

theorem Stored.size {crc : Bytes → UInt32} {fl : Flash} {o : Option Nat} {l : List (Nat × Bytes)} (h : Stored crc fl o l) :
    ∀ fuel sz n, l.length < fuel → sizeLoop fl fuel o sz n = .ok (sz + (bytesOf l).length, n + l.length) := by
  induction h with
  | nil =>
    intro fuel sz n hf
    cases fuel with
    | zero => exact absurd hf (Nat.not_lt_zero _)
    | succ fuel => rfl
  | cons s D next l h ht ih =>
    intro fuel sz n hf
    cases fuel with
    | zero => exact absurd hf (Nat.not_lt_zero _)
    | succ fuel =>
      obtain ⟨k, h1, h2⟩ := h.size
      have e0 : s * SECTOR_SIZE + SECTOR_SIZE - 8 - 8 = s * 4096 + 4080 := by unfold SECTOR_SIZE; omega
      have e1 : (fl.read (s * 4096 + 4080) 16).take 8 = fl.read (s * 4096 + 4080) 8 := Flash.read_take _ _ _ _ (by omega)
      have e2 : (fl.read (s * 4096 + 4080) 16).drop 8 = fl.read (s * 4096 + 4096 - 8) 8 := by
        rw [Flash.read_drop _ _ _ _ (by omega), show s * 4096 + 4080 + 8 = s * 4096 + 4096 - 8 by omega]
      have hf' : l.length < fuel := by simpa using hf
      rw [sizeLoop]
      simp only [e0, e1, e2, h1, h.next]
      have e3 : (if k = 0xFFFF then 0 else k) = D.length := by
        rcases h2 with ⟨rfl, hk⟩ | ⟨rfl, rfl⟩
        · rw [if_neg (by omega)]
        · rfl
      have e4 : ¬ D.length > MAX_SECTOR_DATA_SIZE := by
        rcases h2 with ⟨rfl, hk⟩ | ⟨rfl, rfl⟩
        · show ¬ D.length > 4016; omega
        · simp
      rw [e3, if_neg e4, ih fuel _ _ hf']
      simp [Nat.add_assoc, Nat.add_comm 1]

/-- the completed sectors of a file being written, up to the sector `cur` that is being filled -/
inductive Segs (crc : Bytes → UInt32) (fl : Flash) : Nat → List (Nat × Bytes) → Nat → Prop
  | nil (s : Nat) : Segs crc fl s [] s
  | cons (s : Nat) (D : Bytes) (next : Nat) (l : List (Nat × Bytes)) (cur : Nat) (h : SecHolds crc fl s D next)
      (hn : next ≠ 0xFFFF) (ht : Segs crc fl next l cur) : Segs crc fl s ((s, D) :: l) cur

theorem Segs.congr {crc : Bytes → UInt32} {f g : Flash} {s cur : Nat} {l : List (Nat × Bytes)} (h : Segs crc f s l cur)
    (hs : ∀ x ∈ secs l, SameSector f g x) : Segs crc g s l cur := by
  induction h with
  | nil s => exact .nil s
  | cons s D next l cur h hn ht ih =>
    exact .cons s D next l cur (h.congr (hs s (List.mem_cons_self ..))) hn (ih fun x hx => hs x (List.mem_cons_of_mem _ hx))

theorem Segs.stored {crc : Bytes → UInt32} {fl : Flash} {s cur : Nat} {l m : List (Nat × Bytes)} (h : Segs crc fl s l cur)
    (hm : Stored crc fl (some cur) m) : Stored crc fl (some s) (l ++ m) := by
  induction h with
  | nil s => exact hm
  | cons s D next l cur h hn ht ih =>
    exact .cons s D next _ h (by rw [if_neg hn]; exact ih hm)

theorem Segs.snoc {crc : Bytes → UInt32} {fl : Flash} {s cur next : Nat} {D : Bytes} {l : List (Nat × Bytes)} (h : Segs crc fl s l cur)
    (hc : SecHolds crc fl cur D next) (hn : next ≠ 0xFFFF) : Segs crc fl s (l ++ [(cur, D)]) next := by
  induction h with
  | nil s => exact .cons s D next [] next hc hn (.nil next)
  | cons s D' nx l cur h hn' ht ih => exact .cons s D' nx _ next h hn' (ih hc)

theorem Stored.last {crc : Bytes → UInt32} {fl : Flash} {s : Nat} {D : Bytes} (h : SecHolds crc fl s D 0xFFFF) :
    Stored crc fl (some s) [(s, D)] := .cons s D 0xFFFF [] h (by rw [if_pos rfl]; exact .nil)

theorem Stored.last2 {crc : Bytes → UInt32} {fl : Flash} {s next : Nat} {D E : Bytes} (h : SecHolds crc fl s D next)
    (hn : next ≠ 0xFFFF) (h2 : SecHolds crc fl next E 0xFFFF) : Stored crc fl (some s) [(s, D), (next, E)] :=
  .cons s D next _ h (by rw [if_neg hn]; exact Stored.last h2)

end Verif.Vlfs
