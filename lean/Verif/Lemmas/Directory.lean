import Verif.Lemmas.Builder
/-
Directory updates: the invariant after a complete update, and what a restart finds after an interrupted one.
-/
namespace Verif.Vlfs
open Verif

theorem ff_and (x : UInt8) : (0xFF : UInt8) &&& x = x := by
  apply UInt8.toNat_inj.mp
  rw [UInt8.toNat_and]
  have : x.toNat < 2 ^ 8 := x.toNat_lt
  rw [Nat.and_comm]
  exact Nat.and_two_pow_sub_one_of_lt_two_pow this

/-- chip content of the written slot after the erase, `n` full pages and `t` bytes of the next one -/
theorem written_prefix (fl : Flash) (q : Nat) (I : Bytes) (n t : Nat) (ht : t ≤ 256) :
    Prefix (applyOps fl (.erase (slotAddr q) 32768 :: pages (slotAddr q) I n ++
      [.page (slotAddr q + 256 * n) (((I.drop (256 * n)).take 256).take t)])) q I (256 * n + t) := by
  have h : ∀ j, j < 32768 → applyOps fl (.erase (slotAddr q) 32768 :: pages (slotAddr q) I n ++
      [.page (slotAddr q + 256 * n) (((I.drop (256 * n)).take 256).take t)]) (slotAddr q + j)
      = if j < 256 * n + t then I.getD j 0xFF else 0xFF := by
    intro j hj
    rw [applyOps_append, applyOps_cons]
    simp only [applyOps_cons, applyOps_nil, FlashOp.apply]
    rw [applyOps_pages]
    have e1 : slotAddr q + j - slotAddr q = j := by omega
    rw [e1]
    by_cases h1 : j < 256 * n
    · rw [if_neg (by omega), if_pos (by omega), if_pos (by omega), if_pos (by omega), ff_and]
    · by_cases h2 : j < 256 * n + 256
      · rw [if_pos (by omega), if_neg (by omega), if_pos (by omega), ff_and]
        have e2 : slotAddr q + j - (slotAddr q + 256 * n) = j - 256 * n := by omega
        rw [e2, List.getD_eq_getElem?_getD]
        by_cases h3 : j < 256 * n + t
        · rw [if_pos h3, List.getElem?_take_of_lt (by omega), List.getElem?_take_of_lt (by omega), List.getElem?_drop,
            List.getD_eq_getElem?_getD, show 256 * n + (j - 256 * n) = j by omega]
        · rw [if_neg h3, List.getElem?_eq_none (by rw [List.length_take]; omega)]; rfl
      · rw [if_neg (by omega), if_neg (by omega), if_pos (by omega), if_neg (by omega)]
  exact ⟨fun j h1 h2 => by rw [h j h2, if_pos h1], fun j h1 _ h3 => by rw [h j h3, if_neg (by omega)]⟩

theorem written_prefix0 (fl : Flash) (q : Nat) (I : Bytes) (n : Nat) :
    Prefix (applyOps fl (.erase (slotAddr q) 32768 :: pages (slotAddr q) I n)) q I (256 * n) := by
  have h : ∀ j, j < 32768 → applyOps fl (.erase (slotAddr q) 32768 :: pages (slotAddr q) I n) (slotAddr q + j)
      = if j < 256 * n then I.getD j 0xFF else 0xFF := by
    intro j hj
    rw [applyOps_cons, applyOps_pages]
    simp only [FlashOp.apply]
    have e1 : slotAddr q + j - slotAddr q = j := by omega
    rw [e1]
    by_cases h1 : j < 256 * n
    · rw [if_pos (by omega), if_pos (by omega), if_pos (by omega), ff_and]
    · rw [if_neg (by omega), if_pos (by omega), if_neg (by omega)]
  exact ⟨fun j h1 h2 => by rw [h j h2, if_pos h1], fun j h1 _ h3 => by rw [h j h3, if_neg (by omega)]⟩

/-- other slots are untouched by operations on slot `q` -/
theorem written_other (fl : Flash) (q r : Nat) (I : Bytes) (n : Nat) (hn : n ≤ 128) (hne : r ≠ q) :
    SameSlot fl (applyOps fl (.erase (slotAddr q) 32768 :: pages (slotAddr q) I n)) r := by
  intro j hj
  rw [applyOps_cons, applyOps_pages, slotAddr_eq, slotAddr_eq]
  rw [if_neg (by omega)]
  simp only [FlashOp.apply]
  rw [if_neg (by omega)]

theorem Prefix.congr {f g : Flash} {q : Nat} {I : Bytes} {t : Nat} (h : Prefix f q I t) (hs : SameSlot f g q) :
    Prefix g q I t :=
  ⟨fun j h1 h2 => by rw [← hs j h2]; exact h.wrote j h1 h2, fun j h1 h2 h3 => by rw [← hs j h3]; exact h.blank j h1 h2 h3⟩

/-- erasing some pages of a prefix gives a shorter prefix -/
theorem Prefix.blankPages {fl : Flash} {q : Nat} {I : Bytes} {t : Nat} (h : Prefix fl q I t) (P : Nat → Bool) :
    ∃ t', t' ≤ t ∧ Prefix (blankPages P fl) q I t' := by
  have hpg : ∀ j, (slotAddr q + j) / 256 = q * 128 + j / 256 := by intro j; rw [slotAddr_eq]; omega
  -- least erased page below t
  have : (∀ n, 256 * n < t → P (q * 128 + n) = false) ∨
      ∃ n, 256 * n < t ∧ P (q * 128 + n) = true ∧ ∀ k, k < n → P (q * 128 + k) = false := by
    by_cases hex : ∃ n, 256 * n < t ∧ P (q * 128 + n) = true
    · right
      obtain ⟨n, hn⟩ := hex
      induction n using Nat.strongRecOn with
      | ind n ih =>
        by_cases hk : ∃ k, k < n ∧ P (q * 128 + k) = true
        · obtain ⟨k, hk1, hk2⟩ := hk
          exact ih k hk1 ⟨by omega, hk2⟩
        · refine ⟨n, hn.1, hn.2, fun k hk1 => ?_⟩
          cases hp : P (q * 128 + k) with
          | false => rfl
          | true => exact absurd ⟨k, hk1, hp⟩ hk
    · left
      intro n hn
      cases hp : P (q * 128 + n) with
      | false => rfl
      | true => exact absurd ⟨n, hn, hp⟩ hex
  rcases this with hall | ⟨n, hn, hP, hmin⟩
  · refine ⟨t, Nat.le_refl _, ⟨fun j h1 h2 => ?_, fun j h1 h2 h3 => ?_⟩⟩
    · unfold Vlfs.blankPages
      rw [hpg, hall _ (by omega)]
      exact h.wrote j h1 h2
    · unfold Vlfs.blankPages
      split
      · rfl
      · exact h.blank j h1 h2 h3
  · refine ⟨256 * n, by omega, ⟨fun j h1 h2 => ?_, fun j h1 h2 h3 => ?_⟩⟩
    · unfold Vlfs.blankPages
      rw [hpg, hmin _ (by omega)]
      exact h.wrote j (by omega) h2
    · unfold Vlfs.blankPages
      rw [hpg, show j / 256 = n by omega, hP]; rfl

/-- a table interrupted before the fourth byte of its footer is stale -/
theorem Prefix.stale {fl : Flash} {q seq : Nat} {new : List FileEntry} {m t s : Nat}
    (h : Prefix fl q (tableImage seq new m) t) (ht : t < 13 * (new.length + 1) + 3) (hseq : seq < 2 ^ 64) (hm : m < 2 ^ 64)
    (hwf : ∀ e ∈ new, e.WF) (htyp : ∀ e ∈ new, e.typ < 0x4000) (hl : new.length ≤ 2517) : Stale fl q s := by
  intro P
  obtain ⟨t', ht', hp⟩ := h.blankPages P
  have hne : ∀ e ∈ new, e.typ ≠ 0xFFFF := fun e he => by have := htyp e he; omega
  rcases hp.cases hseq hm hwf hne (by omega) (Or.inr ⟨htyp, hl⟩) with ⟨i, hi, hj, hn, _⟩ | ⟨m', _, hc, _⟩
  · exact Or.inr (Or.inr ⟨i, hi, hj, hn⟩)
  · omega

/-- a list of files that can be written as a table -/
structure Writable (new : List FileEntry) (m : Nat) : Prop where
  cap : new.length ≤ 2518
  wf : ∀ e ∈ new, e.WF
  typ : ∀ e ∈ new, e.typ ≠ 0xFFFF
  sorted : new.Pairwise (fun a b => a.id < b.id)
  maxId : ∀ e ∈ new, e.id ≤ m
  maxLt : m < 2 ^ 64

theorem DirInv.writable {fs : FS} {es : List FileEntry} (h : DirInv fs es) : Writable es fs.at'.maxId :=
  ⟨h.cap, h.wf, h.typ, h.sorted, h.maxId, h.maxLt⟩

/-- complete table on the chip -/
theorem SlotHolds.of_complete {fl : Flash} {q seq : Nat} {new : List FileEntry} {m t : Nat}
    (h : Prefix fl q (tableImage seq new m) t) (ht : 13 * (new.length + 2) ≤ t) (hseq : seq < 2 ^ 64)
    (hw : Writable new m) : SlotHolds fl q seq new m := by
  rcases h.cases hseq hw.maxLt hw.wf hw.typ hw.cap (Or.inl ht) with ⟨i, hi, hj, hn, hlt⟩ | ⟨m', h', _, hm'⟩
  · omega
  · rw [hm' ht] at h'; exact h'

/-- the invariant, in terms of what is on the chip -/
theorem DirInv.of_rewrite {fs fs' : FS} {es new : List FileEntry} {m : Nat} (hd : DirInv fs es)
    (hr : Rewrite fs fs' new m) (hw : Writable new m) (hseq : fs.at'.seq + 1 < 2 ^ 64) : DirInv fs' new := by
  obtain ⟨os, h1, h2⟩ := hr.trace
  have hlow : LowEq fs'.dev.flash (applyOps fs.dev.flash (.erase (slotAddr (nextPos fs)) 32768 ::
      pages (slotAddr (nextPos fs)) (tableImage (fs.at'.seq + 1) new m) (13 * (new.length + 2) / 256 + 1))) := by
    rw [h1, ← h2]; exact applyOps_filter _ _
  have hcap := hw.cap
  have hothers : ∀ q, q < 4 → q ≠ nextPos fs → SameSlot fs.dev.flash fs'.dev.flash q := by
    intro q hq hne j hj
    rw [hlow.sameSlot hq j hj]
    exact written_other _ _ _ _ _ (by omega) hne j hj
  have hpre := written_prefix0 fs.dev.flash (nextPos fs) (tableImage (fs.at'.seq + 1) new m) (13 * (new.length + 2) / 256 + 1)
  have hholds := SlotHolds.of_complete hpre (by omega) hseq hw
  have hholds' : SlotHolds fs'.dev.flash (nextPos fs) (fs.at'.seq + 1) new m :=
    hholds.congr (fun j hj => (hlow.sameSlot (nextPos_lt fs) j hj).symm) hw.cap
  refine ⟨by rw [hr.pos]; exact nextPos_lt fs, by rw [hr.seq]; omega, by rw [hr.seq]; exact hseq,
    by rw [hr.pos, hr.seq, hr.maxId]; exact hholds', hr.count, hw.cap, ?_, hw.wf, hw.typ, hw.sorted,
    by rw [hr.maxId]; exact hw.maxId, by rw [hr.maxId]; exact hw.maxLt⟩
  intro q hq hne
  rw [hr.pos] at hne
  rw [hr.seq]
  by_cases hqp : q = fs.at'.position
  · subst hqp
    exact (SlotHolds.stale hd.holds (Nat.lt_succ_self _)).congr (hothers _ hq hne)
  · exact ((hd.stale q hq hqp).mono (Nat.le_succ _)).congr (hothers _ hq hne)

/-- the invariant only looks at the directory region -/
theorem DirInv.congr {fs fs' : FS} {es : List FileEntry} (hd : DirInv fs es) (hl : LowEq fs.dev.flash fs'.dev.flash)
    (h1 : fs'.at'.seq = fs.at'.seq) (h2 : fs'.at'.position = fs.at'.position) (h3 : fs'.at'.maxId = fs.at'.maxId)
    (h4 : fs'.at'.fileCount = fs.at'.fileCount) : DirInv fs' es := by
  refine ⟨by rw [h2]; exact hd.pos, by rw [h1]; exact hd.seq1, by rw [h1]; exact hd.seq, ?_, by rw [h4]; exact hd.count,
    hd.cap, ?_, hd.wf, hd.typ, hd.sorted, by rw [h3]; exact hd.maxId, by rw [h3]; exact hd.maxLt⟩
  · rw [h1, h2, h3]; exact hd.holds.congr (hl.sameSlot hd.pos) hd.cap
  · intro q hq hne
    rw [h2] at hne
    rw [h1]
    exact (hd.stale q hq hne).congr (hl.sameSlot hq)

/-! ### Reading the directory -/

theorem readFileEntry_eq (fl : Flash) (at' : AT) (i : Nat) : readFileEntry fl at' i = ent fl (slotAddr at'.position) i := rfl

theorem iterFrom_spec {fl : Flash} {at' : AT} {seq m : Nat} {es : List FileEntry} (h : SlotHolds fl at'.position seq es m)
    (filter : FileEntry → Bool) : ∀ (n i : Nat), i + n = es.length →
    iterFrom fl at' filter n i = .ok ((es.drop i).filter filter) := by
  intro n
  induction n with
  | zero => intro i hi; rw [iterFrom, List.drop_eq_nil_of_le (by omega)]; rfl
  | succ n ih =>
    intro i hi
    have hlt : i < es.length := by omega
    rw [iterFrom, readFileEntry_eq, h.entry i hlt]
    simp only
    rw [ih (i + 1) (by omega), List.drop_eq_getElem_cons hlt]
    simp only [List.filter_cons]

theorem filesIter_spec {fs : FS} {seq m : Nat} {es : List FileEntry} (h : SlotHolds fs.dev.flash fs.at'.position seq es m)
    (hc : fs.at'.fileCount = es.length) (filter : FileEntry → Bool) : fs.filesIter filter = .ok (es.filter filter) := by
  unfold FS.filesIter
  rw [hc, iterFrom_spec h filter es.length 0 (by omega), List.drop_zero]

theorem DirInv.filesIter {fs : FS} {es : List FileEntry} (h : DirInv fs es) (filter : FileEntry → Bool) :
    fs.filesIter filter = .ok (es.filter filter) := filesIter_spec h.holds h.count filter

/-- binary search -/
theorem findLoop_spec {fl : Flash} {at' : AT} {seq m : Nat} {es : List FileEntry} (h : SlotHolds fl at'.position seq es m)
    (hs : es.Pairwise (fun a b => a.id < b.id)) (id : Nat) :
    ∀ (fuel l r : Nat), r - l < fuel → l ≤ r → r < es.length →
    (∀ i (hi : i < es.length), i < l → es[i].id < id) → (∀ i (hi : i < es.length), r ≤ i → i + 1 < es.length → id ≤ es[i].id) →
    ∃ k, findLoop fuel fl at' id l r = .ok k ∧ k < es.length ∧
      (∀ i (hi : i < es.length), i < k → es[i].id < id) ∧ (∀ i (hi : i < es.length), k ≤ i → i + 1 < es.length → id ≤ es[i].id) := by
  intro fuel
  induction fuel with
  | zero => exact fun l r hf => absurd hf (Nat.not_lt_zero _)
  | succ fuel ih =>
    intro l r hf hlr hr hlo hhi
    rw [findLoop]
    by_cases hlt : l < r
    · rw [if_pos hlt]
      have hmid : (l + r) / 2 < es.length := by omega
      simp only [readFileEntry_eq, h.entry _ hmid]
      have hpair : ∀ i j (hi : i < es.length) (hj : j < es.length), i < j → es[i].id < es[j].id :=
        fun i j hi hj hij => List.pairwise_iff_getElem.mp hs i j hi hj hij
      by_cases hc : es[(l + r) / 2].id < id
      · rw [if_pos hc]
        refine ih _ _ (by omega) (by omega) hr ?_ hhi
        intro i hi hil
        by_cases hie : i = (l + r) / 2
        · subst hie; exact hc
        · have := hpair i ((l + r) / 2) hi hmid (by omega)
          omega
      · rw [if_neg hc]
        refine ih _ _ (by omega) (by omega) hmid hlo ?_
        intro i hi hil _
        by_cases hie : i = (l + r) / 2
        · subst hie; omega
        · have := hpair ((l + r) / 2) i hmid hi (by omega)
          omega
    · rw [if_neg hlt]
      have : l = r := by omega
      subst this
      exact ⟨l, rfl, hr, hlo, hhi⟩

theorem findFileEntry_spec {fs : FS} {seq m : Nat} {es : List FileEntry} (h : SlotHolds fs.dev.flash fs.at'.position seq es m)
    (hs : es.Pairwise (fun a b => a.id < b.id)) (hc : fs.at'.fileCount = es.length) (id : Nat) :
    (∃ k, ∃ hk : k < es.length, es[k].id = id ∧ fs.findFileEntry id = .ok (some (es[k], k))) ∨
    ((∀ e ∈ es, e.id ≠ id) ∧ fs.findFileEntry id = .ok none) := by
  unfold FS.findFileEntry
  rw [hc]
  by_cases h0 : es.length = 0
  · right
    rw [if_pos h0]
    exact ⟨by rw [List.eq_nil_of_length_eq_zero h0]; simp, rfl⟩
  · rw [if_neg h0]
    obtain ⟨k, h1, h2, h3, h4⟩ := findLoop_spec h hs id (es.length + 1) 0 (es.length - 1) (by omega) (by omega) (by omega)
      (fun i hi hl => absurd hl (Nat.not_lt_zero _)) (fun i hi hl hl2 => by omega)
    rw [h1]
    simp only [readFileEntry_eq, h.entry _ h2]
    by_cases he : es[k].id = id
    · left
      exact ⟨k, h2, he, by rw [if_pos he]⟩
    · right
      refine ⟨?_, by rw [if_neg he]⟩
      intro e hmem hid
      obtain ⟨i, hi, rfl⟩ := List.getElem_of_mem hmem
      have hpair : ∀ i j (hi : i < es.length) (hj : j < es.length), i < j → es[i].id < es[j].id :=
        fun i j hi hj hij => List.pairwise_iff_getElem.mp hs i j hi hj hij
      by_cases h5 : i < k
      · have := h3 i hi h5; omega
      · by_cases h6 : i = k
        · subst h6; exact he hid
        · have h7 := hpair k i h2 hi (by omega)
          have := h4 k h2 (Nat.le_refl _) (by omega)
          omega

end Verif.Vlfs
