import Verif.Lemmas.Records
import Verif.Lemmas.Pages
/-
Directory slots: what is read from a slot that holds a complete, partial or stale table.
-/
namespace Verif.Vlfs
open Verif Verif.Hamming

/-- bytes of a complete table -/
def tableImage (seq : Nat) (es : List FileEntry) (maxId : Nat) : Bytes :=
  headerSerialize seq ++ es.flatMap FileEntry.serialize ++ footerSerialize maxId

/-- record `i` of a slot -/
def ent (fl : Flash) (base i : Nat) : Option FileEntry := FileEntry.deserialize (fl.read (base + 13 + i * 13) 13)

/-- the slot holds a valid table -/
structure SlotHolds (fl : Flash) (q seq : Nat) (es : List FileEntry) (maxId : Nat) : Prop where
  header : headerDeserialize (fl.read (slotAddr q) 13) = some seq
  entry : ∀ i (h : i < es.length), ent fl (slotAddr q) i = some es[i]
  notFooter : ∀ e ∈ es, e.isFooter = false
  footer : ∃ f, ent fl (slotAddr q) es.length = some f ∧ f.isFooter = true ∧ f.id = maxId

/-- the slot is not selected when a table with sequence number `seq` exists -/
def Rejected (fl : Flash) (q seq : Nat) : Prop :=
  headerDeserialize (fl.read (slotAddr q) 13) = none ∨
  (∃ s, headerDeserialize (fl.read (slotAddr q) 13) = some s ∧ s < seq) ∨
  (∃ i, i ≤ 2518 ∧ (∀ j, j < i → ∃ e, ent fl (slotAddr q) j = some e ∧ e.isFooter = false) ∧
    ent fl (slotAddr q) i = none)

theorem maxEntries_eq : maxEntries = 65536 := by unfold maxEntries; rfl

theorem readEntries_holds (fl : Flash) (base : Nat) (es : List FileEntry) (f : FileEntry) :
    ∀ (fuel k c : Nat), es.length < k + fuel → k ≤ es.length →
    (∀ i (h : i < es.length), k ≤ i → ent fl base i = some es[i]) → (∀ e ∈ es, e.isFooter = false) →
    ent fl base es.length = some f → f.isFooter = true →
    readEntries fuel fl (base + 13 + k * 13) c = some (c + (es.length - k), f.id) := by
  intro fuel
  induction fuel with
  | zero => exact fun k c h1 h2 => absurd h1 (Nat.not_lt.mpr h2)
  | succ fuel ih =>
    intro k c h1 h2 h3 h4 h5 h6
    rw [readEntries]
    by_cases hk : k = es.length
    · have : FileEntry.deserialize (fl.read (base + 13 + k * 13) 13) = some f := by rw [hk]; exact h5
      rw [this]
      simp only [h6, if_true, hk, Nat.sub_self, Nat.add_zero]
    · have hlt : k < es.length := by omega
      have : FileEntry.deserialize (fl.read (base + 13 + k * 13) 13) = some es[k] := h3 k hlt (Nat.le_refl _)
      rw [this]
      have hnf : es[k].isFooter = false := h4 _ (List.getElem_mem _)
      simp only [hnf, Bool.false_eq_true, if_false]
      have e : base + 13 + k * 13 + 13 = base + 13 + (k + 1) * 13 := by omega
      rw [e, ih (k + 1) (c + 1) (by omega) (by omega) (fun i h hi => h3 i h (by omega)) h4 h5 h6]
      simp only [Option.some.injEq, Prod.mk.injEq, and_true]
      omega

theorem readEntries_fails (fl : Flash) (base i : Nat) :
    ∀ (fuel k c : Nat), i < k + fuel → k ≤ i →
    (∀ j, k ≤ j → j < i → ∃ e, ent fl base j = some e ∧ e.isFooter = false) → ent fl base i = none →
    readEntries fuel fl (base + 13 + k * 13) c = none := by
  intro fuel
  induction fuel with
  | zero => exact fun k c h1 h2 => absurd h1 (Nat.not_lt.mpr h2)
  | succ fuel ih =>
    intro k c h1 h2 h3 h4
    rw [readEntries]
    by_cases hk : k = i
    · have : FileEntry.deserialize (fl.read (base + 13 + k * 13) 13) = none := by rw [hk]; exact h4
      rw [this]
    · obtain ⟨e, he, hnf⟩ := h3 k (Nat.le_refl _) (by omega)
      have : FileEntry.deserialize (fl.read (base + 13 + k * 13) 13) = some e := he
      rw [this]
      simp only [hnf, Bool.false_eq_true, if_false]
      have e : base + 13 + k * 13 + 13 = base + 13 + (k + 1) * 13 := by omega
      rw [e]
      exact ih (k + 1) (c + 1) (by omega) (by omega) (fun j h hj => h3 j (by omega) hj) h4

theorem SlotHolds.readSlot {fl : Flash} {q seq : Nat} {es : List FileEntry} {m : Nat} (h : SlotHolds fl q seq es m)
    (hl : es.length < maxEntries) : readSlot fl q = some (seq, es.length, m) := by
  unfold Vlfs.readSlot
  obtain ⟨f, h1, h2, h3⟩ := h.footer
  have := readEntries_holds fl (slotAddr q) es f maxEntries 0 0 (by omega) (by omega)
    (fun i hi _ => h.entry i hi) h.notFooter h1 h2
  rw [Nat.zero_mul, Nat.add_zero] at this
  rw [h.header]
  simp only [this, h3]
  simp

theorem Rejected.readSlot {fl : Flash} {q seq : Nat} (h : Rejected fl q seq) :
    Vlfs.readSlot fl q = none ∨ ∃ s c m, Vlfs.readSlot fl q = some (s, c, m) ∧ s < seq := by
  unfold Vlfs.readSlot
  rcases h with h | ⟨s, h, hs⟩ | ⟨i, hi, hj, hn⟩
  · left; rw [h]
  · rw [h]
    simp only
    cases readEntries maxEntries fl (slotAddr q + 13) 0 with
    | none => left; rfl
    | some p => right; exact ⟨s, p.1, p.2, rfl, hs⟩
  · left
    have := readEntries_fails fl (slotAddr q) i maxEntries 0 0 (by rw [maxEntries_eq]; omega) (by omega)
      (fun j _ h => hj j h) hn
    rw [Nat.zero_mul, Nat.add_zero] at this
    cases headerDeserialize (fl.read (slotAddr q) 13) with
    | none => rfl
    | some s => simp only [this]

/-- slot selection -/
theorem readLatest_spec {fl : Flash} {p seq : Nat} {es : List FileEntry} {m : Nat} (hp : p < 4)
    (h : SlotHolds fl p seq es m) (hl : es.length < maxEntries)
    (hrej : ∀ q, q < 4 → q ≠ p → Rejected fl q seq) (at0 : AT) (hseq : at0.seq ≤ seq) :
    readLatest fl at0 = (⟨seq, es.length, m, p, at0.opened⟩, true) := by
  have before : ∀ (st : AT × Bool) q, q < 4 → q ≠ p → st.1.seq ≤ seq ∧ st.1.opened = at0.opened →
      (readLatestStep fl st q).1.seq ≤ seq ∧ (readLatestStep fl st q).1.opened = at0.opened := by
    intro st q hq hne hst
    unfold readLatestStep
    rcases (hrej q hq hne).readSlot with h | ⟨s, c, m, h, hs⟩
    · rw [h]; exact hst
    · rw [h]
      simp only
      split
      · exact ⟨Nat.le_of_lt hs, hst.2⟩
      · exact hst
  have at_p : ∀ (st : AT × Bool), st.1.seq ≤ seq ∧ st.1.opened = at0.opened →
      readLatestStep fl st p = (⟨seq, es.length, m, p, at0.opened⟩, true) := by
    intro st hst
    unfold readLatestStep
    rw [h.readSlot hl]
    simp only
    rw [if_pos hst.1, hst.2]
  have after : ∀ q, q < 4 → q ≠ p → readLatestStep fl (⟨seq, es.length, m, p, at0.opened⟩, true) q
      = (⟨seq, es.length, m, p, at0.opened⟩, true) := by
    intro q hq hne
    unfold readLatestStep
    rcases (hrej q hq hne).readSlot with h | ⟨s, c, m, h, hs⟩
    · rw [h]
    · rw [h]
      simp only
      rw [if_neg (by omega)]
  have h0 : (at0, false).1.seq ≤ seq ∧ (at0, false).1.opened = at0.opened := ⟨hseq, rfl⟩
  have hr : List.range TABLE_COUNT = [0, 1, 2, 3] := by decide
  simp only [readLatest, hr, List.foldl_cons, List.foldl_nil]
  have hcases : p = 0 ∨ p = 1 ∨ p = 2 ∨ p = 3 := by omega
  rcases hcases with e | e | e | e
  · subst e
    rw [at_p _ h0, after 1 (by omega) (by omega), after 2 (by omega) (by omega), after 3 (by omega) (by omega)]
  · subst e
    rw [at_p _ (before _ 0 (by omega) (by omega) h0), after 2 (by omega) (by omega), after 3 (by omega) (by omega)]
  · subst e
    rw [at_p _ (before _ 1 (by omega) (by omega) (before _ 0 (by omega) (by omega) h0)), after 3 (by omega) (by omega)]
  · subst e
    rw [at_p _ (before _ 2 (by omega) (by omega) (before _ 1 (by omega) (by omega) (before _ 0 (by omega) (by omega) h0)))]

/-! ### Locality -/

/-- the two chips agree on slot `q` -/
def SameSlot (f g : Flash) (q : Nat) : Prop := ∀ j, j < 32768 → f (slotAddr q + j) = g (slotAddr q + j)

theorem SameSlot.header {f g : Flash} {q : Nat} (h : SameSlot f g q) :
    f.read (slotAddr q) 13 = g.read (slotAddr q) 13 :=
  Flash.read_congr _ _ _ _ (fun i hi => h i (by omega))

theorem SameSlot.ent {f g : Flash} {q : Nat} (h : SameSlot f g q) (i : Nat) (hi : i ≤ 2518) :
    ent f (slotAddr q) i = ent g (slotAddr q) i := by
  unfold Vlfs.ent
  rw [Flash.read_congr f g]
  intro k hk
  have := h (13 + i * 13 + k) (by omega)
  rwa [show slotAddr q + (13 + i * 13 + k) = slotAddr q + 13 + i * 13 + k by omega] at this

theorem SlotHolds.congr {f g : Flash} {q seq : Nat} {es : List FileEntry} {m : Nat} (h : SlotHolds f q seq es m)
    (hs : SameSlot f g q) (hl : es.length ≤ 2518) : SlotHolds g q seq es m := by
  refine ⟨by rw [← hs.header]; exact h.header, fun i hi => ?_, h.notFooter, ?_⟩
  · rw [← hs.ent i (by omega)]; exact h.entry i hi
  · rw [← hs.ent _ hl]; exact h.footer

theorem Rejected.congr {f g : Flash} {q seq : Nat} (h : Rejected f q seq) (hs : SameSlot f g q) : Rejected g q seq := by
  unfold Rejected
  rw [← hs.header]
  rcases h with h | h | ⟨i, hi, hj, hn⟩
  · exact Or.inl h
  · exact Or.inr (Or.inl h)
  · refine Or.inr (Or.inr ⟨i, hi, fun j hji => ?_, ?_⟩)
    · rw [← hs.ent j (by omega)]; exact hj j hji
    · rw [← hs.ent i hi]; exact hn

theorem Rejected.mono {f : Flash} {q s t : Nat} (h : Rejected f q s) (hst : s ≤ t) : Rejected f q t := by
  rcases h with h | ⟨a, h, ha⟩ | h
  · exact Or.inl h
  · exact Or.inr (Or.inl ⟨a, h, by omega⟩)
  · exact Or.inr (Or.inr h)

/-- some 256-byte pages of the chip erased -/
def blankPages (P : Nat → Bool) (fl : Flash) : Flash := fun a => if P (a / 256) then 0xFF else fl a

/-- the slot stays unselectable whichever of its pages are erased -/
def Stale (fl : Flash) (q seq : Nat) : Prop := ∀ P, Rejected (blankPages P fl) q seq

theorem Stale.rejected {fl : Flash} {q seq : Nat} (h : Stale fl q seq) : Rejected fl q seq :=
  (h (fun _ => false)).congr (fun _ _ => rfl)

theorem Stale.congr {f g : Flash} {q seq : Nat} (h : Stale f q seq) (hs : SameSlot f g q) : Stale g q seq := by
  intro P
  refine (h P).congr ?_
  intro j hj
  unfold blankPages
  rw [hs j hj]

theorem Stale.mono {f : Flash} {q s t : Nat} (h : Stale f q s) (hst : s ≤ t) : Stale f q t :=
  fun P => (h P).mono hst

theorem Stale.blank {f : Flash} {q s : Nat} (h : Stale f q s) (P : Nat → Bool) : Stale (blankPages P f) q s := by
  intro P'
  have := h (fun n => P n || P' n)
  refine this.congr ?_
  intro j _
  unfold blankPages
  by_cases h1 : P' ((slotAddr q + j) / 256) <;> by_cases h2 : P ((slotAddr q + j) / 256) <;> simp [h1, h2]

/-- slots start at page boundaries -/
theorem slotAddr_eq (q : Nat) : slotAddr q = q * 32768 := by unfold slotAddr; omega

/-- the header decides: a slot that holds a table with a smaller sequence number is stale -/
theorem SlotHolds.stale {fl : Flash} {q seq : Nat} {es : List FileEntry} {m t : Nat} (h : SlotHolds fl q seq es m)
    (ht : seq < t) : Stale fl q t := by
  intro P
  have hpage : ∀ j, j < 13 → (slotAddr q + j) / 256 = slotAddr q / 256 := by
    intro j hj; rw [slotAddr_eq]; omega
  by_cases hP : P (slotAddr q / 256) = true
  · left
    have : (blankPages P fl).read (slotAddr q) 13 = List.replicate 13 0xFF := by
      have := Flash.read_eq_of (blankPages P fl) (slotAddr q) (List.replicate 13 0xFF) (by
        intro i hi
        simp only [List.length_replicate] at hi
        unfold blankPages
        rw [hpage i hi, hP, if_pos rfl, List.getD_eq_getElem?_getD, List.getElem?_replicate, if_pos hi]; rfl)
      simpa using this
    rw [this]
    exact headerDeserialize_blank
  · right; left
    refine ⟨seq, ?_, ht⟩
    rw [Flash.read_congr (blankPages P fl) fl]
    · exact h.header
    · intro i hi
      unfold blankPages
      rw [hpage i hi, if_neg hP]

/-- a slot without a readable header is stale -/
theorem stale_of_noheader {fl : Flash} {q t : Nat} (h : headerDeserialize (fl.read (slotAddr q) 13) = none) : Stale fl q t := by
  intro P
  left
  have hpage : ∀ j, j < 13 → (slotAddr q + j) / 256 = slotAddr q / 256 := by
    intro j hj; rw [slotAddr_eq]; omega
  by_cases hP : P (slotAddr q / 256) = true
  · have : (blankPages P fl).read (slotAddr q) 13 = List.replicate 13 0xFF := by
      have := Flash.read_eq_of (blankPages P fl) (slotAddr q) (List.replicate 13 0xFF) (by
        intro i hi
        simp only [List.length_replicate] at hi
        unfold blankPages
        rw [hpage i hi, hP, if_pos rfl, List.getD_eq_getElem?_getD, List.getElem?_replicate, if_pos hi]; rfl)
      simpa using this
    rw [this]
    exact headerDeserialize_blank
  · rw [Flash.read_congr (blankPages P fl) fl]
    · exact h
    · intro i hi
      unfold blankPages
      rw [hpage i hi, if_neg hP]

/-! ### Images -/

theorem flatMap_serialize_length (es : List FileEntry) : (es.flatMap FileEntry.serialize).length = 13 * es.length := by
  induction es with
  | nil => rfl
  | cons e es ih => rw [List.flatMap_cons, List.length_append, ih, FileEntry.serialize_length, List.length_cons]; omega

theorem tableImage_length (seq : Nat) (es : List FileEntry) (m : Nat) : (tableImage seq es m).length = 13 * (es.length + 2) := by
  unfold tableImage
  rw [List.length_append, List.length_append, headerSerialize_length, footerSerialize_length, flatMap_serialize_length]
  omega

/-- the records of a table, header left out: its files and then the footer -/
def records (es : List FileEntry) (m : Nat) : List FileEntry := es ++ [⟨m, 0xFFFF, none⟩]

theorem tableImage_eq (seq : Nat) (es : List FileEntry) (m : Nat) :
    tableImage seq es m = headerSerialize seq ++ (records es m).flatMap FileEntry.serialize := by
  simp [tableImage, records, footerSerialize]

theorem flatMap_getD (es : List FileEntry) (i k : Nat) (hi : i < es.length) (hk : k < 13) :
    (es.flatMap FileEntry.serialize).getD (i * 13 + k) 0xFF = (es[i]).serialize.getD k 0xFF := by
  induction es generalizing i with
  | nil => simp at hi
  | cons e es ih =>
    rw [List.flatMap_cons, List.getD_eq_getElem?_getD, List.getD_eq_getElem?_getD]
    cases i with
    | zero =>
      rw [List.getElem?_append_left (by rw [FileEntry.serialize_length]; omega)]
      simp
    | succ i =>
      rw [List.getElem?_append_right (by rw [FileEntry.serialize_length]; omega), FileEntry.serialize_length]
      have := ih i (by simpa using hi)
      rw [List.getD_eq_getElem?_getD, List.getD_eq_getElem?_getD] at this
      rw [show (i + 1) * 13 + k - 13 = i * 13 + k by omega, this]
      simp

theorem image_getD (seq : Nat) (es : List FileEntry) (m i k : Nat) (hi : i < (records es m).length) (hk : k < 13) :
    (tableImage seq es m).getD (13 + i * 13 + k) 0xFF = ((records es m)[i]).serialize.getD k 0xFF := by
  rw [tableImage_eq, ← flatMap_getD _ i k hi hk, List.getD_eq_getElem?_getD, List.getD_eq_getElem?_getD,
    List.getElem?_append_right (by rw [headerSerialize_length]; omega), headerSerialize_length]
  congr 2; omega

/-- the slot holds the first `t` bytes of the image and then at least 26 erased bytes (to the end of the slot) -/
structure Prefix (fl : Flash) (q : Nat) (S : Bytes) (t : Nat) : Prop where
  wrote : ∀ j, j < t → j < 32768 → fl (slotAddr q + j) = S.getD j 0xFF
  blank : ∀ j, t ≤ j → j < t + 26 → j < 32768 → fl (slotAddr q + j) = 0xFF

theorem torn_full (l : Bytes) (h : l.length = 13) : torn l 13 = l := by
  unfold torn; rw [List.take_of_length_le (by omega)]; simp

theorem torn_zero (l : Bytes) : torn l 0 = List.replicate 13 0xFF := by simp [torn]

/-- what record `i` of a prefix looks like -/
theorem Prefix.ent {fl : Flash} {q : Nat} {seq : Nat} {es : List FileEntry} {m t : Nat}
    (h : Prefix fl q (tableImage seq es m) t) (i : Nat) (hi : i < (records es m).length) (hi2 : i ≤ 2518)
    (hnear : 13 + i * 13 < t + 14) :
    ent fl (slotAddr q) i = FileEntry.deserialize (torn ((records es m)[i]).serialize (min 13 (t - (13 + i * 13)))) := by
  unfold Vlfs.ent
  congr 1
  have hl : (torn ((records es m)[i]).serialize (min 13 (t - (13 + i * 13)))).length = 13 := by
    unfold torn
    rw [List.length_append, List.length_take, List.length_replicate, FileEntry.serialize_length]; omega
  have := Flash.read_eq_of fl (slotAddr q + 13 + i * 13) (torn ((records es m)[i]).serialize (min 13 (t - (13 + i * 13)))) (by
    intro k hk
    rw [hl] at hk
    have hgd : (torn ((records es m)[i]).serialize (min 13 (t - (13 + i * 13)))).getD k 0xFF
        = (torn ((records es m)[i]).serialize (min 13 (t - (13 + i * 13)))).getD k 0 := by
      rw [List.getD_eq_getElem?_getD, List.getD_eq_getElem?_getD, List.getElem?_eq_getElem (by omega)]; rfl
    rw [hgd, torn_getD _ _ _ (FileEntry.serialize_length _) (by omega) hk]
    by_cases hk2 : k < min 13 (t - (13 + i * 13))
    · rw [if_pos hk2]
      have := h.wrote (13 + i * 13 + k) (by omega) (by omega)
      rw [image_getD _ _ _ _ _ hi hk] at this
      rw [show slotAddr q + 13 + i * 13 + k = slotAddr q + (13 + i * 13 + k) by omega, this]
      rw [List.getD_eq_getElem?_getD, List.getD_eq_getElem?_getD,
        List.getElem?_eq_getElem (by rw [FileEntry.serialize_length]; omega)]; rfl
    · rw [if_neg hk2]
      rw [show slotAddr q + 13 + i * 13 + k = slotAddr q + (13 + i * 13 + k) by omega]
      exact h.blank _ (by omega) (by omega) (by omega))
  rw [hl] at this
  exact this

theorem ent_blank {fl : Flash} {q i : Nat} (h : ∀ k, k < 13 → fl (slotAddr q + (13 + i * 13 + k)) = 0xFF) :
    ent fl (slotAddr q) i = none := by
  unfold ent
  have := Flash.read_eq_of fl (slotAddr q + 13 + i * 13) (List.replicate 13 0xFF) (by
    intro k hk
    simp only [List.length_replicate] at hk
    rw [show slotAddr q + 13 + i * 13 + k = slotAddr q + (13 + i * 13 + k) by omega, h k hk,
      List.getD_eq_getElem?_getD, List.getElem?_replicate, if_pos hk]; rfl)
  rw [List.length_replicate] at this
  rw [this]
  exact deserialize_blank

theorem WF_footer {m : Nat} (h : m < 2 ^ 64) : FileEntry.WF ⟨m, 0xFFFF, none⟩ := ⟨h, by simp, by simp⟩

/-- complete header of a prefix -/
theorem Prefix.fullHeader {fl : Flash} {q seq : Nat} {es : List FileEntry} {m t : Nat} (h : Prefix fl q (tableImage seq es m) t)
    (hseq : seq < 2 ^ 64) (ht : 13 ≤ t) : headerDeserialize (fl.read (slotAddr q) 13) = some seq := by
  have := Flash.read_eq_of fl (slotAddr q) (headerSerialize seq) (by
    intro k hk
    rw [headerSerialize_length] at hk
    rw [h.wrote k (by omega) (by omega), tableImage_eq, List.getD_eq_getElem?_getD, List.getD_eq_getElem?_getD,
      List.getElem?_append_left (by rw [headerSerialize_length]; omega)])
  rw [headerSerialize_length] at this
  rw [this, headerDeserialize_serialize _ hseq]

/-- complete records of a prefix -/
theorem Prefix.fullEntry {fl : Flash} {q seq : Nat} {es : List FileEntry} {m t : Nat} (h : Prefix fl q (tableImage seq es m) t)
    (hwf : ∀ e ∈ es, e.WF) (hl : es.length ≤ 2518) (i : Nat) (hi : i < es.length) (ht : 13 + i * 13 + 13 ≤ t) :
    Vlfs.ent fl (slotAddr q) i = some es[i] := by
  have hrl : (records es m).length = es.length + 1 := by simp [records]
  rw [h.ent i (by omega) (by omega) (by omega)]
  have e1 : (records es m)[i]'(by omega) = es[i] := by
    unfold records; rw [List.getElem_append_left]
  rw [show min 13 (t - (13 + i * 13)) = 13 by omega, e1, torn_full _ (FileEntry.serialize_length _),
    deserialize_serialize _ (hwf _ (List.getElem_mem _))]

/-- a table whose footer was cut off after `k` bytes, when what is there still reads as a footer -/
theorem Prefix.tornFooter {fl : Flash} {q seq : Nat} {es : List FileEntry} {m k : Nat} {f : FileEntry}
    (h : Prefix fl q (tableImage seq es m) (13 * (es.length + 1) + k)) (hk : k ≤ 13)
    (hseq : seq < 2 ^ 64) (hwf : ∀ e ∈ es, e.WF) (hnf : ∀ e ∈ es, e.typ ≠ 0xFFFF) (hl : es.length ≤ 2518)
    (hf : FileEntry.deserialize (torn (footerSerialize m) k) = some f) (hf2 : f.isFooter = true) :
    SlotHolds fl q seq es f.id := by
  have hfoot : ∀ e : FileEntry, e ∈ es → e.isFooter = false := by
    intro e he; have := hnf e he; simp [FileEntry.isFooter, this]
  have hrl : (records es m).length = es.length + 1 := by simp [records]
  refine ⟨h.fullHeader hseq (by omega), fun i hi => h.fullEntry hwf hl i hi (by omega), hfoot, f, ?_, hf2, rfl⟩
  rw [h.ent es.length (by omega) (by omega) (by omega)]
  have e1 : (records es m)[es.length]'(by omega) = ⟨m, 0xFFFF, none⟩ := by
    unfold records; rw [List.getElem_append_right (Nat.le_refl _)]; simp
  rw [e1, show min 13 (13 * (es.length + 1) + k - (13 + es.length * 13)) = k by omega]
  exact hf

/-- **key lemma**: a slot holding a prefix of a table image is either unreadable or holds exactly the files of that
table (and then at least three bytes of the footer are there) -/
theorem Prefix.cases {fl : Flash} {q seq : Nat} {es : List FileEntry} {m t : Nat} (h : Prefix fl q (tableImage seq es m) t)
    (hseq : seq < 2 ^ 64) (hm : m < 2 ^ 64) (hwf : ∀ e ∈ es, e.WF) (hnf : ∀ e ∈ es, e.typ ≠ 0xFFFF)
    (hl : es.length ≤ 2518)
    (hcrash : 13 * (es.length + 2) ≤ t ∨ ((∀ e ∈ es, e.typ < 0x4000) ∧ es.length ≤ 2517)) :
    (∃ i, i ≤ 2518 ∧ (∀ j, j < i → ∃ e, Vlfs.ent fl (slotAddr q) j = some e ∧ e.isFooter = false) ∧
      Vlfs.ent fl (slotAddr q) i = none ∧ t < 13 * (es.length + 2)) ∨
    (∃ m', SlotHolds fl q seq es m' ∧ 13 * (es.length + 1) + 3 ≤ t ∧ (13 * (es.length + 2) ≤ t → m' = m)) := by
  have hfoot : ∀ e : FileEntry, e ∈ es → e.isFooter = false := by
    intro e he; have := hnf e he; simp [FileEntry.isFooter, this]
  have hrl : (records es m).length = es.length + 1 := by simp [records]
  -- complete records
  have hfull : ∀ i (hi : i < es.length), 13 + i * 13 + 13 ≤ t → Vlfs.ent fl (slotAddr q) i = some es[i] := by
    intro i hi ht
    rw [h.ent i (by omega) (by omega) (by omega)]
    have e1 : (records es m)[i]'(by omega) = es[i] := by
      unfold records; rw [List.getElem_append_left]
    rw [show min 13 (t - (13 + i * 13)) = 13 by omega, e1, torn_full _ (FileEntry.serialize_length _),
      deserialize_serialize _ (hwf _ (List.getElem_mem _))]
  have hheader : 13 ≤ t → headerDeserialize (fl.read (slotAddr q) 13) = some seq := by
    intro ht
    have := Flash.read_eq_of fl (slotAddr q) (headerSerialize seq) (by
      intro k hk
      rw [headerSerialize_length] at hk
      rw [h.wrote k (by omega) (by omega), tableImage_eq, List.getD_eq_getElem?_getD, List.getD_eq_getElem?_getD,
        List.getElem?_append_left (by rw [headerSerialize_length]; omega)])
    rw [headerSerialize_length] at this
    rw [this, headerDeserialize_serialize _ hseq]
  by_cases ht13 : t ≤ 13
  · left
    refine ⟨0, by omega, by intro j hj; omega, ?_, by omega⟩
    apply ent_blank
    intro k hk
    exact h.blank _ (by omega) (by omega) (by omega)
  · -- number of complete records
    obtain ⟨k, hk1, hk2⟩ : ∃ k, 13 + k * 13 ≤ t ∧ t < 13 + k * 13 + 13 := ⟨(t - 13) / 13, by omega, by omega⟩
    by_cases hke : k < es.length
    · -- torn inside the files
      left
      rcases hcrash with hc | ⟨htyp, hl'⟩
      · omega
      · have e1 : (records es m)[k]'(by omega) = es[k] := by
          unfold records; rw [List.getElem_append_left]
        have hent := h.ent k (by omega) (by omega) (by omega)
        rw [e1] at hent
        cases hd : FileEntry.deserialize (torn es[k].serialize (min 13 (t - (13 + k * 13)))) with
        | none =>
          refine ⟨k, by omega, ?_, by rw [hent, hd], by omega⟩
          intro j hj
          exact ⟨_, hfull j (by omega) (by omega), hfoot _ (List.getElem_mem _)⟩
        | some f =>
          have hnf2 := torn_not_footer es[k] (htyp _ (List.getElem_mem _)) _ (by omega) f hd
          refine ⟨k + 1, by omega, ?_, ?_, by omega⟩
          · intro j hj
            by_cases hjk : j = k
            · subst hjk; exact ⟨f, by rw [hent, hd], hnf2⟩
            · exact ⟨_, hfull j (by omega) (by omega), hfoot _ (List.getElem_mem _)⟩
          · apply ent_blank
            intro a ha
            exact h.blank _ (by omega) (by omega) (by omega)
    · -- all files complete
      have e1 : (records es m)[es.length]'(by omega) = ⟨m, 0xFFFF, none⟩ := by
        unfold records; rw [List.getElem_append_right (Nat.le_refl _)]; simp
      have hent := h.ent es.length (by omega) (by omega)
      by_cases hcomp : 13 * (es.length + 2) ≤ t
      · right
        refine ⟨m, ⟨hheader (by omega), fun i hi => hfull i hi (by omega), hfoot, ?_⟩, by omega, fun _ => rfl⟩
        refine ⟨⟨m, 0xFFFF, none⟩, ?_, rfl, rfl⟩
        have hrec : fl.read (slotAddr q + 13 + es.length * 13) 13 = FileEntry.serialize ⟨m, 0xFFFF, none⟩ := by
          have := Flash.read_eq_of fl (slotAddr q + 13 + es.length * 13) (FileEntry.serialize ⟨m, 0xFFFF, none⟩) (by
            intro a ha
            rw [FileEntry.serialize_length] at ha
            rw [show slotAddr q + 13 + es.length * 13 + a = slotAddr q + (13 + es.length * 13 + a) by omega,
              h.wrote _ (by omega) (by omega), image_getD _ _ _ _ _ (by omega) ha, e1])
          rw [FileEntry.serialize_length] at this
          exact this
        show FileEntry.deserialize _ = _
        rw [hrec, deserialize_serialize _ (WF_footer hm)]
      · -- torn footer
        rcases hcrash with hc | ⟨htyp, hl'⟩
        · omega
        · have hent := hent (by omega)
          rw [e1] at hent
          cases hd : FileEntry.deserialize (torn (FileEntry.serialize ⟨m, 0xFFFF, none⟩) (min 13 (t - (13 + es.length * 13)))) with
          | none =>
            left
            refine ⟨es.length, by omega, ?_, by rw [hent, hd], by omega⟩
            intro j hj
            exact ⟨_, hfull j hj (by omega), hfoot _ (List.getElem_mem _)⟩
          | some f =>
            cases hff : f.isFooter with
            | false =>
              left
              refine ⟨es.length + 1, by omega, ?_, ?_, by omega⟩
              · intro j hj
                by_cases hjk : j = es.length
                · subst hjk; exact ⟨f, by rw [hent, hd], hff⟩
                · exact ⟨_, hfull j (by omega) (by omega), hfoot _ (List.getElem_mem _)⟩
              · apply ent_blank
                intro a ha
                exact h.blank _ (by omega) (by omega) (by omega)
            | true =>
              right
              refine ⟨f.id, ⟨hheader (by omega), fun i hi => hfull i hi (by omega), hfoot, f, by rw [hent, hd], hff, rfl⟩,
                ?_, fun hc => absurd hc hcomp⟩
              rcases Nat.lt_or_ge t (13 * (es.length + 1) + 3) with hlt | hlt
              rotate_left
              · exact hlt
              exfalso
              rw [FileEntry.deserialize, decode_torn_small _ _ (FileEntry.serialize_length _) (by omega)] at hd
              simp at hd

end Verif.Vlfs
