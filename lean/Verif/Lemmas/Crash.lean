import Verif.Lemmas.Directory
import Verif.Spec.Crash
/-
Interrupted directory updates.
-/
namespace Verif.Vlfs
open Verif Verif.Spec

/-- what an interrupted update may leave: the target slot partly erased, or holding `t` bytes of the new table -/
structure Interrupted (fs : FS) (fl' : Flash) (new : List FileEntry) (m : Nat) (T : Nat → Prop) : Prop where
  others : ∀ q, q < 4 → q ≠ nextPos fs → SameSlot fs.dev.flash fl' q
  target : (∃ P, SameSlot (blankPages P fs.dev.flash) fl' (nextPos fs)) ∨
    (∃ t, T t ∧ Prefix fl' (nextPos fs) (tableImage (fs.at'.seq + 1) new m) t)

/-- all operations of a complete update -/
def updateOps (fs : FS) (new : List FileEntry) (m : Nat) : List FlashOp :=
  .erase (slotAddr (nextPos fs)) 32768 ::
    pages (slotAddr (nextPos fs)) (tableImage (fs.at'.seq + 1) new m) (13 * (new.length + 2) / 256 + 1)

theorem pages_take (A : Nat) (S : Bytes) (n k : Nat) (h : k ≤ n) : (pages A S n).take k = pages A S k := by
  unfold pages
  rw [← List.map_take, List.take_range, Nat.min_eq_left h]

theorem prefix_eq_take {α : Type} {a b l : List α} (h : l = a ++ b) : a = l.take a.length := by
  rw [h]; simp

theorem interrupted_clean {fs : FS} {new : List FileEntry} {m : Nat} (hcap : new.length ≤ 2518) (fl' : Flash) (n : Nat)
    (h : LowEq fl' (applyOps fs.dev.flash ((updateOps fs new m).take n))) (T : Nat → Prop) (hT : ∀ k, T (256 * k)) :
    Interrupted fs fl' new m T := by
  have hlt := nextPos_lt fs
  cases n with
  | zero =>
    rw [List.take_zero, applyOps_nil] at h
    refine ⟨fun q hq _ => (fun j hj => (h.sameSlot hq j hj).symm), Or.inl ⟨fun _ => false, ?_⟩⟩
    intro j hj
    exact (h.sameSlot hlt j hj).symm
  | succ k =>
    have e : (updateOps fs new m).take (k + 1) = .erase (slotAddr (nextPos fs)) 32768 ::
        pages (slotAddr (nextPos fs)) (tableImage (fs.at'.seq + 1) new m) (min k (13 * (new.length + 2) / 256 + 1)) := by
      unfold updateOps
      rw [List.take_succ_cons]
      by_cases hk : k ≤ 13 * (new.length + 2) / 256 + 1
      · rw [pages_take _ _ _ _ hk, Nat.min_eq_left hk]
      · rw [List.take_of_length_le (by rw [pages_length]; omega), Nat.min_eq_right (by omega)]
    rw [e] at h
    refine ⟨fun q hq hne j hj => ?_, Or.inr ⟨256 * min k (13 * (new.length + 2) / 256 + 1), hT _, ?_⟩⟩
    · rw [h.sameSlot hq j hj]
      exact written_other _ _ _ _ _ (by omega) hne j hj
    · exact (written_prefix0 _ _ _ _).congr (fun j hj => (h.sameSlot hlt j hj).symm)

theorem torn_data_lowEq {fl fl' : Flash} {o : FlashOp} (ht : Torn fl o fl') (ho : o.isTable = false) : LowEq fl' fl := by
  have hn : ¬ o.addr < 131072 := by simpa [FlashOp.isTable] using ho
  intro a ha
  cases ht with
  | page A data t =>
    simp only [FlashOp.addr] at hn
    simp only [FlashOp.apply]
    rw [if_neg (by omega)]
  | erase A len P =>
    simp only [FlashOp.addr] at hn
    show (if _ then _ else _) = _
    rw [if_neg (fun h => by omega)]

theorem torn_lowEq {fl g fl' : Flash} {o : FlashOp} (h : LowEq fl g) (ht : Torn fl o fl') :
    ∃ g', Torn g o g' ∧ LowEq fl' g' := by
  cases ht with
  | page A data t => exact ⟨_, .page A data t, apply_lowEq h _⟩
  | erase A len P =>
    refine ⟨_, .erase A len P, fun a ha => ?_⟩
    show (if _ then _ else _) = (if _ then _ else _)
    rw [h a ha]

/-- every crash image of an update is an interrupted state -/
theorem interrupted_of_crash {fs : FS} {new : List FileEntry} {m : Nat} (hcap : new.length ≤ 2518) {os : List FlashOp}
    (hos : os.filter FlashOp.isTable = updateOps fs new m) {fl' : Flash} (hc : CrashImage fs.dev.flash os fl') :
    Interrupted fs fl' new m (fun _ => True) := by
  have hlt := nextPos_lt fs
  cases hc with
  | between pre post h =>
    have hf : updateOps fs new m = pre.filter FlashOp.isTable ++ post.filter FlashOp.isTable := by
      rw [← hos, h, List.filter_append]
    refine interrupted_clean hcap _ (pre.filter FlashOp.isTable).length ?_ _ (fun _ => trivial)
    rw [← prefix_eq_take hf]
    exact applyOps_filter _ _
  | during pre post o fl' h ht =>
    have hf : updateOps fs new m = pre.filter FlashOp.isTable ++ (o :: post).filter FlashOp.isTable := by
      rw [← hos, h, List.filter_append]
    cases ho : o.isTable with
    | false =>
      refine interrupted_clean hcap _ (pre.filter FlashOp.isTable).length ?_ _ (fun _ => trivial)
      rw [← prefix_eq_take hf]
      exact (torn_data_lowEq ht ho).trans (applyOps_filter _ _)
    | true =>
      rw [List.filter_cons_of_pos ho] at hf
      obtain ⟨g', hg1, hg2⟩ := torn_lowEq (applyOps_filter fs.dev.flash pre) ht
      generalize hpp : pre.filter FlashOp.isTable = pp at *
      generalize post.filter FlashOp.isTable = qq at *
      cases pp with
      | nil =>
        -- torn erase
        rw [List.nil_append, updateOps, List.cons.injEq] at hf
        obtain ⟨h1, h2⟩ := hf
        subst h1
        cases hg1 with
        | erase _ _ P =>
          refine ⟨fun q hq hne j hj => ?_, Or.inl ⟨P, fun j hj => ?_⟩⟩
          · rw [hg2.sameSlot hq j hj]
            show _ = if _ then _ else _
            rw [if_neg]
            · rfl
            · rw [slotAddr_eq, slotAddr_eq]; omega
          · rw [hg2.sameSlot hlt j hj]
            unfold blankPages
            show _ = if _ then _ else _
            by_cases hP : P ((slotAddr (nextPos fs) + j) / 256) = true
            · rw [if_pos hP, if_pos ⟨by omega, hP⟩]
            · rw [if_neg hP, if_neg (fun h => hP h.2)]; rfl
      | cons p0 pp =>
        rw [List.cons_append, updateOps, List.cons.injEq] at hf
        obtain ⟨h1, h2⟩ := hf
        subst h1
        have hk : pp.length < 13 * (new.length + 2) / 256 + 1 := by
          have := congrArg List.length h2
          rw [pages_length, List.length_append, List.length_cons] at this; omega
        have hpp' : pp = pages (slotAddr (nextPos fs)) (tableImage (fs.at'.seq + 1) new m) pp.length := by
          rw [← pages_take _ _ _ _ (Nat.le_of_lt hk), ← prefix_eq_take h2]
        have ho' : o = .page (slotAddr (nextPos fs) + 256 * pp.length)
            (((tableImage (fs.at'.seq + 1) new m).drop (256 * pp.length)).take 256) := by
          have h3 : (pages (slotAddr (nextPos fs)) (tableImage (fs.at'.seq + 1) new m)
              (13 * (new.length + 2) / 256 + 1))[pp.length]? = some o := by rw [h2]; simp
          unfold pages at h3
          rw [List.getElem?_map, List.getElem?_range hk] at h3
          simpa using h3.symm
        subst ho'
        cases hg1 with
        | page _ _ t =>
          have hself : ∀ (l : Bytes), (l.take 256).take t = (l.take 256).take (min t 256) := by
            intro l; rw [List.take_take, List.take_take]; congr 1; omega
          have hpre := written_prefix fs.dev.flash (nextPos fs) (tableImage (fs.at'.seq + 1) new m) pp.length (min t 256)
            (by omega)
          rw [← hself, ← hpp', applyOps_append, applyOps_cons, applyOps_nil] at hpre
          refine ⟨fun q hq hne j hj => ?_, Or.inr ⟨_, trivial, hpre.congr (fun j hj => (hg2.sameSlot hlt j hj).symm)⟩⟩
          rw [hg2.sameSlot hq j hj]
          simp only [FlashOp.apply]
          rw [if_neg (by rw [slotAddr_eq, slotAddr_eq]; omega)]
          rw [hpp']
          exact written_other _ _ _ _ _ (by omega) hne j hj

/-- page-granular crash images: whole pages only -/
theorem interrupted_of_pageCrash {fs : FS} {new : List FileEntry} {m : Nat} (hcap : new.length ≤ 2518) {os : List FlashOp}
    (hos : os.filter FlashOp.isTable = updateOps fs new m) {fl' : Flash} (hc : PageCrash fs.dev.flash os fl') :
    Interrupted fs fl' new m (fun t => t % 256 = 0) := by
  have hlt := nextPos_lt fs
  cases hc with
  | between pre post h =>
    have hf : updateOps fs new m = pre.filter FlashOp.isTable ++ post.filter FlashOp.isTable := by
      rw [← hos, h, List.filter_append]
    refine interrupted_clean hcap _ (pre.filter FlashOp.isTable).length ?_ _ (fun k => by omega)
    rw [← prefix_eq_take hf]
    exact applyOps_filter _ _
  | erasing pre post a len fl' h ht =>
    have hf : updateOps fs new m = pre.filter FlashOp.isTable ++ (FlashOp.erase a len :: post).filter FlashOp.isTable := by
      rw [← hos, h, List.filter_append]
    cases ho : (FlashOp.erase a len).isTable with
    | false =>
      refine interrupted_clean hcap _ (pre.filter FlashOp.isTable).length ?_ _ (fun k => by omega)
      rw [← prefix_eq_take hf]
      exact (torn_data_lowEq ht ho).trans (applyOps_filter _ _)
    | true =>
      have hi := interrupted_of_crash hcap hos (.during pre post _ fl' h ht)
      refine ⟨hi.others, ?_⟩
      rw [List.filter_cons_of_pos ho] at hf
      obtain ⟨g', hg1, hg2⟩ := torn_lowEq (applyOps_filter fs.dev.flash pre) ht
      generalize hpp : pre.filter FlashOp.isTable = pp at *
      cases pp with
      | nil =>
        rw [List.nil_append, updateOps, List.cons.injEq] at hf
        obtain ⟨h1, h2⟩ := hf
        cases hg1 with
        | erase _ _ P =>
          refine Or.inl ⟨P, fun j hj => ?_⟩
          rw [hg2.sameSlot hlt j hj]
          injection h1 with h1 h1'
          subst h1; subst h1'
          unfold blankPages
          show _ = if _ then _ else _
          by_cases hP : P ((slotAddr (nextPos fs) + j) / 256) = true
          · rw [if_pos hP, if_pos ⟨by omega, hP⟩]
          · rw [if_neg hP, if_neg (fun h => hP h.2)]; rfl
      | cons p0 pp =>
        exfalso
        rw [List.cons_append, updateOps, List.cons.injEq] at hf
        have : FlashOp.erase a len ∈ pages (slotAddr (nextPos fs)) (tableImage (fs.at'.seq + 1) new m)
            (13 * (new.length + 2) / 256 + 1) := by rw [hf.2]; simp
        unfold pages at this
        rw [List.mem_map] at this
        obtain ⟨_, _, h⟩ := this
        exact absurd h (by simp)

/-- a restart finds exactly the files `es` -/
def Restarts (fl : Flash) (es : List FileEntry) : Prop :=
  ∃ p seq m, p < 4 ∧ 1 ≤ seq ∧ es.length ≤ 2518 ∧ SlotHolds fl p seq es m ∧ ∀ q, q < 4 → q ≠ p → Rejected fl q seq

theorem DirInv.restarts {fs : FS} {es : List FileEntry} (h : DirInv fs es) : Restarts fs.dev.flash es :=
  ⟨_, _, _, h.pos, h.seq1, h.cap, h.holds, fun q h1 h2 => (h.stale q h1 h2).rejected⟩

/-- **atomicity** (one crash, bytes torn) -/
theorem Interrupted.restarts {fs : FS} {es new : List FileEntry} {m : Nat} {T : Nat → Prop} {fl' : Flash} (hd : DirInv fs es)
    (hi : Interrupted fs fl' new m T) (hw : Writable new m) (htyp : ∀ e ∈ new, e.typ < 0x4000) (hl : new.length ≤ 2517)
    (hseq : fs.at'.seq + 1 < 2 ^ 64) : Restarts fl' es ∨ Restarts fl' new := by
  have hpos := hd.pos
  have hne := nextPos_ne hpos
  have hold : SlotHolds fl' fs.at'.position fs.at'.seq es fs.at'.maxId :=
    hd.holds.congr (hi.others _ hpos (fun h => hne h.symm)) hd.cap
  have hrej : ∀ q, q < 4 → q ≠ fs.at'.position → q ≠ nextPos fs → Rejected fl' q fs.at'.seq :=
    fun q h1 h2 h3 => ((hd.stale q h1 h2).congr (hi.others q h1 h3)).rejected
  rcases hi.target with ⟨P, hP⟩ | ⟨t, _, hp⟩
  · left
    refine ⟨_, _, _, hpos, hd.seq1, hd.cap, hold, fun q h1 h2 => ?_⟩
    by_cases hq : q = nextPos fs
    · subst hq
      exact ((hd.stale _ h1 hne).blank P |>.congr hP).rejected
    · exact hrej q h1 h2 hq
  · rcases hp.cases hseq hw.maxLt hw.wf hw.typ hw.cap (Or.inr ⟨htyp, hl⟩) with ⟨i, hi1, hj, hn, _⟩ | ⟨m', hh, _, _⟩
    · left
      refine ⟨_, _, _, hpos, hd.seq1, hd.cap, hold, fun q h1 h2 => ?_⟩
      by_cases hq : q = nextPos fs
      · subst hq; exact Or.inr (Or.inr ⟨i, hi1, hj, hn⟩)
      · exact hrej q h1 h2 hq
    · right
      refine ⟨nextPos fs, fs.at'.seq + 1, m', nextPos_lt fs, by omega, hw.cap, hh, fun q h1 h2 => ?_⟩
      by_cases hq : q = fs.at'.position
      · subst hq
        exact (SlotHolds.stale hold (Nat.lt_succ_self _)).rejected
      · exact (hrej q h1 hq h2).mono (Nat.le_succ _)

/-- the footer lies in one page -/
def FooterFits (new : List FileEntry) : Prop := 13 * (new.length + 1) % 256 ≤ 243

/-- **atomicity with the whole invariant** (pages are programmed completely or not at all): the state after restart
satisfies the invariant with the old table or with the new one -/
theorem Interrupted.dirInv {fs : FS} {es new : List FileEntry} {m : Nat} {fl' : Flash} (hd : DirInv fs es)
    (hi : Interrupted fs fl' new m (fun t => t % 256 = 0)) (hw : Writable new m) (htyp : ∀ e ∈ new, e.typ < 0x4000)
    (hl : new.length ≤ 2517) (hfit : FooterFits new) (hseq : fs.at'.seq + 1 < 2 ^ 64) (op : List Nat) (mg : SectorsMng) (lg : List FlashOp) :
    DirInv ⟨{ fs.at' with opened := op }, mg, ⟨fl', lg⟩⟩ es ∨
    DirInv ⟨⟨fs.at'.seq + 1, new.length, m, nextPos fs, op⟩, mg, ⟨fl', lg⟩⟩ new := by
  have hpos := hd.pos
  have hne := nextPos_ne hpos
  have hold : SlotHolds fl' fs.at'.position fs.at'.seq es fs.at'.maxId :=
    hd.holds.congr (hi.others _ hpos (fun h => hne h.symm)) hd.cap
  have hrej : ∀ q, q < 4 → q ≠ fs.at'.position → q ≠ nextPos fs → Stale fl' q fs.at'.seq :=
    fun q h1 h2 h3 => (hd.stale q h1 h2).congr (hi.others q h1 h3)
  have left_of : Stale fl' (nextPos fs) fs.at'.seq → DirInv ⟨{ fs.at' with opened := op }, mg, ⟨fl', lg⟩⟩ es := by
    intro hst
    refine ⟨hpos, hd.seq1, hd.seq, hold, hd.count, hd.cap, fun q h1 h2 => ?_, hd.wf, hd.typ, hd.sorted, hd.maxId, hd.maxLt⟩
    by_cases hq : q = nextPos fs
    · subst hq; exact hst
    · exact hrej q h1 h2 hq
  rcases hi.target with ⟨P, hP⟩ | ⟨t, ht, hp⟩
  · left
    exact left_of (((hd.stale _ (nextPos_lt fs) hne).blank P).congr hP)
  · by_cases hc : 13 * (new.length + 2) ≤ t
    · right
      have hh := SlotHolds.of_complete hp hc hseq hw
      refine ⟨nextPos_lt fs, by show 1 ≤ fs.at'.seq + 1; omega, hseq, hh, rfl, hw.cap, fun q h1 h2 => ?_, hw.wf, hw.typ,
        hw.sorted, hw.maxId, hw.maxLt⟩
      by_cases hq : q = fs.at'.position
      · subst hq; exact SlotHolds.stale hold (Nat.lt_succ_self _)
      · exact (hrej q h1 hq h2).mono (Nat.le_succ _)
    · left
      refine left_of (hp.stale ?_ hseq hw.maxLt hw.wf htyp hl)
      unfold FooterFits at hfit
      rcases Nat.lt_or_ge (13 * (new.length + 1) / 256) (t / 256) with h | h <;> omega

/-! ### mounting -/

theorem readLatest_restarts {fl : Flash} {p seq m : Nat} {es : List FileEntry} (hp : p < 4) (hs : 1 ≤ seq)
    (hc : es.length ≤ 2518) (h : SlotHolds fl p seq es m) (hr : ∀ q, q < 4 → q ≠ p → Rejected fl q seq) :
    readLatest fl AT.default = (⟨seq, es.length, m, p, []⟩, true) := by
  have := readLatest_spec hp h (by rw [maxEntries_eq]; omega) hr AT.default hs
  exact this

theorem mount_restarts {fl : Flash} {p seq m : Nat} {es : List FileEntry} (hp : p < 4) (hs : 1 ≤ seq)
    (hc : es.length ≤ 2518) (h : SlotHolds fl p seq es m) (hr : ∀ q, q < 4 → q ≠ p → Rejected fl q seq) :
    (∃ e, claimFiles fl es SectorsMng.new = .error e ∧
      FS.mount fl = (.error e, ⟨⟨seq, es.length, m, p, []⟩, SectorsMng.new, ⟨fl, []⟩⟩)) ∨
    (∃ mg, claimFiles fl es SectorsMng.new = .ok mg ∧
      FS.mount fl = (.ok (), ⟨⟨seq, es.length, m, p, []⟩, mg, ⟨fl, []⟩⟩)) := by
  unfold FS.mount
  simp only [readLatest_restarts hp hs hc h hr, if_true]
  have : FS.filesIter ⟨⟨seq, es.length, m, p, []⟩, SectorsMng.new, ⟨fl, []⟩⟩ (fun _ => true) = .ok es := by
    rw [filesIter_spec (fs := ⟨⟨seq, es.length, m, p, []⟩, SectorsMng.new, ⟨fl, []⟩⟩) h rfl, List.filter_eq_self.mpr (by simp)]
  rw [this]
  simp only
  cases claimFiles fl es SectorsMng.new with
  | error e => left; exact ⟨e, rfl, rfl⟩
  | ok mg => right; exact ⟨mg, rfl, rfl⟩

end Verif.Vlfs
