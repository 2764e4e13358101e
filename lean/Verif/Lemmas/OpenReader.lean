import Verif.Lemmas.SystemKeep
import Verif.Spec.OpenReader
/-
A reader only looks at the sectors of its file; they do not change while the file is open.
-/
namespace Verif.Vlfs
open Verif Verif.Spec

/-- the next pointers of the sectors `l` lead to sectors in `l` -/
def NextIn (fl : Flash) (l : List Nat) : Prop :=
  ∀ s ∈ l, ∀ next, mostCommonU16 (fl.read (s * 4096 + 4096 - 8) 8) = some next → next = 0xFFFF ∨ next ∈ l

theorem Chain.head_mem {fl : Flash} {s : Nat} {l : List Nat} (h : Chain fl (some s) l) : s ∈ l := by
  cases h; simp

theorem Chain.nextIn {fl : Flash} {o : Option Nat} {l : List Nat} (h : Chain fl o l) : NextIn fl l := by
  induction h with
  | nil => intro s hs; simp at hs
  | cons s next l hm ht ih =>
    intro x hx n hn
    rcases List.mem_cons.mp hx with rfl | hx
    · rw [hm] at hn
      injection hn with hn
      subst hn
      by_cases he : next = 0xFFFF
      · exact .inl he
      · rw [if_neg he] at ht
        exact .inr (List.mem_cons_of_mem _ ht.head_mem)
    · rcases ih x hx n hn with h | h
      · exact .inl h
      · exact .inr (List.mem_cons_of_mem _ h)

/-- the reader is in one of the sectors `l`, or at the end -/
def ReaderIn (l : List Nat) (r : FileReader) : Prop := ∀ s, r.sector = some s → s ∈ l

theorem readerIn_set {l : List Nat} {r : FileReader} {next : Nat} (h : next = 0xFFFF ∨ next ∈ l) : ReaderIn l (r.setSector next) := by
  intro s hs
  have hs : (if next = 0xFFFF then none else some next) = some s := hs
  split at hs
  · exact absurd hs (by simp)
  · injection hs with hs
    subst hs
    rcases h with h | h
    · contradiction
    · exact h

theorem readPage_in {crc : Bytes → UInt32} {fl : Flash} {l : List Nat} (hl : NextIn fl l) {r : FileReader} (hr : ReaderIn l r) {s : Nat}
    (hs : r.sector = some s) (u : Option Nat) : ReaderIn l (r.readPage crc fl (s * SECTOR_SIZE) u).2 := by
  have hm := hr s hs
  unfold FileReader.readPage
  simp only
  by_cases h15 : r.page = 15
  · have hb : (r.page == 15) = true := by simp [h15]
    simp only [hb, if_true]
    have : (fl.read (s * SECTOR_SIZE + r.page * PAGE_SIZE) 256).drop (PAGE_SIZE - 8) = fl.read (s * 4096 + 4096 - 8) 8 := by
      rw [Flash.read_drop _ _ _ _ (by omegac), h15]
      have e1 : s * SECTOR_SIZE + 15 * PAGE_SIZE + (PAGE_SIZE - 8) = s * 4096 + 4096 - 8 := by omegac
      have e2 : 256 - (PAGE_SIZE - 8) = 8 := by decide
      rw [e1, e2]
    rw [this]
    cases hn : mostCommonU16 (fl.read (s * 4096 + 4096 - 8) 8) with
    | none => exact hr
    | some next =>
      simp only
      have := readerIn_set (r := r) (hl s hm next hn)
      split <;> exact this
  · have hb : (r.page == 15) = false := by simp [h15]
    simp only [hb, Bool.false_eq_true, if_false]
    split <;> exact hr

theorem readNextPage_in {crc : Bytes → UInt32} {fl : Flash} {l : List Nat} (hl : NextIn fl l) {r : FileReader} (hr : ReaderIn l r) :
    ReaderIn l (r.readNextPage crc fl).2 := by
  unfold FileReader.readNextPage
  cases hs : r.sector with
  | none =>
    intro s h
    have h : (none : Option Nat) = some s := h
    exact absurd h (by simp)
  | some s =>
    simp only
    split
    · exact hr
    · have key : ∀ r1 : FileReader, r1.sector = some s → ReaderIn l (match r1.length with
          | .read n => if n - r1.readLen = 0 then
              match mostCommonU16 (fl.read (s * SECTOR_SIZE + SECTOR_SIZE - 8) 8) with
              | none => ((.error .panic : Except Err ReadStatus), r1)
              | some next => ((.ok .ok : Except Err ReadStatus), { r1.setSector next with ahead := [] })
            else r1.readPage crc fl (s * SECTOR_SIZE) (some (n - r1.readLen))
          | _ => r1.readPage crc fl (s * SECTOR_SIZE) none).2 := by
        intro r1 h1
        have hr1 : ReaderIn l r1 := fun x hx => by rw [h1] at hx; injection hx with hx; subst hx; exact hr s hs
        split
        · split
          · split
            · exact hr1
            · rename_i next hn
              exact readerIn_set (r := r1) (hl s (hr s hs) next hn)
          · exact readPage_in hl hr1 h1 _
        · exact readPage_in hl hr1 h1 _
      refine key _ ?_
      split
      · rfl
      · exact hs

theorem readLoop_in {crc : Bytes → UInt32} {fl : Flash} {l : List Nat} (hl : NextIn fl l) : ∀ (fuel : Nat) (r : FileReader) (n : Nat) (acc : Bytes),
    ReaderIn l r → ReaderIn l (FileReader.readLoop crc fl fuel r n acc).2 := by
  intro fuel
  induction fuel with
  | zero => intro r n acc h; exact h
  | succ fuel ih =>
    intro r n acc h
    rw [FileReader.readLoop]
    split
    · split
      · have := readNextPage_in (crc := crc) hl h
        generalize r.readNextPage crc fl = q at this
        obtain ⟨q1, q2⟩ := q
        rcases q1 with e | (_ | _ | _)
        · exact this
        · exact ih _ _ _ this
        · exact this
        · exact this
      · simp only
        split <;> exact ih _ _ _ h
    · exact h

/-- the chip may change outside the sectors of the file -/
theorem pagesFrom_congr {crc : Bytes → UInt32} {fl fl' : Flash} {s : Nat} (h : SameSector fl fl' s) (p : Nat) :
    pagesFrom crc fl s (sectorLength fl s) p = pagesFrom crc fl' s (sectorLength fl' s) p := by
  have hle := sectorLength_le fl s
  unfold pagesFrom
  rw [← h.sectorLength]
  refine List.flatMap_congr ?_
  intro q hq
  rw [List.mem_range'_1] at hq
  unfold pageItems
  simp only
  have hq2 : 252 * q < sectorLength fl s := by omega
  have e : ∀ a n, 256 * q + a + n ≤ 4096 → fl.read (s * 4096 + 256 * q + a) n = fl'.read (s * 4096 + 256 * q + a) n := by
    intro a n ha
    have := h.read (256 * q + a) n (by omega)
    rw [← Nat.add_assoc] at this
    exact this
  have e0 : ∀ n, 256 * q + n ≤ 4096 → fl.read (s * 4096 + 256 * q) n = fl'.read (s * 4096 + 256 * q) n := fun n hn => by
    have := e 0 n (by omega)
    rw [Nat.add_zero] at this; exact this
  rw [e0 _ (by omega), e0 _ (by omega), e _ 4 (by omega)]

theorem fileItems_congr {crc : Bytes → UInt32} {fl fl' : Flash} {l : List Nat} (hs : ∀ s ∈ l, SameSector fl fl' s) :
    fileItems crc fl l = fileItems crc fl' l := by
  unfold fileItems
  exact List.flatMap_congr fun s hm => (hs s hm).items

/-- all sectors reached from a sector in a closed set are in the set -/
theorem Chain.sub {fl : Flash} {o : Option Nat} {l m : List Nat} (h : Chain fl o l) (hm : NextIn fl m) (ho : ∀ s, o = some s → s ∈ m) : l ⊆ m := by
  induction h with
  | nil => simp
  | cons s next l hn ht ih =>
    have h1 := ho s rfl
    intro x hx
    rcases List.mem_cons.mp hx with rfl | hx
    · exact h1
    · refine ih ?_ hx
      intro y hy
      split at hy
      · exact absurd hy (by simp)
      · injection hy with hy
        subst hy
        rcases hm s h1 next hn with h | h
        · contradiction
        · exact h

theorem RInv.congr {crc : Bytes → UInt32} {fl fl' : Flash} {r : FileReader} {items : List Item} {c : Nat} {m : List Nat}
    (h : RInv crc fl r items c) (hm : NextIn fl m) (hin : ReaderIn m r) (hs : ∀ s ∈ m, SameSector fl fl' s) : RInv crc fl' r items c := by
  obtain ⟨its, hp, rfl⟩ := h
  refine ⟨its, ?_, rfl⟩
  cases hp with
  | eof h => exact .eof r h
  | fresh s l a b c d e =>
    have hsub := e.sub hm (fun x hx => by injection hx with hx; subst hx; exact hin s a)
    have hs' : ∀ x ∈ s :: l, SameSector fl fl' x := fun x hx => hs x (hsub hx)
    rw [fileItems_congr hs']
    exact .fresh r s l a b c d (e.congrSame hs')
  | inside s l a b c d =>
    have hsub := d.sub hm (fun x hx => by injection hx with hx; subst hx; exact hin s a)
    have hs' : ∀ x ∈ s :: l, SameSector fl fl' x := fun x hx => hs x (hsub hx)
    have h0 := hs' s (List.mem_cons_self ..)
    rw [fileItems_congr (l := l) (fun x hx => hs' x (List.mem_cons_of_mem _ hx)), pagesFrom_congr h0]
    refine .inside r s l a b ?_ (d.congrSame hs')
    rw [← h0.sectorLength]; exact c

/-- the file and its reader during a `ReadRun` -/
structure RunInv (crc : Bytes → UInt32) (k : Known) (fs : FS) (ks : List Known) (r : FileReader) (rest : List Item) : Prop where
  hist : Hist crc fs ks
  opened : k.id ∈ fs.at'.opened
  noWriter : k.writer = none
  file : ∃ files leak, ∃ f : FileSt, files.map (·.k) = ks ∧ Sys crc fs files leak ∧ f ∈ files ∧ f.k = k ∧ NextIn fs.dev.flash f.own ∧
    ReaderIn f.own r ∧ ∃ c, RInv crc fs.dev.flash r rest c ∧ c ≤ 999990

theorem readRun_inv {crc : Bytes → UInt32} {k : Known} {fs : FS} {ks : List Known} {r : FileReader} {ns : List Nat}
    {as : List (Except Err (Bytes × ReadStatus))} (h : ReadRun crc k fs ks r ns as) :
    ∃ pre, pre <+: k.maybe ∧ ∃ rest, RunInv crc k fs ks r rest ∧ ∀ ms, as ++ (consumes rest ms).map .ok = (consumes ((k.data ++ pre).map .byte) (ns ++ ms)).map .ok := by
  induction h with
  | @opened fs fs' ks r hr hk hw hdm ho =>
    obtain ⟨files, leak, f, hf, hs, hm, rfl⟩ := (hist_inv hr).file hk
    have hok := hs.ok f hm
    obtain ⟨hst, pre, hpre, hdata⟩ := hok.closed hw hdm
    obtain ⟨d1, d2⟩ := hs.own_data hm
    have hown : f.own = secs f.segs := by unfold FileSt.own; rw [hw]
    rw [hown] at d1 d2
    have hlen := data_length d1 d2
    have hstep : Hist crc fs' ks := by
      have := Hist.step hr (Step.openRead (crc := crc) f.k.id)
      rw [ho] at this; exact this
    rcases openRead_spec hs hm with ⟨_, g⟩ | ⟨_, g⟩ | ⟨_, _, g⟩
    · rw [g] at ho; injection ho with ho _; exact absurd ho (by simp)
    · rw [g] at ho; injection ho with ho _; exact absurd ho (by simp)
    · rw [g] at ho
      injection ho with ho1 ho2
      injection ho1 with ho1
      subst ho1 ho2
      refine ⟨pre, hpre, fileItems crc fs.dev.flash (secs f.segs), ⟨hstep, by simp, hw, files, leak, f, hf, ?_, hm, rfl, ?_, ?_, _, RInv_new hst.chain _, by omega⟩, ?_⟩
      · exact hs.opened rfl rfl rfl rfl rfl rfl (fun g _ _ _ hg => List.mem_append_left _ hg)
      · rw [hown]; exact hst.chain.nextIn
      · rw [hown]
        intro s h
        have hc := hst.chain
        have h : f.e.first = some s := h
        rw [h] at hc
        exact hc.head_mem
      · intro ms
        rw [hst.items, hdata]; rfl
  | @other fs fs' ks ks' r ns as h hs hl ho ih =>
    obtain ⟨pre, hpre, rest, hi, hans⟩ := ih
    refine ⟨pre, hpre, rest, ?_, hans⟩
    obtain ⟨hh, hop, hw, files, leak, f, hf, hsys, hm, hfk, hnext, hin, c, hR, hc⟩ := hi
    subst hf
    obtain ⟨files', leak', hf', hsys', hkept⟩ := step_to hsys hs
    obtain ⟨k', hk', hid⟩ := hl
    rw [← hf'] at hk'
    obtain ⟨g, hg, rfl⟩ := List.mem_map.mp hk'
    obtain ⟨hm', hsame⟩ := hkept f hm (by rw [hfk]; exact hw) (by rw [hfk]; exact hop) ⟨g, hg, by rw [hfk]; exact hid⟩
    refine ⟨.step hh hs, ho, hw, files', leak', f, hf', hsys', hm', hfk, ?_, hin, c, hR.congr hnext hin hsame, hc⟩
    intro s hsm n hn
    refine hnext s hsm n ?_
    have := (hsame s hsm).read 4088 8 (by omega)
    rw [show s * 4096 + 4096 - 8 = s * 4096 + 4088 by omega] at hn ⊢
    rw [this]; exact hn
  | @read fs ks r r' ns as n a h hr ih =>
    obtain ⟨pre, hpre, rest, hi, hans⟩ := ih
    obtain ⟨hh, hop, hw, files, leak, f, hf, hsys, hm, hfk, hnext, hin, c, hR, hc⟩ := hi
    obtain ⟨r2, c2, e1, e2, e3⟩ := readSlice_spec n hR hc
    rw [hr] at e1
    injection e1 with e1 e4
    subst e1 e4
    refine ⟨pre, hpre, _, ⟨hh, hop, hw, files, leak, f, hf, hsys, hm, hfk, hnext, ?_, c2, e2, by omega⟩, ?_⟩
    · have := readLoop_in (crc := crc) hnext maxReads r n [] hin
      have e : FileReader.readLoop crc fs.dev.flash maxReads r n [] = r.readSlice crc fs.dev.flash n := rfl
      rw [e, hr] at this
      exact this
    · intro ms
      have := hans (n :: ms)
      simp only [List.append_assoc, List.singleton_append, consumes, List.map_cons] at this ⊢
      exact this

end Verif.Vlfs
