import Verif.Lemmas.Crash
import Verif.Lemmas.Sectors
import Verif.Spec.Chain
import Verif.Model.Ring
/-
The directory operations as complete updates.
-/
namespace Verif.Vlfs
open Verif Verif.Spec

/-! ### the sector manager only touches the data region -/

/-- the sectors waiting to be handed out have valid indices -/
def MngRange (s : SectorsMng) : Prop := ∀ x ∈ s.ahead ++ s.asyncAhead, InData x

/-- the operations are all on the data region -/
def DataOps (os : List FlashOp) : Prop := ∀ o ∈ os, o.isTable = false ∧ ∀ fl, OpOk fl o

theorem DataOps.filter {os : List FlashOp} (h : DataOps os) : os.filter FlashOp.isTable = [] := by
  rw [List.filter_eq_nil_iff]; intro o ho; simp [h o ho]

theorem region_inside {s : SectorsMng} {rng : Nat} {r : EraseRegion} (h : s.claimEraseRegion rng = some (.ok r)) :
    r.first + r.len ≤ DATA_REGION_SECTORS ∧ (r.len = 1 ∨ r.len = 8 ∨ r.len = 16) ∧ r.first % r.len = 0 := by
  unfold SectorsMng.claimEraseRegion at h
  split at h
  · exact absurd h (by simp)
  · split at h
    · rename_i i hi
      injection h with h; injection h with h; subst h
      have := (findClear_some hi).1
      exact ⟨by omegac, by simp, by simp⟩
    · split at h
      · rename_i i hi
        injection h with h; injection h with h; subst h
        have := (findClear_some hi).1
        exact ⟨by omegac, by simp, by simp⟩
      · split at h
        · rename_i i hi
          injection h with h; injection h with h; subst h
          have := (findClear_some hi).1
          exact ⟨by omegac, by simp, Nat.mod_one _⟩
        · injection h with h; exact absurd h (by simp)

theorem sectors_inData {r : EraseRegion} (h : r.first + r.len ≤ DATA_REGION_SECTORS) : ∀ x ∈ r.sectors, InData x := by
  intro x hx
  rw [mem_sectors] at hx
  unfold InData
  omegac

theorem erase_data {s s' : SectorsMng} {r : EraseRegion} {ua : Bool} {dev dev' : Dev}
    (hra : r.first + r.len ≤ DATA_REGION_SECTORS ∧ (r.len = 1 ∨ r.len = 8 ∨ r.len = 16) ∧ r.first % r.len = 0) (hs : MngRange s) (h : s.erase r ua dev = some (s', dev')) :
    MngRange s' ∧ ∃ os, dev' = dev.ops os ∧ DataOps os := by
  have key : s' = (if ua then { s with map := r.sectors.foldl SectorMap.setUsed s.map, asyncAhead := s.asyncAhead ++ r.sectors }
      else { s with map := r.sectors.foldl SectorMap.setUsed s.map, ahead := s.ahead ++ r.sectors }) ∧
      dev' = dev.op (.erase r.address (r.len * SECTOR_SIZE)) := by
    unfold SectorsMng.erase at h
    cases ua with
    | true =>
      simp only [if_true] at h
      split at h
      · exact absurd h (by simp)
      · injection h with h; injection h with h1 h2
        exact ⟨h1.symm, h2.symm⟩
    | false =>
      simp only [Bool.false_eq_true, if_false] at h
      split at h
      · exact absurd h (by simp)
      · injection h with h; injection h with h1 h2
        exact ⟨h1.symm, h2.symm⟩
  obtain ⟨h1, h2⟩ := key
  have hr := hra.1
  refine ⟨?_, [.erase r.address (r.len * SECTOR_SIZE)], h2, ?_⟩
  · subst h1
    intro x hx
    cases ua with
    | true =>
      simp only [if_true, List.mem_append] at hx
      rcases hx with hx | hx | hx
      · exact hs x (List.mem_append_left _ hx)
      · exact hs x (List.mem_append_right _ hx)
      · exact sectors_inData hr x hx
    | false =>
      simp only [Bool.false_eq_true, if_false, List.mem_append] at hx
      rcases hx with (hx | hx) | hx
      · exact hs x (List.mem_append_left _ hx)
      · exact sectors_inData hr x hx
      · exact hs x (List.mem_append_right _ hx)
  · intro o ho
    rw [List.mem_singleton] at ho
    subst ho
    refine ⟨decide_eq_false ?_, eraseOk hra.1 hra.2.1 hra.2.2⟩
    show ¬ (r.first + 32) * 4096 < 131072
    omega

theorem claimAndErase_data {s s' : SectorsMng} {rng : Nat} {ua : Bool} {dev dev' : Dev} (hs : MngRange s)
    (h : s.claimAndErase rng ua dev = some (s', dev')) : MngRange s' ∧ ∃ os, dev' = dev.ops os ∧ DataOps os := by
  unfold SectorsMng.claimAndErase at h
  split at h
  · injection h with h; injection h with h1 h2; subst h1; subst h2
    exact ⟨hs, [], (Dev.ops_nil _).symm, by intro o ho; simp at ho⟩
  · exact absurd h (by simp)
  · rename_i r hr
    exact erase_data (region_inside hr) hs h

theorem pop_range {s s' : SectorsMng} {x : Nat} (hs : MngRange s) (h : s.pop = some (x, s')) : InData x ∧ MngRange s' := by
  unfold SectorsMng.pop at h
  split at h
  · exact absurd h (by simp)
  · rename_i y hy
    injection h with h; injection h with h1 h2
    subst h1; subst h2
    refine ⟨hs y (List.mem_append_left _ (List.mem_of_getLast? hy)), ?_⟩
    intro z hz
    simp only [List.mem_append] at hz
    rcases hz with hz | hz
    · exact hs z (List.mem_append_left _ (List.dropLast_subset _ hz))
    · exact hs z (List.mem_append_right _ hz)

theorem claim_data {s : SectorsMng} (hs : MngRange s) (r1 r2 : Nat) (dev : Dev) :
    MngRange (s.claim r1 r2 dev).2.1 ∧ (∃ os, (s.claim r1 r2 dev).2.2 = dev.ops os ∧ DataOps os) ∧
    ∀ x, (s.claim r1 r2 dev).1 = .ok x → InData x := by
  have nil : ∃ os, dev = dev.ops os ∧ DataOps os := ⟨[], (Dev.ops_nil _).symm, by intro o ho; simp at ho⟩
  unfold SectorsMng.claim
  split
  · rename_i x s' hp
    obtain ⟨h1, h2⟩ := pop_range hs hp
    refine ⟨h2, nil, ?_⟩
    intro y hy; injection hy with hy; subst hy; exact h1
  · -- the refill
    have refill : ∀ s' dev', (if s.asyncAhead ≠ [] then
          SectorsMng.claimAndErase { s with ahead := s.asyncAhead, asyncAhead := s.ahead } r1 true dev
        else
          match s.claimEraseRegion r1 with
          | none => some (s, dev)
          | some (.error _) => none
          | some (.ok r) =>
            match s.erase r false dev with
            | none => none
            | some (s, dev) => s.claimAndErase r2 true dev) = some (s', dev') →
        MngRange s' ∧ ∃ os, dev' = dev.ops os ∧ DataOps os := by
      intro s' dev' h
      split at h
      · refine claimAndErase_data ?_ h
        intro x hx
        simp only [List.mem_append] at hx
        exact hs x (List.mem_append.mpr hx.symm)
      · split at h
        · injection h with h; injection h with h1 h2; subst h1; subst h2; exact ⟨hs, nil⟩
        · exact absurd h (by simp)
        · rename_i r hr
          split at h
          · exact absurd h (by simp)
          · rename_i s1 dev1 he
            obtain ⟨h1, os1, h2, h3⟩ := erase_data (region_inside hr) hs he
            obtain ⟨h4, os2, h5, h6⟩ := claimAndErase_data h1 h
            refine ⟨h4, os1 ++ os2, by rw [h5, h2, Dev.ops_ops], ?_⟩
            intro o ho
            rcases List.mem_append.mp ho with ho | ho
            · exact h3 o ho
            · exact h6 o ho
    simp only
    split
    · exact ⟨hs, nil, by intro x hx; exact absurd hx (by simp)⟩
    · rename_i s1 dev1 hr
      obtain ⟨h1, h2⟩ := refill s1 dev1 hr
      split
      · rename_i x s2 hp
        obtain ⟨h3, h4⟩ := pop_range h1 hp
        refine ⟨h4, h2, ?_⟩
        intro y hy; injection hy with hy; subst hy; exact h3
      · exact ⟨h1, h2, by intro x hx; exact absurd hx (by simp)⟩

/-! ### chains -/

theorem Chain.congr {f g : Flash} {o : Option Nat} {l : List Nat} (h : Chain f o l)
    (he : ∀ s ∈ l, f.read (s * 4096 + 4096 - 8) 8 = g.read (s * 4096 + 4096 - 8) 8) : Chain g o l := by
  induction h with
  | nil => exact .nil
  | cons s next l hm ht ih =>
    refine .cons s next l (by rw [← he s (List.mem_cons_self ..)]; exact hm) (ih ?_)
    exact fun x hx => he x (List.mem_cons_of_mem _ hx)

theorem releaseLoop_chain {fl : Flash} {o : Option Nat} {l : List Nat} (h : Chain fl o l) :
    ∀ (fuel : Nat) (m : SectorsMng), l.length < fuel → releaseLoop fuel fl m o = (.ok (), l.foldl SectorsMng.returnSector m) := by
  induction h with
  | nil =>
    intro fuel m hf
    cases fuel with
    | zero => exact absurd hf (Nat.not_lt_zero _)
    | succ fuel => rfl
  | cons s next l hm ht ih =>
    intro fuel m hf
    cases fuel with
    | zero => exact absurd hf (Nat.not_lt_zero _)
    | succ fuel =>
      rw [releaseLoop]
      show (match mostCommonU16 (fl.read (s * 4096 + 4096 - 8) 8) with
        | none => ((Except.error Err.panic : Except Err Unit), m)
        | some next => releaseLoop fuel fl (m.returnSector s) (if next = 0xFFFF then none else some next)) = _
      rw [hm]
      simp only
      rw [ih fuel _ (by rw [List.length_cons] at hf; omega), List.foldl_cons]

theorem claimChain_chain {fl : Flash} {o : Option Nat} {l : List Nat} (h : Chain fl o l) :
    ∀ (fuel : Nat) (m : SectorsMng), l.length < fuel → claimChain fuel fl m o = .ok (l.foldl SectorsMng.claimSector m) := by
  induction h with
  | nil =>
    intro fuel m hf
    cases fuel with
    | zero => exact absurd hf (Nat.not_lt_zero _)
    | succ fuel => rfl
  | cons s next l hm ht ih =>
    intro fuel m hf
    cases fuel with
    | zero => exact absurd hf (Nat.not_lt_zero _)
    | succ fuel =>
      rw [claimChain]
      show (match mostCommonU16 (fl.read (s * 4096 + 4096 - 8) 8) with
        | none => Except.error Err.panic
        | some next => claimChain fuel fl (m.claimSector s) (if next = 0xFFFF then none else some next)) = _
      rw [hm]
      simp only
      rw [ih fuel _ (by rw [List.length_cons] at hf; omega), List.foldl_cons]

theorem claimFiles_ok {fl : Flash} : ∀ (es : List FileEntry) (m : SectorsMng), ChainsOk fl es →
    ∃ m', claimFiles fl es m = .ok m' := by
  intro es
  induction es with
  | nil => exact fun m _ => ⟨m, rfl⟩
  | cons e es ih =>
    intro m h
    obtain ⟨l, hl, hlen⟩ := h e (List.mem_cons_self ..)
    rw [claimFiles, claimChain_chain hl (SECTORS_COUNT + 1) m (by omegac)]
    exact ih _ (fun x hx => h x (List.mem_cons_of_mem _ hx))

theorem claimSector_range {m : SectorsMng} (h : MngRange m) (x : Nat) : MngRange (m.claimSector x) := h
theorem returnSector_range {m : SectorsMng} (h : MngRange m) (x : Nat) : MngRange (m.returnSector x) := h

theorem claimChain_range {fl : Flash} : ∀ (fuel : Nat) (m m' : SectorsMng) (o : Option Nat), MngRange m →
    claimChain fuel fl m o = .ok m' → MngRange m' := by
  intro fuel
  induction fuel with
  | zero => intro m m' o _ h; exact absurd h (by simp [claimChain])
  | succ fuel ih =>
    intro m m' o hm h
    cases o with
    | none => rw [claimChain] at h; injection h with h; subst h; exact hm
    | some s =>
      rw [claimChain] at h
      split at h
      · exact absurd h (by simp)
      · exact ih _ _ _ (claimSector_range hm s) h

theorem claimFiles_range {fl : Flash} : ∀ (es : List FileEntry) (m m' : SectorsMng), MngRange m →
    claimFiles fl es m = .ok m' → MngRange m' := by
  intro es
  induction es with
  | nil => intro m m' hm h; rw [claimFiles] at h; injection h with h; subst h; exact hm
  | cons e es ih =>
    intro m m' hm h
    rw [claimFiles] at h
    split at h
    · exact absurd h (by simp)
    · rename_i m1 h1
      exact ih _ _ (claimChain_range _ _ _ _ hm h1) h

theorem releaseLoop_range {fl : Flash} : ∀ (fuel : Nat) (m : SectorsMng) (o : Option Nat), MngRange m →
    MngRange (releaseLoop fuel fl m o).2 := by
  intro fuel
  induction fuel with
  | zero => exact fun m o h => h
  | succ fuel ih =>
    intro m o hm
    cases o with
    | none => exact hm
    | some s =>
      rw [releaseLoop]
      split
      · exact hm
      · exact ih _ _ (returnSector_range hm s)

/-! ### create -/

theorem createFile_spec {fs : FS} {es : List FileEntry} (hd : DirInv fs es) (typ : Nat) (hl : es.length < 2518) :
    ∃ fs', fs.createFile typ = (.ok ⟨fs.at'.maxId + 1, typ, none⟩, fs') ∧
      Rewrite fs fs' (es ++ [⟨fs.at'.maxId + 1, typ, none⟩]) (fs.at'.maxId + 1) ∧ fs'.mng = fs.mng := by
  obtain ⟨h1, h2, h3⟩ := Builder.new_spec fs
  obtain ⟨b, h4, h5, h6⟩ := copyRest_spec hd maxEntries (Builder.new fs) [] 0 h1 h2 (by omega)
    (by rw [maxEntries_eq]; omega) (by rw [List.length_nil]; omega)
  rw [List.nil_append, List.drop_zero] at h5
  unfold FS.createFile
  simp only [h4]
  have h7 : BW fs b.getNewFileId.2 es (fs.at'.maxId + 1) :=
    ⟨h5.seq, h5.pos, h5.opened, h5.trace, h5.w, h5.count, by show b.maxId + 1 = _; rw [h5.maxId], h5.data⟩
  have h8 := h7.write ⟨fs.at'.maxId + 1, typ, none⟩ (by omega)
  rw [show (if (⟨fs.at'.maxId + 1, typ, none⟩ : FileEntry).id > fs.at'.maxId + 1 then
    (⟨fs.at'.maxId + 1, typ, none⟩ : FileEntry).id else fs.at'.maxId + 1) = fs.at'.maxId + 1 from if_neg (Nat.lt_irrefl _)] at h8
  have hid : b.getNewFileId.1 = fs.at'.maxId + 1 := by show b.maxId + 1 = _; rw [h5.maxId]
  obtain ⟨h9, h10⟩ := h8.commit (by rw [List.length_append, List.length_singleton]; omega)
  refine ⟨_, ?_, h9, ?_⟩
  · simp only [Builder.writeNewFile, hid]
  · rw [h10]; show b.mng = _; rw [h6, h3]

/-- `create_file_and_open_for_write`: either the new file with its first sector, or an error of the allocator -/
theorem createFileAndOpen_spec {fs : FS} {es : List FileEntry} (hd : DirInv fs es) (hm : MngRange fs.mng)
    (typ r1 r2 : Nat) (hl : es.length < 2518) :
    (∃ s fs', InData s ∧ fs.createFileAndOpen typ r1 r2 = (.ok ⟨fs.at'.maxId + 1, typ, some s⟩, fs') ∧
      Rewrite fs fs' (es ++ [⟨fs.at'.maxId + 1, typ, some s⟩]) (fs.at'.maxId + 1) ∧ MngRange fs'.mng) ∨
    (∃ e fs', fs.createFileAndOpen typ r1 r2 = (.error e, fs')) := by
  obtain ⟨h1, h2, h3⟩ := Builder.new_spec fs
  obtain ⟨b, h4, h5, h6⟩ := copyRest_spec hd maxEntries (Builder.new fs) [] 0 h1 h2 (by omega)
    (by rw [maxEntries_eq]; omega) (by rw [List.length_nil]; omega)
  rw [List.nil_append, List.drop_zero] at h5
  unfold FS.createFileAndOpen
  simp only [h4]
  have hid : b.getNewFileId.1 = fs.at'.maxId + 1 := by show b.maxId + 1 = _; rw [h5.maxId]
  have hbm : MngRange b.getNewFileId.2.mng := by show MngRange b.mng; rw [h6, h3]; exact hm
  obtain ⟨hc1, ⟨os, hc2, hc3⟩, hc4⟩ := claim_data hbm r1 r2 b.getNewFileId.2.dev
  unfold Builder.writeNewFileAndOpen
  simp only
  generalize hcl : b.getNewFileId.2.mng.claim r1 r2 b.getNewFileId.2.dev = c at *
  obtain ⟨res, mng', dev'⟩ := c
  cases res with
  | error e => right; exact ⟨e, _, rfl⟩
  | ok s =>
    left
    simp only at hc1 hc2 hc3 hc4
    have h7 : BW fs { b.getNewFileId.2 with mng := mng', dev := dev' } es (fs.at'.maxId + 1) := by
      obtain ⟨os0, ht1, ht2⟩ := h5.trace
      obtain ⟨os1, hu1, hu2⟩ := h5.data
      have hdev : ∀ x, b.dev = fs.dev.ops x → dev' = fs.dev.ops (x ++ os) := by
        intro x hx
        rw [hc2]; show b.dev.ops os = _; rw [hx, Dev.ops_ops]
      refine ⟨h5.seq, h5.pos, h5.opened, ⟨os0 ++ os, hdev _ ht1, ?_⟩, h5.w, h5.count, by show b.maxId + 1 = _; rw [h5.maxId], ⟨os1 ++ os, hdev _ hu1, ?_⟩⟩
      · rw [List.filter_append, ht2, hc3.filter, List.append_nil]
      · intro o ho hx
        rcases List.mem_append.mp ho with ho | ho
        · exact hu2 o ho hx
        · exact (hc3 o ho).2
    have h8 := h7.write ⟨fs.at'.maxId + 1, typ, some s⟩ (by omega)
    rw [show (if (⟨fs.at'.maxId + 1, typ, some s⟩ : FileEntry).id > fs.at'.maxId + 1 then
      (⟨fs.at'.maxId + 1, typ, some s⟩ : FileEntry).id else fs.at'.maxId + 1) = fs.at'.maxId + 1 from if_neg (Nat.lt_irrefl _)] at h8
    obtain ⟨h9, h10⟩ := h8.commit (by rw [List.length_append, List.length_singleton]; omega)
    refine ⟨s, _, hc4 s rfl, ?_, h9, ?_⟩
    · simp only [hid]
    · rw [h10]; exact hc1

/-! ### remove -/

/-- data region unchanged so far -/
def HighSame (fs : FS) (b : Builder) : Prop := ∀ a, 131072 ≤ a → b.dev.flash a = fs.dev.flash a

theorem extend_high {w : PageWriter} {A : Nat} {S : Bytes} (hw : w.Inv A S) (dev : Dev) (slice : Bytes)
    (hl : A + (S ++ slice).length ≤ 131072) (a : Nat) (ha : 131072 ≤ a) :
    (w.extend dev slice).2.flash a = dev.flash a := by
  obtain ⟨_, os, h1, h2⟩ := extend_spec hw dev slice
  rw [h1]
  have hmem : ∀ o ∈ os, ∃ x d, o = .page x d ∧ x + 256 ≤ 131072 := by
    intro o ho
    have : o ∈ pages A (S ++ slice) ((S ++ slice).length / 256) := by rw [← h2]; exact List.mem_append_right _ ho
    unfold pages at this
    rw [List.mem_map] at this
    obtain ⟨i, hi, rfl⟩ := this
    rw [List.mem_range] at hi
    exact ⟨_, _, rfl, by omega⟩
  show applyOps dev.flash os a = _
  clear h1 h2
  generalize dev.flash = fl
  induction os generalizing fl with
  | nil => rfl
  | cons o os ih =>
    rw [applyOps_cons, ih (fun o ho => hmem o (List.mem_cons_of_mem _ ho))]
    obtain ⟨x, d, rfl, hx⟩ := hmem o (List.mem_cons_self ..)
    simp only [FlashOp.apply]
    rw [if_neg (by omega)]

theorem HighSame.new (fs : FS) : HighSame fs (Builder.new fs) := by
  intro a ha
  have hlt := nextPos_lt fs
  have hw0 : PageWriter.Inv ⟨slotAddr (nextPos fs), []⟩ (slotAddr (nextPos fs)) [] := ⟨by simp, by simp⟩
  show ((PageWriter.extend ⟨slotAddr (nextPos fs), []⟩ (fs.dev.op (.erase (slotAddr (nextPos fs)) 32768))
    (headerSerialize (fs.at'.seq + 1))).2).flash a = _
  rw [extend_high hw0 _ _ (by rw [List.nil_append, headerSerialize_length, slotAddr_eq]; omega) a ha]
  simp only [Dev.op, FlashOp.apply]
  rw [if_neg (by rw [slotAddr_eq]; omega)]

theorem HighSame.write {fs : FS} {b : Builder} {new : List FileEntry} {m : Nat} (h : HighSame fs b) (hw : BW fs b new m)
    (e : FileEntry) (hl : new.length < 2518) : HighSame fs (b.write e) := by
  intro a ha
  have hlt := nextPos_lt fs
  have hlen := bodyImage_length (fs.at'.seq + 1) (new ++ [e])
  rw [List.length_append, List.length_singleton] at hlen
  show ((b.w.extend b.dev e.serialize).2).flash a = _
  rw [extend_high hw.w _ _ (by rw [← bodyImage_snoc, hlen, slotAddr_eq]; omega) a ha]
  exact h a ha

theorem readNext_dev (b : Builder) : (b.readNext).2.dev = b.dev := by
  unfold Builder.readNext
  split
  · rfl
  · simp only
    split
    · rfl
    · split <;> rfl

/-- a file stays in the directory when `remove_files(filter)` is called -/
def keeps (opened : List Nat) (filter : FileEntry → Bool) (e : FileEntry) : Bool := !filter e || opened.any (· == e.id)

theorem removeLoop_spec {fs : FS} {es : List FileEntry} (hd : DirInv fs es) (filter : FileEntry → Bool) :
    ∀ (fuel : Nat) (b : Builder) (new : List FileEntry) (i r s : Nat), BW fs b new fs.at'.maxId → BR fs b i → HighSame fs b →
    MngRange b.mng →
    i ≤ es.length → es.length - i < fuel → new.length + (es.length - i) ≤ 2518 →
    (∃ b', removeLoop filter fuel b r s =
        (.ok (r + ((es.drop i).filter (fun e => !keeps fs.at'.opened filter e)).length,
              s + ((es.drop i).filter (fun e => filter e && keeps fs.at'.opened filter e)).length), b') ∧
      BW fs b' (new ++ (es.drop i).filter (keeps fs.at'.opened filter)) fs.at'.maxId ∧ MngRange b'.mng) ∨
    (∃ e b', removeLoop filter fuel b r s = (.error e, b') ∧
      ∃ x ∈ es, filter x = true ∧ keeps fs.at'.opened filter x = false ∧
        ¬ ∃ l, Chain fs.dev.flash x.first l ∧ l.length ≤ 16384 ∧ ∀ y ∈ l, 32 ≤ y) := by
  intro fuel
  induction fuel with
  | zero => exact fun b new i _ _ _ _ _ _ _ h => absurd h (Nat.not_lt_zero _)
  | succ fuel ih =>
    intro b new i r s hw hr hh hmr hi hf hl
    rw [removeLoop]
    by_cases hlt : i < es.length
    · obtain ⟨b1, h1, h2, h3, h4⟩ := readNext_some hd hw hr (by omega) hlt
      have hh1 : HighSame fs b1 := by
        have := readNext_dev b
        rw [h1] at this
        intro a ha
        show b1.dev.flash a = _
        rw [show b1.dev = b.dev from this]; exact hh a ha
      have hmr1 : MngRange b1.mng := by rw [h4]; exact hmr
      rw [h1]
      simp only
      have hdrop := List.drop_eq_getElem_cons hlt
      have hwr := h2.write es[i] (by omega)
      have hm := hd.maxId es[i] (List.getElem_mem hlt)
      rw [if_neg (by omega)] at hwr
      have hhw := hh1.write h2 es[i] (by omega)
      have hkeep := fun r s => ih (b1.write es[i]) (new ++ [es[i]]) (i + 1) r s hwr (h3.write _) hhw hmr1 (by omega) (by omega)
        (by rw [List.length_append, List.length_singleton]; omega)
      by_cases hfil : filter es[i] = true
      · rw [if_pos hfil]
        have hop : b1.at'.isOpened es[i].id = fs.at'.opened.any (· == es[i].id) := by
          unfold AT.isOpened; rw [h2.opened]
        by_cases hopn : fs.at'.opened.any (· == es[i].id) = true
        · rw [hop, if_pos hopn]
          have hk : keeps fs.at'.opened filter es[i] = true := by unfold keeps; rw [hopn, Bool.or_true]
          rcases hkeep r (s + 1) with ⟨b', g1, g2, g3⟩ | ⟨e, b', g1, g2⟩
          · left
            refine ⟨b', ?_, ?_, g3⟩
            · rw [g1, hdrop]
              simp only [List.filter_cons, hk, hfil, Bool.not_true, Bool.false_eq_true, if_false, Bool.and_self, if_true,
                List.length_cons]
              congr 3
              omega
            · rw [hdrop, List.filter_cons, hk, if_pos rfl]
              rw [List.append_assoc] at g2; exact g2
          · right; exact ⟨e, b', g1, g2⟩
        · have hopf : fs.at'.opened.any (· == es[i].id) = false := by
            cases h : fs.at'.opened.any (· == es[i].id) with
            | false => rfl
            | true => exact absurd h hopn
          rw [hop, if_neg hopn]
          have hk : keeps fs.at'.opened filter es[i] = false := by unfold keeps; rw [hopf, hfil]; rfl
          cases hrel : b1.releaseFileSectors es[i] with
          | mk res b2 =>
            unfold Builder.releaseFileSectors at hrel
            cases hrl : releaseLoop (SECTORS_COUNT + 1) b1.dev.flash b1.mng es[i].first with
            | mk rr mm =>
              rw [hrl] at hrel
              simp only [Prod.mk.injEq] at hrel
              obtain ⟨hre, hb2⟩ := hrel
              subst hb2
              subst hre
              cases rr with
              | error er =>
                right
                refine ⟨er, _, rfl, es[i], List.getElem_mem hlt, hfil, hk, ?_⟩
                rintro ⟨l, hc, hlen, hge⟩
                have hc' : Chain b1.dev.flash es[i].first l := by
                  refine hc.congr (fun x hx => ?_)
                  apply Flash.read_congr
                  intro k hk
                  have := hge x hx
                  exact (hh1 _ (by omega)).symm
                have := releaseLoop_chain hc' (SECTORS_COUNT + 1) b1.mng (by omegac)
                rw [hrl] at this
                exact absurd (congrArg Prod.fst this) (by simp)
              | ok u =>
                simp only
                have hmm : MngRange mm := by
                  have := releaseLoop_range (fl := b1.dev.flash) (SECTORS_COUNT + 1) b1.mng es[i].first hmr1
                  rw [hrl] at this; exact this
                have hbw : BW fs { b1 with mng := mm } new fs.at'.maxId :=
                  ⟨h2.seq, h2.pos, h2.opened, h2.trace, h2.w, h2.count, h2.maxId, h2.data⟩
                have hbr : BR fs { b1 with mng := mm } (i + 1) := ⟨h3.unfinished, h3.curr, h3.readI, h3.buf⟩
                rcases ih { b1 with mng := mm } new (i + 1) (r + 1) s hbw hbr hh1 hmm (by omega) (by omega) (by omega) with
                  ⟨b', g1, g2, g3⟩ | ⟨e, b', g1, g2⟩
                · left
                  refine ⟨b', ?_, ?_, g3⟩
                  · rw [g1, hdrop]
                    simp only [List.filter_cons, hk, Bool.not_false, if_true, List.length_cons, Bool.and_false,
                      Bool.false_eq_true, if_false]
                    congr 3
                    omega
                  · rw [hdrop, List.filter_cons, hk]; exact g2
                · right; exact ⟨e, b', g1, g2⟩
      · rw [if_neg hfil]
        have hff : filter es[i] = false := by
          cases h : filter es[i] with
          | false => rfl
          | true => exact absurd h hfil
        have hk : keeps fs.at'.opened filter es[i] = true := by unfold keeps; rw [hff]; rfl
        rcases hkeep r s with ⟨b', g1, g2, g3⟩ | ⟨e, b', g1, g2⟩
        · left
          refine ⟨b', ?_, ?_, g3⟩
          · rw [g1, hdrop]
            simp only [List.filter_cons, hk, hff, Bool.not_true, Bool.false_eq_true, if_false, Bool.false_and]
          · rw [hdrop, List.filter_cons, hk, if_pos rfl]
            rw [List.append_assoc] at g2; exact g2
        · right; exact ⟨e, b', g1, g2⟩
    · have : i = es.length := by omega
      subst this
      obtain ⟨b1, h1, h2, h4⟩ := readNext_none hd hw hr (by omega)
      rw [h1]
      left
      refine ⟨b1, ?_, ?_, by rw [h4]; exact hmr⟩
      · rw [List.drop_length]; rfl
      · rw [List.drop_length]; simpa using h2

theorem removeFiles_spec {fs : FS} {es : List FileEntry} (hd : DirInv fs es) (hm : MngRange fs.mng) (filter : FileEntry → Bool) :
    (∃ fs', fs.removeFiles filter =
        (.ok ((es.filter (fun e => !keeps fs.at'.opened filter e)).length,
              (es.filter (fun e => filter e && keeps fs.at'.opened filter e)).length), fs') ∧
      Rewrite fs fs' (es.filter (keeps fs.at'.opened filter)) fs.at'.maxId ∧ MngRange fs'.mng) ∨
    (∃ e fs', fs.removeFiles filter = (.error e, fs') ∧
      ∃ x ∈ es, filter x = true ∧ keeps fs.at'.opened filter x = false ∧
        ¬ ∃ l, Chain fs.dev.flash x.first l ∧ l.length ≤ 16384 ∧ ∀ y ∈ l, 32 ≤ y) := by
  obtain ⟨h1, h2, h3⟩ := Builder.new_spec fs
  have hcap := hd.cap
  rcases removeLoop_spec hd filter maxEntries (Builder.new fs) [] 0 0 0 h1 h2 (HighSame.new fs) (by rw [h3]; exact hm) (by omega)
    (by rw [maxEntries_eq]; omega) (by rw [List.length_nil]; omega) with ⟨b', g1, g2, g3⟩ | ⟨e, b', g1, g2⟩
  · left
    rw [List.drop_zero, List.nil_append] at g2
    rw [List.drop_zero, Nat.zero_add, Nat.zero_add] at g1
    unfold FS.removeFiles
    rw [g1]
    simp only
    obtain ⟨h9, h10⟩ := g2.commit (by have := List.length_filter_le (keeps fs.at'.opened filter) es; omega)
    exact ⟨_, rfl, h9, by rw [h10]; exact g3⟩
  · right
    unfold FS.removeFiles
    rw [g1]
    exact ⟨e, _, rfl, g2⟩

/-! ### ring logs -/

/-- the list without the first `k` files of a type -/
def dropFirst (typ : Nat) : Nat → List FileEntry → List FileEntry
  | _, [] => []
  | k, e :: es => if e.typ = typ ∧ k > 0 then dropFirst typ (k - 1) es else e :: dropFirst typ k es

theorem dropFirst_length (typ : Nat) : ∀ (es : List FileEntry) (k : Nat), (dropFirst typ k es).length ≤ es.length
  | [], _ => Nat.le_refl _
  | e :: es, k => by
    rw [dropFirst]
    split
    · have := dropFirst_length typ es (k - 1); rw [List.length_cons]; omega
    · have := dropFirst_length typ es k; rw [List.length_cons, List.length_cons]; omega

theorem rotateLoop_spec {fs : FS} {es : List FileEntry} (hd : DirInv fs es) (typ : Nat) :
    ∀ (fuel : Nat) (b : Builder) (new : List FileEntry) (i k : Nat), BW fs b new fs.at'.maxId → BR fs b i → HighSame fs b →
    MngRange b.mng →
    i ≤ es.length → es.length - i < fuel → new.length + (es.length - i) ≤ 2518 →
    (∃ b', rotateLoop typ fuel b k = (.ok (), b') ∧ BW fs b' (new ++ dropFirst typ k (es.drop i)) fs.at'.maxId ∧ MngRange b'.mng) ∨
    (∃ e b', rotateLoop typ fuel b k = (.error e, b') ∧
      ∃ x ∈ es, x.typ = typ ∧ ¬ ∃ l, Chain fs.dev.flash x.first l ∧ l.length ≤ 16384 ∧ ∀ y ∈ l, 32 ≤ y) := by
  intro fuel
  induction fuel with
  | zero => exact fun b new i _ _ _ _ _ _ h => absurd h (Nat.not_lt_zero _)
  | succ fuel ih =>
    intro b new i k hw hr hh hmr hi hf hl
    rw [rotateLoop]
    by_cases hlt : i < es.length
    · obtain ⟨b1, h1, h2, h3, h4⟩ := readNext_some hd hw hr (by omega) hlt
      have hh1 : HighSame fs b1 := by
        have := readNext_dev b
        rw [h1] at this
        intro a ha
        show b1.dev.flash a = _
        rw [show b1.dev = b.dev from this]; exact hh a ha
      have hmr1 : MngRange b1.mng := by rw [h4]; exact hmr
      rw [h1]
      simp only
      have hdrop := List.drop_eq_getElem_cons hlt
      by_cases hfil : es[i].typ = typ ∧ k > 0
      · rw [if_pos hfil]
        cases hrel : b1.releaseFileSectors es[i] with
        | mk res b2 =>
          unfold Builder.releaseFileSectors at hrel
          cases hrl : releaseLoop (SECTORS_COUNT + 1) b1.dev.flash b1.mng es[i].first with
          | mk rr mm =>
            rw [hrl] at hrel
            simp only [Prod.mk.injEq] at hrel
            obtain ⟨hre, hb2⟩ := hrel
            subst hb2
            subst hre
            cases rr with
            | error er =>
              right
              refine ⟨er, _, rfl, es[i], List.getElem_mem hlt, hfil.1, ?_⟩
              rintro ⟨l, hc, hlen, hge⟩
              have hc' : Chain b1.dev.flash es[i].first l := by
                refine hc.congr (fun x hx => ?_)
                apply Flash.read_congr
                intro k hk
                have := hge x hx
                exact (hh1 _ (by omega)).symm
              have := releaseLoop_chain hc' (SECTORS_COUNT + 1) b1.mng (by omegac)
              rw [hrl] at this
              exact absurd (congrArg Prod.fst this) (by simp)
            | ok u =>
              simp only
              have hmm : MngRange mm := by
                have := releaseLoop_range (fl := b1.dev.flash) (SECTORS_COUNT + 1) b1.mng es[i].first hmr1
                rw [hrl] at this; exact this
              have hbw : BW fs { b1 with mng := mm } new fs.at'.maxId :=
                ⟨h2.seq, h2.pos, h2.opened, h2.trace, h2.w, h2.count, h2.maxId, h2.data⟩
              have hbr : BR fs { b1 with mng := mm } (i + 1) := ⟨h3.unfinished, h3.curr, h3.readI, h3.buf⟩
              rcases ih { b1 with mng := mm } new (i + 1) (k - 1) hbw hbr hh1 hmm (by omega) (by omega) (by omega) with
                ⟨b', g1, g2, g3⟩ | ⟨e, b', g1, g2⟩
              · left
                refine ⟨b', g1, ?_, g3⟩
                rw [hdrop, dropFirst, if_pos hfil]; exact g2
              · right; exact ⟨e, b', g1, g2⟩
      · rw [if_neg hfil]
        have hwr := h2.write es[i] (by omega)
        have hm := hd.maxId es[i] (List.getElem_mem hlt)
        rw [if_neg (by omega)] at hwr
        have hhw := hh1.write h2 es[i] (by omega)
        rcases ih (b1.write es[i]) (new ++ [es[i]]) (i + 1) k hwr (h3.write _) hhw hmr1 (by omega) (by omega)
          (by rw [List.length_append, List.length_singleton]; omega) with ⟨b', g1, g2, g3⟩ | ⟨e, b', g1, g2⟩
        · left
          refine ⟨b', g1, ?_, g3⟩
          rw [hdrop, dropFirst, if_neg hfil]
          rw [List.append_assoc] at g2; exact g2
        · right; exact ⟨e, b', g1, g2⟩
    · have : i = es.length := by omega
      subst this
      obtain ⟨b1, h1, h2, h4⟩ := readNext_none hd hw hr (by omega)
      rw [h1]
      left
      refine ⟨b1, rfl, ?_, by rw [h4]; exact hmr⟩
      rw [List.drop_length, dropFirst, List.append_nil]; exact h2

/-- a rotation: the new file, or an error of the allocator or of a file whose chain is damaged -/
theorem rotate_spec {fs : FS} {es : List FileEntry} (hd : DirInv fs es) (hm : MngRange fs.mng)
    (typ k r1 r2 : Nat) (hl : (dropFirst typ k es).length < 2518) :
    (∃ s fs', InData s ∧ fs.rotate typ k r1 r2 = (.ok ⟨fs.at'.maxId + 1, typ, some s⟩, fs') ∧
      Rewrite fs fs' (dropFirst typ k es ++ [⟨fs.at'.maxId + 1, typ, some s⟩]) (fs.at'.maxId + 1) ∧ MngRange fs'.mng) ∨
    (∃ e fs', fs.rotate typ k r1 r2 = (.error e, fs')) := by
  obtain ⟨h1, h2, h3⟩ := Builder.new_spec fs
  have hcap := hd.cap
  unfold FS.rotate
  rcases rotateLoop_spec hd typ maxEntries (Builder.new fs) [] 0 k h1 h2 (HighSame.new fs) (by rw [h3]; exact hm) (by omega)
    (by rw [maxEntries_eq]; omega) (by rw [List.length_nil]; omega) with ⟨b, h4, h5, h6⟩ | ⟨e, b', g1, _⟩
  rotate_left
  · right; rw [g1]; exact ⟨e, _, rfl⟩
  rw [List.nil_append, List.drop_zero] at h5
  simp only [h4]
  have hid : b.getNewFileId.1 = fs.at'.maxId + 1 := by show b.maxId + 1 = _; rw [h5.maxId]
  have hbm : MngRange b.getNewFileId.2.mng := h6
  obtain ⟨hc1, ⟨os, hc2, hc3⟩, hc4⟩ := claim_data hbm r1 r2 b.getNewFileId.2.dev
  unfold Builder.writeNewFileAndOpen
  simp only
  generalize hcl : b.getNewFileId.2.mng.claim r1 r2 b.getNewFileId.2.dev = c at *
  obtain ⟨res, mng', dev'⟩ := c
  cases res with
  | error e => right; exact ⟨e, _, rfl⟩
  | ok s =>
    left
    simp only at hc1 hc2 hc3 hc4
    have h7 : BW fs { b.getNewFileId.2 with mng := mng', dev := dev' } (dropFirst typ k es) (fs.at'.maxId + 1) := by
      obtain ⟨os0, ht1, ht2⟩ := h5.trace
      obtain ⟨os1, hu1, hu2⟩ := h5.data
      have hdev : ∀ x, b.dev = fs.dev.ops x → dev' = fs.dev.ops (x ++ os) := by
        intro x hx
        rw [hc2]; show b.dev.ops os = _; rw [hx, Dev.ops_ops]
      refine ⟨h5.seq, h5.pos, h5.opened, ⟨os0 ++ os, hdev _ ht1, ?_⟩, h5.w, h5.count, by show b.maxId + 1 = _; rw [h5.maxId], ⟨os1 ++ os, hdev _ hu1, ?_⟩⟩
      · rw [List.filter_append, ht2, hc3.filter, List.append_nil]
      · intro o ho hx
        rcases List.mem_append.mp ho with ho | ho
        · exact hu2 o ho hx
        · exact (hc3 o ho).2
    have h8 := h7.write ⟨fs.at'.maxId + 1, typ, some s⟩ (by omega)
    rw [show (if (⟨fs.at'.maxId + 1, typ, some s⟩ : FileEntry).id > fs.at'.maxId + 1 then
      (⟨fs.at'.maxId + 1, typ, some s⟩ : FileEntry).id else fs.at'.maxId + 1) = fs.at'.maxId + 1 from if_neg (Nat.lt_irrefl _)] at h8
    obtain ⟨h9, h10⟩ := h8.commit (by rw [List.length_append, List.length_singleton]; omega)
    refine ⟨s, _, hc4 s rfl, ?_, h9, ?_⟩
    · simp only [hid]
    · rw [h10]; exact hc1

/-! ### set_file_first_sector_index -/

/-- the entry with the given id gets a new first sector -/
def setFirst (id : Nat) (first : Option Nat) (e : FileEntry) : FileEntry := if e.id = id then { e with first := first } else e

theorem setFirstSector_spec {fs : FS} {es : List FileEntry} (hd : DirInv fs es) (id : Nat) (first : Option Nat) :
    ((∃ e ∈ es, e.id = id) ∧ ∃ fs', fs.setFirstSector id first = (.ok (), fs') ∧
      Rewrite fs fs' (es.map (setFirst id first)) fs.at'.maxId ∧ fs'.mng = fs.mng) ∨
    ((∀ e ∈ es, e.id ≠ id) ∧ fs.setFirstSector id first = (.error .fileDoesNotExist, fs)) := by
  have hcap := hd.cap
  unfold FS.setFirstSector
  rcases findFileEntry_spec hd.holds hd.sorted hd.count id with ⟨k, hk, he, hf⟩ | ⟨hne, hf⟩
  · left
    refine ⟨⟨es[k], List.getElem_mem hk, he⟩, ?_⟩
    rw [hf]
    simp only
    obtain ⟨h1, h2, h3⟩ := Builder.new_spec fs
    obtain ⟨b1, c1, c2, c3, c4⟩ := copyN_spec hd k (Builder.new fs) [] 0 h1 h2 (by omega) (by rw [List.length_nil]; omega)
    rw [List.drop_zero, List.nil_append] at c2
    rw [Nat.zero_add] at c3
    have htl : (es.take k).length = k := by rw [List.length_take]; omega
    rw [c1]
    simp only
    obtain ⟨b2, d1, d2, d3, d4⟩ := readNext_some hd c2 c3 (by omega) hk
    rw [d1]
    simp only
    have hwr := d2.write { es[k] with first := first } (by omega)
    have hm := hd.maxId es[k] (List.getElem_mem hk)
    rw [show (if ({ es[k] with first := first } : FileEntry).id > fs.at'.maxId then
      ({ es[k] with first := first } : FileEntry).id else fs.at'.maxId) = fs.at'.maxId from if_neg (Nat.not_lt.mpr hm)] at hwr
    obtain ⟨b3, e1, e2, e3⟩ := copyRest_spec hd maxEntries _ _ (k + 1) hwr (d3.write _) (by omega) (by rw [maxEntries_eq]; omega)
      (by rw [List.length_append, htl, List.length_singleton]; omega)
    rw [e1]
    simp only
    have hlist : es.take k ++ [{ es[k] with first := first }] ++ es.drop (k + 1) = es.map (setFirst id first) := by
      have hsplit : es = es.take k ++ es[k] :: es.drop (k + 1) := by
        rw [← List.drop_eq_getElem_cons hk, List.take_append_drop]
      conv => rhs; rw [hsplit, List.map_append, List.map_cons]
      rw [List.append_assoc]
      have hpair : ∀ i j (hi : i < es.length) (hj : j < es.length), i < j → es[i].id < es[j].id :=
        fun i j hi hj hij => List.pairwise_iff_getElem.mp hd.sorted i j hi hj hij
      have h1 : (es.take k).map (setFirst id first) = es.take k := by
        rw [List.map_congr_left (g := fun x => x), List.map_id']
        intro x hx
        obtain ⟨i, hi, rfl⟩ := List.getElem_of_mem hx
        have hi' : i < k := by rw [htl] at hi; exact hi
        rw [List.getElem_take]
        have := hpair i k (by omega) hk hi'
        unfold setFirst; rw [if_neg (by omega)]
      have h2 : (es.drop (k + 1)).map (setFirst id first) = es.drop (k + 1) := by
        rw [List.map_congr_left (g := fun x => x), List.map_id']
        intro x hx
        obtain ⟨i, hi, rfl⟩ := List.getElem_of_mem hx
        rw [List.length_drop] at hi
        rw [List.getElem_drop]
        have := hpair k (k + 1 + i) hk (by omega) (by omega)
        unfold setFirst; rw [if_neg (by omega)]
      rw [h1, h2]
      have h3 : setFirst id first es[k] = { es[k] with first := first } := by unfold setFirst; rw [if_pos he]
      rw [h3]; rfl
    rw [hlist] at e2
    obtain ⟨h9, h10⟩ := e2.commit (by rw [List.length_map]; exact hcap)
    refine ⟨_, rfl, h9, ?_⟩
    rw [h10, e3]; show b2.mng = _; rw [d4, c4, h3]
  · right
    refine ⟨hne, ?_⟩
    rw [hf]

end Verif.Vlfs
