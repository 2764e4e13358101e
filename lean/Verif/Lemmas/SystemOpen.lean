import Verif.Lemmas.SystemDir
/-
Opening files.
-/
namespace Verif.Vlfs
open Verif Verif.Spec

theorem isOpened_iff (at' : AT) (id : Nat) : at'.isOpened id = true ↔ id ∈ at'.opened := by
  unfold AT.isOpened
  rw [List.any_eq_true]
  constructor
  · rintro ⟨x, h1, h2⟩; rw [beq_iff_eq] at h2; subst h2; exact h1
  · intro h; exact ⟨id, h, by simp⟩

/-- only the list of open files changes -/
theorem Sys.opened {crc : Bytes → UInt32} {fs : FS} {files : List FileSt} {leak : List Nat} (h : Sys crc fs files leak) {fs' : FS}
    (h1 : fs'.at'.seq = fs.at'.seq) (h2 : fs'.at'.position = fs.at'.position) (h3 : fs'.at'.maxId = fs.at'.maxId)
    (h4 : fs'.at'.fileCount = fs.at'.fileCount) (h5 : fs'.mng = fs.mng) (h6 : fs'.dev = fs.dev)
    (ho : ∀ f ∈ files, f.k.writer.isSome = true → f.k.guarded = true → f.k.id ∈ fs.at'.opened → f.k.id ∈ fs'.at'.opened) :
    Sys crc fs' files leak := by
  refine ⟨h.reach.data (by rw [h6]; exact LowEq.refl _) h1 h2 h3 h4 (by rw [h5]; exact h.reach.range), by rw [h6]; exact h.ok,
    by rw [h5]; exact h.inv, by rw [h5, h6]; exact h.blank, ?_⟩
  intro f hf hw hg
  exact ho f hf hw hg (h.guard f hf hw hg)

/-- a sector is claimed and belongs to no file yet -/
theorem Sys.claim {crc : Bytes → UInt32} {fs : FS} {files : List FileSt} {leak : List Nat} (h : Sys crc fs files leak) (r1 r2 : Nat) :
    (∃ x, (fs.mng.claim r1 r2 fs.dev).1 = .ok x ∧
      Sys crc { fs with mng := (fs.mng.claim r1 r2 fs.dev).2.1, dev := (fs.mng.claim r1 r2 fs.dev).2.2 } files (x :: leak) ∧
      InData x ∧ (∀ j, j < 4096 → (fs.mng.claim r1 r2 fs.dev).2.2.flash (x * 4096 + j) = 0xFF) ∧
      SameExcept (leak ++ files.flatMap FileSt.own) fs.dev.flash (fs.mng.claim r1 r2 fs.dev).2.2.flash ∧
      ∃ os, (fs.mng.claim r1 r2 fs.dev).2.2 = fs.dev.ops os) ∨
    (fs.mng.claim r1 r2 fs.dev = (.error .deviceFull, fs.mng, fs.dev) ∧ (leak ++ files.flatMap FileSt.own).length = 16352) := by
  rcases claim_spec h.inv r1 r2 fs.dev h.blank with ⟨x, c1, c2, c3, c4, c5, c6, c7, os, c8, c9⟩ | ⟨c1, c2⟩
  · left
    have hlow : LowEq fs.dev.flash (fs.mng.claim r1 r2 fs.dev).2.2.flash := by
      intro a ha
      refine (c7 _ (.inr ?_)).symm
      have e : SECTOR_SIZE = 4096 := rfl
      rintro ⟨h1, _⟩
      have h1 : 32 ≤ a / SECTOR_SIZE := h1
      rw [e] at h1
      omega
    refine ⟨x, c1, ⟨?_, ?_, c2, c6, h.guard⟩, c4, c5, c7, os, c8⟩
    · exact h.reach.data hlow rfl rfl rfl rfl (inv_range c2)
    · intro f hf
      refine (h.ok f hf).congr fun s hs => sameExcept_same c7 ?_
      exact List.mem_append_right _ (List.mem_flatMap.mpr ⟨f, hf, hs⟩)
  · exact .inr ⟨c1, c2⟩

theorem Sys.find {crc : Bytes → UInt32} {fs : FS} {files : List FileSt} {leak : List Nat} (h : Sys crc fs files leak) {f : FileSt}
    (hf : f ∈ files) : ∃ j, fs.findFileEntry f.k.id = .ok (some (f.e, j)) := by
  rcases findFileEntry_spec h.reach.dir.holds h.reach.dir.sorted h.reach.dir.count f.k.id with ⟨j, hj, he, h1⟩ | ⟨hne, _⟩
  · refine ⟨j, ?_⟩
    have hid := (h.ok f hf).id
    have hm : f.e ∈ files.map (·.e) := List.mem_map.mpr ⟨f, hf, rfl⟩
    obtain ⟨i, hi, hie⟩ := List.getElem_of_mem hm
    have hs := h.reach.dir.sorted
    rw [List.pairwise_iff_getElem] at hs
    have : i = j := by
      rcases Nat.lt_trichotomy i j with hlt | heq | hgt
      · have := hs i j hi hj hlt; rw [hie] at this; omega
      · exact heq
      · have := hs j i hj hi hgt; rw [hie] at this; omega
    subst this
    rw [h1, hie]
  · exact absurd (h.ok f hf).id (hne f.e (List.mem_map.mpr ⟨f, hf, rfl⟩))

theorem Sys.find_none {crc : Bytes → UInt32} {fs : FS} {files : List FileSt} {leak : List Nat} (h : Sys crc fs files leak) {id : Nat}
    (hf : ∀ f ∈ files, f.k.id ≠ id) : fs.findFileEntry id = .ok none := by
  rcases findFileEntry_spec h.reach.dir.holds h.reach.dir.sorted h.reach.dir.count id with ⟨j, hj, he, h1⟩ | ⟨_, h1⟩
  · have hm := List.getElem_mem hj
    obtain ⟨f, h2, h3⟩ := List.mem_map.mp hm
    exact absurd (by rw [← (h.ok f h2).id, h3, he]) (hf f h2)
  · exact h1

theorem stored_none {crc : Bytes → UInt32} {fl : Flash} {l : List (Nat × Bytes)} (h : Stored crc fl none l) : l = [] := by
  cases h; rfl

theorem perm_new (x : Nat) (leak a b : List Nat) : (x :: leak ++ (a ++ b)).Perm (leak ++ (a ++ ([x] ++ b))) := by
  have h1 : (x :: (leak ++ (a ++ b))).Perm (leak ++ (x :: (a ++ b))) := (List.perm_middle (l₁ := leak)).symm
  have h2 : (x :: (a ++ b)).Perm (a ++ x :: b) := (List.perm_middle (l₁ := a)).symm
  exact h1.trans (List.Perm.append_left leak h2)

/-- a file gets its first sector -/
theorem open_fresh {crc : Bytes → UInt32} {fs : FS} {as bs : List FileSt} {f : FileSt} {leak : List Nat} {new : Nat}
    (h : Sys crc fs (as ++ f :: bs) (new :: leak)) (hw : f.k.writer = none) (hdm : f.k.damaged = false) (hfirst : f.e.first = none) (hd : InData new)
    (hb : ∀ j, j < 4096 → fs.dev.flash (new * 4096 + j) = 0xFF) (ho : f.k.id ∈ fs.at'.opened) (hok : countersOk fs) :
    ∃ fs', fs.setFirstSector f.k.id (some new) = (.ok (), fs') ∧ fs'.at'.opened = fs.at'.opened ∧ (∀ s, InData s → SameSector fs.dev.flash fs'.dev.flash s) ∧ Sys crc fs' (as ++
      ⟨{ f.k with durable := f.k.data, writer := some (FileWriter.new new f.k.id), guarded := true }, { f.e with first := some new }, [], []⟩ :: bs) leak := by
  have hfo := h.ok f (by simp)
  obtain ⟨hst, pre, hpre, hbytes⟩ := hfo.closed hw hdm
  rw [hfirst] at hst
  have hseg := stored_none hst
  rcases setFirstSector_spec h.reach.dir f.k.id (some new) with ⟨_, fs', g1, g2, g3⟩ | ⟨hne, _⟩
  case inr => exact absurd hfo.id (hne f.e (by simp))
  have hh := setFirstSector_high h.reach.dir f.k.id (some new)
  rw [g1] at hh
  have hh := hh.high
  have hnew : new < 0xFFFF := by have := hd.2; unfold SECTORS_COUNT at this; omega
  obtain ⟨hr, hop⟩ := reach_call h.reach (.setFirst f.k.id (some new) fs' g1 (fun s hs => by injection hs with hs; omega)) hok
  refine ⟨fs', g1, hop, fun s hs => high_same hh hs, ?_⟩
  have hother : ∀ l : List FileSt, (∀ g ∈ l, g.e.id ≠ f.k.id) →
      (l.map (·.e)).map (fun e => if e.id = f.k.id then { e with first := some new } else e) = l.map (·.e) := by
    intro l hl
    rw [List.map_map]
    refine List.map_congr_left fun g hg => ?_
    show (if g.e.id = f.k.id then _ else _) = _
    rw [if_neg (hl g hg)]
  have hne : ∀ g ∈ as ++ bs, g.e.id ≠ f.k.id := by
    intro g hg
    have hgm : g ∈ as ++ f :: bs := by
      simp only [List.mem_append, List.mem_cons] at hg ⊢
      rcases hg with h | h
      · exact .inl h
      · exact .inr (.inr h)
    rw [(h.ok g hgm).id]; exact h.idNe hg
  have hes : ((as ++ f :: bs).map (·.e)).map (fun e => if e.id = f.k.id then { e with first := some new } else e) =
      as.map (·.e) ++ { f.e with first := some new } :: bs.map (·.e) := by
    rw [List.map_append, List.map_append, List.map_cons, List.map_cons, hother as (fun g hg => hne g (List.mem_append_left _ hg)),
      hother bs (fun g hg => hne g (List.mem_append_right _ hg)), if_pos hfo.id]
  rw [hes] at hr
  refine h.redir (by rw [List.map_append, List.map_cons]; exact hr) hop ?_ ?_ ?_ ?_
  · intro g h1 _ s hsm
    exact high_same hh ((h.own_data h1).2 s hsm)
  · intro g hg
    rcases List.mem_append.mp hg with hg | hg
    · exact .inl (List.mem_append_left _ hg)
    rcases List.mem_cons.mp hg with rfl | hg
    · refine .inr ⟨FileOk.mk' hfo.id hfo.typ ?_ (fun _ => hdm) ?_, fun _ _ => by rw [hop]; exact ho⟩
      · intro hn; exact absurd (show some (FileWriter.new new f.k.id) = none from hn) (by simp)
      · intro w hw'
        have hw' : some (FileWriter.new new f.k.id) = some w := hw'
        injection hw' with hw'
        subst hw'
        rw [hseg] at hbytes
        have hbytes : ([] : Bytes) = f.k.data ++ pre := hbytes
        refine ⟨rfl, ⟨new, rfl, .nil new⟩, WInv.new _ rfl rfl rfl ?_, ?_, pre, hpre, hbytes⟩
        · intro j hj
          exact (high_same hh hd j hj).symm.trans (hb j hj)
        · show f.k.data <+: []
          rw [hbytes]; exact List.prefix_append ..
    · exact .inl (by simp [hg])
  · rw [g3]
    refine h.inv.perm ?_
    have hown : f.own = [] := by unfold FileSt.own; rw [hw, hseg]; rfl
    rw [List.flatMap_append, List.flatMap_append, List.flatMap_cons, List.flatMap_cons, hown, List.nil_append]
    exact perm_new new leak _ _
  · rw [g3]; exact blank_high (inv_range h.inv) h.blank hh

/-- the last sector of a file is rewritten with a pointer to a new sector -/
theorem open_append {crc : Bytes → UInt32} {fs : FS} {as bs : List FileSt} {f : FileSt} {leak : List Nat} {new temp first last : Nat}
    (h : Sys crc fs (as ++ f :: bs) (temp :: new :: leak)) (hw : f.k.writer = none) (hdm : f.k.damaged = false) (hfirst : f.e.first = some first)
    {init : List (Nat × Bytes)} {D : Bytes} (hsegs : f.segs = init ++ [(last, D)]) (hlast : SecHolds crc fs.dev.flash last D 0xFFFF)
    (hinit : Segs crc fs.dev.flash first init last)
    (hb : ∀ j, j < 4096 → fs.dev.flash (new * 4096 + j) = 0xFF) (htb : ∀ j, j < 4096 → fs.dev.flash (temp * 4096 + j) = 0xFF)
    (ho : f.k.id ∈ fs.at'.opened) :
    (∀ s ∈ others leak as bs, SameSector fs.dev.flash
      (copyPages temp last none 16 0 ((copyPages last temp (some new) 16 0 fs.dev).op (.erase (last * SECTOR_SIZE) SECTOR_SIZE))).flash s) ∧
    Sys crc { fs with
        mng := fs.mng.returnSector temp
        dev := copyPages temp last none 16 0 ((copyPages last temp (some new) 16 0 fs.dev).op (.erase (last * SECTOR_SIZE) SECTOR_SIZE)) } (as ++
      ⟨{ f.k with durable := f.k.data, writer := some (FileWriter.new new f.k.id), guarded := true }, f.e, f.segs, []⟩ :: bs) leak := by
  have hfo := h.ok f (by simp)
  obtain ⟨hst, pre, hpre, hbytes⟩ := hfo.closed hw hdm
  have hinv := h.inv.perm (own_perm (temp :: new :: leak) as bs f)
  have hown : f.own = secs init ++ [last] := by unfold FileSt.own; rw [hw, hsegs]; simp
  rw [hown] at hinv
  have hnd := hinv.nodup
  rw [List.append_assoc, List.nodup_append] at hnd
  have hnd := hnd.1
  have eo : others (temp :: new :: leak) as bs = temp :: new :: others leak as bs := rfl
  rw [eo, List.cons_append, List.cons_append, List.nodup_cons, List.nodup_cons, List.nodup_append, List.nodup_append] at hnd
  simp only [List.mem_append, List.mem_cons, List.mem_singleton, not_or, List.not_mem_nil, or_false, not_false_eq_true, true_and] at hnd
  obtain ⟨⟨t1, t2, t3, t4⟩, ⟨n1, n2, n3⟩, o1, ⟨i1, i2⟩, o2⟩ := hnd
  have hrange := hinv.range
  have hdl : InData last := hrange _ (by simp)
  have hdt : InData temp := hrange _ (by simp [eo])
  have hdn : InData new := hrange _ (by simp [eo])
  obtain ⟨os, r1, r2, r3, r4⟩ := reopen_sector (dev := fs.dev) (new := new) (Ne.symm t4) htb
  rw [r1]
  have hsame : ∀ s, s ≠ last → s ≠ temp → SameSector fs.dev.flash (applyOps fs.dev.flash os) s := by
    intro s h1 h2
    refine touch_same (fun o ho a ha he => ?_) (crash_done _ _)
    rcases r2 o ho a ha with h3 | h3
    · exact h1 (by omega)
    · exact h2 (by omega)
  have hnl : new < 16384 := hdn.2
  have hnext : mostCommonU16 ((applyOps fs.dev.flash os).read (last * 4096 + 4096 - 8) 8) = some new := by
    refine mostCommon_full (by omega) ?_
    intro i hi
    have := r4 i hi
    rw [show last * 4096 + 4096 - 8 + i = last * 4096 + 4088 + i by omega]
    exact this
  have hlow : LowEq fs.dev.flash (applyOps fs.dev.flash os) := by
    refine data_low (fun o ho a ha => ?_) (crash_done _ _)
    rcases r2 o ho a ha with h3 | h3
    · rw [h3]; exact hdl
    · rw [h3]; exact hdt
  have hinv2 : (fs.mng.returnSector temp).Inv (others leak as bs ++ (secs f.segs ++ [new])) := by
    have := returnSector_spec hinv (x := temp) (by simp [eo])
    rw [eo, List.cons_append, List.erase_cons_head] at this
    refine this.perm ?_
    rw [hsegs, List.cons_append]
    have hp : (new :: (others leak as bs ++ (secs init ++ [last]))).Perm ((others leak as bs ++ (secs init ++ [last])) ++ [new]) :=
      List.perm_append_comm (l₁ := [new])
    refine hp.trans ?_
    rw [List.append_assoc]
    refine List.Perm.append_left _ (List.Perm.of_eq ?_)
    simp
  refine ⟨?_, ?_⟩
  · intro s hs
    show SameSector _ (applyOps fs.dev.flash os) s
    refine hsame s ?_ ?_
    · intro he; exact o2 s hs last (.inr rfl) he
    · intro he; subst he; exact t2 hs
  refine h.update' (f' := ⟨_, f.e, f.segs, []⟩) rfl rfl rfl rfl rfl hlow ?_ ?_ hinv2 ?_ (fun _ _ => ho) (fun x _ hx => hx)
  · intro s hs
    show SameSector _ (applyOps fs.dev.flash os) s
    have hs : s ∈ others leak as bs := List.mem_append_right _ hs
    refine hsame s ?_ ?_
    · intro he; exact o2 s hs last (.inr rfl) he
    · intro he; subst he; exact t2 hs
  · refine FileOk.mk' hfo.id hfo.typ ?_ (fun _ => hdm) ?_
    · intro hn; exact absurd (show some (FileWriter.new new f.k.id) = none from hn) (by simp)
    · intro w hw'
      have hw' : some (FileWriter.new new f.k.id) = some w := hw'
      injection hw' with hw'
      subst hw'
      refine ⟨rfl, ⟨first, hfirst, ?_⟩, WInv.new _ rfl rfl rfl ?_, ?_, pre, hpre, ?_⟩
      · show Segs crc (applyOps fs.dev.flash os) first f.segs new
        rw [hsegs]
        refine Segs.snoc (cur := last) (hinit.congr fun x hx => hsame x ?_ ?_) (hlast.renext r3 hnext) (by omega)
        · intro he; subst he; exact i2.2 x hx x rfl rfl
        · intro he; subst he; exact t3 hx
      · exact fun j hj => ((hsame new n3 (Ne.symm t1)) j hj).symm.trans (hb j hj)
      · show f.k.data <+: bytesOf f.segs
        rw [hbytes]; exact List.prefix_append ..
      · show bytesOf f.segs ++ [] = _
        rw [List.append_nil]; exact hbytes
  · intro x hx j hj
    have hx : x ∈ fs.mng.ahead ++ fs.mng.asyncAhead := hx
    have e : SECTOR_SIZE = 4096 := rfl
    have hb' := h.blank x hx j hj
    rw [e] at hj hb' ⊢
    have hnd := hinv.nodup
    rw [List.append_assoc, List.nodup_append] at hnd
    refine ((hsame x ?_ ?_) j hj).symm.trans hb'
    · intro he; exact hnd.2.2 last (by simp) x hx he.symm
    · intro he; exact hnd.2.2 temp (by simp [eo]) x hx he.symm

theorem markOpened_ok {fs : FS} {id : Nat} (h : fs.at'.opened.length < 32) :
    fs.markOpened id = (.ok (), { fs with at' := { fs.at' with opened := fs.at'.opened ++ [id] } }) := by
  unfold FS.markOpened; rw [if_pos h]

theorem markOpened_err {fs : FS} {id : Nat} (h : ¬ fs.at'.opened.length < 32) : fs.markOpened id = (.error .tooManyFilesOpen, fs) := by
  unfold FS.markOpened; rw [if_neg h]

theorem mem_files {files : List FileSt} {ks : List Known} (h : files.map (·.k) = ks) {f : FileSt} (hf : f ∈ files) : f.k ∈ ks := by
  rw [← h]; exact List.mem_map.mpr ⟨f, hf, rfl⟩

/-- `open_file_for_write` of a file without sectors -/
theorem openWrite_fresh {crc : Bytes → UInt32} {fs : FS} {as bs : List FileSt} {f : FileSt} {leak : List Nat}
    (hs : Sys crc fs (as ++ f :: bs) leak) (hw : f.k.writer = none) (hdm : f.k.damaged = false) (hfirst : f.e.first = none) (hno : f.k.id ∉ fs.at'.opened)
    (hlen : fs.at'.opened.length < 32) (hok : countersOk fs) (hfree : 0 < fs.mng.freeBytes) (rng : Nat → Nat) :
    ∃ new fs', fs.openForWrite f.k.id rng = (.ok (FileWriter.new new f.k.id), fs') ∧ fs'.at'.opened = fs.at'.opened ++ [f.k.id] ∧ Sys crc fs' (as ++
      ⟨{ f.k with durable := f.k.data, writer := some (FileWriter.new new f.k.id), guarded := true }, { f.e with first := some new }, [], []⟩ :: bs) leak := by
  have hmem : f ∈ as ++ f :: bs := by simp
  obtain ⟨j, hj⟩ := hs.find hmem
  have hid := (hs.ok f hmem).id
  unfold FS.openForWrite
  rw [hj]
  simp only
  rw [hid, if_neg (fun hx => hno ((isOpened_iff _ _).mp hx)), markOpened_ok hlen]
  simp only
  have hs1 : Sys crc { fs with at' := { fs.at' with opened := fs.at'.opened ++ [f.k.id] } } (as ++ f :: bs) leak :=
    hs.opened rfl rfl rfl rfl rfl rfl (fun g _ _ _ hg => List.mem_append_left _ hg)
  have ho1 : f.k.id ∈ fs.at'.opened ++ [f.k.id] := by simp
  rcases hs1.claim (rng 0) (rng 1) with ⟨new, c1, c2, c3, c4, c5, _⟩ | ⟨c1, cf⟩
  case inr =>
    rw [freeBytes_full hs.inv cf] at hfree
    exact absurd hfree (by omega)
  have c1 : (fs.mng.claim (rng 0) (rng 1) fs.dev).1 = .ok new := c1
  have c2 : Sys crc ⟨{ fs.at' with opened := fs.at'.opened ++ [f.k.id] }, (fs.mng.claim (rng 0) (rng 1) fs.dev).2.1,
    (fs.mng.claim (rng 0) (rng 1) fs.dev).2.2⟩ (as ++ f :: bs) (new :: leak) := c2
  have c4 : ∀ j, j < 4096 → (fs.mng.claim (rng 0) (rng 1) fs.dev).2.2.flash (new * 4096 + j) = 0xFF := c4
  generalize fs.mng.claim (rng 0) (rng 1) fs.dev = r at c1 c2 c4
  obtain ⟨r0, m, d⟩ := r
  simp only at c1 c2 c4
  subst c1
  simp only [hfirst]
  obtain ⟨fs', g1, g3, _, g2⟩ := open_fresh c2 hw hdm hfirst c3 c4 ho1 hok
  rw [g1]
  refine ⟨new, fs', rfl, g3, ?_⟩
  have e' : ({ f.e with first := some new } : FileEntry) = ⟨f.k.id, f.e.typ, some new⟩ := by rw [← hid]
  rw [e'] at g2
  exact g2

/-- all outcomes of `open_file_for_write` for an existing file without a writer -/
theorem sys_openWrite {crc : Bytes → UInt32} {fs : FS} {files : List FileSt} {leak : List Nat} (hs : Sys crc fs files leak) {a b : List Known} {k : Known}
    (hf : files.map (·.k) = a ++ k :: b) (hw : k.writer = none) (hdm : k.damaged = false) (hok : countersOk fs) (rng : Nat → Nat) :
    (k.id ∈ fs.at'.opened ∧ fs.openForWrite k.id rng = (.error .fileInUse, fs)) ∨
    (32 ≤ fs.at'.opened.length ∧ fs.openForWrite k.id rng = (.error .tooManyFilesOpen, fs)) ∨
    (fs.mng.freeBytes ≤ 4016 ∧ ∃ fs', fs.openForWrite k.id rng = (.error .deviceFull, fs') ∧ fs'.at'.opened = fs.at'.opened ++ [k.id] ∧ SysTo crc fs files fs' (files.map (·.k))) ∨
    (k.id ∉ fs.at'.opened ∧ fs.at'.opened.length < 32 ∧ ∃ w fs', fs.openForWrite k.id rng = (.ok w, fs') ∧ fs'.at'.opened = fs.at'.opened ++ [k.id] ∧
      SysTo crc fs files fs' (a ++ { k with durable := k.data, writer := some w, guarded := true } :: b)) := by
  obtain ⟨as, f, bs, rfl, ha, rfl, hb⟩ := split_files hf
  have hmem : f ∈ as ++ f :: bs := by simp
  obtain ⟨j, hj⟩ := hs.find hmem
  have hid := (hs.ok f hmem).id
  unfold FS.openForWrite
  rw [hj]
  simp only
  rw [hid]
  by_cases hop : fs.at'.isOpened f.k.id = true
  · rw [if_pos hop]; exact .inl ⟨(isOpened_iff _ _).mp hop, rfl⟩
  rw [if_neg hop]
  have hno : f.k.id ∉ fs.at'.opened := fun hx => hop ((isOpened_iff _ _).mpr hx)
  right
  by_cases hlen : fs.at'.opened.length < 32
  case neg => rw [markOpened_err hlen]; exact .inl ⟨by omega, rfl⟩
  right
  rw [markOpened_ok hlen]
  simp only
  have hs1 : Sys crc { fs with at' := { fs.at' with opened := fs.at'.opened ++ [f.k.id] } } (as ++ f :: bs) leak :=
    hs.opened rfl rfl rfl rfl rfl rfl (fun g _ _ _ hg => List.mem_append_left _ hg)
  have ho1 : f.k.id ∈ fs.at'.opened ++ [f.k.id] := by simp
  rcases hs1.claim (rng 0) (rng 1) with ⟨new, c1, c2, c3, c4, c5, _⟩ | ⟨c1, cf⟩
  case inr =>
    have c1 : fs.mng.claim (rng 0) (rng 1) fs.dev = (.error .deviceFull, fs.mng, fs.dev) := c1
    rw [c1]
    exact .inl ⟨by rw [(freeBytes_eq hs.inv).1, cf]; omega, _, rfl, rfl, _, leak, rfl, hs1, Kept.same rfl⟩
  have c1 : (fs.mng.claim (rng 0) (rng 1) fs.dev).1 = .ok new := c1
  have c2 : Sys crc ⟨{ fs.at' with opened := fs.at'.opened ++ [f.k.id] }, (fs.mng.claim (rng 0) (rng 1) fs.dev).2.1,
    (fs.mng.claim (rng 0) (rng 1) fs.dev).2.2⟩ (as ++ f :: bs) (new :: leak) := c2
  have c4 : ∀ j, j < 4096 → (fs.mng.claim (rng 0) (rng 1) fs.dev).2.2.flash (new * 4096 + j) = 0xFF := c4
  have c5 : SameExcept (leak ++ (as ++ f :: bs).flatMap FileSt.own) fs.dev.flash (fs.mng.claim (rng 0) (rng 1) fs.dev).2.2.flash := c5
  generalize fs.mng.claim (rng 0) (rng 1) fs.dev = r at c1 c2 c4 c5
  obtain ⟨r0, m, d⟩ := r
  simp only at c1 c2 c4 c5
  have hoth : ∀ s ∈ others leak as bs, SameSector fs.dev.flash d.flash s := fun s hsm =>
    sameExcept_same c5 ((own_perm leak as bs f).mem_iff.mpr (List.mem_append_left _ hsm))
  have hnoK : f.k.writer = none → f.k.id ∉ fs.at'.opened := fun _ => hno
  subst c1
  simp only
  cases hfirst : f.e.first with
  | none =>
    simp only
    obtain ⟨fs', g1, g3, g4, g2⟩ := open_fresh c2 hw hdm hfirst c3 c4 ho1 hok
    rw [g1]
    refine .inr ⟨hno, hlen, _, fs', rfl, g3, _, leak, map_split ha hb, g2, kept_update hs hnoK fun s hsm => (hoth s hsm).trans (g4 s ?_)⟩
    exact hs.inv.range s (List.mem_append_left _ (List.mem_append_left _ ((own_perm leak as bs f).mem_iff.mpr (List.mem_append_left _ hsm))))
  | some first =>
    simp only
    obtain ⟨hst, _⟩ := (c2.ok f hmem).closed hw hdm
    have hod := c2.own_data hmem
    have hown : f.own = secs f.segs := by unfold FileSt.own; rw [hw]
    rw [hown] at hod
    have hl := data_length hod.1 hod.2
    rw [List.length_map] at hl
    obtain ⟨init, last, D, l1, l2, l3, l4⟩ := lastSector_stored hst first (SECTORS_COUNT + 1) hfirst (by unfold SECTORS_COUNT; omega)
      (fun s hsm => by have := (hod.2 s hsm).2; unfold SECTORS_COUNT at this; omega)
    have l2 : lastSector (SECTORS_COUNT + 1) d.flash first = .ok last := l2
    rw [l2]
    simp only
    rcases c2.claim (rng 2) (rng 3) with ⟨temp, e1, e2, e3, e4, e5, _⟩ | ⟨e1, ef⟩
    case inr =>
      have e1 : m.claim (rng 2) (rng 3) d = (.error .deviceFull, m, d) := e1
      rw [e1]
      rw [List.cons_append, List.length_cons] at ef
      exact .inl ⟨by rw [(freeBytes_eq hs.inv).1]; omega, _, rfl, rfl, _, new :: leak, rfl, c2, fun g hg _ _ _ => ⟨hg, fun s hsm => sameExcept_same c5 (List.mem_append_right _ (List.mem_flatMap.mpr ⟨g, hg, hsm⟩))⟩⟩
    have e1 : (m.claim (rng 2) (rng 3) d).1 = .ok temp := e1
    have e2 : Sys crc ⟨{ fs.at' with opened := fs.at'.opened ++ [f.k.id] }, (m.claim (rng 2) (rng 3) d).2.1,
      (m.claim (rng 2) (rng 3) d).2.2⟩ (as ++ f :: bs) (temp :: new :: leak) := e2
    have e4 : ∀ j, j < 4096 → (m.claim (rng 2) (rng 3) d).2.2.flash (temp * 4096 + j) = 0xFF := e4
    have e5 : SameExcept (new :: leak ++ (as ++ f :: bs).flatMap FileSt.own) d.flash (m.claim (rng 2) (rng 3) d).2.2.flash := e5
    generalize m.claim (rng 2) (rng 3) d = r at e1 e2 e4 e5
    obtain ⟨r0, m2, d2⟩ := r
    simp only at e1 e2 e4 e5
    subst e1
    simp only
    have hfs : ∀ s ∈ secs f.segs, SameSector d.flash d2.flash s := by
      intro s hsm
      refine sameExcept_same e5 (List.mem_append_right _ (List.mem_flatMap.mpr ⟨f, hmem, by rw [hown]; exact hsm⟩))
    rw [l1] at hfs
    have hoth2 : ∀ s ∈ others leak as bs, SameSector d.flash d2.flash s := fun s hsm =>
      sameExcept_same e5 ((own_perm (new :: leak) as bs f).mem_iff.mpr (List.mem_append_left _ (List.mem_cons_of_mem _ hsm)))
    have hap := open_append e2 hw hdm hfirst l1 (l3.congr (hfs last (by simp)))
      (l4.congr fun x hx => hfs x (by unfold secs; rw [List.map_append]; exact List.mem_append_left _ hx))
      (fun j hj => (sameExcept_same e5 (by simp) j hj).symm.trans (c4 j hj)) e4 ho1
    exact .inr ⟨hno, hlen, _, _, rfl, rfl, _, leak, map_split ha hb, hap.2,
      kept_update hs hnoK fun s hsm => ((hoth s hsm).trans (hoth2 s hsm)).trans (hap.1 s hsm)⟩

theorem step_openWrite {crc : Bytes → UInt32} {fs : FS} {ks : List Known} (h : SysInv crc fs ks) {a b : List Known} {k : Known}
    (hk : ks = a ++ k :: b) (hw : k.writer = none) (hdm : k.damaged = false) (hok : countersOk fs) (rng : Nat → Nat) :
    (k.id ∈ fs.at'.opened ∧ fs.openForWrite k.id rng = (.error .fileInUse, fs)) ∨
    (32 ≤ fs.at'.opened.length ∧ fs.openForWrite k.id rng = (.error .tooManyFilesOpen, fs)) ∨
    (fs.mng.freeBytes ≤ 4016 ∧ ∃ fs', fs.openForWrite k.id rng = (.error .deviceFull, fs') ∧ fs'.at'.opened = fs.at'.opened ++ [k.id] ∧ SysInv crc fs' ks) ∨
    (k.id ∉ fs.at'.opened ∧ fs.at'.opened.length < 32 ∧ ∃ w fs', fs.openForWrite k.id rng = (.ok w, fs') ∧ fs'.at'.opened = fs.at'.opened ++ [k.id] ∧
      SysInv crc fs' (a ++ { k with durable := k.data, writer := some w, guarded := true } :: b)) := by
  obtain ⟨files, leak, hf, hs⟩ := h
  have hks := hf
  rw [hk] at hf
  rcases sys_openWrite hs hf hw hdm hok rng with g | g | ⟨g1, fs', g2, g3, g4⟩ | ⟨g1, g2, w, fs', g3, g4, g5⟩
  · exact .inl g
  · exact .inr (.inl g)
  · exact .inr (.inr (.inl ⟨g1, fs', g2, g3, by rw [← hks]; exact g4.inv⟩))
  · exact .inr (.inr (.inr ⟨g1, g2, w, fs', g3, g4, g5.inv⟩))

theorem step_openWrite_missing {crc : Bytes → UInt32} {fs : FS} {ks : List Known} (h : SysInv crc fs ks) {id : Nat}
    (hid : ∀ k ∈ ks, k.id ≠ id) (rng : Nat → Nat) : fs.openForWrite id rng = (.error .fileDoesNotExist, fs) := by
  obtain ⟨files, leak, hf, hs⟩ := h
  unfold FS.openForWrite
  rw [hs.find_none (fun f hm => hid _ (mem_files hf hm))]

/-- `open_file_for_write` and `open_file_for_read` of a file whose writer is registered -/
theorem guarded_inUse {crc : Bytes → UInt32} {fs : FS} {ks : List Known} (h : SysInv crc fs ks) {k : Known} (hk : k ∈ ks)
    (hw : k.writer.isSome = true) (hg : k.guarded = true) : k.id ∈ fs.at'.opened ∧
    (∀ rng, fs.openForWrite k.id rng = (.error .fileInUse, fs)) ∧ fs.openForRead k.id = (.error .fileInUse, fs) := by
  obtain ⟨files, leak, hf, hs⟩ := h
  rw [← hf] at hk
  obtain ⟨f, hm, rfl⟩ := List.mem_map.mp hk
  obtain ⟨j, hj⟩ := hs.find hm
  have ho := hs.guard f hm hw hg
  have hop := (isOpened_iff fs.at' f.e.id).mpr (by rw [(hs.ok f hm).id]; exact ho)
  refine ⟨ho, fun rng => ?_, ?_⟩
  · unfold FS.openForWrite
    rw [hj]
    simp only
    rw [if_pos hop]
  · unfold FS.openForRead
    rw [hj]
    simp only
    rw [if_pos hop]

theorem step_openWriteErr {crc : Bytes → UInt32} {fs : FS} {ks : List Known} (h : SysInv crc fs ks) {id : Nat} {rng : Nat → Nat} {er : Err} {fs' : FS}
    (hs : ∀ k ∈ ks, k.id = id → k.safe) (hd : ∀ k ∈ ks, k.id = id → k.damaged = false) (ho : fs.openForWrite id rng = (.error er, fs')) (hok : countersOk fs) : SysInv crc fs' ks := by
  by_cases hex : ∃ k ∈ ks, k.id = id
  · obtain ⟨k, hk, rfl⟩ := hex
    cases hw : k.writer with
    | some w =>
      obtain ⟨_, g1, _⟩ := guarded_inUse h hk (by rw [hw]; rfl) (hs k hk rfl (by rw [hw]; rfl))
      rw [g1 rng] at ho
      injection ho with _ ho
      rw [← ho]; exact h
    | none =>
      obtain ⟨a, b, hab⟩ := List.append_of_mem hk
      rcases step_openWrite h hab hw (hd k hk rfl) hok rng with ⟨_, g⟩ | ⟨_, g⟩ | ⟨_, fs2, g, _, g2⟩ | ⟨_, _, w, fs2, g, _⟩
      · rw [g] at ho; injection ho with _ ho; rw [← ho]; exact h
      · rw [g] at ho; injection ho with _ ho; rw [← ho]; exact h
      · rw [g] at ho; injection ho with _ ho; rw [← ho]; exact g2
      · rw [g] at ho; injection ho with ho _; exact absurd ho (by simp)
  · rw [step_openWrite_missing h (fun k hk he => hex ⟨k, hk, he⟩) rng] at ho
    injection ho with _ ho
    rw [← ho]; exact h

/-! ### reading -/

/-- all outcomes of `open_file_for_read` for an existing file without a writer -/
theorem openRead_spec {crc : Bytes → UInt32} {fs : FS} {files : List FileSt} {leak : List Nat} (hs : Sys crc fs files leak) {f : FileSt}
    (hm : f ∈ files) :
    (f.k.id ∈ fs.at'.opened ∧ fs.openForRead f.k.id = (.error .fileInUse, fs)) ∨
    (32 ≤ fs.at'.opened.length ∧ fs.openForRead f.k.id = (.error .tooManyFilesOpen, fs)) ∨
    (f.k.id ∉ fs.at'.opened ∧ fs.at'.opened.length < 32 ∧ fs.openForRead f.k.id = (.ok (FileReader.new f.e.first f.k.id),
      { fs with at' := { fs.at' with opened := fs.at'.opened ++ [f.k.id] } })) := by
  obtain ⟨j, hj⟩ := hs.find hm
  have hid := (hs.ok f hm).id
  unfold FS.openForRead
  rw [hj]
  simp only
  rw [hid]
  by_cases hop : fs.at'.isOpened f.k.id = true
  · rw [if_pos hop]; exact .inl ⟨(isOpened_iff _ _).mp hop, rfl⟩
  rw [if_neg hop]
  by_cases hlen : fs.at'.opened.length < 32
  · rw [markOpened_ok hlen]; exact .inr (.inr ⟨fun hx => hop ((isOpened_iff _ _).mpr hx), hlen, rfl⟩)
  · rw [markOpened_err hlen]; exact .inr (.inl ⟨by omega, rfl⟩)

theorem step_openRead {crc : Bytes → UInt32} {fs : FS} {ks : List Known} (h : SysInv crc fs ks) (id : Nat) :
    SysInv crc (fs.openForRead id).2 ks := by
  obtain ⟨files, leak, hf, hs⟩ := h
  refine ⟨files, leak, hf, ?_⟩
  by_cases hex : ∃ f ∈ files, f.k.id = id
  · obtain ⟨f, hm, rfl⟩ := hex
    rcases openRead_spec hs hm with ⟨_, g⟩ | ⟨_, g⟩ | ⟨_, _, g⟩
    · rw [g]; exact hs
    · rw [g]; exact hs
    · rw [g]
      exact hs.opened rfl rfl rfl rfl rfl rfl (fun g _ _ _ hg => List.mem_append_left _ hg)
  · unfold FS.openForRead
    rw [hs.find_none (fun f hm he => hex ⟨f, hm, he⟩)]
    exact hs

theorem step_closeRead {crc : Bytes → UInt32} {fs : FS} {ks : List Known} (h : SysInv crc fs ks) (r : FileReader)
    (hg : ∀ k ∈ ks, k.id = r.id → k.writer.isSome = true → k.guarded = false) : SysInv crc (fs.closeReader r) ks := by
  obtain ⟨files, leak, hf, hs⟩ := h
  obtain ⟨m1, m2, m3, m4, m5, m6⟩ := markClosed_fields fs r.id
  refine ⟨files, leak, hf, hs.opened m3 m4 m5 m6 m2 m1 ?_⟩
  intro f hm hw hgd ho
  refine markClosed_mem (fun he => ?_) ho
  rw [hg f.k (mem_files hf hm) he hw] at hgd
  exact absurd hgd (by simp)

end Verif.Vlfs
