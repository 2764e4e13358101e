import Verif.Lemmas.SystemOpen
/-
Power loss during a call that claims a sector and enters it in the directory.
-/
namespace Verif.Vlfs
open Verif Verif.Spec

theorem pageCrash_append {fl fl' : Flash} {a b : List FlashOp} (hc : PageCrash fl (a ++ b) fl') :
    PageCrash fl a fl' ∨ PageCrash (applyOps fl a) b fl' := by
  cases hc with
  | between pre post e =>
    rcases List.append_eq_append_iff.mp e with ⟨x, h1, h2⟩ | ⟨x, h1, h2⟩
    · right; rw [h1, applyOps_append]; exact .between x post h2
    · left; exact .between pre x h1
  | erasing pre post A len fl' e ht =>
    rcases List.append_eq_append_iff.mp e with ⟨x, h1, h2⟩ | ⟨x, h1, h2⟩
    · right
      rw [h1, applyOps_append] at ht
      exact .erasing x post A len fl' h2 ht
    · cases x with
      | nil =>
        right
        rw [List.append_nil] at h1
        rw [← h1] at ht
        exact .erasing [] post A len fl' (by simpa using h2.symm) ht
      | cons y x =>
        left
        rw [List.cons_append, List.cons.injEq] at h2
        obtain ⟨rfl, h2⟩ := h2
        exact .erasing pre x A len fl' h1 ht

theorem interrupted_early {fs : FS} {new : List FileEntry} {m : Nat} (hcap : new.length ≤ 2518) (fl' : Flash) (n : Nat)
    (hn : n ≤ 13 * (new.length + 1) / 256 + 1)
    (h : LowEq fl' (applyOps fs.dev.flash ((updateOps fs new m).take n))) :
    Interrupted fs fl' new m (fun t => t % 256 = 0 ∧ t ≤ 13 * (new.length + 1)) := by
  cases n with
  | zero =>
    have hi := interrupted_clean hcap fl' 0 h (fun _ => True) (fun _ => trivial)
    have hlt := nextPos_lt fs
    rw [List.take_zero, applyOps_nil] at h
    refine ⟨hi.others, Or.inl ⟨fun _ => false, ?_⟩⟩
    intro j hj
    exact (h.sameSlot hlt j hj).symm
  | succ k =>
    have hi := interrupted_clean hcap fl' (k + 1) h (fun _ => True) (fun _ => trivial)
    have hlt := nextPos_lt fs
    have e : (updateOps fs new m).take (k + 1) = .erase (slotAddr (nextPos fs)) 32768 ::
        pages (slotAddr (nextPos fs)) (tableImage (fs.at'.seq + 1) new m) k := by
      unfold updateOps
      rw [List.take_succ_cons, pages_take _ _ _ _ (by omega)]
    rw [e] at h
    refine ⟨hi.others, Or.inr ⟨256 * k, ⟨by omega, by omega⟩, ?_⟩⟩
    exact (written_prefix0 _ _ _ _).congr (fun j hj => (h.sameSlot hlt j hj).symm)

/-- a crash before the footer is written: a state from which the old table is found -/
theorem early_dirInv {fs : FS} {es new : List FileEntry} {m : Nat} {fl' : Flash} (hd : DirInv fs es) (hw : Writable new m)
    (htyp : ∀ e ∈ new, e.typ < 0x4000) (hl : new.length ≤ 2517) (hseq : fs.at'.seq + 1 < 2 ^ 64) {os rest : List FlashOp}
    (hos : updateOps fs new m = os.filter FlashOp.isTable ++ rest) (hn : (os.filter FlashOp.isTable).length ≤ 13 * (new.length + 1) / 256 + 1)
    (hc : PageCrash fs.dev.flash os fl') (op : List Nat) (mg : SectorsMng) (lg : List FlashOp) :
    DirInv ⟨{ fs.at' with opened := op }, mg, ⟨fl', lg⟩⟩ es := by
  have hpos := hd.pos
  have hne := nextPos_ne hpos
  have hint : Interrupted fs fl' new m (fun t => t % 256 = 0 ∧ t ≤ 13 * (new.length + 1)) := by
    cases hc with
    | between pre post h =>
      have hf : updateOps fs new m = pre.filter FlashOp.isTable ++ (post.filter FlashOp.isTable ++ rest) := by
        rw [hos, h, List.filter_append, List.append_assoc]
      refine interrupted_early hw.cap _ (pre.filter FlashOp.isTable).length ?_ ?_
      · rw [h, List.filter_append, List.length_append] at hn; omega
      rw [← prefix_eq_take hf]
      exact applyOps_filter _ _
    | erasing pre post a len fl' h ht =>
      have hf : updateOps fs new m = pre.filter FlashOp.isTable ++ ((FlashOp.erase a len :: post).filter FlashOp.isTable ++ rest) := by
        rw [hos, h, List.filter_append, List.append_assoc]
      cases ho : (FlashOp.erase a len).isTable with
      | false =>
        refine interrupted_early hw.cap _ (pre.filter FlashOp.isTable).length ?_ ?_
        · rw [h, List.filter_append, List.length_append] at hn; omega
        rw [← prefix_eq_take hf]
        exact (torn_data_lowEq ht ho).trans (applyOps_filter _ _)
      | true =>
        rw [List.filter_cons_of_pos ho] at hf
        have hlt := nextPos_lt fs
        obtain ⟨g', hg1, hg2⟩ := torn_lowEq (applyOps_filter fs.dev.flash pre) ht
        generalize hpp : pre.filter FlashOp.isTable = pp at *
        cases pp with
        | nil =>
          rw [List.nil_append, updateOps, List.cons_append, List.cons.injEq] at hf
          obtain ⟨h1, h2⟩ := hf
          injection h1 with h1 h1'
          subst h1; subst h1'
          cases hg1 with
          | erase _ _ P =>
            refine ⟨fun q hq hne j hj => ?_, Or.inl ⟨P, fun j hj => ?_⟩⟩
            · rw [hg2.sameSlot hq j hj]
              show _ = if _ then _ else _
              rw [if_neg]
              · rfl
              · rw [slotAddr_eq, slotAddr_eq]; omega
            · rw [hg2.sameSlot hlt j hj]
              unfold blankPages
              show _ = if _ then _ else _
              by_cases hP : P ((slotAddr (nextPos fs) + j) / 256) = true
              · rw [if_pos hP, if_pos ⟨by omega, hP⟩]
              · rw [if_neg hP, if_neg (fun h => hP h.2)]; rfl
        | cons p0 pp =>
          exfalso
          rw [List.cons_append, updateOps, List.cons.injEq] at hf
          have : FlashOp.erase a len ∈ pages (slotAddr (nextPos fs)) (tableImage (fs.at'.seq + 1) new m)
              (13 * (new.length + 2) / 256 + 1) := by rw [hf.2]; simp
          unfold pages at this
          rw [List.mem_map] at this
          obtain ⟨_, _, h⟩ := this
          exact absurd h (by simp)
  have hold : SlotHolds fl' fs.at'.position fs.at'.seq es fs.at'.maxId :=
    hd.holds.congr (hint.others _ hpos (fun h => hne h.symm)) hd.cap
  have hst : Stale fl' (nextPos fs) fs.at'.seq := by
    rcases hint.target with ⟨P, hP⟩ | ⟨t, ht, hp⟩
    · exact ((hd.stale _ (nextPos_lt fs) hne).blank P).congr hP
    · exact hp.stale (by omega) hseq hw.maxLt hw.wf htyp hl
  refine ⟨hpos, hd.seq1, hd.seq, hold, hd.count, hd.cap, fun q h1 h2 => ?_, hd.wf, hd.typ, hd.sorted, hd.maxId, hd.maxLt⟩
  by_cases hq : q = nextPos fs
  · subst hq; exact hst
  · exact (hd.stale q h1 h2).congr (hint.others q h1 hq)

/-- Power loss during a call that first touches sectors of no file, then only the directory, where the footer is written in the second part. -/
theorem loss_alloc {crc : Bytes → UInt32} {fs fs' : FS} {files files' : List FileSt} {leak leak' : List Nat} (hs : Sys crc fs files leak) (hs' : Sys crc fs' files' leak')
    {os1 os2 : List FlashOp} {m : Nat} (hd : fs'.dev = fs.dev.ops (os1 ++ os2)) (hup : (os1 ++ os2).filter FlashOp.isTable = updateOps fs (files'.map (·.e)) m)
    (hw : Writable (files'.map (·.e)) m) (hsm : SmallTypes (files'.map (·.e))) (hseq : fs.at'.seq + 1 < 2 ^ 64) (hl : files'.length ≤ 2517)
    (hfit : 13 * (files'.length + 1) % 256 ≤ 243)
    (hfree : ∀ o ∈ os1, ∀ a, o.touches a → 131072 ≤ a → ∀ f ∈ files, a / 4096 ∉ f.own) (hhigh : ∀ o ∈ os2, ∀ a, o.touches a → a < 131072)
    (hbody : (os1.filter FlashOp.isTable).length ≤ 13 * (files'.length + 1) / 256 + 1) {fl' : Flash} (hp : PageCrash fs.dev.flash (os1 ++ os2) fl') :
    ∃ fs'', FS.mount fl' = (.ok (), fs'') ∧ fs''.at'.opened = [] ∧ (Sys crc fs'' (files.map FileSt.lost) [] ∨ Sys crc fs'' (files'.map FileSt.lost) []) := by
  have hlen : (files'.map (·.e)).length = files'.length := List.length_map ..
  have hold : ∀ f ∈ files, ∀ s ∈ f.own, SameSector fs.dev.flash fl' s := by
    intro f hf s hsm j hj
    have hdat := (hs.own_data hf).2 s hsm
    have h32 : 32 ≤ s := hdat.1
    refine (crash_untouched hp.crashImage fun o ho hx => ?_).symm
    rcases List.mem_append.mp ho with ho | ho
    · have := hfree o ho _ hx (by omega) f hf
      rw [show (s * 4096 + j) / 4096 = s by omega] at this
      exact this hsm
    · have := hhigh o ho _ hx
      omega
  have finOld : DirInv ⟨{ fs.at' with opened := [] }, SectorsMng.new, ⟨fl', []⟩⟩ (files.map (·.e)) →
      ∃ fs'', FS.mount fl' = (.ok (), fs'') ∧ fs''.at'.opened = [] ∧ (Sys crc fs'' (files.map FileSt.lost) [] ∨ Sys crc fs'' (files'.map FileSt.lost) []) := by
    intro hdir
    obtain ⟨fs'', g1, _, g3, g4⟩ := restart_same hs (fun f hm => hm) hs.nodup hdir hs.reach.small hold
    exact ⟨fs'', g1, g3, .inl g4⟩
  rcases pageCrash_append hp with hp1 | hp2
  · refine finOld (early_dirInv hs.reach.dir hw hsm (by rw [hlen]; exact hl) hseq (rest := os2.filter FlashOp.isTable) ?_ (by rw [hlen]; exact hbody) hp1 _ _ _)
    rw [← hup, List.filter_append]
  · have hint := interrupted_of_pageCrash hw.cap hup hp
    rcases hint.dirInv hs.reach.dir hw hsm (by rw [hlen]; exact hl) (by show 13 * ((files'.map (·.e)).length + 1) % 256 ≤ 243; rw [hlen]; exact hfit) hseq [] SectorsMng.new [] with hg | hg
    · exact finOld hg
    · have hnew : ∀ a, 131072 ≤ a → fl' a = fs'.dev.flash a := by
        intro a ha
        rw [crash_untouched hp2.crashImage fun o ho hx => absurd (hhigh o ho a hx) (by omega), hd]
        show _ = applyOps fs.dev.flash (os1 ++ os2) a
        rw [applyOps_append]
        exact (applyOps_untouched fun o ho hx => absurd (hhigh o ho a hx) (by omega)).symm
      obtain ⟨fs'', g1, _, g3, g4⟩ := restart_same hs' (fun f hm => hm) hs'.nodup hg hs'.reach.small
        (fun f hm s hsm' => high_same hnew ((hs'.own_data hm).2 s hsm'))
      exact ⟨fs'', g1, g3, .inr g4⟩

theorem dirInv_lists {fs : FS} {es es' : List FileEntry} (h : DirInv fs es) (hl : lists fs es') : es' = es := by
  have h7 := h.filesIter (fun _ => true)
  rw [List.filter_eq_self.mpr (by simp)] at h7
  have h8 : FS.filesIter _ (fun _ => true) = .ok es' := hl
  rw [h7] at h8
  injection h8 with h8; exact h8.symm

theorem lists_of_dirInv {fs : FS} {es : List FileEntry} (h : DirInv fs es) : lists fs es := by
  have h7 := h.filesIter (fun _ => true)
  rwa [List.filter_eq_self.mpr (by simp)] at h7

theorem ops_inj {d : Dev} {a b : List FlashOp} (h : d.ops a = d.ops b) : a = b := by
  have h := congrArg Dev.log h
  exact List.append_cancel_left (show d.log ++ a = d.log ++ b from h)

/-- `create_file_and_open_for_write`: the records of the old files are written, then a sector is claimed, then the new record and the footer are written. -/
theorem createFileAndOpen_trace {fs : FS} {es : List FileEntry} (hd : DirInv fs es) (typ r1 r2 : Nat) (hl : es.length < 2518)
    {e : FileEntry} {fs' : FS} (hok : fs.createFileAndOpen typ r1 r2 = (.ok e, fs')) :
    ∃ osA : List FlashOp, (∀ o ∈ osA, ∀ a, o.touches a → a < 131072) ∧ (osA.filter FlashOp.isTable).length ≤ 13 * (es.length + 2) / 256 + 1 ∧
      ∃ s, (fs.mng.claim r1 r2 (fs.dev.ops osA)).1 = .ok s ∧ HighAs (fs.mng.claim r1 r2 (fs.dev.ops osA)).2.2 fs'.dev := by
  obtain ⟨h1, h2, h3⟩ := Builder.new_spec fs
  obtain ⟨b, h4, h5, h6⟩ := copyRest_spec hd maxEntries (Builder.new fs) [] 0 h1 h2 (by omega)
    (by rw [maxEntries_eq]; omega) (by rw [List.length_nil]; omega)
  have hh := copyRest_high hd maxEntries (Builder.new fs) [] 0 h1 h2 (by omega) (by rw [List.length_nil]; omega) (HighAs.new fs)
  rw [h4] at hh
  rw [List.nil_append, List.drop_zero] at h5
  unfold FS.createFileAndOpen at hok
  simp only [h4] at hok
  unfold Builder.writeNewFileAndOpen at hok
  simp only at hok
  have hbm : b.getNewFileId.2.mng = fs.mng := by show b.mng = _; rw [h6, h3]
  have hbd : b.getNewFileId.2.dev = b.dev := rfl
  rw [hbm, hbd] at hok
  obtain ⟨osA, t1, t2⟩ := h5.trace
  obtain ⟨osA', u1, u2⟩ := hh
  have u1 : b.dev = fs.dev.ops osA' := u1
  have hu : osA' = osA := ops_inj (by rw [← u1, t1])
  subst hu
  refine ⟨osA', u2, ?_, ?_⟩
  · rw [t2, List.length_cons, bodyImage_length]
    unfold pages
    rw [List.length_map, List.length_range]
    omega
  rw [← t1]
  cases hcl : fs.mng.claim r1 r2 b.dev with
  | mk res rest =>
  obtain ⟨mng', dev'⟩ := rest
  rw [hcl] at hok
  cases res with
  | error e => simp at hok
  | ok s =>
    simp only at hok
    injection hok with ha hb
    injection ha with ha
    subst ha
    subst hb
    refine ⟨s, rfl, ?_⟩
    have hlt := nextPos_lt fs
    have hlen := bodyImage_length (fs.at'.seq + 1) (es ++ [⟨b.getNewFileId.1, typ, some s⟩])
    rw [List.length_append, List.length_singleton] at hlen
    obtain ⟨hw1, _⟩ := extend_spec h5.w dev' (FileEntry.serialize ⟨b.getNewFileId.1, typ, some s⟩)
    have hA := (HighAs.refl dev').extend h5.w (FileEntry.serialize ⟨b.getNewFileId.1, typ, some s⟩)
      (by rw [← bodyImage_snoc, hlen, slotAddr_eq]; omega)
    rw [← bodyImage_snoc] at hw1
    generalize hx : b.w.extend dev' (FileEntry.serialize ⟨b.getNewFileId.1, typ, some s⟩) = x at hw1 hA
    generalize hE : ({ b.getNewFileId.2 with mng := mng', dev := dev' } : Builder).write ⟨b.getNewFileId.1, typ, some s⟩ = bb
    have hbw : bb.w = x.1 ∧ bb.dev = x.2 := by rw [← hE, ← hx]; exact ⟨rfl, rfl⟩
    have hlen2 := tableImage_length (fs.at'.seq + 1) (es ++ [⟨b.getNewFileId.1, typ, some s⟩]) bb.maxId
    rw [List.length_append, List.length_singleton] at hlen2
    have hft := bodyImage_footer (fs.at'.seq + 1) (es ++ [⟨b.getNewFileId.1, typ, some s⟩]) bb.maxId
    rw [← hbw.1] at hw1
    obtain ⟨hw2, _⟩ := extend_spec hw1 bb.dev (footerSerialize bb.maxId)
    rw [← hbw.2] at hA
    have hB := hA.extend hw1 (footerSerialize bb.maxId) (by rw [hft, hlen2, slotAddr_eq]; omega)
    have haddr := hw2.addr
    rw [hft, hlen2] at haddr
    show HighAs dev' (((bb.w.extend bb.dev (footerSerialize bb.maxId)).1.flush (bb.w.extend bb.dev (footerSerialize bb.maxId)).2).2)
    exact hB.flush (by rw [haddr, slotAddr_eq]; omega)

theorem erase_notTable (r : EraseRegion) : ¬ (FlashOp.erase r.address (r.len * SECTOR_SIZE)).isTable = true := by
  have : r.address = (r.first + 32) * 4096 := rfl
  intro h
  have h : r.address < 131072 := of_decide_eq_true h
  omega

/-- power loss during `create_file_and_open_for_write` -/
theorem loss_createOpen {crc : Bytes → UInt32} {fs fs' : FS} {files : List FileSt} {leak : List Nat} (hs : Sys crc fs files leak) {typ r1 r2 : Nat} {e : FileEntry}
    (hc : fs.createFileAndOpen typ r1 r2 = (.ok e, fs')) (hcap : (files.map (·.k)).length < 2518) (ht : typ < 0x4000) (hok : countersOk fs)
    {ops : List FlashOp} (hi : issued fs fs' ops) (hl : files.length + 1 ≤ 2517) (hfit : 13 * (files.length + 2) % 256 ≤ 243) {fl' : Flash}
    (hp : PageCrash fs.dev.flash ops fl') :
    ∃ fs'', ∃ files' : List FileSt, FS.mount fl' = (.ok (), fs'') ∧ fs''.at'.opened = [] ∧
      (files'.map (·.k) = files.map (·.k) ∨ files'.map (·.k) = files.map (·.k) ++ [⟨e.id, typ, [], [], [], e.first.map (FileWriter.new · e.id), false, false⟩]) ∧
      Sys crc fs'' (files'.map FileSt.lost) [] := by
  have hlen : (files.map (·.e)).length < 2518 := by rw [List.length_map, ← List.length_map (f := (·.k))]; exact hcap
  obtain ⟨files', leak', hk', hs', _⟩ := sys_createOpen hs hc hcap ht hok
  have hcall : Call fs (files.map (·.e)) fs' _ _ := .createOpen typ r1 r2 e fs' hc hlen ht
  obtain ⟨m, c1, c2, c3, _⟩ := call_rewrite hs.reach hcall hok
  have hes := dirInv_lists hs'.reach.dir (lists_of_dirInv (hs.reach.dir.of_rewrite c1 c2 hok.1))
  rw [hes] at c1 c2 c3
  obtain ⟨osA, a1, a2, s, a3, osB, a4, a5⟩ := createFileAndOpen_trace hs.reach.dir typ r1 r2 hlen hc
  have hA : HighAs fs.dev (fs.dev.ops osA) := ⟨osA, rfl, a1⟩
  rcases claim_spec hs.inv r1 r2 (fs.dev.ops osA) (blank_high (inv_range hs.inv) hs.blank hA.high) with ⟨x, _, _, _, _, _, _, _, osC, b1, b2⟩ | ⟨b1, _⟩
  case inr => rw [b1] at a3; exact absurd a3 (by simp)
  have hdev : fs'.dev = fs.dev.ops ((osA ++ osC) ++ osB) := by
    rw [a4, b1, Dev.ops_ops, Dev.ops_ops, List.append_assoc]
  have hops : ops = (osA ++ osC) ++ osB := by
    have hi : fs'.dev.log = fs.dev.log ++ ops := hi
    rw [hdev] at hi
    exact (List.append_cancel_left (show fs.dev.log ++ ((osA ++ osC) ++ osB) = fs.dev.log ++ ops from hi)).symm
  have hup := c1.ops hi
  rw [hops] at hup
  have hfl : files'.length = files.length + 1 := by
    have := congrArg List.length hk'
    rw [List.length_map, List.length_append, List.length_map] at this
    exact this
  have hCt : ∀ o ∈ osC, ∀ a, o.touches a → InData (a / 4096) ∧ a / 4096 ∉ leak ++ files.flatMap FileSt.own := by
    intro o ho a ha
    obtain ⟨r, hr, rfl⟩ := b2 o ho
    exact erase_touch hs.inv hr ha
  have hCn : osC.filter FlashOp.isTable = [] := by
    rw [List.filter_eq_nil_iff]
    intro o ho
    obtain ⟨r, hr, rfl⟩ := b2 o ho
    exact erase_notTable r
  obtain ⟨fs'', g1, g2, g3⟩ := loss_alloc hs hs' (os1 := osA ++ osC) (os2 := osB) hdev hup c2 c3 hok.1 (by omega) (by rw [hfl]; exact hfit)
    (by
      intro o ho a ha hge f hf hm
      rcases List.mem_append.mp ho with ho | ho
      · have := a1 o ho a ha; omega
      · exact (hCt o ho a ha).2 (List.mem_append_right _ (List.mem_flatMap.mpr ⟨f, hf, hm⟩)))
    a5 (by rw [List.filter_append, hCn, List.append_nil, hfl]; rw [List.length_map] at a2; exact a2) (by rw [← hops]; exact hp)
  rcases g3 with g3 | g3
  · exact ⟨fs'', files, g1, g2, .inl rfl, g3⟩
  · exact ⟨fs'', files', g1, g2, .inr hk', g3⟩

/-- power loss during `open_file_for_write` of a file without sectors -/
theorem loss_openFresh {crc : Bytes → UInt32} {fs fs' : FS} {as bs : List FileSt} {f : FileSt} {leak : List Nat}
    (hs : Sys crc fs (as ++ f :: bs) leak) (hw : f.k.writer = none) (hdm : f.k.damaged = false) (hfirst : f.e.first = none) (hok : countersOk fs) {rng : Nat → Nat} {w : FileWriter}
    (hc : fs.openForWrite f.k.id rng = (.ok w, fs')) {ops : List FlashOp} (hi : issued fs fs' ops) (hl : (as ++ f :: bs).length ≤ 2517)
    (hfit : 13 * ((as ++ f :: bs).length + 1) % 256 ≤ 243) {fl' : Flash} (hp : PageCrash fs.dev.flash ops fl') :
    ∃ fs'', ∃ files' : List FileSt, FS.mount fl' = (.ok (), fs'') ∧ fs''.at'.opened = [] ∧
      (files'.map (·.k) = (as ++ f :: bs).map (·.k) ∨
        files'.map (·.k) = as.map (·.k) ++ { f.k with durable := f.k.data, writer := some w, guarded := true } :: bs.map (·.k)) ∧
      Sys crc fs'' (files'.map FileSt.lost) [] := by
  have hmem : f ∈ as ++ f :: bs := by simp
  obtain ⟨j, hj⟩ := hs.find hmem
  have hid := (hs.ok f hmem).id
  unfold FS.openForWrite at hc
  rw [hj] at hc
  simp only at hc
  rw [hid] at hc
  by_cases hop : fs.at'.isOpened f.k.id = true
  · rw [if_pos hop] at hc; injection hc with hc _; exact absurd hc (by simp)
  rw [if_neg hop] at hc
  by_cases hlen : fs.at'.opened.length < 32
  case neg => rw [markOpened_err hlen] at hc; injection hc with hc _; exact absurd hc (by simp)
  rw [markOpened_ok hlen] at hc
  simp only at hc
  have hs1 : Sys crc { fs with at' := { fs.at' with opened := fs.at'.opened ++ [f.k.id] } } (as ++ f :: bs) leak :=
    hs.opened rfl rfl rfl rfl rfl rfl (fun g _ _ _ hg => List.mem_append_left _ hg)
  have ho1 : f.k.id ∈ fs.at'.opened ++ [f.k.id] := by simp
  rcases claim_spec hs.inv (rng 0) (rng 1) fs.dev hs.blank with ⟨_, _, _, _, _, _, _, _, osC, b1, b2⟩ | ⟨b1, _⟩
  case inr => rw [b1] at hc; injection hc with hc _; exact absurd hc (by simp)
  rcases hs1.claim (rng 0) (rng 1) with ⟨new, c1, c2, c3, c4, _, _⟩ | ⟨c1, cf⟩
  case inr =>
    have c1 : fs.mng.claim (rng 0) (rng 1) fs.dev = (.error .deviceFull, fs.mng, fs.dev) := c1
    rw [c1] at hc; injection hc with hc _; exact absurd hc (by simp)
  have c1 : (fs.mng.claim (rng 0) (rng 1) fs.dev).1 = .ok new := c1
  have c2 : Sys crc ⟨{ fs.at' with opened := fs.at'.opened ++ [f.k.id] }, (fs.mng.claim (rng 0) (rng 1) fs.dev).2.1,
    (fs.mng.claim (rng 0) (rng 1) fs.dev).2.2⟩ (as ++ f :: bs) (new :: leak) := c2
  have c4 : ∀ j, j < 4096 → (fs.mng.claim (rng 0) (rng 1) fs.dev).2.2.flash (new * 4096 + j) = 0xFF := c4
  generalize fs.mng.claim (rng 0) (rng 1) fs.dev = r at c1 c2 c4 b1 hc
  obtain ⟨r0, m, d⟩ := r
  simp only at c1 c2 c4 b1
  subst c1
  simp only [hfirst] at hc
  obtain ⟨fs2, g1, g3, _, g2⟩ := open_fresh c2 hw hdm hfirst c3 c4 ho1 hok
  rw [g1] at hc
  injection hc with hcw hcf
  injection hcw with hcw
  have hcf : fs2 = fs' := hcf
  subst hcf
  have hnew : new < 0xFFFF := by have := c3.2; unfold SECTORS_COUNT at this; omega
  have hcall : Call _ ((as ++ f :: bs).map (·.e)) fs2 _ _ := .setFirst f.k.id (some new) fs2 g1 (fun s hs => by injection hs with hs; omega)
  obtain ⟨m', k1, k2, k3, _⟩ := call_rewrite c2.reach hcall hok
  have hes := dirInv_lists g2.reach.dir (lists_of_dirInv (c2.reach.dir.of_rewrite k1 k2 hok.1))
  rw [hes] at k1 k2 k3
  have hh := setFirstSector_high c2.reach.dir f.k.id (some new)
  rw [g1] at hh
  obtain ⟨osB, a4, a5⟩ := hh
  have a4 : fs2.dev = d.ops osB := a4
  have hdev : fs2.dev = fs.dev.ops (osC ++ osB) := by rw [a4, b1, Dev.ops_ops]
  have hops : ops = osC ++ osB := by
    have hi : fs2.dev.log = fs.dev.log ++ ops := hi
    rw [hdev] at hi
    exact (List.append_cancel_left (show fs.dev.log ++ (osC ++ osB) = fs.dev.log ++ ops from hi)).symm
  have hCn : osC.filter FlashOp.isTable = [] := by
    rw [List.filter_eq_nil_iff]
    intro o ho
    obtain ⟨r, hr, rfl⟩ := b2 o ho
    exact erase_notTable r
  have hup := k1.ops (ops := osB) (by show fs2.dev.log = d.log ++ osB; rw [a4]; rfl)
  have hlen2 : ∀ x : FileSt, (as ++ x :: bs).length = (as ++ f :: bs).length := by
    intro x; rw [List.length_append, List.length_append, List.length_cons, List.length_cons]
  obtain ⟨fs'', l1, l2, l3⟩ := loss_alloc hs g2 (os1 := osC) (os2 := osB) hdev (by rw [List.filter_append, hCn, List.nil_append]; exact hup) k2 k3 hok.1
    (by rw [hlen2]; exact hl) (by rw [hlen2]; exact hfit)
    (by
      intro o ho a ha _ g hg hm
      obtain ⟨r, hr, rfl⟩ := b2 o ho
      exact (erase_touch hs.inv hr ha).2 (List.mem_append_right _ (List.mem_flatMap.mpr ⟨g, hg, hm⟩)))
    a5 (by rw [hCn]; simp) (by rw [← hops]; exact hp)
  rcases l3 with l3 | l3
  · exact ⟨fs'', _, l1, l2, .inl rfl, l3⟩
  · refine ⟨fs'', _, l1, l2, .inr ?_, l3⟩
    rw [List.map_append, List.map_cons, ← hcw]

/-- what is remembered about flushes of a file without a writer does not matter -/
theorem SysInv.forget {crc : Bytes → UInt32} {fs : FS} {a b : List Known} {k : Known} (h : SysInv crc fs (a ++ k :: b)) (hw : k.writer = none)
    (d : Bytes) (g : Bool) : SysInv crc fs (a ++ { k with durable := d, guarded := g } :: b) := by
  obtain ⟨files, leak, hf, hs⟩ := h
  obtain ⟨as, f, bs, rfl, ha, rfl, hb⟩ := split_files hf
  refine ⟨_, leak, map_split (f := ⟨{ f.k with durable := d, guarded := g }, f.e, f.segs, f.cur⟩) ha hb, ?_⟩
  have hfo := hs.ok f (by simp)
  have hinv := hs.inv.perm (own_perm leak as bs f)
  refine hs.update rfl rfl rfl rfl rfl (LowEq.refl _) (fun _ _ _ _ => rfl) ?_ ?_ hs.blank ?_ (fun _ _ hx => hx)
  · refine ⟨hfo.id, hfo.typ, hfo.chain, hfo.closed, hfo.whole, ?_⟩
    intro w hw'
    have hw' : f.k.writer = some w := hw'
    rw [hw] at hw'; exact absurd hw' (by simp)
  · exact hinv
  · intro hx
    have hx : f.k.writer.isSome = true := hx
    rw [hw] at hx
    exact absurd hx (by simp)

/-- Power loss during an allocating call: the mount succeeds, and the files are those before or after the call. -/
theorem step_lossAlloc {crc : Bytes → UInt32} {fs fs' : FS} {ks ks' : List Known} (h : SysInv crc fs ks) (hst : AllocStep fs ks fs' ks')
    {ops : List FlashOp} (hi : issued fs fs' ops) (hl : ks'.length ≤ 2517) (hfit : 13 * (ks'.length + 1) % 256 ≤ 243) {fl' : Flash}
    (hp : PageCrash fs.dev.flash ops fl') :
    ∃ fs'' ks2 es, FS.mount fl' = (.ok (), fs'') ∧ fs''.at'.opened = [] ∧ (ks2 = ks ∨ ks2 = ks') ∧ SysInv crc fs'' (ks2.map Known.afterLoss) ∧
      lists fs'' es ∧ es.map (·.id) = ks2.map (·.id) ∧
      ∀ ks3, (ks3 = ks ∨ ks3 = ks') → ks3.map (·.id) = es.map (·.id) → SysInv crc fs'' (ks3.map Known.afterLoss) := by
  obtain ⟨files, leak, hf, hs⟩ := h
  cases hst with
  | createOpen typ r1 r2 e fs' hc hcap ht hok =>
    subst hf
    have e1 : (files.map (·.k) ++ [(⟨e.id, typ, [], [], [], e.first.map (FileWriter.new · e.id), false, false⟩ : Known)]).length = files.length + 1 := by
      rw [List.length_append, List.length_map, List.length_singleton]
    rw [e1] at hl hfit
    obtain ⟨fs'', files', g1, g2, g3, g4⟩ := loss_createOpen hs hc hcap ht hok hi hl hfit hp
    have g5 : SysInv crc fs'' ((files'.map (·.k)).map Known.afterLoss) := ⟨_, _, map_lost_k files', g4⟩
    have hids : ((files'.map FileSt.lost).map (·.e)).map (·.id) = (files'.map (·.k)).map (·.id) := by
      rw [List.map_map, List.map_map, List.map_map]
      refine List.map_congr_left fun f hm => ?_
      have := (g4.ok f.lost (List.mem_map.mpr ⟨f, hm, rfl⟩)).id
      rw [lost_k, (afterLoss_id f.k).1] at this
      exact this
    refine ⟨fs'', files'.map (·.k), _, g1, g2, g3, g5, lists_of_dirInv g4.reach.dir, hids, ?_⟩
    intro ks3 h3 h3i
    rw [hids] at h3i
    have hlen := congrArg List.length h3i
    rw [List.length_map, List.length_map] at hlen
    have : ks3 = files'.map (·.k) := by
      rcases h3 with h3 | h3 <;> rcases g3 with g3 | g3 <;> rw [h3, g3] at hlen ⊢
      · rw [e1, List.length_map] at hlen; omega
      · rw [e1, List.length_map] at hlen; omega
    rw [this]; exact g5
  | openWrite id rng w fs' a b k es e hlist he heid hfirst hk hid hw hdm hc hok =>
    rw [hk] at hf
    obtain ⟨as, f, bs, rfl, ha, rfl, hb⟩ := split_files hf
    subst hid
    have hes := dirInv_lists hs.reach.dir hlist
    have hef : f.e.first = none := by
      rw [hes] at he
      obtain ⟨g, hg, rfl⟩ := List.mem_map.mp he
      have hgid := (hs.ok g hg).id
      have : g = f := by
        simp only [List.mem_append, List.mem_cons] at hg
        rcases hg with hg | hg | hg
        · exact absurd (hgid.symm.trans heid) (hs.idNe (List.mem_append_left _ hg))
        · exact hg
        · exact absurd (hgid.symm.trans heid) (hs.idNe (List.mem_append_right _ hg))
      rw [← this]; exact hfirst
    have e1 : (a ++ { f.k with durable := f.k.data, writer := some w, guarded := true } :: b).length = (as ++ f :: bs).length := by
      rw [← ha, ← hb]
      simp only [List.length_append, List.length_cons, List.length_map]
    rw [e1] at hl hfit
    obtain ⟨fs'', files', g1, g2, g3, g4⟩ := loss_openFresh hs hw hdm hef hok hc hi hl hfit hp
    rw [map_split ha hb] at g3
    rw [ha, hb] at g3
    have g5 : SysInv crc fs'' ((files'.map (·.k)).map Known.afterLoss) := ⟨_, _, map_lost_k files', g4⟩
    have hids : ((files'.map FileSt.lost).map (·.e)).map (·.id) = (files'.map (·.k)).map (·.id) := by
      rw [List.map_map, List.map_map, List.map_map]
      refine List.map_congr_left fun f hm => ?_
      have := (g4.ok f.lost (List.mem_map.mpr ⟨f, hm, rfl⟩)).id
      rw [lost_k, (afterLoss_id f.k).1] at this
      exact this
    refine ⟨fs'', files'.map (·.k), _, g1, g2, by rw [hk]; exact g3, g5, lists_of_dirInv g4.reach.dir, hids, ?_⟩
    intro ks3 h3 _
    rw [hk] at h3
    have ekO : f.k.afterLoss = f.k := by unfold Known.afterLoss; rw [hw]
    have ekN : ({ f.k with durable := f.k.data, writer := some w, guarded := true } : Known).afterLoss = { f.k with durable := f.k.data, guarded := false } := by
      unfold Known.afterLoss
      simp only [List.drop_left, hw]
    rcases h3 with h3 | h3 <;> rcases g3 with g3 | g3 <;> rw [h3] <;> rw [g3] at g5
    · exact g5
    · rw [List.map_append, List.map_cons, ekN] at g5
      rw [List.map_append, List.map_cons, ekO]
      exact g5.forget hw f.k.durable f.k.guarded
    · rw [List.map_append, List.map_cons, ekO] at g5
      rw [List.map_append, List.map_cons, ekN]
      exact g5.forget hw _ _
    · exact g5

end Verif.Vlfs
