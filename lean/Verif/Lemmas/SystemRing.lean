import Verif.Lemmas.SystemDir
/-
The rotation of a ring log on the level of the whole file system.
-/
namespace Verif.Vlfs
open Verif Verif.Spec

/-- the first `k` files of the type -/
def takeFirst (typ : Nat) : Nat → List FileEntry → List FileEntry
  | _, [] => []
  | k, e :: es => if e.typ = typ ∧ k > 0 then e :: takeFirst typ (k - 1) es else takeFirst typ k es

theorem takeFirst_sub (typ : Nat) : ∀ (es : List FileEntry) (k : Nat), ∀ e ∈ takeFirst typ k es, e ∈ es
  | [], _ => by simp [takeFirst]
  | x :: es, k => by
    intro e he
    rw [takeFirst] at he
    split at he
    · rcases List.mem_cons.mp he with rfl | he
      · simp
      · exact List.mem_cons_of_mem _ (takeFirst_sub typ es _ e he)
    · exact List.mem_cons_of_mem _ (takeFirst_sub typ es _ e he)

theorem takeDrop_perm (typ : Nat) : ∀ (es : List FileEntry) (k : Nat), es.Perm (takeFirst typ k es ++ dropFirst typ k es)
  | [], _ => by simp [takeFirst, dropFirst]
  | x :: es, k => by
    rw [takeFirst, dropFirst]
    split
    · exact (takeDrop_perm typ es (k - 1)).cons x
    · exact ((takeDrop_perm typ es k).cons x).trans (List.perm_middle.symm)

theorem rotateLoop_data {fs : FS} {es : List FileEntry} (hd : DirInv fs es) (typ : Nat) (ch : FileEntry → List Nat) :
    ∀ (fuel : Nat) (b : Builder) (new : List FileEntry) (i k : Nat), BW fs b new fs.at'.maxId → BR fs b i → HighAs fs.dev b.dev →
    (∀ e ∈ takeFirst typ k (es.drop i), Chain fs.dev.flash e.first (ch e) ∧ (ch e).length ≤ 16384 ∧ ∀ y ∈ ch e, 32 ≤ y) →
    i ≤ es.length → es.length - i < fuel → new.length + (es.length - i) ≤ 2518 →
    ∃ b', rotateLoop typ fuel b k = (.ok (), b') ∧ BW fs b' (new ++ dropFirst typ k (es.drop i)) fs.at'.maxId ∧ HighAs fs.dev b'.dev ∧
      b'.mng = ((takeFirst typ k (es.drop i)).flatMap ch).foldl SectorsMng.returnSector b.mng := by
  intro fuel
  induction fuel with
  | zero => exact fun b new i _ _ _ _ _ _ h => absurd h (Nat.not_lt_zero _)
  | succ fuel ih =>
    intro b new i k hw hr hh hch hi hf hl
    rw [rotateLoop]
    by_cases hlt : i < es.length
    · obtain ⟨b1, h1, h2, h3, h4⟩ := readNext_some hd hw hr (by omega) hlt
      have hh1 : HighAs fs.dev b1.dev := hh.readNext h1
      rw [h1]
      simp only
      have hdrop := List.drop_eq_getElem_cons hlt
      rw [hdrop, takeFirst] at hch
      by_cases hfil : es[i].typ = typ ∧ k > 0
      · rw [if_pos hfil] at hch ⊢
        obtain ⟨hc, hlen, hge⟩ := hch es[i] (by simp)
        have hc' : Chain b1.dev.flash es[i].first (ch es[i]) := by
          refine hc.congr (fun x hx => ?_)
          apply Flash.read_congr
          intro k hk
          have := hge x hx
          exact (hh1.high _ (by omega)).symm
        have hrl := releaseLoop_chain hc' (SECTORS_COUNT + 1) b1.mng (by unfold SECTORS_COUNT; omega)
        have hbr : b1.releaseFileSectors es[i] = (.ok (), { b1 with mng := (ch es[i]).foldl SectorsMng.returnSector b1.mng }) := by
          unfold Builder.releaseFileSectors
          rw [hrl]
        rw [hbr]
        simp only
        have hbw : BW fs { b1 with mng := (ch es[i]).foldl SectorsMng.returnSector b1.mng } new fs.at'.maxId :=
          ⟨h2.seq, h2.pos, h2.opened, h2.trace, h2.w, h2.count, h2.maxId, h2.data⟩
        have hbrr : BR fs { b1 with mng := (ch es[i]).foldl SectorsMng.returnSector b1.mng } (i + 1) := ⟨h3.unfinished, h3.curr, h3.readI, h3.buf⟩
        obtain ⟨b', g1, g2, g3, g4⟩ := ih _ new (i + 1) (k - 1) hbw hbrr hh1 (fun e he => hch e (List.mem_cons_of_mem _ he)) (by omega) (by omega) (by omega)
        refine ⟨b', g1, by rw [hdrop, dropFirst, if_pos hfil]; exact g2, g3, ?_⟩
        rw [hdrop, takeFirst, if_pos hfil, List.flatMap_cons, List.foldl_append]
        rw [← h4]; exact g4
      · rw [if_neg hfil] at hch ⊢
        have hwr := h2.write es[i] (by omega)
        have hm := hd.maxId es[i] (List.getElem_mem hlt)
        rw [if_neg (by omega)] at hwr
        have hhw := hh1.write h2 es[i] (by omega)
        obtain ⟨b', g1, g2, g3, g4⟩ := ih (b1.write es[i]) (new ++ [es[i]]) (i + 1) k hwr (h3.write _) hhw hch (by omega) (by omega)
          (by rw [List.length_append, List.length_singleton]; omega)
        refine ⟨b', g1, by rw [hdrop, dropFirst, if_neg hfil]; rw [List.append_assoc] at g2; exact g2, g3, ?_⟩
        rw [hdrop, takeFirst, if_neg hfil]
        have hwm : (b1.write es[i]).mng = b.mng := h4
        rw [← hwm]; exact g4
    · have : i = es.length := by omega
      subst this
      obtain ⟨b1, h1, h2, h4⟩ := readNext_none hd hw hr (by omega)
      rw [h1]
      rw [List.drop_length]
      exact ⟨b1, rfl, by rw [dropFirst, List.append_nil]; exact h2, hh.readNext h1, h4⟩

/-- a rotation: the claim of the new sector happens after the sectors of the dropped files were given back, on a chip whose data
region is unchanged; it fails only if the claim fails -/
theorem rotate_data {fs : FS} {es : List FileEntry} (hd : DirInv fs es) (typ k r1 r2 : Nat) (ch : FileEntry → List Nat)
    (hch : ∀ e ∈ takeFirst typ k es, Chain fs.dev.flash e.first (ch e) ∧ (ch e).length ≤ 16384 ∧ ∀ y ∈ ch e, 32 ≤ y)
    (hl : es.length < 2518) :
    ∃ dev0 m0, HighAs fs.dev dev0 ∧ m0 = ((takeFirst typ k es).flatMap ch).foldl SectorsMng.returnSector fs.mng ∧
    (∀ s, (m0.claim r1 r2 dev0).1 = .ok s → ∃ fs', fs.rotate typ k r1 r2 = (.ok ⟨fs.at'.maxId + 1, typ, some s⟩, fs') ∧
      fs'.mng = (m0.claim r1 r2 dev0).2.1 ∧ HighAs (m0.claim r1 r2 dev0).2.2 fs'.dev) ∧
    (∀ er, (m0.claim r1 r2 dev0).1 = .error er → ∃ fs', fs.rotate typ k r1 r2 = (.error er, fs')) := by
  obtain ⟨h1, h2, h3⟩ := Builder.new_spec fs
  obtain ⟨b, h4, h5, hh, h6⟩ := rotateLoop_data hd typ ch maxEntries (Builder.new fs) [] 0 k h1 h2 (HighAs.new fs)
    (by rw [List.drop_zero]; exact hch) (by omega)
    (by rw [maxEntries_eq]; omega) (by rw [List.length_nil]; omega)
  rw [List.drop_zero] at h5 h6
  rw [List.nil_append] at h5
  have hdl := dropFirst_length typ es k
  have hid : b.getNewFileId.1 = fs.at'.maxId + 1 := by show b.maxId + 1 = _; rw [h5.maxId]
  refine ⟨b.dev, b.mng, hh, by rw [h6, h3], ?_, ?_⟩
  · intro s hs
    unfold FS.rotate
    simp only [h4]
    unfold Builder.writeNewFileAndOpen
    simp only
    have hbm : b.getNewFileId.2.mng = b.mng := rfl
    have hbd : b.getNewFileId.2.dev = b.dev := rfl
    rw [hbm, hbd]
    cases hcl : b.mng.claim r1 r2 b.dev with
    | mk res rest =>
    obtain ⟨mng', dev'⟩ := rest
    rw [hcl] at hs
    simp only at hs
    subst hs
    refine ⟨_, by rw [hid], rfl, ?_⟩
    have hlt := nextPos_lt fs
    have hlen := bodyImage_length (fs.at'.seq + 1) (dropFirst typ k es ++ [⟨b.getNewFileId.1, typ, some s⟩])
    rw [List.length_append, List.length_singleton] at hlen
    obtain ⟨hw1, _⟩ := extend_spec h5.w dev' (FileEntry.serialize ⟨b.getNewFileId.1, typ, some s⟩)
    have hA := (HighAs.refl dev').extend h5.w (FileEntry.serialize ⟨b.getNewFileId.1, typ, some s⟩)
      (by rw [← bodyImage_snoc, hlen, slotAddr_eq]; omega)
    rw [← bodyImage_snoc] at hw1
    generalize hx : b.w.extend dev' (FileEntry.serialize ⟨b.getNewFileId.1, typ, some s⟩) = x at hw1 hA
    rw [← hid]
    generalize hE : ({ b.getNewFileId.2 with mng := mng', dev := dev' } : Builder).write ⟨b.getNewFileId.1, typ, some s⟩ = bb
    have hbw : bb.w = x.1 ∧ bb.dev = x.2 := by rw [← hE, ← hx]; exact ⟨rfl, rfl⟩
    have hlen2 := tableImage_length (fs.at'.seq + 1) (dropFirst typ k es ++ [⟨b.getNewFileId.1, typ, some s⟩]) bb.maxId
    rw [List.length_append, List.length_singleton] at hlen2
    have hft := bodyImage_footer (fs.at'.seq + 1) (dropFirst typ k es ++ [⟨b.getNewFileId.1, typ, some s⟩]) bb.maxId
    rw [← hbw.1] at hw1
    obtain ⟨hw2, _⟩ := extend_spec hw1 bb.dev (footerSerialize bb.maxId)
    rw [← hbw.2] at hA
    have hB := hA.extend hw1 (footerSerialize bb.maxId) (by rw [hft, hlen2, slotAddr_eq]; omega)
    have haddr := hw2.addr
    rw [hft, hlen2] at haddr
    show HighAs dev' (((bb.w.extend bb.dev (footerSerialize bb.maxId)).1.flush (bb.w.extend bb.dev (footerSerialize bb.maxId)).2).2)
    exact hB.flush (by rw [haddr, slotAddr_eq]; omega)
  · intro er he
    unfold FS.rotate
    simp only [h4]
    unfold Builder.writeNewFileAndOpen
    simp only
    have hbm : b.getNewFileId.2.mng = b.mng := rfl
    have hbd : b.getNewFileId.2.dev = b.dev := rfl
    rw [hbm, hbd]
    cases hcl : b.mng.claim r1 r2 b.dev with
    | mk res rest =>
    obtain ⟨mng', dev'⟩ := rest
    rw [hcl] at he
    simp only at he
    subst he
    exact ⟨_, rfl⟩

theorem mem_takeFirst {typ : Nat} : ∀ {es : List FileEntry} {k : Nat}, es.Pairwise (fun a b => a.id < b.id) → ∀ e ∈ takeFirst typ k es,
    e ∈ es ∧ e ∉ dropFirst typ k es := by
  intro es k hp e he
  refine ⟨takeFirst_sub typ es k e he, fun hd => ?_⟩
  have hn : es.Nodup := hp.imp (fun h he => by rw [he] at h; exact Nat.lt_irrefl _ h)
  have := ((takeDrop_perm typ es k).nodup_iff).mp hn
  exact (List.nodup_append.mp this).2.2 e he e hd rfl

theorem taken_oldest {typ : Nat} {es : List FileEntry} {k : Nat} (hp : es.Pairwise (fun a b => a.id < b.id)) {e : FileEntry}
    (he : e ∈ takeFirst typ k es) : e ∈ es ∧ amongOldest typ k es e = true := by
  obtain ⟨h1, h2⟩ := mem_takeFirst hp e he
  refine ⟨h1, ?_⟩
  rw [dropFirst_eq typ es k hp, List.mem_filter] at h2
  by_cases hx : amongOldest typ k es e = true
  · exact hx
  · exact absurd ⟨h1, by simp [hx]⟩ h2

theorem oldest_map {files : List FileSt} (hok : ∀ f ∈ files, f.e.id = f.k.id ∧ f.e.typ = f.k.typ) (typ n : Nat) :
    ∀ f ∈ files, oldestKnown typ n (files.map (·.k)) f.k = amongOldest typ n (files.map (·.e)) f.e := by
  intro f hf
  unfold oldestKnown amongOldest
  obtain ⟨h1, h2⟩ := hok f hf
  rw [List.filter_map, List.filter_map, List.length_map, List.length_map, h1, h2]
  congr 3
  refine congrArg List.length (List.filter_congr fun g hg => ?_)
  obtain ⟨g1, g2⟩ := hok g hg
  simp only [Function.comp, g1, g2]

theorem flatMap_filter_le {α : Type} (p : α → Bool) (g : α → List Nat) : ∀ l : List α, ((l.filter p).flatMap g).length ≤ (l.flatMap g).length
  | [] => Nat.le_refl _
  | x :: l => by
    have := flatMap_filter_le p g l
    rw [List.filter_cons, List.flatMap_cons, List.length_append]
    split
    · rw [List.flatMap_cons, List.length_append]; omega
    · omega

/-- a rotation fails only for lack of space -/
theorem sys_rotate {crc : Bytes → UInt32} {fs : FS} {files : List FileSt} {leak : List Nat} (hs : Sys crc fs files leak) (typ n r1 r2 : Nat)
    (hcap : (files.map (·.k)).length < 2518) (ht : typ < 0x4000) (hok : countersOk fs) :
    (∃ e fs', fs.rotate typ n r1 r2 = (.ok e, fs') ∧
      SysTo crc fs files fs' ((files.map (·.k)).filter (fun k => !oldestKnown typ n (files.map (·.k)) k) ++ [⟨e.id, typ, [], [], [], e.first.map (FileWriter.new · e.id), false, false⟩])) ∨
    ((∃ fs', fs.rotate typ n r1 r2 = (.error .deviceFull, fs')) ∧ fs.mng.freeBytes = 0) := by
  have hsort := hs.reach.dir.sorted
  have hokf : ∀ f ∈ files, f.e.id = f.k.id ∧ f.e.typ = f.k.typ := fun f hm => ⟨(hs.ok f hm).id, (hs.ok f hm).typ⟩
  have hold := oldest_map hokf typ n
  have hlen : (files.map (·.e)).length < 2518 := by rw [List.length_map, ← List.length_map (f := (·.k))]; exact hcap
  have hch : ∀ e ∈ takeFirst typ n (files.map (·.e)),
      Chain fs.dev.flash e.first (chOf files e) ∧ (chOf files e).length ≤ 16384 ∧ ∀ y ∈ chOf files e, 32 ≤ y := by
    intro e he
    obtain ⟨t1, t2⟩ := taken_oldest hsort he
    rw [List.mem_map] at t1
    obtain ⟨f, hm, rfl⟩ := t1
    rw [chOf_eq hsort hm]
    obtain ⟨d1, d2⟩ := hs.own_data hm
    refine ⟨?_, data_length d1 d2, fun y hy => (d2 y hy).1⟩
    cases hw : f.k.writer with
    | none =>
      have hst := (hs.ok f hm).chain hw
      unfold FileSt.own; rw [hw]; exact hst
    | some w =>
      obtain ⟨_, ⟨first, h1, h2⟩, h3, _⟩ := (hs.ok f hm).open' w hw
      have hst := (stored_open h2 (fun _ _ _ _ => rfl) h3.fields).chain
      unfold FileSt.own; rw [hw, h1]
      unfold secs at hst ⊢
      simpa using hst
  obtain ⟨dev0, m0, hh0, hm0, hsucc, hfail⟩ := rotate_data hs.reach.dir typ n r1 r2 (chOf files) hch hlen
  -- the sectors in use after the release
  let kept := files.filter (fun f => !amongOldest typ n (files.map (·.e)) f.e)
  have hkept : (kept.map (·.e)) = dropFirst typ n (files.map (·.e)) := by
    rw [dropFirst_eq typ _ n hsort, List.filter_map]; rfl
  have hkin : ∀ f ∈ kept, f ∈ files := fun f hm => (List.mem_filter.mp hm).1
  have hinv0 : m0.Inv (leak ++ kept.flatMap FileSt.own) := by
    rw [hm0]
    apply returns_inv
    refine hs.inv.perm ?_
    have hp := (takeDrop_perm typ (files.map (·.e)) n).flatMap_right (chOf files)
    rw [List.flatMap_append, ← hkept, List.flatMap_map, List.flatMap_map] at hp
    have e1 : files.flatMap (fun f => chOf files f.e) = files.flatMap FileSt.own := by
      rw [List.flatMap_def, List.flatMap_def]
      exact congrArg List.flatten (List.map_congr_left fun f hm => chOf_eq hsort hm)
    have e2 : kept.flatMap (fun f => chOf files f.e) = kept.flatMap FileSt.own := by
      rw [List.flatMap_def, List.flatMap_def]
      exact congrArg List.flatten (List.map_congr_left fun f hm => chOf_eq hsort (hkin f hm))
    rw [e1, e2] at hp
    refine (List.Perm.append_left leak hp).trans ?_
    rw [← List.append_assoc, ← List.append_assoc]
    exact List.Perm.append_right _ List.perm_append_comm
  have hb0 : AheadBlank m0 dev0.flash := by
    obtain ⟨a1, a2⟩ := returns_ahead ((takeFirst typ n (files.map (·.e))).flatMap (chOf files)) fs.mng
    intro x hx j hj
    rw [hm0, a1, a2] at hx
    exact blank_high (inv_range hs.inv) hs.blank hh0.high x hx j hj
  rcases claim_spec hinv0 r1 r2 dev0 hb0 with ⟨s, c1, c2, c3, c4, c5, c6, c7, c8⟩ | ⟨c1, c2⟩
  · left
    obtain ⟨fs', g1, g2, g3⟩ := hsucc s c1
    refine ⟨_, fs', g1, ?_⟩
    have hdl := dropFirst_length typ (files.map (·.e)) n
    obtain ⟨hr, ho⟩ := reach_call hs.reach (.rotate typ n r1 r2 _ fs' g1 (by rw [← dropFirst_eq typ _ n hsort]; omega) ht) hok
    rw [← dropFirst_eq typ _ n hsort, ← hkept] at hr
    have h2 : ∀ s' ∈ leak ++ kept.flatMap FileSt.own, InData s' → SameSector fs.dev.flash fs'.dev.flash s' := by
      intro s' hm hd
      exact ((high_same hh0.high hd).trans (sameExcept_same c7 hm)).trans (high_same g3.high hd)
    have hsb : ∀ j, j < 4096 → fs'.dev.flash (s * 4096 + j) = 0xFF := by
      intro j hj
      rw [← high_same g3.high c4 j hj]
      exact c5 j hj
    refine ⟨kept ++ [⟨⟨fs.at'.maxId + 1, typ, [], [], [], some (FileWriter.new s (fs.at'.maxId + 1)), false, false⟩, ⟨fs.at'.maxId + 1, typ, some s⟩, [], []⟩], leak, ?_, ?_, ?_⟩
    rotate_right
    · refine kept_redir hs ?_ ?_
      · intro f h1 hk s' hsm
        have hk : f ∈ kept := by
          rcases List.mem_append.mp hk with hk | hk
          · exact hk
          · rw [List.mem_singleton] at hk
            have := hs.reach.dir.maxId f.e (List.mem_map.mpr ⟨f, h1, rfl⟩)
            rw [hk] at this
            exact absurd this (Nat.not_succ_le_self _)
        exact h2 s' (List.mem_append_right _ (List.mem_flatMap.mpr ⟨f, hk, hsm⟩)) ((hs.own_data h1).2 s' hsm)
      · intro g hg
        rcases List.mem_append.mp hg with hg | hg
        · exact .inl (hkin g hg)
        · rw [List.mem_singleton] at hg
          subst hg
          exact .inr (hs.fresh rfl)
    · rw [List.map_append]
      refine congrArg (fun l => l ++ _) ?_
      rw [List.filter_map]
      refine congrArg (List.map _) (List.filter_congr ?_)
      intro f hm
      show (!_) = (!_)
      rw [hold f hm]
    refine hs.redir (by rw [List.map_append]; exact hr) ho ?_ ?_ ?_ ?_
    · intro f h1 hk s' hsm
      have hk : f ∈ kept := by
        rcases List.mem_append.mp hk with hk | hk
        · exact hk
        · rw [List.mem_singleton] at hk
          have := hs.reach.dir.maxId f.e (List.mem_map.mpr ⟨f, h1, rfl⟩)
          rw [hk] at this
          exact absurd this (Nat.not_succ_le_self _)
      exact h2 s' (List.mem_append_right _ (List.mem_flatMap.mpr ⟨f, hk, hsm⟩)) ((hs.own_data h1).2 s' hsm)
    · intro f hm
      rcases List.mem_append.mp hm with hm | hm
      · exact .inl (hkin f hm)
      · rw [List.mem_singleton] at hm
        subst hm
        refine .inr ⟨FileOk.mk' rfl rfl ?_ (fun _ => rfl) ?_, fun _ hg => absurd (show false = true from hg) (by simp)⟩
        · intro hw; exact absurd (show some (FileWriter.new s _) = none from hw) (by simp)
        · intro w hw
          have hw : some (FileWriter.new s (fs.at'.maxId + 1)) = some w := hw
          injection hw with hw
          subst hw
          exact ⟨rfl, ⟨s, rfl, .nil s⟩, WInv.new _ rfl rfl rfl hsb, List.prefix_rfl, [], List.nil_prefix, rfl⟩
    · rw [g2, List.flatMap_append]
      refine c2.perm ?_
      show (s :: (leak ++ kept.flatMap FileSt.own)).Perm (leak ++ (kept.flatMap FileSt.own ++ [s]))
      rw [← List.append_assoc]
      exact (List.perm_append_comm (l₁ := [s]))
    · rw [g2]; exact blank_high (inv_range c2) c6 g3.high
  · right
    refine ⟨hfail _ (by rw [c1]), ?_⟩
    obtain ⟨f1, f2⟩ := freeBytes_eq hs.inv
    have hle : (leak ++ kept.flatMap FileSt.own).length ≤ (leak ++ files.flatMap FileSt.own).length := by
      rw [List.length_append, List.length_append]
      have := flatMap_filter_le (fun f : FileSt => !amongOldest typ n (files.map (·.e)) f.e) FileSt.own files
      have h2 : (kept.flatMap FileSt.own).length ≤ (files.flatMap FileSt.own).length := this
      omega
    have e : DATA_REGION_SECTORS = 16352 := rfl
    rw [f1]
    rw [e] at c2
    omega

theorem step_rotate {crc : Bytes → UInt32} {fs : FS} {ks : List Known} (h : SysInv crc fs ks) (typ n r1 r2 : Nat)
    (hcap : ks.length < 2518) (ht : typ < 0x4000) (hok : countersOk fs) :
    (∃ e fs', fs.rotate typ n r1 r2 = (.ok e, fs') ∧
      SysInv crc fs' (ks.filter (fun k => !oldestKnown typ n ks k) ++ [⟨e.id, typ, [], [], [], e.first.map (FileWriter.new · e.id), false, false⟩])) ∨
    ((∃ fs', fs.rotate typ n r1 r2 = (.error .deviceFull, fs')) ∧ fs.mng.freeBytes = 0) := by
  obtain ⟨files, leak, rfl, hs⟩ := h
  rcases sys_rotate hs typ n r1 r2 hcap ht hok with ⟨e, fs', g1, g2⟩ | g
  · exact .inl ⟨e, fs', g1, g2.inv⟩
  · exact .inr g

end Verif.Vlfs
