import Verif.Lemmas.SystemHist
/-
Power loss while an existing file is being opened for appending.
-/
namespace Verif.Vlfs
open Verif Verif.Spec

/-- power is lost after the last sector was erased and before it is copied back -/
theorem reopen_loses {crc : Bytes → UInt32} {fs : FS} {as bs : List FileSt} {f : FileSt} {leak : List Nat} {first : Nat}
    (hs : Sys crc fs (as ++ f :: bs) leak) (hw : f.k.writer = none) (hdm : f.k.damaged = false) (hfirst : f.e.first = some first) (hno : f.k.id ∉ fs.at'.opened)
    (hlen : fs.at'.opened.length < 32) (hfree : 4016 < fs.mng.freeBytes) (rng : Nat → Nat) {init : List (Nat × Bytes)} {last : Nat} {D : Bytes}
    (hsegs : f.segs = init ++ [(last, D)]) :
    ∃ w fs' ops fl' fs'', fs.openForWrite f.k.id rng = (.ok w, fs') ∧ issued fs fs' ops ∧ CrashImage fs.dev.flash ops fl' ∧
      FS.mount fl' = (.ok (), fs'') ∧ ReadsAs crc fs'' f.k.id (bytesOf init) := by
  have hmem : f ∈ as ++ f :: bs := by simp
  obtain ⟨j, hj⟩ := hs.find hmem
  have hid := (hs.ok f hmem).id
  unfold FS.openForWrite
  rw [hj]
  simp only
  rw [hid, if_neg (fun hx => hno ((isOpened_iff _ _).mp hx)), markOpened_ok hlen]
  simp only
  have hs1 : Sys crc { fs with at' := { fs.at' with opened := fs.at'.opened ++ [f.k.id] } } (as ++ f :: bs) leak :=
    hs.opened rfl rfl rfl rfl rfl rfl (fun g _ _ _ hg => List.mem_append_left _ hg)
  have hcount : ∀ x : Nat, (leak ++ (as ++ f :: bs).flatMap FileSt.own).length + x = 16352 → x ≤ 1 → False := by
    intro x h1 h2
    have h3 := (freeBytes_eq hs.inv).1
    rw [h3] at hfree
    omega
  rcases hs1.claim (rng 0) (rng 1) with ⟨new, c1, c2, c3, c4, c5, osA, c6⟩ | ⟨c1, cf⟩
  case inr => exact absurd (hcount 0 cf (by omega)) id
  have c1 : (fs.mng.claim (rng 0) (rng 1) fs.dev).1 = .ok new := c1
  have c2 : Sys crc ⟨{ fs.at' with opened := fs.at'.opened ++ [f.k.id] }, (fs.mng.claim (rng 0) (rng 1) fs.dev).2.1,
    (fs.mng.claim (rng 0) (rng 1) fs.dev).2.2⟩ (as ++ f :: bs) (new :: leak) := c2
  have c6 : (fs.mng.claim (rng 0) (rng 1) fs.dev).2.2 = fs.dev.ops osA := c6
  generalize fs.mng.claim (rng 0) (rng 1) fs.dev = r at c1 c2 c6
  obtain ⟨r0, m, d⟩ := r
  simp only at c1 c2 c6
  subst c1 c6
  simp only [hfirst]
  obtain ⟨hst, _⟩ := (c2.ok f hmem).closed hw hdm
  have hod := c2.own_data hmem
  have hown : f.own = secs f.segs := by unfold FileSt.own; rw [hw]
  rw [hown] at hod
  have hl := data_length hod.1 hod.2
  rw [List.length_map] at hl
  obtain ⟨init', last', D', l1, l2, l3, l4⟩ := lastSector_stored hst first (SECTORS_COUNT + 1) hfirst (by unfold SECTORS_COUNT; omega)
    (fun s hsm => by have := (hod.2 s hsm).2; unfold SECTORS_COUNT at this; omega)
  rw [hsegs] at l1
  obtain ⟨q1, q2⟩ := List.append_inj' l1 rfl
  injection q2 with q2
  injection q2 with q2 q3
  subst q1 q2 q3
  have l2 : lastSector (SECTORS_COUNT + 1) (fs.dev.ops osA).flash first = .ok last := l2
  rw [l2]
  simp only
  rcases c2.claim (rng 2) (rng 3) with ⟨temp, e1, e2, e3, e4, e5, osB, e6⟩ | ⟨e1, ef⟩
  case inr =>
    rw [List.cons_append, List.length_cons] at ef
    exact absurd (hcount 1 ef (by omega)) id
  have e1 : (m.claim (rng 2) (rng 3) (fs.dev.ops osA)).1 = .ok temp := e1
  have e2 : Sys crc ⟨{ fs.at' with opened := fs.at'.opened ++ [f.k.id] }, (m.claim (rng 2) (rng 3) (fs.dev.ops osA)).2.1,
    (m.claim (rng 2) (rng 3) (fs.dev.ops osA)).2.2⟩ (as ++ f :: bs) (temp :: new :: leak) := e2
  have e4 : ∀ j, j < 4096 → (m.claim (rng 2) (rng 3) (fs.dev.ops osA)).2.2.flash (temp * 4096 + j) = 0xFF := e4
  have e5 : SameExcept (new :: leak ++ (as ++ f :: bs).flatMap FileSt.own) (fs.dev.ops osA).flash (m.claim (rng 2) (rng 3) (fs.dev.ops osA)).2.2.flash := e5
  have e6 : (m.claim (rng 2) (rng 3) (fs.dev.ops osA)).2.2 = (fs.dev.ops osA).ops osB := e6
  generalize m.claim (rng 2) (rng 3) (fs.dev.ops osA) = r at e1 e2 e4 e5 e6
  obtain ⟨r0, m2, d2⟩ := r
  simp only at e1 e2 e4 e5 e6
  subst e1
  simp only
  -- sectors
  have hfo := e2.ok f hmem
  have hinv := e2.inv.perm (own_perm (temp :: new :: leak) as bs f)
  have hown2 : f.own = secs init ++ [last] := by rw [hown, hsegs]; simp
  rw [hown2] at hinv
  have hnd := hinv.nodup
  rw [List.append_assoc, List.nodup_append] at hnd
  have hnd := hnd.1
  have eo : others (temp :: new :: leak) as bs = temp :: new :: others leak as bs := rfl
  rw [eo, List.cons_append, List.cons_append, List.nodup_cons, List.nodup_cons, List.nodup_append, List.nodup_append] at hnd
  simp only [List.mem_append, List.mem_cons, not_or, List.not_mem_nil, or_false, true_and] at hnd
  obtain ⟨⟨t1, t2, t3, t4⟩, ⟨n1, n2, n3⟩, o1, ⟨i1, i2⟩, o2⟩ := hnd
  have hrange := hinv.range
  have hdl : InData last := hrange _ (by simp)
  have hdt : InData temp := hrange _ (by simp [eo])
  -- the operations
  obtain ⟨os1, a1, a2, a3, a4⟩ := copyPages_spec (Ne.symm t4) (some new) 16 0 d2 (by omega) (fun j _ h => e4 j h)
  have e : last * SECTOR_SIZE = last * 4096 := rfl
  have e' : SECTOR_SIZE = 4096 := rfl
  have her : ∀ a, applyOps d2.flash (os1 ++ [.erase (last * 4096) 4096]) a = if last * 4096 ≤ a ∧ a < last * 4096 + 4096 then 0xFF else applyOps d2.flash os1 a := by
    intro a; rw [applyOps_append]; rfl
  obtain ⟨os2, b1, _⟩ := copyPages_spec t4 none 16 0 ((d2.ops os1).op (.erase (last * 4096) 4096)) (by omega)
    (fun j _ h => by
      show applyOps (d2.ops os1).flash [.erase (last * 4096) 4096] _ = _
      have := her (last * 4096 + j)
      rw [applyOps_append] at this
      exact this.trans (if_pos (by omega)))
  obtain ⟨fl', hfl'⟩ : ∃ fl', fl' = applyOps d2.flash (os1 ++ [.erase (last * 4096) 4096]) := ⟨_, rfl⟩
  have hsame : ∀ s, s ≠ last → s ≠ temp → SameSector d2.flash fl' s := by
    intro s h1 h2 j hj
    rw [hfl', her, if_neg (by omega)]
    refine (applyOps_untouched fun o ho hx => ?_).symm
    have := a2 o ho _ hx
    omega
  have hlow : LowEq d2.flash fl' := by
    intro a ha
    have h1 := hdl.1
    have h2 := hdt.1
    rw [hfl', her, if_neg (by omega)]
    refine (applyOps_untouched fun o ho hx => ?_).symm
    have := a2 o ho _ hx
    omega
  obtain ⟨f2, hf2⟩ : ∃ f2 : FileSt, f2 = ⟨{ f.k with data := bytesOf init, maybe := [] }, f.e, init ++ [(last, [])], []⟩ := ⟨_, rfl⟩
  have hf2w : f2.k.writer = none := by rw [hf2]; exact hw
  have hown3 : f2.own = f.own := by
    unfold FileSt.own
    rw [hf2w, hw, hf2, hsegs]
    simp
  have hfile2 : FileOk crc fl' f2 := by
    refine FileOk.mk' (by rw [hf2]; exact hfo.id) (by rw [hf2]; exact hfo.typ) ?_ (fun _ => by rw [hf2]; exact hdm) ?_
    · intro _
      rw [hf2]
      refine ⟨?_, [], List.prefix_rfl, by simp⟩
      show Stored crc fl' f.e.first (init ++ [(last, [])])
      rw [hfirst]
      refine stored_open (l4.congr fun x hx => sameExcept_same e5 (List.mem_append_right _ (List.mem_flatMap.mpr ⟨f, hmem, by rw [hown2]; exact List.mem_append_left _ hx⟩)))
        (fun x hx => hsame x ?_ ?_) ?_
      · intro he; subst he; exact i2.2 x hx x rfl rfl
      · intro he; subst he; exact t3 hx
      · intro j h1 h2
        rw [hfl', her, if_pos (by omega)]
    · intro w hw'
      rw [hf2w] at hw'; exact absurd hw' (by simp)
  obtain ⟨g, hg⟩ : ∃ g : FS, g = ⟨{ fs.at' with opened := fs.at'.opened ++ [f.k.id] }, m2, ⟨fl', []⟩⟩ := ⟨_, rfl⟩
  have hgf : g.dev.flash = fl' := by rw [hg]
  have hes : (as.map FileSt.lost ++ f2 :: bs.map FileSt.lost).map (·.e) = (as ++ f :: bs).map (·.e) := by
    rw [List.map_append, List.map_cons, map_lost_e, map_lost_e, List.map_append, List.map_cons, hf2]
  have hfm : (as.map FileSt.lost ++ f2 :: bs.map FileSt.lost).flatMap FileSt.own = (as ++ f :: bs).flatMap FileSt.own := by
    rw [List.flatMap_append, List.flatMap_cons, flatMap_lost, flatMap_lost, hown3, List.flatMap_append, List.flatMap_cons]
  have hoth : ∀ y ∈ as ++ bs, ∀ s ∈ y.own, SameSector d2.flash fl' s := by
    intro y hy s hsm
    have hsm : s ∈ others leak as bs := mem_own hy hsm
    exact hsame s (fun he => o2 s hsm last (.inr rfl) he) (fun he => by subst he; exact t2 hsm)
  have hmount := mount_sys (crc := crc) (g := g) (files := as.map FileSt.lost ++ f2 :: bs.map FileSt.lost)
    (by rw [hes]; exact e2.reach.dir.congr (by rw [hgf]; exact hlow) (by rw [hg]) (by rw [hg]) (by rw [hg]) (by rw [hg]))
    (by rw [hes]; exact hs.reach.small)
    (by
      rw [hgf]
      intro x hx
      rcases List.mem_append.mp hx with hx | hx
      · obtain ⟨y, hy, rfl⟩ := List.mem_map.mp hx
        exact ⟨afterLoss_writer _, lost_ok (e2.ok y (by simp [hy])) (hoth y (List.mem_append_left _ hy))⟩
      · rcases List.mem_cons.mp hx with rfl | hx
        · exact ⟨hf2w, hfile2⟩
        · obtain ⟨y, hy, rfl⟩ := List.mem_map.mp hx
          exact ⟨afterLoss_writer _, lost_ok (e2.ok y (by simp [hy])) (hoth y (List.mem_append_right _ hy))⟩)
    (by rw [hfm]; exact e2.nodup)
    (by rw [hfm]; exact (nodup_part e2.inv rfl).2)
  rw [hgf] at hmount
  obtain ⟨fs'', h1, h2, h3, h4⟩ := hmount
  have hf2m : f2 ∈ as.map FileSt.lost ++ f2 :: bs.map FileSt.lost := by simp
  have hk2 : f2.k.id = f.k.id := by rw [hf2]
  refine ⟨_, _, osA ++ (osB ++ (os1 ++ ([.erase (last * 4096) 4096] ++ os2))), fl', fs'', rfl, ?_, ?_, h1, ?_⟩
  · show (copyPages temp last none 16 0 ((copyPages last temp (some new) 16 0 d2).op (.erase (last * SECTOR_SIZE) SECTOR_SIZE))).log = _
    rw [a1, e, e', b1, e6, Dev.op_eq_ops, Dev.ops_ops, Dev.ops_ops, Dev.ops_ops, Dev.ops_ops]
    simp [Dev.ops]
  · have : fl' = applyOps fs.dev.flash (osA ++ (osB ++ (os1 ++ [.erase (last * 4096) 4096]))) := by
      rw [hfl', e6]
      simp only [applyOps_append]
      rfl
    rw [this]
    exact .between _ os2 (by simp)
  · rcases openRead_spec h4 hf2m with ⟨k1, _⟩ | ⟨k1, _⟩ | ⟨_, _, k3⟩
    · rw [h3] at k1; exact absurd k1 List.not_mem_nil
    · rw [h3] at k1; exact absurd k1 (by simp)
    · rw [hk2] at k3
      refine ⟨_, _, k3, fun ns => ?_⟩
      rw [closed_reads h4 hf2m hf2w (by rw [hf2]; exact hdm)]
      rw [hf2]
      show (consumes ((bytesOf (init ++ [(last, [])])).map .byte) ns).map _ = _
      rw [bytesOf_open]

end Verif.Vlfs
