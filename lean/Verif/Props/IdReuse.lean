import Verif.Props.Directory
/-
C66: file ids across power loss.
-/
namespace Verif.Props
open Verif Verif.Vlfs Verif.Spec

/-- **C66** (what holds) If power was lost during a directory-changing call (page programs happen completely or not at
all, and the footer record of the new table does not cross a page boundary) and the file system restarted, then the id of
the next created file is larger than every id handed out before the interrupted call. -/
theorem C66_unique_after_crash {fs fs' fs'' fs3 : FS} {es es' es'' es3 : List FileEntry} {ids new new3 : List Nat}
    {ops : List FlashOp} {fl' : Flash} (hr : Reach fs es ids) (hc : Call fs es fs' es' new) (hok : countersOk fs)
    (hi : issued fs fs' ops) (hl : es'.length ≤ 2517) (hfit : 13 * (es'.length + 1) % 256 ≤ 243)
    (hp : PageCrash fs.dev.flash ops fl') (hm : FS.mount fl' = (.ok (), fs'')) (hlist : lists fs'' es'')
    (hc3 : Call fs'' es'' fs3 es3 new3) (hok3 : countersOk fs'') :
    ∀ x ∈ new3, (∀ y ∈ ids, y < x) ∧ ∀ e ∈ es'', e.id < x :=
  C14_ids_never_reused (.crash hr hc hok hi hl hfit hp hm hlist) hc3 hok3

private theorem split_filter {α : Type} (p : α → Bool) : ∀ (os : List α) (n : Nat),
    ∃ pre post, os = pre ++ post ∧ pre.filter p = (os.filter p).take n := by
  intro os
  induction os with
  | nil => intro n; exact ⟨[], [], rfl, by simp⟩
  | cons o os ih =>
    intro n
    cases n with
    | zero => exact ⟨[], o :: os, rfl, by simp⟩
    | succ n =>
      cases ho : p o with
      | true =>
        obtain ⟨a, b, h1, h2⟩ := ih n
        exact ⟨o :: a, b, by rw [h1]; rfl, by rw [List.filter_cons_of_pos ho, List.filter_cons_of_pos ho, h2]; rfl⟩
      | false =>
        obtain ⟨a, b, h1, h2⟩ := ih (n + 1)
        exact ⟨o :: a, b, by rw [h1]; rfl, by
          rw [List.filter_cons_of_neg (by simp [ho]), List.filter_cons_of_neg (by simp [ho]), h2]⟩

/-- 12 of the 13 bytes of the footer for highest id 248 read as a footer for highest id 247 -/
private theorem torn248 : FileEntry.deserialize (torn (footerSerialize 248) 12) = some ⟨247, 0xFFFF, none⟩ := by
  decide +kernel

/-- removal, in a reachable directory of files without data -/
private theorem remove_step {fs : FS} {es : List FileEntry} {ids : List Nat} (hr : Reach fs es ids) (hok : countersOk fs)
    (ho : fs.at'.opened = []) (hn : ∀ e ∈ es, e.first = none) (filter : FileEntry → Bool) :
    ∃ n k fs', fs.removeFiles filter = (.ok (n, k), fs') ∧ Rewrite fs fs' (es.filter fun e => !filter e) fs.at'.maxId ∧
      Call fs es fs' (es.filter fun e => !filter e) [] := by
  have inv := reach_inv hr
  rcases removeFiles_spec inv.dir inv.range filter with ⟨g, h1, h2, h3⟩ | ⟨er, g, h1, x, hx, _, _, hno⟩
  · have e1 : (es.filter (keeps fs.at'.opened filter)) = es.filter fun e => !filter e := by
      apply List.filter_congr; intro e _; rw [ho]; simp [keeps]
    have hc := Call.remove (es := es) filter _ _ g h1
    have e2 : (es.filter fun e => !filter e || decide (e.id ∈ fs.at'.opened)) = es.filter fun e => !filter e := by
      apply List.filter_congr; intro e _; rw [ho]; simp
    rw [e1] at h2
    rw [e2] at hc
    exact ⟨_, _, g, h1, h2, hc⟩
  · exfalso
    apply hno
    rw [hn x hx]
    exact ⟨[], .nil, by simp, by simp⟩

private theorem nFiles_ids {n : Nat} (hn : n ≤ 2518) : ∃ fs ids, Reach fs (nFiles n) ids ∧ fs.at'.maxId = n ∧
    fs.at'.seq = n + 1 ∧ fs.at'.opened = [] ∧ (0 < n → n ∈ ids) := by
  cases n with
  | zero =>
    obtain ⟨fs, ids, h1, h2, h3, h4⟩ := nFiles_reach 0 hn
    exact ⟨fs, ids, h1, h2, h3, h4, fun h => absurd h (by omega)⟩
  | succ n =>
    obtain ⟨fs, ids, h1, h2, h3, h3o⟩ := nFiles_reach n (by omega)
    have inv := reach_inv h1
    have hlen : (nFiles n).length = n := by simp [nFiles]
    obtain ⟨g, h4, h5, _⟩ := createFile_spec inv.dir 5 (by omega)
    refine ⟨g, [fs.at'.maxId + 1] ++ ids, ?_, by rw [h5.maxId, h2], by rw [h5.seq, h3], by rw [h5.opened, h3o],
      fun _ => by rw [h2]; simp⟩
    have hc := Reach.call h1 (Call.create 5 _ g h4 (by omega) (by omega)) ⟨by rw [h3]; omega, by rw [h2]; omega⟩
    have : nFiles n ++ [⟨fs.at'.maxId + 1, 5, none⟩] = nFiles (n + 1) := by
      rw [h2]; simp [nFiles, List.range_succ]
    rw [this] at hc
    exact hc

/-- **C66** (negation) Ids are not unique across power loss: there is a reachable directory in which id 248 has been handed
out, a removal interrupted by power loss between two page programs, and after the restart (which succeeds and shows the
directory as the removal should have left it) the next created file is given id 248 again. -/
theorem C66_id_reused_after_crash : ∃ fs es ids fs' es' ops fl' fs2 e fs3,
    Reach fs es ids ∧ 248 ∈ ids ∧ Call fs es fs' es' [] ∧ countersOk fs ∧ issued fs fs' ops ∧ PageCrash fs.dev.flash ops fl' ∧
    FS.mount fl' = (.ok (), fs2) ∧ lists fs2 es' ∧ fs2.createFile 5 = (.ok e, fs3) ∧ e.id = 248 := by
  obtain ⟨fs0, ids, r0, hm0, hs0, ho0, hid⟩ := nFiles_ids (n := 248) (by omega)
  have hnone0 : ∀ e ∈ nFiles 248, e.first = none := by
    intro e he; simp only [nFiles, List.mem_map] at he; obtain ⟨i, _, rfl⟩ := he; rfl
  obtain ⟨n1, k1, fs, hrm, hw1, hc1⟩ := remove_step r0 ⟨by rw [hs0]; omega, by rw [hm0]; omega⟩ ho0 hnone0 (fun e => decide (e.id < 53))
  have hr : Reach fs _ _ := .call r0 hc1 ⟨by rw [hs0]; omega, by rw [hm0]; omega⟩
  have hmid : fs.at'.maxId = 248 := by rw [hw1.maxId, hm0]
  have hseq : fs.at'.seq = 250 := by rw [hw1.seq, hs0]
  have hop : fs.at'.opened = [] := by rw [hw1.opened, ho0]
  generalize hes : ((nFiles 248).filter fun e => !decide (e.id < 53)) = es at *
  have hnone : ∀ e ∈ es, e.first = none := by
    intro e he; rw [← hes] at he; exact hnone0 e (List.mem_filter.mp he).1
  have hok : countersOk fs := ⟨by rw [hseq]; omega, by rw [hmid]; omega⟩
  obtain ⟨n2, k2, fs', hrm2, hw2, hc2⟩ := remove_step hr hok hop hnone (fun e => decide (e.id = 248))
  generalize hes2 : (es.filter fun e => !decide (e.id = 248)) = es' at *
  have hlen : es'.length = 195 := by rw [← hes2, ← hes]; decide +kernel
  have hmax' : ∀ e ∈ es', e.id ≤ 247 := by
    intro e he
    have h1 : e ∈ es := by rw [← hes2] at he; exact (List.mem_filter.mp he).1
    have h2 : e.id ≠ 248 := by rw [← hes2] at he; simpa using (List.mem_filter.mp he).2
    have := (reach_inv hr).dir.maxId e h1
    omega
  have hnone' : ∀ e ∈ es', e.first = none := by
    intro e he; rw [← hes2] at he; exact hnone e (List.mem_filter.mp he).1
  have inv := reach_inv hr
  have inv' := reach_inv (Reach.call hr hc2 hok)
  obtain ⟨os, ht1, ht2⟩ := hw2.trace
  obtain ⟨pre, post, hsp, hpre⟩ := split_filter FlashOp.isTable os 11
  rw [ht2, List.take_succ_cons, pages_take _ _ _ _ (by rw [hlen]; decide)] at hpre
  have hlow := applyOps_filter fs.dev.flash pre
  rw [hpre] at hlow
  have hlt := nextPos_lt fs
  have hpfx : Prefix (applyOps fs.dev.flash pre) (nextPos fs) (tableImage (fs.at'.seq + 1) es' fs.at'.maxId) (13 * (es'.length + 1) + 12) := by
    rw [hlen]
    exact (written_prefix0 _ _ _ 10).congr (fun j hj => (hlow.sameSlot hlt j hj).symm)
  rw [hmid] at hpfx
  have hholds := hpfx.tornFooter (by decide) (by rw [hseq]; omega) inv'.dir.wf inv'.dir.typ (by rw [hlen]; decide) torn248 rfl
  have hpos := inv.dir.pos
  have hne := nextPos_ne hpos
  have hoth : ∀ q, q < 4 → q ≠ nextPos fs → SameSlot fs.dev.flash (applyOps fs.dev.flash pre) q := by
    intro q hq hne j hj
    rw [hlow.sameSlot hq j hj]
    exact written_other _ _ _ _ _ (by omega) hne j hj
  have hstale : ∀ q, q < 4 → q ≠ nextPos fs → Stale (applyOps fs.dev.flash pre) q (fs.at'.seq + 1) := by
    intro q h1 h2
    by_cases hq : q = fs.at'.position
    · subst hq
      exact SlotHolds.stale (inv.dir.holds.congr (hoth _ hpos h2) inv.dir.cap) (Nat.lt_succ_self _)
    · exact ((inv.dir.stale q h1 hq).congr (hoth q h1 h2)).mono (Nat.le_succ _)
  rcases mount_restarts hlt (by omega) (by rw [hlen]; decide) hholds (fun q h1 h2 => (hstale q h1 h2).rejected) with ⟨er, hcl, _⟩ | ⟨mg, hcl, hmount⟩
  · exfalso
    obtain ⟨m', hm'⟩ := claimFiles_ok (fl := applyOps fs.dev.flash pre) es' SectorsMng.new (fun e he => by rw [hnone' e he]; exact ⟨[], .nil, by simp⟩)
    rw [hm'] at hcl; exact absurd hcl (by simp)
  · have hdir : DirInv ⟨⟨fs.at'.seq + 1, es'.length, 247, nextPos fs, []⟩, mg, ⟨applyOps fs.dev.flash pre, []⟩⟩ es' :=
      ⟨hlt, by show 1 ≤ fs.at'.seq + 1; omega, by show fs.at'.seq + 1 < _; rw [hseq]; omega, hholds, rfl, by rw [hlen]; decide, hstale,
        inv'.dir.wf, inv'.dir.typ, inv'.dir.sorted, hmax', by show 247 < _; omega⟩
    obtain ⟨fs3, hcr, _⟩ := createFile_spec hdir 5 (by rw [hlen]; decide)
    refine ⟨fs, es, [] ++ ids, fs', es', os, _, _, _, fs3, hr, by simpa using hid (by omega), hc2, hok, by unfold issued; rw [ht1]; rfl,
      .between pre post hsp, hmount, ?_, hcr, rfl⟩
    have := filesIter_spec hholds (fs := ⟨⟨fs.at'.seq + 1, es'.length, 247, nextPos fs, []⟩, mg, ⟨applyOps fs.dev.flash pre, []⟩⟩) rfl (fun _ => true)
    rw [List.filter_eq_self.mpr (by simp)] at this
    exact this

end Verif.Props
