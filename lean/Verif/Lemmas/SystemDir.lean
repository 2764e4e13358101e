import Verif.Lemmas.System
/-
Directory operations, restarts and power losses keep the invariant.
-/
namespace Verif.Vlfs
open Verif Verif.Spec

theorem data_length {l : List Nat} (hn : l.Nodup) (hd : ∀ x ∈ l, InData x) : l.length ≤ 16384 := by
  have h := (List.subperm_of_subset hn (l₂ := List.range 16384) (fun x hx => by
    rw [List.mem_range]; exact (hd x hx).2)).length_le
  rwa [List.length_range] at h

theorem Sys.own_data {crc : Bytes → UInt32} {fs : FS} {files : List FileSt} {leak : List Nat} (h : Sys crc fs files leak) {f : FileSt}
    (hf : f ∈ files) : f.own.Nodup ∧ ∀ x ∈ f.own, InData x := by
  have hsub : ∀ x ∈ f.own, x ∈ files.flatMap FileSt.own := fun x hx => List.mem_flatMap.mpr ⟨f, hf, hx⟩
  refine ⟨?_, fun x hx => h.inv.range x ?_⟩
  · have hnd := h.inv.nodup
    rw [List.append_assoc, List.append_assoc, List.nodup_append, List.nodup_append] at hnd
    exact (List.nodup_flatMap.mp hnd.2.1.1).1 f hf
  · exact List.mem_append_left _ (List.mem_append_left _ (List.mem_append_right _ (hsub x hx)))

theorem high_same {f g : Flash} (h : ∀ a, 131072 ≤ a → g a = f a) {s : Nat} (hs : InData s) : SameSector f g s := by
  intro j hj
  have : 32 ≤ s := hs.1
  exact (h _ (by omega)).symm

/-- the directory is rewritten; the data of the remaining files stays -/
theorem Sys.redir {crc : Bytes → UInt32} {fs fs' : FS} {files files' : List FileSt} {leak leak' : List Nat} (h : Sys crc fs files leak)
    (hr : ReachInv fs' (files'.map (·.e)) []) (hopen : fs'.at'.opened = fs.at'.opened)
    (hh : ∀ f ∈ files, f ∈ files' → ∀ s ∈ f.own, SameSector fs.dev.flash fs'.dev.flash s)
    (hf : ∀ f ∈ files', f ∈ files ∨ (FileOk crc fs'.dev.flash f ∧ (f.k.writer.isSome = true → f.k.guarded = true → f.k.id ∈ fs'.at'.opened)))
    (hinv : fs'.mng.Inv (leak' ++ files'.flatMap FileSt.own)) (hb : AheadBlank fs'.mng fs'.dev.flash) : Sys crc fs' files' leak' := by
  refine ⟨hr, ?_, hinv, hb, ?_⟩
  · intro f hm
    rcases hf f hm with h1 | h1
    · exact (h.ok f h1).congr (hh f h1 hm)
    · exact h1.1
  · intro f hm hw hg
    rcases hf f hm with h1 | h1
    · rw [hopen]; exact h.guard f h1 hw hg
    · exact h1.2 hw hg

/-- two files with the same id are the same -/
theorem Sys.unique {crc : Bytes → UInt32} {fs : FS} {files : List FileSt} {leak : List Nat} (h : Sys crc fs files leak) {f g : FileSt}
    (hf : f ∈ files) (hg : g ∈ files) (he : g.k.id = f.k.id) : g = f := by
  obtain ⟨as, bs, hab⟩ := List.append_of_mem hf
  rw [hab] at hg h
  rcases List.mem_append.mp hg with hx | hx
  · exact absurd he (h.idNe (List.mem_append_left _ hx))
  · rcases List.mem_cons.mp hx with rfl | hx
    · rfl
    · exact absurd he (h.idNe (List.mem_append_right _ hx))

/-- files are only removed and new ones, with new ids, added -/
theorem kept_redir {crc : Bytes → UInt32} {fs fs' : FS} {files files' : List FileSt} {leak : List Nat} (h : Sys crc fs files leak)
    (hh : ∀ f ∈ files, f ∈ files' → ∀ s ∈ f.own, SameSector fs.dev.flash fs'.dev.flash s)
    (hnew : ∀ g ∈ files', g ∈ files ∨ ∀ f ∈ files, f.k.id ≠ g.k.id) : Kept fs fs' files files' := by
  intro f hf _ _ ⟨g, hg, he⟩
  have hm : f ∈ files' := by
    rcases hnew g hg with hx | hx
    · rw [← h.unique hf hx he]; exact hg
    · exact absurd he.symm (hx f hf)
  exact ⟨hm, hh f hf hm⟩

theorem reach_call {fs fs' : FS} {es es' : List FileEntry} {new : List Nat} (h : ReachInv fs es []) (hc : Call fs es fs' es' new)
    (hok : countersOk fs) : ReachInv fs' es' [] ∧ fs'.at'.opened = fs.at'.opened := by
  obtain ⟨m, h1, h2, h3, h4, h5, h6⟩ := call_rewrite h hc hok
  exact ⟨⟨h.dir.of_rewrite h1 h2 hok.1, h4, h3, by simp⟩, h1.opened⟩

theorem blank_high {m : SectorsMng} {f g : Flash} (hr : MngRange m) (hb : AheadBlank m f) (h : ∀ a, 131072 ≤ a → g a = f a) : AheadBlank m g := by
  intro x hx j hj
  have hd := hr x hx
  have h32 : 32 ≤ x := hd.1
  have e : SECTOR_SIZE = 4096 := rfl
  rw [h _ (by rw [e]; omega)]
  exact hb x hx j hj

theorem create_sys {crc : Bytes → UInt32} {fs fs' : FS} {files : List FileSt} {leak : List Nat} (hs : Sys crc fs files leak) {typ : Nat} {e : FileEntry}
    (hc : fs.createFile typ = (.ok e, fs')) (hcap : files.length < 2518) (ht : typ < 0x4000) (hok : countersOk fs) :
    e.first = none ∧ fs'.at'.opened = fs.at'.opened ∧ Sys crc fs' (files ++ [⟨⟨e.id, typ, [], [], [], none, false, false⟩, e, [], []⟩]) leak := by
  have hlen : (files.map (·.e)).length < 2518 := by rw [List.length_map]; exact hcap
  obtain ⟨hr, ho⟩ := reach_call hs.reach (.create typ e fs' hc hlen ht) hok
  obtain ⟨hh, hm⟩ := createFile_high hs.reach.dir typ hlen
  obtain ⟨fs2, g1, _, _⟩ := createFile_spec hs.reach.dir typ hlen
  rw [hc] at g1 hh hm
  injection g1 with g1 _
  injection g1 with g1
  simp only at hh hm
  refine ⟨by rw [g1], ho, ?_⟩
  refine hs.redir (by rw [List.map_append]; exact hr) ho ?_ ?_ ?_ ?_
  · intro f h1 _ s hsm
    exact high_same hh.high ((hs.own_data h1).2 s hsm)
  · intro f hm
    rcases List.mem_append.mp hm with hm | hm
    · exact .inl hm
    · rw [List.mem_singleton] at hm
      subst hm
      refine .inr ⟨FileOk.mk' rfl (by rw [g1]) ?_ (fun _ => rfl) ?_, fun _ hg => absurd (show false = true from hg) (by simp)⟩
      · intro _
        refine ⟨?_, [], List.nil_prefix, rfl⟩
        show Stored crc _ e.first []
        rw [g1]; exact .nil
      · intro w hw; exact absurd (show (none : Option FileWriter) = some w from hw) (by simp)
  · rw [hm, List.flatMap_append]
    show fs.mng.Inv (leak ++ (files.flatMap FileSt.own ++ []))
    rw [List.append_nil]; exact hs.inv
  · rw [hm]; exact blank_high (inv_range hs.inv) hs.blank hh.high

theorem create_new {fs fs' : FS} {es : List FileEntry} (hd : DirInv fs es) {typ : Nat} {e : FileEntry} (hc : fs.createFile typ = (.ok e, fs')) (hlen : es.length < 2518) :
    e.id = fs.at'.maxId + 1 := by
  obtain ⟨fs2, g1, _, _⟩ := createFile_spec hd typ hlen
  rw [hc] at g1
  injection g1 with g1 _
  injection g1 with g1
  rw [g1]

theorem Sys.fresh {crc : Bytes → UInt32} {fs : FS} {files : List FileSt} {leak : List Nat} (h : Sys crc fs files leak) {x : Nat} (hx : x = fs.at'.maxId + 1) :
    ∀ f ∈ files, f.k.id ≠ x := by
  intro f hf he
  have := h.reach.dir.maxId f.e (List.mem_map.mpr ⟨f, hf, rfl⟩)
  rw [(h.ok f hf).id] at this
  omega

theorem sys_create {crc : Bytes → UInt32} {fs fs' : FS} {files : List FileSt} {leak : List Nat} (hs : Sys crc fs files leak) {typ : Nat} {e : FileEntry}
    (hc : fs.createFile typ = (.ok e, fs')) (hcap : (files.map (·.k)).length < 2518) (ht : typ < 0x4000) (hok : countersOk fs) :
    SysTo crc fs files fs' (files.map (·.k) ++ [⟨e.id, typ, [], [], [], none, false, false⟩]) := by
  have hlen : files.length < 2518 := by rw [← List.length_map (f := (·.k))]; exact hcap
  have hlen' : (files.map (·.e)).length < 2518 := by rw [List.length_map]; exact hlen
  refine ⟨_, leak, by rw [List.map_append]; rfl, (create_sys hs hc hlen ht hok).2.2, kept_redir hs ?_ ?_⟩
  · intro f h1 _ s hsm
    have hh := (createFile_high hs.reach.dir typ hlen').1
    rw [hc] at hh
    exact high_same hh.high ((hs.own_data h1).2 s hsm)
  · intro g hg
    rcases List.mem_append.mp hg with hg | hg
    · exact .inl hg
    · rw [List.mem_singleton] at hg
      subst hg
      exact .inr (hs.fresh (create_new hs.reach.dir hc hlen'))

theorem step_create {crc : Bytes → UInt32} {fs fs' : FS} {ks : List Known} (h : SysInv crc fs ks) {typ : Nat} {e : FileEntry}
    (hc : fs.createFile typ = (.ok e, fs')) (hcap : ks.length < 2518) (ht : typ < 0x4000) (hok : countersOk fs) :
    SysInv crc fs' (ks ++ [⟨e.id, typ, [], [], [], none, false, false⟩]) := by
  obtain ⟨files, leak, rfl, hs⟩ := h
  exact (sys_create hs hc hcap ht hok).inv

theorem sameExcept_same {out : List Nat} {f g : Flash} (h : SameExcept out f g) {s : Nat} (hs : s ∈ out) : SameSector f g s := by
  intro j hj
  have e : SECTOR_SIZE = 4096 := rfl
  refine (h _ (.inl ?_)).symm
  rw [e, show (s * 4096 + j) / 4096 = s by omega]; exact hs

theorem sys_createOpen_at {crc : Bytes → UInt32} {fs fs' : FS} {files : List FileSt} {leak : List Nat} (hs : Sys crc fs files leak) {typ r1 r2 : Nat} {e : FileEntry}
    (hc : fs.createFileAndOpen typ r1 r2 = (.ok e, fs')) (hcap : (files.map (·.k)).length < 2518) (ht : typ < 0x4000) (hok : countersOk fs) :
    ∃ s, e = ⟨fs.at'.maxId + 1, typ, some s⟩ ∧ Sys crc fs' (files ++ [⟨⟨e.id, typ, [], [], [], some (FileWriter.new s e.id), false, false⟩, e, [], []⟩]) leak ∧
      Kept fs fs' files (files ++ [⟨⟨e.id, typ, [], [], [], some (FileWriter.new s e.id), false, false⟩, e, [], []⟩]) := by
  have hlen : (files.map (·.e)).length < 2518 := by rw [List.length_map, ← List.length_map (f := (·.k))]; exact hcap
  obtain ⟨hr, ho⟩ := reach_call hs.reach (.createOpen typ r1 r2 e fs' hc hlen ht) hok
  obtain ⟨dev0, hh0, s, he, hcl, hm, hh1⟩ := createFileAndOpen_high hs.reach.dir typ r1 r2 hlen hc
  have htyp : e.typ = typ ∧ e.id = fs.at'.maxId + 1 := by
    rcases createFileAndOpen_spec hs.reach.dir hs.reach.range typ r1 r2 hlen with ⟨s', g, _, g1, _⟩ | ⟨er, g, g1⟩
    · rw [hc] at g1; injection g1 with g1 _; injection g1 with g1; rw [g1]; exact ⟨rfl, rfl⟩
    · rw [hc] at g1; injection g1 with g1 _; exact absurd g1 (by simp)
  rcases claim_spec hs.inv r1 r2 dev0 (blank_high (inv_range hs.inv) hs.blank hh0.high) with ⟨x, c1, c2, c3, c4, c5, c6, c7, c8⟩ | ⟨c1, c2⟩
  · rw [hcl] at c1
    injection c1 with c1
    subst c1
    have h2 : ∀ s' ∈ leak ++ files.flatMap FileSt.own, InData s' → SameSector fs.dev.flash fs'.dev.flash s' := by
      intro s' hm hd
      exact ((high_same hh0.high hd).trans (sameExcept_same c7 hm)).trans (high_same hh1.high hd)
    have hsb : ∀ j, j < 4096 → fs'.dev.flash (s * 4096 + j) = 0xFF := by
      intro j hj
      rw [← high_same hh1.high c4 j hj]
      exact c5 j hj
    refine ⟨s, ?_, ?_, ?_⟩
    · obtain ⟨i, t, f⟩ := e
      simp only at he htyp
      rw [he, htyp.1, htyp.2]
    rotate_left
    · refine kept_redir hs (fun f h1 _ s' hsm => h2 s' (List.mem_append_right _ (List.mem_flatMap.mpr ⟨f, h1, hsm⟩)) ((hs.own_data h1).2 s' hsm)) ?_
      intro g hg
      rcases List.mem_append.mp hg with hg | hg
      · exact .inl hg
      · rw [List.mem_singleton] at hg
        subst hg
        exact .inr (hs.fresh htyp.2)
    refine hs.redir (by rw [List.map_append]; exact hr) ho ?_ ?_ ?_ ?_
    · intro f h1 _ s' hsm
      exact h2 s' (List.mem_append_right _ (List.mem_flatMap.mpr ⟨f, h1, hsm⟩)) ((hs.own_data h1).2 s' hsm)
    · intro f hm
      rcases List.mem_append.mp hm with hm | hm
      · exact .inl hm
      · rw [List.mem_singleton] at hm
        subst hm
        refine .inr ⟨FileOk.mk' rfl htyp.1 ?_ (fun _ => rfl) ?_, fun _ hg => absurd (show false = true from hg) (by simp)⟩
        · intro hw; exact absurd (show some (FileWriter.new s e.id) = none from hw) (by simp)
        · intro w hw
          have hw : some (FileWriter.new s e.id) = some w := hw
          injection hw with hw
          subst hw
          exact ⟨rfl, ⟨s, he, .nil s⟩, WInv.new _ rfl rfl rfl hsb, List.prefix_rfl, [], List.nil_prefix, rfl⟩
    · rw [hm, List.flatMap_append]
      refine c2.perm ?_
      show (s :: (leak ++ files.flatMap FileSt.own)).Perm (leak ++ (files.flatMap FileSt.own ++ [s]))
      rw [← List.append_assoc]
      exact (List.perm_append_comm (l₁ := [s]))
    · rw [hm]; exact blank_high (inv_range c2) c6 hh1.high
  · rw [c1] at hcl
    exact absurd hcl (by simp)

theorem sys_createOpen {crc : Bytes → UInt32} {fs fs' : FS} {files : List FileSt} {leak : List Nat} (hs : Sys crc fs files leak) {typ r1 r2 : Nat} {e : FileEntry}
    (hc : fs.createFileAndOpen typ r1 r2 = (.ok e, fs')) (hcap : (files.map (·.k)).length < 2518) (ht : typ < 0x4000) (hok : countersOk fs) :
    SysTo crc fs files fs' (files.map (·.k) ++ [⟨e.id, typ, [], [], [], e.first.map (FileWriter.new · e.id), false, false⟩]) := by
  obtain ⟨s, he, h1, h2⟩ := sys_createOpen_at hs hc hcap ht hok
  refine ⟨_, leak, ?_, h1, h2⟩
  rw [List.map_append, he]; rfl

theorem step_createOpen {crc : Bytes → UInt32} {fs fs' : FS} {ks : List Known} (h : SysInv crc fs ks) {typ r1 r2 : Nat} {e : FileEntry}
    (hc : fs.createFileAndOpen typ r1 r2 = (.ok e, fs')) (hcap : ks.length < 2518) (ht : typ < 0x4000) (hok : countersOk fs) :
    SysInv crc fs' (ks ++ [⟨e.id, typ, [], [], [], e.first.map (FileWriter.new · e.id), false, false⟩]) := by
  obtain ⟨files, leak, rfl, hs⟩ := h
  exact (sys_createOpen hs hc hcap ht hok).inv

/-- the sectors of the file with the id of `e` -/
def chOf (files : List FileSt) (e : FileEntry) : List Nat :=
  match files.find? (fun f => f.e.id == e.id) with
  | some f => f.own
  | none => []

theorem chOf_eq {files : List FileSt} (hs : (files.map (·.e)).Pairwise (fun a b => a.id < b.id)) {f : FileSt} (hf : f ∈ files) :
    chOf files f.e = f.own := by
  have : files.find? (fun g => g.e.id == f.e.id) = some f := by
    induction files with
    | nil => simp at hf
    | cons g gs ih =>
      rw [List.map_cons, List.pairwise_cons] at hs
      rw [List.find?_cons]
      rcases List.mem_cons.mp hf with rfl | hf
      · simp
      · have := hs.1 f.e (List.mem_map.mpr ⟨f, hf, rfl⟩)
        have hne : (g.e.id == f.e.id) = false := by simp; omega
        rw [hne]; exact ih hs.2 hf
  unfold chOf
  rw [this]

theorem sys_removes {crc : Bytes → UInt32} {fs : FS} {files : List FileSt} {leak : List Nat} (hs : Sys crc fs files leak) (filter : Nat → Nat → Bool)
    (hsafe : ∀ k ∈ files.map (·.k), filter k.id k.typ = true → k.safe) (hok : countersOk fs) :
    ∃ n fs', fs.removeFiles (fun e => filter e.id e.typ) = (.ok n, fs') ∧
      HighAs fs.dev fs'.dev ∧ ∃ files' : List FileSt, files'.map (·.k) = ((files.map (·.k)).filter fun k => !filter k.id k.typ || decide (k.id ∈ fs.at'.opened)) ∧
        Sys crc fs' files' leak ∧ Kept fs fs' files files' ∧ files'.Sublist files := by
  have hsort := hs.reach.dir.sorted
  have hkeep : ∀ f ∈ files, keeps fs.at'.opened (fun e => filter e.id e.typ) f.e = (!filter f.k.id f.k.typ || decide (f.k.id ∈ fs.at'.opened)) := by
    intro f hm
    rw [keeps_eq, (hs.ok f hm).id, (hs.ok f hm).typ]
  have hclosed : ∀ f ∈ files, keeps fs.at'.opened (fun e => filter e.id e.typ) f.e = false → f.k.writer = none := by
    intro f hm hk
    rw [hkeep f hm, Bool.or_eq_false_iff, Bool.not_eq_false', decide_eq_false_iff_not] at hk
    cases hw : f.k.writer with
    | none => rfl
    | some w =>
      have := hsafe f.k (List.mem_map.mpr ⟨f, hm, rfl⟩) hk.1 (by rw [hw]; rfl)
      exact absurd (hs.guard f hm (by rw [hw]; rfl) this) hk.2
  have hch : ∀ e ∈ files.map (·.e), keeps fs.at'.opened (fun e => filter e.id e.typ) e = false →
      Chain fs.dev.flash e.first (chOf files e) ∧ (chOf files e).length ≤ 16384 ∧ ∀ y ∈ chOf files e, 32 ≤ y := by
    intro e he hk
    rw [List.mem_map] at he
    obtain ⟨f, hm, rfl⟩ := he
    rw [chOf_eq hsort hm]
    obtain ⟨d1, d2⟩ := hs.own_data hm
    refine ⟨?_, data_length d1 d2, fun y hy => (d2 y hy).1⟩
    have hw := hclosed f hm hk
    have hst := (hs.ok f hm).chain hw
    unfold FileSt.own; rw [hw]; exact hst
  obtain ⟨hh, hmng⟩ := removeFiles_data hs.reach.dir hs.reach.range (fun e => filter e.id e.typ) (chOf files) hch
  rcases removeFiles_spec hs.reach.dir hs.reach.range (fun e => filter e.id e.typ) with ⟨fs', g1, _, _⟩ | ⟨er, fs', g1, x, hx, _, hk, hn⟩
  case inr => exact absurd ⟨_, hch x hx hk⟩ hn
  rw [g1] at hh hmng
  simp only at hh hmng
  refine ⟨_, fs', g1, hh, files.filter (fun f => keeps fs.at'.opened (fun e => filter e.id e.typ) f.e), ?_, ?_, ?_, List.filter_sublist⟩
  rotate_right
  · exact kept_redir hs (fun f h1 _ s hsm => high_same hh.high ((hs.own_data h1).2 s hsm)) (fun g hg => .inl (List.mem_filter.mp hg).1)
  · rw [List.filter_map]
    refine congrArg (List.map _) (List.filter_congr ?_)
    intro f hm
    exact hkeep f hm
  · obtain ⟨hr, ho⟩ := reach_call hs.reach (.remove (fun e => filter e.id e.typ) _ _ fs' g1) hok
    have hes : (files.filter (fun f => keeps fs.at'.opened (fun e => filter e.id e.typ) f.e)).map (·.e) =
        (files.map (·.e)).filter (fun e => !filter e.id e.typ || decide (e.id ∈ fs.at'.opened)) := by
      rw [List.filter_map]
      refine congrArg (List.map _) (List.filter_congr ?_)
      intro f _
      rw [keeps_eq]; rfl
    refine hs.redir (by rw [hes]; exact hr) ho ?_ ?_ ?_ ?_
    · intro f h1 _ s hsm
      exact high_same hh.high ((hs.own_data h1).2 s hsm)
    · intro f hm
      exact .inl (List.mem_filter.mp hm).1
    · rw [hmng]
      apply returns_inv
      have e1 : ((files.map (·.e)).filter (fun e => !keeps fs.at'.opened (fun e => filter e.id e.typ) e)).flatMap (chOf files) =
          (files.filter (fun f => !keeps fs.at'.opened (fun e => filter e.id e.typ) f.e)).flatMap FileSt.own := by
        rw [List.filter_map, List.flatMap_map, List.flatMap_def, List.flatMap_def]
        refine congrArg List.flatten (List.map_congr_left ?_)
        intro f hm
        exact chOf_eq hsort (List.mem_filter.mp hm).1
      rw [e1]
      refine hs.inv.perm ?_
      have hp := (List.filter_append_perm (fun f : FileSt => !keeps fs.at'.opened (fun e => filter e.id e.typ) f.e) files).symm
      have hp2 := (hp.flatMap_right FileSt.own)
      rw [List.flatMap_append] at hp2
      simp only [Bool.not_not] at hp2
      refine (List.Perm.append_left leak hp2).trans ?_
      rw [← List.append_assoc, ← List.append_assoc]
      exact List.Perm.append_right _ List.perm_append_comm
    · obtain ⟨a1, a2⟩ := returns_ahead ((((files.map (·.e)).filter (fun e => !keeps fs.at'.opened (fun e => filter e.id e.typ) e)).flatMap (chOf files))) fs.mng
      intro x hx j hj
      rw [hmng, a1, a2] at hx
      exact blank_high (inv_range hs.inv) hs.blank hh.high x hx j hj

theorem sys_remove {crc : Bytes → UInt32} {fs : FS} {files : List FileSt} {leak : List Nat} (hs : Sys crc fs files leak) (filter : Nat → Nat → Bool)
    (hsafe : ∀ k ∈ files.map (·.k), filter k.id k.typ = true → k.safe) (hok : countersOk fs) :
    ∃ n fs', fs.removeFiles (fun e => filter e.id e.typ) = (.ok n, fs') ∧
      HighAs fs.dev fs'.dev ∧
      SysTo crc fs files fs' ((files.map (·.k)).filter fun k => !filter k.id k.typ || decide (k.id ∈ fs.at'.opened)) := by
  obtain ⟨n, fs', g1, g2, files', g3, g4, g5, _⟩ := sys_removes hs filter hsafe hok
  exact ⟨n, fs', g1, g2, files', leak, g3, g4, g5⟩

/-- removing files never takes space -/
theorem remove_free {crc : Bytes → UInt32} {fs : FS} {files : List FileSt} {leak : List Nat} (hs : Sys crc fs files leak) (filter : Nat → Nat → Bool)
    (hsafe : ∀ k ∈ files.map (·.k), filter k.id k.typ = true → k.safe) (hok : countersOk fs) :
    fs.mng.freeBytes ≤ (fs.removeFiles (fun e => filter e.id e.typ)).2.mng.freeBytes := by
  obtain ⟨n, fs', g1, g2, files', g3, g4, g5, g6⟩ := sys_removes hs filter hsafe hok
  rw [g1, (freeBytes_eq hs.inv).1, (freeBytes_eq g4.inv).1]
  have hle : (files'.flatMap FileSt.own).length ≤ (files.flatMap FileSt.own).length := by
    clear g3 g4 g5 hs hsafe
    induction g6 with
    | slnil => simp
    | cons a _ ih => rw [List.flatMap_cons, List.length_append]; omega
    | cons_cons a _ ih => rw [List.flatMap_cons, List.flatMap_cons, List.length_append, List.length_append]; omega
  rw [List.length_append, List.length_append]
  exact Nat.mul_le_mul_left _ (by omega)

theorem step_remove {crc : Bytes → UInt32} {fs : FS} {ks : List Known} (h : SysInv crc fs ks) (filter : Nat → Nat → Bool)
    (hsafe : ∀ k ∈ ks, filter k.id k.typ = true → k.safe) (hok : countersOk fs) :
    ∃ n fs', fs.removeFiles (fun e => filter e.id e.typ) = (.ok n, fs') ∧
      HighAs fs.dev fs'.dev ∧
      SysInv crc fs' (ks.filter fun k => !filter k.id k.typ || decide (k.id ∈ fs.at'.opened)) := by
  obtain ⟨files, leak, rfl, hs⟩ := h
  obtain ⟨n, fs', g1, g2, g3⟩ := sys_remove hs filter hsafe hok
  exact ⟨n, fs', g1, g2, g3.inv⟩

/-! ### restarts -/

theorem claimFiles_files {fl : Flash} : ∀ (files : List FileSt) (m : SectorsMng),
    (∀ f ∈ files, Chain fl f.e.first f.own ∧ f.own.length ≤ 16384) →
    claimFiles fl (files.map (·.e)) m = .ok ((files.flatMap FileSt.own).foldl SectorsMng.claimSector m) := by
  intro files
  induction files with
  | nil => exact fun m _ => rfl
  | cons f fs ih =>
    intro m h
    obtain ⟨hc, hl⟩ := h f (by simp)
    rw [List.map_cons, claimFiles, claimChain_chain hc (SECTORS_COUNT + 1) m (by unfold SECTORS_COUNT; omega)]
    simp only
    rw [ih _ (fun x hx => h x (List.mem_cons_of_mem _ hx)), List.flatMap_cons, List.foldl_append]

/-- mounting a chip on which all files are complete -/
theorem mount_sys {crc : Bytes → UInt32} {g : FS} {files : List FileSt} (hd : DirInv g (files.map (·.e))) (hsm : SmallTypes (files.map (·.e)))
    (hok : ∀ f ∈ files, f.k.writer = none ∧ FileOk crc g.dev.flash f) (hnd : (files.flatMap FileSt.own).Nodup)
    (hin : ∀ x ∈ files.flatMap FileSt.own, InData x) :
    ∃ fs', FS.mount g.dev.flash = (.ok (), fs') ∧ fs'.dev = ⟨g.dev.flash, []⟩ ∧ fs'.at'.opened = [] ∧ Sys crc fs' files [] := by
  have hcl := claimFiles_files (fl := g.dev.flash) files SectorsMng.new (fun f hm => by
    obtain ⟨h1, h2⟩ := hok f hm
    refine ⟨?_, ?_⟩
    · unfold FileSt.own; rw [h1]; exact h2.chain h1
    · exact data_length ((List.nodup_flatMap.mp hnd).1 f hm) (fun x hx => hin x (List.mem_flatMap.mpr ⟨f, hm, hx⟩)))
  rcases mount_restarts hd.pos hd.seq1 hd.cap hd.holds (fun q h1 h2 => (hd.stale q h1 h2).rejected) with ⟨e, h1, _⟩ | ⟨mg, h1, h2⟩
  · rw [hcl] at h1; exact absurd h1 (by simp)
  · rw [hcl] at h1
    injection h1 with h1
    subst h1
    obtain ⟨c1, c2, c3⟩ := claims_inv (files.flatMap FileSt.own) SectorsMng.Inv_new rfl rfl (by rw [List.append_nil]; exact hnd) hin
    refine ⟨_, h2, rfl, rfl, ⟨⟨?_, ?_, hsm, by simp⟩, ?_, ?_, ?_, ?_⟩⟩
    · exact hd.congr (LowEq.refl _) rfl rfl rfl hd.count.symm
    · intro x hx
      have hx : x ∈ (List.foldl SectorsMng.claimSector SectorsMng.new (files.flatMap FileSt.own)).ahead ++
        (List.foldl SectorsMng.claimSector SectorsMng.new (files.flatMap FileSt.own)).asyncAhead := hx
      rw [c2, c3] at hx
      simp at hx
    · intro f hm; exact (hok f hm).2
    · rw [List.nil_append]
      rw [List.append_nil] at c1
      exact c1.perm (List.reverse_perm _)
    · intro x hx
      have hx : x ∈ (List.foldl SectorsMng.claimSector SectorsMng.new (files.flatMap FileSt.own)).ahead ++
        (List.foldl SectorsMng.claimSector SectorsMng.new (files.flatMap FileSt.own)).asyncAhead := hx
      rw [c2, c3] at hx
      simp at hx
    · intro f hm hw
      rw [(hok f hm).1] at hw
      exact absurd hw (by simp)

/-- a file as it is found after power was lost outside a call of its writer -/
def FileSt.lost (f : FileSt) : FileSt :=
  ⟨f.k.afterLoss, f.e, match f.k.writer with | none => f.segs | some w => f.segs ++ [(w.sector, [])], []⟩

theorem lost_k (f : FileSt) : f.lost.k = f.k.afterLoss := rfl
theorem lost_e (f : FileSt) : f.lost.e = f.e := rfl

theorem afterLoss_writer (k : Known) : k.afterLoss.writer = none := by
  unfold Known.afterLoss
  cases h : k.writer <;> simp [h]

theorem afterLoss_id (k : Known) : k.afterLoss.id = k.id ∧ k.afterLoss.typ = k.typ := by
  unfold Known.afterLoss
  cases h : k.writer <;> simp

theorem lost_own (f : FileSt) : f.lost.own = f.own := by
  unfold FileSt.own
  rw [lost_k, afterLoss_writer]
  unfold FileSt.lost
  cases h : f.k.writer with
  | none => simp
  | some w => simp

/-- content between the flushed data and everything written -/
theorem loss_content {d data c : Bytes} (h1 : d <+: c) (h2 : c <+: data) : ∃ pre, pre <+: data.drop d.length ∧ c = d ++ pre := by
  obtain ⟨x, rfl⟩ := h1
  obtain ⟨y, rfl⟩ := h2
  refine ⟨x, ?_, rfl⟩
  rw [List.append_assoc, List.drop_left' rfl]
  exact List.prefix_append ..

theorem lost_ok {crc : Bytes → UInt32} {fl fl' : Flash} {f : FileSt} (h : FileOk crc fl f) (hs : ∀ s ∈ f.own, SameSector fl fl' s) :
    FileOk crc fl' f.lost := by
  obtain ⟨i1, i2⟩ := afterLoss_id f.k
  by_cases hn : f.k.writer = none
  · have hc := h.congr hs
    have e : f.lost.k = f.k := by rw [lost_k]; unfold Known.afterLoss; rw [hn]
    have e2 : f.lost.segs = f.segs := by unfold FileSt.lost; simp only [hn]
    refine ⟨by rw [e]; exact hc.id, by rw [e]; exact hc.typ, ?_, ?_, by rw [e]; exact hc.whole, ?_⟩
    · rw [e, e2]; exact hc.chain
    · rw [e, e2]; exact hc.closed
    · intro w hw; rw [e, hn] at hw; exact absurd hw (by simp)
  refine FileOk.mk' (by rw [lost_k, lost_e, i1]; exact h.id) (by rw [lost_k, lost_e, i2]; exact h.typ) ?_
    (fun hw => by rw [lost_k, afterLoss_writer] at hw; exact absurd hw (by simp)) ?_
  · intro _
    rw [lost_k, lost_e]
    unfold FileSt.lost
    cases hw : f.k.writer with
    | none => exact absurd hw hn
    | some w =>
      simp only [Known.afterLoss, hw]
      obtain ⟨_, ⟨first, h1, h2⟩, h3, h4, p, h5, h6⟩ := h.open' w hw
      have hown : f.own = secs f.segs ++ [w.sector] := by unfold FileSt.own; rw [hw]
      rw [hown] at hs
      refine ⟨?_, ?_⟩
      · rw [h1]
        refine stored_open h2 (fun s hm => hs s (List.mem_append_left _ hm)) ?_
        intro j j1 j2
        rw [← hs w.sector (by simp) j j2]
        exact WBuf.fields h3 j j1 j2
      · rw [bytesOf_open]
        refine loss_content h4 ?_
        refine List.IsPrefix.trans (List.prefix_append _ f.cur) ?_
        rw [h6]
        exact (List.prefix_append_right_inj _).mpr h5
  · intro w hw
    rw [lost_k, afterLoss_writer] at hw
    exact absurd hw (by simp)

theorem flatMap_lost (l : List FileSt) : (l.map FileSt.lost).flatMap FileSt.own = l.flatMap FileSt.own := by
  rw [List.flatMap_map, List.flatMap_def, List.flatMap_def]
  exact congrArg List.flatten (List.map_congr_left fun f _ => lost_own f)

theorem map_lost_e (l : List FileSt) : (l.map FileSt.lost).map (·.e) = l.map (·.e) := by
  rw [List.map_map]; rfl

theorem map_lost_k (l : List FileSt) : (l.map FileSt.lost).map (·.k) = (l.map (·.k)).map Known.afterLoss := by
  rw [List.map_map, List.map_map]; rfl

theorem nodup_part {a b c : List Nat} {m : SectorsMng} (h : m.Inv (a ++ b)) (hc : b = c) : c.Nodup ∧ ∀ x ∈ c, InData x := by
  subst hc
  have hnd := h.nodup
  rw [List.append_assoc, List.append_assoc, List.nodup_append, List.nodup_append] at hnd
  exact ⟨hnd.2.1.1, fun x hx => h.range x (List.mem_append_left _ (List.mem_append_left _ (List.mem_append_right _ hx)))⟩

/-- restart on a chip whose data region is unchanged for all sectors in use; `g` carries the directory -/
theorem restart_same {crc : Bytes → UInt32} {fs g : FS} {files : List FileSt} {leak : List Nat} (hs : Sys crc fs files leak)
    {files' : List FileSt} (hsub : ∀ f ∈ files', f ∈ files) (hown : (files'.flatMap FileSt.own).Nodup)
    (hd : DirInv g (files'.map (·.e))) (hsm : SmallTypes (files'.map (·.e)))
    (hsame : ∀ f ∈ files', ∀ s ∈ f.own, SameSector fs.dev.flash g.dev.flash s) :
    ∃ fs', FS.mount g.dev.flash = (.ok (), fs') ∧ fs'.dev = ⟨g.dev.flash, []⟩ ∧ fs'.at'.opened = [] ∧
      Sys crc fs' (files'.map FileSt.lost) [] := by
  refine mount_sys (by rw [map_lost_e]; exact hd) (by rw [map_lost_e]; exact hsm) ?_ (by rw [flatMap_lost]; exact hown) ?_
  · intro f hm
    rw [List.mem_map] at hm
    obtain ⟨f, hm, rfl⟩ := hm
    exact ⟨afterLoss_writer _, lost_ok (hs.ok f (hsub f hm)) (hsame f hm)⟩
  · intro x hx
    rw [flatMap_lost] at hx
    obtain ⟨f, hm, hx⟩ := List.mem_flatMap.mp hx
    exact (hs.own_data (hsub f hm)).2 x hx

theorem Sys.nodup {crc : Bytes → UInt32} {fs : FS} {files : List FileSt} {leak : List Nat} (hs : Sys crc fs files leak) :
    (files.flatMap FileSt.own).Nodup := (nodup_part hs.inv rfl).1

theorem step_restart {crc : Bytes → UInt32} {fs : FS} {ks : List Known} (h : SysInv crc fs ks) :
    ∃ fs', FS.mount fs.dev.flash = (.ok (), fs') ∧ fs'.dev = ⟨fs.dev.flash, []⟩ ∧ fs'.at'.opened = [] ∧ SysInv crc fs' (ks.map Known.afterLoss) := by
  obtain ⟨files, leak, hf, hs⟩ := h
  obtain ⟨fs', h1, h2, h3, h4⟩ := restart_same (g := fs) hs (fun f hm => hm) hs.nodup hs.reach.dir hs.reach.small (fun _ _ s _ => fun _ _ => rfl)
  exact ⟨fs', h1, h2, h3, files.map FileSt.lost, [], by rw [map_lost_k, hf], h4⟩

/-- a call of a writer as operations on the chip -/
theorem writerCall_tr {crc : Bytes → UInt32} {rest : List Nat} {first : Nat} {segs : List (Nat × Bytes)} {w : FileWriter} {D : Bytes}
    {fs fs' : FS} {slice : Bytes} {ops : List FlashOp} (h : WSt crc rest first segs w D fs.mng fs.dev) (hc : WriterCall crc fs w fs' slice)
    (hi : issued fs fs' ops) : ∃ own m, Tr crc rest first segs (bytesOf segs ++ D ++ slice) fs.dev.flash ops own ∧
      SectorsMng.Inv m (rest ++ own) := by
  have key : ∀ {d : Dev} {os : List FlashOp}, d = fs.dev.ops os → d.log = fs.dev.log ++ ops → ops = os := by
    intro d os h1 h2
    rw [h1] at h2
    exact (List.append_cancel_left (show fs.dev.log ++ os = fs.dev.log ++ ops from h2)).symm
  cases hc with
  | extend rng slice =>
    obtain ⟨segs', D', os, pre, hc⟩ := extend_call h rng slice
    have := key hc.ops hi
    subst this
    exact ⟨_, _, hc.tr, hc.st.inv⟩
  | flush r1 r2 =>
    obtain ⟨segs', D', os, hc, _⟩ := flush_call h r1 r2
    have := key hc.ops hi
    subst this
    exact ⟨_, _, hc.tr, hc.st.inv⟩
  | close =>
    obtain ⟨os, c1, c2, c3, c4⟩ := close_call h
    have hi : (FS.markClosed { fs with dev := w.close crc fs.dev } w.id).dev.log = fs.dev.log ++ ops := hi
    rw [(markClosed_fields _ _).1] at hi
    have := key c1 hi
    subst this
    exact ⟨_, _, c4.mono (by simp) List.prefix_rfl, h.inv⟩

theorem step_loss {crc : Bytes → UInt32} {fs : FS} {ks ks' : List Known} {fl' : Flash} (h : SysInv crc fs ks)
    (hl : LossDuringWrite crc fs ks fl' ks') :
    ∃ fs', FS.mount fl' = (.ok (), fs') ∧ fs'.dev = ⟨fl', []⟩ ∧ fs'.at'.opened = [] ∧ SysInv crc fs' ks' := by
  obtain ⟨files, leak, hf, hs⟩ := h
  cases hl with
  | mk a b k w fs1 slice ops fl' hk hw hm hc hi hcr =>
  rw [hk] at hf
  obtain ⟨as, f, bs, rfl, ha, rfl, hb⟩ := split_files hf
  obtain ⟨first, hfirst, hwst⟩ := hs.wst hw
  obtain ⟨own, m, htr, hinv⟩ := writerCall_tr hwst hc hi
  obtain ⟨l, l1, l2, l3, l4⟩ := htr.crash fl' hcr
  have hfo := hs.ok f (by simp)
  obtain ⟨_, _, _, hdur, p, hp, hdat⟩ := hfo.open' w hw
  have hlow : LowEq fs.dev.flash fl' := data_low (fun o ho a ha => (htr.touch o ho a ha).1) hcr
  have hsame : ∀ s ∈ others leak as bs, SameSector fs.dev.flash fl' s := by
    intro s hsm
    refine touch_same (fun o ho a ha he => ?_) hcr
    exact (htr.touch o ho a ha).2.1 (by rw [he]; exact hsm)
  obtain ⟨f2, hf2⟩ : ∃ f2 : FileSt, f2 = ⟨({ f.k with maybe := f.k.maybe ++ slice } : Known).afterLoss, f.e, l, []⟩ := ⟨_, rfl⟩
  have hf2k : f2.k = ({ f.k with maybe := f.k.maybe ++ slice } : Known).afterLoss := by rw [hf2]
  have hown2 : f2.own = secs l := by
    unfold FileSt.own
    rw [hf2k, afterLoss_writer, hf2]
  have hfile2 : FileOk crc fl' f2 := by
    obtain ⟨i1, i2⟩ := afterLoss_id { f.k with maybe := f.k.maybe ++ slice }
    refine FileOk.mk' (by rw [hf2k, i1, hf2]; exact hfo.id) (by rw [hf2k, i2, hf2]; exact hfo.typ) ?_
      (fun hx => by rw [hf2k, afterLoss_writer] at hx; exact absurd hx (by simp)) ?_
    · intro _
      rw [hf2]
      simp only [Known.afterLoss, hw]
      refine ⟨by rw [hfirst]; exact l1, loss_content (hdur.trans l2) (l3.trans ?_)⟩
      rw [hdat]
      rcases hm with hm | hm
      · rw [hm, List.nil_append]
        rw [hm] at hp
        rw [List.prefix_nil.mp hp, List.append_nil]
        exact List.prefix_rfl
      · subst hm
        rw [List.append_nil, List.append_nil]
        exact (List.prefix_append_right_inj _).mpr hp
    · intro w' hw'
      rw [hf2k, afterLoss_writer] at hw'
      exact absurd hw' (by simp)
  obtain ⟨g, hg⟩ : ∃ g : FS, g = ⟨fs.at', fs.mng, ⟨fl', []⟩⟩ := ⟨_, rfl⟩
  have hgf : g.dev.flash = fl' := by rw [hg]
  have hes : (as.map FileSt.lost ++ f2 :: bs.map FileSt.lost).map (·.e) = (as ++ f :: bs).map (·.e) := by
    rw [List.map_append, List.map_cons, map_lost_e, map_lost_e, List.map_append, List.map_cons, hf2]
  have hinv2 := (hinv.perm (perm_mid leak (as.flatMap FileSt.own) own (bs.flatMap FileSt.own)).symm)
  have hfm : (as.map FileSt.lost ++ f2 :: bs.map FileSt.lost).flatMap FileSt.own =
      as.flatMap FileSt.own ++ (secs l ++ bs.flatMap FileSt.own) := by
    rw [List.flatMap_append, List.flatMap_cons, flatMap_lost, flatMap_lost, hown2]
  have hsubl : (as.flatMap FileSt.own ++ (secs l ++ bs.flatMap FileSt.own)).Sublist (as.flatMap FileSt.own ++ (own ++ bs.flatMap FileSt.own)) :=
    List.Sublist.append (List.Sublist.refl _) (List.Sublist.append l4.sublist (List.Sublist.refl _))
  obtain ⟨n1, n2⟩ := nodup_part hinv2 rfl
  have hmount := mount_sys (crc := crc) (g := g) (files := as.map FileSt.lost ++ f2 :: bs.map FileSt.lost)
    (by rw [hes]; exact hs.reach.dir.congr (by rw [hgf]; exact hlow) (by rw [hg]) (by rw [hg]) (by rw [hg]) (by rw [hg]))
    (by rw [hes]; exact hs.reach.small)
    (by
      rw [hgf]
      intro x hx
      rcases List.mem_append.mp hx with hx | hx
      · obtain ⟨y, hy, rfl⟩ := List.mem_map.mp hx
        exact ⟨afterLoss_writer _, lost_ok (hs.ok y (by simp [hy])) fun s hsm => hsame s (mem_own (List.mem_append_left _ hy) hsm)⟩
      · rcases List.mem_cons.mp hx with rfl | hx
        · exact ⟨by rw [hf2k]; exact afterLoss_writer _, hfile2⟩
        · obtain ⟨y, hy, rfl⟩ := List.mem_map.mp hx
          exact ⟨afterLoss_writer _, lost_ok (hs.ok y (by simp [hy])) fun s hsm => hsame s (mem_own (List.mem_append_right _ hy) hsm)⟩)
    (by rw [hfm]; exact n1.sublist hsubl)
    (by rw [hfm]; exact fun x hx => n2 x (hsubl.subset hx))
  rw [hgf] at hmount
  obtain ⟨fs', h1, h2, h3, h4⟩ := hmount
  refine ⟨fs', h1, h2, h3, _, [], ?_, h4⟩
  rw [List.map_append, List.map_cons, map_lost_k, map_lost_k, hf2k, ha, hb, List.map_append, List.map_cons]

end Verif.Vlfs
