import Verif.Lemmas.ConfigFile
/-
Power loss while a configuration is written.
-/
namespace Verif.Vlfs
open Verif Verif.Spec Verif.Config

/-- a call issues a list of flash operations -/
theorem writerCall_dev {crc : Bytes → UInt32} {fs fs' : FS} {ks a b : List Known} {k : Known} {w : FileWriter} {slice : Bytes} (h : SysInv crc fs ks)
    (hk : ks = a ++ k :: b) (hw : k.writer = some w) (hc : WriterCall crc fs w fs' slice) : ∃ os, fs'.dev = fs.dev.ops os := by
  obtain ⟨files, leak, hf, hs⟩ := h
  rw [hk] at hf
  obtain ⟨as, f, bs, rfl, ha, rfl, hb⟩ := split_files hf
  obtain ⟨first, hfirst, hwst⟩ := hs.wst hw
  cases hc with
  | extend rng slice =>
    obtain ⟨segs', D', os, pre, hc⟩ := extend_call hwst rng slice
    exact ⟨os, hc.ops⟩
  | flush r1 r2 =>
    obtain ⟨segs', D', os, hc, _⟩ := flush_call hwst r1 r2
    exact ⟨os, hc.ops⟩
  | close =>
    obtain ⟨os, c1, c2, c3, c4⟩ := close_call hwst
    refine ⟨os, ?_⟩
    unfold FS.closeWriter
    rw [(markClosed_fields _ _).1]
    exact c1

/-- `open_file_for_write` of a file without sectors: the flash operations it issues -/
theorem openFresh_dev {crc : Bytes → UInt32} {fs : FS} {as bs : List FileSt} {f : FileSt} {leak : List Nat}
    (hs : Sys crc fs (as ++ f :: bs) leak) (hw : f.k.writer = none) (hdm : f.k.damaged = false) (hfirst : f.e.first = none) (hok : countersOk fs) (rng : Nat → Nat) :
    (∃ w fs' os, fs.openForWrite f.k.id rng = (.ok w, fs') ∧ fs'.dev = fs.dev.ops os) ∨
    (∃ er fs', fs.openForWrite f.k.id rng = (.error er, fs') ∧ fs'.dev = fs.dev) := by
  have hmem : f ∈ as ++ f :: bs := by simp
  obtain ⟨j, hj⟩ := hs.find hmem
  have hid := (hs.ok f hmem).id
  unfold FS.openForWrite
  rw [hj]
  simp only
  rw [hid]
  by_cases hop : fs.at'.isOpened f.k.id = true
  · rw [if_pos hop]; exact .inr ⟨_, _, rfl, rfl⟩
  rw [if_neg hop]
  by_cases hlen : fs.at'.opened.length < 32
  case neg => rw [markOpened_err hlen]; exact .inr ⟨_, _, rfl, rfl⟩
  rw [markOpened_ok hlen]
  simp only
  have hs1 : Sys crc { fs with at' := { fs.at' with opened := fs.at'.opened ++ [f.k.id] } } (as ++ f :: bs) leak :=
    hs.opened rfl rfl rfl rfl rfl rfl (fun g _ _ _ hg => List.mem_append_left _ hg)
  have ho1 : f.k.id ∈ fs.at'.opened ++ [f.k.id] := by simp
  rcases hs1.claim (rng 0) (rng 1) with ⟨new, c1, c2, c3, c4, _, osC, b1⟩ | ⟨c1, cf⟩
  case inr =>
    have c1 : fs.mng.claim (rng 0) (rng 1) fs.dev = (.error .deviceFull, fs.mng, fs.dev) := c1
    rw [c1]; exact .inr ⟨_, _, rfl, rfl⟩
  have c1 : (fs.mng.claim (rng 0) (rng 1) fs.dev).1 = .ok new := c1
  have b1 : (fs.mng.claim (rng 0) (rng 1) fs.dev).2.2 = fs.dev.ops osC := b1
  have c2 : Sys crc ⟨{ fs.at' with opened := fs.at'.opened ++ [f.k.id] }, (fs.mng.claim (rng 0) (rng 1) fs.dev).2.1,
    (fs.mng.claim (rng 0) (rng 1) fs.dev).2.2⟩ (as ++ f :: bs) (new :: leak) := c2
  have c4 : ∀ j, j < 4096 → (fs.mng.claim (rng 0) (rng 1) fs.dev).2.2.flash (new * 4096 + j) = 0xFF := c4
  generalize fs.mng.claim (rng 0) (rng 1) fs.dev = r at c1 c2 c4 b1
  obtain ⟨r0, m, d⟩ := r
  simp only at c1 c2 c4 b1
  subst c1
  simp only [hfirst]
  obtain ⟨fs2, g1, _, _, _⟩ := open_fresh c2 hw hdm hfirst c3 c4 ho1 hok
  have hh := setFirstSector_high c2.reach.dir f.k.id (some new)
  rw [g1] at hh ⊢
  obtain ⟨osB, a4, _⟩ := hh
  have a4 : fs2.dev = d.ops osB := a4
  exact .inl ⟨_, fs2, osC ++ osB, rfl, by rw [a4, b1, Dev.ops_ops]⟩

theorem crash_cons {fs fs1 fs2 : FS} {a ops : List FlashOp} {fl' : Flash} (h1 : fs1.dev = fs.dev.ops a) (h2 : ∃ b, fs2.dev = fs1.dev.ops b)
    (hi : issued fs fs2 ops) (hp : CrashImage fs.dev.flash ops fl') :
    (issued fs fs1 a ∧ CrashImage fs.dev.flash a fl') ∨ ∃ b, fs2.dev = fs1.dev.ops b ∧ issued fs1 fs2 b ∧ CrashImage fs1.dev.flash b fl' := by
  obtain ⟨b, h2⟩ := h2
  have hops : ops = a ++ b := by
    have hi : fs2.dev.log = fs.dev.log ++ ops := hi
    rw [h2, h1, Dev.ops_ops] at hi
    exact (List.append_cancel_left (show fs.dev.log ++ (a ++ b) = fs.dev.log ++ ops from hi)).symm
  rw [hops] at hp
  rcases crash_append hp with hp | hp
  · exact .inl ⟨by show fs1.dev.log = _; rw [h1]; rfl, hp⟩
  · refine .inr ⟨b, h2, by show fs2.dev.log = _; rw [h2]; rfl, ?_⟩
    rw [h1]; exact hp

theorem crash_noop {fs fs1 : FS} {ops : List FlashOp} {fl' : Flash} (h1 : fs1.dev = fs.dev) (hi : issued fs fs1 ops) (hp : CrashImage fs.dev.flash ops fl') :
    fl' = fs.dev.flash := by
  have hops : ops = [] := by
    have hi : fs1.dev.log = fs.dev.log ++ ops := hi
    rw [h1] at hi
    exact List.append_right_eq_self.mp hi.symm
  subst hops
  exact crash_nil hp

/-- The directory when power was lost while a configuration was written: the old one, or without the old configuration, or
with a file that holds a beginning of the new configuration. -/
theorem configWrite_crash {crc : Bytes → UInt32} {fs : FS} {ks : List Known} (hr : Hist crc fs ks) {typ : Nat}
    (hsafe : ∀ k ∈ ks, k.typ = typ → k.safe) (hcap : ks.length < 2517) (ht : typ < 0x4000) (hseq : fs.at'.seq + 3 < 2 ^ 64) (hid : fs.at'.maxId + 2 < 2 ^ 64)
    (bytes : Bytes) (rng1 : Nat → Nat) (rng2 : Nat → Nat × Nat)
    {ops : List FlashOp} {fl' : Flash} (hi : issued fs (Config.write crc fs typ bytes rng1 rng2).2 ops) (hp : CrashImage fs.dev.flash ops fl') :
    ∃ fs'', FS.mount fl' = (.ok (), fs'') ∧ fs''.at'.opened = [] ∧
      (Back crc fs'' ks ∨ Back crc fs'' (withoutType typ fs.at'.opened ks) ∨
        ∃ k, k.typ = typ ∧ k.writer = none ∧ k.damaged = false ∧ k.data ++ k.maybe <+: bytes ∧ Found crc fs'' ((withoutType typ fs.at'.opened ks).map Known.afterLoss ++ [k])) := by
  obtain ⟨n, fs1, e, fs2, g1, d1, g2, d2, hok2, hop, heid, hmng⟩ := configWrite_open hr hsafe (by omega) ht hseq hid
  have hr1 := hr.step (.dir d1)
  have hr2 := hr1.step (.dir d2)
  have hwl : (withoutType typ fs.at'.opened ks).length ≤ ks.length := List.length_filter_le ..
  have hwl2 : (withoutType typ fs.at'.opened ks ++ [(⟨e.id, typ, [], [], [], none, false, false⟩ : Known)]).length = (withoutType typ fs.at'.opened ks).length + 1 := by
    rw [List.length_append, List.length_singleton]
  obtain ⟨os1, e1, _⟩ := (dirStep_inv (hist_inv hr) d1).2.1
  obtain ⟨os2, e2, _⟩ := (dirStep_inv (hist_inv hr1) d2).2.1
  -- power loss in the three parts
  have p1 : ∀ {o : List FlashOp}, issued fs fs1 o → CrashImage fs.dev.flash o fl' → ∃ fs'', FS.mount fl' = (.ok (), fs'') ∧ fs''.at'.opened = [] ∧
      (Back crc fs'' ks ∨ Back crc fs'' (withoutType typ fs.at'.opened ks)) := by
    intro o hi hp
    obtain ⟨fs'', ks2, m1, m2, m3⟩ := loss_dir_any (hist_inv hr) d1 hi (by omega) hp
    refine ⟨fs'', m1, m3.opened, ?_⟩
    rcases m2 with m2 | m2 <;> rw [m2] at m3
    · exact .inl m3
    · exact .inr m3
  have hnew : ∀ k : Known, ∀ g : FS, Back crc g (withoutType typ fs.at'.opened ks ++ [k]) → k.afterLoss.data ++ k.afterLoss.maybe <+: bytes → k.typ = typ → k.damaged = false →
      ∃ k, k.typ = typ ∧ k.writer = none ∧ k.damaged = false ∧ k.data ++ k.maybe <+: bytes ∧ Found crc g ((withoutType typ fs.at'.opened ks).map Known.afterLoss ++ [k]) := by
    intro k g h1 h2 h3 h4
    unfold Back at h1
    rw [List.map_append] at h1
    exact ⟨k.afterLoss, by rw [(afterLoss_id k).2, h3], afterLoss_writer k, by rw [afterLoss_damaged, h4], h2, h1⟩
  have p2 : ∀ {o : List FlashOp}, issued fs1 fs2 o → CrashImage fs1.dev.flash o fl' → ∃ fs'', FS.mount fl' = (.ok (), fs'') ∧ fs''.at'.opened = [] ∧
      (Back crc fs'' (withoutType typ fs.at'.opened ks) ∨
        ∃ k, k.typ = typ ∧ k.writer = none ∧ k.damaged = false ∧ k.data ++ k.maybe <+: bytes ∧ Found crc fs'' ((withoutType typ fs.at'.opened ks).map Known.afterLoss ++ [k])) := by
    intro o hi hp
    obtain ⟨fs'', ks2, m1, m2, m3⟩ := loss_dir_any (hist_inv hr1) d2 hi (by rw [hwl2]; omega) hp
    refine ⟨fs'', m1, m3.opened, ?_⟩
    rcases m2 with m2 | m2 <;> rw [m2] at m3
    · exact .inl m3
    · exact .inr (hnew _ _ m3 List.nil_prefix rfl rfl)
  have p3 : fl' = fs2.dev.flash → ∃ fs'', FS.mount fl' = (.ok (), fs'') ∧ fs''.at'.opened = [] ∧
        ∃ k, k.typ = typ ∧ k.writer = none ∧ k.damaged = false ∧ k.data ++ k.maybe <+: bytes ∧ Found crc fs'' ((withoutType typ fs.at'.opened ks).map Known.afterLoss ++ [k]) := by
    intro h
    obtain ⟨fs'', m1, m2⟩ := restart_back (hist_inv hr2)
    exact ⟨fs'', by rw [h]; exact m1, m2.opened, hnew _ _ m2 List.nil_prefix rfl rfl⟩
  -- the remaining operations
  have key : ∀ (fs5 : FS), (∃ b, fs5.dev = fs2.dev.ops b) → issued fs fs5 ops →
      (∀ {o : List FlashOp}, issued fs2 fs5 o → CrashImage fs2.dev.flash o fl' → ∃ fs'', FS.mount fl' = (.ok (), fs'') ∧ fs''.at'.opened = [] ∧
        ∃ k, k.typ = typ ∧ k.writer = none ∧ k.damaged = false ∧ k.data ++ k.maybe <+: bytes ∧ Found crc fs'' ((withoutType typ fs.at'.opened ks).map Known.afterLoss ++ [k])) →
      ∃ fs'', FS.mount fl' = (.ok (), fs'') ∧ fs''.at'.opened = [] ∧
      (Back crc fs'' ks ∨ Back crc fs'' (withoutType typ fs.at'.opened ks) ∨
        ∃ k, k.typ = typ ∧ k.writer = none ∧ k.damaged = false ∧ k.data ++ k.maybe <+: bytes ∧ Found crc fs'' ((withoutType typ fs.at'.opened ks).map Known.afterLoss ++ [k])) := by
    intro fs5 hb hi5 hlast
    obtain ⟨b, hb⟩ := hb
    rcases crash_cons e1 ⟨os2 ++ b, by rw [hb, e2, Dev.ops_ops]⟩ hi5 hp with ⟨q1, q2⟩ | ⟨_, _, q1, q2⟩
    · obtain ⟨fs'', m1, m2, m3⟩ := p1 q1 q2
      exact ⟨fs'', m1, m2, m3.elim .inl (fun h => .inr (.inl h))⟩
    rcases crash_cons e2 ⟨b, hb⟩ q1 q2 with ⟨q1, q2⟩ | ⟨_, _, q1, q2⟩
    · obtain ⟨fs'', m1, m2, m3⟩ := p2 q1 q2
      exact ⟨fs'', m1, m2, m3.elim (fun h => .inr (.inl h)) (fun h => .inr (.inr h))⟩
    · obtain ⟨fs'', m1, m2, m3⟩ := hlast q1 q2
      exact ⟨fs'', m1, m2, .inr (.inr m3)⟩
  have hfresh : ∃ es, lists fs2 es ∧ e ∈ es ∧ e.first = none := by
    obtain ⟨files, leak, hf, hs⟩ := hist_inv hr1
    have hlen : (files.map (·.e)).length < 2518 := by rw [List.length_map, ← List.length_map (f := (·.k)), hf]; omega
    have hok1 : countersOk fs1 := (dirStep_inv (hist_inv hr1) d2).2.2
    obtain ⟨q, _⟩ := reach_call hs.reach (.create typ e fs2 g2 hlen ht) hok1
    obtain ⟨fs2', h1, _, _⟩ := createFile_spec hs.reach.dir typ hlen
    rw [g2] at h1
    injection h1 with h1 _
    injection h1 with h1
    exact ⟨_, lists_of_dirInv q.dir, by simp, by rw [h1]⟩
  obtain ⟨es, hl, he, hfirst⟩ := hfresh
  have hsys := hist_inv hr2
  obtain ⟨files, leak, hf, hs⟩ := hsys
  obtain ⟨as, f, bs, rfl, ha, hk, hb⟩ := split_files (k := ⟨e.id, typ, [], [], [], none, false, false⟩) (b := []) hf
  have hfe : f.e.first = none := by
    have hes := dirInv_lists hs.reach.dir hl
    rw [hes] at he
    obtain ⟨g, hg, hge⟩ := List.mem_map.mp he
    have hgid := (hs.ok g hg).id
    have hfid : f.k.id = e.id := by rw [hk]
    have hgk : g.k.id = f.k.id := by rw [← hgid, hge, hfid]
    have : g = f := by
      simp only [List.mem_append, List.mem_cons] at hg
      rcases hg with hg | hg | hg
      · exact absurd hgk (hs.idNe (List.mem_append_left _ hg))
      · exact hg
      · exact absurd hgk (hs.idNe (List.mem_append_right _ hg))
    rw [← this, hge]; exact hfirst
  have hwf : f.k.writer = none := by rw [hk]
  have hfid : f.k.id = e.id := by rw [hk]
  unfold Config.write at hi
  simp only [g1, g2] at hi
  rcases openFresh_dev hs hwf (by rw [hk]) hfe hok2 rng1 with ⟨w, fs3, os3, o1, o2⟩ | ⟨er, fs3, o1, o2⟩
  case inr =>
    rw [hfid] at o1
    rw [o1] at hi
    refine key fs3 ⟨[], by rw [o2, Dev.ops_nil]⟩ hi fun h1 h2 => p3 (crash_noop o2 h1 h2)
  rw [hfid] at o1
  rw [o1] at hi
  simp only at hi
  have a3 : AllocStep fs2 (withoutType typ fs.at'.opened ks ++ [⟨e.id, typ, [], [], [], none, false, false⟩]) fs3 _ :=
    .openWrite e.id rng1 w fs3 _ [] ⟨e.id, typ, [], [], [], none, false, false⟩ es e hl he rfl hfirst rfl rfl rfl rfl o1 hok2
  have hr3 := hr2.step (.openWrite e.id rng1 w fs3 _ [] _ rfl rfl rfl rfl o1 hok2)
  have hwl3 : ∀ k : Known, (withoutType typ fs.at'.opened ks ++ [k]).length = (withoutType typ fs.at'.opened ks).length + 1 := by
    intro k; rw [List.length_append, List.length_singleton]
  have p4 : ∀ {o : List FlashOp}, issued fs2 fs3 o → CrashImage fs2.dev.flash o fl' → ∃ fs'', FS.mount fl' = (.ok (), fs'') ∧ fs''.at'.opened = [] ∧
        ∃ k, k.typ = typ ∧ k.writer = none ∧ k.damaged = false ∧ k.data ++ k.maybe <+: bytes ∧ Found crc fs'' ((withoutType typ fs.at'.opened ks).map Known.afterLoss ++ [k]) := by
    intro o hi hp
    obtain ⟨fs'', ks2, m1, m3, m6⟩ := loss_allocStep_any (hist_inv hr2) a3 hi (by rw [hwl3]; omega) hp
    refine ⟨fs'', m1, m6.opened, ?_⟩
    rcases m3 with m3 | m3 <;> rw [m3] at m6
    · exact hnew _ _ m6 List.nil_prefix rfl rfl
    · exact hnew _ _ m6 List.nil_prefix rfl rfl
  obtain ⟨os4, e4⟩ := writerCall_dev (hist_inv hr3) (b := []) rfl rfl (.extend rng2 bytes)
  obtain ⟨x, w', fs4, hx⟩ : ∃ x w' fs4, fs3.extendWriter crc w rng2 bytes = (x, w', fs4) := ⟨_, _, _, rfl⟩
  have hx2 : fs4 = (fs3.extendWriter crc w rng2 bytes).2.2 := by rw [hx]
  rw [← hx2] at e4
  have p5 : ∀ {o : List FlashOp}, issued fs3 fs4 o → CrashImage fs3.dev.flash o fl' → ∃ fs'', FS.mount fl' = (.ok (), fs'') ∧ fs''.at'.opened = [] ∧
        ∃ k, k.typ = typ ∧ k.writer = none ∧ k.damaged = false ∧ k.data ++ k.maybe <+: bytes ∧ Found crc fs'' ((withoutType typ fs.at'.opened ks).map Known.afterLoss ++ [k]) := by
    intro o hi hp
    have hl : LossDuringWrite crc fs3 _ fl' _ := .mk (withoutType typ fs.at'.opened ks) [] ⟨e.id, typ, [], [], [], some w, true, false⟩ w fs4 bytes o fl' rfl rfl (.inl rfl) (by rw [hx2]; exact .extend rng2 bytes) hi hp
    obtain ⟨fs'', m1, m4⟩ := loss_found (hist_inv hr3) hl
    exact ⟨fs'', m1, m4.opened, hnew _ _ m4 (by simp [Known.afterLoss]) rfl rfl⟩
  rw [hx] at hi
  cases x with
  | error er =>
    simp only at hi
    refine key fs4 ⟨os3 ++ os4, by rw [e4, o2, Dev.ops_ops]⟩ hi fun h1 h2 => ?_
    rcases crash_cons o2 ⟨os4, e4⟩ h1 h2 with ⟨q1, q2⟩ | ⟨_, _, q1, q2⟩
    · exact p4 q1 q2
    · exact p5 q1 q2
  | ok u =>
    simp only at hi
    have hr4 := hr3.step (.extend rng2 bytes w w' fs4 _ [] _ rfl rfl rfl hx)
    obtain ⟨os5, e5⟩ := writerCall_dev (hist_inv hr4) (b := []) rfl rfl .close
    refine key (fs4.closeWriter crc w') ⟨os3 ++ (os4 ++ os5), by rw [e5, e4, o2, Dev.ops_ops, Dev.ops_ops]⟩ hi fun h1 h2 => ?_
    rcases crash_cons o2 ⟨os4 ++ os5, by rw [e5, e4, Dev.ops_ops]⟩ h1 h2 with ⟨q1, q2⟩ | ⟨_, _, q1, q2⟩
    · exact p4 q1 q2
    rcases crash_cons e4 ⟨os5, e5⟩ q1 q2 with ⟨q1, q2⟩ | ⟨_, _, q1, q2⟩
    · exact p5 q1 q2
    have hl : LossDuringWrite crc fs4 _ fl' _ := .mk (withoutType typ fs.at'.opened ks) [] ⟨e.id, typ, [] ++ bytes, [], [], some w', true, false⟩ w' _ [] _ fl' rfl rfl (.inr rfl) .close q1 q2
    obtain ⟨fs'', m1, m4⟩ := loss_found (hist_inv hr4) hl
    exact ⟨fs'', m1, m4.opened, hnew _ _ m4 (by simp [Known.afterLoss]) rfl rfl⟩

/-- the operations of `write` begin with those that remove the old configuration and those that create the new file -/
theorem configWrite_dev2 {crc : Bytes → UInt32} {fs : FS} {ks : List Known} (hr : Hist crc fs ks) {typ : Nat}
    (hsafe : ∀ k ∈ ks, k.typ = typ → k.safe) (hcap : ks.length < 2517) (ht : typ < 0x4000) (hseq : fs.at'.seq + 3 < 2 ^ 64) (hid : fs.at'.maxId + 2 < 2 ^ 64)
    (bytes : Bytes) (rng1 : Nat → Nat) (rng2 : Nat → Nat × Nat) :
    ∃ n fs1 e fs2 os1 os2 os3, fs.removeFiles (ofTyp typ) = (.ok n, fs1) ∧ DirStep fs ks fs1 (withoutType typ fs.at'.opened ks) ∧ fs1.dev = fs.dev.ops os1 ∧
      DirStep fs1 (withoutType typ fs.at'.opened ks) fs2 (withoutType typ fs.at'.opened ks ++ [⟨e, typ, [], [], [], none, false, false⟩]) ∧ fs2.dev = fs.dev.ops (os1 ++ os2) ∧
      (Config.write crc fs typ bytes rng1 rng2).2.dev = fs.dev.ops (os1 ++ os2 ++ os3) := by
  obtain ⟨n, fs1, e, fs2, g1, d1, g2, d2, hok2, hop, heid, hmng⟩ := configWrite_open hr hsafe (by omega) ht hseq hid
  have hr1 := hr.step (.dir d1)
  have hr2 := hr1.step (.dir d2)
  obtain ⟨os1, e1, _⟩ := (dirStep_inv (hist_inv hr) d1).2.1
  obtain ⟨os2, e2, _⟩ := (dirStep_inv (hist_inv hr1) d2).2.1
  suffices h : ∃ os3, (Config.write crc fs typ bytes rng1 rng2).2.dev = fs2.dev.ops os3 by
    obtain ⟨os3, h⟩ := h
    exact ⟨n, fs1, e.id, fs2, os1, os2, os3, g1, d1, e1, d2, by rw [e2, e1, Dev.ops_ops], by rw [h, e2, e1, Dev.ops_ops, Dev.ops_ops, List.append_assoc]⟩
  have hfirst : ∃ files leak as f bs, Sys crc fs2 files leak ∧ files = as ++ f :: bs ∧ f.k = ⟨e.id, typ, [], [], [], none, false, false⟩ ∧ f.e.first = none := by
    obtain ⟨files1, leak1, hf1, hs1⟩ := hist_inv hr1
    have hlen : (files1.map (·.k)).length < 2518 := by
      rw [hf1]; exact Nat.lt_of_le_of_lt (List.length_filter_le ..) (by omega)
    have hok1 : countersOk fs1 := (dirStep_inv (hist_inv hr1) d2).2.2
    have hlen' : (files1.map (·.e)).length < 2518 := by rw [List.length_map] at hlen ⊢; exact hlen
    obtain ⟨_, _, s1⟩ := create_sys hs1 g2 (by rw [List.length_map] at hlen; exact hlen) ht hok1
    obtain ⟨fs2', h1, _, _⟩ := createFile_spec hs1.reach.dir typ hlen'
    rw [g2] at h1
    injection h1 with h1 _
    injection h1 with h1
    exact ⟨_, _, files1, _, [], s1, rfl, rfl, by rw [h1]⟩
  obtain ⟨files, leak, as, f, bs, hs, rfl, hk, hfe⟩ := hfirst
  have hwf : f.k.writer = none := by rw [hk]
  have hfid : f.k.id = e.id := by rw [hk]
  unfold Config.write
  simp only [g1, g2]
  rcases openFresh_dev hs hwf (by rw [hk]) hfe hok2 rng1 with ⟨w, fs3, os3, o1, o2⟩ | ⟨er, fs3, o1, o2⟩
  case inr =>
    rw [hfid] at o1
    rw [o1]
    exact ⟨[], by rw [Dev.ops_nil]; exact o2⟩
  rw [hfid] at o1
  rw [o1]
  simp only
  have hr3 := hr2.step (.openWrite e.id rng1 w fs3 _ [] _ rfl rfl rfl rfl o1 hok2)
  obtain ⟨os4, e4⟩ := writerCall_dev (hist_inv hr3) (b := []) rfl rfl (.extend rng2 bytes)
  obtain ⟨x, w', fs4, hx⟩ : ∃ x w' fs4, fs3.extendWriter crc w rng2 bytes = (x, w', fs4) := ⟨_, _, _, rfl⟩
  have hx2 : fs4 = (fs3.extendWriter crc w rng2 bytes).2.2 := by rw [hx]
  rw [← hx2] at e4
  rw [hx]
  cases x with
  | error er => exact ⟨os3 ++ os4, by show fs4.dev = _; rw [e4, o2, Dev.ops_ops]⟩
  | ok u =>
    have hr4 := hr3.step (.extend rng2 bytes w w' fs4 _ [] _ rfl rfl rfl hx)
    obtain ⟨os5, e5⟩ := writerCall_dev (hist_inv hr4) (b := []) rfl rfl .close
    exact ⟨os3 ++ (os4 ++ os5), by show (fs4.closeWriter crc w').dev = _; rw [e5, e4, o2, Dev.ops_ops, Dev.ops_ops]⟩

/-- the operations of `write` begin with those that remove the old configuration -/
theorem configWrite_dev {crc : Bytes → UInt32} {fs : FS} {ks : List Known} (hr : Hist crc fs ks) {typ : Nat}
    (hsafe : ∀ k ∈ ks, k.typ = typ → k.safe) (hcap : ks.length < 2517) (ht : typ < 0x4000) (hseq : fs.at'.seq + 3 < 2 ^ 64) (hid : fs.at'.maxId + 2 < 2 ^ 64)
    (bytes : Bytes) (rng1 : Nat → Nat) (rng2 : Nat → Nat × Nat) :
    ∃ n fs1 os1 os2, fs.removeFiles (ofTyp typ) = (.ok n, fs1) ∧ DirStep fs ks fs1 (withoutType typ fs.at'.opened ks) ∧ fs1.dev = fs.dev.ops os1 ∧
      (Config.write crc fs typ bytes rng1 rng2).2.dev = fs.dev.ops (os1 ++ os2) := by
  obtain ⟨n, fs1, _, _, os1, os2, os3, h1, h2, h3, _, _, h4⟩ := configWrite_dev2 hr hsafe hcap ht hseq hid bytes rng1 rng2
  exact ⟨n, fs1, os1, os2 ++ os3, h1, h2, h3, by rw [h4, List.append_assoc]⟩

/-- number of data bytes of the pages of a sector -/
theorem pages_sum (n m : Nat) : ((List.range m).map fun p => min (n - 252 * p) 252).sum = min n (252 * m) := by
  induction m with
  | zero => simp
  | succ m ih => rw [List.range_succ, List.map_append, List.sum_append, ih]; simp; omega

theorem byteItems_append (a b : List Item) : byteItems (a ++ b) = byteItems a ++ byteItems b := by unfold byteItems; rw [List.filterMap_append]

theorem byteItems_bytes (d : Bytes) : byteItems (d.map .byte) = d := by
  unfold byteItems
  induction d with
  | nil => rfl
  | cons b d ih => rw [List.map_cons, List.filterMap_cons, ih]

/-- a bad page makes the stream of readable bytes shorter -/
theorem pageItems_count (crc : Bytes → UInt32) (fl : Flash) (s n p : Nat) :
    (byteItems (pageItems crc fl s n p)).length ≤ min (n - 252 * p) 252 ∧
    ((∃ a, Item.bad a ∈ pageItems crc fl s n p) → 252 * p < n → (byteItems (pageItems crc fl s n p)).length < min (n - 252 * p) 252) := by
  unfold pageItems
  simp only
  split
  · rw [byteItems_bytes]
    refine ⟨by simp [Flash.read], ?_⟩
    rintro ⟨a, ha⟩
    simp at ha
  · refine ⟨by simp [byteItems], fun _ h => ?_⟩
    simp [byteItems]; omega

theorem flatMap_count {α : Type} (f : α → List Item) (c : α → Nat) : ∀ l : List α,
    (∀ x ∈ l, (byteItems (f x)).length ≤ c x ∧ ((∃ a, Item.bad a ∈ f x) → (byteItems (f x)).length < c x)) →
    (byteItems (l.flatMap f)).length ≤ (l.map c).sum ∧ ((∃ a, Item.bad a ∈ l.flatMap f) → (byteItems (l.flatMap f)).length < (l.map c).sum) := by
  intro l
  induction l with
  | nil => intro _; simp [byteItems]
  | cons x l ih =>
    intro h
    obtain ⟨h1, h2⟩ := h x (by simp)
    obtain ⟨i1, i2⟩ := ih (fun y hy => h y (List.mem_cons_of_mem _ hy))
    rw [List.flatMap_cons, byteItems_append, List.length_append, List.map_cons, List.sum_cons]
    refine ⟨by omega, ?_⟩
    rintro ⟨a, ha⟩
    rcases List.mem_append.mp ha with ha | ha
    · have := h2 ⟨a, ha⟩; omega
    · have := i2 ⟨a, ha⟩; omega

theorem sectorItems_count (crc : Bytes → UInt32) (fl : Flash) (s : Nat) :
    (byteItems (sectorItems crc fl s)).length ≤ sectorLength fl s ∧
    ((∃ a, Item.bad a ∈ sectorItems crc fl s) → (byteItems (sectorItems crc fl s)).length < sectorLength fl s) := by
  unfold sectorItems
  have h := flatMap_count (pageItems crc fl s (sectorLength fl s)) (fun p => min (sectorLength fl s - 252 * p) 252) (List.range ((sectorLength fl s + 251) / 252)) (by
    intro p hp
    rw [List.mem_range] at hp
    obtain ⟨h1, h2⟩ := pageItems_count crc fl s (sectorLength fl s) p
    exact ⟨h1, fun h => h2 h (by omega)⟩)
  rw [pages_sum] at h
  have : min (sectorLength fl s) (252 * ((sectorLength fl s + 251) / 252)) = sectorLength fl s := by omega
  rw [this] at h
  exact h

theorem fileItems_count (crc : Bytes → UInt32) (fl : Flash) (l : List Nat) :
    (byteItems (fileItems crc fl l)).length ≤ (l.map (sectorLength fl)).sum ∧
    ((∃ a, Item.bad a ∈ fileItems crc fl l) → (byteItems (fileItems crc fl l)).length < (l.map (sectorLength fl)).sum) :=
  flatMap_count _ _ _ fun s _ => sectorItems_count crc fl s

end Verif.Vlfs
