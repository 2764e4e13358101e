import Verif.Lemmas.SystemRotate
import Verif.Lemmas.SystemAlloc
import Verif.Props.FileRead
/-
The invariant holds in every history.
-/
namespace Verif.Vlfs
open Verif Verif.Spec

/-- what a closed file reads as -/
theorem closed_reads {crc : Bytes → UInt32} {fs : FS} {files : List FileSt} {leak : List Nat} (hs : Sys crc fs files leak) {f : FileSt}
    (hm : f ∈ files) (hw : f.k.writer = none) (hdm : f.k.damaged = false) (id : Nat) (ns : List Nat) :
    reads crc fs.dev.flash (FileReader.new f.e.first id) ns = (consumes ((bytesOf f.segs).map .byte) ns).map .ok := by
  have hst := ((hs.ok f hm).closed hw hdm).1
  obtain ⟨d1, d2⟩ := hs.own_data hm
  have hown : f.own = secs f.segs := by unfold FileSt.own; rw [hw]
  rw [hown] at d1 d2
  rw [← hst.items]
  exact Props.reads_deliver_stream crc _ _ _ hst.chain (data_length d1 d2) id ns

theorem consumes_whole (c : Bytes) (n : Nat) (h : c.length < n) : consumes (c.map .byte) [n] = [(c, .endOfFile)] := by
  have := consume_bytes c [] n (by omega)
  rw [List.append_nil] at this
  obtain ⟨m, hm⟩ : ∃ m, n - c.length = m + 1 := ⟨n - c.length - 1, by omega⟩
  rw [hm] at this
  simp only [consumes, this, consume, List.append_nil]

theorem consumes_short (c : Bytes) (n : Nat) (h : n ≤ c.length) : consumes (c.map .byte) [n] = [(c.take n, .ok)] := by
  have := consume_bytes_part c [] n h
  rw [List.append_nil] at this
  simp only [consumes, this]

theorem learn_sys {crc : Bytes → UInt32} {fs : FS} {as bs : List FileSt} {f : FileSt} {leak : List Nat} (hs : Sys crc fs (as ++ f :: bs) leak)
    (hw : f.k.writer = none) (hdm : f.k.damaged = false) {r : FileReader} {fs' : FS} (ho : fs.openForRead f.k.id = (.ok r, fs')) {n : Nat} {c : Bytes}
    (hr : reads crc fs.dev.flash r [n] = [.ok (c, .endOfFile)]) :
    Sys crc fs (as ++ ⟨{ f.k with data := c, durable := c, maybe := [] }, f.e, f.segs, f.cur⟩ :: bs) leak := by
  have hmem : f ∈ as ++ f :: bs := by simp
  have hfo := hs.ok f hmem
  rcases openRead_spec hs hmem with ⟨_, g⟩ | ⟨_, g⟩ | ⟨_, _, g⟩
  · rw [g] at ho; injection ho with ho _; exact absurd ho (by simp)
  · rw [g] at ho; injection ho with ho _; exact absurd ho (by simp)
  · rw [g] at ho
    injection ho with ho _
    injection ho with ho
    rw [← ho, closed_reads hs hmem hw hdm] at hr
    have hc : bytesOf f.segs = c := by
      by_cases hn : (bytesOf f.segs).length < n
      · rw [consumes_whole _ _ hn] at hr
        injection hr with hr _
        injection hr with hr
        injection hr
      · rw [consumes_short _ _ (by omega)] at hr
        injection hr with hr _
        injection hr with hr
        injection hr with _ hr
        exact absurd hr (by simp)
    have hinv := hs.inv.perm (own_perm leak as bs f)
    refine hs.update rfl rfl rfl rfl rfl (LowEq.refl _) (fun _ _ _ _ => rfl) ?_ ?_ hs.blank ?_ (fun _ _ hx => hx)
    · refine FileOk.mk' hfo.id hfo.typ ?_ (fun _ => hdm) ?_
      · intro _
        exact ⟨(hfo.closed hw hdm).1, [], List.nil_prefix, by rw [List.append_nil]; exact hc⟩
      · intro w hw'
        have hw' : f.k.writer = some w := hw'
        rw [hw] at hw'; exact absurd hw' (by simp)
    · unfold FileSt.own at hinv ⊢
      rw [hw] at hinv
      simp only [hw]
      exact hinv
    · intro hx
      have hx : f.k.writer.isSome = true := hx
      rw [hw] at hx; exact absurd hx (by simp)

theorem step_learn {crc : Bytes → UInt32} {fs : FS} {ks : List Known} (h : SysInv crc fs ks) {a b : List Known} {k : Known}
    (hk : ks = a ++ k :: b) (hw : k.writer = none) (hdm : k.damaged = false) {r : FileReader} {fs' : FS} (ho : fs.openForRead k.id = (.ok r, fs')) {n : Nat} {c : Bytes}
    (hr : reads crc fs.dev.flash r [n] = [.ok (c, .endOfFile)]) :
    SysInv crc fs (a ++ { k with data := c, durable := c, maybe := [] } :: b) := by
  obtain ⟨files, leak, hf, hs⟩ := h
  rw [hk] at hf
  obtain ⟨as, f, bs, rfl, ha, rfl, hb⟩ := split_files hf
  exact ⟨_, leak, map_split (f := ⟨{ f.k with data := c, durable := c, maybe := [] }, f.e, f.segs, f.cur⟩) ha hb, learn_sys hs hw hdm ho hr⟩

theorem step_format {crc : Bytes → UInt32} (fl : Flash) (h : ∀ q, q < 4 → headerDeserialize (fl.read (q * 32768) 13) = none) :
    SysInv crc (FS.mount fl).2 [] := by
  obtain ⟨h1, h2⟩ := format_inv fl h
  rw [h1]
  refine ⟨[], [], rfl, ⟨⟨h2, mngRange_new, by intro e he; simp at he, by intro x hx; simp at hx⟩, by simp, SectorsMng.Inv_new, ?_, by simp⟩⟩
  intro x hx
  have hx : x ∈ SectorsMng.new.ahead ++ SectorsMng.new.asyncAhead := hx
  exact absurd hx (by simp [SectorsMng.new])

/-- directory steps -/
theorem dirStep_inv {crc : Bytes → UInt32} {fs fs' : FS} {ks ks' : List Known} (h : SysInv crc fs ks) (hst : DirStep fs ks fs' ks') :
    SysInv crc fs' ks' ∧ HighAs fs.dev fs'.dev ∧ countersOk fs := by
  cases hst with
  | create typ e fs' hc hcap ht hok =>
    refine ⟨step_create h hc hcap ht hok, ?_, hok⟩
    obtain ⟨files, leak, hf, hs⟩ := h
    have hlen : (files.map (·.e)).length < 2518 := by rw [List.length_map, ← List.length_map (f := (·.k)), hf]; exact hcap
    have := (createFile_high hs.reach.dir typ hlen).1
    rw [hc] at this
    exact this
  | remove filter n fs' hc hsafe hok =>
    obtain ⟨n', fs2, g1, g2, g3⟩ := step_remove h filter hsafe hok
    rw [hc] at g1
    injection g1 with _ g1
    subst g1
    exact ⟨g3, g2, hok⟩

theorem dirStep_call {crc : Bytes → UInt32} {fs fs' : FS} {files : List FileSt} {leak : List Nat} {ks' : List Known} (h : Sys crc fs files leak)
    (hst : DirStep fs (files.map (·.k)) fs' ks') : ∃ es' new, Call fs (files.map (·.e)) fs' es' new := by
  cases hst with
  | create typ e fs' hc hcap ht hok =>
    exact ⟨_, _, .create typ e fs' hc (by rw [List.length_map] at hcap ⊢; exact hcap) ht⟩
  | remove filter n fs' hc hsafe hok =>
    exact ⟨_, _, .remove _ n.1 n.2 fs' hc⟩

theorem dirStep_ids {fs fs' : FS} {ks ks' : List Known} (hst : DirStep fs ks fs' ks') (h : ks.map (·.id) = ks'.map (·.id)) : ks = ks' := by
  have hl : ks.length = ks'.length := by
    have := congrArg List.length h
    rwa [List.length_map, List.length_map] at this
  cases hst with
  | create typ e fs' hc hcap ht hok =>
    rw [List.length_append, List.length_singleton] at hl
    omega
  | remove filter n fs' hc hsafe hok =>
    exact ((List.filter_sublist).eq_of_length hl.symm).symm

/-- power loss during a directory step -/
theorem step_lossDir {crc : Bytes → UInt32} {fs fs' : FS} {ks ks' : List Known} (h : SysInv crc fs ks) (hst : DirStep fs ks fs' ks')
    {ops : List FlashOp} (hi : issued fs fs' ops) (hl : ks'.length ≤ 2517) (hfit : 13 * (ks'.length + 1) % 256 ≤ 243) {fl' : Flash}
    (hp : PageCrash fs.dev.flash ops fl') :
    ∃ fs'' ks2, FS.mount fl' = (.ok (), fs'') ∧ (ks2 = ks ∨ ks2 = ks') ∧ SysInv crc fs'' (ks2.map Known.afterLoss) ∧
      ∃ es, lists fs'' es ∧ es.map (·.id) = ks2.map (·.id) := by
  obtain ⟨⟨files', leak', hf', hs'⟩, hhigh, hok⟩ := dirStep_inv h hst
  obtain ⟨files, leak, hf, hs⟩ := h
  subst hf
  obtain ⟨es', new, hcall⟩ := dirStep_call hs hst
  obtain ⟨m, h1, h2, h3, h4, h5, h6⟩ := call_rewrite hs.reach hcall hok
  have hes : es' = files'.map (·.e) := by
    have := hs.reach.dir.of_rewrite h1 h2 hok.1
    exact dirInv_lists hs'.reach.dir (lists_of_dirInv this)
  have hlen : es'.length = ks'.length := by rw [hes, ← hf', List.length_map, List.length_map]
  have hint := interrupted_of_pageCrash h2.cap (h1.ops hi) hp
  obtain ⟨os, hd, ht⟩ := hhigh
  have hops : ops = os := by
    have hi : fs'.dev.log = fs.dev.log ++ ops := hi
    rw [hd] at hi
    exact (List.append_cancel_left (show fs.dev.log ++ os = fs.dev.log ++ ops from hi)).symm
  subst hops
  have hsame : ∀ a, 131072 ≤ a → fl' a = fs.dev.flash a := by
    intro a ha
    refine crash_untouched hp.crashImage fun o ho hx => ?_
    have := ht o ho a hx
    omega
  have hsame' : ∀ a, 131072 ≤ a → fl' a = fs'.dev.flash a := by
    intro a ha
    rw [hsame a ha, hd]
    refine (applyOps_untouched fun o ho hx => ?_).symm
    have := ht o ho a hx
    omega
  have fin : ∀ (fs0 : FS) (fl0 : List FileSt) (lk : List Nat) (g : FS), Sys crc fs0 fl0 lk → DirInv g (fl0.map (·.e)) → g.dev.flash = fl' →
      (∀ a, 131072 ≤ a → fl' a = fs0.dev.flash a) →
      ∃ fs'', FS.mount fl' = (.ok (), fs'') ∧ SysInv crc fs'' ((fl0.map (·.k)).map Known.afterLoss) ∧
      ∃ es, lists fs'' es ∧ es.map (·.id) = (fl0.map (·.k)).map (·.id) := by
    intro fs0 fl0 lk g hs0 hd0 hg0 hsm
    obtain ⟨fs'', g1, g2, g3, g4⟩ := restart_same (g := g) hs0 (fun f hm => hm) hs0.nodup hd0 hs0.reach.small
      (fun f hm s hsm' => by rw [hg0]; exact high_same hsm ((hs0.own_data hm).2 s hsm'))
    rw [hg0] at g1
    refine ⟨fs'', g1, ⟨_, [], map_lost_k fl0, g4⟩, _, lists_of_dirInv g4.reach.dir, ?_⟩
    rw [map_lost_e, List.map_map, List.map_map]
    exact List.map_congr_left fun f hm => (hs0.ok f hm).id
  rcases hint.dirInv hs.reach.dir h2 h3 (by rw [hlen]; exact hl) (by show 13 * (es'.length + 1) % 256 ≤ 243; rw [hlen]; exact hfit) hok.1 [] SectorsMng.new [] with hg | hg
  · obtain ⟨fs'', g1, g2, g3⟩ := fin fs files leak _ hs hg rfl hsame
    exact ⟨fs'', _, g1, .inl rfl, g2, g3⟩
  · rw [hes] at hg
    obtain ⟨fs'', g1, g2, g3⟩ := fin fs' files' leak' _ hs' hg rfl hsame'
    rw [hf'] at g2 g3
    exact ⟨fs'', _, g1, .inr rfl, g2, g3⟩

theorem SysInv.lists_ids {crc : Bytes → UInt32} {fs : FS} {ks : List Known} (h : SysInv crc fs ks) {es : List FileEntry} (hl : lists fs es) :
    es.map (·.id) = ks.map (·.id) := by
  obtain ⟨files, leak, rfl, hs⟩ := h
  rw [dirInv_lists hs.reach.dir hl, List.map_map, List.map_map]
  exact List.map_congr_left fun f hm => (hs.ok f hm).id

theorem hist_inv {crc : Bytes → UInt32} {fs : FS} {ks : List Known} (h : Hist crc fs ks) : SysInv crc fs ks := by
  induction h with
  | format fl h => exact step_format fl h
  | @step fs fs' ks ks' hr hs ih =>
    cases hs with
    | dir h => exact (dirStep_inv ih h).1
    | createOpen typ r1 r2 e fs' h hcap ht hok => exact step_createOpen ih h hcap ht hok
    | rotate typ n r1 r2 e fs' h hw hcap ht hok =>
      rcases step_rotate ih typ n r1 r2 hcap ht hok with ⟨e2, fs2, g1, g2⟩ | ⟨⟨fs2, g1⟩, _⟩
      · rw [h] at g1
        injection g1 with g1 g3
        injection g1 with g1
        subst g1 g3
        exact g2
      · rw [h] at g1; injection g1 with g1 _; exact absurd g1 (by simp)
    | openWrite id rng w fs' a b k hk hid hw hdm h hok =>
      subst hid
      rcases step_openWrite ih hk hw hdm hok rng with ⟨_, g⟩ | ⟨_, g⟩ | ⟨_, fs2, g, _, g2⟩ | ⟨_, _, w', fs2, g, _, g2⟩
      · rw [g] at h; injection h with h _; exact absurd h (by simp)
      · rw [g] at h; injection h with h _; exact absurd h (by simp)
      · rw [g] at h; injection h with h _; exact absurd h (by simp)
      · rw [g] at h
        injection h with h h'
        injection h with h
        subst h h'
        exact g2
    | openWriteErr id rng er fs' hs hd h hok => exact step_openWriteErr ih hs hd h hok
    | extend rng slice w w' fs' a b k hk hw hm h =>
      rcases step_extend ih hk hw hm rng slice with ⟨_, g⟩ | ⟨g, _⟩
      · rw [h] at g; exact g
      · rw [h] at g; exact absurd g (by simp)
    | extendErr rng slice er w w' fs' a b k hk hw hm h =>
      rcases step_extend ih hk hw hm rng slice with ⟨g, _⟩ | ⟨_, _, g⟩
      · rw [h] at g; exact absurd g (by simp)
      · rw [h] at g; exact g
    | flush r1 r2 w w' fs' a b k hk hw h =>
      rcases step_flush ih hk hw r1 r2 with ⟨_, g⟩ | ⟨g, _⟩
      · rw [h] at g; exact g
      · rw [h] at g; exact absurd g (by simp)
    | flushErr r1 r2 er w w' fs' a b k hk hw h =>
      rcases step_flush ih hk hw r1 r2 with ⟨g, _⟩ | ⟨_, _, g⟩
      · rw [h] at g; exact absurd g (by simp)
      · rw [h] at g; exact g
    | close w a b k hk hw => exact step_close ih hk hw
    | openRead id => exact step_openRead ih id
    | closeRead r hs => exact step_closeRead ih r hs
    | learn c a b k hk hw hdm r fs' ho n hn hr => exact step_learn ih hk hw hdm ho hr
  | restart hr hm ih =>
    obtain ⟨fs2, g1, _, _, g2⟩ := step_restart ih
    rw [hm] at g1
    injection g1 with _ g1
    subst g1; exact g2
  | loss hr hl hm ih =>
    obtain ⟨fs2, g1, _, _, g2⟩ := step_loss ih hl
    rw [hm] at g1
    injection g1 with _ g1
    subst g1; exact g2
  | @lossDir fs fs' fs'' ks ks' ks'' es ops fl' hr hs hi hl hfit hp hm hlist hx hids ih =>
    obtain ⟨fs2, ks2, g1, g2, g3, es2, g4, g5⟩ := step_lossDir ih hs hi hl hfit hp
    rw [hm] at g1
    injection g1 with _ g1
    subst g1
    have he : es2 = es := by
      have h4 : FS.filesIter _ (fun _ => true) = .ok es2 := g4
      have h5 : FS.filesIter _ (fun _ => true) = .ok _ := hlist
      rw [h4] at h5
      injection h5
    rw [← he, g5] at hids
    have : ks2 = ks'' := by
      rcases g2 with rfl | rfl <;> rcases hx with rfl | rfl
      · rfl
      · exact dirStep_ids hs hids.symm
      · exact (dirStep_ids hs hids).symm
      · rfl
    rw [← this]; exact g3
  | @lossAlloc fs fs' fs'' ks ks' ks'' es ops fl' hr hs hi hl hfit hp hm hlist hx hids ih =>
    obtain ⟨fs2, ks2, es2, g1, _, g2, g3, g4, g5, g6⟩ := step_lossAlloc ih hs hi hl hfit hp
    rw [hm] at g1
    injection g1 with _ g1
    subst g1
    have he : es2 = es := by
      have h4 : FS.filesIter _ (fun _ => true) = .ok es2 := g4
      have h5 : FS.filesIter _ (fun _ => true) = .ok _ := hlist
      rw [h4] at h5
      injection h5
    rw [← he] at hids
    exact g6 ks'' hx hids
  | @lossRotate fs fs' fs'' ks ks'' es ops fl' hr typ n r1 r2 e h hw hcap ht hok hi hl hfit hp hm hlist hx hids ih =>
    obtain ⟨fs2, ks2, es2, g1, _, g2, g3, g4, g5, g6⟩ := step_lossRotate ih h hw hcap ht hok hi hl hfit hp
    rw [hm] at g1
    injection g1 with _ g1
    subst g1
    have he : es2 = es := by
      have h4 : FS.filesIter _ (fun _ => true) = .ok es2 := g4
      have h5 : FS.filesIter _ (fun _ => true) = .ok _ := hlist
      rw [h4] at h5
      injection h5
    rw [← he] at hids
    rw [g6 ks'' hx hids]
    exact g3

end Verif.Vlfs
