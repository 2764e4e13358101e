import Verif.Model.Iter
import Verif.Lemmas.SystemHist
import Verif.Lemmas.SystemUse
import Verif.Lemmas.SystemRotate
/-
Power loss while the directory is rewritten, when page programs may be cut anywhere.
-/
namespace Verif.Vlfs
open Verif Verif.Spec

/-- the state of `fs` as far as reading is concerned -/
structure Readable (crc : Bytes → UInt32) (fs : FS) (files : List FileSt) : Prop where
  sorted : (files.map (·.e)).Pairwise (fun a b => a.id < b.id)
  first : ∀ filter : FileEntry → Bool, fs.findFirstFile filter = .ok ((files.map (·.e)).find? filter)
  id : ∀ f ∈ files, f.e.id = f.k.id
  typ : ∀ f ∈ files, f.e.typ = f.k.typ
  opens : ∀ f ∈ files, f.k.id ∉ fs.at'.opened → fs.at'.opened.length < 32 → fs.openForRead f.k.id = (.ok (FileReader.new f.e.first f.k.id),
      { fs with at' := { fs.at' with opened := fs.at'.opened ++ [f.k.id] } })
  stream : ∀ f ∈ files, f.k.writer = none → f.k.damaged = false → ∃ pre, pre <+: f.k.maybe ∧
    RInv crc fs.dev.flash (FileReader.new f.e.first f.k.id) ((f.k.data ++ pre).map .byte) (40 * (secs f.segs).length) ∧ (secs f.segs).length ≤ 16384

theorem findFirst_spec {fs : FS} {seq m : Nat} {es : List FileEntry} (h : SlotHolds fs.dev.flash fs.at'.position seq es m) (hc : fs.at'.fileCount = es.length) (filter : FileEntry → Bool) :
    fs.findFirstFile filter = .ok (es.find? filter) := by
  unfold FS.findFirstFile
  have : ∀ n i, i + n = es.length → findFirst fs.dev.flash fs.at' filter n i = .ok ((es.drop i).find? filter) := by
    intro n
    induction n with
    | zero => intro i hi; rw [findFirst, List.drop_eq_nil_of_le (by omega)]; rfl
    | succ n ih =>
      intro i hi
      have hlt : i < es.length := by omega
      rw [findFirst, readFileEntry_eq, h.entry i hlt]
      simp only
      rw [List.drop_eq_getElem_cons hlt, List.find?_cons]
      cases filter es[i] with
      | true => rfl
      | false => simp only [Bool.false_eq_true, if_false]; exact ih (i + 1) (by omega)
  rw [hc, this es.length 0 (by omega), List.drop_zero]

theorem closed_stream {crc : Bytes → UInt32} {fl : Flash} {f : FileSt} (hf : FileOk crc fl f) (hw : f.k.writer = none) (hdm : f.k.damaged = false) :
    ∃ pre, pre <+: f.k.maybe ∧ RInv crc fl (FileReader.new f.e.first f.k.id) ((f.k.data ++ pre).map .byte) (40 * (secs f.segs).length) := by
  obtain ⟨hst, pre, hpre, hdata⟩ := hf.closed hw hdm
  refine ⟨pre, hpre, ?_⟩
  rw [← hdata, ← hst.items]
  exact RInv_new hst.chain _

theorem Sys.readable {crc : Bytes → UInt32} {fs : FS} {files : List FileSt} {leak : List Nat} (hs : Sys crc fs files leak) : Readable crc fs files where
  sorted := hs.reach.dir.sorted
  first := findFirst_spec hs.reach.dir.holds hs.reach.dir.count
  id := fun f hm => (hs.ok f hm).id
  typ := fun f hm => (hs.ok f hm).typ
  opens := fun f hm hno hlen => by
    rcases openRead_spec hs hm with ⟨q, _⟩ | ⟨q, _⟩ | ⟨_, _, q⟩
    · exact absurd q hno
    · omega
    · exact q
  stream := fun f hm hw hdm => by
    obtain ⟨d1, d2⟩ := hs.own_data hm
    have hown : f.own = secs f.segs := by unfold FileSt.own; rw [hw]
    rw [hown] at d1 d2
    obtain ⟨pre, h1, h2⟩ := closed_stream (hs.ok f hm) hw hdm
    exact ⟨pre, h1, h2, data_length d1 d2⟩

/-- reading works, and finds the files of `ks` -/
def CanRead (crc : Bytes → UInt32) (fs : FS) (ks : List Known) : Prop := ∃ files : List FileSt, files.map (·.k) = ks ∧ Readable crc fs files

theorem SysInv.canRead {crc : Bytes → UInt32} {fs : FS} {ks : List Known} (h : SysInv crc fs ks) : CanRead crc fs ks := by
  obtain ⟨files, leak, hf, hs⟩ := h
  exact ⟨files, hf, hs.readable⟩

/-- what can be relied on after a restart: nothing is open, the directory lists the (closed) files of `ks`, and every undamaged one reads as what is
known about it -/
structure Found (crc : Bytes → UInt32) (fs : FS) (ks : List Known) : Prop where
  opened : fs.at'.opened = []
  files : ∃ es : List FileEntry, (∀ filter : FileEntry → Bool, fs.filesIter filter = .ok (es.filter filter)) ∧ es.map (fun e => (e.id, e.typ)) = ks.map (fun k => (k.id, k.typ))
  content : ∀ k ∈ ks, k.damaged = false → ∃ pre, pre <+: k.maybe ∧ ReadsAs crc fs k.id (k.data ++ pre)
  disk : CanRead crc fs ks

/-- the restart found the directory of `ks`, some of whose files were being written -/
def Back (crc : Bytes → UInt32) (fs : FS) (ks : List Known) : Prop := Found crc fs (ks.map Known.afterLoss)

theorem pairs_afterLoss (ks : List Known) : (ks.map Known.afterLoss).map (fun k => (k.id, k.typ)) = ks.map (fun k => (k.id, k.typ)) := by
  rw [List.map_map]
  exact List.map_congr_left fun k _ => by show (k.afterLoss.id, k.afterLoss.typ) = _; rw [(afterLoss_id k).1, (afterLoss_id k).2]

theorem pairs_ids {es : List FileEntry} {ks : List Known} (h : es.map (fun e => (e.id, e.typ)) = ks.map (fun k => (k.id, k.typ))) : es.map (·.id) = ks.map (·.id) := by
  have := congrArg (List.map Prod.fst) h
  rwa [List.map_map, List.map_map] at this

theorem Back.ids {crc : Bytes → UInt32} {fs : FS} {ks : List Known} (h : Back crc fs ks) : ∃ es, lists fs es ∧ es.map (·.id) = ks.map (·.id) := by
  obtain ⟨es, h1, h2⟩ := h.files
  rw [pairs_afterLoss] at h2
  refine ⟨es, ?_, pairs_ids h2⟩
  show fs.filesIter _ = _
  rw [h1, List.filter_eq_self.mpr (by simp)]

theorem Back.kind {crc : Bytes → UInt32} {fs : FS} {ks : List Known} (h : Back crc fs ks) (typ : Nat) :
    ∃ files : List FileEntry, fs.filesIter (fun e => e.typ == typ) = .ok files ∧ files.map (·.id) = (ks.filter fun k => k.typ == typ).map (·.id) := by
  obtain ⟨es, h1, h2⟩ := h.files
  rw [pairs_afterLoss] at h2
  refine ⟨_, h1 _, ?_⟩
  have := congrArg (fun l : List (Nat × Nat) => (l.filter fun x => x.2 == typ).map Prod.fst) h2
  simpa [List.filter_map, List.map_map, Function.comp_def] using this

theorem Back.afterLoss {crc : Bytes → UInt32} {fs : FS} {ks : List Known} (h : Back crc fs ks) {k : Known} (hk : k ∈ ks) (hdm : k.damaged = false) :
    (k.writer = none → ∃ pre, pre <+: k.maybe ∧ ReadsAs crc fs k.id (k.data ++ pre)) ∧
      (k.writer.isSome = true → k.durable <+: k.data ++ k.maybe → ∃ c, k.durable <+: c ∧ c <+: k.data ++ k.maybe ∧ ReadsAs crc fs k.id c) := by
  obtain ⟨pre, h1, h2⟩ := h.content k.afterLoss (List.mem_map.mpr ⟨k, hk, rfl⟩) (by rw [afterLoss_damaged]; exact hdm)
  rw [(afterLoss_id k).1] at h2
  constructor
  · intro hw
    simp only [Known.afterLoss, hw] at h1 h2
    exact ⟨pre, h1, h2⟩
  · intro hw hd
    obtain ⟨w, hw⟩ := Option.isSome_iff_exists.mp hw
    simp only [Known.afterLoss, hw] at h1 h2
    refine ⟨_, List.prefix_append _ _, ?_, h2⟩
    obtain ⟨t, ht⟩ := hd
    rw [← ht, List.drop_left] at h1
    rw [← ht]
    exact (List.prefix_append_right_inj _).mpr h1

theorem Found.reads {crc : Bytes → UInt32} {fs : FS} {ks : List Known} (h : Found crc fs ks) {k : Known} (hk : k.afterLoss ∈ ks) (hdm : k.damaged = false) :
    ∃ pre, pre <+: k.afterLoss.maybe ∧ ReadsAs crc fs k.id (k.afterLoss.data ++ pre) := by
  obtain ⟨pre, h1, h2⟩ := h.content _ hk (by rw [afterLoss_damaged]; exact hdm)
  rw [(afterLoss_id k).1] at h2
  exact ⟨pre, h1, h2⟩

theorem SysInv.back {crc : Bytes → UInt32} {fs : FS} {ks : List Known} (h : SysInv crc fs (ks.map Known.afterLoss)) (ho : fs.at'.opened = []) : Back crc fs ks := by
  refine ⟨ho, ?_, fun k hk hdm => ?_, h.canRead⟩
  · obtain ⟨files, leak, hf, hs⟩ := h
    rw [← hf]
    refine ⟨files.map (·.e), fun filter => hs.reach.dir.filesIter filter, ?_⟩
    rw [List.map_map, List.map_map]
    exact List.map_congr_left fun f hm => by show (f.e.id, f.e.typ) = (f.k.id, f.k.typ); rw [(hs.ok f hm).id, (hs.ok f hm).typ]
  · have hw : k.writer = none := by
      obtain ⟨k0, _, rfl⟩ := List.mem_map.mp hk
      exact afterLoss_writer k0
    obtain ⟨pre, h1, _, h2⟩ := h.closed hk hw hdm
    exact ⟨pre, h1, h2 (by rw [ho]; exact List.not_mem_nil) (by rw [ho]; decide)⟩

theorem loss_found {crc : Bytes → UInt32} {fs : FS} {ks ks' : List Known} {fl' : Flash} (h : SysInv crc fs ks) (hl : LossDuringWrite crc fs ks fl' ks') :
    ∃ fs', FS.mount fl' = (.ok (), fs') ∧ Found crc fs' ks' := by
  obtain ⟨fs', m1, _, m3, m4⟩ := step_loss h hl
  cases hl
  exact ⟨fs', m1, m4.back m3⟩

theorem restart_back {crc : Bytes → UInt32} {fs : FS} {ks : List Known} (h : SysInv crc fs ks) : ∃ fs', FS.mount fs.dev.flash = (.ok (), fs') ∧ Back crc fs' ks := by
  obtain ⟨fs', m1, _, m3, m4⟩ := step_restart h
  exact ⟨fs', m1, m4.back m3⟩

/-- mounting a chip that holds a directory of closed files -/
theorem mount_found {crc : Bytes → UInt32} {files : List FileSt} {fl' : Flash} (hr : Restarts fl' (files.map (·.e))) (hso : (files.map (·.e)).Pairwise (fun a b => a.id < b.id))
    (hok : ∀ f ∈ files, f.k.writer = none ∧ FileOk crc fl' f) (hnd : (files.flatMap FileSt.own).Nodup) (hin : ∀ x ∈ files.flatMap FileSt.own, InData x) :
    ∃ fs', FS.mount fl' = (.ok (), fs') ∧ Found crc fs' (files.map (·.k)) := by
  obtain ⟨p, seq, m, hp, hseq, hcap, hh, hrej⟩ := hr
  have hlen : ∀ f ∈ files, f.own.length ≤ 16384 := fun f hm =>
    data_length ((List.nodup_flatMap.mp hnd).1 f hm) (fun x hx => hin x (List.mem_flatMap.mpr ⟨f, hm, hx⟩))
  have hcl := claimFiles_files (fl := fl') files SectorsMng.new (fun f hm => by
    obtain ⟨h1, h2⟩ := hok f hm
    refine ⟨?_, hlen f hm⟩
    unfold FileSt.own; rw [h1]; exact h2.chain h1)
  rcases mount_restarts hp hseq hcap hh hrej with ⟨e, h1, _⟩ | ⟨mg, h1, h2⟩
  · rw [hcl] at h1; exact absurd h1 (by simp)
  have hfinds : ∀ f ∈ files, ∃ j, FS.findFileEntry ⟨⟨seq, (files.map (·.e)).length, m, p, []⟩, mg, ⟨fl', []⟩⟩ f.k.id = .ok (some (f.e, j)) := by
    intro f hm
    have hid := (hok f hm).2.id
    rcases findFileEntry_spec (fs := ⟨⟨seq, (files.map (·.e)).length, m, p, []⟩, mg, ⟨fl', []⟩⟩) hh hso rfl f.k.id with ⟨j, hj, he, h5⟩ | ⟨hne, _⟩
    · refine ⟨j, ?_⟩
      have hmem : f.e ∈ files.map (·.e) := List.mem_map.mpr ⟨f, hm, rfl⟩
      obtain ⟨i, hi, hie⟩ := List.getElem_of_mem hmem
      have hso := hso
      rw [List.pairwise_iff_getElem] at hso
      have : i = j := by
        rcases Nat.lt_trichotomy i j with hlt | heq | hgt
        · have := hso i j hi hj hlt; rw [hie] at this; omega
        · exact heq
        · have := hso j i hj hi hgt; rw [hie] at this; omega
      subst this
      rw [h5, hie]
    · exact absurd hid (hne _ (List.mem_map.mpr ⟨f, hm, rfl⟩))
  have hopens : ∀ f ∈ files, FS.openForRead ⟨⟨seq, (files.map (·.e)).length, m, p, []⟩, mg, ⟨fl', []⟩⟩ f.k.id =
      (.ok (FileReader.new f.e.first f.k.id), ⟨⟨seq, (files.map (·.e)).length, m, p, [f.k.id]⟩, mg, ⟨fl', []⟩⟩) := by
    intro f hm
    obtain ⟨j, hfind⟩ := hfinds f hm
    unfold FS.openForRead
    rw [hfind]
    simp only
    rw [if_neg (by simp [AT.isOpened])]
    rw [markOpened_ok (by simp)]
    simp
  have hlen2 : ∀ f ∈ files, (secs f.segs).length ≤ 16384 := by
    intro f hm
    have hl := hlen f hm
    have hown : f.own = secs f.segs := by unfold FileSt.own; rw [(hok f hm).1]
    rwa [hown] at hl
  refine ⟨_, h2, rfl, ?_, ?_, files, rfl, ?_⟩
  · refine ⟨files.map (·.e), fun filter => filesIter_spec (fs := ⟨⟨seq, (files.map (·.e)).length, m, p, []⟩, mg, ⟨fl', []⟩⟩) hh rfl filter, ?_⟩
    rw [List.map_map, List.map_map]
    exact List.map_congr_left fun f hm => by show (f.e.id, f.e.typ) = (f.k.id, f.k.typ); rw [(hok f hm).2.id, (hok f hm).2.typ]
  · intro k hk hdm
    obtain ⟨f, hm, rfl⟩ := List.mem_map.mp hk
    obtain ⟨hwn, hfo⟩ := hok f hm
    obtain ⟨hst, pre, h3, h4⟩ := hfo.closed hwn hdm
    refine ⟨pre, h3, _, _, hopens f hm, fun ns => ?_⟩
    rw [← h4, ← hst.items]
    exact Props.reads_deliver_stream crc _ _ _ hst.chain (hlen2 f hm) f.k.id ns
  · exact ⟨hso, findFirst_spec (fs := ⟨⟨seq, (files.map (·.e)).length, m, p, []⟩, mg, ⟨fl', []⟩⟩) hh rfl, fun f hm => (hok f hm).2.id, fun f hm => (hok f hm).2.typ,
      fun f hm _ _ => hopens f hm, fun f hm hw hdm => by
        obtain ⟨pre, h3, h4⟩ := closed_stream (hok f hm).2 hw hdm
        exact ⟨pre, h3, h4, hlen2 f hm⟩⟩

/-- mounting a chip that holds a directory of `files`, all of whose sectors are as they were -/
theorem mount_back {crc : Bytes → UInt32} {fs : FS} {files : List FileSt} {leak : List Nat} (hs : Sys crc fs files leak) {fl' : Flash}
    (hr : Restarts fl' (files.map (·.e))) (hsame : ∀ f ∈ files, ∀ s ∈ f.own, SameSector fs.dev.flash fl' s) :
    ∃ fs', FS.mount fl' = (.ok (), fs') ∧ Back crc fs' (files.map (·.k)) := by
  obtain ⟨fs', h1, h2⟩ := mount_found (crc := crc) (files := files.map FileSt.lost) (fl' := fl') (by rw [map_lost_e]; exact hr) (by rw [map_lost_e]; exact hs.reach.dir.sorted)
    (fun g hg => by
      obtain ⟨f, hm, rfl⟩ := List.mem_map.mp hg
      exact ⟨afterLoss_writer _, lost_ok (hs.ok f hm) (hsame f hm)⟩)
    (by rw [flatMap_lost]; exact hs.nodup)
    (fun x hx => by
      rw [flatMap_lost] at hx
      obtain ⟨f, hm, hx⟩ := List.mem_flatMap.mp hx
      exact (hs.own_data hm).2 x hx)
  rw [map_lost_k] at h2
  exact ⟨fs', h1, h2⟩

/-! ### directory steps -/

/-- power loss during a directory step, anywhere -/
theorem loss_dir_any {crc : Bytes → UInt32} {fs fs' : FS} {ks ks' : List Known} (h : SysInv crc fs ks) (hst : DirStep fs ks fs' ks')
    {ops : List FlashOp} (hi : issued fs fs' ops) (hl : ks'.length ≤ 2517) {fl' : Flash} (hp : CrashImage fs.dev.flash ops fl') :
    ∃ fs'' ks2, FS.mount fl' = (.ok (), fs'') ∧ (ks2 = ks ∨ ks2 = ks') ∧ Back crc fs'' ks2 := by
  obtain ⟨⟨files', leak', hf', hs'⟩, hhigh, hok⟩ := dirStep_inv h hst
  obtain ⟨files, leak, hf, hs⟩ := h
  subst hf
  obtain ⟨es', new, hcall⟩ := dirStep_call hs hst
  obtain ⟨m, h1, h2, h3, h4, h5, h6⟩ := call_rewrite hs.reach hcall hok
  have hes : es' = files'.map (·.e) := by
    have := hs.reach.dir.of_rewrite h1 h2 hok.1
    exact dirInv_lists hs'.reach.dir (lists_of_dirInv this)
  have hlen : es'.length = ks'.length := by rw [hes, ← hf', List.length_map, List.length_map]
  have hint := interrupted_of_crash h2.cap (h1.ops hi) hp
  obtain ⟨os, hd, ht⟩ := hhigh
  have hops : ops = os := by
    have hi : fs'.dev.log = fs.dev.log ++ ops := hi
    rw [hd] at hi
    exact (List.append_cancel_left (show fs.dev.log ++ os = fs.dev.log ++ ops from hi)).symm
  subst hops
  have hsame : ∀ a, 131072 ≤ a → fl' a = fs.dev.flash a := by
    intro a ha
    refine crash_untouched hp fun o ho hx => ?_
    have := ht o ho a hx
    omega
  have hsame' : ∀ a, 131072 ≤ a → fl' a = fs'.dev.flash a := by
    intro a ha
    rw [hsame a ha, hd]
    refine (applyOps_untouched fun o ho hx => ?_).symm
    have := ht o ho a hx
    omega
  rcases hint.restarts hs.reach.dir h2 h3 (by rw [hlen]; exact hl) hok.1 with hg | hg
  · obtain ⟨fs'', g1, g2⟩ := mount_back hs hg (fun f hm s hsm => high_same hsame ((hs.own_data hm).2 s hsm))
    exact ⟨fs'', _, g1, .inl rfl, g2⟩
  · rw [hes] at hg
    obtain ⟨fs'', g1, g2⟩ := mount_back hs' hg (fun f hm s hsm => high_same hsame' ((hs'.own_data hm).2 s hsm))
    rw [hf'] at g2
    exact ⟨fs'', _, g1, .inr rfl, g2⟩

/-! ### allocating steps -/

theorem interrupted_clean_early {fs : FS} {new : List FileEntry} {m : Nat} (hcap : new.length ≤ 2518) (fl' : Flash) (n : Nat)
    (h : LowEq fl' (applyOps fs.dev.flash ((updateOps fs new m).take n))) (T : Nat → Prop) (hT : ∀ k, k + 1 ≤ n → T (256 * min k (13 * (new.length + 2) / 256 + 1))) :
    Interrupted fs fl' new m T := by
  have hlt := nextPos_lt fs
  cases n with
  | zero =>
    rw [List.take_zero, applyOps_nil] at h
    refine ⟨fun q hq _ => (fun j hj => (h.sameSlot hq j hj).symm), Or.inl ⟨fun _ => false, ?_⟩⟩
    intro j hj
    exact (h.sameSlot hlt j hj).symm
  | succ k =>
    have e : (updateOps fs new m).take (k + 1) = .erase (slotAddr (nextPos fs)) 32768 ::
        pages (slotAddr (nextPos fs)) (tableImage (fs.at'.seq + 1) new m) (min k (13 * (new.length + 2) / 256 + 1)) := by
      unfold updateOps
      rw [List.take_succ_cons]
      by_cases hk : k ≤ 13 * (new.length + 2) / 256 + 1
      · rw [pages_take _ _ _ _ hk, Nat.min_eq_left hk]
      · rw [List.take_of_length_le (by rw [pages_length]; omega), Nat.min_eq_right (by omega)]
    rw [e] at h
    refine ⟨fun q hq hne j hj => ?_, Or.inr ⟨256 * min k (13 * (new.length + 2) / 256 + 1), hT _ (Nat.le_refl _), ?_⟩⟩
    · rw [h.sameSlot hq j hj]
      exact written_other _ _ _ _ _ (by omega) hne j hj
    · exact (written_prefix0 _ _ _ _).congr (fun j hj => (h.sameSlot hlt j hj).symm)

/-- a crash image of the first part of an update -/
theorem interrupted_early_any {fs : FS} {new : List FileEntry} {m : Nat} (hcap : new.length ≤ 2518) {os : List FlashOp} {rest : List FlashOp}
    (hos : os.filter FlashOp.isTable ++ rest = updateOps fs new m) {B : Nat} (hn : (os.filter FlashOp.isTable).length ≤ B / 256 + 1) {fl' : Flash} (hc : CrashImage fs.dev.flash os fl') :
    Interrupted fs fl' new m (fun t => t ≤ B) := by
  have hlt := nextPos_lt fs
  cases hc with
  | between pre post h =>
    have hf : updateOps fs new m = pre.filter FlashOp.isTable ++ (post.filter FlashOp.isTable ++ rest) := by
      rw [← hos, h, List.filter_append, List.append_assoc]
    refine interrupted_clean_early hcap _ (pre.filter FlashOp.isTable).length ?_ _ (fun k hk => by
      rw [h, List.filter_append, List.length_append] at hn; omega)
    rw [← prefix_eq_take hf]
    exact applyOps_filter _ _
  | during pre post o fl' h ht =>
    have hf : updateOps fs new m = pre.filter FlashOp.isTable ++ ((o :: post).filter FlashOp.isTable ++ rest) := by
      rw [← hos, h, List.filter_append, List.append_assoc]
    cases ho : o.isTable with
    | false =>
      refine interrupted_clean_early hcap _ (pre.filter FlashOp.isTable).length ?_ _ (fun k hk => by
      rw [h, List.filter_append, List.length_append] at hn; omega)
      rw [← prefix_eq_take hf]
      exact (torn_data_lowEq ht ho).trans (applyOps_filter _ _)
    | true =>
      rw [List.filter_cons_of_pos ho] at hf
      rw [h, List.filter_append, List.length_append, List.filter_cons_of_pos ho, List.length_cons] at hn
      rw [List.cons_append] at hf
      generalize post.filter FlashOp.isTable = qq0 at *
      generalize hqq : qq0 ++ rest = qq at hf
      obtain ⟨g', hg1, hg2⟩ := torn_lowEq (applyOps_filter fs.dev.flash pre) ht
      generalize hpp : pre.filter FlashOp.isTable = pp at *
      cases pp with
      | nil =>
        -- torn erase
        rw [List.nil_append, updateOps, List.cons.injEq] at hf
        obtain ⟨h1, h2⟩ := hf
        subst h1
        cases hg1 with
        | erase _ _ P =>
          refine ⟨fun q hq hne j hj => ?_, Or.inl ⟨P, fun j hj => ?_⟩⟩
          · rw [hg2.sameSlot hq j hj]
            show _ = if _ then _ else _
            rw [if_neg]
            · rfl
            · rw [slotAddr_eq, slotAddr_eq]; omega
          · rw [hg2.sameSlot hlt j hj]
            unfold blankPages
            show _ = if _ then _ else _
            by_cases hP : P ((slotAddr (nextPos fs) + j) / 256) = true
            · rw [if_pos hP, if_pos ⟨by omega, hP⟩]
            · rw [if_neg hP, if_neg (fun h => hP h.2)]; rfl
      | cons p0 pp =>
        rw [List.cons_append, updateOps, List.cons.injEq] at hf
        obtain ⟨h1, h2⟩ := hf
        subst h1
        have hk : pp.length < 13 * (new.length + 2) / 256 + 1 := by
          have := congrArg List.length h2
          rw [pages_length, List.length_append, List.length_cons] at this; omega
        have hpp' : pp = pages (slotAddr (nextPos fs)) (tableImage (fs.at'.seq + 1) new m) pp.length := by
          rw [← pages_take _ _ _ _ (Nat.le_of_lt hk), ← prefix_eq_take h2]
        have ho' : o = .page (slotAddr (nextPos fs) + 256 * pp.length)
            (((tableImage (fs.at'.seq + 1) new m).drop (256 * pp.length)).take 256) := by
          have h3 : (pages (slotAddr (nextPos fs)) (tableImage (fs.at'.seq + 1) new m)
              (13 * (new.length + 2) / 256 + 1))[pp.length]? = some o := by rw [h2]; simp
          unfold pages at h3
          rw [List.getElem?_map, List.getElem?_range hk] at h3
          simpa using h3.symm
        subst ho'
        cases hg1 with
        | page _ _ t =>
          have hself : ∀ (l : Bytes), (l.take 256).take t = (l.take 256).take (min t 256) := by
            intro l; rw [List.take_take, List.take_take]; congr 1; omega
          have hpre := written_prefix fs.dev.flash (nextPos fs) (tableImage (fs.at'.seq + 1) new m) pp.length (min t 256)
            (by omega)
          rw [← hself, ← hpp', applyOps_append, applyOps_cons, applyOps_nil] at hpre
          refine ⟨fun q hq hne j hj => ?_, Or.inr ⟨_, (by rw [List.length_cons] at hn; omega), hpre.congr (fun j hj => (hg2.sameSlot hlt j hj).symm)⟩⟩
          rw [hg2.sameSlot hq j hj]
          simp only [FlashOp.apply]
          rw [if_neg (by rw [slotAddr_eq, slotAddr_eq]; omega)]
          rw [hpp']
          exact written_other _ _ _ _ _ (by omega) hne j hj

/-- power loss before the footer is written: the old directory is found -/
theorem early_restarts {fs : FS} {es new : List FileEntry} {m : Nat} {fl' : Flash} (hd : DirInv fs es)
    (hi : Interrupted fs fl' new m (fun t => t ≤ 13 * (new.length + 1))) (hw : Writable new m) (htyp : ∀ e ∈ new, e.typ < 0x4000) (hl : new.length ≤ 2517)
    (hseq : fs.at'.seq + 1 < 2 ^ 64) : Restarts fl' es := by
  have hpos := hd.pos
  have hne := nextPos_ne hpos
  have hold : SlotHolds fl' fs.at'.position fs.at'.seq es fs.at'.maxId :=
    hd.holds.congr (hi.others _ hpos (fun h => hne h.symm)) hd.cap
  have hrej : ∀ q, q < 4 → q ≠ fs.at'.position → q ≠ nextPos fs → Rejected fl' q fs.at'.seq :=
    fun q h1 h2 h3 => ((hd.stale q h1 h2).congr (hi.others q h1 h3)).rejected
  refine ⟨_, _, _, hpos, hd.seq1, hd.cap, hold, fun q h1 h2 => ?_⟩
  by_cases hq : q = nextPos fs
  case neg => exact hrej q h1 h2 hq
  subst hq
  rcases hi.target with ⟨P, hP⟩ | ⟨t, ht, hp⟩
  · exact ((hd.stale _ h1 hne).blank P |>.congr hP).rejected
  · rcases hp.cases hseq hw.maxLt hw.wf hw.typ hw.cap (Or.inr ⟨htyp, hl⟩) with ⟨i, hi1, hj, hn, _⟩ | ⟨m', hh, h3, _⟩
    · exact Or.inr (Or.inr ⟨i, hi1, hj, hn⟩)
    · omega

/-- Power loss during a call that first touches sectors of no file, then only the directory, where the footer is written in the second part. -/
theorem loss_alloc_any {crc : Bytes → UInt32} {fs fs' : FS} {files files' : List FileSt} {leak leak' : List Nat} (hs : Sys crc fs files leak) (hs' : Sys crc fs' files' leak')
    {os1 os2 : List FlashOp} {m : Nat} (hd : fs'.dev = fs.dev.ops (os1 ++ os2)) (hup : (os1 ++ os2).filter FlashOp.isTable = updateOps fs (files'.map (·.e)) m)
    (hw : Writable (files'.map (·.e)) m) (hsm : SmallTypes (files'.map (·.e))) (hseq : fs.at'.seq + 1 < 2 ^ 64) (hl : files'.length ≤ 2517)
    (hfree : ∀ o ∈ os1, ∀ a, o.touches a → 131072 ≤ a → ∀ f ∈ files, a / 4096 ∉ f.own) (hhigh : ∀ o ∈ os2, ∀ a, o.touches a → a < 131072)
    (hbody : (os1.filter FlashOp.isTable).length ≤ 13 * (files'.length + 1) / 256 + 1) {fl' : Flash} (hp : CrashImage fs.dev.flash (os1 ++ os2) fl') :
    ∃ fs'', FS.mount fl' = (.ok (), fs'') ∧ (Back crc fs'' (files.map (·.k)) ∨ Back crc fs'' (files'.map (·.k))) := by
  have hlen : (files'.map (·.e)).length = files'.length := List.length_map ..
  have hold : ∀ f ∈ files, ∀ s ∈ f.own, SameSector fs.dev.flash fl' s := by
    intro f hf s hsm j hj
    have hdat := (hs.own_data hf).2 s hsm
    have h32 : 32 ≤ s := hdat.1
    refine (crash_untouched hp fun o ho hx => ?_).symm
    rcases List.mem_append.mp ho with ho | ho
    · have := hfree o ho _ hx (by omega) f hf
      rw [show (s * 4096 + j) / 4096 = s by omega] at this
      exact this hsm
    · have := hhigh o ho _ hx
      omega
  have finOld : Restarts fl' (files.map (·.e)) →
      ∃ fs'', FS.mount fl' = (.ok (), fs'') ∧ (Back crc fs'' (files.map (·.k)) ∨ Back crc fs'' (files'.map (·.k))) := by
    intro hr
    obtain ⟨fs'', g1, g2⟩ := mount_back hs hr hold
    exact ⟨fs'', g1, .inl g2⟩
  rcases crash_append hp with hp1 | hp2
  · refine finOld (early_restarts hs.reach.dir (interrupted_early_any hw.cap (rest := os2.filter FlashOp.isTable) ?_ (by rw [hlen]; exact hbody) hp1) hw hsm (by rw [hlen]; exact hl) hseq)
    rw [← hup, List.filter_append]
  · have hint := interrupted_of_crash hw.cap hup hp
    rcases hint.restarts hs.reach.dir hw hsm (by rw [hlen]; exact hl) hseq with hg | hg
    · exact finOld hg
    · have hnew : ∀ a, 131072 ≤ a → fl' a = fs'.dev.flash a := by
        intro a ha
        rw [crash_untouched hp2 fun o ho hx => absurd (hhigh o ho a hx) (by omega), hd]
        show _ = applyOps fs.dev.flash (os1 ++ os2) a
        rw [applyOps_append]
        exact (applyOps_untouched fun o ho hx => absurd (hhigh o ho a hx) (by omega)).symm
      obtain ⟨fs'', g1, g2⟩ := mount_back hs' hg (fun f hm s hsm' => high_same hnew ((hs'.own_data hm).2 s hsm'))
      exact ⟨fs'', g1, .inr g2⟩

/-- power loss during `create_file_and_open_for_write` -/
theorem loss_createOpen_any {crc : Bytes → UInt32} {fs fs' : FS} {files : List FileSt} {leak : List Nat} (hs : Sys crc fs files leak) {typ r1 r2 : Nat} {e : FileEntry}
    (hc : fs.createFileAndOpen typ r1 r2 = (.ok e, fs')) (hcap : (files.map (·.k)).length < 2518) (ht : typ < 0x4000) (hok : countersOk fs)
    {ops : List FlashOp} (hi : issued fs fs' ops) (hl : files.length + 1 ≤ 2517) {fl' : Flash}
    (hp : CrashImage fs.dev.flash ops fl') :
    ∃ fs'', ∃ files' : List FileSt, FS.mount fl' = (.ok (), fs'') ∧
      (files'.map (·.k) = files.map (·.k) ∨ files'.map (·.k) = files.map (·.k) ++ [⟨e.id, typ, [], [], [], e.first.map (FileWriter.new · e.id), false, false⟩]) ∧
      Back crc fs'' (files'.map (·.k)) := by
  have hlen : (files.map (·.e)).length < 2518 := by rw [List.length_map, ← List.length_map (f := (·.k))]; exact hcap
  obtain ⟨files', leak', hk', hs', _⟩ := sys_createOpen hs hc hcap ht hok
  have hcall : Call fs (files.map (·.e)) fs' _ _ := .createOpen typ r1 r2 e fs' hc hlen ht
  obtain ⟨m, c1, c2, c3, _⟩ := call_rewrite hs.reach hcall hok
  have hes := dirInv_lists hs'.reach.dir (lists_of_dirInv (hs.reach.dir.of_rewrite c1 c2 hok.1))
  rw [hes] at c1 c2 c3
  obtain ⟨osA, a1, a2, s, a3, osB, a4, a5⟩ := createFileAndOpen_trace hs.reach.dir typ r1 r2 hlen hc
  have hA : HighAs fs.dev (fs.dev.ops osA) := ⟨osA, rfl, a1⟩
  rcases claim_spec hs.inv r1 r2 (fs.dev.ops osA) (blank_high (inv_range hs.inv) hs.blank hA.high) with ⟨x, _, _, _, _, _, _, _, osC, b1, b2⟩ | ⟨b1, _⟩
  case inr => rw [b1] at a3; exact absurd a3 (by simp)
  have hdev : fs'.dev = fs.dev.ops ((osA ++ osC) ++ osB) := by
    rw [a4, b1, Dev.ops_ops, Dev.ops_ops, List.append_assoc]
  have hops : ops = (osA ++ osC) ++ osB := by
    have hi : fs'.dev.log = fs.dev.log ++ ops := hi
    rw [hdev] at hi
    exact (List.append_cancel_left (show fs.dev.log ++ ((osA ++ osC) ++ osB) = fs.dev.log ++ ops from hi)).symm
  have hup := c1.ops hi
  rw [hops] at hup
  have hfl : files'.length = files.length + 1 := by
    have := congrArg List.length hk'
    rw [List.length_map, List.length_append, List.length_map] at this
    exact this
  have hCt : ∀ o ∈ osC, ∀ a, o.touches a → InData (a / 4096) ∧ a / 4096 ∉ leak ++ files.flatMap FileSt.own := by
    intro o ho a ha
    obtain ⟨r, hr, rfl⟩ := b2 o ho
    exact erase_touch hs.inv hr ha
  have hCn : osC.filter FlashOp.isTable = [] := by
    rw [List.filter_eq_nil_iff]
    intro o ho
    obtain ⟨r, hr, rfl⟩ := b2 o ho
    exact erase_notTable r
  obtain ⟨fs'', g1, g3⟩ := loss_alloc_any hs hs' (os1 := osA ++ osC) (os2 := osB) hdev hup c2 c3 hok.1 (by omega)
    (by
      intro o ho a ha hge f hf hm
      rcases List.mem_append.mp ho with ho | ho
      · have := a1 o ho a ha; omega
      · exact (hCt o ho a ha).2 (List.mem_append_right _ (List.mem_flatMap.mpr ⟨f, hf, hm⟩)))
    a5 (by rw [List.filter_append, hCn, List.append_nil, hfl]; rw [List.length_map] at a2; exact a2) (by rw [← hops]; exact hp)
  rcases g3 with g3 | g3
  · exact ⟨fs'', files, g1, .inl rfl, g3⟩
  · exact ⟨fs'', files', g1, .inr hk', g3⟩

/-- power loss during `open_file_for_write` of a file without sectors -/
theorem loss_openFresh_any {crc : Bytes → UInt32} {fs fs' : FS} {as bs : List FileSt} {f : FileSt} {leak : List Nat}
    (hs : Sys crc fs (as ++ f :: bs) leak) (hw : f.k.writer = none) (hdm : f.k.damaged = false) (hfirst : f.e.first = none) (hok : countersOk fs) {rng : Nat → Nat} {w : FileWriter}
    (hc : fs.openForWrite f.k.id rng = (.ok w, fs')) {ops : List FlashOp} (hi : issued fs fs' ops) (hl : (as ++ f :: bs).length ≤ 2517)
    {fl' : Flash} (hp : CrashImage fs.dev.flash ops fl') :
    ∃ fs'', ∃ files' : List FileSt, FS.mount fl' = (.ok (), fs'') ∧
      (files'.map (·.k) = (as ++ f :: bs).map (·.k) ∨
        files'.map (·.k) = as.map (·.k) ++ { f.k with durable := f.k.data, writer := some w, guarded := true } :: bs.map (·.k)) ∧
      Back crc fs'' (files'.map (·.k)) := by
  have hmem : f ∈ as ++ f :: bs := by simp
  obtain ⟨j, hj⟩ := hs.find hmem
  have hid := (hs.ok f hmem).id
  unfold FS.openForWrite at hc
  rw [hj] at hc
  simp only at hc
  rw [hid] at hc
  by_cases hop : fs.at'.isOpened f.k.id = true
  · rw [if_pos hop] at hc; injection hc with hc _; exact absurd hc (by simp)
  rw [if_neg hop] at hc
  by_cases hlen : fs.at'.opened.length < 32
  case neg => rw [markOpened_err hlen] at hc; injection hc with hc _; exact absurd hc (by simp)
  rw [markOpened_ok hlen] at hc
  simp only at hc
  have hs1 : Sys crc { fs with at' := { fs.at' with opened := fs.at'.opened ++ [f.k.id] } } (as ++ f :: bs) leak :=
    hs.opened rfl rfl rfl rfl rfl rfl (fun g _ _ _ hg => List.mem_append_left _ hg)
  have ho1 : f.k.id ∈ fs.at'.opened ++ [f.k.id] := by simp
  rcases claim_spec hs.inv (rng 0) (rng 1) fs.dev hs.blank with ⟨_, _, _, _, _, _, _, _, osC, b1, b2⟩ | ⟨b1, _⟩
  case inr => rw [b1] at hc; injection hc with hc _; exact absurd hc (by simp)
  rcases hs1.claim (rng 0) (rng 1) with ⟨new, c1, c2, c3, c4, _, _⟩ | ⟨c1, cf⟩
  case inr =>
    have c1 : fs.mng.claim (rng 0) (rng 1) fs.dev = (.error .deviceFull, fs.mng, fs.dev) := c1
    rw [c1] at hc; injection hc with hc _; exact absurd hc (by simp)
  have c1 : (fs.mng.claim (rng 0) (rng 1) fs.dev).1 = .ok new := c1
  have c2 : Sys crc ⟨{ fs.at' with opened := fs.at'.opened ++ [f.k.id] }, (fs.mng.claim (rng 0) (rng 1) fs.dev).2.1,
    (fs.mng.claim (rng 0) (rng 1) fs.dev).2.2⟩ (as ++ f :: bs) (new :: leak) := c2
  have c4 : ∀ j, j < 4096 → (fs.mng.claim (rng 0) (rng 1) fs.dev).2.2.flash (new * 4096 + j) = 0xFF := c4
  generalize fs.mng.claim (rng 0) (rng 1) fs.dev = r at c1 c2 c4 b1 hc
  obtain ⟨r0, m, d⟩ := r
  simp only at c1 c2 c4 b1
  subst c1
  simp only [hfirst] at hc
  obtain ⟨fs2, g1, g3, _, g2⟩ := open_fresh c2 hw hdm hfirst c3 c4 ho1 hok
  rw [g1] at hc
  injection hc with hcw hcf
  injection hcw with hcw
  have hcf : fs2 = fs' := hcf
  subst hcf
  have hnew : new < 0xFFFF := by have := c3.2; unfold SECTORS_COUNT at this; omega
  have hcall : Call _ ((as ++ f :: bs).map (·.e)) fs2 _ _ := .setFirst f.k.id (some new) fs2 g1 (fun s hs => by injection hs with hs; omega)
  obtain ⟨m', k1, k2, k3, _⟩ := call_rewrite c2.reach hcall hok
  have hes := dirInv_lists g2.reach.dir (lists_of_dirInv (c2.reach.dir.of_rewrite k1 k2 hok.1))
  rw [hes] at k1 k2 k3
  have hh := setFirstSector_high c2.reach.dir f.k.id (some new)
  rw [g1] at hh
  obtain ⟨osB, a4, a5⟩ := hh
  have a4 : fs2.dev = d.ops osB := a4
  have hdev : fs2.dev = fs.dev.ops (osC ++ osB) := by rw [a4, b1, Dev.ops_ops]
  have hops : ops = osC ++ osB := by
    have hi : fs2.dev.log = fs.dev.log ++ ops := hi
    rw [hdev] at hi
    exact (List.append_cancel_left (show fs.dev.log ++ (osC ++ osB) = fs.dev.log ++ ops from hi)).symm
  have hCn : osC.filter FlashOp.isTable = [] := by
    rw [List.filter_eq_nil_iff]
    intro o ho
    obtain ⟨r, hr, rfl⟩ := b2 o ho
    exact erase_notTable r
  have hup := k1.ops (ops := osB) (by show fs2.dev.log = d.log ++ osB; rw [a4]; rfl)
  have hlen2 : ∀ x : FileSt, (as ++ x :: bs).length = (as ++ f :: bs).length := by
    intro x; rw [List.length_append, List.length_append, List.length_cons, List.length_cons]
  obtain ⟨fs'', l1, l3⟩ := loss_alloc_any hs g2 (os1 := osC) (os2 := osB) hdev (by rw [List.filter_append, hCn, List.nil_append]; exact hup) k2 k3 hok.1
    (by rw [hlen2]; exact hl)
    (by
      intro o ho a ha _ g hg hm
      obtain ⟨r, hr, rfl⟩ := b2 o ho
      exact (erase_touch hs.inv hr ha).2 (List.mem_append_right _ (List.mem_flatMap.mpr ⟨g, hg, hm⟩)))
    a5 (by rw [hCn]; simp) (by rw [← hops]; exact hp)
  rcases l3 with l3 | l3
  · exact ⟨fs'', _, l1, .inl rfl, l3⟩
  · refine ⟨fs'', _, l1, .inr ?_, l3⟩
    rw [List.map_append, List.map_cons, ← hcw]

/-- Power loss during an allocating call, anywhere: the mount succeeds, and the files are those before or after the call. -/
theorem loss_allocStep_any {crc : Bytes → UInt32} {fs fs' : FS} {ks ks' : List Known} (h : SysInv crc fs ks) (hst : AllocStep fs ks fs' ks')
    {ops : List FlashOp} (hi : issued fs fs' ops) (hl : ks'.length ≤ 2517) {fl' : Flash} (hp : CrashImage fs.dev.flash ops fl') :
    ∃ fs'' ks2, FS.mount fl' = (.ok (), fs'') ∧ (ks2 = ks ∨ ks2 = ks') ∧ Back crc fs'' ks2 := by
  obtain ⟨files, leak, hf, hs⟩ := h
  cases hst with
  | createOpen typ r1 r2 e fs' hc hcap ht hok =>
    subst hf
    have e1 : (files.map (·.k) ++ [(⟨e.id, typ, [], [], [], e.first.map (FileWriter.new · e.id), false, false⟩ : Known)]).length = files.length + 1 := by
      rw [List.length_append, List.length_map, List.length_singleton]
    rw [e1] at hl
    obtain ⟨fs'', files', g1, g3, g4⟩ := loss_createOpen_any hs hc hcap ht hok hi hl hp
    exact ⟨fs'', _, g1, g3, g4⟩
  | openWrite id rng w fs' a b k es e hlist he heid hfirst hk hid hw hdm hc hok =>
    rw [hk] at hf
    obtain ⟨as, f, bs, rfl, ha, rfl, hb⟩ := split_files hf
    subst hid
    have hes := dirInv_lists hs.reach.dir hlist
    have hef : f.e.first = none := by
      rw [hes] at he
      obtain ⟨g, hg, rfl⟩ := List.mem_map.mp he
      have hgid := (hs.ok g hg).id
      have : g = f := by
        simp only [List.mem_append, List.mem_cons] at hg
        rcases hg with hg | hg | hg
        · exact absurd (hgid.symm.trans heid) (hs.idNe (List.mem_append_left _ hg))
        · exact hg
        · exact absurd (hgid.symm.trans heid) (hs.idNe (List.mem_append_right _ hg))
      rw [← this]; exact hfirst
    have e1 : (a ++ { f.k with durable := f.k.data, writer := some w, guarded := true } :: b).length = (as ++ f :: bs).length := by
      rw [← ha, ← hb]
      simp only [List.length_append, List.length_cons, List.length_map]
    rw [e1] at hl
    obtain ⟨fs'', files', g1, g3, g4⟩ := loss_openFresh_any hs hw hdm hef hok hc hi hl hp
    rw [map_split ha hb] at g3
    rw [ha, hb] at g3
    exact ⟨fs'', _, g1, by rw [hk]; exact g3, g4⟩

/-! ### rotation -/

/-- if the operations only erase whole pages or leave the page alone, then after power loss a page is blank or as it was before -/
theorem pageOk_crash_any {fl fl' : Flash} {os : List FlashOp} (hc : CrashImage fl os fl') {p : Nat} (ho : ∀ o ∈ os, Wipes p o) : PageOk fl fl' p := by
  cases hc with
  | between pre post e => exact pageOk_crash (.between pre post e) ho
  | during pre post o fl' e ht =>
    cases o with
    | erase A len => exact pageOk_crash (.erasing pre post A len fl' e ht) ho
    | page A data =>
      have hpre : PageOk fl (applyOps fl pre) p := pageOk_applyOps (.inr fun _ _ => rfl) fun o h => ho o (by rw [e]; exact List.mem_append_left _ h)
      have hE := ho (.page A data) (by rw [e]; simp)
      rcases hE with hE | ⟨A', len', hx, _⟩
      case inr => exact absurd hx (by simp)
      have hsame : ∀ a, a / 256 = p → fl' a = applyOps fl pre a := fun a ha => torn_untouched ht fun hx => hE a hx ha
      rcases hpre with h | h
      · exact .inl fun a ha => (hsame a ha).trans (h a ha)
      · exact .inr fun a ha => (hsame a ha).trans (h a ha)

/-- power loss while the oldest files are dropped and a new one is begun -/
theorem loss_rotate_any {crc : Bytes → UInt32} {fs fs' : FS} {files : List FileSt} {leak : List Nat} (hs : Sys crc fs files leak) {typ n r1 r2 : Nat} {e : FileEntry}
    (hc : fs.rotate typ n r1 r2 = (.ok e, fs')) (hw : ∀ f ∈ files, oldestKnown typ n (files.map (·.k)) f.k = true → f.k.writer = none)
    (hcap : (files.map (·.k)).length < 2518) (ht : typ < 0x4000) (hok : countersOk fs)
    {ops : List FlashOp} (hi : issued fs fs' ops) (hl : (keptFiles typ n files).length + 1 ≤ 2517) {fl' : Flash}
    (hp : CrashImage fs.dev.flash ops fl') :
    ∃ fs'', ∃ files' : List FileSt, FS.mount fl' = (.ok (), fs'') ∧
      (files'.map (·.k) = (spoilOldest typ n (files.map (·.k))).map Known.afterLoss ∨
       files'.map (·.k) = ((files.map (·.k)).filter (fun k => !oldestKnown typ n (files.map (·.k)) k) ++
        [⟨e.id, typ, [], [], [], e.first.map (FileWriter.new · e.id), false, false⟩] : List Known).map Known.afterLoss) ∧
      Found crc fs'' (files'.map (·.k)) := by
  have hsort := hs.reach.dir.sorted
  have hokf : ∀ f ∈ files, f.e.id = f.k.id ∧ f.e.typ = f.k.typ := fun f hm => ⟨(hs.ok f hm).id, (hs.ok f hm).typ⟩
  have hold := oldest_map hokf typ n
  have hlen : (files.map (·.e)).length < 2518 := by rw [List.length_map, ← List.length_map (f := (·.k))]; exact hcap
  obtain ⟨p1, p2, p3, p4⟩ := rotate_prep hs typ n
  have hdl := dropFirst_length typ (files.map (·.e)) n
  -- the state after the call
  rcases sys_rotate hs typ n r1 r2 hcap ht hok with ⟨e', fs1, q1, files', leak', hk', hs', _⟩ | ⟨⟨fs1, q1⟩, _⟩
  case inr => rw [hc] at q1; injection q1 with q1 _; exact absurd q1 (by simp)
  rw [hc] at q1
  injection q1 with q1 q2
  injection q1 with q1
  subst q1 q2
  have hcall : Call fs (files.map (·.e)) fs' _ _ := .rotate typ n r1 r2 e fs' hc (by rw [← dropFirst_eq typ _ n hsort]; omega) ht
  obtain ⟨m, c1, c2, c3, _⟩ := call_rewrite hs.reach hcall hok
  have hes := dirInv_lists hs'.reach.dir (lists_of_dirInv (hs.reach.dir.of_rewrite c1 c2 hok.1))
  have hfl : files'.length = (keptFiles typ n files).length + 1 := by
    have := congrArg List.length hes
    rw [List.length_map, ← dropFirst_eq typ _ n hsort, ← p4, List.length_append, List.length_map, List.length_singleton] at this
    exact this.symm
  rw [hes] at c1 c2 c3
  -- the operations
  obtain ⟨osA, a1, a2, s, a3, osB, a4, a5⟩ := rotate_trace hs.reach.dir typ n r1 r2 (chOf files) p1 hlen hc rfl
  have hA : HighAs fs.dev (fs.dev.ops osA) := ⟨osA, rfl, a1⟩
  rcases claim_spec p2 r1 r2 (fs.dev.ops osA) (p3 _ hA) with ⟨x, _, _, _, _, _, _, _, osC, b1, b2⟩ | ⟨b1, _⟩
  case inr => rw [b1] at a3; exact absurd a3 (by simp)
  have hdev : fs'.dev = fs.dev.ops ((osA ++ osC) ++ osB) := by
    rw [a4, b1, Dev.ops_ops, Dev.ops_ops, List.append_assoc]
  have hops : ops = (osA ++ osC) ++ osB := by
    have hi : fs'.dev.log = fs.dev.log ++ ops := hi
    rw [hdev] at hi
    exact (List.append_cancel_left (show fs.dev.log ++ ((osA ++ osC) ++ osB) = fs.dev.log ++ ops from hi)).symm
  have hup := c1.ops hi
  rw [hops] at hup hp
  have hCt : ∀ o ∈ osC, ∀ a, o.touches a → InData (a / 4096) ∧ a / 4096 ∉ leak ++ (keptFiles typ n files).flatMap FileSt.own := by
    intro o ho a ha
    obtain ⟨r, hr, rfl⟩ := b2 o ho
    exact erase_touch p2 hr ha
  have hCn : osC.filter FlashOp.isTable = [] := by
    rw [List.filter_eq_nil_iff]
    intro o ho
    obtain ⟨r, hr, rfl⟩ := b2 o ho
    exact erase_notTable r
  have hwipe : ∀ o ∈ (osA ++ osC) ++ osB, ∀ p, 512 ≤ p → Wipes p o := by
    intro o ho p hp512
    have low : (∀ a, o.touches a → a < 131072) → Wipes p o := fun h => .inl fun a ha he => by have := h a ha; omega
    rcases List.mem_append.mp ho with ho | ho
    · rcases List.mem_append.mp ho with ho | ho
      · exact low (a1 o ho)
      · obtain ⟨r, hr, rfl⟩ := b2 o ho
        have h1 : r.address = (r.first + 32) * 4096 := rfl
        refine .inr ⟨_, _, rfl, by omega, ?_⟩
        show r.len * 4096 % 256 = 0
        omega
    · exact low (a5 o ho)
  -- the old directory is found
  have finOld : Restarts fl' (files.map (·.e)) →
      ∃ fs'', ∃ files' : List FileSt, FS.mount fl' = (.ok (), fs'') ∧
      (files'.map (·.k) = (spoilOldest typ n (files.map (·.k))).map Known.afterLoss ∨
       files'.map (·.k) = ((files.map (·.k)).filter (fun k => !oldestKnown typ n (files.map (·.k)) k) ++
        [⟨e.id, typ, [], [], [], e.first.map (FileWriter.new · e.id), false, false⟩] : List Known).map Known.afterLoss) ∧
      Found crc fs'' (files'.map (·.k)) := by
    intro hdir
    have hex : ∀ f : FileSt, ∃ f2 : FileSt, f ∈ files → f2.e = f.e ∧ f2.k = (if oldestKnown typ n (files.map (·.k)) f.k then f.k.spoiled else f.k).afterLoss ∧
        f2.k.writer = none ∧ FileOk crc fl' f2 ∧ f2.own <+: f.own := by
      intro f
      by_cases hm : f ∈ files
      case neg => exact ⟨f, fun h => absurd h hm⟩
      have hfo := hs.ok f hm
      cases ho : oldestKnown typ n (files.map (·.k)) f.k with
      | false =>
        refine ⟨f.lost, fun _ => ⟨rfl, ?_, afterLoss_writer _, ?_, by rw [lost_own]; exact List.prefix_rfl⟩⟩
        · rw [if_neg (by simp)]; rfl
        refine lost_ok hfo fun s' hs' j hj => (crash_untouched hp fun o ho' hx => ?_).symm
        have hdat := (hs.own_data hm).2 s' hs'
        have h32 : 32 ≤ s' := hdat.1
        have hkm : f ∈ keptFiles typ n files := List.mem_filter.mpr ⟨hm, by rw [← hold f hm, ho]; rfl⟩
        rcases List.mem_append.mp ho' with ho' | ho'
        · rcases List.mem_append.mp ho' with ho' | ho'
          · have := a1 o ho' _ hx; omega
          · have := (hCt o ho' _ hx).2
            rw [show (s' * 4096 + j) / 4096 = s' by omega] at this
            exact this (List.mem_append_right _ (List.mem_flatMap.mpr ⟨f, hkm, hs'⟩))
        · have := a5 o ho' _ hx; omega
      | true =>
        have hwn := hw f hm ho
        have hown : f.own = secs f.segs := by unfold FileSt.own; rw [hwn]
        obtain ⟨k, hk⟩ := chain_cut (fl' := fl') (hfo.chain hwn) (fun s' hs' => pageOk_crash_any hp fun o ho' => hwipe o ho' _ (by
          have h32 : 32 ≤ s' := ((hs.own_data hm).2 s' (by rw [hown]; exact hs')).1
          omega))
        have hsec : secs (f.segs.take k) = (secs f.segs).take k := by unfold secs; rw [List.map_take]
        have hwk : f.k.spoiled.writer = none := hwn
        refine ⟨⟨f.k.spoiled, f.e, f.segs.take k, []⟩, fun _ => ⟨rfl, ?_, hwk, ⟨hfo.id, hfo.typ, fun _ => ?_, fun _ hd => ?_, fun hx => ?_, fun w hx => ?_⟩, ?_⟩⟩
        · rw [if_pos rfl, spoiled_afterLoss hwn]
        · rw [hsec]; exact hk
        · exact absurd (show true = false from hd) (by simp)
        · have hx : f.k.spoiled.writer.isSome = true := hx
          rw [hwk] at hx; exact absurd hx (by simp)
        · have hx : f.k.spoiled.writer = some w := hx
          rw [hwk] at hx; exact absurd hx (by simp)
        · rw [hown]
          unfold FileSt.own
          rw [hwk, hsec]
          exact List.take_prefix ..
    choose g hg using hex
    have e1 : (files.map g).map (·.e) = files.map (·.e) := by
      rw [List.map_map]
      exact List.map_congr_left fun f hm => (hg f hm).1
    have hsub := flatMap_prefix (g := g) (l := files) fun f hm => (hg f hm).2.2.2.2
    obtain ⟨fs'', g1, g4⟩ := mount_found (crc := crc) (files := files.map g) (fl' := fl') (by rw [e1]; exact hdir) (by rw [e1]; exact hsort)
      (by
        intro f hm
        obtain ⟨f, hm', rfl⟩ := List.mem_map.mp hm
        have hm := hm'
        exact ⟨(hg f hm).2.2.1, (hg f hm).2.2.2.1⟩)
      (hs.nodup.sublist hsub)
      (by
        intro x hx
        obtain ⟨f, hm, hx⟩ := List.mem_flatMap.mp (hsub.subset hx)
        exact (hs.own_data hm).2 x hx)
    refine ⟨fs'', files.map g, g1, .inl ?_, g4⟩
    unfold spoilOldest
    rw [List.map_map, List.map_map, List.map_map]
    exact List.map_congr_left fun f hm => (hg f hm).2.1
  have hlen2 : (files'.map (·.e)).length = files'.length := List.length_map ..
  have hl2 : files'.length ≤ 2517 := by omega
  rcases crash_append hp with hp1 | hp2
  · refine finOld (early_restarts hs.reach.dir (interrupted_early_any c2.cap (rest := osB.filter FlashOp.isTable) ?_ ?_ hp1) c2 c3 (by rw [hlen2]; exact hl2) hok.1)
    · rw [← hup, List.filter_append (osA ++ osC)]
    · rw [List.filter_append, hCn, List.append_nil, hlen2, hfl]
      rw [← p4, List.length_map] at a2
      exact a2
  · have hint := interrupted_of_crash c2.cap hup hp
    rcases hint.restarts hs.reach.dir c2 c3 (by rw [hlen2]; exact hl2) hok.1 with hg | hg
    · exact finOld hg
    · have hnew : ∀ a, 131072 ≤ a → fl' a = fs'.dev.flash a := by
        intro a ha
        rw [crash_untouched hp2 fun o ho hx => absurd (a5 o ho a hx) (by omega), hdev]
        show _ = applyOps fs.dev.flash ((osA ++ osC) ++ osB) a
        rw [applyOps_append _ (osA ++ osC)]
        exact (applyOps_untouched fun o ho hx => absurd (a5 o ho a hx) (by omega)).symm
      obtain ⟨fs'', g1, g2⟩ := mount_back hs' hg (fun f hm s hsm' => high_same hnew ((hs'.own_data hm).2 s hsm'))
      refine ⟨fs'', files'.map FileSt.lost, g1, .inr (by rw [map_lost_k, hk']), ?_⟩
      rw [map_lost_k]; exact g2

/-- Power loss at any moment of a rotation: the mount succeeds and finds the files before (those to be dropped possibly damaged) or after the call. -/
theorem loss_rotateStep_any {crc : Bytes → UInt32} {fs fs' : FS} {ks : List Known} (h : SysInv crc fs ks) {typ n r1 r2 : Nat} {e : FileEntry}
    (hc : fs.rotate typ n r1 r2 = (.ok e, fs')) (hw : ∀ k ∈ ks, oldestKnown typ n ks k = true → k.writer = none) (hcap : ks.length < 2518) (ht : typ < 0x4000)
    (hok : countersOk fs) {ops : List FlashOp} (hi : issued fs fs' ops) (hl : (ks.filter fun k => !oldestKnown typ n ks k).length + 1 ≤ 2517)
    {fl' : Flash} (hp : CrashImage fs.dev.flash ops fl') :
    ∃ fs'' ks2, FS.mount fl' = (.ok (), fs'') ∧
      (ks2 = spoilOldest typ n ks ∨ ks2 = ks.filter (fun k => !oldestKnown typ n ks k) ++ [⟨e.id, typ, [], [], [], e.first.map (FileWriter.new · e.id), false, false⟩]) ∧
      Back crc fs'' ks2 := by
  obtain ⟨files, leak, rfl, hs⟩ := h
  have hokf : ∀ f ∈ files, f.e.id = f.k.id ∧ f.e.typ = f.k.typ := fun f hm => ⟨(hs.ok f hm).id, (hs.ok f hm).typ⟩
  have hkl := kept_length hokf typ n
  obtain ⟨fs'', files', g1, g3, g4⟩ := loss_rotate_any hs hc (fun f hm => hw f.k (List.mem_map.mpr ⟨f, hm, rfl⟩)) hcap ht hok hi (by rw [hkl]; exact hl) hp
  rcases g3 with g3 | g3 <;> rw [g3] at g4
  · exact ⟨fs'', _, g1, .inl rfl, g4⟩
  · exact ⟨fs'', _, g1, .inr rfl, g4⟩

end Verif.Vlfs
