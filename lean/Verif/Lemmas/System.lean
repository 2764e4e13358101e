import Verif.Lemmas.Reopen
import Verif.Lemmas.DirData
import Verif.Spec.FsHistory
/-
The invariant of the whole file system: what every file has on the chip.
-/
namespace Verif.Vlfs
open Verif Verif.Spec

/-- a file: what is known about it, its directory entry, its completed sectors, and for an open writer the bytes in the
current sector -/
structure FileSt where
  k : Known
  e : FileEntry
  segs : List (Nat × Bytes)
  cur : Bytes

/-- the sectors of a file -/
def FileSt.own (f : FileSt) : List Nat :=
  match f.k.writer with
  | none => secs f.segs
  | some w => secs f.segs ++ [w.sector]

structure FileOk (crc : Bytes → UInt32) (fl : Flash) (f : FileSt) : Prop where
  id : f.e.id = f.k.id
  typ : f.e.typ = f.k.typ
  chain : f.k.writer = none → Chain fl f.e.first (secs f.segs)
  closed : f.k.writer = none → f.k.damaged = false → Stored crc fl f.e.first f.segs ∧ ∃ pre, pre <+: f.k.maybe ∧ bytesOf f.segs = f.k.data ++ pre
  whole : f.k.writer.isSome = true → f.k.damaged = false
  open' : ∀ w, f.k.writer = some w → w.id = f.k.id ∧ (∃ first, f.e.first = some first ∧ Segs crc fl first f.segs w.sector) ∧
    WInv crc fl w f.cur ∧ f.k.durable <+: bytesOf f.segs ∧ ∃ pre, pre <+: f.k.maybe ∧ bytesOf f.segs ++ f.cur = f.k.data ++ pre

theorem Chain.congrSame {fl fl' : Flash} {o : Option Nat} {l : List Nat} (h : Chain fl o l) (hs : ∀ s ∈ l, SameSector fl fl' s) : Chain fl' o l := by
  induction h with
  | nil => exact .nil
  | cons s next l hm ht ih =>
    refine .cons s next l ?_ (ih fun x hx => hs x (List.mem_cons_of_mem _ hx))
    have := (hs s (List.mem_cons_self ..)).read 4088 8 (by omega)
    rw [show s * 4096 + 4096 - 8 = s * 4096 + 4088 by omega] at hm ⊢
    rw [← this]; exact hm

/-- an undamaged file -/
theorem FileOk.mk' {crc : Bytes → UInt32} {fl : Flash} {f : FileSt} (h1 : f.e.id = f.k.id) (h2 : f.e.typ = f.k.typ)
    (h3 : f.k.writer = none → Stored crc fl f.e.first f.segs ∧ ∃ pre, pre <+: f.k.maybe ∧ bytesOf f.segs = f.k.data ++ pre)
    (h4 : f.k.writer.isSome = true → f.k.damaged = false)
    (h5 : ∀ w, f.k.writer = some w → w.id = f.k.id ∧ (∃ first, f.e.first = some first ∧ Segs crc fl first f.segs w.sector) ∧
      WInv crc fl w f.cur ∧ f.k.durable <+: bytesOf f.segs ∧ ∃ pre, pre <+: f.k.maybe ∧ bytesOf f.segs ++ f.cur = f.k.data ++ pre) : FileOk crc fl f :=
  ⟨h1, h2, fun h => (h3 h).1.chain, fun h _ => h3 h, h4, h5⟩

theorem FileOk.congr {crc : Bytes → UInt32} {fl fl' : Flash} {f : FileSt} (h : FileOk crc fl f)
    (hs : ∀ s ∈ f.own, SameSector fl fl' s) : FileOk crc fl' f := by
  refine ⟨h.id, h.typ, ?_, ?_, h.whole, ?_⟩
  · intro hw
    exact (h.chain hw).congrSame fun s hm => hs s (by unfold FileSt.own; rw [hw]; exact hm)
  · intro hw hd
    obtain ⟨h1, h2⟩ := h.closed hw hd
    exact ⟨h1.congr fun s hm => hs s (by unfold FileSt.own; rw [hw]; exact hm), h2⟩
  · intro w hw
    obtain ⟨h0, ⟨first, h1, h2⟩, h3, h4⟩ := h.open' w hw
    exact ⟨h0, ⟨first, h1, h2.congr fun s hm => hs s (by unfold FileSt.own; rw [hw]; exact List.mem_append_left _ hm)⟩,
      WBuf.congr h3 (hs _ (by unfold FileSt.own; rw [hw]; simp)), h4⟩

/-- The invariant; `leak` are sectors that were claimed and belong to no file. -/
structure Sys (crc : Bytes → UInt32) (fs : FS) (files : List FileSt) (leak : List Nat) : Prop where
  reach : ReachInv fs (files.map (·.e)) []
  ok : ∀ f ∈ files, FileOk crc fs.dev.flash f
  inv : fs.mng.Inv (leak ++ files.flatMap FileSt.own)
  blank : AheadBlank fs.mng fs.dev.flash
  guard : ∀ f ∈ files, f.k.writer.isSome = true → f.k.guarded = true → f.k.id ∈ fs.at'.opened

def SysInv (crc : Bytes → UInt32) (fs : FS) (ks : List Known) : Prop :=
  ∃ files leak, files.map (·.k) = ks ∧ Sys crc fs files leak

/-- files that are held open for reading keep their entry and their sectors, as long as they are listed -/
def Kept (fs fs' : FS) (files files' : List FileSt) : Prop :=
  ∀ f ∈ files, f.k.writer = none → f.k.id ∈ fs.at'.opened → (∃ g ∈ files', g.k.id = f.k.id) →
    f ∈ files' ∧ ∀ s ∈ f.own, SameSector fs.dev.flash fs'.dev.flash s

/-- the invariant holds after a step, and files held open for reading are unchanged -/
def SysTo (crc : Bytes → UInt32) (fs : FS) (files : List FileSt) (fs' : FS) (ks' : List Known) : Prop :=
  ∃ files' leak', files'.map (·.k) = ks' ∧ Sys crc fs' files' leak' ∧ Kept fs fs' files files'

theorem SysTo.inv {crc : Bytes → UInt32} {fs fs' : FS} {files : List FileSt} {ks' : List Known} (h : SysTo crc fs files fs' ks') :
    SysInv crc fs' ks' := by
  obtain ⟨files', leak', h1, h2, _⟩ := h
  exact ⟨files', leak', h1, h2⟩

theorem Kept.same {fs fs' : FS} {files : List FileSt} (h : fs'.dev = fs.dev) : Kept fs fs' files files :=
  fun _ hf _ _ _ => ⟨hf, fun _ _ => by rw [h]; exact fun _ _ => rfl⟩

/-- sectors of all files but one -/
def others (leak : List Nat) (as bs : List FileSt) : List Nat := leak ++ (as.flatMap FileSt.own ++ bs.flatMap FileSt.own)

theorem perm_mid (leak a f b : List Nat) : (leak ++ (a ++ (f ++ b))).Perm (leak ++ (a ++ b) ++ f) := by
  rw [List.append_assoc leak]
  refine List.Perm.append_left leak ?_
  rw [List.append_assoc]
  exact List.Perm.append_left a List.perm_append_comm

theorem own_perm (leak : List Nat) (as bs : List FileSt) (f : FileSt) :
    (leak ++ (as ++ f :: bs).flatMap FileSt.own).Perm (others leak as bs ++ f.own) := by
  rw [List.flatMap_append, List.flatMap_cons]
  exact perm_mid ..

theorem mem_own {leak : List Nat} {as bs : List FileSt} {g : FileSt} (hg : g ∈ as ++ bs) {s : Nat} (hs : s ∈ g.own) : s ∈ others leak as bs := by
  unfold others
  rcases List.mem_append.mp hg with h | h
  · exact List.mem_append_right _ (List.mem_append_left _ (List.mem_flatMap.mpr ⟨g, h, hs⟩))
  · exact List.mem_append_right _ (List.mem_append_right _ (List.mem_flatMap.mpr ⟨g, h, hs⟩))

theorem Sys.idNe {crc : Bytes → UInt32} {fs : FS} {as bs : List FileSt} {f : FileSt} {leak : List Nat} (h : Sys crc fs (as ++ f :: bs) leak)
    {g : FileSt} (hg : g ∈ as ++ bs) : g.k.id ≠ f.k.id := by
  have hs := h.reach.dir.sorted
  rw [List.map_append, List.map_cons, List.pairwise_append, List.pairwise_cons] at hs
  obtain ⟨_, ⟨h2, _⟩, h3⟩ := hs
  have e1 := (h.ok f (by simp)).id
  rcases List.mem_append.mp hg with hm | hm
  · have := h3 g.e (List.mem_map.mpr ⟨g, hm, rfl⟩) f.e (List.mem_cons_self ..)
    have e2 := (h.ok g (List.mem_append_left _ hm)).id
    omega
  · have := h2 g.e (List.mem_map.mpr ⟨g, hm, rfl⟩)
    have e2 := (h.ok g (by simp [hm])).id
    omega

theorem freeBytes_eq {m : SectorsMng} {out : List Nat} (h : m.Inv out) : m.freeBytes = 4016 * (16352 - out.length) ∧ out.length ≤ 16352 := by
  have hf := h.free_eq
  have e : DATA_REGION_SECTORS = 16352 := rfl
  rw [List.length_append, List.length_append, e] at hf
  refine ⟨?_, by omega⟩
  show (m.map.free + (m.asyncAhead.length + m.ahead.length)) * 4016 = _
  rw [Nat.mul_comm]
  refine congrArg (4016 * ·) ?_
  omega

theorem freeBytes_full {m : SectorsMng} {out : List Nat} (h : m.Inv out) (hl : out.length = 16352) : m.freeBytes = 0 := by
  rw [(freeBytes_eq h).1, hl]

theorem inv_range {m : SectorsMng} {out : List Nat} (h : m.Inv out) : MngRange m := by
  intro x hx
  exact h.range x (by rw [List.append_assoc]; exact List.mem_append_right _ hx)

theorem ReachInv.data {fs fs' : FS} {es : List FileEntry} (h : ReachInv fs es []) (hl : LowEq fs.dev.flash fs'.dev.flash)
    (h1 : fs'.at'.seq = fs.at'.seq) (h2 : fs'.at'.position = fs.at'.position) (h3 : fs'.at'.maxId = fs.at'.maxId)
    (h4 : fs'.at'.fileCount = fs.at'.fileCount) (hm : MngRange fs'.mng) : ReachInv fs' es [] :=
  ⟨h.dir.congr hl h1 h2 h3 h4, hm, h.small, by simp⟩

/-- one file changes -/
theorem Sys.update' {crc : Bytes → UInt32} {fs fs' : FS} {as bs : List FileSt} {f f' : FileSt} {leak leak' : List Nat}
    (h : Sys crc fs (as ++ f :: bs) leak) (he : f'.e = f.e) (h1 : fs'.at'.seq = fs.at'.seq) (h2 : fs'.at'.position = fs.at'.position)
    (h3 : fs'.at'.maxId = fs.at'.maxId) (h4 : fs'.at'.fileCount = fs.at'.fileCount) (hl : LowEq fs.dev.flash fs'.dev.flash)
    (hsame : ∀ s ∈ others [] as bs, SameSector fs.dev.flash fs'.dev.flash s) (hok : FileOk crc fs'.dev.flash f')
    (hinv : fs'.mng.Inv (others leak' as bs ++ f'.own)) (hb : AheadBlank fs'.mng fs'.dev.flash)
    (hg : f'.k.writer.isSome = true → f'.k.guarded = true → f'.k.id ∈ fs'.at'.opened)
    (ho : ∀ x, x ≠ f.k.id → x ∈ fs.at'.opened → x ∈ fs'.at'.opened) : Sys crc fs' (as ++ f' :: bs) leak' := by
  have hmap : (as ++ f' :: bs).map (·.e) = (as ++ f :: bs).map (·.e) := by
    rw [List.map_append, List.map_append, List.map_cons, List.map_cons, he]
  have hmem : ∀ g ∈ as ++ f' :: bs, g = f' ∨ g ∈ as ++ bs := by
    intro g hg
    simp only [List.mem_append, List.mem_cons] at hg ⊢
    rcases hg with h | h | h
    · exact .inr (.inl h)
    · exact .inl h
    · exact .inr (.inr h)
  have hold : ∀ g ∈ as ++ bs, g ∈ as ++ f :: bs := by
    intro g hg
    simp only [List.mem_append, List.mem_cons] at hg ⊢
    rcases hg with h | h
    · exact .inl h
    · exact .inr (.inr h)
  refine ⟨?_, ?_, hinv.perm (own_perm leak' as bs f').symm, hb, ?_⟩
  · rw [hmap]
    exact h.reach.data hl h1 h2 h3 h4 (inv_range hinv)
  · intro g hgm
    rcases hmem g hgm with rfl | hgm
    · exact hok
    · exact (h.ok g (hold g hgm)).congr fun s hs => hsame s (mem_own hgm hs)
  · intro g hgm hw hgd
    rcases hmem g hgm with rfl | hgm
    · exact hg hw hgd
    · exact ho _ (h.idNe hgm) (h.guard g (hold g hgm) hw hgd)

/-- one file that is not held open for reading changes -/
theorem kept_update {crc : Bytes → UInt32} {fs fs' : FS} {as bs : List FileSt} {f f' : FileSt} {leak : List Nat} (h : Sys crc fs (as ++ f :: bs) leak)
    (hf : f.k.writer = none → f.k.id ∉ fs.at'.opened) (hsame : ∀ s ∈ others leak as bs, SameSector fs.dev.flash fs'.dev.flash s) :
    Kept fs fs' (as ++ f :: bs) (as ++ f' :: bs) := by
  intro g hg hw ho _
  have hgm : g ∈ as ++ bs := by
    rcases List.mem_append.mp hg with hg | hg
    · exact List.mem_append_left _ hg
    · rcases List.mem_cons.mp hg with rfl | hg
      · exact absurd ho (hf hw)
      · exact List.mem_append_right _ hg
  refine ⟨?_, fun s hs => hsame s (mem_own hgm hs)⟩
  rcases List.mem_append.mp hgm with h | h
  · exact List.mem_append_left _ h
  · exact List.mem_append_right _ (List.mem_cons_of_mem _ h)

/-- one file changes, other claimed sectors stay -/
theorem Sys.update {crc : Bytes → UInt32} {fs fs' : FS} {as bs : List FileSt} {f f' : FileSt} {leak leak' : List Nat}
    (h : Sys crc fs (as ++ f :: bs) leak) (he : f'.e = f.e) (h1 : fs'.at'.seq = fs.at'.seq) (h2 : fs'.at'.position = fs.at'.position)
    (h3 : fs'.at'.maxId = fs.at'.maxId) (h4 : fs'.at'.fileCount = fs.at'.fileCount) (hl : LowEq fs.dev.flash fs'.dev.flash)
    (hsame : ∀ s ∈ others leak as bs, SameSector fs.dev.flash fs'.dev.flash s) (hok : FileOk crc fs'.dev.flash f')
    (hinv : fs'.mng.Inv (others leak' as bs ++ f'.own)) (hb : AheadBlank fs'.mng fs'.dev.flash)
    (hg : f'.k.writer.isSome = true → f'.k.guarded = true → f'.k.id ∈ fs'.at'.opened)
    (ho : ∀ x, x ≠ f.k.id → x ∈ fs.at'.opened → x ∈ fs'.at'.opened) : Sys crc fs' (as ++ f' :: bs) leak' :=
  h.update' he h1 h2 h3 h4 hl (fun s hs => hsame s (List.mem_append_right _ hs)) hok hinv hb hg ho

theorem data_low {os : List FlashOp} {fl : Flash} (ht : ∀ o ∈ os, ∀ a, o.touches a → InData (a / 4096)) {fl' : Flash}
    (hc : CrashImage fl os fl') : LowEq fl fl' := by
  intro a ha
  refine (crash_untouched hc fun o ho hx => ?_).symm
  have h := (ht o ho a hx).1
  have h' : 32 ≤ a / 4096 := h
  omega

theorem touch_same {os : List FlashOp} {fl fl' : Flash} {s : Nat} (ht : ∀ o ∈ os, ∀ a, o.touches a → a / 4096 ≠ s)
    (hc : CrashImage fl os fl') : SameSector fl fl' s := by
  refine sameSector_of fun a ha => crash_untouched hc fun o ho hx => ?_
  exact ht o ho a hx ha

/-- the state of an open file as `WSt` -/
theorem Sys.wst {crc : Bytes → UInt32} {fs : FS} {as bs : List FileSt} {f : FileSt} {leak : List Nat}
    (h : Sys crc fs (as ++ f :: bs) leak) {w : FileWriter} (hw : f.k.writer = some w) :
    ∃ first, f.e.first = some first ∧ WSt crc (others leak as bs) first f.segs w f.cur fs.mng fs.dev := by
  obtain ⟨h0, ⟨first, h1, h2⟩, h3, h4⟩ := (h.ok f (by simp)).open' w hw
  refine ⟨first, h1, h2, h3, ?_, h.blank⟩
  have := h.inv.perm (own_perm leak as bs f)
  unfold FileSt.own at this
  rw [hw] at this
  exact this

/-- a call of the writer of `f` that appended `pre` -/
theorem Sys.write {crc : Bytes → UInt32} {fs : FS} {as bs : List FileSt} {f : FileSt} {leak : List Nat}
    (h : Sys crc fs (as ++ f :: bs) leak) {w : FileWriter} (hw : f.k.writer = some w) {first : Nat} (hf : f.e.first = some first)
    {slice : Bytes} {r : WRes} {segs' : List (Nat × Bytes)} {D' : Bytes} {os : List FlashOp} {pre : Bytes}
    (hc : CallSpec crc (others leak as bs) first f.segs w f.cur fs.dev slice r segs' D' os pre)
    (k' : Known) (hid : k'.id = f.k.id) (htyp : k'.typ = f.k.typ) (hgd : k'.guarded = f.k.guarded) (hdm : k'.damaged = f.k.damaged) (hkw : k'.writer = some r.2.1)
    (hdur : k'.durable <+: bytesOf segs') (hdata : ∃ p, p <+: k'.maybe ∧ bytesOf segs' ++ D' = k'.data ++ p) :
    Sys crc { fs with mng := r.2.2.1, dev := r.2.2.2 } (as ++ ⟨k', f.e, segs', D'⟩ :: bs) leak := by
  have hfo := h.ok f (by simp)
  have hlow := data_low (fun o ho a ha => (hc.tr.touch o ho a ha).1) (crash_done fs.dev.flash os)
  have hfl : r.2.2.2.flash = applyOps fs.dev.flash os := by rw [hc.ops]; rfl
  refine h.update (f' := ⟨k', f.e, segs', D'⟩) rfl rfl rfl rfl rfl ?_ ?_ ?_ ?_ hc.st.blank ?_ (fun x _ hx => hx)
  · show LowEq _ r.2.2.2.flash
    rw [hfl]; exact hlow
  · intro s hs
    show SameSector _ r.2.2.2.flash s
    rw [hfl]
    refine touch_same (fun o ho a ha he => ?_) (crash_done _ _)
    exact (hc.tr.touch o ho a ha).2.1 (by rw [he]; exact hs)
  · refine FileOk.mk' ?_ ?_ ?_ ?_ ?_
    · show f.e.id = k'.id
      rw [hid]; exact hfo.id
    · show f.e.typ = k'.typ
      rw [htyp]; exact hfo.typ
    · intro hn
      have hn : k'.writer = none := hn
      rw [hkw] at hn; exact absurd hn (by simp)
    · intro _
      show k'.damaged = false
      rw [hdm]; exact hfo.whole (by rw [hw]; rfl)
    · intro w' hw'
      have hw' : k'.writer = some w' := hw'
      rw [hkw] at hw'
      injection hw' with hw'
      subst hw'
      refine ⟨?_, ⟨first, hf, hc.st.chain⟩, hc.st.winv, hdur, hdata⟩
      show r.2.1.id = k'.id
      rw [hc.id, hid]; exact (hfo.open' w hw).1
  · show r.2.2.1.Inv _
    unfold FileSt.own
    simp only [hkw]
    exact hc.st.inv
  · intro _ hg2
    have hg2 : k'.guarded = true := hg2
    show k'.id ∈ fs.at'.opened
    rw [hid]
    exact h.guard f (by simp) (by rw [hw]; rfl) (by rw [← hgd]; exact hg2)

/-- a call of a writer leaves the sectors of other files alone -/
theorem write_same {crc : Bytes → UInt32} {rest : List Nat} {first : Nat} {segs : List (Nat × Bytes)} {w : FileWriter} {D : Bytes} {dev : Dev}
    {slice : Bytes} {r : WRes} {segs' : List (Nat × Bytes)} {D' : Bytes} {os : List FlashOp} {pre : Bytes}
    (hc : CallSpec crc rest first segs w D dev slice r segs' D' os pre) : ∀ s ∈ rest, SameSector dev.flash r.2.2.2.flash s := by
  intro s hs
  have hfl : r.2.2.2.flash = applyOps dev.flash os := by rw [hc.ops]; rfl
  rw [hfl]
  refine touch_same (fun o ho a ha he => ?_) (crash_done _ _)
  exact (hc.tr.touch o ho a ha).2.1 (by rw [he]; exact hs)

/-- splitting the list of files at the file of a known -/
theorem split_files {files : List FileSt} {a b : List Known} {k : Known} (h : files.map (·.k) = a ++ k :: b) :
    ∃ as f bs, files = as ++ f :: bs ∧ as.map (·.k) = a ∧ f.k = k ∧ bs.map (·.k) = b := by
  obtain ⟨as, xs, rfl, h1, h2⟩ := List.map_eq_append_iff.mp h
  obtain ⟨f, bs, rfl, h3, h4⟩ := List.map_eq_cons_iff.mp h2
  exact ⟨as, f, bs, rfl, h1, h3, h4⟩

theorem map_split {as bs : List FileSt} {a b : List Known} {f : FileSt} (h1 : as.map (·.k) = a) (h2 : bs.map (·.k) = b) :
    (as ++ f :: bs).map (·.k) = a ++ f.k :: b := by
  rw [List.map_append, List.map_cons, h1, h2]

theorem sys_extend {crc : Bytes → UInt32} {fs : FS} {files : List FileSt} {leak : List Nat} (hs : Sys crc fs files leak) {a b : List Known} {k : Known}
    (hf : files.map (·.k) = a ++ k :: b) {w : FileWriter} (hw : k.writer = some w) (hm : k.maybe = []) (rng : Nat → Nat × Nat) (slice : Bytes) :
    ((fs.extendWriter crc w rng slice).1 = .ok () ∧ SysTo crc fs files (fs.extendWriter crc w rng slice).2.2
      (a ++ { k with data := k.data ++ slice, writer := some (fs.extendWriter crc w rng slice).2.1 } :: b)) ∨
    ((fs.extendWriter crc w rng slice).1 = .error .deviceFull ∧ (fs.extendWriter crc w rng slice).2.2.mng.freeBytes = 0 ∧ SysTo crc fs files (fs.extendWriter crc w rng slice).2.2
      (a ++ { k with maybe := slice, writer := some (fs.extendWriter crc w rng slice).2.1 } :: b)) := by
  obtain ⟨as, f, bs, rfl, ha, rfl, hb⟩ := split_files hf
  obtain ⟨first, hfirst, hwst⟩ := hs.wst hw
  obtain ⟨segs', D', os, pre, hc⟩ := extend_call hwst rng slice
  obtain ⟨_, _, _, hdur, p0, hp0, hdat⟩ := (hs.ok f (by simp)).open' w hw
  have hp00 : p0 = [] := by rw [hm] at hp0; exact List.prefix_nil.mp hp0
  subst hp00
  have hdur' := hdur.trans (bytesOf_prefix hc.segsPre)
  have hdata := hc.data
  rw [hdat, List.append_nil] at hdata
  rcases hc.res with ⟨r1, r2⟩ | ⟨r1, r2⟩
  · left
    refine ⟨r1, _, leak, ?_, hs.write hw hfirst hc { f.k with data := f.k.data ++ slice, writer := some (w.extend crc fs.mng fs.dev rng slice).2.1 }
      rfl rfl rfl rfl rfl hdur' ⟨[], List.nil_prefix, ?_⟩,
      kept_update hs (fun hn => by rw [hw] at hn; exact absurd hn (by simp)) (write_same hc)⟩
    · exact map_split ha hb
    · rw [hdata, r2, List.append_nil]
  · right
    refine ⟨r1, freeBytes_full hc.st.inv r2, _, leak, ?_, hs.write hw hfirst hc { f.k with maybe := slice, writer := some (w.extend crc fs.mng fs.dev rng slice).2.1 }
      rfl rfl rfl rfl rfl hdur' ⟨pre, hc.taken, hdata⟩,
      kept_update hs (fun hn => by rw [hw] at hn; exact absurd hn (by simp)) (write_same hc)⟩
    exact map_split ha hb

theorem step_extend {crc : Bytes → UInt32} {fs : FS} {ks : List Known} (h : SysInv crc fs ks) {a b : List Known} {k : Known}
    (hk : ks = a ++ k :: b) {w : FileWriter} (hw : k.writer = some w) (hm : k.maybe = []) (rng : Nat → Nat × Nat) (slice : Bytes) :
    ((fs.extendWriter crc w rng slice).1 = .ok () ∧ SysInv crc (fs.extendWriter crc w rng slice).2.2
      (a ++ { k with data := k.data ++ slice, writer := some (fs.extendWriter crc w rng slice).2.1 } :: b)) ∨
    ((fs.extendWriter crc w rng slice).1 = .error .deviceFull ∧ (fs.extendWriter crc w rng slice).2.2.mng.freeBytes = 0 ∧ SysInv crc (fs.extendWriter crc w rng slice).2.2
      (a ++ { k with maybe := slice, writer := some (fs.extendWriter crc w rng slice).2.1 } :: b)) := by
  obtain ⟨files, leak, hf, hs⟩ := h
  rw [hk] at hf
  rcases sys_extend hs hf hw hm rng slice with ⟨g1, g2⟩ | ⟨g1, g2, g3⟩
  · exact .inl ⟨g1, g2.inv⟩
  · exact .inr ⟨g1, g2, g3.inv⟩

theorem sys_flush {crc : Bytes → UInt32} {fs : FS} {files : List FileSt} {leak : List Nat} (hs : Sys crc fs files leak) {a b : List Known} {k : Known}
    (hf : files.map (·.k) = a ++ k :: b) {w : FileWriter} (hw : k.writer = some w) (r1 r2 : Nat) :
    ((fs.flushWriter crc w r1 r2).1 = .ok () ∧ SysTo crc fs files (fs.flushWriter crc w r1 r2).2.2
      (a ++ { k with durable := k.data, writer := some (fs.flushWriter crc w r1 r2).2.1 } :: b)) ∨
    ((fs.flushWriter crc w r1 r2).1 = .error .deviceFull ∧ (fs.flushWriter crc w r1 r2).2.2.mng.freeBytes = 0 ∧ SysTo crc fs files (fs.flushWriter crc w r1 r2).2.2
      (a ++ { k with writer := some (fs.flushWriter crc w r1 r2).2.1 } :: b)) := by
  obtain ⟨as, f, bs, rfl, ha, rfl, hb⟩ := split_files hf
  obtain ⟨first, hfirst, hwst⟩ := hs.wst hw
  obtain ⟨segs', D', os, hc, hD⟩ := flush_call hwst r1 r2
  obtain ⟨_, _, _, hdur, p0, hp0, hdat⟩ := (hs.ok f (by simp)).open' w hw
  have hdata := hc.data
  rw [hdat, List.append_nil] at hdata
  rcases hc.res with ⟨g1, g2⟩ | ⟨g1, g2⟩
  · left
    have hD' := hD g1
    refine ⟨g1, _, leak, ?_, hs.write hw hfirst hc { f.k with durable := f.k.data, writer := some (w.flush crc fs.mng fs.dev r1 r2).2.1 }
      rfl rfl rfl rfl rfl ?_ ⟨p0, hp0, hdata⟩,
      kept_update hs (fun hn => by rw [hw] at hn; exact absurd hn (by simp)) (write_same hc)⟩
    · exact map_split ha hb
    · rw [hD', List.append_nil] at hdata
      rw [hdata]; exact List.prefix_append ..
  · right
    refine ⟨g1, freeBytes_full hc.st.inv g2, _, leak, ?_, hs.write hw hfirst hc { f.k with writer := some (w.flush crc fs.mng fs.dev r1 r2).2.1 }
      rfl rfl rfl rfl rfl (hdur.trans (bytesOf_prefix hc.segsPre)) ⟨p0, hp0, hdata⟩,
      kept_update hs (fun hn => by rw [hw] at hn; exact absurd hn (by simp)) (write_same hc)⟩
    exact map_split ha hb

theorem step_flush {crc : Bytes → UInt32} {fs : FS} {ks : List Known} (h : SysInv crc fs ks) {a b : List Known} {k : Known}
    (hk : ks = a ++ k :: b) {w : FileWriter} (hw : k.writer = some w) (r1 r2 : Nat) :
    ((fs.flushWriter crc w r1 r2).1 = .ok () ∧ SysInv crc (fs.flushWriter crc w r1 r2).2.2
      (a ++ { k with durable := k.data, writer := some (fs.flushWriter crc w r1 r2).2.1 } :: b)) ∨
    ((fs.flushWriter crc w r1 r2).1 = .error .deviceFull ∧ (fs.flushWriter crc w r1 r2).2.2.mng.freeBytes = 0 ∧ SysInv crc (fs.flushWriter crc w r1 r2).2.2
      (a ++ { k with writer := some (fs.flushWriter crc w r1 r2).2.1 } :: b)) := by
  obtain ⟨files, leak, hf, hs⟩ := h
  rw [hk] at hf
  rcases sys_flush hs hf hw r1 r2 with ⟨g1, g2⟩ | ⟨g1, g2, g3⟩
  · exact .inl ⟨g1, g2.inv⟩
  · exact .inr ⟨g1, g2, g3.inv⟩

/-! ### opened files -/

theorem mem_swapRemove {l : List Nat} {k x : Nat} (hk : k < l.length) (hx : x ∈ l) (hne : x ≠ l[k]) : x ∈ swapRemove l k := by
  unfold swapRemove
  obtain ⟨init, last, rfl⟩ : ∃ init last, l = init ++ [last] := by
    have : l ≠ [] := by intro h; subst h; simp at hk
    exact ⟨l.dropLast, l.getLast this, (List.dropLast_concat_getLast this).symm⟩
  rw [List.getLast?_concat]
  simp only
  by_cases hl : k < init.length
  · rw [List.set_append_left _ _ hl, List.dropLast_concat]
    rw [List.getElem_append_left hl] at hne
    rcases List.mem_append.mp hx with hx | hx
    · obtain ⟨i, hi, rfl⟩ := List.getElem_of_mem hx
      have hik : i ≠ k := by intro h; subst h; exact hne rfl
      have : (init.set k last)[i]'(by simpa using hi) = init[i] := List.getElem_set_ne (Ne.symm hik) _
      rw [← this]; exact List.getElem_mem _
    · rw [List.mem_singleton] at hx
      subst hx
      exact List.mem_set hl x
  · have hke : k = init.length := by simp at hk; omega
    subst hke
    rw [List.set_append_right _ _ (by omega)]
    simp only [Nat.sub_self, List.set_cons_zero, List.dropLast_concat]
    rcases List.mem_append.mp hx with hx | hx
    · exact hx
    · rw [List.mem_singleton] at hx
      subst hx
      exact absurd (by simp) hne

theorem markClosed_mem {fs : FS} {id x : Nat} (hne : x ≠ id) (hx : x ∈ fs.at'.opened) : x ∈ (fs.markClosed id).at'.opened := by
  unfold FS.markClosed
  split
  · exact hx
  · rename_i k hk
    obtain ⟨h1, h2, _⟩ := List.findIdx?_eq_some_iff_getElem.mp hk
    refine mem_swapRemove h1 hx ?_
    rw [beq_iff_eq] at h2
    rw [h2]; exact hne

theorem markClosed_fields (fs : FS) (id : Nat) : (fs.markClosed id).dev = fs.dev ∧ (fs.markClosed id).mng = fs.mng ∧
    (fs.markClosed id).at'.seq = fs.at'.seq ∧ (fs.markClosed id).at'.position = fs.at'.position ∧
    (fs.markClosed id).at'.maxId = fs.at'.maxId ∧ (fs.markClosed id).at'.fileCount = fs.at'.fileCount := by
  unfold FS.markClosed
  split <;> exact ⟨rfl, rfl, rfl, rfl, rfl, rfl⟩

theorem close_sys {crc : Bytes → UInt32} {fs : FS} {as bs : List FileSt} {f : FileSt} {leak : List Nat} (hs : Sys crc fs (as ++ f :: bs) leak)
    {w : FileWriter} (hw : f.k.writer = some w) :
    Sys crc (fs.closeWriter crc w) (as ++ ⟨{ f.k with durable := f.k.data, writer := none, guarded := false }, f.e, f.segs ++ [(w.sector, f.cur)], []⟩ :: bs) leak := by
  obtain ⟨first, hfirst, hwst⟩ := hs.wst hw
  obtain ⟨os, c1, c2, c3, c4⟩ := close_call hwst
  have hfo := hs.ok f (by simp)
  obtain ⟨hid, _, _, hdur, p0, hp0, hdat⟩ := hfo.open' w hw
  obtain ⟨m1, m2, m3, m4, m5, m6⟩ := markClosed_fields { fs with dev := w.close crc fs.dev } w.id
  have hfl : (fs.closeWriter crc w).dev.flash = applyOps fs.dev.flash os := by
    show (FS.markClosed { fs with dev := w.close crc fs.dev } w.id).dev.flash = _
    rw [m1]
    show (w.close crc fs.dev).flash = _
    rw [c1]; rfl
  refine hs.update rfl m3 m4 m5 m6 ?_ ?_ ?_ ?_ ?_ ?_ ?_
  · rw [hfl]; exact data_low (fun o ho a ha => (c4.touch o ho a ha).1) (crash_done fs.dev.flash os)
  · intro s hsm
    rw [hfl]
    refine touch_same (fun o ho a ha he => ?_) (crash_done _ _)
    exact (c4.touch o ho a ha).2.1 (by rw [he]; exact hsm)
  · refine FileOk.mk' hfo.id hfo.typ ?_ (fun h => absurd (show (none : Option FileWriter).isSome = true from h) (by simp)) ?_
    · intro _
      show Stored crc _ f.e.first (f.segs ++ [(w.sector, f.cur)]) ∧ ∃ pre, pre <+: f.k.maybe ∧ bytesOf (f.segs ++ [(w.sector, f.cur)]) = f.k.data ++ pre
      rw [hfl, hfirst, bytesOf_snoc]
      exact ⟨c2, p0, hp0, hdat⟩
    · intro w' hw'
      exact absurd (show (none : Option FileWriter) = some w' from hw') (by simp)
  · show (FS.markClosed { fs with dev := w.close crc fs.dev } w.id).mng.Inv _
    rw [m2]
    show fs.mng.Inv (others leak as bs ++ secs (f.segs ++ [(w.sector, f.cur)]))
    rw [secs_snoc]
    exact hwst.inv
  · show AheadBlank (FS.markClosed { fs with dev := w.close crc fs.dev } w.id).mng _
    rw [m2, hfl]
    exact c3
  · intro hx
    exact absurd (show (none : Option FileWriter).isSome = true from hx) (by simp)
  · intro x hne hx
    refine markClosed_mem (fs := { fs with dev := w.close crc fs.dev }) ?_ hx
    rw [hid]; exact hne

/-- closing a writer leaves the sectors of other files alone -/
theorem close_same {crc : Bytes → UInt32} {fs : FS} {as bs : List FileSt} {f : FileSt} {leak : List Nat} (hs : Sys crc fs (as ++ f :: bs) leak)
    {w : FileWriter} (hw : f.k.writer = some w) : ∀ s ∈ others leak as bs, SameSector fs.dev.flash (fs.closeWriter crc w).dev.flash s := by
  obtain ⟨first, hfirst, hwst⟩ := hs.wst hw
  obtain ⟨os, c1, c2, c3, c4⟩ := close_call hwst
  obtain ⟨m1, m2, m3, m4, m5, m6⟩ := markClosed_fields { fs with dev := w.close crc fs.dev } w.id
  have hfl : (fs.closeWriter crc w).dev.flash = applyOps fs.dev.flash os := by
    show (FS.markClosed { fs with dev := w.close crc fs.dev } w.id).dev.flash = _
    rw [m1]
    show (w.close crc fs.dev).flash = _
    rw [c1]; rfl
  intro s hsm
  rw [hfl]
  refine touch_same (fun o ho a ha he => ?_) (crash_done _ _)
  exact (c4.touch o ho a ha).2.1 (by rw [he]; exact hsm)

theorem sys_close {crc : Bytes → UInt32} {fs : FS} {files : List FileSt} {leak : List Nat} (hs : Sys crc fs files leak) {a b : List Known} {k : Known}
    (hf : files.map (·.k) = a ++ k :: b) {w : FileWriter} (hw : k.writer = some w) :
    SysTo crc fs files (fs.closeWriter crc w) (a ++ { k with durable := k.data, writer := none, guarded := false } :: b) := by
  obtain ⟨as, f, bs, rfl, ha, rfl, hb⟩ := split_files hf
  exact ⟨_, leak, map_split ha hb, close_sys hs hw, kept_update hs (fun hn => by rw [hw] at hn; exact absurd hn (by simp)) (close_same hs hw)⟩

theorem step_close {crc : Bytes → UInt32} {fs : FS} {ks : List Known} (h : SysInv crc fs ks) {a b : List Known} {k : Known}
    (hk : ks = a ++ k :: b) {w : FileWriter} (hw : k.writer = some w) :
    SysInv crc (fs.closeWriter crc w) (a ++ { k with durable := k.data, writer := none, guarded := false } :: b) := by
  obtain ⟨files, leak, hf, hs⟩ := h
  rw [hk] at hf
  exact (sys_close hs hf hw).inv

end Verif.Vlfs
