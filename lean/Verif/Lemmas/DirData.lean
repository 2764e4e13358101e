import Verif.Lemmas.Reach
import Verif.Lemmas.Touch
/-
What the directory operations do to the data region and to the sector manager.
-/
namespace Verif.Vlfs
open Verif Verif.Spec

/-- the chip has only seen operations on the table region since `base` -/
def HighAs (base d : Dev) : Prop := ∃ os, d = base.ops os ∧ ∀ o ∈ os, ∀ a, o.touches a → a < 131072

theorem HighAs.high {base d : Dev} (h : HighAs base d) (a : Nat) (ha : 131072 ≤ a) : d.flash a = base.flash a := by
  obtain ⟨os, rfl, h2⟩ := h
  exact applyOps_untouched fun o ho hx => absurd (h2 o ho a hx) (by omega)

theorem HighAs.refl (d : Dev) : HighAs d d := ⟨[], (Dev.ops_nil _).symm, by simp⟩

theorem HighAs.step {base d : Dev} (h : HighAs base d) {os : List FlashOp} (h2 : ∀ o ∈ os, ∀ a, o.touches a → a < 131072) :
    HighAs base (d.ops os) := by
  obtain ⟨os0, rfl, h0⟩ := h
  refine ⟨os0 ++ os, Dev.ops_ops .., ?_⟩
  intro o ho a ha
  rcases List.mem_append.mp ho with ho | ho
  · exact h0 o ho a ha
  · exact h2 o ho a ha

theorem HighAs.extend {base dev : Dev} (h : HighAs base dev) {w : PageWriter} {A : Nat} {S : Bytes} (hw : w.Inv A S) (slice : Bytes)
    (hl : A + (S ++ slice).length ≤ 131072) : HighAs base (w.extend dev slice).2 := by
  obtain ⟨_, os, h1, h2⟩ := extend_spec hw dev slice
  rw [h1]
  refine h.step ?_
  intro o ho a ha
  have : o ∈ pages A (S ++ slice) ((S ++ slice).length / 256) := by rw [← h2]; exact List.mem_append_right _ ho
  unfold pages at this
  rw [List.mem_map] at this
  obtain ⟨i, hi, rfl⟩ := this
  rw [List.mem_range] at hi
  have : A + 256 * i ≤ a ∧ a < A + 256 * i + 256 := ha
  omega

theorem HighAs.flush {base dev : Dev} (h : HighAs base dev) {w : PageWriter} (hl : w.addr + 256 ≤ 131072) : HighAs base (w.flush dev).2 := by
  show HighAs base (dev.op (.page w.addr w.buf))
  rw [Dev.op_eq_ops]
  refine h.step ?_
  intro o ho a ha
  rw [List.mem_singleton.mp ho] at ha
  have : w.addr ≤ a ∧ a < w.addr + 256 := ha
  omega

theorem HighAs.write {base : Dev} {fs : FS} {b : Builder} {new : List FileEntry} {m : Nat} (h : HighAs base b.dev) (hw : BW fs b new m)
    (e : FileEntry) (hl : new.length < 2518) : HighAs base (b.write e).dev := by
  have hlt := nextPos_lt fs
  have hlen := bodyImage_length (fs.at'.seq + 1) (new ++ [e])
  rw [List.length_append, List.length_singleton] at hlen
  show HighAs base ((b.w.extend b.dev e.serialize).2)
  exact h.extend hw.w _ (by rw [← bodyImage_snoc, hlen, slotAddr_eq]; omega)

theorem HighAs.new (fs : FS) : HighAs fs.dev (Builder.new fs).dev := by
  have hlt := nextPos_lt fs
  have hw0 : PageWriter.Inv ⟨slotAddr (nextPos fs), []⟩ (slotAddr (nextPos fs)) [] := ⟨by simp, by simp⟩
  show HighAs fs.dev ((PageWriter.extend ⟨slotAddr (nextPos fs), []⟩ (fs.dev.op (.erase (slotAddr (nextPos fs)) 32768))
    (headerSerialize (fs.at'.seq + 1))).2)
  refine HighAs.extend ?_ hw0 _ (by rw [List.nil_append, headerSerialize_length, slotAddr_eq]; omega)
  rw [Dev.op_eq_ops]
  refine (HighAs.refl _).step ?_
  intro o ho a ha
  rw [List.mem_singleton.mp ho] at ha
  have : slotAddr (nextPos fs) ≤ a ∧ a < slotAddr (nextPos fs) + 32768 := ha
  rw [slotAddr_eq] at this
  omega

theorem HighAs.readNext {base : Dev} {b b' : Builder} {x : Except Err (Option FileEntry)} (h : HighAs base b.dev) (hr : b.readNext = (x, b')) : HighAs base b'.dev := by
  have := readNext_dev b
  rw [hr] at this
  rw [show b'.dev = b.dev from this]
  exact h

theorem HighAs.commit {base : Dev} {fs : FS} {b : Builder} {new : List FileEntry} {m : Nat} (h : HighAs base b.dev) (hw : BW fs b new m)
    (hl : new.length ≤ 2518) : HighAs base b.commit.dev := by
  have hlt := nextPos_lt fs
  have hlen := tableImage_length (fs.at'.seq + 1) new m
  have hm := hw.maxId
  obtain ⟨h1, _⟩ := extend_spec hw.w b.dev (footerSerialize b.maxId)
  have haddr := h1.addr
  have hE : bodyImage (fs.at'.seq + 1) new ++ footerSerialize b.maxId = tableImage (fs.at'.seq + 1) new m := by rw [hm]; exact bodyImage_footer ..
  rw [hE] at haddr
  show HighAs base (((b.w.extend b.dev (footerSerialize b.maxId)).1.flush (b.w.extend b.dev (footerSerialize b.maxId)).2).2)
  refine HighAs.flush ?_ (by rw [haddr, hlen, slotAddr_eq]; omega)
  exact h.extend hw.w _ (by rw [hE, hlen, slotAddr_eq]; omega)

theorem copyRest_high {base : Dev} {fs : FS} {es : List FileEntry} (hd : DirInv fs es) :
    ∀ (fuel : Nat) (b : Builder) (new : List FileEntry) (i : Nat), BW fs b new fs.at'.maxId → BR fs b i →
    i ≤ es.length → new.length + (es.length - i) ≤ 2518 → HighAs base b.dev →
    HighAs base (copyRest fuel b).2.dev := by
  intro fuel
  induction fuel with
  | zero => exact fun b new i _ _ _ _ h => h
  | succ fuel ih =>
    intro b new i hw hr hi hl hh
    rw [copyRest]
    by_cases hlt : i < es.length
    · obtain ⟨b1, h1, h2, h3, h4⟩ := readNext_some hd hw hr (by omega) hlt
      rw [h1]
      simp only
      have hwr := h2.write es[i] (by omega)
      have hm := hd.maxId es[i] (List.getElem_mem hlt)
      rw [if_neg (by omega)] at hwr
      exact ih (b1.write es[i]) (new ++ [es[i]]) (i + 1) hwr (h3.write _) (by omega)
        (by rw [List.length_append, List.length_singleton]; omega) ((hh.readNext h1).write h2 _ (by omega))
    · have : i = es.length := by omega
      subst this
      obtain ⟨b1, h1, h2, h4⟩ := readNext_none hd hw hr (by omega)
      rw [h1]
      exact hh.readNext h1

theorem copyN_high {base : Dev} {fs : FS} {es : List FileEntry} (hd : DirInv fs es) :
    ∀ (n : Nat) (b : Builder) (new : List FileEntry) (i : Nat), BW fs b new fs.at'.maxId → BR fs b i →
    i + n ≤ es.length → new.length + n ≤ 2518 → HighAs base b.dev → HighAs base (copyN n b).2.dev := by
  intro n
  induction n with
  | zero => exact fun b new i _ _ _ _ h => h
  | succ n ih =>
    intro b new i hw hr hi hl hh
    rw [copyN]
    have hlt : i < es.length := by omega
    obtain ⟨b1, h1, h2, h3, h4⟩ := readNext_some hd hw hr (by omega) hlt
    rw [h1]
    simp only
    have hwr := h2.write es[i] (by omega)
    have hm := hd.maxId es[i] (List.getElem_mem hlt)
    rw [if_neg (by omega)] at hwr
    exact ih (b1.write es[i]) (new ++ [es[i]]) (i + 1) hwr (h3.write _) (by omega)
      (by rw [List.length_append, List.length_singleton]; omega) ((hh.readNext h1).write h2 _ (by omega))

/-- `create_file` leaves the data region alone -/
theorem createFile_high {fs : FS} {es : List FileEntry} (hd : DirInv fs es) (typ : Nat) (hl : es.length < 2518) :
    HighAs fs.dev (fs.createFile typ).2.dev ∧ (fs.createFile typ).2.mng = fs.mng := by
  obtain ⟨fs', g1, g2, g3⟩ := createFile_spec hd typ hl
  refine ⟨?_, by rw [g1]; exact g3⟩
  obtain ⟨h1, h2, h3⟩ := Builder.new_spec fs
  obtain ⟨b, h4, h5, h6⟩ := copyRest_spec hd maxEntries (Builder.new fs) [] 0 h1 h2 (by omega)
    (by rw [maxEntries_eq]; omega) (by rw [List.length_nil]; omega)
  have hh := copyRest_high hd maxEntries (Builder.new fs) [] 0 h1 h2 (by omega) (by rw [List.length_nil]; omega) (HighAs.new fs)
  rw [List.nil_append, List.drop_zero] at h5
  unfold FS.createFile
  rw [h4] at hh
  simp only [h4]
  have h7 : BW fs b.getNewFileId.2 es (fs.at'.maxId + 1) :=
    ⟨h5.seq, h5.pos, h5.opened, h5.trace, h5.w, h5.count, by show b.maxId + 1 = _; rw [h5.maxId], h5.data⟩
  have h8 := h7.write ⟨b.getNewFileId.1, typ, none⟩ (by omega)
  have hh7 : HighAs fs.dev b.getNewFileId.2.dev := hh
  exact (hh7.write h7 ⟨b.getNewFileId.1, typ, none⟩ (by omega)).commit h8 (by rw [List.length_append, List.length_singleton]; omega)

/-- `create_file_and_open_for_write`: the claim happens on a chip whose data region is unchanged -/
theorem createFileAndOpen_high {fs : FS} {es : List FileEntry} (hd : DirInv fs es) (typ r1 r2 : Nat) (hl : es.length < 2518)
    {e : FileEntry} {fs' : FS} (hok : fs.createFileAndOpen typ r1 r2 = (.ok e, fs')) :
    ∃ dev0 : Dev, HighAs fs.dev dev0 ∧ ∃ s, e.first = some s ∧ (fs.mng.claim r1 r2 dev0).1 = .ok s ∧
      fs'.mng = (fs.mng.claim r1 r2 dev0).2.1 ∧ HighAs (fs.mng.claim r1 r2 dev0).2.2 fs'.dev := by
  obtain ⟨h1, h2, h3⟩ := Builder.new_spec fs
  obtain ⟨b, h4, h5, h6⟩ := copyRest_spec hd maxEntries (Builder.new fs) [] 0 h1 h2 (by omega)
    (by rw [maxEntries_eq]; omega) (by rw [List.length_nil]; omega)
  have hh := copyRest_high hd maxEntries (Builder.new fs) [] 0 h1 h2 (by omega) (by rw [List.length_nil]; omega) (HighAs.new fs)
  rw [h4] at hh
  rw [List.nil_append, List.drop_zero] at h5
  unfold FS.createFileAndOpen at hok
  simp only [h4] at hok
  unfold Builder.writeNewFileAndOpen at hok
  simp only at hok
  have hbm : b.getNewFileId.2.mng = fs.mng := by show b.mng = _; rw [h6, h3]
  have hbd : b.getNewFileId.2.dev = b.dev := rfl
  rw [hbm, hbd] at hok
  refine ⟨b.dev, hh, ?_⟩
  cases hcl : fs.mng.claim r1 r2 b.dev with
  | mk res rest =>
  obtain ⟨mng', dev'⟩ := rest
  rw [hcl] at hok
  cases res with
  | error e => simp at hok
  | ok s =>
    simp only at hok
    injection hok with ha hb
    injection ha with ha
    subst ha
    subst hb
    refine ⟨s, rfl, rfl, rfl, ?_⟩
    have hlt := nextPos_lt fs
    have hlen := bodyImage_length (fs.at'.seq + 1) (es ++ [⟨b.getNewFileId.1, typ, some s⟩])
    rw [List.length_append, List.length_singleton] at hlen
    obtain ⟨hw1, _⟩ := extend_spec h5.w dev' (FileEntry.serialize ⟨b.getNewFileId.1, typ, some s⟩)
    have hA := (HighAs.refl dev').extend h5.w (FileEntry.serialize ⟨b.getNewFileId.1, typ, some s⟩)
      (by rw [← bodyImage_snoc, hlen, slotAddr_eq]; omega)
    rw [← bodyImage_snoc] at hw1
    generalize hx : b.w.extend dev' (FileEntry.serialize ⟨b.getNewFileId.1, typ, some s⟩) = x at hw1 hA
    generalize hE : ({ b.getNewFileId.2 with mng := mng', dev := dev' } : Builder).write ⟨b.getNewFileId.1, typ, some s⟩ = bb
    have hbw : bb.w = x.1 ∧ bb.dev = x.2 := by rw [← hE, ← hx]; exact ⟨rfl, rfl⟩
    have hlen2 := tableImage_length (fs.at'.seq + 1) (es ++ [⟨b.getNewFileId.1, typ, some s⟩]) bb.maxId
    rw [List.length_append, List.length_singleton] at hlen2
    have hft := bodyImage_footer (fs.at'.seq + 1) (es ++ [⟨b.getNewFileId.1, typ, some s⟩]) bb.maxId
    rw [← hbw.1] at hw1
    obtain ⟨hw2, _⟩ := extend_spec hw1 bb.dev (footerSerialize bb.maxId)
    rw [← hbw.2] at hA
    have hB := hA.extend hw1 (footerSerialize bb.maxId) (by rw [hft, hlen2, slotAddr_eq]; omega)
    have haddr := hw2.addr
    rw [hft, hlen2] at haddr
    show HighAs dev' (((bb.w.extend bb.dev (footerSerialize bb.maxId)).1.flush (bb.w.extend bb.dev (footerSerialize bb.maxId)).2).2)
    exact hB.flush (by rw [haddr, slotAddr_eq]; omega)

/-- `set_file_first_sector_index` leaves the data region alone -/
theorem setFirstSector_high {fs : FS} {es : List FileEntry} (hd : DirInv fs es) (id : Nat) (first : Option Nat) :
    HighAs fs.dev (fs.setFirstSector id first).2.dev := by
  have hcap := hd.cap
  unfold FS.setFirstSector
  rcases findFileEntry_spec hd.holds hd.sorted hd.count id with ⟨k, hk, he, hf⟩ | ⟨hne, hf⟩
  · rw [hf]
    simp only
    obtain ⟨h1, h2, h3⟩ := Builder.new_spec fs
    obtain ⟨b1, c1, c2, c3, c4⟩ := copyN_spec hd k (Builder.new fs) [] 0 h1 h2 (by omega) (by rw [List.length_nil]; omega)
    have hh1 := copyN_high hd k (Builder.new fs) [] 0 h1 h2 (by omega) (by rw [List.length_nil]; omega) (HighAs.new fs)
    rw [List.drop_zero, List.nil_append] at c2
    rw [Nat.zero_add] at c3
    have htl : (es.take k).length = k := by rw [List.length_take]; omega
    rw [c1] at hh1 ⊢
    simp only
    obtain ⟨b2, d1, d2, d3, d4⟩ := readNext_some hd c2 c3 (by omega) hk
    rw [d1]
    simp only
    have hwr := d2.write { es[k] with first := first } (by omega)
    have hm := hd.maxId es[k] (List.getElem_mem hk)
    rw [show (if ({ es[k] with first := first } : FileEntry).id > fs.at'.maxId then
      ({ es[k] with first := first } : FileEntry).id else fs.at'.maxId) = fs.at'.maxId from if_neg (Nat.not_lt.mpr hm)] at hwr
    obtain ⟨b3, e1, e2, e3⟩ := copyRest_spec hd maxEntries _ _ (k + 1) hwr (d3.write _) (by omega) (by rw [maxEntries_eq]; omega)
      (by rw [List.length_append, htl, List.length_singleton]; omega)
    have hh3 := copyRest_high hd maxEntries _ _ (k + 1) hwr (d3.write _) (by omega)
      (by rw [List.length_append, htl, List.length_singleton]; omega) ((HighAs.readNext hh1 d1).write d2 _ (by omega))
    rw [e1] at hh3 ⊢
    simp only
    refine HighAs.commit hh3 e2 ?_
    rw [List.length_append, List.length_append, htl, List.length_singleton, List.length_drop]; omega
  · rw [hf]
    exact HighAs.refl _

/-- `remove_files`: the sectors of the removed files are given back. `ch e` are the sectors of the file `e`. -/
theorem removeLoop_data {fs : FS} {es : List FileEntry} (hd : DirInv fs es) (filter : FileEntry → Bool) (ch : FileEntry → List Nat)
    (hch : ∀ e ∈ es, keeps fs.at'.opened filter e = false → Chain fs.dev.flash e.first (ch e) ∧ (ch e).length ≤ 16384 ∧ ∀ y ∈ ch e, 32 ≤ y) :
    ∀ (fuel : Nat) (b : Builder) (new : List FileEntry) (i r s : Nat), BW fs b new fs.at'.maxId → BR fs b i → HighAs fs.dev b.dev →
    i ≤ es.length → es.length - i < fuel → new.length + (es.length - i) ≤ 2518 →
    HighAs fs.dev (removeLoop filter fuel b r s).2.dev ∧
    (removeLoop filter fuel b r s).2.mng =
      (((es.drop i).filter (fun e => !keeps fs.at'.opened filter e)).flatMap ch).foldl SectorsMng.returnSector b.mng := by
  intro fuel
  induction fuel with
  | zero => exact fun b new i _ _ _ _ _ _ h => absurd h (Nat.not_lt_zero _)
  | succ fuel ih =>
    intro b new i r s hw hr hh hi hf hl
    rw [removeLoop]
    by_cases hlt : i < es.length
    · obtain ⟨b1, h1, h2, h3, h4⟩ := readNext_some hd hw hr (by omega) hlt
      have hh1 : HighAs fs.dev b1.dev := hh.readNext h1
      rw [h1]
      simp only
      have hdrop := List.drop_eq_getElem_cons hlt
      have hwr := h2.write es[i] (by omega)
      have hm := hd.maxId es[i] (List.getElem_mem hlt)
      rw [if_neg (by omega)] at hwr
      have hhw := hh1.write h2 es[i] (by omega)
      have hwm : (b1.write es[i]).mng = b.mng := h4
      have hkeep : keeps fs.at'.opened filter es[i] = true → ∀ r s, _ := fun hk r s =>
        ih (b1.write es[i]) (new ++ [es[i]]) (i + 1) r s hwr (h3.write _) hhw (by omega) (by omega)
          (by rw [List.length_append, List.length_singleton]; omega)
      by_cases hfil : filter es[i] = true
      · rw [if_pos hfil]
        have hop : b1.at'.isOpened es[i].id = fs.at'.opened.any (· == es[i].id) := by
          unfold AT.isOpened; rw [h2.opened]
        by_cases hopn : fs.at'.opened.any (· == es[i].id) = true
        · rw [hop, if_pos hopn]
          have hk : keeps fs.at'.opened filter es[i] = true := by unfold keeps; rw [hopn, Bool.or_true]
          have := hkeep hk r (s + 1)
          rw [hwm] at this
          rw [hdrop, List.filter_cons, hk]
          exact this
        · have hopf : fs.at'.opened.any (· == es[i].id) = false := by
            cases h : fs.at'.opened.any (· == es[i].id) with
            | false => rfl
            | true => exact absurd h hopn
          rw [hop, if_neg hopn]
          have hk : keeps fs.at'.opened filter es[i] = false := by unfold keeps; rw [hopf, hfil]; rfl
          obtain ⟨hc, hlen, hge⟩ := hch es[i] (List.getElem_mem hlt) hk
          have hc' : Chain b1.dev.flash es[i].first (ch es[i]) := by
            refine hc.congr (fun x hx => ?_)
            apply Flash.read_congr
            intro k hk
            have := hge x hx
            exact (hh1.high _ (by omega)).symm
          have hrl := releaseLoop_chain hc' (SECTORS_COUNT + 1) b1.mng (by unfold SECTORS_COUNT; omega)
          have hbr : b1.releaseFileSectors es[i] = (.ok (), { b1 with mng := (ch es[i]).foldl SectorsMng.returnSector b1.mng }) := by
            unfold Builder.releaseFileSectors
            rw [hrl]
          rw [hbr]
          simp only
          have hbw : BW fs { b1 with mng := (ch es[i]).foldl SectorsMng.returnSector b1.mng } new fs.at'.maxId :=
            ⟨h2.seq, h2.pos, h2.opened, h2.trace, h2.w, h2.count, h2.maxId, h2.data⟩
          have hbrr : BR fs { b1 with mng := (ch es[i]).foldl SectorsMng.returnSector b1.mng } (i + 1) := ⟨h3.unfinished, h3.curr, h3.readI, h3.buf⟩
          have := ih _ new (i + 1) (r + 1) s hbw hbrr hh1 (by omega) (by omega) (by omega)
          rw [hdrop, List.filter_cons, hk]
          simp only [Bool.not_false, if_true, List.flatMap_cons, List.foldl_append]
          rw [h4] at this ⊢
          exact this
      · rw [if_neg hfil]
        have hff : filter es[i] = false := by
          cases h : filter es[i] with
          | false => rfl
          | true => exact absurd h hfil
        have hk : keeps fs.at'.opened filter es[i] = true := by unfold keeps; rw [hff]; rfl
        have := hkeep hk r s
        rw [hwm] at this
        rw [hdrop, List.filter_cons, hk]
        exact this
    · have : i = es.length := by omega
      subst this
      obtain ⟨b1, h1, h2, h4⟩ := readNext_none hd hw hr (by omega)
      rw [h1]
      rw [List.drop_length]
      exact ⟨hh.readNext h1, h4⟩

theorem removeFiles_data {fs : FS} {es : List FileEntry} (hd : DirInv fs es) (hm : MngRange fs.mng) (filter : FileEntry → Bool) (ch : FileEntry → List Nat)
    (hch : ∀ e ∈ es, keeps fs.at'.opened filter e = false → Chain fs.dev.flash e.first (ch e) ∧ (ch e).length ≤ 16384 ∧ ∀ y ∈ ch e, 32 ≤ y) :
    HighAs fs.dev (fs.removeFiles filter).2.dev ∧
    (fs.removeFiles filter).2.mng = ((es.filter (fun e => !keeps fs.at'.opened filter e)).flatMap ch).foldl SectorsMng.returnSector fs.mng := by
  obtain ⟨h1, h2, h3⟩ := Builder.new_spec fs
  have hcap := hd.cap
  have hdat := removeLoop_data hd filter ch hch maxEntries (Builder.new fs) [] 0 0 0 h1 h2 (HighAs.new fs) (by omega)
    (by rw [maxEntries_eq]; omega) (by rw [List.length_nil]; omega)
  rcases removeLoop_spec hd filter maxEntries (Builder.new fs) [] 0 0 0 h1 h2 (HighSame.new fs) (by rw [h3]; exact hm) (by omega)
    (by rw [maxEntries_eq]; omega) (by rw [List.length_nil]; omega) with ⟨b', g1, g2, g3⟩ | ⟨e, b', g1, g2⟩
  · unfold FS.removeFiles
    rw [g1] at hdat ⊢
    simp only at hdat ⊢
    rw [List.drop_zero] at hdat g2
    rw [List.nil_append] at g2
    have hle := List.length_filter_le (keeps fs.at'.opened filter) es
    obtain ⟨h9, h10⟩ := g2.commit (by omega)
    refine ⟨HighAs.commit hdat.1 g2 (by omega), ?_⟩
    rw [h10, hdat.2, h3]
  · obtain ⟨x, hx, _, hk, hn⟩ := g2
    exact absurd ⟨ch x, hch x hx hk⟩ hn

/-! ### the sector manager -/

theorem returns_inv (l : List Nat) : ∀ {m : SectorsMng} {out : List Nat}, m.Inv (l ++ out) → (l.foldl SectorsMng.returnSector m).Inv out := by
  induction l with
  | nil => exact fun h => h
  | cons x l ih =>
    intro m out h
    rw [List.foldl_cons]
    apply ih
    have := returnSector_spec h (x := x) (by simp)
    rwa [List.cons_append, List.erase_cons_head] at this

theorem returns_ahead (l : List Nat) : ∀ (m : SectorsMng), (l.foldl SectorsMng.returnSector m).ahead = m.ahead ∧ (l.foldl SectorsMng.returnSector m).asyncAhead = m.asyncAhead := by
  induction l with
  | nil => exact fun m => ⟨rfl, rfl⟩
  | cons x l ih => intro m; rw [List.foldl_cons]; exact ih _

theorem claims_inv (l : List Nat) : ∀ {m : SectorsMng} {out : List Nat}, m.Inv out → m.ahead = [] → m.asyncAhead = [] → (l ++ out).Nodup →
    (∀ x ∈ l, InData x) → (l.foldl SectorsMng.claimSector m).Inv (l.reverse ++ out) ∧
      (l.foldl SectorsMng.claimSector m).ahead = [] ∧ (l.foldl SectorsMng.claimSector m).asyncAhead = [] := by
  induction l with
  | nil => exact fun h h1 h2 _ _ => ⟨h, h1, h2⟩
  | cons x l ih =>
    intro m out h h1 h2 hn hd
    rw [List.foldl_cons]
    rw [List.cons_append, List.nodup_cons] at hn
    have hx : x ∉ out := fun hm => hn.1 (List.mem_append_right _ hm)
    have hc := claimSector_spec h h1 h2 (hd x (by simp)) hx
    have := ih (out := x :: out) hc h1 h2 (by
      rw [List.nodup_append] at hn ⊢
      refine ⟨hn.2.1, List.nodup_cons.mpr ⟨hx, hn.2.2.1⟩, ?_⟩
      intro a ha b hb
      rcases List.mem_cons.mp hb with rfl | hb
      · intro he; subst he; exact hn.1 (List.mem_append_left _ ha)
      · exact hn.2.2.2 a ha b hb) (fun y hy => hd y (List.mem_cons_of_mem _ hy))
    rw [List.reverse_cons, List.append_assoc]
    exact this

/-- start-up claims the sectors of all files -/
theorem claimFiles_chains {fl : Flash} (ch : FileEntry → List Nat) : ∀ (es : List FileEntry) (m : SectorsMng),
    (∀ e ∈ es, Chain fl e.first (ch e) ∧ (ch e).length ≤ 16384) → claimFiles fl es m = .ok ((es.flatMap ch).foldl SectorsMng.claimSector m) := by
  intro es
  induction es with
  | nil => exact fun m _ => rfl
  | cons e es ih =>
    intro m h
    obtain ⟨hc, hl⟩ := h e (by simp)
    rw [claimFiles, claimChain_chain hc (SECTORS_COUNT + 1) m (by unfold SECTORS_COUNT; omega)]
    simp only
    rw [ih _ (fun x hx => h x (List.mem_cons_of_mem _ hx)), List.flatMap_cons, List.foldl_append]

end Verif.Vlfs
