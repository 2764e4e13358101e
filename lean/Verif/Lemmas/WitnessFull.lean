import Verif.Lemmas.SystemUse
/-
States that witness hypotheses: a full chip, and a file made with `create_file_and_open_for_write`.
-/
namespace Verif.Vlfs
open Verif Verif.Spec

theorem segs_length {crc : Bytes → UInt32} {fl : Flash} {s cur : Nat} {l : List (Nat × Bytes)} (h : Segs crc fl s l cur) :
    (bytesOf l).length ≤ 4016 * l.length := by
  induction h with
  | nil s => simp
  | cons s D next l cur h hn ht ih =>
    rw [show bytesOf ((s, D) :: l) = D ++ bytesOf l from rfl, List.length_append, List.length_cons]
    obtain ⟨n, _, ⟨h1, h2⟩ | ⟨_, h2⟩⟩ := h.size
    · omega
    · subst h2; rw [List.length_nil]; omega

/-- no file holds more than the chip can -/
theorem SysInv.capacity {crc : Bytes → UInt32} {fs : FS} {ks : List Known} (h : SysInv crc fs ks) {k : Known} (hk : k ∈ ks)
    {w : FileWriter} (hw : k.writer = some w) : k.data.length ≤ 4016 * 16384 := by
  obtain ⟨files, leak, f, hf, hs, hm, rfl⟩ := h.file hk
  obtain ⟨_, ⟨first, h1, h2⟩, h3, h4, p, h5, h6⟩ := (hs.ok f hm).open' w hw
  obtain ⟨d1, d2⟩ := hs.own_data hm
  have hown : f.own = secs f.segs ++ [w.sector] := by unfold FileSt.own; rw [hw]
  rw [hown] at d1 d2
  have hl := data_length d1 d2
  unfold secs at hl
  rw [List.length_append, List.length_map, List.length_singleton] at hl
  have h7 := segs_length h2
  have h8 := h3.max
  have h9 := congrArg List.length h6
  rw [List.length_append, List.length_append] at h9
  omega

theorem openWrite_full {crc : Bytes → UInt32} {fs : FS} {files : List FileSt} {leak : List Nat} (hs : Sys crc fs files leak) {f : FileSt} (hm : f ∈ files)
    (hno : f.k.id ∉ fs.at'.opened) (hlen : fs.at'.opened.length < 32) (hfree : fs.mng.freeBytes = 0) (rng : Nat → Nat) :
    ∃ fs', fs.openForWrite f.k.id rng = (.error .deviceFull, fs') := by
  obtain ⟨j, hj⟩ := hs.find hm
  have hid := (hs.ok f hm).id
  unfold FS.openForWrite
  rw [hj]
  simp only
  rw [hid, if_neg (fun hx => hno ((isOpened_iff _ _).mp hx)), markOpened_ok hlen]
  simp only
  have hs1 : Sys crc { fs with at' := { fs.at' with opened := fs.at'.opened ++ [f.k.id] } } files leak :=
    hs.opened rfl rfl rfl rfl rfl rfl (fun g _ _ _ hg => List.mem_append_left _ hg)
  rcases hs1.claim (rng 0) (rng 1) with ⟨new, c1, c2, _⟩ | ⟨c1, _⟩
  · exfalso
    obtain ⟨g1, g2⟩ := freeBytes_eq hs.inv
    obtain ⟨_, g3⟩ := freeBytes_eq c2.inv
    rw [List.cons_append, List.length_cons] at g3
    rw [hfree] at g1
    omega
  · have c1 : fs.mng.claim (rng 0) (rng 1) fs.dev = (.error .deviceFull, fs.mng, fs.dev) := c1
    rw [c1]
    exact ⟨_, rfl⟩

theorem exists_bytes (n : Nat) : ∃ s : Bytes, s.length = n := ⟨List.replicate n 0, List.length_replicate ..⟩

/-- a full chip with one closed file -/
theorem demo_full (crc : Bytes → UInt32) : ∃ fs k, Hist crc fs [k] ∧ k.id = 1 ∧ k.writer = none ∧ fs.at'.opened = [] ∧ countersOk fs ∧ fs.mng.freeBytes = 0 := by
  obtain ⟨fs, w, h1, h2, h3, h4, h5, h6⟩ := demo_open crc
  obtain ⟨slice, hl⟩ := exists_bytes (4016 * 16384)
  rcases step_extend (hist_inv h1) (a := []) (b := []) rfl rfl rfl (fun _ => (0, 0)) slice with ⟨_, g⟩ | ⟨g1, g2, g3⟩
  · exfalso
    have := g.capacity (k := ⟨1, 5, [1, 2, 3] ++ slice, [], [], some (fs.extendWriter crc w (fun _ => (0, 0)) slice).2.1, true, false⟩) (by simp) rfl
    simp only [List.length_append, List.length_cons, List.length_nil, hl] at this
    omega
  · generalize hr : fs.extendWriter crc w (fun _ => (0, 0)) slice = r at g1 g2 g3
    obtain ⟨r0, w1, fs1⟩ := r
    simp only at g1 g2 g3
    subst g1
    have e : fs1.at' = fs.at' := (congrArg (fun r => r.2.2.at') hr).symm
    have hh := h1.step (.extendErr (fun _ => (0, 0)) slice .deviceFull w w1 fs1 [] [] _ rfl rfl rfl hr)
    have hh2 := hh.step (.close w1 [] [] _ rfl rfl)
    obtain ⟨m1, m2, m3, m4, m5, m6⟩ := markClosed_fields { fs1 with dev := w1.close crc fs1.dev } w1.id
    have hid : w1.id = 1 := (g3.durable (k := ⟨1, 5, [1, 2, 3], [], slice, some w1, true, false⟩) (by simp) rfl).2
    refine ⟨_, _, hh2, rfl, rfl, closeWriter_opened (l := []) hid (by rw [e, h2]; rfl) (by simp), ?_, ?_⟩
    · unfold countersOk FS.closeWriter
      rw [m3, m5]
      simp only
      rw [e, h5, h6]
      exact ⟨by decide, by decide⟩
    · unfold FS.closeWriter
      rw [m2]
      exact g2

/-- `create_file_and_open_for_write` succeeds while there is room -/
theorem createFileAndOpen_ok {crc : Bytes → UInt32} {fs : FS} {files : List FileSt} {leak : List Nat} (hs : Sys crc fs files leak) (hl : files.length < 2518)
    (hfree : 0 < fs.mng.freeBytes) (typ r1 r2 : Nat) : ∃ e fs', fs.createFileAndOpen typ r1 r2 = (.ok e, fs') := by
  have hl' : (files.map (·.e)).length < 2518 := by rw [List.length_map]; exact hl
  have hd := hs.reach.dir
  obtain ⟨h1, h2, h3⟩ := Builder.new_spec fs
  obtain ⟨b, h4, h5, h6⟩ := copyRest_spec hd maxEntries (Builder.new fs) [] 0 h1 h2 (by omega)
    (by rw [maxEntries_eq]; omega) (by rw [List.length_nil]; omega)
  have hh := copyRest_high hd maxEntries (Builder.new fs) [] 0 h1 h2 (by omega) (by rw [List.length_nil]; omega) (HighAs.new fs)
  rw [h4] at hh
  unfold FS.createFileAndOpen
  simp only [h4]
  unfold Builder.writeNewFileAndOpen
  simp only
  have hbm : b.getNewFileId.2.mng = fs.mng := by show b.mng = _; rw [h6, h3]
  have hbd : b.getNewFileId.2.dev = b.dev := rfl
  rw [hbm, hbd]
  have hhd : HighAs fs.dev b.dev := hh
  rcases claim_spec hs.inv r1 r2 b.dev (blank_high (inv_range hs.inv) hs.blank hhd.high) with ⟨x, c1, _⟩ | ⟨_, c2⟩
  · rw [c1]
    exact ⟨_, _, rfl⟩
  · exfalso
    have e : DATA_REGION_SECTORS = 16352 := rfl
    rw [freeBytes_full hs.inv (by rw [c2, e])] at hfree
    omega

end Verif.Vlfs
