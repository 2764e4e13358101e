import Verif.Lemmas.SystemHist
import Verif.Props.Directory
/-
Concrete histories used to show that hypotheses of theorems are met.
-/
namespace Verif.Vlfs
open Verif Verif.Spec

theorem swapRemove_last (l : List Nat) (x : Nat) : swapRemove (l ++ [x]) l.length = l := by
  unfold swapRemove
  rw [List.getLast?_concat]
  simp only
  rw [List.set_append_right _ _ (by omega)]
  simp

theorem markClosed_last {fs : FS} {l : List Nat} {id : Nat} (h : fs.at'.opened = l ++ [id]) (hn : id ∉ l) : (fs.markClosed id).at'.opened = l := by
  have hi : fs.at'.opened.findIdx? (· == id) = some l.length := by
    rw [h, List.findIdx?_append]
    have : l.findIdx? (· == id) = none := by
      rw [List.findIdx?_eq_none_iff]
      intro x hx
      simp only [beq_eq_false_iff_ne]
      intro he; subst he; exact hn hx
    rw [this]
    simp
  unfold FS.markClosed
  rw [hi]
  simp only
  rw [h, swapRemove_last]

theorem closeWriter_opened {crc : Bytes → UInt32} {fs : FS} {w : FileWriter} {l : List Nat} {id : Nat} (hw : w.id = id)
    (h : fs.at'.opened = l ++ [id]) (hn : id ∉ l) : (fs.closeWriter crc w).at'.opened = l := by
  unfold FS.closeWriter
  rw [hw]
  exact markClosed_last (fs := { fs with dev := w.close crc fs.dev }) h hn

theorem format_sys (crc : Bytes → UInt32) : Sys crc (FS.mount fun _ => 0xFF).2 [] [] ∧ (FS.mount fun _ => 0xFF).2.at' = AT.default ∧
    (FS.mount fun _ => 0xFF).2.mng = SectorsMng.new := by
  obtain ⟨h1, h2⟩ := format_inv _ Props.blank_noheader
  rw [h1]
  refine ⟨⟨⟨h2, mngRange_new, by intro e he; simp at he, by intro x hx; simp at hx⟩, by simp, SectorsMng.Inv_new, ?_, by simp⟩, rfl, rfl⟩
  intro x hx
  have hx : x ∈ SectorsMng.new.ahead ++ SectorsMng.new.asyncAhead := hx
  exact absurd hx (by simp [SectorsMng.new])

/-- a file that was just opened for writing -/
theorem demo_fresh (crc : Bytes → UInt32) : ∃ fs new, Hist crc fs [⟨1, 5, [], [], [], some (FileWriter.new new 1), true, false⟩] ∧ fs.at'.opened = [1] ∧
    Sys crc fs [⟨⟨1, 5, [], [], [], some (FileWriter.new new 1), true, false⟩, ⟨1, 5, some new⟩, [], []⟩] [] ∧ fs.at'.seq = 3 ∧ fs.at'.maxId = 1 := by
  obtain ⟨s0, a0, m0⟩ := format_sys crc
  have h0 : Hist crc (FS.mount fun _ => 0xFF).2 [] := .format _ Props.blank_noheader
  generalize (FS.mount fun _ => 0xFF).2 = fs0 at s0 a0 h0 m0
  have ok0 : countersOk fs0 := by unfold countersOk; rw [a0]; exact ⟨by decide, by decide⟩
  obtain ⟨fs1, c1, c2, c3⟩ := createFile_spec s0.reach.dir 5 (by decide)
  have hid : fs0.at'.maxId + 1 = 1 := by rw [a0]; rfl
  rw [hid] at c1 c2
  obtain ⟨_, o1, s1⟩ := create_sys s0 c1 (by decide) (by omega) ok0
  have h1 : Hist crc fs1 _ := h0.step (.dir (.create 5 _ fs1 c1 (by decide) (by omega) ok0))
  have e1 := c2.seq
  have e2 := c2.maxId
  rw [a0] at e1 o1
  have ok1 : countersOk fs1 := by unfold countersOk; rw [e1, e2]; exact ⟨by decide, by decide⟩
  have o1' : fs1.at'.opened = [] := o1
  obtain ⟨new, fs2, g1, g2, s2⟩ := openWrite_fresh (as := []) (bs := []) s1 rfl rfl rfl (by rw [o1']; exact List.not_mem_nil) (by rw [o1']; decide) ok1
    (by rw [(freeBytes_eq s1.inv).1]; decide) (fun _ => 0)
  have h2 : Hist crc fs2 _ := h1.step (.openWrite 1 (fun _ => 0) _ fs2 [] [] _ rfl rfl rfl rfl g1 ok1)
  -- the counters after opening
  have hcnt : fs2.at'.seq = 3 ∧ fs2.at'.maxId = 1 := by
    have hfind := s1.find (f := ⟨⟨1, 5, [], [], [], none, false, false⟩, ⟨1, 5, none⟩, [], []⟩) (by simp)
    obtain ⟨j, hj⟩ := hfind
    unfold FS.openForWrite at g1
    rw [hj] at g1
    simp only at g1
    rw [if_neg (fun hx => by have := (isOpened_iff _ _).mp hx; rw [o1'] at this; exact List.not_mem_nil this), markOpened_ok (by rw [o1']; decide)] at g1
    simp only at g1
    have s1' : Sys crc { fs1 with at' := { fs1.at' with opened := fs1.at'.opened ++ [1] } } [⟨⟨1, 5, [], [], [], none, false, false⟩, ⟨1, 5, none⟩, [], []⟩] [] :=
      s1.opened rfl rfl rfl rfl rfl rfl (fun g _ _ _ hg => List.mem_append_left _ hg)
    rcases s1'.claim 0 0 with ⟨x, d1, d2, d3, d4, d5, _⟩ | ⟨d1, _⟩
    · have d1 : (fs1.mng.claim 0 0 fs1.dev).1 = .ok x := d1
      have d2 := d2.reach.dir
      generalize fs1.mng.claim 0 0 fs1.dev = r at d1 d2 g1
      obtain ⟨r0, m, d⟩ := r
      simp only at d1
      subst d1
      simp only at g1
      rcases setFirstSector_spec d2 1 (some x) with ⟨_, g, k1, k2, k3⟩ | ⟨k1, _⟩
      · have k1 : FS.setFirstSector ⟨{ fs1.at' with opened := fs1.at'.opened ++ [1] }, m, d⟩ 1 (some x) = (.ok (), g) := k1
        rw [k1] at g1
        injection g1 with _ g1
        subst g1
        refine ⟨k2.seq.trans ?_, k2.maxId.trans ?_⟩
        · show fs1.at'.seq + 1 = 3
          rw [e1]; rfl
        · exact e2
      · exact absurd rfl (k1 ⟨1, 5, none⟩ (by simp))
    · have d1 : fs1.mng.claim 0 0 fs1.dev = (.error .deviceFull, fs1.mng, fs1.dev) := d1
      rw [d1] at g1
      injection g1 with g1 _
      exact absurd g1 (by simp)
  exact ⟨fs2, new, h2, by rw [g2, o1']; rfl, s2, hcnt⟩

/-- a file with id 1 was created and is open; `[1, 2, 3]` was appended -/
theorem demo_open (crc : Bytes → UInt32) : ∃ fs w, Hist crc fs [⟨1, 5, [1, 2, 3], [], [], some w, true, false⟩] ∧ fs.at'.opened = [1] ∧ w.id = 1 ∧
    Sys crc fs [⟨⟨1, 5, [1, 2, 3], [], [], some w, true, false⟩, ⟨1, 5, some w.sector⟩, [], [1, 2, 3]⟩] [] ∧ fs.at'.seq = 3 ∧ fs.at'.maxId = 1 := by
  obtain ⟨fs2, new, h2, g2, s2, hcnt⟩ := demo_fresh crc
  obtain ⟨first, f1, f2⟩ := Sys.wst (as := []) (bs := []) s2 rfl
  obtain ⟨t1, t2, t3⟩ := extend_small f2 (fun _ => (0, 0)) [1, 2, 3] (by decide) (by simp)
  have s3 := Sys.write (as := []) (bs := []) s2 rfl f1 t3 ⟨1, 5, [1, 2, 3], [], [], some (FileWriter.extend crc (FileWriter.new new 1) fs2.mng fs2.dev (fun _ => (0, 0)) [1, 2, 3]).2.1, true, false⟩
    rfl rfl rfl rfl rfl List.prefix_rfl ⟨[], List.prefix_rfl, rfl⟩
  refine ⟨_, _, h2.step (.extend (fun _ => (0, 0)) [1, 2, 3] _ _ _ [] [] _ rfl rfl rfl (Prod.ext t1 rfl)), ?_, ?_, ?_, hcnt⟩
  · show fs2.at'.opened = [1]
    exact g2
  · exact t3.id
  · have hsec : (FileWriter.extend crc (FileWriter.new new 1) fs2.mng fs2.dev (fun _ => (0, 0)) [1, 2, 3]).2.1.sector = new := rfl
    rw [show (⟨1, 5, some (FileWriter.extend crc (FileWriter.new new 1) fs2.mng fs2.dev (fun _ => (0, 0)) [1, 2, 3]).2.1.sector⟩ : FileEntry) = ⟨1, 5, some new⟩ by rw [hsec]]
    exact s3

/-- the same file after closing -/
theorem demo_closed (crc : Bytes → UInt32) : ∃ fs s, Hist crc fs [⟨1, 5, [1, 2, 3], [1, 2, 3], [], none, false, false⟩] ∧ fs.at'.opened = [] ∧
    Sys crc fs [⟨⟨1, 5, [1, 2, 3], [1, 2, 3], [], none, false, false⟩, ⟨1, 5, some s⟩, [(s, [1, 2, 3])], []⟩] [] ∧ fs.at'.seq = 3 ∧ fs.at'.maxId = 1 := by
  obtain ⟨fs, w, h1, h2, h3, h4, h5, h6⟩ := demo_open crc
  obtain ⟨m1, m2, m3, m4, m5, m6⟩ := markClosed_fields { fs with dev := w.close crc fs.dev } w.id
  exact ⟨_, w.sector, h1.step (.close w [] [] _ rfl rfl), closeWriter_opened (l := []) h3 h2 (by simp), close_sys (as := []) (bs := []) h4 rfl,
    m3.trans h5, m5.trans h6⟩

end Verif.Vlfs
