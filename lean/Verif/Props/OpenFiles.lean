import Verif.Props.Files
import Verif.Lemmas.OpenedList
import Verif.Lemmas.Witness
/-
C17: files are protected until they are closed, and not longer.
-/
namespace Verif.Props
open Verif Verif.Vlfs Verif.Spec

theorem closed_openable {crc : Bytes → UInt32} {fs : FS} {ks : List Known} {k : Known} (hr : Hist crc fs ks) (hk : k ∈ ks) (hw : k.writer = none) (hdm : k.damaged = false) (ho : k.id ∉ fs.at'.opened)
    (hlen : fs.at'.opened.length < 32) (hok : countersOk fs) :
    (∃ r fs', fs.openForRead k.id = (.ok r, fs')) ∧ ∀ rng, 4016 < fs.mng.freeBytes → ∃ w fs', fs.openForWrite k.id rng = (.ok w, fs') := by
  constructor
  · obtain ⟨files, leak, f, hf, hs, hm, rfl⟩ := (hist_inv hr).file hk
    rcases openRead_spec hs hm with ⟨q, _⟩ | ⟨q, _⟩ | ⟨_, _, q⟩
    · exact absurd q ho
    · omega
    · exact ⟨_, _, q⟩
  · intro rng hfree
    obtain ⟨a, b, hab⟩ := List.append_of_mem hk
    rcases step_openWrite (hist_inv hr) hab hw hdm hok rng with ⟨g, _⟩ | ⟨g, _⟩ | ⟨g, _⟩ | ⟨_, _, w, fs', g, _⟩
    · exact absurd g ho
    · omega
    · omega
    · exact ⟨w, fs', g⟩

/-- **C17** At most 32 files are open at a time, and none is registered twice. -/
theorem C17_open_limit {crc : Bytes → UInt32} {fs : FS} {ks : List Known} (hr : Hist crc fs ks) : fs.at'.opened.length ≤ 32 ∧ fs.at'.opened.Nodup :=
  ⟨hist_openLen hr, hist_nodup hr⟩

/-- **C17** A file that was open and is closed (its reader) can be opened again, for reading and, if two sectors are free, for writing. -/
theorem C17_reader_closed_reopens {crc : Bytes → UInt32} {fs : FS} {ks : List Known} {k : Known} {r : FileReader} (hr : Hist crc fs ks) (hk : k ∈ ks) (hw : k.writer = none) (hdm : k.damaged = false)
    (ho : k.id ∈ fs.at'.opened) (hid : r.id = k.id) (hok : countersOk fs) :
    (∃ r' fs', (fs.closeReader r).openForRead k.id = (.ok r', fs')) ∧ ∀ rng, 4016 < fs.mng.freeBytes → ∃ w fs', (fs.closeReader r).openForWrite k.id rng = (.ok w, fs') := by
  obtain ⟨m1, m2, m3, m4, m5, m6⟩ := markClosed_fields fs r.id
  have hr' := hr.step (.closeRead r (by
    intro k' hk' he hs
    exfalso
    have : k' = k := by
      obtain ⟨files, leak, hf, hsys⟩ := hist_inv hr
      rw [← hf] at hk hk'
      obtain ⟨f1, a1, rfl⟩ := List.mem_map.mp hk'
      obtain ⟨f2, a2, rfl⟩ := List.mem_map.mp hk
      obtain ⟨as, bs, rfl⟩ := List.append_of_mem a2
      simp only [List.mem_append, List.mem_cons] at a1
      have hidk : f1.k.id = f2.k.id := by rw [he, hid]
      rcases a1 with a1 | a1 | a1
      · exact absurd hidk (hsys.idNe (List.mem_append_left _ a1))
      · rw [a1]
      · exact absurd hidk (hsys.idNe (List.mem_append_right _ a1))
    rw [this, hw] at hs
    exact absurd hs (by simp)))
  have hgone : k.id ∉ (fs.closeReader r).at'.opened := by
    show k.id ∉ (fs.markClosed r.id).at'.opened
    rw [hid]; exact markClosed_gone (hist_nodup hr)
  have hlen : (fs.closeReader r).at'.opened.length < 32 := by
    show (fs.markClosed r.id).at'.opened.length < 32
    have := (markClosed_perm ho).length_eq
    rw [List.length_cons] at this
    have := hist_openLen hr
    rw [hid]
    omega
  have hm : (fs.closeReader r).mng = fs.mng := m2
  have hok' : countersOk (fs.closeReader r) :=
    ⟨by show (fs.markClosed r.id).at'.seq + 1 < _; rw [m3]; exact hok.1, by show (fs.markClosed r.id).at'.maxId + 1 < _; rw [m5]; exact hok.2⟩
  have := closed_openable hr' hk hw hdm hgone hlen hok'
  rw [hm] at this
  exact this

/-- **C17** A file whose writer was obtained with `open_file_for_write` and is closed can be opened again. -/
theorem C17_writer_closed_reopens {crc : Bytes → UInt32} {fs : FS} {ks : List Known} {k : Known} {w : FileWriter} (hr : Hist crc fs ks) (hk : k ∈ ks) (hw : k.writer = some w)
    (hg : k.guarded = true) (hok : countersOk fs) :
    (∃ r' fs', (fs.closeWriter crc w).openForRead k.id = (.ok r', fs')) ∧ ∀ rng, 4016 < fs.mng.freeBytes → ∃ w' fs', (fs.closeWriter crc w).openForWrite k.id rng = (.ok w', fs') := by
  have ho := C17_writer_protected hr hk (by rw [hw]; rfl) hg
  have hid : w.id = k.id := by
    obtain ⟨files, leak, f, hf, hs, hm, rfl⟩ := (hist_inv hr).file hk
    exact ((hs.ok f hm).open' w hw).1
  obtain ⟨a, b, hab⟩ := List.append_of_mem hk
  have hr' := hr.step (.close w a b k hab hw)
  obtain ⟨m1, m2, m3, m4, m5, m6⟩ := markClosed_fields { fs with dev := w.close crc fs.dev } w.id
  have hnd : ({ fs with dev := w.close crc fs.dev } : FS).at'.opened.Nodup := (hist_nodup hr : fs.at'.opened.Nodup)
  have ho' : w.id ∈ ({ fs with dev := w.close crc fs.dev } : FS).at'.opened := by rw [hid]; exact ho
  have hgone : k.id ∉ (fs.closeWriter crc w).at'.opened := by
    rw [← hid]; exact markClosed_gone hnd
  have hlen : (fs.closeWriter crc w).at'.opened.length < 32 := by
    have := (markClosed_perm ho').length_eq
    rw [List.length_cons] at this
    have h2 := hist_openLen hr
    have h3 : ({ fs with dev := w.close crc fs.dev } : FS).at'.opened.length = fs.at'.opened.length := rfl
    show (FS.markClosed { fs with dev := w.close crc fs.dev } w.id).at'.opened.length < 32
    omega
  have hm : (fs.closeWriter crc w).mng = fs.mng := m2
  have hok' : countersOk (fs.closeWriter crc w) :=
    ⟨by show (FS.markClosed { fs with dev := w.close crc fs.dev } w.id).at'.seq + 1 < _; rw [m3]; exact hok.1,
      by show (FS.markClosed { fs with dev := w.close crc fs.dev } w.id).at'.maxId + 1 < _; rw [m5]; exact hok.2⟩
  have := closed_openable hr' (k := { k with durable := k.data, writer := none, guarded := false }) (by simp) rfl ((hist_inv hr).whole hk hw :)  hgone hlen hok'
  rw [hm] at this
  exact this

/-- an open writer is closed, the file is opened for reading, this reader is closed, the file is opened again -/
example (crc : Bytes → UInt32) : ∃ fs w r fs1 r2 fs2, Hist crc fs [⟨1, 5, [1, 2, 3], [], [], some w, true, false⟩] ∧ 1 ∈ fs.at'.opened ∧ (fs.closeWriter crc w).openForRead 1 = (.ok r, fs1) ∧
    1 ∈ fs1.at'.opened ∧ (fs1.closeReader r).openForRead 1 = (.ok r2, fs2) := by
  obtain ⟨fs, w, h1, h2, h3, h4, h5, h6⟩ := demo_open crc
  have hok : countersOk fs := ⟨by rw [h5]; decide, by rw [h6]; decide⟩
  obtain ⟨⟨r, fs1, g⟩, _⟩ := C17_writer_closed_reopens h1 (List.mem_singleton.mpr rfl) rfl rfl hok
  have hr1 := h1.step (.close w [] [] _ rfl rfl)
  have hr2 := hr1.step (Step.openRead (crc := crc) 1)
  have g : (fs.closeWriter crc w).openForRead 1 = (.ok r, fs1) := g
  obtain ⟨files, leak, f, hf, hs, hm, hk⟩ := (hist_inv hr1).file (k := ⟨1, 5, [1, 2, 3], [1, 2, 3], [], none, false, false⟩) (List.mem_singleton.mpr rfl)
  have hkid : f.k.id = 1 := by rw [hk]
  have hspec := openRead_spec hs hm
  rw [hkid, g] at hspec
  rw [g] at hr2
  rcases hspec with ⟨_, q⟩ | ⟨_, q⟩ | ⟨_, _, q⟩
  · injection q with q _; cases q
  · injection q with q _; cases q
  injection q with q1 q2
  injection q1 with q1
  have hin : 1 ∈ fs1.at'.opened := by rw [q2]; simp
  obtain ⟨m1, m2, m3, m4, m5, m6⟩ := markClosed_fields { fs with dev := w.close crc fs.dev } w.id
  have hok1 : countersOk fs1 := by
    rw [q2]
    exact ⟨by show (FS.markClosed { fs with dev := w.close crc fs.dev } w.id).at'.seq + 1 < _; rw [m3]; exact hok.1,
      by show (FS.markClosed { fs with dev := w.close crc fs.dev } w.id).at'.maxId + 1 < _; rw [m5]; exact hok.2⟩
  obtain ⟨⟨r2, fs2, g2⟩, _⟩ := C17_reader_closed_reopens (r := r) hr2 (List.mem_singleton.mpr rfl) rfl rfl hin (by rw [q1]; rfl) hok1
  exact ⟨fs, w, r, fs1, r2, fs2, h1, by rw [h2]; simp, g, hin, g2⟩

end Verif.Props
