import Verif.Lemmas.SystemUse
import Verif.Lemmas.WitnessFull
import Verif.Lemmas.LossAny
/-
C07, C08, C10, C11, C17, C67 and the conditions under which writing fails.
The vocabulary (`Hist`, `Known`, `ReadsAs`, `runWriter`, …) is in Verif/Spec/FsHistory.lean.
-/
namespace Verif.Props
open Verif Verif.Vlfs Verif.Spec

/-! ### C07, C10 -/

/-- **C10** (and C07, for a file without content) In every reachable state: open an existing file, append and flush any way you like, close.
Reading it with reads of any sizes then returns the old content followed by everything written, and then end of
file. All other files that are closed and whose content is known are as before. -/
theorem C10_reopen_appends {crc : Bytes → UInt32} {fs fs1 fs2 : FS} {a b : List Known} {k : Known} {rng : Nat → Nat} {w w' : FileWriter} {ops : List WriterOp}
    (hr : Hist crc fs (a ++ k :: b)) (hw : k.writer = none) (hdm : k.damaged = false) (hm : k.maybe = []) (hok : countersOk fs)
    (ho : fs.openForWrite k.id rng = (.ok w, fs1)) (hrun : runWriter crc fs1 w ops = (.ok (), w', fs2)) :
    ReadsAs crc (fs2.closeWriter crc w') k.id (k.data ++ writtenBytes ops) ∧
    (∀ k' ∈ a ++ b, k'.writer = none → k'.damaged = false → k'.maybe = [] → k'.id ∉ fs.at'.opened → ReadsAs crc (fs2.closeWriter crc w') k'.id k'.data) ∧
    (fs2.closeWriter crc w').at'.opened = fs.at'.opened := by
  have h1 := hr.step (.openWrite k.id rng w fs1 a b k rfl rfl hw hdm ho hok)
  obtain ⟨hno, hlen, hop⟩ : k.id ∉ fs.at'.opened ∧ fs.at'.opened.length < 32 ∧ fs1.at'.opened = fs.at'.opened ++ [k.id] := by
    rcases step_openWrite (hist_inv hr) rfl hw hdm hok rng with ⟨_, g⟩ | ⟨_, g⟩ | ⟨_, fs3, g, _⟩ | ⟨g1, g2, w3, fs3, g, g3, _⟩
    · rw [g] at ho; injection ho with ho _; exact absurd ho (by simp)
    · rw [g] at ho; injection ho with ho _; exact absurd ho (by simp)
    · rw [g] at ho; injection ho with ho _; exact absurd ho (by simp)
    · rw [g] at ho; injection ho with _ ho; subst ho; exact ⟨g1, g2, g3⟩
  obtain ⟨dur, _, h2, h3⟩ := runWriter_hist h1 rfl hm hrun
  have h4 := h2.step (.close w' a b _ rfl rfl)
  have hwid := ((hist_inv h2).durable (k := { k with data := k.data ++ writtenBytes ops, durable := dur, writer := some w', guarded := true }) (by simp) rfl).2
  have h5 : (fs2.closeWriter crc w').at'.opened = fs.at'.opened := closeWriter_opened hwid (by rw [h3, hop]) hno
  refine ⟨?_, ?_, h5⟩
  · obtain ⟨pre, p1, _, p2⟩ := (hist_inv h4).closed (k := { k with data := k.data ++ writtenBytes ops, durable := k.data ++ writtenBytes ops, writer := none, guarded := false }) (by simp) rfl hdm
    have : pre = [] := by
      have p1 : pre <+: k.maybe := p1
      rw [hm] at p1; exact List.prefix_nil.mp p1
    subst this
    rw [List.append_nil] at p2
    exact p2 (by rw [h5]; exact hno) (by rw [h5]; exact hlen)
  · intro k' hk' hw' hdm' hm' hno'
    obtain ⟨pre, p1, _, p2⟩ := (hist_inv h4).closed (k := k') (by
      rcases List.mem_append.mp hk' with h | h
      · exact List.mem_append_left _ h
      · exact List.mem_append_right _ (List.mem_cons_of_mem _ h)) hw' hdm'
    rw [hm', List.prefix_nil] at p1
    subst p1
    rw [List.append_nil] at p2
    exact p2 (by rw [h5]; exact hno') (by rw [h5]; exact hlen)

/-- **C07** A file created with `create_file`, opened, written and flushed in any way and closed reads back as the bytes
written, in order, for any sequence of read sizes, followed by end of file. -/
theorem C07_write_read {crc : Bytes → UInt32} {fs fs0 fs1 fs2 : FS} {ks : List Known} {typ : Nat} {e : FileEntry} {rng : Nat → Nat} {w w' : FileWriter} {ops : List WriterOp}
    (hr : Hist crc fs ks) (hcap : ks.length < 2518) (ht : typ < 0x4000) (hok : countersOk fs) (hok0 : countersOk fs0)
    (hc : fs.createFile typ = (.ok e, fs0)) (ho : fs0.openForWrite e.id rng = (.ok w, fs1)) (hrun : runWriter crc fs1 w ops = (.ok (), w', fs2)) :
    ReadsAs crc (fs2.closeWriter crc w') e.id (writtenBytes ops) :=
  (C10_reopen_appends (k := ⟨e.id, typ, [], [], [], none, false, false⟩) (b := []) (hr.step (.dir (.create typ e fs0 hc hcap ht hok))) rfl rfl rfl hok0 ho hrun).1

/-- **C07** The same for `create_file_and_open_for_write`. -/
theorem C07_write_read_direct {crc : Bytes → UInt32} {fs fs1 fs2 : FS} {ks : List Known} {typ r1 r2 : Nat} {e : FileEntry} {s : Nat} {w' : FileWriter} {ops : List WriterOp}
    (hr : Hist crc fs ks) (hcap : ks.length < 2518) (ht : typ < 0x4000) (hok : countersOk fs) (hlen : fs.at'.opened.length < 32)
    (hc : fs.createFileAndOpen typ r1 r2 = (.ok e, fs1)) (hs : e.first = some s)
    (hrun : runWriter crc fs1 (FileWriter.new s e.id) ops = (.ok (), w', fs2)) :
    ReadsAs crc (fs2.closeWriter crc w') e.id (writtenBytes ops) := by
  have hst := Step.createOpen (crc := crc) (ks := ks) typ r1 r2 e fs1 hc hcap ht hok
  have h1 := hr.step hst
  rw [hs] at h1
  obtain ⟨dur, _, h2, h3⟩ := runWriter_hist (b := []) h1 rfl rfl hrun
  have h4 := h2.step (.close w' ks [] _ rfl rfl)
  have hnew : fs.at'.maxId < e.id ∧ fs1.at'.opened = fs.at'.opened := by
    obtain ⟨files, leak, hf, hsys⟩ := hist_inv hr
    have hl : (files.map (·.e)).length < 2518 := by rw [List.length_map, ← List.length_map (f := (·.k)), hf]; exact hcap
    obtain ⟨m, q1, q2, q3, q4, q5, q6⟩ := call_rewrite hsys.reach (.createOpen typ r1 r2 e fs1 hc hl ht) hok
    exact ⟨(q6 e.id (by simp)).1, q1.opened⟩
  have hno : e.id ∉ fs2.at'.opened := by
    rw [h3, hnew.2]
    intro hx
    have := hist_openIds hr _ hx
    omega
  obtain ⟨_, hsub, _⟩ := step_opened h2 (.close w' ks [] _ rfl rfl)
  obtain ⟨pre, p1, _, p2⟩ := (hist_inv h4).closed (k := ⟨e.id, typ, [] ++ writtenBytes ops, [] ++ writtenBytes ops, [], none, false, false⟩) (by simp) rfl rfl
  rw [List.prefix_nil] at p1
  subst p1
  rw [List.append_nil, List.nil_append] at p2
  have hwid : w'.id = e.id := ((hist_inv h2).durable (k := ⟨e.id, typ, [] ++ writtenBytes ops, dur, [], some w', false, false⟩) (by simp) rfl).2
  have hcl : (fs2.closeWriter crc w').at'.opened = fs2.at'.opened := by
    unfold FS.closeWriter FS.markClosed
    rw [hwid]
    have : fs2.at'.opened.findIdx? (· == e.id) = none := by
      rw [List.findIdx?_eq_none_iff]
      intro x hx
      simp only [beq_eq_false_iff_ne]
      intro he; subst he; exact hno hx
    simp only [this]
  exact p2 (by rw [hcl]; exact hno) (by rw [hcl, h3, hnew.2]; exact hlen)

/-- **C07/C10** In every reachable state, a closed file (not held by a reader, and fewer than 32 files being open) reads as its
known content, followed by a part of what a failed or interrupted append may have left. -/
theorem C10_closed_content {crc : Bytes → UInt32} {fs : FS} {ks : List Known} {k : Known} (hr : Hist crc fs ks) (hk : k ∈ ks) (hw : k.writer = none) (hdm : k.damaged = false)
    (hno : k.id ∉ fs.at'.opened) (hlen : fs.at'.opened.length < 32) : ∃ pre, pre <+: k.maybe ∧ ReadsAs crc fs k.id (k.data ++ pre) := by
  obtain ⟨pre, h1, _, h2⟩ := (hist_inv hr).closed hk hw hdm
  exact ⟨pre, h1, h2 hno hlen⟩

/-! ### C08 -/

/-- **C08** In every reachable state: a file with known content is opened; operations `ops1` are carried out, then `flush`, then `ops2`; power is lost
during the next call of the writer (an append of `slice`, a flush or a close), before or after any flash operation or in the
middle of a page program or erase. The chip then mounts, and the file reads as a prefix of everything written, including everything
written before the flush. -/
theorem C08_flushed_survives {crc : Bytes → UInt32} {fs fs1 fs2 fs3 fs4 fs5 : FS} {a b : List Known} {k : Known} {rng : Nat → Nat} {w w2 w3 w4 : FileWriter}
    {ops1 ops2 : List WriterOp} {r1 r2 : Nat} {slice : Bytes} {fops : List FlashOp} {fl' : Flash}
    (hr : Hist crc fs (a ++ k :: b)) (hw : k.writer = none) (hdm : k.damaged = false) (hm : k.maybe = []) (hok : countersOk fs)
    (ho : fs.openForWrite k.id rng = (.ok w, fs1)) (h1 : runWriter crc fs1 w ops1 = (.ok (), w2, fs2))
    (hf : fs2.flushWriter crc w2 r1 r2 = (.ok (), w3, fs3)) (h2 : runWriter crc fs3 w3 ops2 = (.ok (), w4, fs4))
    (hc : WriterCall crc fs4 w4 fs5 slice) (hi : issued fs4 fs5 fops) (hcr : CrashImage fs4.dev.flash fops fl') :
    ∃ fs', FS.mount fl' = (.ok (), fs') ∧ ∃ c, k.data ++ writtenBytes ops1 <+: c ∧
      c <+: k.data ++ writtenBytes ops1 ++ writtenBytes ops2 ++ slice ∧ ReadsAs crc fs' k.id c := by
  have g1 := hr.step (.openWrite k.id rng w fs1 a b k rfl rfl hw hdm ho hok)
  obtain ⟨dur, _, g2, _⟩ := runWriter_hist g1 rfl hm h1
  have g3 := g2.step (.flush r1 r2 w2 w3 fs3 a b _ rfl rfl hf)
  obtain ⟨dur2, e2, g4, _⟩ := runWriter_hist g3 rfl hm h2
  generalize hk4 : ({ k with data := k.data ++ writtenBytes ops1 ++ writtenBytes ops2, durable := dur2, writer := some w4, guarded := true } : Known) = k4
  have g4 : Hist crc fs4 (a ++ k4 :: b) := by rw [← hk4]; exact g4
  have hw4 : k4.writer = some w4 := by rw [← hk4]
  have hm4 : k4.maybe = [] := by rw [← hk4]; exact hm
  obtain ⟨fs', m1, _, m3, m4⟩ := step_loss (hist_inv g4) (.mk a b k4 w4 fs5 slice fops fl' rfl hw4 (.inl hm4) hc hi hcr)
  refine ⟨fs', m1, ?_⟩
  have hd : k4.durable <+: k4.data ++ k4.maybe := ((hist_inv g4).durable (k := k4) (by simp) hw4).1
  obtain ⟨c, c1, c2, c3⟩ := (m4.afterLoss m3 (k := { k4 with maybe := k4.maybe ++ slice }) (by simp) ((hist_inv g4).whole (k := k4) (by simp) hw4)).2 (by rw [hw4]; rfl)
    (by show k4.durable <+: k4.data ++ (k4.maybe ++ slice); rw [← List.append_assoc]; exact hd.trans (List.prefix_append _ _))
  rw [hm4] at c2
  rw [← hk4] at c1 c2 c3
  exact ⟨c, e2.trans c1, c2, c3⟩

/-- what is known about `k` still holds after power was lost and the file system restarted as `fs` (nothing is known about the content of a
file that was being deleted when power was lost earlier) -/
def Survives (crc : Bytes → UInt32) (fs : FS) (k : Known) : Prop := k.damaged = false →
  (k.writer = none → ∃ pre, pre <+: k.maybe ∧ ReadsAs crc fs k.id (k.data ++ pre)) ∧
  (k.writer.isSome = true → ∃ c, k.durable <+: c ∧ c <+: k.data ++ k.maybe ∧ ReadsAs crc fs k.id c)

/-- **C08** In every reachable state: power loss during any call of the writer of `k` leaves a chip that mounts, on which `k`
reads as a prefix of what was written that includes everything flushed, all closed files are unchanged, and the
other open files also keep what was flushed. -/
theorem C08_power_loss_write {crc : Bytes → UInt32} {fs fs1 : FS} {a b : List Known} {k : Known} {w : FileWriter} {slice : Bytes} {fops : List FlashOp} {fl' : Flash}
    (hr : Hist crc fs (a ++ k :: b)) (hw : k.writer = some w) (hm : k.maybe = [] ∨ slice = []) (hc : WriterCall crc fs w fs1 slice)
    (hi : issued fs fs1 fops) (hcr : CrashImage fs.dev.flash fops fl') :
    ∃ fs', FS.mount fl' = (.ok (), fs') ∧ Survives crc fs' { k with maybe := k.maybe ++ slice } ∧ ∀ k' ∈ a ++ b, Survives crc fs' k' := by
  obtain ⟨fs', m1, _, m3, m4⟩ := step_loss (hist_inv hr) (.mk a b k w fs1 slice fops fl' rfl hw hm hc hi hcr)
  refine ⟨fs', m1, ?_, ?_⟩
  · intro hdm
    obtain ⟨h1, h2⟩ := m4.afterLoss m3 (k := { k with maybe := k.maybe ++ slice }) (by simp) hdm
    refine ⟨h1, fun hs => h2 hs ?_⟩
    show k.durable <+: k.data ++ (k.maybe ++ slice)
    rw [← List.append_assoc]
    exact ((hist_inv hr).durable (k := k) (by simp) hw).1.trans (List.prefix_append _ _)
  · intro k' hk' hdm
    have hk2 : k' ∈ a ++ k :: b := by
      rcases List.mem_append.mp hk' with h | h
      · exact List.mem_append_left _ h
      · exact List.mem_append_right _ (List.mem_cons_of_mem _ h)
    obtain ⟨h1, h2⟩ := m4.afterLoss m3 (k := k') (by
      rcases List.mem_append.mp hk' with h | h
      · exact List.mem_append_left _ h
      · exact List.mem_append_right _ (List.mem_cons_of_mem _ h)) hdm
    refine ⟨h1, fun hs => h2 hs ?_⟩
    obtain ⟨w', hw'⟩ := Option.isSome_iff_exists.mp hs
    exact ((hist_inv hr).durable hk2 hw').1

/-- **C08** Restart between two calls: every file keeps its content, open ones at least what was flushed. -/
theorem C08_restart {crc : Bytes → UInt32} {fs : FS} {ks : List Known} (hr : Hist crc fs ks) :
    ∃ fs', FS.mount fs.dev.flash = (.ok (), fs') ∧ ∀ k ∈ ks, Survives crc fs' k := by
  obtain ⟨fs', m1, _, m3, m4⟩ := step_restart (hist_inv hr)
  refine ⟨fs', m1, fun k hk hdm => ?_⟩
  obtain ⟨h1, h2⟩ := m4.afterLoss m3 hk hdm
  refine ⟨h1, fun hs => h2 hs ?_⟩
  obtain ⟨w', hw'⟩ := Option.isSome_iff_exists.mp hs
  exact ((hist_inv hr).durable hk hw').1

theorem back_survives {crc : Bytes → UInt32} {fs : FS} {ks : List Known} (hb : Back crc fs ks)
    (hd : ∀ k ∈ ks, k.writer.isSome = true → k.durable <+: k.data ++ k.maybe) : ∀ k ∈ ks, Survives crc fs k := by
  intro k hk hdm
  obtain ⟨h1, h2⟩ := hb.afterLoss hk hdm
  exact ⟨h1, fun hsm => h2 hsm (hd k hk hsm)⟩

theorem hist_durable {crc : Bytes → UInt32} {fs : FS} {ks : List Known} (hi : SysInv crc fs ks) :
    ∀ k ∈ ks, k.writer.isSome = true → k.durable <+: k.data ++ k.maybe := by
  intro k hk hsm
  obtain ⟨w', hw'⟩ := Option.isSome_iff_exists.mp hsm
  exact (hi.durable hk hw').1

/-- **C08** Power loss at any moment while files are created or removed, in the middle of a page program or an erase included (a directory of at
most 2517 files): the chip mounts, the directory is the old or the new one, and all files in it keep their content. -/
theorem C08_power_loss_directory {crc : Bytes → UInt32} {fs fs1 : FS} {ks ks1 : List Known} {fops : List FlashOp} {fl' : Flash}
    (hr : Hist crc fs ks) (hs : DirStep fs ks fs1 ks1) (hi : issued fs fs1 fops) (hl : ks1.length ≤ 2517) (hp : CrashImage fs.dev.flash fops fl') :
    ∃ fs' ks', FS.mount fl' = (.ok (), fs') ∧ (ks' = ks ∨ ks' = ks1) ∧ (∃ es, lists fs' es ∧ es.map (·.id) = ks'.map (·.id)) ∧
      ∀ k ∈ ks', Survives crc fs' k := by
  obtain ⟨fs', ks', m1, m2, m3⟩ := loss_dir_any (hist_inv hr) hs hi hl hp
  refine ⟨fs', ks', m1, m2, m3.ids, back_survives m3 ?_⟩
  rcases m2 with rfl | rfl
  · exact hist_durable (hist_inv hr)
  · exact hist_durable (dirStep_inv (hist_inv hr) hs).1

theorem allocStep_step {crc : Bytes → UInt32} {fs fs1 : FS} {ks ks1 : List Known} (h : AllocStep fs ks fs1 ks1) : Step crc fs ks fs1 ks1 := by
  cases h with
  | createOpen typ r1 r2 e _ hc hcap ht hok => exact .createOpen typ r1 r2 e _ hc hcap ht hok
  | openWrite id rng w _ a b k es e hlist he heid hfirst hk hid hw hdm hc hok => exact .openWrite id rng w _ a b k hk hid hw hdm hc hok

/-- **C08** Power loss at any moment while a new file is created and opened for writing, or a file without content is opened for writing: the chip
mounts, the directory is the old or the new one, and all files in it keep their content. -/
theorem C08_power_loss_open {crc : Bytes → UInt32} {fs fs1 : FS} {ks ks1 : List Known} {fops : List FlashOp} {fl' : Flash}
    (hr : Hist crc fs ks) (hs : AllocStep fs ks fs1 ks1) (hi : issued fs fs1 fops) (hl : ks1.length ≤ 2517) (hp : CrashImage fs.dev.flash fops fl') :
    ∃ fs' ks', FS.mount fl' = (.ok (), fs') ∧ (ks' = ks ∨ ks' = ks1) ∧ (∃ es, lists fs' es ∧ es.map (·.id) = ks'.map (·.id)) ∧
      ∀ k ∈ ks', Survives crc fs' k := by
  obtain ⟨fs', ks', m1, m2, m3⟩ := loss_allocStep_any (hist_inv hr) hs hi hl hp
  refine ⟨fs', ks', m1, m2, m3.ids, back_survives m3 ?_⟩
  rcases m2 with rfl | rfl
  · exact hist_durable (hist_inv hr)
  · exact hist_durable (hist_inv (hr.step (allocStep_step hs)))

/-! ### C11 -/

/-- **C11** The reported size of a closed file is the number of bytes a reader finds in it. -/
theorem C11_file_size {crc : Bytes → UInt32} {fs : FS} {ks : List Known} {k : Known} (hr : Hist crc fs ks) (hk : k ∈ ks) (hw : k.writer = none) (hdm : k.damaged = false) :
    ∃ pre, pre <+: k.maybe ∧ (∃ n, fs.getFileSize k.id = .ok ((k.data ++ pre).length, n)) ∧
      (k.id ∉ fs.at'.opened → fs.at'.opened.length < 32 → ReadsAs crc fs k.id (k.data ++ pre)) :=
  (hist_inv hr).closed hk hw hdm

/-- **C11** The size of an open file is at least what was flushed and at most what was written. -/
theorem C11_file_size_open {crc : Bytes → UInt32} {fs : FS} {ks : List Known} {k : Known} (hr : Hist crc fs ks) (hk : k ∈ ks) (hw : k.writer.isSome = true) :
    ∃ size n, fs.getFileSize k.id = .ok (size, n) ∧ k.durable.length ≤ size ∧ size ≤ (k.data ++ k.maybe).length := by
  obtain ⟨w, hw⟩ := Option.isSome_iff_exists.mp hw
  obtain ⟨c, n, h1, h2, h3⟩ := (hist_inv hr).openSize hk hw
  exact ⟨_, n, h1, h2.length_le, h3.length_le⟩

/-- **C11** The size of a file that does not exist is an error. -/
theorem C11_file_size_missing {crc : Bytes → UInt32} {fs : FS} {ks : List Known} {id : Nat} (hr : Hist crc fs ks) (hid : ∀ k ∈ ks, k.id ≠ id) :
    fs.getFileSize id = .error .fileDoesNotExist := by
  obtain ⟨files, leak, hf, hs⟩ := hist_inv hr
  unfold FS.getFileSize
  rw [hs.find_none (fun f hm => hid _ (mem_files hf hm))]

/-! ### C17 -/

/-- **C17** A file that is marked open cannot be opened again and is not removed: `remove_file` says that it is in use,
`remove_files` keeps it, and the directory still lists it. -/
theorem C17_marked_open_protected {crc : Bytes → UInt32} {fs : FS} {ks : List Known} {k : Known} (hr : Hist crc fs ks) (hk : k ∈ ks)
    (ho : k.id ∈ fs.at'.opened) :
    (∀ rng, fs.openForWrite k.id rng = (.error .fileInUse, fs)) ∧ fs.openForRead k.id = (.error .fileInUse, fs) ∧
    (∃ fs', fs.removeFile k.id = (.error .fileInUse, fs') ∧ (countersOk fs → ∃ es, lists fs' es ∧ k.id ∈ es.map (·.id))) ∧
    (∀ filter n fs', fs.removeFiles filter = (.ok n, fs') → countersOk fs → ∃ es, lists fs' es ∧ k.id ∈ es.map (·.id)) := by
  obtain ⟨files, leak, f, hf, hs, hm, rfl⟩ := (hist_inv hr).file hk
  obtain ⟨j, hj⟩ := hs.find hm
  have hid := (hs.ok f hm).id
  have hop := (isOpened_iff fs.at' f.e.id).mpr (by rw [hid]; exact ho)
  have hrem : ∀ filter n fs', fs.removeFiles filter = (.ok n, fs') → countersOk fs → ∃ es, lists fs' es ∧ f.k.id ∈ es.map (·.id) := by
    intro filter n fs' hx hok
    obtain ⟨hr', _⟩ := reach_call hs.reach (.remove filter n.1 n.2 fs' hx) hok
    refine ⟨_, lists_of_dirInv hr'.dir, ?_⟩
    refine List.mem_map.mpr ⟨f.e, List.mem_filter.mpr ⟨List.mem_map.mpr ⟨f, hm, rfl⟩, ?_⟩, hid⟩
    rw [hid, decide_eq_true ho, Bool.or_true]
  refine ⟨fun rng => ?_, ?_, ?_, hrem⟩
  · unfold FS.openForWrite
    rw [hj]
    simp only
    rw [if_pos hop]
  · unfold FS.openForRead
    rw [hj]
    simp only
    rw [if_pos hop]
  · rcases removeFiles_spec hs.reach.dir hs.reach.range (fun e => e.id == f.k.id) with ⟨g, h1, h2, h3⟩ | ⟨er, g, h1, x, hx, hx1, hx2, hno⟩
    · have hk1 : ∀ e ∈ files.map (·.e), keeps fs.at'.opened (fun e => e.id == f.k.id) e = true := by
        intro e he
        rw [keeps_eq]
        by_cases h : e.id = f.k.id
        · rw [h, decide_eq_true ho, Bool.or_true]
        · simp [h]
      have e1 : ((files.map (·.e)).filter (fun e => !keeps fs.at'.opened (fun e => e.id == f.k.id) e)) = [] := by
        rw [List.filter_eq_nil_iff]
        intro e he
        rw [hk1 e he]; simp
      have e2 : ((files.map (·.e)).filter (fun e => (e.id == f.k.id) && keeps fs.at'.opened (fun e => e.id == f.k.id) e)).length = 1 := by
        have : ((files.map (·.e)).filter (fun e => (e.id == f.k.id) && keeps fs.at'.opened (fun e => e.id == f.k.id) e)) = (files.map (·.e)).filter (fun e => e.id == f.k.id) := by
          apply List.filter_congr
          intro e he
          rw [hk1 e he, Bool.and_true]
        rw [this]
        have hle : ((files.map (·.e)).filter (fun e => e.id == f.k.id)).length ≤ 1 := by
          have hsort := hs.reach.dir.sorted
          have hp := List.Pairwise.filter (fun e : FileEntry => e.id == f.k.id) hsort
          have hall : ∀ e ∈ (files.map (·.e)).filter (fun e => e.id == f.k.id), e.id = f.k.id := by
            intro e he
            have := (List.mem_filter.mp he).2
            simpa using this
          generalize (files.map (·.e)).filter (fun e => e.id == f.k.id) = l at hp hall
          match l with
          | [] => simp
          | [_] => simp
          | x :: y :: l =>
            have h1 := (List.pairwise_cons.mp hp).1 y (by simp)
            have h2 := hall x (by simp)
            have h3 := hall y (by simp)
            omega
        have hpos : 0 < ((files.map (·.e)).filter (fun e => e.id == f.k.id)).length := by
          refine List.length_pos_of_mem (a := f.e) (List.mem_filter.mpr ⟨List.mem_map.mpr ⟨f, hm, rfl⟩, ?_⟩)
          rw [hid]; simp
        omega
      rw [e1, e2] at h1
      refine ⟨g, ?_, fun hok => hrem _ _ g h1 hok⟩
      unfold FS.removeFile
      rw [h1]
      simp
    · rw [keeps_eq] at hx2
      have he : x.id = f.k.id := by simpa using hx1
      rw [he, decide_eq_true ho, Bool.or_true] at hx2
      exact absurd hx2 (by simp)

/-- **C17** Opening for writing or reading marks a file open. -/
theorem C17_open_marks {crc : Bytes → UInt32} {fs : FS} {ks : List Known} {k : Known} (hr : Hist crc fs ks) (hk : k ∈ ks) :
    (∀ rng w fs', k.writer = none → k.damaged = false → countersOk fs → fs.openForWrite k.id rng = (.ok w, fs') → k.id ∈ fs'.at'.opened) ∧
    (∀ r fs', fs.openForRead k.id = (.ok r, fs') → k.id ∈ fs'.at'.opened) := by
  constructor
  · intro rng w fs' hw hdm hok ho
    obtain ⟨a, b, hab⟩ := List.append_of_mem hk
    rcases step_openWrite (hist_inv hr) hab hw hdm hok rng with ⟨_, g⟩ | ⟨_, g⟩ | ⟨_, fs3, g, _⟩ | ⟨g1, g2, w3, fs3, g, g3, _⟩
    · rw [g] at ho; injection ho with ho _; exact absurd ho (by simp)
    · rw [g] at ho; injection ho with ho _; exact absurd ho (by simp)
    · rw [g] at ho; injection ho with ho _; exact absurd ho (by simp)
    · rw [g] at ho; injection ho with _ ho; subst ho; rw [g3]; simp
  · intro r fs' ho
    obtain ⟨files, leak, f, hf, hs, hm, rfl⟩ := (hist_inv hr).file hk
    rcases openRead_spec hs hm with ⟨_, g⟩ | ⟨_, g⟩ | ⟨_, _, g⟩
    · rw [g] at ho; injection ho with ho _; exact absurd ho (by simp)
    · rw [g] at ho; injection ho with ho _; exact absurd ho (by simp)
    · rw [g] at ho; injection ho with _ ho; rw [← ho]; simp

/-- **C17** A file that is marked open stays marked, whatever call is made, until it is closed. -/
theorem C17_open_until_closed {crc : Bytes → UInt32} {fs fs' : FS} {ks ks' : List Known} {id : Nat} (hr : Hist crc fs ks) (hs : Step crc fs ks fs' ks')
    (ho : id ∈ fs.at'.opened) (hw : ∀ w, w.id = id → fs' ≠ fs.closeWriter crc w) (hrd : ∀ r, r.id = id → fs' ≠ fs.closeReader r) :
    id ∈ fs'.at'.opened := by
  rcases (step_opened hr hs).2.2 id ho with h | ⟨w, h1, h2⟩ | ⟨r, h1, h2⟩
  · exact h
  · exact absurd h1 (hw w h2)
  · exact absurd h1 (hrd r h2)

/-- **C17** In every reachable state, a file whose writer was obtained with `open_file_for_write` is marked open. -/
theorem C17_writer_protected {crc : Bytes → UInt32} {fs : FS} {ks : List Known} {k : Known} (hr : Hist crc fs ks) (hk : k ∈ ks)
    (hw : k.writer.isSome = true) (hg : k.guarded = true) : k.id ∈ fs.at'.opened :=
  (guarded_inUse (hist_inv hr) hk hw hg).1

/-- **C17** (violation) The writer returned by `create_file_and_open_for_write` does not protect its file: in every reachable state, right
after that call the new file can be opened for reading and can be removed. -/
theorem C17_created_open_unprotected {crc : Bytes → UInt32} {fs fs1 : FS} {ks : List Known} {typ r1 r2 : Nat} {e : FileEntry}
    (hr : Hist crc fs ks) (hcap : ks.length < 2518) (ht : typ < 0x4000) (hok : countersOk fs) (hlen : fs.at'.opened.length < 32)
    (hc : fs.createFileAndOpen typ r1 r2 = (.ok e, fs1)) :
    (∃ r fs', fs1.openForRead e.id = (.ok r, fs')) ∧ (∃ fs', fs1.removeFile e.id = (.ok (), fs')) := by
  have h1 := hr.step (Step.createOpen (crc := crc) (ks := ks) typ r1 r2 e fs1 hc hcap ht hok)
  have hnew : fs.at'.maxId < e.id ∧ fs1.at'.opened = fs.at'.opened ∧ ∃ s, e.first = some s := by
    obtain ⟨files, leak, hf, hsys⟩ := hist_inv hr
    have hl : (files.map (·.e)).length < 2518 := by rw [List.length_map, ← List.length_map (f := (·.k)), hf]; exact hcap
    obtain ⟨m, q1, q2, q3, q4, q5, q6⟩ := call_rewrite hsys.reach (.createOpen typ r1 r2 e fs1 hc hl ht) hok
    obtain ⟨_, _, s, hs, _⟩ := createFileAndOpen_high hsys.reach.dir typ r1 r2 hl hc
    exact ⟨(q6 e.id (by simp)).1, q1.opened, s, hs⟩
  obtain ⟨hgt, ho, s, hs⟩ := hnew
  rw [hs] at h1
  have hno : e.id ∉ fs1.at'.opened := by
    rw [ho]
    intro hx
    have := hist_openIds hr _ hx
    omega
  obtain ⟨files, leak, f, hf, hsys, hm, hfk⟩ := (hist_inv h1).file (k := ⟨e.id, typ, [], [], [], some (FileWriter.new s e.id), false, false⟩) (by simp)
  have hfid : f.k.id = e.id := by rw [hfk]
  constructor
  · rcases openRead_spec hsys hm with ⟨k1, _⟩ | ⟨k1, _⟩ | ⟨_, _, k3⟩
    · rw [hfid] at k1; exact absurd k1 hno
    · rw [ho] at k1; omega
    · rw [hfid] at k3; exact ⟨_, _, k3⟩
  · have hid := (hsys.ok f hm).id
    have hfo := hsys.ok f hm
    obtain ⟨_, ⟨first, q1, q2⟩, q3, _⟩ := hfo.open' (FileWriter.new s e.id) (by rw [hfk])
    have hst := stored_open q2 (fun _ _ _ _ => rfl) q3.fields
    have hown : f.own = secs (f.segs ++ [((FileWriter.new s e.id).sector, [])]) := by
      unfold FileSt.own; rw [hfk]; simp
    obtain ⟨d1, d2⟩ := hsys.own_data hm
    rw [hown] at d1 d2
    have huniq : ∀ x ∈ files.map (·.e), x.id = e.id → x = f.e := by
      intro x hx hxe
      obtain ⟨g, hg, rfl⟩ := List.mem_map.mp hx
      obtain ⟨as, bs, hab⟩ := List.append_of_mem hm
      rw [hab] at hg hsys
      rcases List.mem_append.mp hg with h | h
      · exact absurd (by rw [← (hsys.ok g (by simp [h])).id, hxe, hfid]) (hsys.idNe (List.mem_append_left _ h))
      · rcases List.mem_cons.mp h with rfl | h
        · rfl
        · exact absurd (by rw [← (hsys.ok g (by simp [h])).id, hxe, hfid]) (hsys.idNe (List.mem_append_right _ h))
    rcases removeFiles_spec hsys.reach.dir hsys.reach.range (fun x => x.id == e.id) with ⟨g, g1, _⟩ | ⟨er, g, g1, x, hx, hx1, hx2, hnc⟩
    · have e1 : ((files.map (·.e)).filter (fun x => !keeps fs1.at'.opened (fun x => x.id == e.id) x)).length = 1 := by
        have hff : ((files.map (·.e)).filter (fun x => !keeps fs1.at'.opened (fun x => x.id == e.id) x)) = (files.map (·.e)).filter (fun x => x.id == e.id) := by
          apply List.filter_congr
          intro x _
          rw [keeps_eq]
          by_cases h : x.id = e.id
          · rw [h, decide_eq_false hno]; simp
          · simp [h]
        rw [hff]
        have hp := List.Pairwise.filter (fun x : FileEntry => x.id == e.id) hsys.reach.dir.sorted
        have hall : ∀ x ∈ (files.map (·.e)).filter (fun x => x.id == e.id), x.id = e.id := by
          intro x hx
          have := (List.mem_filter.mp hx).2
          simpa using this
        have hpos : 0 < ((files.map (·.e)).filter (fun x => x.id == e.id)).length := by
          refine List.length_pos_of_mem (a := f.e) (List.mem_filter.mpr ⟨List.mem_map.mpr ⟨f, hm, rfl⟩, ?_⟩)
          rw [hid, hfid]; simp
        generalize (files.map (·.e)).filter (fun x => x.id == e.id) = l at hp hall hpos
        match l with
        | [] => simp at hpos
        | [_] => rfl
        | x :: y :: l =>
          have h1 := (List.pairwise_cons.mp hp).1 y (by simp)
          have h2 := hall x (by simp)
          have h3 := hall y (by simp)
          omega
      refine ⟨g, ?_⟩
      unfold FS.removeFile
      rw [g1, e1]
      simp
    · have hxe : x.id = e.id := by simpa using hx1
      have := huniq x hx hxe
      subst this
      exfalso
      apply hnc
      refine ⟨_, ?_, data_length d1 d2, fun y hy => (d2 y hy).1⟩
      rw [q1]
      exact hst.chain

/-- **C17** (violation) If `open_file_for_write` fails because the chip is full, the file stays marked open although nobody has it
open: all later attempts to open it are refused. -/
theorem C17_device_full_leaves_marked {crc : Bytes → UInt32} {fs fs' : FS} {ks : List Known} {k : Known} {rng : Nat → Nat} (hr : Hist crc fs ks) (hk : k ∈ ks)
    (hw : k.writer = none) (hdm : k.damaged = false) (hok : countersOk fs) (ho : fs.openForWrite k.id rng = (.error .deviceFull, fs')) :
    fs'.openForRead k.id = (.error .fileInUse, fs') ∧ ∀ rng', fs'.openForWrite k.id rng' = (.error .fileInUse, fs') := by
  obtain ⟨a, b, hab⟩ := List.append_of_mem hk
  have hop : k.id ∈ fs'.at'.opened := by
    rcases step_openWrite (hist_inv hr) hab hw hdm hok rng with ⟨_, g⟩ | ⟨_, g⟩ | ⟨_, fs3, g, g1, _⟩ | ⟨_, _, w3, fs3, g, _⟩
    · rw [g] at ho; injection ho with ho _; exact absurd ho (by simp)
    · rw [g] at ho; injection ho with ho _; exact absurd ho (by simp)
    · rw [g] at ho; injection ho with _ ho; subst ho; rw [g1]; simp
    · rw [g] at ho; injection ho with ho _; exact absurd ho (by simp)
  have huniq : ∀ k' ∈ ks, k'.id = k.id → k' = k := by
    intro k' hk' he
    obtain ⟨files, leak, hf, hsys⟩ := hist_inv hr
    rw [hab] at hf
    obtain ⟨as, f, bs, rfl, ha, hfk, hb⟩ := split_files hf
    have hk'' : k' ∈ (as ++ f :: bs).map (·.k) := by rw [hf, ← hab]; exact hk'
    obtain ⟨g, hg, rfl⟩ := List.mem_map.mp hk''
    rcases List.mem_append.mp hg with h | h
    · exact absurd (by rw [hfk]; exact he) (hsys.idNe (List.mem_append_left _ h))
    · rcases List.mem_cons.mp h with rfl | h
      · exact hfk
      · exact absurd (by rw [hfk]; exact he) (hsys.idNe (List.mem_append_right _ h))
  have hh : Hist crc fs' ks := hr.step (.openWriteErr k.id rng .deviceFull fs' (fun k' hk' he hs => by
    have := huniq k' hk' he
    subst this
    rw [hw] at hs; exact absurd hs (by simp)) (fun k' hk' he => by rw [huniq k' hk' he]; exact hdm) ho hok)
  obtain ⟨h1, h2, _⟩ := C17_marked_open_protected hh hk hop
  exact ⟨h2, h1⟩

/-! ### When writing fails -/

/-- **C20** Appending and flushing fail only with `DeviceFull`, and then no sector is free; opening an existing, closed file for writing fails only
because it or 32 files are open, or because less than two sectors are free. -/
theorem C20_write_fails_only_when_full {crc : Bytes → UInt32} {fs : FS} {ks : List Known} {k : Known} (hr : Hist crc fs ks) (hk : k ∈ ks) :
    (∀ w rng slice er w' fs', k.writer = some w → k.maybe = [] → fs.extendWriter crc w rng slice = (.error er, w', fs') →
      er = .deviceFull ∧ fs'.mng.freeBytes = 0) ∧
    (∀ w r1 r2 er w' fs', k.writer = some w → fs.flushWriter crc w r1 r2 = (.error er, w', fs') → er = .deviceFull ∧ fs'.mng.freeBytes = 0) ∧
    (∀ rng er fs', k.writer = none → k.damaged = false → countersOk fs → fs.openForWrite k.id rng = (.error er, fs') →
      (er = .fileInUse ∧ k.id ∈ fs.at'.opened) ∨ (er = .tooManyFilesOpen ∧ 32 ≤ fs.at'.opened.length) ∨
      (er = .deviceFull ∧ fs.mng.freeBytes ≤ 4016)) := by
  obtain ⟨a, b, hab⟩ := List.append_of_mem hk
  refine ⟨?_, ?_, ?_⟩
  · intro w rng slice er w' fs' hw hm h
    rcases step_extend (hist_inv hr) hab hw hm rng slice with ⟨g, _⟩ | ⟨g1, g2, _⟩
    · rw [h] at g; exact absurd g (by simp)
    · rw [h] at g1 g2; injection g1 with g1; exact ⟨g1, g2⟩
  · intro w r1 r2 er w' fs' hw h
    rcases step_flush (hist_inv hr) hab hw r1 r2 with ⟨g, _⟩ | ⟨g1, g2, _⟩
    · rw [h] at g; exact absurd g (by simp)
    · rw [h] at g1 g2; injection g1 with g1; exact ⟨g1, g2⟩
  · intro rng er fs' hw hdm hok h
    rcases step_openWrite (hist_inv hr) hab hw hdm hok rng with ⟨g0, g⟩ | ⟨g0, g⟩ | ⟨g0, fs3, g, g1, _⟩ | ⟨_, _, w3, fs3, g, _⟩
    · rw [g] at h; injection h with h _; injection h with h; exact .inl ⟨h.symm, g0⟩
    · rw [g] at h; injection h with h _; injection h with h; exact .inr (.inl ⟨h.symm, g0⟩)
    · rw [g] at h; injection h with h _; injection h with h; exact .inr (.inr ⟨h.symm, g0⟩)
    · rw [g] at h; injection h with h _; exact absurd h (by simp)

/-! ### C67 -/

/-- **C67** (violation) Opening a file for appending is not crash-safe: there is a reachable state with a closed file that holds `[1, 2, 3]`, and a point
during `open_file_for_write` at which power loss leaves a chip that mounts but on which the file is empty. -/
theorem C67_reopen_not_crash_safe (crc : Bytes → UInt32) : ∃ fs k, Hist crc fs [k] ∧ k.writer = none ∧ k.damaged = false ∧ k.data = [1, 2, 3] ∧ k.maybe = [] ∧
    ReadsAs crc fs k.id [1, 2, 3] ∧ ∃ w fs' ops fl' fs'', fs.openForWrite k.id (fun _ => 0) = (.ok w, fs') ∧ issued fs fs' ops ∧
      CrashImage fs.dev.flash ops fl' ∧ FS.mount fl' = (.ok (), fs'') ∧ ReadsAs crc fs'' k.id [] := by
  obtain ⟨fs, s, h1, h2, h3, h4, h5⟩ := demo_closed crc
  refine ⟨fs, _, h1, rfl, rfl, rfl, rfl, ?_, ?_⟩
  · obtain ⟨pre, p1, p2⟩ := C10_closed_content h1 (k := ⟨1, 5, [1, 2, 3], [1, 2, 3], [], none, false, false⟩) (by simp) rfl rfl
      (by rw [h2]; exact List.not_mem_nil) (by rw [h2]; decide)
    rw [List.prefix_nil] at p1
    subst p1
    exact p2
  · exact reopen_loses (as := []) (bs := []) (init := []) h3 rfl rfl rfl (by rw [h2]; exact List.not_mem_nil) (by rw [h2]; decide)
      (by rw [(freeBytes_eq h3.inv).1]; simp [FileSt.own, secs]) (fun _ => 0) rfl

/-! ### The hypotheses can be met -/

/-- appending to a closed file with content: opening and closing succeeds -/
example (crc : Bytes → UInt32) : ∃ fs fs1 w k, Hist crc fs ([] ++ k :: []) ∧ k.writer = none ∧ k.damaged = false ∧ k.maybe = [] ∧ k.data = [1, 2, 3] ∧ countersOk fs ∧
    fs.openForWrite k.id (fun _ => 0) = (.ok w, fs1) ∧ runWriter crc fs1 w [] = (.ok (), w, fs1) := by
  obtain ⟨fs, s, h1, h2, h3, h4, h5⟩ := demo_closed crc
  have hok : countersOk fs := by unfold countersOk; rw [h4, h5]; exact ⟨by decide, by decide⟩
  rcases step_openWrite (hist_inv h1) (a := []) (b := []) rfl rfl rfl hok (fun _ => 0) with ⟨g, _⟩ | ⟨g, _⟩ | ⟨g, _⟩ | ⟨_, _, w, fs1, g, _⟩
  · rw [h2] at g; exact absurd g List.not_mem_nil
  · rw [h2] at g; exact absurd g (by decide)
  · rw [(freeBytes_eq h3.inv).1] at g; simp [FileSt.own, secs] at g
  · exact ⟨fs, fs1, w, _, h1, rfl, rfl, rfl, rfl, hok, g, rfl⟩

/-- a writer that is open with unflushed data, marked open; any interruption of its `close` is covered -/
example (crc : Bytes → UInt32) : ∃ fs w k, Hist crc fs ([] ++ k :: []) ∧ k.writer = some w ∧ k.maybe = [] ∧ k.data = [1, 2, 3] ∧ k.id ∈ fs.at'.opened ∧
    WriterCall crc fs w (fs.closeWriter crc w) [] ∧ ∃ ops, issued fs (fs.closeWriter crc w) ops ∧ CrashImage fs.dev.flash ops fs.dev.flash := by
  obtain ⟨fs, w, h1, h2, h3, h4, h5⟩ := demo_open crc
  refine ⟨fs, w, _, h1, rfl, rfl, rfl, by rw [h2]; simp, .close, ?_⟩
  obtain ⟨first, hfirst, hwst⟩ := Sys.wst (as := []) (bs := []) h4 rfl
  obtain ⟨os, c1, _⟩ := close_call hwst
  refine ⟨os, ?_, .between [] os rfl⟩
  show (FS.markClosed { fs with dev := w.close crc fs.dev } w.id).dev.log = _
  rw [(markClosed_fields _ _).1]
  show (w.close crc fs.dev).log = _
  rw [c1]; rfl

/-- `create_file_and_open_for_write` succeeds on a chip that was just formatted -/
example (crc : Bytes → UInt32) : ∃ fs fs1 e, Hist crc fs [] ∧ countersOk fs ∧ fs.at'.opened.length < 32 ∧ fs.createFileAndOpen 5 0 0 = (.ok e, fs1) := by
  obtain ⟨s0, a0, m0⟩ := format_sys crc
  obtain ⟨e, fs1, h⟩ := createFileAndOpen_ok s0 (by decide) (by rw [(freeBytes_eq s0.inv).1]; decide) 5 0 0
  refine ⟨_, fs1, e, .format _ blank_noheader, ?_, ?_, h⟩
  · unfold countersOk; rw [a0]; exact ⟨by decide, by decide⟩
  · rw [a0]; decide

/-- a reachable state in which opening a closed file fails because the chip is full -/
example (crc : Bytes → UInt32) : ∃ fs fs' k, Hist crc fs [k] ∧ k.writer = none ∧ countersOk fs ∧ fs.openForWrite k.id (fun _ => 0) = (.error .deviceFull, fs') := by
  obtain ⟨fs, k, h1, h2, h3, h4, h5, h6⟩ := demo_full crc
  obtain ⟨files, leak, f, hf, hs, hm, hfk⟩ := (hist_inv h1).file (k := k) (by simp)
  obtain ⟨fs', g⟩ := openWrite_full hs hm (by rw [h4]; exact List.not_mem_nil) (by rw [h4]; decide) h6 (fun _ => 0)
  exact ⟨fs, fs', k, h1, h3, h5, by rw [← hfk]; exact g⟩

/-- a closed file; power is lost in the middle of the last operation of `create_file` -/
example (crc : Bytes → UInt32) : ∃ (fs fs1 : FS) (k : Known) (ks1 : List Known) (pre : List FlashOp) (o : FlashOp) (fl' : Flash), Hist crc fs [k] ∧ k.data = [1, 2, 3] ∧
    DirStep fs [k] fs1 ks1 ∧ ks1.length = 2 ∧ issued fs fs1 (pre ++ [o]) ∧ Torn (applyOps fs.dev.flash pre) o fl' ∧ CrashImage fs.dev.flash (pre ++ [o]) fl' := by
  obtain ⟨fs, s, h1, h2, h3, h4, h5⟩ := demo_closed crc
  have hok : countersOk fs := by unfold countersOk; rw [h4, h5]; exact ⟨by decide, by decide⟩
  obtain ⟨fs1, c1, _⟩ := createFile_spec h3.reach.dir 5 (by rw [List.length_map, List.length_singleton]; decide)
  have hst : DirStep fs [⟨1, 5, [1, 2, 3], [1, 2, 3], [], none, false, false⟩] fs1 _ := .create 5 _ fs1 c1 (by decide) (by decide) hok
  obtain ⟨es', new, hcall⟩ := dirStep_call h3 hst
  obtain ⟨m, r1, _⟩ := call_rewrite h3.reach hcall hok
  obtain ⟨_, ⟨os, hd, _⟩, _⟩ := dirStep_inv (hist_inv h1) hst
  have hi : issued fs fs1 os := by show fs1.dev.log = _; rw [hd]; rfl
  have hf := r1.ops hi
  have hne : os ≠ [] := by
    intro h
    rw [h] at hf
    exact absurd hf (by unfold updateOps; simp)
  obtain ⟨pre, o, rfl⟩ : ∃ pre o, os = pre ++ [o] := ⟨_, _, (List.dropLast_append_getLast hne).symm⟩
  obtain ⟨fl', ht⟩ : ∃ fl', Torn (applyOps fs.dev.flash pre) o fl' := by
    cases o with
    | page a data => exact ⟨_, .page a data 1⟩
    | erase a len => exact ⟨_, .erase a len fun _ => false⟩
  exact ⟨fs, fs1, _, _, pre, o, fl', h1, rfl, hst, rfl, hi, ht, .during pre [] o fl' rfl ht⟩

end Verif.Props
