import Verif.Lemmas.OpenReader
import Verif.Lemmas.WitnessFull
/-
C83: a file is read consistently although other tasks use the file system between the reads.
The runs are defined in Verif/Spec/OpenReader.lean.
-/
namespace Verif.Props
open Verif Verif.Vlfs Verif.Spec

/-- **C83** A file without a writer that has been opened for reading delivers its content, in reads of any sizes, whatever other calls
(creating, removing, opening, writing, flushing and closing other files, rotating logs) are made between the reads, as long as
the file is not dropped by a rotation: the answers are those of reading the content it had when it was opened. -/
theorem C83_open_reader_stable {crc : Bytes → UInt32} {k : Known} {fs : FS} {ks : List Known} {r : FileReader} {ns : List Nat}
    {answers : List (Except Err (Bytes × ReadStatus))} (h : ReadRun crc k fs ks r ns answers) :
    ∃ pre, pre <+: k.maybe ∧ answers = (consumes ((k.data ++ pre).map .byte) ns).map .ok := by
  obtain ⟨pre, hpre, rest, _, h2⟩ := readRun_inv h
  refine ⟨pre, hpre, ?_⟩
  have := h2 []
  rw [List.append_nil] at this
  rw [← this]
  simp [consumes]

/-- **C83** For a file with known content: exactly that content. -/
theorem C83_known_content {crc : Bytes → UInt32} {k : Known} {fs : FS} {ks : List Known} {r : FileReader} {ns : List Nat}
    {answers : List (Except Err (Bytes × ReadStatus))} (h : ReadRun crc k fs ks r ns answers) (hm : k.maybe = []) :
    answers = (consumes (k.data.map .byte) ns).map .ok := by
  obtain ⟨pre, hpre, h2⟩ := C83_open_reader_stable h
  rw [hm] at hpre
  obtain rfl := List.prefix_nil.mp hpre
  rw [List.append_nil] at h2
  exact h2

/-- **C83** Only the rotation of a ring log can drop a file that is marked open from the directory. -/
theorem C83_only_rotation_drops {crc : Bytes → UInt32} {fs fs' : FS} {ks ks' : List Known} {k : Known} (hs : Step crc fs ks fs' ks') (hk : k ∈ ks)
    (ho : k.id ∈ fs.at'.opened) : (∃ k' ∈ ks', k'.id = k.id) ∨ ∃ n r1 r2 e, fs.rotate k.typ n r1 r2 = (.ok e, fs') := by
  have upd : ∀ (a b : List Known) (x y : Known), ks = a ++ x :: b → y.id = x.id → ∃ k' ∈ a ++ y :: b, k'.id = k.id := by
    intro a b x y hx hy
    rw [hx] at hk
    rcases List.mem_append.mp hk with h | h
    · exact ⟨k, by simp [h], rfl⟩
    · rcases List.mem_cons.mp h with rfl | h
      · exact ⟨y, by simp, hy⟩
      · exact ⟨k, by simp [h], rfl⟩
  cases hs with
  | dir h =>
    cases h with
    | create typ e fs' hc hcap ht hok => exact .inl ⟨k, by simp [hk], rfl⟩
    | remove filter n fs' hc hsafe hok => exact .inl ⟨k, List.mem_filter.mpr ⟨hk, by rw [decide_eq_true ho, Bool.or_true]⟩, rfl⟩
  | createOpen typ r1 r2 e fs' h hcap ht hok => exact .inl ⟨k, by simp [hk], rfl⟩
  | rotate typ n r1 r2 e fs' h hw hcap ht hok =>
    by_cases hold : oldestKnown typ n ks k = true
    · have ht : k.typ = typ := by
        unfold oldestKnown at hold
        rw [Bool.and_eq_true] at hold
        simpa using hold.1
      exact .inr ⟨n, r1, r2, e, by rw [ht]; exact h⟩
    · exact .inl ⟨k, List.mem_append_left _ (List.mem_filter.mpr ⟨hk, by simpa using hold⟩), rfl⟩
  | openWrite id rng w fs' a b x hx hid hw hdm h hok => exact .inl (upd a b x _ hx rfl)
  | openWriteErr => exact .inl ⟨k, hk, rfl⟩
  | extend rng slice w w' fs' a b x hx => exact .inl (upd a b x _ hx rfl)
  | extendErr rng slice er w w' fs' a b x hx => exact .inl (upd a b x _ hx rfl)
  | flush r1 r2 w w' fs' a b x hx => exact .inl (upd a b x _ hx rfl)
  | flushErr r1 r2 er w w' fs' a b x hx => exact .inl (upd a b x _ hx rfl)
  | close w a b x hx => exact .inl (upd a b x _ hx rfl)
  | openRead id => exact .inl ⟨k, hk, rfl⟩
  | closeRead => exact .inl ⟨k, hk, rfl⟩
  | learn c a b x hx => exact .inl (upd a b x _ hx rfl)

/-- **C83** (finding) A rotation drops the oldest files of its type although they are open: the file is then gone from the directory while
it is still marked open. -/
theorem C83_rotation_drops_open_file {crc : Bytes → UInt32} {fs fs' : FS} {ks : List Known} {k : Known} {n r1 r2 : Nat} {e : FileEntry}
    (hr : Hist crc fs ks) (hk : k ∈ ks) (ho : k.id ∈ fs.at'.opened) (hold : oldestKnown k.typ n ks k = true)
    (hw : ∀ x ∈ ks, oldestKnown k.typ n ks x = true → x.writer = none) (hcap : ks.length < 2518) (ht : k.typ < 0x4000) (hok : countersOk fs)
    (h : fs.rotate k.typ n r1 r2 = (.ok e, fs')) :
    fs'.openForRead k.id = (.error .fileDoesNotExist, fs') ∧ k.id ∈ fs'.at'.opened := by
  have hst : Step crc fs ks fs' _ := .rotate k.typ n r1 r2 e fs' h hw hcap ht hok
  have hh := hr.step hst
  have hsorted : ks.Pairwise fun a b => a.id < b.id := by
    obtain ⟨files, leak, hf, hsys⟩ := hist_inv hr
    have := hsys.reach.dir.sorted
    rw [List.pairwise_map] at this
    rw [← hf, List.pairwise_map]
    refine this.imp_of_mem ?_
    intro a b ha hb hab
    rw [← (hsys.ok a ha).id, ← (hsys.ok b hb).id]; exact hab
  have hmax : k.id ≤ fs.at'.maxId := hist_openIds hr k.id ho
  have hnew : fs.at'.maxId < e.id := by
    obtain ⟨files, leak, hf, hsys⟩ := hist_inv hr
    have hl : (files.map (·.e)).length < 2518 := by rw [List.length_map, ← List.length_map (f := (·.k)), hf]; exact hcap
    obtain ⟨m, q1, q2, q3, q4, q5, q6⟩ := call_rewrite hsys.reach (.rotate k.typ n r1 r2 e fs' h (Nat.lt_of_le_of_lt (List.length_filter_le ..) hl) ht) hok
    exact (q6 e.id (by simp)).1
  constructor
  · obtain ⟨files, leak, hf, hsys⟩ := hist_inv hh
    unfold FS.openForRead
    rw [hsys.find_none]
    intro f hm he
    have hx : f.k ∈ files.map (·.k) := List.mem_map.mpr ⟨f, hm, rfl⟩
    rw [hf] at hx
    rcases List.mem_append.mp hx with hx | hx
    · obtain ⟨h1, h2⟩ := List.mem_filter.mp hx
      have : f.k = k := by
        by_contra hne
        rcases List.pairwise_iff_getElem.mp hsorted with hp
        obtain ⟨i, hi, rfl⟩ := List.getElem_of_mem hk
        obtain ⟨j, hj, hjj⟩ := List.getElem_of_mem h1
        rw [← hjj] at he hne
        rcases Nat.lt_trichotomy i j with hlt | rfl | hlt
        · have := hp i j hi hj hlt; omega
        · exact hne rfl
        · have := hp j i hj hi hlt; omega
      rw [this, hold] at h2
      exact absurd h2 (by simp)
    · rw [List.mem_singleton.mp hx] at he
      have he : e.id = k.id := he
      omega
  · rcases (step_opened hr hst).2.2 k.id ho with g | ⟨w, g, _⟩ | ⟨r, g, _⟩
    · exact g
    · -- closing does not change the highest id
      have hx : fs'.at'.maxId = fs.at'.maxId := by
        rw [g]
        exact (markClosed_fields { fs with dev := w.close crc fs.dev } w.id).2.2.2.2.1
      obtain ⟨files, leak, hf, hsys⟩ := hist_inv hh
      have hm : (⟨e.id, k.typ, [], [], [], e.first.map (FileWriter.new · e.id), false, false⟩ : Known) ∈ files.map (·.k) := by rw [hf]; simp
      obtain ⟨f, hm, hfe⟩ := List.mem_map.mp hm
      have h1 := hsys.reach.dir.maxId f.e (List.mem_map.mpr ⟨f, hm, rfl⟩)
      have h2 := (hsys.ok f hm).id
      rw [hfe] at h2
      have h2 : f.e.id = e.id := h2
      omega
    · have hx : fs'.at'.maxId = fs.at'.maxId := by
        rw [g]
        exact (markClosed_fields fs r.id).2.2.2.2.1
      obtain ⟨files, leak, hf, hsys⟩ := hist_inv hh
      have hm : (⟨e.id, k.typ, [], [], [], e.first.map (FileWriter.new · e.id), false, false⟩ : Known) ∈ files.map (·.k) := by rw [hf]; simp
      obtain ⟨f, hm, hfe⟩ := List.mem_map.mp hm
      have h1 := hsys.reach.dir.maxId f.e (List.mem_map.mpr ⟨f, hm, rfl⟩)
      have h2 := (hsys.ok f hm).id
      rw [hfe] at h2
      have h2 : f.e.id = e.id := h2
      omega

/-- a run: file 1 with content 1, 2, 3 is opened, two bytes are read, another file is created, two bytes are read -/
theorem demo_run (crc : Bytes → UInt32) : ∃ k fs ks r answers, ReadRun crc k fs ks r [2, 2] answers ∧ ks.length = 2 ∧ k.data = [1, 2, 3] ∧ k.maybe = [] := by
  obtain ⟨fs, s, hr, ho, hsys, hseq, hmax⟩ := demo_closed crc
  rcases openRead_spec hsys (f := ⟨⟨1, 5, [1, 2, 3], [1, 2, 3], [], none, false, false⟩, ⟨1, 5, some s⟩, [(s, [1, 2, 3])], []⟩) (by simp) with ⟨g, _⟩ | ⟨g, _⟩ | ⟨_, _, g⟩
  · rw [ho] at g; exact absurd g (by simp)
  · rw [ho] at g; exact absurd g (by simp)
  · have r0 := ReadRun.opened (crc := crc) hr (List.mem_singleton.mpr rfl) rfl rfl g
    have r1 := ReadRun.read 2 _ r0 rfl
    have hr' := hr.step (Step.openRead (crc := crc) 1)
    rw [g] at hr'
    obtain ⟨files, leak, hf, hsys'⟩ := hist_inv hr'
    have hlen : files.length = 1 := by rw [← List.length_map (f := (·.k)), hf]; rfl
    obtain ⟨fs2, c1, c2, c3⟩ := createFile_spec hsys'.reach.dir 6 (by rw [List.length_map, hlen]; omega)
    have r2 := ReadRun.other r1 (.dir (.create 6 _ fs2 c1 (by simp) (by omega) (by
        refine ⟨?_, ?_⟩
        · show fs.at'.seq + 1 < _; omega
        · show fs.at'.maxId + 1 < _; omega))) ⟨⟨1, 5, [1, 2, 3], [1, 2, 3], [], none, false, false⟩, by simp, rfl⟩ (by rw [c2.opened, ho]; simp)
    exact ⟨_, _, _, _, _, .read 2 _ r2 rfl, rfl, rfl, rfl⟩

/-- it delivers 1, 2 and then 3 and end of file -/
example (crc : Bytes → UInt32) : ∃ k fs ks r, ReadRun crc k fs ks r [2, 2] [.ok ([1, 2], .ok), .ok ([3], .endOfFile)] ∧ ks.length = 2 := by
  obtain ⟨k, fs, ks, r, answers, h, h1, h2, h3⟩ := demo_run crc
  have := C83_known_content h h3
  rw [h2] at this
  subst this
  exact ⟨k, fs, ks, r, h, h1⟩

/-- a rotation that drops an open file -/
example (crc : Bytes → UInt32) : ∃ fs fs' : FS, ∃ e ks k, Hist crc fs ks ∧ k ∈ ks ∧ k.id ∈ fs.at'.opened ∧ fs.rotate k.typ 1 0 0 = (.ok e, fs') ∧
    fs'.openForRead k.id = (.error .fileDoesNotExist, fs') ∧ k.id ∈ fs'.at'.opened := by
  obtain ⟨fs, s, hr, ho, hsys, hseq, hmax⟩ := demo_closed crc
  rcases openRead_spec hsys (f := ⟨⟨1, 5, [1, 2, 3], [1, 2, 3], [], none, false, false⟩, ⟨1, 5, some s⟩, [(s, [1, 2, 3])], []⟩) (by simp) with ⟨g, _⟩ | ⟨g, _⟩ | ⟨_, _, g⟩
  · rw [ho] at g; exact absurd g (by simp)
  · rw [ho] at g; exact absurd g (by simp)
  · have hr' := hr.step (Step.openRead (crc := crc) 1)
    rw [g] at hr'
    have hs2 : Sys crc { fs with at' := { fs.at' with opened := fs.at'.opened ++ [1] } }
        [⟨⟨1, 5, [1, 2, 3], [1, 2, 3], [], none, false, false⟩, ⟨1, 5, some s⟩, [(s, [1, 2, 3])], []⟩] [] :=
      hsys.opened rfl rfl rfl rfl rfl rfl (fun g _ _ _ hg => List.mem_append_left _ hg)
    have hcnt : countersOk { fs with at' := { fs.at' with opened := fs.at'.opened ++ [1] } } := by
      refine ⟨?_, ?_⟩
      · show fs.at'.seq + 1 < _; omega
      · show fs.at'.maxId + 1 < _; omega
    rcases sys_rotate hs2 5 1 0 0 (by simp) (by omega) hcnt with ⟨e, fs', g1, _⟩ | ⟨_, g2⟩
    · refine ⟨_, fs', e, _, ⟨1, 5, [1, 2, 3], [1, 2, 3], [], none, false, false⟩, hr', by simp, by simp, g1, ?_⟩
      exact C83_rotation_drops_open_file hr' (by simp) (by simp) (by decide) (by simp) (by simp) (by decide) hcnt g1
    · rw [(freeBytes_eq hs2.inv).1] at g2
      simp [FileSt.own, secs] at g2

end Verif.Props
