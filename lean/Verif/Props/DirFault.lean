import Verif.Lemmas.DirFault
import Verif.Lemmas.WitnessFull
import Verif.Props.Files
/-
C122: creating and removing files on a chip that refuses operations.
-/
namespace Verif.Props
open Verif Verif.Vlfs Verif.Spec

theorem okOf_some {α σ : Type} {r : Except Err α × σ} {a : α} {s : σ} : okOf r = some (a, s) ↔ r = (.ok a, s) := by
  obtain ⟨x, t⟩ := r
  cases x with
  | error e => simp [okOf]
  | ok b => simp [okOf]

/-- without refused operations the calls are the same -/
theorem cut_all {α : Type} {ok : Nat → Bool} {dev : Dev} {r : Except Dev (α × FS)} {f : Except Err α × FS} (h : Cut ok dev r (okOf f) (·.2.dev)) (x : α) (fs' : FS) :
    (r = .ok (x, fs') → f = (.ok x, fs')) ∧ ((∀ i, ok i = true) → f = (.ok x, fs') → r = .ok (x, fs')) := by
  unfold Cut at h
  constructor
  · intro hr
    cases hf : okOf f with
    | none =>
      rw [hf] at h
      obtain ⟨d, h⟩ := h
      rw [h] at hr
      exact absurd hr (by simp)
    | some y =>
      rw [hf] at h
      obtain ⟨os, _, ⟨h2, _⟩ | ⟨j, _, h2, _⟩⟩ := h
      · rw [h2] at hr
        injection hr with hr
        subst hr
        exact okOf_some.mp hf
      · rw [h2] at hr
        exact absurd hr (by simp)
  · intro hok hf
    rw [okOf_some.mpr hf] at h
    obtain ⟨os, _, ⟨h2, _⟩ | ⟨j, _, _, h2, _⟩⟩ := h
    · exact h2
    · rw [hok] at h2
      exact absurd h2 (by simp)

/-- **C122** In every state and for every pattern of refused operations: a call that returns has done what it does on a chip that refuses nothing (nothing is lost silently); and on a chip that refuses
nothing every call that succeeds in the model of the other properties returns. -/
theorem C122_returns (ok : Nat → Bool) (fs : FS) :
    (∀ typ e fs', fs.createFileT ok typ = .ok (e, fs') → fs.createFile typ = (.ok e, fs')) ∧
    (∀ typ r1 r2 e fs', fs.createFileAndOpenT ok typ r1 r2 = .ok (e, fs') → fs.createFileAndOpen typ r1 r2 = (.ok e, fs')) ∧
    (∀ filter n fs', fs.removeFilesT ok filter = .ok (n, fs') → fs.removeFiles filter = (.ok n, fs')) ∧
    ((∀ i, ok i = true) →
      (∀ typ e fs', fs.createFile typ = (.ok e, fs') → fs.createFileT ok typ = .ok (e, fs')) ∧
      (∀ typ r1 r2 e fs', fs.createFileAndOpen typ r1 r2 = (.ok e, fs') → fs.createFileAndOpenT ok typ r1 r2 = .ok (e, fs')) ∧
      (∀ filter n fs', fs.removeFiles filter = (.ok n, fs') → fs.removeFilesT ok filter = .ok (n, fs'))) :=
  ⟨fun typ e fs' => (cut_all (cut_create ok fs typ) e fs').1, fun typ r1 r2 e fs' => (cut_all (cut_createOpen ok fs typ r1 r2) e fs').1,
    fun filter n fs' => (cut_all (cut_remove ok fs filter) n fs').1,
    fun h => ⟨fun typ e fs' => (cut_all (cut_create ok fs typ) e fs').2 h, fun typ r1 r2 e fs' => (cut_all (cut_createOpen ok fs typ r1 r2) e fs').2 h,
      fun filter n fs' => (cut_all (cut_remove ok fs filter) n fs').2 h⟩⟩

/-- a first file, on a chip that refuses nothing -/
example : ∃ (fs fs' : FS) (e : FileEntry), fs.createFileT (fun _ => true) 5 = .ok (e, fs') := by
  obtain ⟨s0, a0, m0⟩ := format_sys (fun _ => 0)
  obtain ⟨fs1, c1, _⟩ := createFile_spec s0.reach.dir 5 (by decide)
  exact ⟨_, fs1, _, ((C122_returns (fun _ => true) _).2.2.2 fun _ => rfl).1 5 _ fs1 c1⟩

/-- a call that panicked, compared with the call that the accepting chip completes -/
theorem cut_panic {α : Type} {ok : Nat → Bool} {fs fs1 : FS} {r : Except Dev (α × FS)} {f : Except Err α × FS} (h : Cut ok fs.dev r (okOf f) (·.2.dev)) {x : α} (hf : f = (.ok x, fs1)) {d : Dev}
    (hr : r = .error d) : ∃ ops, issued fs fs1 ops ∧ PageCrash fs.dev.flash ops d.flash := by
  rw [okOf_some.mpr hf] at h
  obtain ⟨os, h1, ⟨h2, _⟩ | ⟨j, _, h2, _⟩⟩ := h
  · rw [h2] at hr
    exact absurd hr (by simp)
  · rw [h2] at hr
    injection hr with hr
    have h1 : fs1.dev = fs.dev.ops os := h1
    refine ⟨os, by unfold issued; rw [h1]; rfl, ?_⟩
    rw [← hr]
    exact .between (os.take j) (os.drop j) (List.take_append_drop j os).symm

/-- the file system after a restart on the chip `d`: the directory has exactly the files `ks` or exactly the files `ks1`, and all of these have kept their content -/
def RestartsAs (crc : Bytes → UInt32) (d : Dev) (ks ks1 : List Known) : Prop :=
  ∃ fs' ks', FS.mount d.flash = (.ok (), fs') ∧ (ks' = ks ∨ ks' = ks1) ∧ (∃ es, lists fs' es ∧ es.map (·.id) = ks'.map (·.id)) ∧ ∀ k ∈ ks', Survives crc fs' k

/-- **C122** In every reachable state: `create_file` on a chip that refuses any of its operations panics; after the restart the directory is the one before the call, or also has the new file, and all files have
kept their content (closed files entirely, files that were being written at least as far as they were flushed). -/
theorem C122_create_refused {crc : Bytes → UInt32} {fs : FS} {ks : List Known} (hr : Hist crc fs ks) (typ : Nat) (ht : typ < 0x4000) (hok : countersOk fs) (hl : ks.length < 2517)
    {ok : Nat → Bool} {d : Dev} (hx : fs.createFileT ok typ = .error d) :
    RestartsAs crc d ks (ks ++ [⟨fs.at'.maxId + 1, typ, [], [], [], none, false, false⟩]) := by
  obtain ⟨files, leak, rfl, hs⟩ := hist_inv hr
  obtain ⟨fs1, c1, _⟩ := createFile_spec hs.reach.dir typ (by rw [List.length_map] at hl ⊢; omega)
  obtain ⟨ops, h1, h2⟩ := cut_panic (cut_create ok fs typ) c1 hx
  exact C08_power_loss_directory hr (.create typ _ fs1 c1 (by omega) ht hok) h1 (by rw [List.length_append, List.length_singleton]; omega) h2.crashImage

/-- **C122** The same for `remove_files` (with a filter on id and type) and `remove_file`: after the restart either no file is removed or all that were to be removed are, and the files in the directory have
kept their content. -/
theorem C122_remove_refused {crc : Bytes → UInt32} {fs : FS} {ks : List Known} (hr : Hist crc fs ks) (filter : Nat → Nat → Bool) (hsafe : ∀ k ∈ ks, filter k.id k.typ = true → k.safe)
    (hok : countersOk fs) (hl : ks.length ≤ 2517)
    {ok : Nat → Bool} {d : Dev} (hx : fs.removeFilesT ok (fun e => filter e.id e.typ) = .error d) :
    RestartsAs crc d ks (ks.filter fun k => !filter k.id k.typ || decide (k.id ∈ fs.at'.opened)) := by
  obtain ⟨n, fs1, c1, _⟩ := step_remove (hist_inv hr) filter hsafe hok
  obtain ⟨ops, h1, h2⟩ := cut_panic (cut_remove ok fs _) c1 hx
  exact C08_power_loss_directory hr (.remove filter n fs1 c1 hsafe hok) h1 (Nat.le_trans (List.length_filter_le _ _) hl) h2.crashImage

/-- **C122** The same for `create_file_and_open_for_write` while there is room on the chip. -/
theorem C122_create_open_refused {crc : Bytes → UInt32} {fs : FS} {ks : List Known} (hr : Hist crc fs ks) (typ r1 r2 : Nat) (ht : typ < 0x4000) (hok : countersOk fs) (hl : ks.length < 2517)
    (hfree : 0 < fs.mng.freeBytes) {ok : Nat → Bool} {d : Dev} (hx : fs.createFileAndOpenT ok typ r1 r2 = .error d) :
    ∃ k, k.id = fs.at'.maxId + 1 ∧ k.typ = typ ∧ k.data = [] ∧ RestartsAs crc d ks (ks ++ [k]) := by
  obtain ⟨files, leak, rfl, hs⟩ := hist_inv hr
  have hl' : files.length < 2517 := by rwa [List.length_map] at hl
  obtain ⟨e, fs1, c1⟩ := createFileAndOpen_ok hs (by omega) hfree typ r1 r2
  have he : e.id = fs.at'.maxId + 1 := by
    rcases createFileAndOpen_spec hs.reach.dir (inv_range hs.inv) typ r1 r2 (by rw [List.length_map]; omega) with ⟨s, fs2, _, g, _⟩ | ⟨er, fs2, g⟩
    · rw [c1] at g
      injection g with g _
      injection g with g
      rw [g]
    · rw [c1] at g
      injection g with g _
      exact absurd g (by simp)
  obtain ⟨ops, h1, h2⟩ := cut_panic (cut_createOpen ok fs typ r1 r2) c1 hx
  exact ⟨_, he, rfl, rfl, C08_power_loss_open hr (.createOpen typ r1 r2 e fs1 c1 (by omega) ht hok) h1 (by rw [List.length_append, List.length_singleton]; omega) h2.crashImage⟩

/-- **C122 (finding)** On a full chip `create_file_and_open_for_write` does not return that the device is full: it panics, in every reachable state, also when the chip refuses nothing. -/
theorem C122_full_panics {crc : Bytes → UInt32} {fs : FS} {ks : List Known} (hr : Hist crc fs ks) (hfree : fs.mng.freeBytes = 0) (hl : ks.length < 2518) (ok : Nat → Bool) (typ r1 r2 : Nat) :
    ∃ d, fs.createFileAndOpenT ok typ r1 r2 = .error d := by
  obtain ⟨files, leak, rfl, hs⟩ := hist_inv hr
  have hl' : (files.map (·.e)).length < 2518 := by rw [List.length_map] at hl ⊢; exact hl
  have h := cut_createOpen ok fs typ r1 r2
  have hn : okOf (fs.createFileAndOpen typ r1 r2) = none := by
    have hd := hs.reach.dir
    obtain ⟨h1, h2, h3⟩ := Builder.new_spec fs
    obtain ⟨b, h4, h5, h6⟩ := copyRest_spec hd maxEntries (Builder.new fs) [] 0 h1 h2 (by omega)
      (by rw [maxEntries_eq]; omega) (by rw [List.length_nil]; omega)
    have hh := copyRest_high hd maxEntries (Builder.new fs) [] 0 h1 h2 (by omega) (by rw [List.length_nil]; omega) (HighAs.new fs)
    rw [h4] at hh
    unfold FS.createFileAndOpen
    simp only [h4]
    unfold Builder.writeNewFileAndOpen
    simp only
    have hbm : b.getNewFileId.2.mng = fs.mng := by show b.mng = _; rw [h6, h3]
    have hbd : b.getNewFileId.2.dev = b.dev := rfl
    rw [hbm, hbd]
    have hhd : HighAs fs.dev b.dev := hh
    rcases claim_spec hs.inv r1 r2 b.dev (blank_high (inv_range hs.inv) hs.blank hhd.high) with ⟨x, c1, c2, _⟩ | ⟨c1, _⟩
    · exfalso
      obtain ⟨g1, g2⟩ := freeBytes_eq hs.inv
      obtain ⟨_, g3⟩ := freeBytes_eq c2
      rw [List.length_cons] at g3
      rw [hfree] at g1
      omega
    · rw [c1]
      rfl
  rw [hn] at h
  exact h

/-- **C122 (finding)** A refused operation is never returned as an error: whatever operations the chip refuses, each of the three calls either does everything or panics; and it panics when its first operation
is refused. -/
theorem C122_first_refused (ok : Nat → Bool) (fs : FS) (h : ok fs.dev.log.length = false) :
    (∀ typ, fs.createFileT ok typ = .error fs.dev) ∧ (∀ typ r1 r2, fs.createFileAndOpenT ok typ r1 r2 = .error fs.dev) ∧ (∀ filter, fs.removeFilesT ok filter = .error fs.dev) := by
  have hn : Builder.newT ok fs = .error fs.dev := by
    unfold Builder.newT Dev.attempt
    rw [h]
    rfl
  refine ⟨fun typ => ?_, fun typ r1 r2 => ?_, fun filter => ?_⟩
  · unfold FS.createFileT
    rw [hn]; rfl
  · unfold FS.createFileAndOpenT
    rw [hn]; rfl
  · unfold FS.removeFilesT
    rw [hn]; rfl

/-- one closed file; the chip refuses the first operation of each of the calls: the hypotheses are met -/
example (crc : Bytes → UInt32) : ∃ (fs : FS) (k : Known), Hist crc fs [k] ∧ RestartsAs crc fs.dev [k] [k, ⟨fs.at'.maxId + 1, 5, [], [], [], none, false, false⟩] := by
  obtain ⟨fs, s, hr, hop, _, h1, h2⟩ := demo_closed crc
  exact ⟨fs, _, hr, C122_create_refused hr 5 (by decide) ⟨by omega, by omega⟩ (by simp) ((C122_first_refused (fun _ => false) fs rfl).1 5)⟩

example (crc : Bytes → UInt32) : ∃ (fs : FS) (k : Known), Hist crc fs [k] ∧ RestartsAs crc fs.dev [k] [] := by
  obtain ⟨fs, s, hr, hop, _, h1, h2⟩ := demo_closed crc
  have := C122_remove_refused hr (fun _ _ => true) (fun k hk _ h => by simp at hk; rw [hk] at h; exact absurd h (by simp)) ⟨by omega, by omega⟩ (by simp)
    ((C122_first_refused (fun _ => false) fs rfl).2.2 _)
  rw [hop] at this
  exact ⟨fs, _, hr, by simpa using this⟩

example (crc : Bytes → UInt32) : ∃ (fs : FS) (k k1 : Known), Hist crc fs [k] ∧ k1.id = fs.at'.maxId + 1 ∧ RestartsAs crc fs.dev [k] [k, k1] := by
  obtain ⟨fs, s, hr, hop, hs, h1, h2⟩ := demo_closed crc
  have hfree : 0 < fs.mng.freeBytes := by
    obtain ⟨g1, _⟩ := freeBytes_eq hs.inv
    rw [g1]
    simp [FileSt.own, DATA_REGION_SECTORS]
  obtain ⟨k1, g1, _, _, g2⟩ := C122_create_open_refused hr 5 0 0 (by decide) ⟨by omega, by omega⟩ (by simp) hfree ((C122_first_refused (fun _ => false) fs rfl).2.1 5 0 0)
  exact ⟨fs, _, k1, hr, g1, g2⟩

/-- a full chip -/
example (crc : Bytes → UInt32) : ∃ (fs : FS) (k : Known), Hist crc fs [k] ∧ ∃ d, fs.createFileAndOpenT (fun _ => true) 5 0 0 = .error d := by
  obtain ⟨fs, k, hr, _, _, _, _, hf⟩ := demo_full crc
  exact ⟨fs, k, hr, C122_full_panics hr hf (by simp) _ 5 0 0⟩

end Verif.Props
