import Verif.Lemmas.Reach
/-
C12-C16, C26: the file directory.
The vocabulary (`Reach`, `Call`, `lists`, `CrashImage`, `PageCrash`) is in Verif/Spec/DirHistory.lean and
Verif/Spec/Crash.lean; `Chain`/`ChainsOk` in Verif/Spec/Chain.lean.
-/
namespace Verif.Props
open Verif Verif.Vlfs Verif.Spec

private theorem lists_of_restarts {fl : Flash} {es : List FileEntry} (h : Restarts fl es) :
    lists (FS.mount fl).2 es ∧ (ChainsOk fl es → (FS.mount fl).1 = .ok ()) := by
  obtain ⟨p, seq, m, h1, h2, h3, h4, h5⟩ := h
  have key : ∀ mg, lists ⟨⟨seq, es.length, m, p, []⟩, mg, ⟨fl, []⟩⟩ es := by
    intro mg
    have := filesIter_spec (fs := ⟨⟨seq, es.length, m, p, []⟩, mg, ⟨fl, []⟩⟩) h4 rfl (fun _ => true)
    rw [List.filter_eq_self.mpr (by simp)] at this
    exact this
  rcases mount_restarts h1 h2 h3 h4 h5 with ⟨e, hc, h⟩ | ⟨mg, hc, h⟩
  · rw [h]
    refine ⟨key _, fun hok => ?_⟩
    obtain ⟨m', hm'⟩ := claimFiles_ok es SectorsMng.new hok
    rw [hm'] at hc; exact absurd hc (by simp)
  · rw [h]
    exact ⟨key _, fun _ => rfl⟩

/-- **C12** Power may be lost at any point of any directory-changing call, between two flash operations or in the
middle of one (a page program cut off after any byte, an erase that reached any set of pages), in any reachable
state: the next start lists exactly the files from before the call or exactly those from after it. The start
succeeds provided the sector chains of the files can be followed (their integrity is a matter of the data region, C08). -/
theorem C12_directory_atomic {fs fs' : FS} {es es' : List FileEntry} {ids new : List Nat} {ops : List FlashOp}
    {fl' : Flash} (hr : Reach fs es ids) (hc : Call fs es fs' es' new) (hok : countersOk fs) (hi : issued fs fs' ops)
    (hl : es'.length ≤ 2517) (hcrash : CrashImage fs.dev.flash ops fl') :
    (lists (FS.mount fl').2 es ∨ lists (FS.mount fl').2 es') ∧
    (ChainsOk fl' es → ChainsOk fl' es' → (FS.mount fl').1 = .ok ()) := by
  have inv := reach_inv hr
  obtain ⟨m, h1, h2, h3, _, _, _⟩ := call_rewrite inv hc hok
  have hint := interrupted_of_crash h2.cap (h1.ops hi) hcrash
  rcases hint.restarts inv.dir h2 h3 hl hok.1 with h | h
  · exact ⟨Or.inl (lists_of_restarts h).1, fun a _ => (lists_of_restarts h).2 a⟩
  · exact ⟨Or.inr (lists_of_restarts h).1, fun _ a => (lists_of_restarts h).2 a⟩

/-- **C13** In every reachable state (any number of updates, restarts and interrupted updates) the file system lists
the files its history says, and a restart selects the table of the last completed update: same sequence number, same
slot, same highest id, same files. -/
theorem C13_newest_copy_wins {fs : FS} {es : List FileEntry} {ids : List Nat} (hr : Reach fs es ids) :
    lists fs es ∧ lists (FS.mount fs.dev.flash).2 es ∧
    (FS.mount fs.dev.flash).2.at' = { fs.at' with opened := [] } ∧
    (ChainsOk fs.dev.flash es → (FS.mount fs.dev.flash).1 = .ok ()) := by
  have inv := reach_inv hr
  have hl : lists fs es := by
    have := inv.dir.filesIter (fun _ => true)
    rw [List.filter_eq_self.mpr (by simp)] at this
    exact this
  refine ⟨hl, (lists_of_restarts inv.dir.restarts).1, ?_, (lists_of_restarts inv.dir.restarts).2⟩
  rcases mount_dirInv inv.dir with ⟨e, h⟩ | ⟨mg, _, h⟩ <;> rw [h]

/-- each completed update raises the sequence number and moves to the next slot, so "last" is well defined -/
theorem C13_update_advances {fs fs' : FS} {es es' : List FileEntry} {ids new : List Nat} (hr : Reach fs es ids)
    (hc : Call fs es fs' es' new) (hok : countersOk fs) :
    fs'.at'.seq = fs.at'.seq + 1 ∧ fs'.at'.position = (fs.at'.position + 1) % 4 := by
  obtain ⟨m, h1, _⟩ := call_rewrite (reach_inv hr) hc hok
  exact ⟨h1.seq, h1.pos⟩

/-- **C14** The id given to a new file is larger than every id ever handed out before (also to files removed since, and
before restarts) and than every id in the directory. -/
theorem C14_ids_never_reused {fs fs' : FS} {es es' : List FileEntry} {ids new : List Nat} (hr : Reach fs es ids)
    (hc : Call fs es fs' es' new) (hok : countersOk fs) :
    ∀ x ∈ new, (∀ y ∈ ids, y < x) ∧ (∀ e ∈ es, e.id < x) := by
  have inv := reach_inv hr
  obtain ⟨m, _, _, _, _, _, h6⟩ := call_rewrite inv hc hok
  intro x hx
  have := (h6 x hx).1
  exact ⟨fun y hy => by have := inv.ids y hy; omega, fun e he => by have := inv.dir.maxId e he; omega⟩

/-- **C15** Lookup by id finds the file with that id, and nothing when there is none; ids are unique. -/
theorem C15_lookup_exact {fs : FS} {es : List FileEntry} {ids : List Nat} (hr : Reach fs es ids) (id : Nat) :
    ((∃ e ∈ es, e.id = id) → ∃ e ∈ es, e.id = id ∧ (∃ i, fs.findFileEntry id = .ok (some (e, i))) ∧ fs.exists id = .ok true ∧
      ∀ e' ∈ es, e'.id = id → e' = e) ∧
    ((∀ e ∈ es, e.id ≠ id) → fs.findFileEntry id = .ok none ∧ fs.exists id = .ok false) := by
  have inv := (reach_inv hr).dir
  rcases findFileEntry_spec inv.holds inv.sorted inv.count id with ⟨k, hk, he, hf⟩ | ⟨hne, hf⟩
  · refine ⟨fun _ => ⟨es[k], List.getElem_mem hk, he, ⟨k, hf⟩, by rw [FS.exists, hf]; rfl, ?_⟩, fun h => absurd he (h _ (List.getElem_mem hk))⟩
    intro e' hmem he'
    obtain ⟨i, hi, rfl⟩ := List.getElem_of_mem hmem
    have hpair : ∀ i j (hi : i < es.length) (hj : j < es.length), i < j → es[i].id < es[j].id :=
      fun i j hi hj hij => List.pairwise_iff_getElem.mp inv.sorted i j hi hj hij
    rcases Nat.lt_trichotomy i k with h | h | h
    · have := hpair i k hi hk h; omega
    · subst h; rfl
    · have := hpair k i hk hi h; omega
  · refine ⟨fun ⟨e, h1, h2⟩ => absurd h2 (hne e h1), fun _ => ⟨hf, by rw [FS.exists, hf]; rfl⟩⟩

/-- the sector chains of the files lie in the data region and can be followed -/
def ChainsInData (fl : Flash) (es : List FileEntry) : Prop :=
  ∀ e ∈ es, ∃ l, Chain fl e.first l ∧ l.length ≤ 16384 ∧ ∀ y ∈ l, 32 ≤ y

/-- **C16** Bulk removal removes exactly the matching files that are not open, and returns how many it removed and how
many matching ones it had to skip. (A chain that cannot be followed makes the code panic or loop: hypothesis.) -/
theorem C16_remove_files {fs : FS} {es : List FileEntry} {ids : List Nat} (hr : Reach fs es ids) (hok : countersOk fs)
    (filter : FileEntry → Bool) (hch : ChainsInData fs.dev.flash es) :
    ∃ fs', fs.removeFiles filter =
        (.ok ((es.filter fun e => filter e && decide (e.id ∉ fs.at'.opened)).length,
              (es.filter fun e => filter e && decide (e.id ∈ fs.at'.opened)).length), fs') ∧
      lists fs' (es.filter fun e => !(filter e && decide (e.id ∉ fs.at'.opened))) ∧
      fs'.at'.opened = fs.at'.opened := by
  have inv := reach_inv hr
  rcases removeFiles_spec inv.dir inv.range filter with ⟨g, h1, h2, h3⟩ | ⟨er, g, h1, x, hx, _, _, hno⟩
  · refine ⟨g, ?_, ?_, h2.opened⟩
    · rw [h1]
      have e1 : (fun e => !keeps fs.at'.opened filter e) = fun e => filter e && decide (e.id ∉ fs.at'.opened) := by
        funext e; rw [keeps_eq]; cases filter e <;> simp
      have e2 : (fun e => filter e && keeps fs.at'.opened filter e) = fun e => filter e && decide (e.id ∈ fs.at'.opened) := by
        funext e; rw [keeps_eq]; cases filter e <;> simp
      rw [e1, e2]
    · have hreach := Reach.call hr (.remove filter _ _ g h1) hok
      have := (reach_inv hreach).dir.filesIter (fun _ => true)
      rw [List.filter_eq_self.mpr (by simp)] at this
      have e3 : (fun e : FileEntry => !filter e || decide (e.id ∈ fs.at'.opened)) =
          fun e => !(filter e && decide (e.id ∉ fs.at'.opened)) := by
        funext e; cases filter e <;> simp
      rw [e3] at this
      exact this
  · exact absurd (hch x hx) hno

/-- **C16** Removing one file: it succeeds exactly when the file exists and is not open; otherwise the error says which,
and the listing does not change. -/
theorem C16_remove_file {fs : FS} {es : List FileEntry} {ids : List Nat} (hr : Reach fs es ids) (hok : countersOk fs)
    (id : Nat) (hch : ChainsInData fs.dev.flash es) :
    ∃ fs', (((∃ e ∈ es, e.id = id) ∧ id ∉ fs.at'.opened ∧ fs.removeFile id = (.ok (), fs') ∧
        lists fs' (es.filter fun e => decide (e.id ≠ id))) ∨
      ((∃ e ∈ es, e.id = id) ∧ id ∈ fs.at'.opened ∧ fs.removeFile id = (.error .fileInUse, fs') ∧ lists fs' es) ∨
      ((∀ e ∈ es, e.id ≠ id) ∧ fs.removeFile id = (.error .fileDoesNotExist, fs') ∧ lists fs' es)) := by
  have inv := (reach_inv hr).dir
  obtain ⟨fs', h1, h2, _⟩ := C16_remove_files hr hok (fun e => e.id == id) hch
  have hfun : ∀ (p : Bool), (es.filter fun e => (e.id == id) && p).length = if p then (es.filter fun e => e.id == id).length else 0 := by
    intro p; cases p <;> simp
  have hrew : ∀ (P : Nat → Prop) [DecidablePred P], (es.filter fun e => (e.id == id) && decide (P e.id)) =
      es.filter fun e => (e.id == id) && decide (P id) := by
    intro P _
    apply List.filter_congr
    intro e _
    by_cases he : e.id = id
    · rw [he]
    · have : (e.id == id) = false := by simpa using he
      rw [this]; rfl
  have hcount : (∃ e ∈ es, e.id = id) → (es.filter fun e => e.id == id).length = 1 := by
    rintro ⟨e, he, rfl⟩
    have hnd : (es.map (·.id)).Nodup := by
      rw [List.nodup_iff_pairwise_ne, List.pairwise_map]
      exact inv.sorted.imp (fun h => by omega)
    have h3 : (es.filter fun x => x.id == e.id).length = (es.map (·.id)).count e.id := by
      rw [← List.countP_eq_length_filter, List.count, List.countP_map]; rfl
    rw [h3, List.count_eq_one_of_mem hnd (List.mem_map_of_mem he)]
  have hnone : (∀ e ∈ es, e.id ≠ id) → (es.filter fun e => e.id == id).length = 0 := by
    intro h
    rw [List.length_eq_zero_iff, List.filter_eq_nil_iff]
    intro e he; simpa using h e he
  rw [hrew (fun x => x ∉ fs.at'.opened), hrew (fun x => x ∈ fs.at'.opened), hfun, hfun] at h1
  refine ⟨fs', ?_⟩
  unfold FS.removeFile
  rw [h1]
  simp only
  by_cases hex : ∃ e ∈ es, e.id = id
  · rw [hcount hex]
    by_cases hop : id ∈ fs.at'.opened
    · right; left
      refine ⟨hex, hop, by simp [hop], ?_⟩
      have : (es.filter fun e => !((e.id == id) && decide (e.id ∉ fs.at'.opened))) = es := by
        rw [List.filter_eq_self]
        intro e he
        by_cases h : e.id = id
        · subst h; simp [hop]
        · simp [h]
      rw [this] at h2; exact h2
    · left
      refine ⟨hex, hop, by simp [hop], ?_⟩
      have : (es.filter fun e => !((e.id == id) && decide (e.id ∉ fs.at'.opened))) = es.filter fun e => decide (e.id ≠ id) := by
        apply List.filter_congr
        intro e he
        by_cases h : e.id = id
        · subst h; simp [hop]
        · simp [h]
      rw [this] at h2; exact h2
  · have hall : ∀ e ∈ es, e.id ≠ id := fun e he h => hex ⟨e, he, h⟩
    right; right
    rw [hnone hall]
    refine ⟨hall, by simp, ?_⟩
    have : (es.filter fun e => !((e.id == id) && decide (e.id ∉ fs.at'.opened))) = es := by
      rw [List.filter_eq_self]
      intro e he
      simp [hall e he]
    rw [this] at h2; exact h2

/-! ### Concrete histories -/

/-- a blank chip has no table header -/
theorem blank_noheader : ∀ q, q < 4 → headerDeserialize (Flash.read (fun _ => 0xFF) (q * 32768) 13) = none := by
  intro q _
  have : Flash.read (fun _ => 0xFF) (q * 32768) 13 = List.replicate 13 0xFF := by
    unfold Flash.read; rw [List.map_const', List.length_range]
  rw [this]; exact headerDeserialize_blank

/-- the directory after creating `n` files of type 5 on a blank chip -/
def nFiles (n : Nat) : List FileEntry := (List.range n).map fun i => ⟨i + 1, 5, none⟩

theorem nFiles_reach (n : Nat) (hn : n ≤ 2518) : ∃ fs ids, Reach fs (nFiles n) ids ∧ fs.at'.maxId = n ∧ fs.at'.seq = n + 1 ∧
    fs.at'.opened = [] := by
  induction n with
  | zero =>
    refine ⟨_, _, .format _ blank_noheader, ?_⟩
    rw [(format_inv _ blank_noheader).1]
    exact ⟨rfl, rfl, rfl⟩
  | succ n ih =>
    obtain ⟨fs, ids, h1, h2, h3, h3o⟩ := ih (by omega)
    have inv := reach_inv h1
    have hlen : (nFiles n).length = n := by simp [nFiles]
    obtain ⟨g, h4, h5, _⟩ := createFile_spec inv.dir 5 (by omega)
    refine ⟨g, [fs.at'.maxId + 1] ++ ids, ?_, by rw [h5.maxId, h2], by rw [h5.seq, h3], by rw [h5.opened, h3o]⟩
    · have hc := Reach.call h1 (Call.create 5 _ g h4 (by omega) (by omega)) ⟨by rw [h3]; omega, by rw [h2]; omega⟩
      have : nFiles n ++ [⟨fs.at'.maxId + 1, 5, none⟩] = nFiles (n + 1) := by
        rw [h2]; simp [nFiles, List.range_succ]
      rw [this] at hc
      exact hc

theorem nFiles_chains (fl : Flash) (n : Nat) : ChainsInData fl (nFiles n) := by
  intro e he
  simp only [nFiles, List.mem_map] at he
  obtain ⟨i, _, rfl⟩ := he
  exact ⟨[], .nil, by simp, by simp⟩

/-- hypotheses of C12-C16 are met: a reachable directory of three files, a fourth being created, and an interruption -/
example : ∃ fs fs' ids new ops, Reach fs (nFiles 3) ids ∧ Call fs (nFiles 3) fs' (nFiles 4) new ∧ countersOk fs ∧ issued fs fs' ops ∧
    (nFiles 4).length ≤ 2517 ∧ CrashImage fs.dev.flash ops fs.dev.flash ∧ ChainsInData fs.dev.flash (nFiles 3) := by
  obtain ⟨fs, ids, h1, h2, h3, _⟩ := nFiles_reach 3 (by omega)
  have inv := reach_inv h1
  obtain ⟨g, h4, h5, _⟩ := createFile_spec inv.dir 5 (by decide)
  obtain ⟨os, h6, _⟩ := h5.trace
  have hc := Call.create (es := nFiles 3) 5 _ g h4 (by decide) (by omega)
  rw [h2] at hc
  exact ⟨fs, g, ids, _, os, h1, hc, ⟨by rw [h3]; omega, by rw [h2]; omega⟩, by unfold issued; rw [h6]; rfl, by decide,
    .between [] os rfl, nFiles_chains _ _⟩

/-! ### C26: capacity -/

/-- **C26** (what holds) As long as the new directory has at most `MAX_FILES` = 2518 files, a directory-changing call
programs and erases, within the directory region, only the slot it rewrites: every other slot keeps its content. -/
theorem C26_within_slot {fs fs' : FS} {es es' : List FileEntry} {ids new : List Nat} (hr : Reach fs es ids)
    (hc : Call fs es fs' es' new) (hok : countersOk fs) :
    ∀ a, a < 4 * 32768 → a / 32768 ≠ (fs.at'.position + 1) % 4 → fs'.dev.flash a = fs.dev.flash a := by
  intro a ha hne
  obtain ⟨m, h1, h2, _⟩ := call_rewrite (reach_inv hr) hc hok
  obtain ⟨os, h3, h4⟩ := h1.trace
  have hcap := h2.cap
  rw [h3]
  show applyOps fs.dev.flash os a = _
  rw [applyOps_filter _ _ _ (by omega), h4]
  have := written_other fs.dev.flash (nextPos fs) (a / 32768) (tableImage (fs.at'.seq + 1) es' m) (13 * (es'.length + 2) / 256 + 1)
    (by omega) hne (a % 32768) (Nat.mod_lt _ (by decide))
  rw [slotAddr_eq, show a / 32768 * 32768 + a % 32768 = a by omega] at this
  exact this.symm

/-- **C26** (negation) The limit is not enforced: in a directory of 2518 files, creating one more is not refused but
reports success, and the call programs a page outside the slot it rewrites (the first page behind it). -/
theorem C26_capacity_violated : ∃ fs ids, Reach fs (nFiles 2518) ids ∧
    ∃ e fs', fs.createFile 5 = (.ok e, fs') ∧ ∃ data, FlashOp.page (((fs.at'.position + 1) % 4) * 32768 + 32768) data ∈ fs'.dev.log := by
  obtain ⟨fs, ids, h1, h2, h3, _⟩ := nFiles_reach 2518 (by omega)
  refine ⟨fs, ids, h1, ?_⟩
  have inv := reach_inv h1
  have hlen : (nFiles 2518).length = 2518 := by simp [nFiles]
  obtain ⟨g1, g2, g3⟩ := Builder.new_spec fs
  obtain ⟨b, h4, h5, h6⟩ := copyRest_spec inv.dir maxEntries (Builder.new fs) [] 0 g1 g2 (by omega)
    (by rw [maxEntries_eq]; omega) (by rw [List.length_nil]; omega)
  rw [List.nil_append, List.drop_zero] at h5
  have hb := bodyImage_length (fs.at'.seq + 1) (nFiles 2518)
  rw [hlen] at hb
  -- the stream: body, new entry, footer
  obtain ⟨w1, os1, w2, w3⟩ := extend_spec h5.w b.dev (FileEntry.serialize ⟨b.maxId + 1, 5, none⟩)
  obtain ⟨w4, os2, w5, w6⟩ := extend_spec w1 (b.w.extend b.dev (FileEntry.serialize ⟨b.maxId + 1, 5, none⟩)).2
    (footerSerialize (b.maxId + 1))
  refine ⟨⟨b.maxId + 1, 5, none⟩, (b.writeNewFile 5).2.commit, ?_, ?_⟩
  · unfold FS.createFile
    simp only [h4]
    rfl
  · have hS' : (bodyImage (fs.at'.seq + 1) (nFiles 2518) ++ FileEntry.serialize ⟨b.maxId + 1, 5, none⟩ ++
        footerSerialize (b.maxId + 1)).length = 32773 := by
      rw [List.length_append, List.length_append, hb, FileEntry.serialize_length, footerSerialize_length]
    have ha := w4.addr
    rw [hS', slotAddr_eq] at ha
    have hlog : ∀ (w : PageWriter) (d : Dev), FlashOp.page w.addr w.buf ∈ (w.flush d).2.log := by
      intro w d
      simp [PageWriter.flush, Dev.op]
    simp only [Builder.commit, Builder.writeNewFile, Builder.getNewFileId, Builder.write, Builder.extend]
    simp only [gt_iff_lt, Nat.lt_irrefl, if_false]
    have key := hlog ((b.w.extend b.dev (FileEntry.serialize ⟨b.maxId + 1, 5, none⟩)).1.extend
      (b.w.extend b.dev (FileEntry.serialize ⟨b.maxId + 1, 5, none⟩)).2 (footerSerialize (b.maxId + 1))).1
      ((b.w.extend b.dev (FileEntry.serialize ⟨b.maxId + 1, 5, none⟩)).1.extend
      (b.w.extend b.dev (FileEntry.serialize ⟨b.maxId + 1, 5, none⟩)).2 (footerSerialize (b.maxId + 1))).2
    rw [ha, show 256 * (32773 / 256) = 32768 by decide] at key
    exact ⟨_, key⟩

end Verif.Props
