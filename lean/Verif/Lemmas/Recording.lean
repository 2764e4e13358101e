import Verif.Lemmas.LogFile
import Verif.Props.DeltaLogger
import Verif.Props.Ring
/-
What holds of a recording at every point.
-/
namespace Verif.LogFile
open Verif Verif.Vlfs Verif.Spec Verif.Bit Verif.Delta Verif.Log

variable {TS TD D DD : Type}

theorem ids_unique {crc : Bytes → UInt32} {fs : FS} {ks : List Known} (h : SysInv crc fs ks) : ks.Pairwise fun a b => a.id ≠ b.id := by
  obtain ⟨files, leak, hf, hs⟩ := h
  rw [← hf, List.pairwise_map]
  have hsort := hs.reach.dir.sorted
  rw [List.pairwise_map] at hsort
  refine hsort.imp_of_mem ?_
  intro a b ha hb hab
  rw [← (hs.ok a ha).id, ← (hs.ok b hb).id]
  exact Nat.ne_of_lt hab

/-- changing the file with a given id -/
theorem map_file {a b : List Known} {k : Known} (h : (a ++ k :: b).Pairwise fun a b => a.id ≠ b.id) (f : Known → Known) :
    (a ++ k :: b).map (fun x => if x.id = k.id then f x else x) = a ++ f k :: b := by
  rw [List.pairwise_append, List.pairwise_cons] at h
  obtain ⟨_, ⟨h1, _⟩, h2⟩ := h
  have key : ∀ l : List Known, (∀ x ∈ l, x.id ≠ k.id) → l.map (fun x => if x.id = k.id then f x else x) = l := by
    intro l hl
    calc l.map (fun x => if x.id = k.id then f x else x) = l.map (fun x => x) := List.map_congr_left fun x hx => if_neg (hl x hx)
      _ = l := List.map_id' l
  rw [List.map_append, List.map_cons, if_pos rfl, key a fun x hx => h2 x hx k (by simp), key b fun x hx => Ne.symm (h1 x hx)]

/-- the file of the log -/
structure RecFile (c : Cfg TS TD D DD) (id : Nat) (s : St TS D) (safe : List (Out TS D)) (k : Known) : Prop where
  id : k.id = id
  writer : k.writer = some s.w
  maybe : k.maybe = []
  data : k.data = s.l.sink
  durable : ∃ l0, WInv c l0 safe ∧ l0.w.len = 0 ∧ l0.sink <+: k.durable

structure RecInv (crc : Bytes → UInt32) (c : Cfg TS TD D DD) (id : Nat) (s : St TS D) (ks : List Known) (inputs : List (TS × D)) (acc safe : List (Out TS D)) : Prop where
  hist : Hist crc s.fs ks
  run : Run c s.l inputs acc
  file : ∃ k ∈ ks, RecFile c id s safe k

theorem RecInv.accept {crc : Bytes → UInt32} {c : Cfg TS TD D DD} (hc : c.Codecs) (hfit : c.Fits) {id : Nat} {s s' : St TS D} {ks : List Known} {inputs : List (TS × D)}
    {acc safe : List (Out TS D)} (ih : RecInv crc c id s ks inputs acc safe) {rng1 rng2 : Nat → Nat × Nat} {t : TS} {v : D}
    (h : s.log crc c rng1 rng2 t v = (.ok true, s')) :
    RecInv crc c id s' (wrote id s' ks) (inputs ++ [(t, v)]) (acc ++ (if s.l.lastUnix then [] else s.l.unixBuf.toList.map .unix) ++ s'.l.recon) safe := by
  obtain ⟨k, hk, hf⟩ := ih.file
  obtain ⟨hw, hl⟩ := run_inv hc hfit ih.run
  obtain ⟨b', l', hp⟩ := log_pure crc rng1 rng2 hc hfit hw hl h
  obtain ⟨ops, ho, hdo⟩ := log_does crc rng1 rng2 hp
  obtain ⟨h1, h2, h3⟩ := (hdo s.w s.fs).ok h
  have hsink := (hdo s.w s.fs).1
  subst h1; subst h2
  obtain ⟨a, b, rfl⟩ := List.append_of_mem hk
  have hh := writes_hist ho ih.hist hf.writer hf.maybe h3
  have heq : wrote id s' (a ++ k :: b) = a ++ { k with data := k.data ++ writtenBytes ops, writer := some s'.w } :: b := by
    unfold wrote
    rw [← hf.id, map_file (ids_unique (hist_inv ih.hist)) (fun k => { k with data := s'.l.sink, writer := some s'.w }), hsink, hf.data]
  refine ⟨heq ▸ hh, ih.run.accept t v hp, { k with data := k.data ++ writtenBytes ops, writer := some s'.w }, by rw [heq]; simp, hf.id, rfl, hf.maybe, by rw [hf.data, hsink], hf.durable⟩

theorem log_refused {crc : Bytes → UInt32} {c : Cfg TS TD D DD} {s s' : St TS D} {rng1 rng2 : Nat → Nat × Nat} {t : TS} {v : D}
    (h : s.log crc c rng1 rng2 t v = (.ok false, s')) : s' = s := by
  unfold St.log at h
  split at h
  · injection h with _ h; exact h.symm
  · split at h
    · split at h
      · split at h <;> (injection h with h _; simp at h)
      · injection h with h _; simp at h
    · injection h with h _; simp at h

theorem RecInv.unix {crc : Bytes → UInt32} {c : Cfg TS TD D DD} (hc : c.Codecs) (hfit : c.Fits) {id : Nat} {s s' : St TS D} {ks : List Known} {inputs : List (TS × D)}
    {acc safe : List (Out TS D)} (ih : RecInv crc c id s ks inputs acc safe) {rng : Nat → Nat × Nat} {u : Unix}
    (h : s.logUnix crc rng u = (.ok (), s')) : RecInv crc c id s' (wrote id s' ks) inputs (acc ++ (if s.l.lastUnix then [] else [.unix u])) safe := by
  obtain ⟨k, hk, hf⟩ := ih.file
  obtain ⟨hw, hl⟩ := run_inv hc hfit ih.run
  obtain ⟨l', hp, _⟩ := logUnix_ok hfit u hw hl
  obtain ⟨ops, ho, hdo⟩ := logUnix_does crc rng hp
  obtain ⟨_, h2, h3⟩ := (hdo s.w s.fs).ok h
  have hsink := (hdo s.w s.fs).1
  subst h2
  obtain ⟨a, b, rfl⟩ := List.append_of_mem hk
  have hh := writes_hist ho ih.hist hf.writer hf.maybe h3
  have heq : wrote id s' (a ++ k :: b) = a ++ { k with data := k.data ++ writtenBytes ops, writer := some s'.w } :: b := by
    unfold wrote
    rw [← hf.id, map_file (ids_unique (hist_inv ih.hist)) (fun k => { k with data := s'.l.sink, writer := some s'.w }), hsink, hf.data]
  exact ⟨heq ▸ hh, ih.run.unix u hp, { k with data := k.data ++ writtenBytes ops, writer := some s'.w }, by rw [heq]; simp, hf.id, rfl, hf.maybe, by rw [hf.data, hsink], hf.durable⟩

theorem RecInv.flush {crc : Bytes → UInt32} {c : Cfg TS TD D DD} (hc : c.Codecs) (hfit : c.Fits) {id : Nat} {s s' : St TS D} {ks : List Known} {inputs : List (TS × D)}
    {acc safe : List (Out TS D)} (ih : RecInv crc c id s ks inputs acc safe) {rng : Nat → Nat × Nat} {r1 r2 : Nat}
    (h : s.flush crc rng r1 r2 = (.ok (), s')) : RecInv crc c id s' (flushed id s' ks) inputs acc acc := by
  obtain ⟨k, hk, hf⟩ := ih.file
  obtain ⟨hw, hl⟩ := run_inv hc hfit ih.run
  obtain ⟨l', hp, hw', hz, _⟩ := flush_ok hfit hw hl
  obtain ⟨ops, ho, hdo⟩ := flush_does crc rng r1 r2 hp
  obtain ⟨_, h2, h3⟩ := (hdo s.w s.fs).ok h
  have hsink := (hdo s.w s.fs).1
  rw [writtenBytes_append] at hsink
  simp only [writtenBytes, List.append_nil] at hsink
  subst h2
  obtain ⟨a, b, rfl⟩ := List.append_of_mem hk
  rw [runWriter_append] at h3
  simp only at h3
  rcases hx : runWriter crc s.fs s.w ops with ⟨_ | _, w1, fs1⟩
  · rw [hx] at h3; simp only at h3; injection h3 with h3 _; exact absurd h3 (by simp)
  · rw [hx] at h3
    simp only [runWriter] at h3
    have hh := writes_hist ho ih.hist hf.writer hf.maybe hx
    rcases hy : fs1.flushWriter crc w1 r1 r2 with ⟨_ | _, w2, fs2⟩
    · rw [hy] at h3; simp only at h3; injection h3 with h3 _; exact absurd h3 (by simp)
    · rw [hy] at h3
      simp only at h3
      injection h3 with _ h3
      injection h3 with h3 h4
      subst h3; subst h4
      have hh2 := hh.step (.flush r1 r2 w1 _ _ a b _ rfl rfl hy)
      have heq : flushed id s' (a ++ k :: b) = a ++ { k with data := k.data ++ writtenBytes ops, durable := k.data ++ writtenBytes ops, writer := some s'.w } :: b := by
        unfold flushed
        rw [← hf.id, map_file (ids_unique (hist_inv ih.hist)) (fun k => { k with data := s'.l.sink, durable := s'.l.sink, writer := some s'.w }), hsink, hf.data]
      refine ⟨heq ▸ hh2, ih.run.flush hp, { k with data := k.data ++ writtenBytes ops, durable := k.data ++ writtenBytes ops, writer := some s'.w }, by rw [heq]; simp, hf.id, rfl, hf.maybe, by rw [hf.data, hsink], s'.l, hw', hz, ?_⟩
      rw [hf.data, hsink]
      exact List.prefix_rfl

theorem recording_inv {crc : Bytes → UInt32} {c : Cfg TS TD D DD} (hc : c.Codecs) (hfit : c.Fits) {id : Nat} {s : St TS D} {ks : List Known} {inputs : List (TS × D)}
    {acc safe : List (Out TS D)} (h : Recording crc c id s ks inputs acc safe) : RecInv crc c id s ks inputs acc safe := by
  induction h with
  | start hr hk hid hw hd hm hl =>
    refine ⟨hr, by rw [hl]; exact .new, _, hk, hid, hw, hm, by rw [hd, hl]; rfl, Logger.new c, (run_inv hc hfit .new).1, rfl, ?_⟩
    exact List.nil_prefix
  | accept _ rng1 rng2 t v h ih => exact ih.accept hc hfit h
  | refuse _ rng1 rng2 t v h ih => rw [log_refused h]; exact ih
  | unix _ rng u h ih => exact ih.unix hc hfit h
  | flush _ rng r1 r2 h ih => exact ih.flush hc hfit h
  | other hr hs hkeep ih =>
    obtain ⟨k, hk, hf⟩ := ih.file
    exact ⟨ih.hist.step hs, ih.run, k, hkeep k hk hf.id, hf.id, hf.writer, hf.maybe, hf.data, hf.durable⟩

/-- what the chip holds after power was lost -/
theorem cutOff_content {crc : Bytes → UInt32} {c : Cfg TS TD D DD} (hc : c.Codecs) (hfit : c.Fits) {id : Nat} {s : St TS D} {ks : List Known} {inputs : List (TS × D)}
    {acc safe extra : List (Out TS D)} {fl' : Flash} (h : RecInv crc c id s ks inputs acc safe) (hcut : CutOff crc c id s ks fl' extra) :
    ∃ fs'', FS.mount fl' = (.ok (), fs'') ∧ ∃ cont l', ReadsAs crc fs'' id cont ∧ WInv c l' (acc ++ extra) ∧ cont <+: l'.sink ∧
      ∃ l0, WInv c l0 safe ∧ l0.w.len = 0 ∧ l0.sink <+: cont := by
  obtain ⟨k, hk, hf⟩ := h.file
  obtain ⟨hw, hl⟩ := run_inv hc hfit h.run
  obtain ⟨l0, d1, d2, d3⟩ := hf.durable
  have hid := hf.id
  have hdur := ((hist_inv h.hist).durable hk hf.writer).1
  -- the file is as after a loss
  have lost : ∀ {fs'' : FS} {ks' : List Known}, FS.mount fl' = (.ok (), fs'') → Found crc fs'' ks' → k.afterLoss ∈ ks' →
      ∃ cont, ReadsAs crc fs'' id cont ∧ cont <+: s.l.sink ∧ k.durable <+: cont := by
    intro fs'' ks' hm hinv hmem
    obtain ⟨pre, h1, h2⟩ := hinv.reads hmem ((hist_inv h.hist).whole hk hf.writer)
    rw [hid] at h2
    unfold Known.afterLoss at h1 h2
    rw [hf.writer] at h1 h2
    simp only at h1 h2
    refine ⟨_, h2, ?_, List.prefix_append _ _⟩
    rw [hf.maybe, List.append_nil] at h1 hdur
    rw [← hf.data]
    obtain ⟨y, hy⟩ := hdur
    rw [← hy, List.drop_left] at h1
    rw [← hy]
    exact (List.prefix_append_right_inj _).mpr h1
  -- the logger was making a call
  have call : ∀ {α : Type} {ops : List WriterOp} {fops : List FlashOp} {r : Except Err α × St TS D} {b : α} {l' : Logger TS D} {ex : List (Out TS D)}, Does crc s ops r b l' →
      issued s.fs r.2.fs fops → CrashImage s.fs.dev.flash fops fl' → WInv c l' (acc ++ ex) →
      ∃ fs'', FS.mount fl' = (.ok (), fs'') ∧ ∃ cont l', ReadsAs crc fs'' id cont ∧ WInv c l' (acc ++ ex) ∧ cont <+: l'.sink ∧
        ∃ l0, WInv c l0 safe ∧ l0.w.len = 0 ∧ l0.sink <+: cont := by
    intro α ops fops r b l' ex hdo hi hcr hw'
    rw [hdo.fs] at hi
    obtain ⟨a, b, rfl⟩ := List.append_of_mem hk
    obtain ⟨fs'', m1, cont, e1, e2, e3, _⟩ := runWriter_crash h.hist hf.writer hf.maybe hi hcr
    rw [hid] at e3
    exact ⟨fs'', m1, cont, l', e3, hw', by rw [hdo.1, ← hf.data]; exact e2, l0, d1, d2, d3.trans e1⟩
  have same : ∀ {fs'' : FS} {ks' : List Known}, FS.mount fl' = (.ok (), fs'') → Found crc fs'' ks' → k.afterLoss ∈ ks' → 
      ∃ fs'', FS.mount fl' = (.ok (), fs'') ∧ ∃ cont l', ReadsAs crc fs'' id cont ∧ WInv c l' (acc ++ []) ∧ cont <+: l'.sink ∧
        ∃ l0, WInv c l0 safe ∧ l0.w.len = 0 ∧ l0.sink <+: cont := by
    intro fs'' ks' hm hinv hmem
    obtain ⟨cont, e1, e2, e3⟩ := lost hm hinv hmem
    exact ⟨fs'', hm, cont, s.l, e1, by rw [List.append_nil]; exact hw, e2, l0, d1, d2, d3.trans e3⟩
  cases hcut with
  | idle =>
    obtain ⟨fs', m1, m4⟩ := restart_back (hist_inv h.hist)
    exact same m1 m4 (List.mem_map.mpr ⟨k, hk, rfl⟩)
  | log rng1 rng2 t v b l' ops _ hl' hi hcr =>
    obtain ⟨wops, ho, hdo⟩ := log_does crc rng1 rng2 hl'
    refine call (hdo s.w s.fs) hi hcr ?_
    rcases log_inv hc hfit hw hl hl' with ⟨e1, e2, _⟩ | ⟨e1, _, e3, _⟩
    · subst e1; subst e2; simpa using hw
    · subst e1; simpa [List.append_assoc] using e3
  | unix rng u ops _ hi hcr =>
    obtain ⟨l', hp, hw', _⟩ := logUnix_ok hfit u hw hl
    obtain ⟨wops, ho, hdo⟩ := logUnix_does crc rng hp
    exact call (hdo s.w s.fs) hi hcr hw'
  | flush rng r1 r2 ops _ hi hcr =>
    obtain ⟨l', hp, hw', _⟩ := flush_ok hfit hw hl
    obtain ⟨wops, ho, hdo⟩ := flush_does crc rng r1 r2 hp
    exact call (hdo s.w s.fs) hi hcr (by rw [List.append_nil]; exact hw')
  | otherWrite ks' _ hl hkeep =>
    obtain ⟨fs', m1, m4⟩ := loss_found (hist_inv h.hist) hl
    exact same m1 m4 (hkeep k hk hid)
  | otherDir fs' ks' ops _ hs hkeep hi hlen hp =>
    obtain ⟨fs'', ks2, m1, m2, m3⟩ := loss_dir_any (hist_inv h.hist) hs hi hlen hp
    refine same m1 m3 (List.mem_map.mpr ⟨k, ?_, rfl⟩)
    rcases m2 with rfl | rfl
    · exact hk
    · exact hkeep k hk hid
  | otherOpen fs' ks' ops _ hs hkeep hi hlen hp =>
    obtain ⟨fs'', ks2, m1, m2, m3⟩ := loss_allocStep_any (hist_inv h.hist) hs hi hlen hp
    refine same m1 m3 (List.mem_map.mpr ⟨k, ?_, rfl⟩)
    rcases m2 with rfl | rfl
    · exact hk
    · exact hkeep k hk hid

end Verif.LogFile
