import Verif.Model.ConfigFile
import Verif.Spec.ConfigFile
import Verif.Lemmas.ConsoleFiles
import Verif.Props.Files
import Verif.Props.Ring
/-
Configuration files.
-/
namespace Verif.Vlfs
open Verif Verif.Spec Verif.Config

theorem findFirst_dir {fs : FS} {es : List FileEntry} (hd : DirInv fs es) (filter : FileEntry → Bool) :
    fs.findFirstFile filter = .ok (es.find? filter) := findFirst_spec hd.holds hd.count filter

theorem canRead_mem {files : List FileSt} {ks : List Known} (hf : files.map (·.k) = ks) {f : FileSt} (hm : f ∈ files) : f.k ∈ ks := by
  rw [← hf]; exact List.mem_map.mpr ⟨f, hm, rfl⟩

theorem canRead_none {crc : Bytes → UInt32} {fs : FS} {ks : List Known} (hr : CanRead crc fs ks) {typ : Nat} (h : ∀ k ∈ ks, k.typ ≠ typ) :
    fs.findFirstFile (ofTyp typ) = .ok none := by
  obtain ⟨files, hf, hs⟩ := hr
  rw [hs.first, List.find?_eq_none.mpr]
  intro e he
  obtain ⟨f, hm, rfl⟩ := List.mem_map.mp he
  unfold ofTyp
  rw [hs.typ f hm]
  simpa using h _ (canRead_mem hf hm)

theorem first_none {crc : Bytes → UInt32} {fs : FS} {ks : List Known} (hr : Hist crc fs ks) {typ : Nat} (h : ∀ k ∈ ks, k.typ ≠ typ) :
    fs.findFirstFile (ofTyp typ) = .ok none := canRead_none (hist_inv hr).canRead h

theorem readable_some {crc : Bytes → UInt32} {fs : FS} {files : List FileSt} {ks : List Known} (hf : files.map (·.k) = ks) (hs : Readable crc fs files) {typ : Nat} {k : Known} (h : FirstOf ks typ k) :
    ∃ f ∈ files, f.k = k ∧ fs.findFirstFile (ofTyp typ) = .ok (some f.e) := by
  obtain ⟨f, hm, hk⟩ : ∃ f ∈ files, f.k = k := by
    have := h.1
    rw [← hf] at this
    exact List.mem_map.mp this
  refine ⟨f, hm, hk, ?_⟩
  rw [hs.first]
  have hsort := hs.sorted
  have hfe : ofTyp typ f.e = true := by
    unfold ofTyp; rw [hs.typ f hm, hk, h.2.1]; simp
  cases hx : (files.map (·.e)).find? (ofTyp typ) with
  | none =>
    rw [List.find?_eq_none] at hx
    exact absurd hfe (hx _ (List.mem_map.mpr ⟨f, hm, rfl⟩))
  | some e =>
    have he := List.find?_some hx
    have hmem := List.mem_of_find?_eq_some hx
    obtain ⟨g, hg, rfl⟩ := List.mem_map.mp hmem
    have h1 : f.e.id ≤ g.e.id := by
      rw [hs.id f hm, hs.id g hg, hk]
      refine h.2.2 _ (canRead_mem hf hg) ?_
      rw [← hs.typ g hg]
      unfold ofTyp at he
      simpa using he
    have h2 : g.e.id ≤ f.e.id := by
      rw [List.find?_eq_some_iff_append] at hx
      obtain ⟨_, as, bs, q1, q2⟩ := hx
      rw [q1] at hsort
      have hmf : f.e ∈ files.map (·.e) := List.mem_map.mpr ⟨f, hm, rfl⟩
      rw [q1] at hmf
      rw [List.pairwise_append] at hsort
      rcases List.mem_append.mp hmf with q | q
      · have := q2 _ q; rw [hfe] at this; simp at this
      · rcases List.mem_cons.mp q with q | q
        · rw [q]
        · exact Nat.le_of_lt ((List.pairwise_cons.mp hsort.2.1).1 _ q)
    rw [Props.sorted_unique hs.sorted hmem (List.mem_map.mpr ⟨f, hm, rfl⟩) (by omega)]

theorem canRead_some {crc : Bytes → UInt32} {fs : FS} {ks : List Known} (hr : CanRead crc fs ks) {typ : Nat} {k : Known} (h : FirstOf ks typ k) :
    ∃ (files : List FileSt) (f : FileSt), files.map (·.k) = ks ∧ Readable crc fs files ∧ f ∈ files ∧ f.k = k ∧ fs.findFirstFile (ofTyp typ) = .ok (some f.e) := by
  obtain ⟨files, hf, hs⟩ := hr
  obtain ⟨f, h1, h2, h3⟩ := readable_some hf hs h
  exact ⟨files, f, hf, hs, h1, h2, h3⟩

theorem first_some {crc : Bytes → UInt32} {fs : FS} {ks : List Known} (hr : Hist crc fs ks) {typ : Nat} {k : Known} (h : FirstOf ks typ k) :
    ∃ files leak f, files.map (·.k) = ks ∧ Sys crc fs files leak ∧ f ∈ files ∧ f.k = k ∧ fs.findFirstFile (ofTyp typ) = .ok (some f.e) := by
  obtain ⟨files, leak, hf, hs⟩ := hist_inv hr
  obtain ⟨f, h1, h2, h3⟩ := readable_some hf hs.readable h
  exact ⟨files, leak, f, hf, hs, h1, h2, h3⟩

/-- the bytes of a stream of bytes and bad pages -/
def byteItems (items : List Item) : Bytes := items.filterMap fun i => match i with | .byte b => some b | .bad _ => none

theorem consume_byteItems (items : List Item) (n : Nat) :
    byteItems items = (consume items n).1 ++ byteItems (consume items n).2.2 ∧ (consume items n).1.length ≤ n := by
  induction items generalizing n with
  | nil => cases n <;> simp [consume, byteItems]
  | cons i items ih =>
    cases n with
    | zero => simp [consume]
    | succ n =>
      cases i with
      | bad a => simp [consume, byteItems]
      | byte b =>
        obtain ⟨h1, h2⟩ := ih n
        have h1 : byteItems (.byte b :: items) = b :: byteItems items := by simp [byteItems]
        rw [h1, (ih n).1]
        simp only [consume, List.cons_append, List.length_cons]
        exact ⟨by simp, by omega⟩

/-- `read_exact` on any stream: bytes of good pages only, and nothing at all if there are too few of them -/
theorem readExact_spec {crc : Bytes → UInt32} {fl : Flash} (n : Nat) : ∀ (fuel : Nat) (r : FileReader) (items : List Item) (c : Nat) (acc : Bytes),
    RInv crc fl r items c → c ≤ 999990 → acc.length ≤ n → n - acc.length < fuel →
    ∃ b r', readExact crc fl fuel r n acc = (.ok b, r') ∧ r'.id = r.id ∧ (∀ d, b = some d → d.length = n ∧ d <+: acc ++ byteItems items) := by
  intro fuel
  induction fuel with
  | zero => intros; omega
  | succ fuel ih =>
    intro r items c acc hR hc ha hf
    unfold readExact
    by_cases h0 : acc.length = n
    · rw [if_pos h0]
      exact ⟨_, _, rfl, rfl, fun d hd => by injection hd with hd; subst hd; exact ⟨h0, List.prefix_append _ _⟩⟩
    rw [if_neg h0]
    obtain ⟨r1, c1, e1, e2, e3⟩ := readSlice_spec (n - acc.length) hR hc
    have hid := readSlice_id crc fl r (n - acc.length)
    rw [e1] at hid
    rw [e1]
    simp only
    by_cases hz : (consume items (n - acc.length)).1.length = 0
    · rw [if_pos hz]
      exact ⟨none, _, rfl, hid, fun d hd => by simp at hd⟩
    rw [if_neg hz]
    obtain ⟨q1, q2⟩ := consume_byteItems items (n - acc.length)
    obtain ⟨b, r', g1, g2, g3⟩ := ih r1 _ c1 (acc ++ (consume items (n - acc.length)).1) e2 (by omega)
      (by rw [List.length_append]; omega) (by rw [List.length_append]; omega)
    refine ⟨b, r', g1, g2.trans hid, fun d hd => ?_⟩
    rw [q1, ← List.append_assoc]
    exact g3 d hd

/-- `read_exact` on a file without damaged pages -/
theorem readExact_bytes {crc : Bytes → UInt32} {fl : Flash} {r : FileReader} {D : Bytes} {c : Nat} (n : Nat) (hR : RInv crc fl r (D.map .byte) c)
    (hc : c ≤ 999990) : ∃ r', readExact crc fl (n + 1) r n [] = (.ok (if n ≤ D.length then some (D.take n) else none), r') ∧ r'.id = r.id := by
  by_cases hn : n = 0
  · subst hn
    exact ⟨r, by simp [readExact], rfl⟩
  have hid := readSlice_id crc fl r n
  obtain ⟨r1, c1, e1, e2, e3⟩ := readSlice_spec n hR hc
  obtain ⟨m1, m2⟩ := consume_map D n
  rw [e1] at hid
  unfold readExact
  rw [if_neg (by rw [List.length_nil]; omega)]
  simp only [List.length_nil, Nat.sub_zero, e1, List.nil_append]
  rw [m2] at e2
  rw [m1]
  by_cases hD : D.length = 0
  · have : D = [] := List.length_eq_zero_iff.mp hD
    subst this
    exact ⟨r1, by simp; omega, hid⟩
  rw [if_neg (by rw [List.length_take]; omega)]
  obtain ⟨n, rfl⟩ : ∃ m, n = m + 1 := ⟨n - 1, by omega⟩
  by_cases hle : n + 1 ≤ D.length
  · refine ⟨r1, ?_, hid⟩
    unfold readExact
    rw [if_pos (by rw [List.length_take]; omega), if_pos hle]
  · rw [if_neg hle]
    have hid2 := readSlice_id crc fl r1 (n + 1 - (List.take (n + 1) D).length)
    obtain ⟨r2, c2, f1, f2, f3⟩ := readSlice_spec (n + 1 - (List.take (n + 1) D).length) e2 (by omega)
    rw [f1] at hid2
    refine ⟨r2, ?_, hid2.trans hid⟩
    unfold readExact
    rw [if_neg (by rw [List.length_take]; omega), f1]
    simp only
    rw [if_pos (by rw [(consume_map _ _).1, List.drop_eq_nil_of_le (by omega)]; simp)]

theorem open_close {fs : FS} {id : Nat} (h : id ∉ fs.at'.opened) :
    FS.markClosed { fs with at' := { fs.at' with opened := fs.at'.opened ++ [id] } } id = fs := by
  obtain ⟨m1, m2, m3, m4, m5, m6⟩ := markClosed_fields { fs with at' := { fs.at' with opened := fs.at'.opened ++ [id] } } id
  have ho := markClosed_last (fs := { fs with at' := { fs.at' with opened := fs.at'.opened ++ [id] } }) (l := fs.at'.opened) rfl h
  generalize FS.markClosed _ id = g at *
  obtain ⟨⟨a, b, c, d, o⟩, m, dv⟩ := g
  obtain ⟨⟨a', b', c', d', o'⟩, m', dv'⟩ := fs
  simp only at m1 m2 m3 m4 m5 m6 ho
  subst m1 m2 m3 m4 m5 m6 ho
  rfl

theorem read_eq {crc : Bytes → UInt32} {fs fs1 fs2 : FS} {typ n : Nat} {e : FileEntry} {r r' : FileReader} {b : Option Bytes}
    (h1 : fs.findFirstFile (ofTyp typ) = .ok (some e)) (h2 : fs.openForRead e.id = (.ok r, fs1))
    (h3 : readExact crc fs1.dev.flash (n + 1) r n [] = (.ok b, r')) (h4 : fs1.closeReader r' = fs2) : Config.read crc n fs typ = (.ok b, fs2) := by
  unfold Config.read
  rw [h1]
  simp only [h2, h3, h4]

/-- what `read` does when the file of the type with the smallest id has no writer -/
theorem canRead_config {crc : Bytes → UInt32} {fs : FS} {ks : List Known} (hr : CanRead crc fs ks) {typ n : Nat} {k : Known} (h : FirstOf ks typ k)
    (hw : k.writer = none) (hdm : k.damaged = false) (hno : k.id ∉ fs.at'.opened) (hlen : fs.at'.opened.length < 32) :
    ∃ pre, pre <+: k.maybe ∧
      Config.read crc n fs typ = (.ok (if n ≤ (k.data ++ pre).length then some ((k.data ++ pre).take n) else none), fs) := by
  obtain ⟨files, f, hf, hs, hm, rfl, hfind⟩ := canRead_some hr h
  obtain ⟨pre, hpre, hR, hlen2⟩ := hs.stream f hm hw hdm
  refine ⟨pre, hpre, ?_⟩
  obtain ⟨r', g1, g2⟩ := readExact_bytes n hR (by omega)
  have q := hs.opens f hm hno hlen
  refine read_eq (fs1 := { fs with at' := { fs.at' with opened := fs.at'.opened ++ [f.k.id] } }) hfind (by rw [hs.id f hm]; exact q) g1 ?_
  unfold FS.closeReader
  rw [g2]
  exact open_close hno

theorem configRead_spec {crc : Bytes → UInt32} {fs : FS} {ks : List Known} (hr : Hist crc fs ks) {typ n : Nat} {k : Known} (h : FirstOf ks typ k)
    (hw : k.writer = none) (hdm : k.damaged = false) (hno : k.id ∉ fs.at'.opened) (hlen : fs.at'.opened.length < 32) :
    ∃ pre, pre <+: k.maybe ∧
      Config.read crc n fs typ = (.ok (if n ≤ (k.data ++ pre).length then some ((k.data ++ pre).take n) else none), fs) :=
  canRead_config (hist_inv hr).canRead h hw hdm hno hlen

theorem canRead_noConfig {crc : Bytes → UInt32} {fs : FS} {ks : List Known} (hr : CanRead crc fs ks) {typ n : Nat} (h : ∀ k ∈ ks, k.typ ≠ typ) :
    Config.read crc n fs typ = (.ok none, fs) := by
  unfold Config.read
  rw [canRead_none hr h]

theorem configRead_none {crc : Bytes → UInt32} {fs : FS} {ks : List Known} (hr : Hist crc fs ks) {typ n : Nat} (h : ∀ k ∈ ks, k.typ ≠ typ) :
    Config.read crc n fs typ = (.ok none, fs) := by
  unfold Config.read
  rw [first_none hr h]

/-- a directory step: the counters and the files marked open -/
theorem dirStep_counters {crc : Bytes → UInt32} {fs fs' : FS} {ks ks' : List Known} (hr : Hist crc fs ks) (hd : DirStep fs ks fs' ks') :
    fs'.at'.seq = fs.at'.seq + 1 ∧ fs'.at'.opened = fs.at'.opened := by
  obtain ⟨files, leak, hf, hs⟩ := hist_inv hr
  subst hf
  obtain ⟨es', new, hc⟩ := dirStep_call hs hd
  obtain ⟨m, h1, _⟩ := call_rewrite hs.reach hc (dirStep_inv (hist_inv hr) hd).2.2
  exact ⟨h1.seq, h1.opened⟩

/-- the steps of `write` up to the opened writer -/
theorem configWrite_open {crc : Bytes → UInt32} {fs : FS} {ks : List Known} (hr : Hist crc fs ks) {typ : Nat}
    (hsafe : ∀ k ∈ ks, k.typ = typ → k.safe) (hcap : ks.length < 2518) (ht : typ < 0x4000) (hseq : fs.at'.seq + 3 < 2 ^ 64) (hid : fs.at'.maxId + 2 < 2 ^ 64) :
    ∃ n fs1 e fs2, fs.removeFiles (ofTyp typ) = (.ok n, fs1) ∧ DirStep fs ks fs1 (withoutType typ fs.at'.opened ks) ∧
      fs1.createFile typ = (.ok e, fs2) ∧ DirStep fs1 (withoutType typ fs.at'.opened ks) fs2 (withoutType typ fs.at'.opened ks ++ [⟨e.id, typ, [], [], [], none, false, false⟩]) ∧
      countersOk fs2 ∧ fs2.at'.opened = fs.at'.opened ∧ e.id = fs.at'.maxId + 1 ∧ fs2.mng = fs1.mng := by
  have hok : countersOk fs := ⟨by omega, by omega⟩
  obtain ⟨n, fs1, g1, _, g3⟩ := step_remove (hist_inv hr) (fun _ t => t == typ) (fun k hk h => hsafe k hk (by simpa using h)) hok
  have d1 : DirStep fs ks fs1 (withoutType typ fs.at'.opened ks) :=
    .remove (fun _ t => t == typ) n fs1 g1 (fun k hk h => hsafe k hk (by simpa using h)) hok
  obtain ⟨q1, q2⟩ := dirStep_counters hr d1
  have hr1 := hr.step (.dir d1)
  have hlen : (withoutType typ fs.at'.opened ks).length < 2518 := Nat.lt_of_le_of_lt (List.length_filter_le ..) hcap
  have hmax : fs1.at'.maxId = fs.at'.maxId := by
    obtain ⟨files, leak, hf, hs⟩ := hist_inv hr
    subst hf
    rcases removeFiles_spec hs.reach.dir hs.reach.range (ofTyp typ) with ⟨g, h1, h2, h3⟩ | ⟨er, g, h1, _⟩
    · have g1 : fs.removeFiles (ofTyp typ) = (.ok n, fs1) := g1
      rw [g1] at h1
      injection h1 with _ h1
      subst h1
      exact h2.maxId
    · have g1 : fs.removeFiles (ofTyp typ) = (.ok n, fs1) := g1
      rw [g1] at h1
      injection h1 with h1 _
      exact absurd h1 (by simp)
  obtain ⟨files, leak, hf, hs⟩ := hist_inv hr1
  obtain ⟨fs2, h1, h2, h3⟩ := createFile_spec hs.reach.dir typ (by rw [List.length_map, ← List.length_map (f := (·.k)), hf]; exact hlen)
  have hok1 : countersOk fs1 := ⟨by omega, by omega⟩
  refine ⟨n, fs1, _, fs2, g1, d1, h1, .create typ _ fs2 h1 hlen ht hok1, ?_, by rw [h2.opened, q2], by show fs1.at'.maxId + 1 = _; omega, h3⟩
  exact ⟨by rw [h2.seq]; omega, by rw [h2.maxId]; omega⟩

/-- all outcomes of `write` -/
theorem configWrite_spec {crc : Bytes → UInt32} {fs : FS} {ks : List Known} (hr : Hist crc fs ks) {typ : Nat}
    (hsafe : ∀ k ∈ ks, k.typ = typ → k.safe) (hcap : ks.length < 2518) (ht : typ < 0x4000) (hseq : fs.at'.seq + 3 < 2 ^ 64) (hid : fs.at'.maxId + 2 < 2 ^ 64)
    (bytes : Bytes) (rng1 : Nat → Nat) (rng2 : Nat → Nat × Nat) :
    (∃ fs' id, fs.at'.maxId < id ∧ Config.write crc fs typ bytes rng1 rng2 = (.ok (), fs') ∧ fs'.at'.opened = fs.at'.opened ∧
      Hist crc fs' (withoutType typ fs.at'.opened ks ++ [⟨id, typ, bytes, bytes, [], none, false, false⟩])) ∨
    (∃ fs', Config.write crc fs typ bytes rng1 rng2 = (.error .tooManyFilesOpen, fs') ∧ 32 ≤ fs.at'.opened.length) ∨
    (∃ n fs1 fs', fs.removeFiles (ofTyp typ) = (.ok n, fs1) ∧ fs1.mng.freeBytes = 0 ∧ Config.write crc fs typ bytes rng1 rng2 = (.error .deviceFull, fs')) ∨
    (∃ fs', fs'.mng.freeBytes = 0 ∧ Config.write crc fs typ bytes rng1 rng2 = (.error .panic, fs')) := by
  obtain ⟨n, fs1, e, fs2, g1, d1, g2, d2, hok2, hop, heid, hmng⟩ := configWrite_open hr hsafe hcap ht hseq hid
  have hr2 := (hr.step (.dir d1)).step (.dir d2)
  have hmax := hist_openIds hr
  have hnot : e.id ∉ fs2.at'.opened := by
    rw [hop]; intro hx; have := hmax _ hx; omega
  unfold Config.write
  simp only [g1, g2]
  rcases step_openWrite (hist_inv hr2) (k := ⟨e.id, typ, [], [], [], none, false, false⟩) (b := []) rfl rfl rfl hok2 rng1 with
    ⟨q, _⟩ | ⟨q1, q2⟩ | ⟨q1, fs3, q2, _⟩ | ⟨q1, q2, w, fs3, q3, q4, q5⟩
  · exact absurd q hnot
  · have q2 : fs2.openForWrite e.id rng1 = _ := q2
    refine .inr (.inl ⟨fs2, ?_, by rw [← hop]; exact q1⟩)
    rw [q2]
  · have q2 : fs2.openForWrite e.id rng1 = _ := q2
    refine .inr (.inr (.inl ⟨n, fs1, fs3, rfl, ?_, by rw [q2]⟩))
    refine Classical.byContradiction fun hfree => ?_
    obtain ⟨files, leak, hf, hs⟩ := hist_inv (hr.step (.dir d1))
    have hl : files.length < 2518 := by
      have : files.length = (withoutType typ fs.at'.opened ks).length := by rw [← hf, List.length_map]
      rw [this]
      exact Nat.lt_of_le_of_lt (List.length_filter_le ..) hcap
    obtain ⟨c1, _, s2⟩ := create_sys hs g2 hl ht (dirStep_inv (hist_inv (hr.step (.dir d1))) d2).2.2
    by_cases hlen : fs2.at'.opened.length < 32
    · obtain ⟨new, fs4, o1, _⟩ := openWrite_fresh (bs := []) s2 rfl rfl c1 hnot hlen hok2 (by rw [hmng]; omega) rng1
      have o1 : fs2.openForWrite e.id rng1 = (.ok (FileWriter.new new e.id), fs4) := o1
      rw [o1] at q2
      injection q2 with q2 _
      exact absurd q2 (by simp)
    · obtain ⟨j, hj⟩ := s2.find (f := ⟨⟨e.id, typ, [], [], [], none, false, false⟩, e, [], []⟩) (by simp)
      unfold FS.openForWrite at q2
      have hj : fs2.findFileEntry e.id = _ := hj
      rw [hj] at q2
      simp only at q2
      rw [if_neg (fun hx => hnot ((isOpened_iff _ _).mp hx)), markOpened_err (by omega)] at q2
      injection q2 with q2 _
      exact absurd q2 (by simp)
  · have q3 : fs2.openForWrite e.id rng1 = _ := q3
    have hr3 := hr2.step (.openWrite e.id rng1 w fs3 _ [] _ rfl rfl rfl rfl q3 hok2)
    rw [q3]
    simp only
    rcases step_extend (hist_inv hr3) (b := []) rfl rfl rfl rng2 bytes with ⟨c1, _⟩ | ⟨c1, c2, _⟩
    · obtain ⟨x, w', fs4, hx⟩ : ∃ x w' fs4, fs3.extendWriter crc w rng2 bytes = (x, w', fs4) := ⟨_, _, _, rfl⟩
      rw [hx] at c1
      have c1 : x = .ok () := c1
      subst c1
      rw [hx]
      simp only
      have hr4 := hr3.step (.extend rng2 bytes w w' fs4 _ [] _ rfl rfl rfl hx)
      have hr5 := hr4.step (.close w' _ [] _ rfl rfl)
      refine .inl ⟨_, e.id, by omega, rfl, ?_, by simpa using hr5⟩
      have hw : w'.id = e.id := by
        obtain ⟨files, leak, f, hf, hs, hm, hk⟩ := (hist_inv hr4).file (k := _) (List.mem_append_right _ (List.mem_cons_self ..))
        have := (hs.ok f hm).open' w' (by rw [hk])
        rw [this.1, hk]
      have h4 : fs4.at'.opened = fs3.at'.opened := by
        have : fs4 = (fs3.extendWriter crc w rng2 bytes).2.2 := by rw [hx]
        rw [this]; rfl
      refine (closeWriter_opened (l := fs2.at'.opened) hw (by rw [h4, q4]) hnot).trans hop
    · obtain ⟨x, w', fs4, hx⟩ : ∃ x w' fs4, fs3.extendWriter crc w rng2 bytes = (x, w', fs4) := ⟨_, _, _, rfl⟩
      rw [hx] at c1 c2
      have c1 : x = .error .deviceFull := c1
      subst c1
      rw [hx]
      exact .inr (.inr (.inr ⟨fs4, c2, rfl⟩))

end Verif.Vlfs
