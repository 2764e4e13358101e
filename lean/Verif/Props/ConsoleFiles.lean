import Verif.Lemmas.ConsoleFiles
import Verif.Props.OpenReader
import Verif.Props.Iter
import Verif.Props.FileRead
/-
C61: files pulled over the console. The runs are defined in Verif/Spec/ConsoleRun.lean.
-/
namespace Verif.Props
open Verif Verif.Vlfs Verif.Spec Verif.Console

/-- **C61** What `pull_file` has received is a prefix of the content the file had when it was opened, and all of it when the host stops, whatever
other tasks did with the file system meanwhile. -/
theorem C61_pulled_content {crc : Bytes → UInt32} {k : Known} {s : Session} {fs : FS} {ks : List Known} {got : Bytes} {fin : Bool}
    (h : PullRun crc k s fs ks got fin) :
    ∃ pre, pre <+: k.maybe ∧ got <+: k.data ++ pre ∧ (fin = true → got = k.data ++ pre) := by
  obtain ⟨_, r, n, answers, _, _, h4, h5, h6⟩ := pullRun_reads h
  obtain ⟨pre, hpre, hans⟩ := C83_open_reader_stable h4
  refine ⟨pre, hpre, ?_, ?_⟩
  · rw [h5, hans, consumes_chunks]
    exact List.take_prefix ..
  · intro hf
    obtain ⟨as, a, ha, hb⟩ := h6 hf
    rw [h5, hans, consumes_chunks]
    cases n with
    | zero =>
      rw [hans] at ha
      simp [consumes] at ha
    | succ n =>
      rw [List.replicate_succ'] at hans
      obtain ⟨rest, e1, e2⟩ := consumes_snoc ((k.data ++ pre).map .byte) (List.replicate n 128) 128
      rw [hans, e1, List.map_append] at ha
      obtain ⟨_, ha⟩ := List.append_inj' ha rfl
      injection ha with ha _
      rw [← ha] at hb
      have hb : (consume rest 128).1 = [] := hb
      rw [e2 _ rfl, (consume_map _ 128).1, List.sum_replicate_nat] at hb
      rw [List.take_eq_nil_iff] at hb
      rcases hb with hb | hb
      · omega
      · rw [List.drop_eq_nil_iff] at hb
        exact List.take_of_length_le (by omega)

/-- **C61** While the host has not finished, the next `ReadFile` is answered, and either ends the transfer or delivers at least one more
byte; as the bytes received are bounded by C61_pulled_content, the transfer ends. -/
theorem C61_pull_progress {crc : Bytes → UInt32} {k : Known} {s : Session} {fs : FS} {ks : List Known} {got : Bytes}
    (h : PullRun crc k s fs ks got false) :
    ∃ a s', s.readFile crc fs.dev.flash = (some a, s') ∧ ((hostTake got a).2 = true ∨ got.length < (hostTake got a).1.length) := by
  obtain ⟨_, r, n, answers, h2, _, h4, _⟩ := pullRun_reads h
  obtain ⟨_, _, rest, inv, _⟩ := readRun_inv h4
  obtain ⟨_, _, _, files, leak, f, _, _, _, _, _, _, c, hR, hc⟩ := inv
  obtain ⟨r', c', e1, _, _⟩ := readSlice_spec 128 hR hc
  refine ⟨_, _, by unfold Session.readFile; rw [h2]; simp only [e1]; rfl, ?_⟩
  unfold hostTake
  simp only
  by_cases h0 : (consume rest 128).1.length = 0
  · rw [if_pos h0]; exact .inl rfl
  · rw [if_neg h0, chunk_take]
    refine .inr ?_
    rw [List.length_append]; omega

/-- **C61** When the host closes the file after the transfer, the file is no longer marked open and can be opened again. -/
theorem C61_pull_closes {crc : Bytes → UInt32} {k : Known} {s s' : Session} {fs fs' : FS} {ks : List Known} {got : Bytes} {fin : Bool}
    (h : PullRun crc k s fs ks got fin) (hc : s.closeFile fs = (s', fs')) :
    s'.reader = none ∧ k.id ∉ fs'.at'.opened ∧ (∀ x, x ≠ k.id → (x ∈ fs'.at'.opened ↔ x ∈ fs.at'.opened)) ∧
    (fs'.at'.opened.length < 32 → ∃ s2 fs2, s'.openFile fs' k.id = (.success, s2, fs2)) := by
  obtain ⟨hok, r, n, answers, h2, h3, h4, _⟩ := pullRun_reads h
  obtain ⟨_, _, rest, inv, _⟩ := readRun_inv h4
  obtain ⟨g1, g2, g3⟩ := closeFile_spec inv.hist hok hc
  have g4 := g3 r h2
  have hno : k.id ∉ fs'.at'.opened := by
    rw [g4]
    unfold FS.closeReader
    rw [h3]
    exact markClosed_gone (hist_nodup inv.hist)
  refine ⟨g2, hno, ?_, ?_⟩
  · intro x hx
    rw [g4]
    unfold FS.closeReader
    exact ⟨mem_of_markClosed, markClosed_mem (by rw [h3]; exact hx)⟩
  · intro hlen
    obtain ⟨files, leak, f, hf, _, hm, hfk, _⟩ := inv.file
    have hk : k ∈ ks := by rw [← hf, ← hfk]; exact List.mem_map.mpr ⟨f, hm, rfl⟩
    obtain ⟨files', leak', f', hf', hsys', hm', rfl⟩ := (hist_inv g1).file hk
    rcases openRead_spec hsys' hm' with ⟨q, _⟩ | ⟨q, _⟩ | ⟨_, _, q⟩
    · exact absurd q hno
    · omega
    · exact ⟨_, _, by unfold Session.openFile; rw [q]; simp only [g2]; rfl⟩

/-! ### files with damaged pages -/

theorem pulls_total : ∀ (n : Nat) (items : List Item), items.length ≤ n → ∃ out, Pulls items out := by
  have shorter : ∀ (items : List Item) (m : Nat), (consume items m).2.2.length + (consume items m).1.length ≤ items.length := by
    intro items
    induction items with
    | nil => intro m; cases m <;> simp [consume]
    | cons i items ih =>
      intro m
      cases m with
      | zero => simp [consume]
      | succ m =>
        cases i with
        | bad a => simp [consume]
        | byte b =>
          have := ih m
          simp only [consume, List.length_cons] at this ⊢
          omega
  intro n
  induction n with
  | zero =>
    intro items h
    refine ⟨[], .done items ?_⟩
    rw [List.length_eq_zero_iff.mp (Nat.le_zero.mp h)]
    rfl
  | succ n ih =>
    intro items h
    by_cases hc : (consume items 128).1 = []
    · exact ⟨[], .done items hc⟩
    · have h1 := shorter items 128
      have h2 : (consume items 128).1.length ≠ 0 := fun h => hc (List.length_eq_zero_iff.mp h)
      obtain ⟨out, ho⟩ := ih (consume items 128).2.2 (by omega)
      exact ⟨_, .more items out hc ho⟩

theorem pulls_unique {items : List Item} {o1 o2 : Bytes} (h1 : Pulls items o1) (h2 : Pulls items o2) : o1 = o2 := by
  induction h1 generalizing o2 with
  | done items h =>
    cases h2 with
    | done _ _ => rfl
    | more _ out h' _ => exact absurd h h'
  | more items out h _ ih =>
    cases h2 with
    | done _ h' => exact absurd h' h
    | more _ out' _ ht => rw [ih ht]

theorem pullLoop_spec {crc : Bytes → UInt32} {fl : Flash} {items : List Item} {out : Bytes} (hp : Pulls items out) : ∀ (s : Session) (r : FileReader) (c : Nat) (got : Bytes) (fuel : Nat),
    s.reader = some r → RInv crc fl r items c → c ≤ 999990 → out.length < fuel →
    ∃ s' r', pullLoop crc fl fuel s got = some (got ++ out, s') ∧ s'.reader = some r' ∧ r'.id = r.id := by
  induction hp with
  | done items h =>
    intro s r c got fuel hs hR hc hf
    obtain ⟨r', c', e1, _, _⟩ := readSlice_spec 128 hR hc
    have hid := readSlice_id crc fl r 128
    rw [e1] at hid
    obtain ⟨fuel, rfl⟩ : ∃ f, fuel = f + 1 := ⟨fuel - 1, by omega⟩
    refine ⟨{ s with reader := some r' }, r', ?_, rfl, hid⟩
    unfold pullLoop Session.readFile hostTake
    rw [hs]
    simp only [e1, h, List.length_nil, if_true, List.append_nil]
  | more items out h ht ih =>
    intro s r c got fuel hs hR hc hf
    obtain ⟨r', c', e1, e2, e3⟩ := readSlice_spec 128 hR hc
    have hid := readSlice_id crc fl r 128
    rw [e1] at hid
    have hid : r'.id = r.id := hid
    have hl : (consume items 128).1.length ≠ 0 := fun h' => h (List.length_eq_zero_iff.mp h')
    obtain ⟨fuel, rfl⟩ : ∃ f, fuel = f + 1 := ⟨fuel - 1, by omega⟩
    rw [List.length_append] at hf
    obtain ⟨s', r2, g1, g2, g3⟩ := ih { s with reader := some r' } r' c' (got ++ (consume items 128).1) fuel rfl e2 (by omega) (by omega)
    refine ⟨s', r2, ?_, g2, g3.trans hid⟩
    unfold pullLoop Session.readFile hostTake
    rw [hs]
    simp only [e1, if_neg hl, chunk_take]
    rw [g1, List.append_assoc]

/-- **C61** `pull_file` of a file whatever the pages of its sectors hold (and with no other activity): the host gets, with status success, what
asking the stream of bytes and bad pages for 128 bytes until it gives none delivers (`Pulls`; the result is unique and exists). -/
theorem C61_pull_stream {crc : Bytes → UInt32} {fs fs1 : FS} {s : Session} {id : Nat} {first : Option Nat} {l : List Nat} {out : Bytes} {fuel : Nat}
    (ho : fs.openForRead id = (.ok (FileReader.new first id), fs1)) (hs : s.reader = none) (hc : Chain fs1.dev.flash first l) (hl : l.length ≤ 16384)
    (hp : Pulls (fileItems crc fs1.dev.flash l) out) (hf : out.length < fuel) :
    (pullFile crc fuel s fs id).1 = some out ∧ (pullFile crc fuel s fs id).2.1.reader = none ∧ (pullFile crc fuel s fs id).2.2 = fs1.markClosed id := by
  obtain ⟨s', r', g1, g2, g3⟩ := pullLoop_spec hp { s with reader := some (FileReader.new first id) } _ _ [] fuel rfl (RInv_new hc id) (by omega) hf
  have g3 : r'.id = id := g3
  have he : pullFile crc fuel s fs id = (some out, s'.closeFile fs1) := by
    unfold pullFile Session.openFile
    rw [ho]
    simp only [hs, g1]
    rfl
  rw [he]
  unfold Session.closeFile FS.closeReader
  simp only [g2]
  exact ⟨trivial, trivial, by rw [g3]⟩

theorem C61_pulls_exists (items : List Item) : ∃ out, Pulls items out ∧ ∀ o, Pulls items o → o = out := by
  obtain ⟨out, h⟩ := pulls_total items.length items (Nat.le_refl _)
  exact ⟨out, h, fun o ho => pulls_unique ho h⟩

/-- without bad pages the host gets the whole content -/
theorem pulls_bytes : ∀ (n : Nat) (d : Bytes), d.length ≤ n → Pulls (d.map .byte) d := by
  intro n
  induction n with
  | zero =>
    intro d h
    rw [List.length_eq_zero_iff.mp (Nat.le_zero.mp h)]
    exact .done _ rfl
  | succ n ih =>
    intro d h
    obtain ⟨h1, h2⟩ := consume_map d 128
    cases d with
    | nil => exact .done _ rfl
    | cons b d =>
      have := Pulls.more ((b :: d).map .byte) ((b :: d).drop 128) (by rw [h1]; simp) (by
        rw [h2]
        exact ih _ (by rw [List.length_drop]; simp at h ⊢; omega))
      rw [h1, List.take_append_drop] at this
      exact this

/-- **C61** A file without damaged pages is pulled completely. -/
theorem C61_pull_undamaged {crc : Bytes → UInt32} {fs fs1 : FS} {s : Session} {id : Nat} {first : Option Nat} {l : List Nat} {d : Bytes} {fuel : Nat}
    (ho : fs.openForRead id = (.ok (FileReader.new first id), fs1)) (hs : s.reader = none) (hc : Chain fs1.dev.flash first l) (hl : l.length ≤ 16384)
    (hd : fileItems crc fs1.dev.flash l = d.map .byte) (hf : d.length < fuel) : (pullFile crc fuel s fs id).1 = some d :=
  (C61_pull_stream ho hs hc hl (hd ▸ pulls_bytes d.length d (Nat.le_refl _)) hf).1

/-- the two fates of a bad page behind `d` good bytes -/
theorem pulls_bad (addr : Nat) (rest : List Item) : ∀ (n : Nat) (d : Bytes), d.length ≤ n →
    (d.length % 128 = 0 → Pulls (d.map .byte ++ .bad addr :: rest) d) ∧
    (d.length % 128 ≠ 0 → ∀ out, Pulls rest out → Pulls (d.map .byte ++ .bad addr :: rest) (d ++ out)) := by
  intro n
  induction n with
  | zero =>
    intro d h
    rw [List.length_eq_zero_iff.mp (Nat.le_zero.mp h)]
    exact ⟨fun _ => .done _ rfl, fun h => absurd rfl h⟩
  | succ n ih =>
    intro d h
    by_cases hlt : d.length < 128
    · obtain ⟨m, hm⟩ : ∃ m, 128 - d.length = m + 1 := ⟨127 - d.length, by omega⟩
      have hc := consume_bytes d (.bad addr :: rest) 128 (by omega)
      rw [hm] at hc
      simp only [consume, List.append_nil] at hc
      constructor
      · intro h0
        have hd : d = [] := List.length_eq_zero_iff.mp (by omega)
        subst hd
        exact .done _ rfl
      · intro h0 out ho
        have hne : d ≠ [] := by
          intro hd
          subst hd
          exact h0 rfl
        have := Pulls.more (d.map .byte ++ .bad addr :: rest) out (by rw [hc]; exact hne) (by rw [hc]; exact ho)
        rw [hc] at this
        exact this
    · have hc := consume_bytes_part d (.bad addr :: rest) 128 (by omega)
      have hne : (d.take 128) ≠ [] := by
        intro h0
        have := congrArg List.length h0
        rw [List.length_take, List.length_nil] at this
        omega
      have hsub : (d.drop 128).length ≤ n := by rw [List.length_drop]; omega
      have hmod : (d.drop 128).length % 128 = d.length % 128 := by rw [List.length_drop]; omega
      obtain ⟨i1, i2⟩ := ih (d.drop 128) hsub
      rw [hmod] at i1 i2
      constructor
      · intro h0
        have := Pulls.more (d.map .byte ++ .bad addr :: rest) (d.drop 128) (by rw [hc]; exact hne) (by rw [hc]; exact i1 h0)
        rw [hc, List.take_append_drop] at this
        exact this
      · intro h0 out ho
        have := Pulls.more (d.map .byte ++ .bad addr :: rest) (d.drop 128 ++ out) (by rw [hc]; exact hne) (by rw [hc]; exact i2 h0 out ho)
        rw [hc, ← List.append_assoc, List.take_append_drop] at this
        exact this

/-- **C61** (finding) A bad page that is preceded by a multiple of 128 good bytes ends the transfer: everything behind it is silently lost,
and the host reports success. -/
theorem C61_bad_page_truncates {crc : Bytes → UInt32} {fs fs1 : FS} {s : Session} {id : Nat} {first : Option Nat} {l : List Nat} {d : Bytes} {fuel addr : Nat}
    {rest : List Item} (ho : fs.openForRead id = (.ok (FileReader.new first id), fs1)) (hs : s.reader = none) (hc : Chain fs1.dev.flash first l)
    (hl : l.length ≤ 16384) (hd : fileItems crc fs1.dev.flash l = d.map .byte ++ .bad addr :: rest) (h128 : d.length % 128 = 0) (hf : d.length < fuel) :
    (pullFile crc fuel s fs id).1 = some d :=
  (C61_pull_stream ho hs hc hl (hd ▸ (pulls_bad addr rest d.length d (Nat.le_refl _)).1 h128) hf).1

/-- **C61** (finding) A bad page elsewhere is left out without any trace in the file that the host writes. -/
theorem C61_bad_page_skipped {crc : Bytes → UInt32} {fs fs1 : FS} {s : Session} {id : Nat} {first : Option Nat} {l : List Nat} {d out : Bytes} {fuel addr : Nat}
    {rest : List Item} (ho : fs.openForRead id = (.ok (FileReader.new first id), fs1)) (hs : s.reader = none) (hc : Chain fs1.dev.flash first l)
    (hl : l.length ≤ 16384) (hd : fileItems crc fs1.dev.flash l = d.map .byte ++ .bad addr :: rest) (h128 : d.length % 128 ≠ 0)
    (hp : Pulls rest out) (hf : (d ++ out).length < fuel) :
    (pullFile crc fuel s fs id).1 = some (d ++ out) :=
  (C61_pull_stream ho hs hc hl (hd ▸ (pulls_bad addr rest d.length d (Nat.le_refl _)).2 h128 out hp) hf).1

/-- a page with a wrong CRC was met -/
def isCorrupted (st : ReadStatus) : Bool := match st with
  | .ok => false
  | .endOfFile => false
  | .corruptedPage _ => true

/-- the answers to `n` calls of `ReadFile`; stops when there is no answer -/
def readAnswers (crc : Bytes → UInt32) (fl : Flash) : Nat → Session → List ReadAnswer
  | 0, _ => []
  | n + 1, s => match s.readFile crc fl with
    | (some a, s) => a :: readAnswers crc fl n s
    | (none, _) => []

theorem readAnswers_spec {crc : Bytes → UInt32} {fl : Flash} : ∀ (n : Nat) (s : Session) (r : FileReader) (c : Nat) (items : List Item),
    s.reader = some r → RInv crc fl r items c → c ≤ 999990 →
    (readAnswers crc fl n s).map (fun a => (a.data.take a.length, a.corrupted)) =
      (consumes items (List.replicate n 128)).map (fun x => (x.1, isCorrupted x.2)) := by
  intro n
  induction n with
  | zero => intros; rfl
  | succ n ih =>
    intro s r c items hs hR hc
    obtain ⟨r', c', e1, e2, e3⟩ := readSlice_spec 128 hR hc
    have hrf : s.readFile crc fl = (some ⟨chunkBuffer (consume items 128).1, (consume items 128).1.length, isCorrupted (consume items 128).2.1⟩, { s with reader := some r' }) := by
      unfold Session.readFile
      rw [hs]
      simp only [e1]
      cases (consume items 128).2.1 <;> rfl
    rw [List.replicate_succ]
    simp only [readAnswers, hrf, consumes, List.map_cons, chunk_take]
    rw [ih _ r' c' _ rfl e2 (by omega)]

/-- **C61** What the device answers while a file is read through the console: each answer carries the next bytes, and says "corrupted" exactly when
the read met a page that fails its CRC (the host does not look at that flag). -/
theorem C61_answers {crc : Bytes → UInt32} {fs fs1 : FS} {s : Session} {id : Nat} {first : Option Nat} {l : List Nat}
    (ho : fs.openForRead id = (.ok (FileReader.new first id), fs1)) (hs : s.reader = none) (hc : Chain fs1.dev.flash first l) (hl : l.length ≤ 16384) (n : Nat) :
    s.openFile fs id = (.success, { s with reader := some (FileReader.new first id) }, fs1) ∧
    (readAnswers crc fs1.dev.flash n { s with reader := some (FileReader.new first id) }).map (fun a => (a.data.take a.length, a.corrupted)) =
      (consumes (fileItems crc fs1.dev.flash l) (List.replicate n 128)).map (fun x => (x.1, isCorrupted x.2)) := by
  refine ⟨?_, readAnswers_spec n _ _ _ _ rfl (RInv_new hc id) (by omega)⟩
  unfold Session.openFile
  rw [ho]
  simp only [hs]

/-! ### interrupted transfers -/

/-- **C61** (finding) A transfer that the host gives up without closing leaves the file open: opening it again, from this console or another one,
fails until it is closed. -/
theorem C61_interrupted_pull {crc : Bytes → UInt32} {k : Known} {s : Session} {fs : FS} {ks : List Known} {got : Bytes} {fin : Bool}
    (h : PullRun crc k s fs ks got fin) (t : Session) : t.openFile fs k.id = (.error, t, fs) := by
  obtain ⟨_, r, n, answers, h2, h3, h4, _⟩ := pullRun_reads h
  obtain ⟨_, _, rest, inv, _⟩ := readRun_inv h4
  obtain ⟨files, leak, f, hf, hsys, hm, hfk, _⟩ := inv.file
  have hop := inv.opened
  rw [← hfk] at hop ⊢
  rcases openRead_spec hsys hm with ⟨_, q⟩ | ⟨_, q⟩ | ⟨q, _⟩
  · unfold Session.openFile; rw [q]
  · unfold Session.openFile; rw [q]
  · exact absurd hop q

/-- **C61** (finding) If the connection fails during a transfer (the USB cable is pulled), the device panics; otherwise the console starts a new
session. -/
theorem C61_disconnect_panics {crc : Bytes → UInt32} {k : Known} {s : Session} {fs : FS} {ks : List Known} {got : Bytes} {fin : Bool}
    (h : PullRun crc k s fs ks got fin) : s.serialError = none ∧ ∀ s' fs', s.closeFile fs = (s', fs') → s'.serialError = some .new := by
  obtain ⟨hok, r, n, answers, h2, h3, h4, _⟩ := pullRun_reads h
  obtain ⟨_, _, rest, inv, _⟩ := readRun_inv h4
  constructor
  · unfold Session.serialError; rw [h2]
  · intro s' fs' hc
    obtain ⟨_, g2, _⟩ := closeFile_spec inv.hist hok hc
    unfold Session.serialError
    rw [g2]

/-! ### listing -/

/-- **C61** `GetListedFile`, whatever other tasks did to the directory since `StartListFiles`: the answer is the existing file of the type with the
smallest id above everything listed so far; the end exactly when there is none. -/
theorem C61_list_next {t : Option Nat} {P : List FileEntry → Prop} {fs : FS} {es ys : List FileEntry} {ids : List Nat} {it : ConcIter} {s : Session}
    (h : IterRun (typeFilter t) P fs es ids it ys) (hs : s.iter = some (t, it)) :
    ∃ r it' s', s.getListedFile fs = (r.map FileEntry.id, s') ∧ s'.iter = some (t, it') ∧ fs.concNext (onIdTyp (typeFilter t)) it = (.ok r, it') ∧
      NextAnswer (typeFilter t) es ys r := by
  obtain ⟨r, it', h1, h2⟩ := C21_next h
  refine ⟨r, it', { s with iter := some (t, it') }, ?_, rfl, h1, h2⟩
  unfold Session.getListedFile
  rw [hs]
  have h1' : fs.concNext (fun e => typeFilter t e.id e.typ) it = (.ok r, it') := h1
  simp only [h1']
  cases r <;> rfl

/-- the files of the type that lie above the ones listed -/
theorem listLoop_spec {t : Option Nat} {fs : FS} : ∀ (fuel : Nat) (ids : List Nat) (es ys : List FileEntry) (it : ConcIter) (s : Session),
    IterRun (typeFilter t) (fun _ => True) fs es ids it ys → s.iter = some (t, it) →
    ys <+: es.filter (fun e => typeFilter t e.id e.typ) → (es.filter (fun e => typeFilter t e.id e.typ)).length - ys.length < fuel →
    (listLoop fs fuel s (ys.map (·.id))).1 = some ((es.filter (fun e => typeFilter t e.id e.typ)).map (·.id)) := by
  intro fuel
  induction fuel with
  | zero => intro ids es ys it s _ _ _ hf; exact absurd hf (by omega)
  | succ fuel ih =>
    intro ids es ys it s hrun hs hpre hf
    obtain ⟨r, it', s', h1, h2, h3, h4⟩ := C61_list_next hrun hs
    have hsort : es.Pairwise (fun a b => a.id < b.id) := by
      obtain ⟨hr, _, _⟩ := iterRun_inv hrun
      have := (reach_inv hr).dir.sorted
      exact this
    have hfs := hsort.filter (fun e => typeFilter t e.id e.typ)
    obtain ⟨tl, htl⟩ := hpre
    unfold listLoop
    rw [h1]
    rw [← htl] at hfs
    rw [List.pairwise_append] at hfs
    obtain ⟨p1, p2, p3⟩ := hfs
    have hmem : ∀ e, e ∈ ys ++ tl ↔ e ∈ es ∧ typeFilter t e.id e.typ = true := by
      intro e
      rw [htl, List.mem_filter]
    cases tl with
    | nil =>
      cases r with
      | none => simp only [Option.map_none]; rw [← htl, List.append_nil]
      | some e =>
        obtain ⟨q1, q2, q3, _⟩ := h4
        have := (hmem e).mpr ⟨q1, q2⟩
        rw [List.append_nil] at this
        exact absurd (q3 e this) (by omega)
    | cons e tl =>
      cases r with
      | none =>
        obtain ⟨y, hy, hle⟩ := h4 e ((hmem e).mp (by simp)).1 ((hmem e).mp (by simp)).2
        have := p3 y hy e (List.mem_cons_self ..)
        omega
      | some e' =>
        obtain ⟨q1, q2, q3, q4⟩ := h4
        have he : e' = e := by
          have h5 := q4 e ((hmem e).mp (by simp)).1 ((hmem e).mp (by simp)).2 (fun y hy => p3 y hy e (List.mem_cons_self ..))
          have h6 := (hmem e').mpr ⟨q1, q2⟩
          rcases List.mem_append.mp h6 with h6 | h6
          · exact absurd (q3 e' h6) (by omega)
          · rcases List.mem_cons.mp h6 with h6 | h6
            · exact h6
            · have := (List.pairwise_cons.mp p2).1 e' h6
              omega
        subst he
        simp only [Option.map_some]
        have := ih ids es (ys ++ [e']) it' s' (.next hrun h3) h2 ⟨tl, by rw [List.append_assoc]; exact htl⟩ (by
          rw [← htl] at hf ⊢
          simp only [List.length_append, List.length_cons, List.length_nil] at hf ⊢
          omega)
        rw [List.map_append] at this
        exact this

theorem listFiles_spec {fs : FS} {es : List FileEntry} {ids : List Nat} (hr : Reach fs es ids) (s : Session) (t : Option Nat) (fuel : Nat)
    (hf : es.length < fuel) : (listFiles fuel s fs t).1 = some ((es.filter (fun e => typeFilter t e.id e.typ)).map (·.id)) := by
  have := listLoop_spec (t := t) fuel ids es [] .new (s.startListFiles t) (.start hr trivial) rfl List.nil_prefix (by
    have := List.length_filter_le (fun e : FileEntry => typeFilter t e.id e.typ) es
    simp only [List.length_nil]
    omega)
  exact this

/-- **C61** `list_files` (with no other activity) returns the ids of exactly the existing files of the type asked for, in order; without a type, of
all existing files. -/
theorem C61_list_files {fs : FS} {es : List FileEntry} {ids : List Nat} (hr : Reach fs es ids) (s : Session) (fuel : Nat) (hf : es.length < fuel) :
    (∀ t, (listFiles fuel s fs (some t)).1 = some ((es.filter (fun e => e.typ = t)).map (·.id))) ∧
    (listFiles fuel s fs none).1 = some (es.map (·.id)) := by
  constructor
  · intro t
    rw [listFiles_spec hr s (some t) fuel hf]
    congr 3
  · rw [listFiles_spec hr s none fuel hf]
    congr 2
    exact List.filter_eq_self.mpr fun _ _ => rfl

/-! ### examples -/

/-- a pull of a file of three bytes, with another file created in between, up to the end -/
example (crc : Bytes → UInt32) : ∃ k s fs ks, PullRun crc k s fs ks [1, 2, 3] true ∧ ks.length = 2 ∧ k.data = [1, 2, 3] := by
  obtain ⟨fs, sec, hr, ho, hsys, hseq, hmax⟩ := demo_closed crc
  rcases openRead_spec hsys (f := ⟨⟨1, 5, [1, 2, 3], [1, 2, 3], [], none, false, false⟩, ⟨1, 5, some sec⟩, [(sec, [1, 2, 3])], []⟩) (by simp) with ⟨g, _⟩ | ⟨g, _⟩ | ⟨_, _, g⟩
  · rw [ho] at g; exact absurd g (by simp)
  · rw [ho] at g; exact absurd g (by simp)
  · have g' : Session.new.openFile fs 1 = (.success, ⟨some (FileReader.new (some sec) 1), none⟩, { fs with at' := { fs.at' with opened := fs.at'.opened ++ [1] } }) := by
      unfold Session.openFile Session.new
      rw [g]
    have r0 := PullRun.opened (crc := crc) (k := ⟨1, 5, [1, 2, 3], [1, 2, 3], [], none, false, false⟩) (.start hr) (List.mem_singleton.mpr rfl) rfl rfl g'
    have hr' := hr.step (Step.openRead (crc := crc) 1)
    rw [g] at hr'
    obtain ⟨files, leak, hf, hsys'⟩ := hist_inv hr'
    have hlen : files.length = 1 := by rw [← List.length_map (f := (·.k)), hf]; rfl
    obtain ⟨fs2, c1, c2, c3⟩ := createFile_spec hsys'.reach.dir 6 (by rw [List.length_map, hlen]; omega)
    have r2 := PullRun.other r0 (.dir (.create 6 _ fs2 c1 (by simp) (by omega) (by
        refine ⟨?_, ?_⟩
        · show fs.at'.seq + 1 < _; omega
        · show fs.at'.maxId + 1 < _; omega))) ⟨⟨1, 5, [1, 2, 3], [1, 2, 3], [], none, false, false⟩, by simp, rfl⟩ (by rw [c2.opened, ho]; simp)
    -- read until the end
    have fin : ∀ n s fs ks got, PullRun crc ⟨1, 5, [1, 2, 3], [1, 2, 3], [], none, false, false⟩ s fs ks got false → ks.length = 2 → 3 ≤ n + got.length →
        ∃ s fs ks got, PullRun crc ⟨1, 5, [1, 2, 3], [1, 2, 3], [], none, false, false⟩ s fs ks got true ∧ ks.length = 2 := by
      intro n
      induction n with
      | zero =>
        intro s fs ks got h hl hg
        obtain ⟨a, s', e1, e2⟩ := C61_pull_progress h
        have h' := PullRun.read a h e1
        rcases e2 with e2 | e2
        · rw [e2] at h'; exact ⟨_, _, _, _, h', hl⟩
        · obtain ⟨pre, q1, q2, _⟩ := C61_pulled_content h'
          obtain rfl := List.prefix_nil.mp q1
          have := q2.length_le
          simp at this
          omega
      | succ n ih =>
        intro s fs ks got h hl hg
        obtain ⟨a, s', e1, e2⟩ := C61_pull_progress h
        have h' := PullRun.read a h e1
        cases hx : (hostTake got a).2 with
        | true => rw [hx] at h'; exact ⟨_, _, _, _, h', hl⟩
        | false =>
          rw [hx] at h' e2
          refine ih _ _ _ _ h' hl ?_
          rcases e2 with e2 | e2
          · exact absurd e2 (by simp)
          · omega
    obtain ⟨s, fs, ks, got, h, hl⟩ := fin 3 _ _ _ _ r2 rfl (by simp)
    obtain ⟨pre, q1, _, q3⟩ := C61_pulled_content h
    obtain rfl := List.prefix_nil.mp q1
    have := q3 rfl
    subst this
    exact ⟨_, s, fs, ks, h, hl, rfl⟩

/-- the file of Verif/Props/FileRead.lean with its first page damaged: nothing is pulled; with its second page damaged: the first 252 of 300 bytes -/
example : Pulls (fileItems demoCrc (fun a => if a = 40 * 4096 then demoDamaged a ^^^ 1 else demoDamaged a) [40]) [] := .done _ (by decide +kernel)
example : ∃ out, Pulls (fileItems demoCrc demoDamaged [40]) out ∧ out.length = 252 := by
  have h1 : fileItems demoCrc demoDamaged [40] = (((List.range 252).map UInt8.ofNat).map Item.byte) ++ .bad (40 * 4096 + 256) :: [] := by decide +kernel
  rw [h1]
  exact ⟨_, (pulls_bad _ [] 252 _ (by simp)).2 (by simp) [] (.done _ rfl), by simp⟩

end Verif.Props
