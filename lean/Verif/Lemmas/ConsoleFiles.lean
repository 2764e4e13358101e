import Verif.Spec.ConsoleRun
import Verif.Lemmas.OpenReader
import Verif.Lemmas.OpenedList
/-
File transfer over the console.
-/
namespace Verif.Vlfs
open Verif Verif.Spec Verif.Console

/-- the writer of file `id`, if it has one, is not registered -/
def Unguarded (ks : List Known) (id : Nat) : Prop := ∀ k ∈ ks, k.id = id → k.writer.isSome = true → k.guarded = false

/-- a file that is marked open does not get a registered writer -/
theorem step_unguarded {crc : Bytes → UInt32} {fs fs' : FS} {ks ks' : List Known} {id : Nat} (hr : Hist crc fs ks) (hs : Step crc fs ks fs' ks')
    (ho : id ∈ fs.at'.opened) (hu : Unguarded ks id) : Unguarded ks' id := by
  have inv := hist_inv hr
  have upd : ∀ (a b : List Known) (x y : Known), ks = a ++ x :: b → (y.id = id → y.writer.isSome = true → y.guarded = false) → Unguarded (a ++ y :: b) id := by
    intro a b x y hx hy k hk
    rcases List.mem_append.mp hk with h | h
    · exact hu k (by rw [hx]; simp [h])
    · rcases List.mem_cons.mp h with rfl | h
      · exact hy
      · exact hu k (by rw [hx]; simp [h])
  have add : ∀ (l : List Known) (y : Known), (∀ k ∈ l, k ∈ ks) → (y.writer.isSome = true → y.guarded = false) → Unguarded (l ++ [y]) id := by
    intro l y hl hy k hk
    rcases List.mem_append.mp hk with h | h
    · exact hu k (hl k h)
    · rw [List.mem_singleton] at h
      subst h
      exact fun _ => hy
  have keep : ∀ x : Known, x ∈ ks → x.writer.isSome = true → x.id = id → x.guarded = false := fun x hx hw he => hu x hx he hw
  cases hs with
  | dir h =>
    cases h with
    | create typ e fs' hc hcap ht hok => exact add _ _ (fun _ h => h) (fun _ => rfl)
    | remove filter n fs' hc hsafe hok => exact fun k hk => hu k (List.mem_filter.mp hk).1
  | createOpen typ r1 r2 e fs' h hcap ht hok => exact add _ _ (fun _ h => h) (fun _ => rfl)
  | rotate typ n r1 r2 e fs' h hw hcap ht hok => exact add _ _ (fun _ h => (List.mem_filter.mp h).1) (fun _ => rfl)
  | openWrite id' rng w fs' a b x hx hid hw hdm h hok =>
    refine upd a b x _ hx fun he _ => ?_
    have he : x.id = id := he
    subst hid
    rcases step_openWrite inv hx hw hdm hok rng with ⟨_, g⟩ | ⟨_, g⟩ | ⟨_, fs2, g, _⟩ | ⟨g0, _⟩
    · rw [g] at h; injection h with h _; exact absurd h (by simp)
    · rw [g] at h; injection h with h _; exact absurd h (by simp)
    · rw [g] at h; injection h with h _; exact absurd h (by simp)
    · exact absurd (he ▸ ho) g0
  | openWriteErr => exact hu
  | extend rng slice w w' fs' a b x hx hw => exact upd a b x _ hx fun he _ => keep x (by rw [hx]; simp) (by rw [hw]; rfl) he
  | extendErr rng slice er w w' fs' a b x hx hw => exact upd a b x _ hx fun he _ => keep x (by rw [hx]; simp) (by rw [hw]; rfl) he
  | flush r1 r2 w w' fs' a b x hx hw => exact upd a b x _ hx fun he _ => keep x (by rw [hx]; simp) (by rw [hw]; rfl) he
  | flushErr r1 r2 er w w' fs' a b x hx hw => exact upd a b x _ hx fun he _ => keep x (by rw [hx]; simp) (by rw [hw]; rfl) he
  | close w a b x hx hw => exact upd a b x _ hx fun _ _ => rfl
  | openRead id => exact hu
  | closeRead => exact hu
  | learn c a b x hx hw =>
    refine upd a b x _ hx fun he hs => ?_
    have hs : x.writer.isSome = true := hs
    rw [hw] at hs
    exact absurd hs (by simp)

/-- outcomes of `open_file_for_read` -/
theorem openRead_cases {crc : Bytes → UInt32} {fs : FS} {ks : List Known} (hr : Hist crc fs ks) (id : Nat) :
    (∃ e, fs.openForRead id = (.error e, fs)) ∨
    (id ∉ fs.at'.opened ∧ (∃ k ∈ ks, k.id = id) ∧ ∃ r, r.id = id ∧
      fs.openForRead id = (.ok r, { fs with at' := { fs.at' with opened := fs.at'.opened ++ [id] } })) := by
  obtain ⟨files, leak, hf, hs⟩ := hist_inv hr
  by_cases hex : ∃ f ∈ files, f.k.id = id
  · obtain ⟨f, hm, rfl⟩ := hex
    rcases openRead_spec hs hm with ⟨_, g⟩ | ⟨_, g⟩ | ⟨g0, _, g⟩
    · exact .inl ⟨_, g⟩
    · exact .inl ⟨_, g⟩
    · exact .inr ⟨g0, ⟨f.k, mem_files hf hm, rfl⟩, _, rfl, g⟩
  · refine .inl ⟨.fileDoesNotExist, ?_⟩
    unfold FS.openForRead
    rw [hs.find_none (fun f hm he => hex ⟨f, hm, he⟩)]

theorem notOpen_unguarded {crc : Bytes → UInt32} {fs : FS} {ks : List Known} (hr : Hist crc fs ks) {id : Nat} (h : id ∉ fs.at'.opened) :
    Unguarded ks id := by
  intro k hk he hw
  cases hg : k.guarded with
  | false => rfl
  | true => exact absurd (he ▸ (guarded_inUse (hist_inv hr) hk hw hg).1) h

/-- what holds for the open file of a session -/
def SessionOk (s : Session) (fs : FS) (ks : List Known) : Prop :=
  ∀ r, s.reader = some r → r.id ∈ fs.at'.opened ∧ Unguarded ks r.id

theorem openFile_spec {crc : Bytes → UInt32} {s s' : Session} {fs fs' : FS} {ks : List Known} {id : Nat} {st : OpenStatus} (hr : Hist crc fs ks)
    (hok : SessionOk s fs ks) (h : s.openFile fs id = (st, s', fs')) :
    Hist crc fs' ks ∧ SessionOk s' fs' ks ∧ ((st ≠ .success ∧ s' = s ∧ fs' = fs) ∨
      (st = .success ∧ ∃ r fs1, fs.openForRead id = (.ok r, fs1) ∧ r.id = id ∧ s'.reader = some r ∧
        (fs' = fs1 ∨ ∃ old, s.reader = some old ∧ old.id ≠ id ∧ fs' = fs1.closeReader old ∧ Step crc fs1 ks fs' ks) ∧ id ∈ fs'.at'.opened)) := by
  unfold Session.openFile at h
  have hstep := hr.step (Step.openRead (crc := crc) id)
  rcases openRead_cases hr id with ⟨e, g⟩ | ⟨g0, _, r, g1, g⟩
  · rw [g] at h
    have : ∃ st', st' ≠ .success ∧ (st', s, fs) = (st, s', fs') := by
      cases e <;> simp only at h <;> exact ⟨_, by decide, h⟩
    obtain ⟨st', h1, h2⟩ := this
    injection h2 with h2 h3
    injection h3 with h3 h4
    subst h2 h3 h4
    exact ⟨hr, hok, .inl ⟨h1, rfl, rfl⟩⟩
  · rw [g] at hstep h
    have hun := notOpen_unguarded hr g0
    cases hs : s.reader with
    | none =>
      simp only [hs] at h
      injection h with h2 h3
      injection h3 with h3 h4
      subst h2 h3 h4
      refine ⟨hstep, ?_, .inr ⟨rfl, r, _, g, g1, rfl, .inl rfl, by simp⟩⟩
      intro r' hr'
      injection hr' with hr'
      subst hr'
      rw [g1]
      exact ⟨by simp, hun⟩
    | some old =>
      simp only [hs] at h
      injection h with h2 h3
      injection h3 with h3 h4
      subst h2 h3 h4
      obtain ⟨k1, k2⟩ := hok old hs
      have hne : old.id ≠ id := fun he => g0 (he ▸ k1)
      have hcl : Step crc { fs with at' := { fs.at' with opened := fs.at'.opened ++ [id] } } ks _ ks := .closeRead old k2
      have hin : id ∈ (FS.closeReader { fs with at' := { fs.at' with opened := fs.at'.opened ++ [id] } } old).at'.opened :=
        markClosed_mem (fun he => hne he.symm) (by simp)
      refine ⟨hstep.step hcl, ?_, .inr ⟨rfl, r, _, g, g1, rfl, .inr ⟨old, rfl, hne, rfl, hcl⟩, hin⟩⟩
      intro r' hr'
      injection hr' with hr'
      subst hr'
      rw [g1]
      exact ⟨hin, hun⟩

theorem readFile_reader {crc : Bytes → UInt32} {s s' : Session} {fl : Flash} {a : Option ReadAnswer} (h : s.readFile crc fl = (a, s')) :
    (s.reader = none ∧ s' = s) ∨ ∃ r r', s.reader = some r ∧ r.readSlice crc fl 128 = ((r.readSlice crc fl 128).1, r') ∧ s'.reader = some r' := by
  unfold Session.readFile at h
  cases hs : s.reader with
  | none =>
    simp only [hs] at h
    injection h with _ h
    exact .inl ⟨rfl, h.symm⟩
  | some r =>
    simp only [hs] at h
    refine .inr ⟨r, (r.readSlice crc fl 128).2, rfl, rfl, ?_⟩
    generalize r.readSlice crc fl 128 = q at h
    obtain ⟨q1, q2⟩ := q
    rcases q1 with e | ⟨d, st⟩
    · cases e <;> simp only at h <;> injection h with _ h <;> rw [← h]
    · injection h with _ h
      rw [← h]

theorem readSlice_id (crc : Bytes → UInt32) (fl : Flash) (r : FileReader) (n : Nat) : (r.readSlice crc fl n).2.id = r.id := by
  have page : ∀ (r : FileReader) a u, (r.readPage crc fl a u).2.id = r.id := by
    intro r a u
    unfold FileReader.readPage
    simp only
    split
    · split
      · rfl
      · split <;> rfl
    · split <;> rfl
  have next : ∀ r : FileReader, (r.readNextPage crc fl).2.id = r.id := by
    intro r
    unfold FileReader.readNextPage
    split
    · rfl
    · rename_i s _
      simp only
      split
      · rfl
      · have key : ∀ r1 : FileReader, r1.id = r.id → (match r1.length with
            | .read n => if n - r1.readLen = 0 then
                match mostCommonU16 (fl.read (s * SECTOR_SIZE + SECTOR_SIZE - 8) 8) with
                | none => ((.error .panic : Except Err ReadStatus), r1)
                | some next => ((.ok .ok : Except Err ReadStatus), { r1.setSector next with ahead := [] })
              else r1.readPage crc fl (s * SECTOR_SIZE) (some (n - r1.readLen))
            | _ => r1.readPage crc fl (s * SECTOR_SIZE) none).2.id = r.id := by
          intro r1 h1
          split
          · split
            · split <;> exact h1
            · rw [page]; exact h1
          · rw [page]; exact h1
        refine key _ ?_
        split <;> rfl
  unfold FileReader.readSlice
  generalize maxReads = fuel
  generalize ([] : Bytes) = acc
  induction fuel generalizing r acc with
  | zero => rfl
  | succ fuel ih =>
    rw [FileReader.readLoop]
    split
    · split
      · have := next r
        generalize r.readNextPage crc fl = q at this
        obtain ⟨q1, q2⟩ := q
        rcases q1 with e | (_ | _ | _)
        · exact this
        · exact (ih _ _).trans this
        · exact this
        · exact this
      · simp only
        split <;> exact ih _ _
    · rfl

theorem closeFile_spec {crc : Bytes → UInt32} {s s' : Session} {fs fs' : FS} {ks : List Known} (hr : Hist crc fs ks) (hok : SessionOk s fs ks)
    (h : s.closeFile fs = (s', fs')) : Hist crc fs' ks ∧ s'.reader = none ∧ ∀ r, s.reader = some r → fs' = fs.closeReader r := by
  unfold Session.closeFile at h
  cases hs : s.reader with
  | none =>
    simp only [hs] at h
    injection h with h1 h2
    subst h1 h2
    exact ⟨hr, hs, by simp⟩
  | some r =>
    simp only [hs] at h
    injection h with h1 h2
    subst h1 h2
    exact ⟨hr.step (.closeRead r (hok r hs).2), rfl, fun r' hr' => by injection hr' with hr'; rw [hr']⟩

theorem consoleRun_inv {crc : Bytes → UInt32} {s : Session} {fs : FS} {ks : List Known} (h : ConsoleRun crc s fs ks) :
    Hist crc fs ks ∧ SessionOk s fs ks := by
  induction h with
  | start hr => exact ⟨hr, fun r h => absurd h (by simp [Session.new])⟩
  | openFile id st _ ho ih =>
    obtain ⟨h1, h2, _⟩ := openFile_spec ih.1 ih.2 ho
    exact ⟨h1, h2⟩
  | @readFile s s' fs ks a _ hr ih =>
    refine ⟨ih.1, ?_⟩
    rcases readFile_reader hr with ⟨g, rfl⟩ | ⟨r, r', g1, g2, g3⟩
    · exact ih.2
    · intro x hx
      rw [g3] at hx
      injection hx with hx
      subst hx
      have hid := readSlice_id crc fs.dev.flash r 128
      rw [g2] at hid
      have hid : r'.id = r.id := hid
      rw [hid]
      exact ih.2 r g1
  | closeFile _ hc ih =>
    obtain ⟨h1, h2, _⟩ := closeFile_spec ih.1 ih.2 hc
    exact ⟨h1, fun r h => by rw [h2] at h; exact absurd h (by simp)⟩
  | startList t _ ih => exact ih
  | @getListed s fs ks _ ih =>
    refine ⟨ih.1, ?_⟩
    have : (s.getListedFile fs).2.reader = s.reader := by
      unfold Session.getListedFile
      split
      · rfl
      · split <;> rfl
    intro r hr
    exact ih.2 r (by rw [← this]; exact hr)
  | other _ hs hk ih =>
    exact ⟨ih.1.step hs, fun r hr => ⟨hk r hr, step_unguarded ih.1 hs (ih.2 r hr).1 (ih.2 r hr).2⟩⟩

/-- the bytes of an answer -/
def answerBytes : Except Err (Bytes × ReadStatus) → Bytes
  | .ok (d, _) => d
  | .error _ => []

theorem chunk_take (d : Bytes) : (chunkBuffer d).take d.length = d := by
  unfold chunkBuffer
  rw [List.take_left' rfl]

theorem pullRun_reads {crc : Bytes → UInt32} {k : Known} {s : Session} {fs : FS} {ks : List Known} {got : Bytes} {fin : Bool}
    (h : PullRun crc k s fs ks got fin) : SessionOk s fs ks ∧ ∃ r n answers, s.reader = some r ∧ r.id = k.id ∧
      ReadRun crc k fs ks r (List.replicate n 128) answers ∧ got = answers.flatMap answerBytes ∧
      (fin = true → ∃ as a, answers = as ++ [a] ∧ answerBytes a = []) := by
  induction h with
  | @opened s s' fs fs' ks hc hk hw hdm ho =>
    obtain ⟨hr, hok⟩ := consoleRun_inv hc
    obtain ⟨h1, h2, h3⟩ := openFile_spec hr hok ho
    rcases h3 with ⟨h3, _⟩ | ⟨_, r, fs1, g, g1, g2, g3, g4⟩
    · exact absurd rfl h3
    · refine ⟨h2, r, 0, [], g2, g1, ?_, rfl, by simp⟩
      have run := ReadRun.opened hr hk hw hdm g
      rcases g3 with rfl | ⟨old, _, _, _, hst⟩
      · exact run
      · exact .other run hst ⟨k, hk, rfl⟩ g4
  | @other s fs fs' ks ks' got fin h hs hl ho ih =>
    obtain ⟨h1, r, n, answers, h2, h3, h4, h5, h6⟩ := ih
    obtain ⟨_, _, _, inv, _⟩ := readRun_inv h4
    refine ⟨?_, r, n, answers, h2, h3, .other h4 hs hl ho, h5, h6⟩
    intro r' hr'
    rw [h2] at hr'
    injection hr' with hr'
    subst hr'
    refine ⟨h3 ▸ ho, step_unguarded inv.hist hs (h1 r h2).1 (h1 r h2).2⟩
  | @read s s' fs ks got a h hr ih =>
    obtain ⟨h1, r, n, answers, h2, h3, h4, h5, h6⟩ := ih
    obtain ⟨_, _, rest, inv, _⟩ := readRun_inv h4
    obtain ⟨_, _, _, files, leak, f, _, _, _, _, _, _, c, hR, hc⟩ := inv
    obtain ⟨r', c', e1, _, _⟩ := readSlice_spec 128 hR hc
    have hid := readSlice_id crc fs.dev.flash r 128
    rw [e1] at hid
    have hid : r'.id = r.id := hid
    unfold Session.readFile at hr
    rw [h2] at hr
    simp only [e1] at hr
    injection hr with hr1 hr2
    injection hr1 with hr1
    have hl : a.length = (consume rest 128).1.length := by rw [← hr1]
    have hd : a.data.take a.length = (consume rest 128).1 := by rw [← hr1]; exact chunk_take _
    have htake : (hostTake got a).1 = got ++ (consume rest 128).1 := by
      unfold hostTake
      by_cases h0 : a.length = 0
      · rw [if_pos h0]
        have : (consume rest 128).1 = [] := List.length_eq_zero_iff.mp (by omega)
        rw [this, List.append_nil]
      · rw [if_neg h0, hd]
    refine ⟨?_, r', n + 1, answers ++ [.ok ((consume rest 128).1, (consume rest 128).2.1)], by rw [← hr2], hid.trans h3, ?_, ?_, ?_⟩
    · intro x hx
      rw [← hr2] at hx
      injection hx with hx
      subst hx
      rw [hid]
      exact h1 r h2
    · rw [List.replicate_succ']
      exact .read 128 _ h4 e1
    · rw [htake, h5, List.flatMap_append]
      simp [answerBytes]
    · intro hf
      refine ⟨_, _, rfl, ?_⟩
      show (consume rest 128).1 = []
      unfold hostTake at hf
      by_cases h0 : a.length = 0
      · exact List.length_eq_zero_iff.mp (by omega)
      · rw [if_neg h0] at hf
        exact absurd hf (by simp)

theorem consume_map (D : Bytes) (n : Nat) :
    (consume (D.map .byte) n).1 = D.take n ∧ (consume (D.map .byte) n).2.2 = (D.drop n).map .byte := by
  induction D generalizing n with
  | nil => cases n <;> simp [consume]
  | cons b D ih =>
    cases n with
    | zero => simp [consume]
    | succ n => simp [consume, ih n]

theorem consumes_chunks (D : Bytes) (n : Nat) : ((consumes (D.map .byte) (List.replicate n 128)).map Except.ok).flatMap answerBytes = D.take (128 * n) := by
  induction n generalizing D with
  | zero => simp [consumes]
  | succ n ih =>
    rw [List.replicate_succ, consumes, List.map_cons, List.flatMap_cons, (consume_map D 128).2, ih]
    show (consume (D.map .byte) 128).1 ++ _ = _
    rw [(consume_map D 128).1, Nat.mul_add, Nat.mul_one, Nat.add_comm, List.take_add]

theorem consumes_snoc (items : List Item) (ns : List Nat) (n : Nat) :
    ∃ rest, consumes items (ns ++ [n]) = consumes items ns ++ [((consume rest n).1, (consume rest n).2.1)] ∧
      ∀ D : Bytes, items = D.map .byte → rest = (D.drop ns.sum).map .byte := by
  induction ns generalizing items with
  | nil => exact ⟨items, rfl, fun D h => by simpa using h⟩
  | cons m ns ih =>
    obtain ⟨rest, h1, h2⟩ := ih (consume items m).2.2
    refine ⟨rest, by rw [List.cons_append, consumes, consumes, h1]; rfl, fun D h => ?_⟩
    subst h
    rw [(consume_map D m).2] at h2
    rw [h2 _ rfl, List.drop_drop, List.sum_cons]

end Verif.Vlfs
