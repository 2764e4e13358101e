import Verif.Spec.Export
import Verif.Props.ConsoleFiles
import Verif.Props.Lut
import Verif.Lemmas.Witness
import Verif.Lemmas.RingLog
/-
Lemmas about downloading logs and converting them.
-/
namespace Verif.Export
open Verif Verif.Vlfs Verif.Spec Verif.Console Verif.Log Verif.Lut

/-! ### listing -/

theorem listLoop_dir {fs : FS} {es : List FileEntry} (hd : DirInv fs es) {t : Option Nat} : ∀ (fuel : Nat) (ys : List FileEntry) (it : ConcIter) (s : Session),
    IterInv (typeFilter t) es fs.at'.maxId it ys → s.iter = some (t, it) →
    ys <+: es.filter (fun e => typeFilter t e.id e.typ) → (es.filter (fun e => typeFilter t e.id e.typ)).length - ys.length < fuel →
    ∃ s', listLoop fs fuel s (ys.map (·.id)) = (some ((es.filter (fun e => typeFilter t e.id e.typ)).map (·.id)), s') ∧ s'.reader = s.reader := by
  intro fuel
  induction fuel with
  | zero => intro ys it s _ _ _ hf; exact absurd hf (by omega)
  | succ fuel ih =>
    intro ys it s hi hs hpre hf
    obtain ⟨r, it', h3, h4, h5⟩ := concNext_spec hd hi
    have hfs := hd.sorted.filter (fun e => typeFilter t e.id e.typ)
    obtain ⟨tl, htl⟩ := hpre
    have h1 : s.getListedFile fs = (r.map FileEntry.id, { s with iter := some (t, it') }) := by
      unfold Session.getListedFile
      rw [hs]
      have h1' : fs.concNext (fun e => typeFilter t e.id e.typ) it = (.ok r, it') := h3
      simp only [h1']
      cases r <;> rfl
    unfold listLoop
    rw [h1]
    rw [← htl] at hfs
    rw [List.pairwise_append] at hfs
    obtain ⟨p1, p2, p3⟩ := hfs
    have hmem : ∀ e, e ∈ ys ++ tl ↔ e ∈ es ∧ typeFilter t e.id e.typ = true := by
      intro e
      rw [htl, List.mem_filter]
    cases tl with
    | nil =>
      cases r with
      | none => simp only [Option.map_none]; rw [← htl, List.append_nil]; exact ⟨_, rfl, rfl⟩
      | some e =>
        obtain ⟨q1, q2, q3, _⟩ := h4
        have := (hmem e).mpr ⟨q1, q2⟩
        rw [List.append_nil] at this
        exact absurd (q3 e this) (by omega)
    | cons e tl =>
      cases r with
      | none =>
        obtain ⟨y, hy, hle⟩ := h4 e ((hmem e).mp (by simp)).1 ((hmem e).mp (by simp)).2
        have := p3 y hy e (List.mem_cons_self ..)
        omega
      | some e' =>
        obtain ⟨q1, q2, q3, q4⟩ := h4
        have he : e' = e := by
          have h5 := q4 e ((hmem e).mp (by simp)).1 ((hmem e).mp (by simp)).2 (fun y hy => p3 y hy e (List.mem_cons_self ..))
          have h6 := (hmem e').mpr ⟨q1, q2⟩
          rcases List.mem_append.mp h6 with h6 | h6
          · exact absurd (q3 e' h6) (by omega)
          · rcases List.mem_cons.mp h6 with h6 | h6
            · exact h6
            · have := (List.pairwise_cons.mp p2).1 e' h6
              omega
        subst he
        simp only [Option.map_some]
        obtain ⟨s', k1, k2⟩ := ih (ys ++ [e']) it' { s with iter := some (t, it') } h5 rfl ⟨tl, by rw [List.append_assoc]; exact htl⟩ (by
          rw [← htl] at hf ⊢
          simp only [List.length_append, List.length_cons, List.length_nil] at hf ⊢
          omega)
        rw [List.map_append] at k1
        exact ⟨s', k1, k2⟩

theorem listFiles_kind {crc : Bytes → UInt32} {fs : FS} {ks : List Known} (h : SysInv crc fs ks) (s : Session) (typ fuel : Nat) (hf : ks.length < fuel) :
    ∃ s', listFiles fuel s fs (some typ) = (some ((ofKind typ ks).map (·.id)), s') ∧ s'.reader = s.reader := by
  obtain ⟨files, e1, e2⟩ := RingLog.count_kind h typ
  obtain ⟨fls, leak, hfk, hs⟩ := h
  have hd := hs.reach.dir
  rw [hd.filesIter] at e1
  injection e1 with e1
  have hlen := List.length_filter_le (fun e : FileEntry => typeFilter (some typ) e.id e.typ) (fls.map (·.e))
  have hk : fls.length = ks.length := by rw [← hfk, List.length_map]
  obtain ⟨s', k1, k2⟩ := listLoop_dir hd (t := some typ) fuel [] .new (s.startListFiles (some typ))
    ⟨by simp, by simp, by simp [ConcIter.new], by simp [ConcIter.new], by simp [ConcIter.new], by simp [ConcIter.new]⟩ rfl List.nil_prefix (by
      rw [List.length_map] at hlen
      simp only [List.length_nil]
      omega)
  refine ⟨s', ?_, k2⟩
  unfold listFiles
  rw [List.map_nil] at k1
  rw [k1, ← e2, ← e1]
  rfl

/-! ### pulling -/

theorem pullLoop_reads {crc : Bytes → UInt32} {fl : Flash} : ∀ (n : Nat) (b : Bytes) (s : Session) (r : FileReader) (got : Bytes) (fuel : Nat), b.length ≤ n → s.reader = some r →
    (∀ ns, reads crc fl r ns = (consumes (b.map .byte) ns).map .ok) → b.length < fuel →
    ∃ s' r', pullLoop crc fl fuel s got = some (got ++ b, s') ∧ s'.reader = some r' ∧ r'.id = r.id := by
  intro n
  induction n with
  | zero =>
    intro b s r got fuel hb hs hr hf
    obtain rfl := List.length_eq_zero_iff.mp (Nat.le_zero.mp hb)
    obtain ⟨fuel, rfl⟩ : ∃ f, fuel = f + 1 := ⟨fuel - 1, by omega⟩
    have h1 := hr [128]
    simp only [reads, consumes, List.map_nil, consume, List.map_cons, List.cons.injEq, and_true] at h1
    refine ⟨{ s with reader := some (r.readSlice crc fl 128).2 }, _, ?_, rfl, readSlice_id crc fl r 128⟩
    unfold pullLoop Session.readFile hostTake
    rw [hs]
    simp only
    rw [show r.readSlice crc fl 128 = ((r.readSlice crc fl 128).1, (r.readSlice crc fl 128).2) from rfl, h1]
    simp only [List.length_nil, if_true, List.append_nil]
  | succ n ih =>
    intro b s r got fuel hb hs hr hf
    obtain ⟨fuel, rfl⟩ : ∃ f, fuel = f + 1 := ⟨fuel - 1, by omega⟩
    obtain ⟨c1, c2⟩ := consume_map b 128
    have h1 := hr [128]
    simp only [reads, consumes, List.map_cons, List.map_nil, List.cons.injEq, and_true] at h1
    rw [c1] at h1
    by_cases hb0 : b = []
    · subst hb0
      exact ih [] s r got (fuel + 1) (by simp) hs hr hf
    · have htake : (b.take 128).length ≠ 0 := by
        intro h0
        rw [List.length_take] at h0
        have : b.length ≠ 0 := fun h => hb0 (List.length_eq_zero_iff.mp h)
        omega
      have hlen : 0 < b.length := List.length_pos_iff.mpr hb0
      obtain ⟨s', r', g1, g2, g3⟩ := ih (b.drop 128) { s with reader := some (r.readSlice crc fl 128).2 } (r.readSlice crc fl 128).2 (got ++ b.take 128) fuel
        (by rw [List.length_drop]; omega) rfl (fun ns => by
          have := hr (128 :: ns)
          simp only [reads, consumes, List.map_cons, List.cons.injEq] at this
          rw [this.2, c2]) (by rw [List.length_drop]; omega)
      refine ⟨s', r', ?_, g2, g3.trans (readSlice_id crc fl r 128)⟩
      unfold pullLoop Session.readFile hostTake
      rw [hs]
      simp only
      rw [show r.readSlice crc fl 128 = ((r.readSlice crc fl 128).1, (r.readSlice crc fl 128).2) from rfl, h1]
      simp only [if_neg htake, chunk_take]
      rw [g1, List.append_assoc, List.take_append_drop]

theorem pull_one {crc : Bytes → UInt32} {fs : FS} {ks : List Known} (h : SysInv crc fs ks) {k : Known} (hk : k ∈ ks) {b : Bytes} (hb : ReadsAs crc fs k.id b) {s : Session} (hs : s.reader = none)
    {fuel : Nat} (hf : b.length < fuel) : ∃ s', pullFile crc fuel s fs k.id = (some b, s', fs) ∧ s'.reader = none := by
  obtain ⟨files, leak, f, _, hsys, hm, rfl⟩ := h.file hk
  obtain ⟨r, fs', ho, hr⟩ := hb
  rcases openRead_spec hsys hm with ⟨_, g⟩ | ⟨_, g⟩ | ⟨hno, _, g⟩
  · rw [g] at ho; exact absurd (congrArg Prod.fst ho) (by simp)
  · rw [g] at ho; exact absurd (congrArg Prod.fst ho) (by simp)
  · rw [g] at ho
    injection ho with ho1 ho2
    injection ho1 with ho1
    subst ho1
    obtain ⟨s', r', k1, k2, k3⟩ := pullLoop_reads b.length b { s with reader := some (FileReader.new f.e.first f.k.id) } _ [] fuel (Nat.le_refl _) rfl hr hf
    have k3 : r'.id = f.k.id := k3
    refine ⟨{ s' with reader := none }, ?_, rfl⟩
    unfold pullFile Session.openFile
    rw [g]
    simp only [hs]
    rw [k1]
    simp only [List.nil_append]
    unfold Session.closeFile FS.closeReader
    rw [k2]
    simp only [k3]
    have := markClosed_last (fs := { fs with at' := { fs.at' with opened := fs.at'.opened ++ [f.k.id] } }) (l := fs.at'.opened) (id := f.k.id) rfl hno
    have he : ({ fs with at' := { fs.at' with opened := fs.at'.opened ++ [f.k.id] } } : FS).markClosed f.k.id = fs := by
      have hfi : (fs.at'.opened ++ [f.k.id]).findIdx? (· == f.k.id) = some fs.at'.opened.length := by
        rw [List.findIdx?_append]
        have : fs.at'.opened.findIdx? (· == f.k.id) = none := by
          rw [List.findIdx?_eq_none_iff]
          intro x hx
          rw [beq_eq_false_iff_ne]
          rintro rfl
          exact hno hx
        rw [this]
        simp
      unfold FS.markClosed
      simp only [hfi, swapRemove_last]
    rw [he]

theorem pullAll_ok {crc : Bytes → UInt32} {fs : FS} {ks : List Known} (h : SysInv crc fs ks) {fuel : Nat} : ∀ {ls : List Known} {bs : List Bytes} {s : Session} {got : List Bytes},
    (∀ k ∈ ls, k ∈ ks) → List.Forall₂ (fun k b => ReadsAs crc fs k.id b) ls bs → s.reader = none → (∀ b ∈ bs, b.length < fuel) →
    ∃ s', pullAll crc fuel (ls.map (·.id)) s fs got = (some (got ++ bs), s', fs) ∧ s'.reader = none := by
  intro ls bs s got hl hf
  induction hf generalizing s got with
  | nil => intro hs _; exact ⟨s, by simp [pullAll], hs⟩
  | @cons k b ls bs hkb _ ih =>
    intro hs hfu
    obtain ⟨s1, e1, e2⟩ := pull_one h (hl k (by simp)) hkb hs (hfu b (by simp))
    obtain ⟨s2, e3, e4⟩ := ih (s := s1) (got := got ++ [b]) (fun x hx => hl x (by simp [hx])) e2 (fun x hx => hfu x (by simp [hx]))
    refine ⟨s2, ?_, e4⟩
    rw [List.map_cons, pullAll, e1]
    simp only
    rw [e3, List.append_assoc]
    rfl

theorem pullFiles_ok {crc : Bytes → UInt32} {fs : FS} {ks : List Known} (h : SysInv crc fs ks) {typ fuel : Nat} {bs : List Bytes} {s : Session} (hb : List.Forall₂ (fun k b => ReadsAs crc fs k.id b) (ofKind typ ks) bs)
    (hs : s.reader = none) (hf : ∀ b ∈ bs, b.length < fuel) (hl : ks.length < fuel) : ∃ s', pullFiles crc fuel s fs typ = (some bs, s', fs) ∧ s'.reader = none := by
  obtain ⟨s1, e1, e2⟩ := listFiles_kind h s typ fuel hl
  obtain ⟨s2, e3, e4⟩ := pullAll_ok h (ls := ofKind typ ks) (got := []) (fun k hk => (List.mem_filter.mp hk).1) hb (e2.trans hs) hf
  refine ⟨s2, ?_, e4⟩
  unfold pullFiles
  rw [e1]
  simp only
  rw [e3, List.nil_append]

/-! ### parsing -/

variable {TS TD D DD : Type}

theorem readAll_ok {c : Cfg TS TD D DD} {content : Bytes} {must may : List (Out TS D)} (h : LogReads c content must may) {sched : Nat → Nat} : ∀ {fuel : Nat} {r : LogReader TS D} {got : List (Out TS D)},
    ReadRun c sched content r got → may.length - got.length < fuel → ∃ outs, readAll c sched fuel r got = some outs ∧ must <+: outs ∧ outs <+: may := by
  intro fuel
  induction fuel with
  | zero => intro r got _ hf; omega
  | succ fuel ih =>
    intro r got hr hf
    obtain ⟨h1, ⟨x1, x2⟩, h2, h3⟩ := h sched r got hr
    unfold readAll
    rw [h2]
    cases x1 with
    | none => exact ⟨got, rfl, h3 rfl, h1⟩
    | some o =>
      have hr' := ReadRun.next hr h2
      have hp := (h sched x2 _ hr').1.length_le
      rw [List.length_append, List.length_singleton] at hp
      exact ih hr' (by rw [List.length_append, List.length_singleton]; omega)

theorem syncs_eq (env : Env TS) : ∀ (outs : List (Out TS D)), syncPoints env outs = syncsOf env outs
  | [] => rfl
  | .reading _ _ :: es => by rw [syncsOf, ← syncs_eq env es]; rfl
  | .unix _ :: es => by rw [syncsOf, ← syncs_eq env es]; rfl

theorem rows_show {env : Env TS} (he : SearchWorks env) (syncs : List Point) : ∀ (outs : List (Out TS D)), Shows env syncs (readingsOf outs) (toRows env (sort syncs) outs)
  | [] => ⟨rfl, by simp [toRows]⟩
  | .reading t v :: es => by
    obtain ⟨h1, h2⟩ := rows_show he syncs es
    refine ⟨?_, fun r hr => ?_⟩
    · rw [readingsOf, ← h1]; rfl
    · rcases List.mem_cons.mp (show r ∈ ⟨t, _, v⟩ :: toRows env (sort syncs) es from hr) with rfl | hr
      · exact ⟨_, he syncs _, rfl⟩
      · exact h2 r hr
  | .unix _ :: es => by
    obtain ⟨h1, h2⟩ := rows_show he syncs es
    exact ⟨h1, h2⟩

theorem parse_ok {c : Cfg TS TD D DD} {env : Env TS} (he : SearchWorks env) {content : Bytes} {must may : List (Out TS D)} (h : LogReads c content must may) {sched1 sched2 : Nat → Nat} {fuel : Nat}
    (hf : may.length < fuel) : ∃ rows first second, parse c env sched1 sched2 fuel content = some rows ∧ must <+: first ∧ first <+: may ∧ must <+: second ∧ second <+: may ∧
      Shows env (syncsOf env first) (readingsOf second) rows := by
  obtain ⟨first, e1, e2, e3⟩ := readAll_ok h (sched := sched1) (fuel := fuel) .new (by simpa using hf)
  obtain ⟨second, e4, e5, e6⟩ := readAll_ok h (sched := sched2) (fuel := fuel) .new (by simpa using hf)
  refine ⟨_, first, second, ?_, e2, e3, e5, e6, rows_show he _ _⟩
  unfold parse
  rw [e1]
  simp only
  rw [e4]
  simp only
  rw [syncs_eq]

theorem table_ok {c : Cfg TS TD D DD} {env : Env TS} (he : SearchWorks env) {sched1 sched2 : Nat → Nat} {fuel : Nat} {bs : List Bytes} {logs : List (List (Out TS D) × List (Out TS D))}
    (h : List.Forall₂ (fun b l => LogReads c b l.1 l.2 ∧ l.2.length < fuel) bs logs) :
    ∃ parts : List (List (Row TS D)), table c env sched1 sched2 fuel bs = some parts.flatten ∧
      List.Forall₂ (fun l rows => ∃ first second, l.1 <+: first ∧ first <+: l.2 ∧ l.1 <+: second ∧ second <+: l.2 ∧ Shows env (syncsOf env first) (readingsOf second) rows) logs parts := by
  induction h with
  | nil => exact ⟨[], rfl, .nil⟩
  | @cons b l bs logs hb _ ih =>
    obtain ⟨parts, h1, h2⟩ := ih
    obtain ⟨rows, first, second, e1, e2⟩ := parse_ok he hb.1 (sched1 := sched1) (sched2 := sched2) hb.2
    refine ⟨rows :: parts, ?_, .cons ⟨first, second, e2⟩ h2⟩
    unfold table
    rw [e1]
    simp only
    rw [h1]
    rfl

end Verif.Export
