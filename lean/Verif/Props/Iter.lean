import Verif.Lemmas.Iter
import Verif.Props.Directory
/-
C21: iterating over files while the directory changes.
-/
namespace Verif.Props
open Verif Verif.Vlfs Verif.Spec

/-- **C21** Whatever other tasks did to the directory between the calls, `next` never fails and returns the existing matching
file with the smallest id above everything yielded so far, or reports the end exactly when there is none. -/
theorem C21_next {f : Nat → Nat → Bool} {P : List FileEntry → Prop} {fs : FS} {es : List FileEntry} {ids : List Nat} {it : ConcIter}
    {ys : List FileEntry} (h : IterRun f P fs es ids it ys) :
    ∃ r it', fs.concNext (onIdTyp f) it = (.ok r, it') ∧ NextAnswer f es ys r := by
  obtain ⟨hr, hi, _⟩ := iterRun_inv h
  obtain ⟨r, it', h1, h2, _⟩ := concNext_spec (reach_inv hr).dir hi
  exact ⟨r, it', h1, h2⟩

/-- what `next` returned was the right answer -/
theorem answer_of {f : Nat → Nat → Bool} {P : List FileEntry → Prop} {fs : FS} {es : List FileEntry} {ids : List Nat} {it it' : ConcIter}
    {ys : List FileEntry} {r : Option FileEntry} (h : IterRun f P fs es ids it ys) (hn : fs.concNext (onIdTyp f) it = (.ok r, it')) :
    NextAnswer f es ys r := by
  obtain ⟨r', it'', h1, h2⟩ := C21_next h
  rw [hn] at h1
  injection h1 with h1 _
  injection h1 with h1
  subst h1; exact h2

/-- **C21** The yielded ids are strictly increasing: no file is yielded twice. -/
theorem C21_increasing {f : Nat → Nat → Bool} {P : List FileEntry → Prop} {fs : FS} {es : List FileEntry} {ids : List Nat} {it : ConcIter}
    {ys : List FileEntry} (h : IterRun f P fs es ids it ys) : ys.Pairwise (fun a b => a.id < b.id) := by
  induction h with
  | start => simp
  | call _ _ _ _ ih => exact ih
  | opened _ _ ih => exact ih
  | other _ _ _ _ ih => exact ih
  | next hr h ih =>
    obtain ⟨_, _, h3, _⟩ := answer_of hr h
    rw [List.pairwise_append]
    exact ⟨ih, by simp, fun a ha b hb => by rw [List.mem_singleton] at hb; subst hb; exact h3 a ha⟩
  | done _ _ ih => exact ih

/-- **C21** A matching file that exists during the whole iteration is not skipped: it has been yielded as soon as anything above it
has been, and in any case when the end is reported. -/
theorem C21_no_skip {f : Nat → Nat → Bool} {x t : Nat} (hf : f x t = true) {fs : FS} {es : List FileEntry} {ids : List Nat} {it : ConcIter}
    {ys : List FileEntry} (h : IterRun f (fun l => ∃ e ∈ l, e.id = x ∧ e.typ = t) fs es ids it ys) :
    ((∃ y ∈ ys, x ≤ y.id) → ∃ y ∈ ys, y.id = x) ∧
    (∀ it', fs.concNext (onIdTyp f) it = (.ok none, it') → ∃ y ∈ ys, y.id = x) := by
  have main : (∃ y ∈ ys, x ≤ y.id) → ∃ y ∈ ys, y.id = x := by
    induction h with
    | start => intro ⟨y, hy, _⟩; simp at hy
    | call _ _ _ _ ih => exact ih
    | opened _ _ ih => exact ih
    | other _ _ _ _ ih => exact ih
    | @next _ _ _ _ _ ys e hr h ih =>
      intro ⟨y, hy, hle⟩
      by_cases hex : ∃ y ∈ ys, x ≤ y.id
      · obtain ⟨z, hz, hzx⟩ := ih hex
        exact ⟨z, List.mem_append_left _ hz, hzx⟩
      · rcases List.mem_append.mp hy with hy | hy
        · exact absurd ⟨y, hy, hle⟩ hex
        · rw [List.mem_singleton] at hy
          subst hy
          obtain ⟨g, hg, h1, h2⟩ := (iterRun_inv hr).2.2
          obtain ⟨_, _, _, h4⟩ := answer_of hr h
          have := h4 g hg (by rw [h1, h2]; exact hf) (by
            intro z hz
            rw [h1]
            apply Nat.not_le.mp
            intro hc; exact hex ⟨z, hz, hc⟩)
          exact ⟨y, by simp, by omega⟩
    | done _ _ ih => exact ih
  refine ⟨main, ?_⟩
  intro it' hn
  have ha := answer_of h hn
  obtain ⟨g, hg, h1, h2⟩ := (iterRun_inv h).2.2
  obtain ⟨y, hy, hle⟩ := ha g hg (by rw [h1, h2]; exact hf)
  rw [h1] at hle
  exact main ⟨y, hy, hle⟩

/-- hypotheses of C21 are met non-trivially: three files, the first is yielded and then removed, a fourth is created; file 3 exists
throughout; the next answer is file 2 -/
example : ∃ fs es ids it ys, IterRun (fun _ _ => true) (fun l => ∃ e ∈ l, e.id = 3 ∧ e.typ = 5) fs es ids it ys ∧ ys.map (·.id) = [1] ∧
    es.map (·.id) = [2, 3, 4] ∧ ∃ it', fs.concNext (onIdTyp fun _ _ => true) it = (.ok (some ⟨2, 5, none⟩), it') := by
  obtain ⟨fs, ids, h1, h2, h3, h3o⟩ := nFiles_reach 3 (by omega)
  have r0 : IterRun (fun _ _ => true) (fun l => ∃ e ∈ l, e.id = 3 ∧ e.typ = 5) fs (nFiles 3) ids ConcIter.new [] :=
    .start h1 ⟨⟨3, 5, none⟩, by decide, rfl, rfl⟩
  obtain ⟨r, it', hn, ha⟩ := C21_next r0
  cases r with
  | none => obtain ⟨y, hy, _⟩ := ha ⟨1, 5, none⟩ (by decide) rfl; simp at hy
  | some e =>
    have he : e = ⟨1, 5, none⟩ := by
      obtain ⟨ha1, _, _, ha4⟩ := ha
      have := ha4 ⟨1, 5, none⟩ (by decide) rfl (by simp)
      have hm : ∀ e ∈ nFiles 3, e.id ≤ 1 → e = ⟨1, 5, none⟩ := by decide
      exact hm e ha1 this
    subst he
    have r1 := IterRun.next r0 hn
    rcases removeFiles_spec (reach_inv h1).dir (reach_inv h1).range (fun e => e.id == 1) with ⟨fs', g1, g2, g3⟩ | ⟨er, fs', _, x, hx, hfx, hk, hno⟩
    · have hc := Call.remove (es := nFiles 3) _ _ _ fs' g1
      have r2 := IterRun.call r1 hc ⟨by rw [h3]; omega, by rw [h2]; omega⟩ ⟨⟨3, 5, none⟩, by rw [h3o]; decide, rfl, rfl⟩
      have hl : (nFiles 3).filter (fun e => !(e.id == 1) || decide (e.id ∈ fs.at'.opened)) = [⟨2, 5, none⟩, ⟨3, 5, none⟩] := by
        rw [h3o]; decide
      rw [hl] at r2
      have hreach := (iterRun_inv r2).1
      obtain ⟨fs'', g4, g5, _⟩ := createFile_spec (reach_inv hreach).dir 5 (by decide)
      have hid : fs'.at'.maxId + 1 = 4 := by rw [g2.maxId, h2]
      have hsq : fs'.at'.seq = 5 := by rw [g2.seq, h3]
      rw [hid] at g4
      have r3 := IterRun.call r2 (Call.create 5 _ fs'' g4 (by decide) (by omega)) ⟨by rw [hsq]; omega, by omega⟩ ⟨⟨3, 5, none⟩, by decide, rfl, rfl⟩
      obtain ⟨r', it'', hn', ha'⟩ := C21_next r3
      refine ⟨_, _, _, _, _, r3, by decide, by decide, it'', ?_⟩
      rw [hn']
      cases r' with
      | none => obtain ⟨y, hy, hle⟩ := ha' ⟨2, 5, none⟩ (by decide) rfl; simp at hy; subst hy; simp at hle
      | some e =>
        obtain ⟨ha1, _, _, ha4⟩ := ha'
        have := ha4 ⟨2, 5, none⟩ (by decide) rfl (by decide)
        have hm : ∀ e ∈ ([⟨2, 5, none⟩, ⟨3, 5, none⟩] ++ [⟨4, 5, none⟩] : List FileEntry), e.id ≤ 2 → e = ⟨2, 5, none⟩ := by decide
        rw [hm e ha1 this]
    · have := nFiles_chains fs.dev.flash 3 x hx
      exfalso
      refine hno ⟨[], ?_, by simp, by simp⟩
      have hf : ∀ e ∈ nFiles 3, e.first = none := by decide
      rw [hf x hx]
      exact .nil

/-- **C15** `find_first_file` returns the matching file with the smallest id, or nothing if no file matches. -/
theorem C15_find_first {fs : FS} {es : List FileEntry} {ids : List Nat} (h : Reach fs es ids) (filter : FileEntry → Bool) :
    fs.findFirstFile filter = .ok (es.find? filter) ∧
    (∀ e, es.find? filter = some e → ∀ e' ∈ es, filter e' = true → e.id ≤ e'.id) := by
  have hd := (reach_inv h).dir
  constructor
  · unfold FS.findFirstFile
    have : ∀ n i, i + n = es.length → findFirst fs.dev.flash fs.at' filter n i = .ok ((es.drop i).find? filter) := by
      intro n
      induction n with
      | zero => intro i hi; rw [findFirst, List.drop_eq_nil_of_le (by omega)]; rfl
      | succ n ih =>
        intro i hi
        have hlt : i < es.length := by omega
        rw [findFirst, readFileEntry_eq, hd.holds.entry i hlt]
        simp only
        rw [List.drop_eq_getElem_cons hlt, List.find?_cons]
        cases filter es[i] with
        | true => rfl
        | false => simp only [Bool.false_eq_true, if_false]; exact ih (i + 1) (by omega)
    rw [hd.count, this es.length 0 (by omega), List.drop_zero]
  · intro e he e' he' hf
    rw [List.find?_eq_some_iff_append] at he
    obtain ⟨_, as, bs, h1, h2⟩ := he
    have hs := hd.sorted
    rw [h1] at he' hs
    rw [List.pairwise_append] at hs
    rcases List.mem_append.mp he' with h | h
    · have := h2 e' h; rw [hf] at this; simp at this
    · rcases List.mem_cons.mp h with h | h
      · subst h; exact Nat.le_refl _
      · exact Nat.le_of_lt ((List.pairwise_cons.mp hs.2.1).1 e' h)

end Verif.Props
