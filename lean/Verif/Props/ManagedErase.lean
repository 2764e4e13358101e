import Verif.Model.ManagedErase
/-
C25: background erase is invisible to the user of the flash.
-/
namespace Verif.Managed

/-- specification: a flash on which every command takes effect at once -/
def instant (fl : Flash) : Op → Bytes × Flash
  | .erase a n => ([], FlashOp.apply fl (.erase a n))
  | .read a n => (fl.read a n, fl)
  | .write a data => ([], FlashOp.apply fl (.page a data))

/-- specification: several commands on it -/
def instantAll (fl : Flash) : List Op → List Bytes × Flash
  | [] => ([], fl)
  | o :: os =>
    let r := instant fl o
    let rs := instantAll r.2 os
    (r.1 :: rs.1, rs.2)

/-- specification: erases of whole aligned sectors, programs of aligned pages, reads within one sector -/
def Aligned : Op → Prop
  | .erase a n => a % 4096 = 0 ∧ n % 4096 = 0 ∧ 0 < n
  | .read a n => a % 4096 + n ≤ 4096
  | .write a _ => a % 256 = 0

/-- the content the user should see -/
def Chip.view (c : Chip) : Flash :=
  match c.era with
  | some (a, n, _) => FlashOp.apply c.mem (.erase a n)
  | none => c.mem

/-- wrapper and chip agree -/
structure Inv (m : Managed) : Prop where
  legal : m.chip.illegal = false
  agree : match m.chip.era with
    | none => True
    | some (a, n, s) => m.st = some (a, n, s)
  aligned : ∀ a n s, m.st = some (a, n, s) → a % 4096 = 0 ∧ n % 4096 = 0

theorem finish_view (c : Chip) : c.finish.view = c.view := by
  unfold Chip.finish
  split
  · next a n h => simp only [Chip.view, h]
  · rfl

theorem finish_illegal (c : Chip) : c.finish.illegal = c.illegal := by
  unfold Chip.finish; split <;> rfl

theorem tick_view (env : Env) (c : Chip) : (c.tick env).view = c.view := by
  unfold Chip.tick
  simp only
  split
  · show c.finish.view = _; exact finish_view c
  · rfl

theorem tick_illegal (env : Env) (c : Chip) : (c.tick env).illegal = c.illegal := by
  unfold Chip.tick
  simp only
  split
  · show c.finish.illegal = _; exact finish_illegal c
  · rfl

/-- time passing leaves the erase as it is or ends a running one -/
theorem tick_era (env : Env) (c : Chip) : (c.tick env).era = c.era ∨ ((c.tick env).era = none ∧ ∃ a n, c.era = some (a, n, false)) := by
  unfold Chip.tick
  simp only
  split
  · show c.finish.era = _ ∨ (c.finish.era = none ∧ _)
    unfold Chip.finish
    split
    · next a n h => exact Or.inr ⟨rfl, a, n, h⟩
    · exact Or.inl rfl
  · exact Or.inl rfl

theorem view_none {c : Chip} (h : c.era = none) : c.view = c.mem := by unfold Chip.view; rw [h]
theorem view_some {c : Chip} {a n : Nat} {s : Bool} (h : c.era = some (a, n, s)) : c.view = FlashOp.apply c.mem (.erase a n) := by
  unfold Chip.view; rw [h]

theorem resume_spec (env : Env) (c : Chip) : (c.resume env).view = c.view ∧ (c.resume env).illegal = c.illegal ∧
    ((c.resume env).era = none ∨ ∃ a n s, c.era = some (a, n, s) ∧ (c.resume env).era = some (a, n, false)) := by
  have h1 := tick_view env c
  have h2 := tick_illegal env c
  have h3 := tick_era env c
  unfold Chip.resume
  simp only
  generalize c.tick env = d at h1 h2 h3
  split
  · next a n s h =>
    refine ⟨by rw [← h1, view_some h]; rfl, h2, Or.inr ⟨a, n, s, ?_, rfl⟩⟩
    rcases h3 with h3 | ⟨h3, _⟩
    · rw [← h3, h]
    · rw [h3] at h; exact absurd h (by simp)
  · next h => exact ⟨h1, h2, Or.inl h⟩

theorem suspend_spec (env : Env) (c : Chip) : (c.suspend env).view = c.view ∧ (c.suspend env).illegal = c.illegal ∧
    ((c.suspend env).era = none ∨ ∃ a n s, c.era = some (a, n, s) ∧ (c.suspend env).era = some (a, n, true)) := by
  have h1 := tick_view env c
  have h2 := tick_illegal env c
  have h3 := tick_era env c
  unfold Chip.suspend
  simp only
  generalize c.tick env = d at h1 h2 h3
  split
  · next a n s h =>
    refine ⟨by rw [← h1, view_some h]; rfl, h2, Or.inr ⟨a, n, s, ?_, rfl⟩⟩
    rcases h3 with h3 | ⟨h3, _⟩
    · rw [← h3, h]
    · rw [h3] at h; exact absurd h (by simp)
  · next h => exact ⟨h1, h2, Or.inl h⟩

theorem waitFinish_spec (env : Env) (c : Chip) (h : ∀ a n, c.era ≠ some (a, n, true)) :
    (c.waitFinish env).view = c.view ∧ (c.waitFinish env).illegal = c.illegal ∧ (c.waitFinish env).era = none := by
  have h1 := tick_view env c
  have h2 := tick_illegal env c
  have h3 := tick_era env c
  unfold Chip.waitFinish
  simp only
  generalize c.tick env = d at h1 h2 h3
  split
  · next a n hd =>
    exfalso
    rcases h3 with h3 | ⟨h3, _⟩
    · rw [h3] at hd; exact h _ _ hd
    · rw [h3] at hd; exact absurd hd (by simp)
  · next hd =>
    refine ⟨by rw [finish_view, h1], by rw [finish_illegal, h2], ?_⟩
    unfold Chip.finish
    split
    · rfl
    · next hd2 =>
      match he : d.era with
      | none => rfl
      | some (a, n, true) => exact absurd he (hd a n)
      | some (a, n, false) => exact absurd he (hd2 a n)

theorem waitPrev_spec (env : Env) {m : Managed} (hi : Inv m) :
    (m.waitPrev env).chip.view = m.chip.view ∧ (m.waitPrev env).chip.illegal = false ∧ (m.waitPrev env).chip.era = none ∧ (m.waitPrev env).st = none := by
  have ha := hi.agree
  unfold Managed.waitPrev
  match hst : m.st with
  | none =>
    refine ⟨rfl, hi.legal, ?_, hst⟩
    split at ha
    · assumption
    · rw [hst] at ha; exact absurd ha (by simp)
  | some (ea, en, true) =>
    obtain ⟨r1, r2, r3⟩ := resume_spec env m.chip
    obtain ⟨w1, w2, w3⟩ := waitFinish_spec env (m.chip.resume env) (by
      intro a n h
      rcases r3 with r3 | ⟨a', n', s', _, r3⟩ <;> rw [r3] at h <;> simp at h)
    simp only [if_true]
    exact ⟨by rw [w1, r1], by rw [w2, r2, hi.legal], w3, trivial⟩
  | some (ea, en, false) =>
    obtain ⟨w1, w2, w3⟩ := waitFinish_spec env m.chip (by
      intro a n h
      rw [h] at ha; simp only at ha; rw [hst] at ha; simp at ha)
    simp only [Bool.false_eq_true, if_false]
    exact ⟨w1, by rw [w2, hi.legal], w3, trivial⟩

/-- after `suspend_erase` nothing runs -/
theorem suspendM_spec (env : Env) {m : Managed} (hi : Inv m) :
    (m.suspend env).chip.view = m.chip.view ∧ Inv (m.suspend env) ∧ (∀ a n, (m.suspend env).chip.era ≠ some (a, n, false)) ∧
    ((m.suspend env).st.map fun x => (x.1, x.2.1)) = (m.st.map fun x => (x.1, x.2.1)) := by
  have ha := hi.agree
  unfold Managed.suspend
  split
  · next ea en hst =>
    obtain ⟨r1, r2, r3⟩ := suspend_spec env m.chip
    refine ⟨r1, ⟨by rw [r2, hi.legal], ?_, ?_⟩, ?_, by rw [hst]; rfl⟩
    · rcases r3 with r3 | ⟨a, n, s, h, r3⟩ <;> simp only [r3]
      rw [h] at ha
      simp only [hst] at ha
      injection ha with ha
      injection ha with h1 ha
      injection ha with h2 _
      rw [h1, h2]
    · intro a n s h
      injection h with h
      injection h with h1 h
      injection h with h2 _
      subst h1; subst h2
      exact hi.aligned _ _ _ hst
    · intro a n h
      rcases r3 with r3 | ⟨a', n', s', _, r3⟩ <;> rw [r3] at h <;> simp at h
  · next hst =>
    refine ⟨rfl, hi, ?_, rfl⟩
    intro a n h
    rw [h] at ha
    exact hst a n ha

theorem prepareRead_spec (env : Env) {m : Managed} (hi : Inv m) (a : Nat) :
    (m.prepareRead env a).chip.view = m.chip.view ∧ Inv (m.prepareRead env a) ∧ (∀ x n, (m.prepareRead env a).chip.era ≠ some (x, n, false)) ∧
    (∀ x n s, (m.prepareRead env a).chip.era = some (x, n, s) → ¬ (x ≤ a ∧ a < x + n)) := by
  have ha := hi.agree
  unfold Managed.prepareRead
  match hst : m.st with
  | none =>
    have he : m.chip.era = none := by
      split at ha
      · assumption
      · rw [hst] at ha; exact absurd ha (by simp)
    exact ⟨rfl, hi, fun x n h => by rw [he] at h; simp at h, fun x n s h => by rw [he] at h; simp at h⟩
  | some (ea, en, s) =>
    simp only
    by_cases hin : ea ≤ a ∧ a < ea + en
    · rw [if_pos hin]
      obtain ⟨w1, w2, w3, w4⟩ := waitPrev_spec env hi
      refine ⟨w1, ⟨w2, by rw [w3]; trivial, by rw [w4]; simp⟩, fun x n h => by rw [w3] at h; simp at h, fun x n s h => by rw [w3] at h; simp at h⟩
    · rw [if_neg hin]
      have same : ∀ m' : Managed, Inv m' → m'.st.map (fun x => (x.1, x.2.1)) = some (ea, en) → ∀ x n s, m'.chip.era = some (x, n, s) → ¬ (x ≤ a ∧ a < x + n) := by
        intro m' hi' h1 x n s h2
        have h3 := hi'.agree
        rw [h2] at h3
        simp only at h3
        rw [h3] at h1
        simp only [Option.map_some] at h1
        injection h1 with h1
        injection h1 with h1 h2
        subst h1; subst h2; exact hin
      cases s with
      | false =>
        simp only [Bool.not_false, if_true]
        obtain ⟨w1, w2, w3, w4⟩ := suspendM_spec env hi
        exact ⟨w1, w2, w3, same _ w2 (by rw [w4, hst]; rfl)⟩
      | true =>
        simp only [Bool.not_true, Bool.false_eq_true, if_false]
        refine ⟨trivial, hi, ?_, same m hi (by rw [hst]; rfl)⟩
        intro x n h
        rw [h] at ha
        simp only [hst] at ha
        simp at ha

theorem prepareWrite_spec (env : Env) {m : Managed} (hi : Inv m) (a : Nat) :
    (m.prepareWrite env a).chip.view = m.chip.view ∧ Inv (m.prepareWrite env a) ∧ (∀ x n, (m.prepareWrite env a).chip.era ≠ some (x, n, false)) ∧
    (∀ x n s, (m.prepareWrite env a).chip.era = some (x, n, s) → ¬ (x ≤ a ∧ a < x + n)) := by
  have h := prepareRead_spec env hi a
  have heq : m.prepareWrite env a = m.prepareRead env a := by
    unfold Managed.prepareWrite Managed.prepareRead
    match hst : m.st with
    | none => rfl
    | some (ea, en, false) => rfl
    | some (ea, en, true) =>
      simp only
      split
      · rfl
      · simp only [Bool.not_true, Bool.false_eq_true, if_false]
        unfold Managed.suspend
        rw [hst]
  rw [heq]; exact h

theorem chipRead_spec (env : Env) {c : Chip} (h0 : ∀ x n, c.era ≠ some (x, n, false)) (a n : Nat)
    (hout : ∀ x k s, c.era = some (x, k, s) → ∀ i, i < n → ¬ (x ≤ a + i ∧ a + i < x + k)) :
    (c.read env a n).1 = c.view.read a n ∧ (c.read env a n).2.view = c.view ∧ (c.read env a n).2.illegal = c.illegal ∧ (c.read env a n).2.era = c.era := by
  have h1 := tick_view env c
  have h2 := tick_illegal env c
  have h3 : (c.tick env).era = c.era := by
    rcases tick_era env c with h | ⟨_, x, k, h⟩
    · exact h
    · exact absurd h (h0 x k)
  unfold Chip.read
  simp only
  generalize c.tick env = d at h1 h2 h3
  rw [← h3] at h0 hout
  rw [← h1, ← h2, ← h3]
  split
  · next h => exact ⟨by rw [view_none h], rfl, rfl, rfl⟩
  · next ea en h =>
    refine ⟨?_, rfl, rfl, rfl⟩
    rw [view_some h]
    refine Flash.read_congr (fun x => if ea ≤ x ∧ x < ea + en then env.garbage d.clock x else d.mem x) _ a n ?_
    intro i hi
    have := hout ea en true h i hi
    simp only [FlashOp.apply, this, if_false]
  · next ea en h => exact absurd h (h0 _ _)

theorem chipWrite_spec (env : Env) {c : Chip} (h0 : ∀ x n, c.era ≠ some (x, n, false)) (a : Nat) (data : Bytes)
    (hout : ∀ x k s, c.era = some (x, k, s) → ¬ (x < a + 256 ∧ a < x + k)) :
    (c.write env a data).view = FlashOp.apply c.view (.page a data) ∧ (c.write env a data).illegal = c.illegal ∧ (c.write env a data).era = c.era := by
  have h1 := tick_view env c
  have h2 := tick_illegal env c
  have h3 : (c.tick env).era = c.era := by
    rcases tick_era env c with h | ⟨_, x, k, h⟩
    · exact h
    · exact absurd h (h0 x k)
  unfold Chip.write
  simp only
  generalize c.tick env = d at h1 h2 h3
  rw [← h3] at h0 hout
  rw [← h1, ← h2, ← h3]
  split
  · next h => exact ⟨by rw [view_none h]; rw [view_none (by exact h)], rfl, rfl⟩
  · next ea en h =>
    have := hout ea en true h
    rw [if_neg this]
    refine ⟨?_, rfl, rfl⟩
    rw [view_some h, view_some (c := { d with mem := FlashOp.apply d.mem (.page a data) }) h]
    funext x
    simp only [FlashOp.apply]
    by_cases hx : ea ≤ x ∧ x < ea + en
    · rw [if_pos hx, if_neg (by omega), if_pos hx]
    · rw [if_neg hx, if_neg hx]
  · next ea en h => exact absurd h (h0 _ _)

theorem afterWrite_spec (env : Env) {m : Managed} (hi : Inv m) : (m.afterWrite env).chip.view = m.chip.view ∧ Inv (m.afterWrite env) := by
  have ha := hi.agree
  unfold Managed.afterWrite
  split
  · next ea en hst =>
    have hres : m.resume env = ⟨m.chip.resume env, some (ea, en, false)⟩ := by unfold Managed.resume; rw [hst]
    simp only [hres]
    obtain ⟨r1, r2, r3⟩ := resume_spec env m.chip
    have hera : ∀ a n s, (m.chip.resume env).era = some (a, n, s) → (a, n, s) = (ea, en, false) := by
      intro a n s h
      rcases r3 with r3 | ⟨a', n', s', h', r3⟩
      · rw [r3] at h; simp at h
      · rw [h'] at ha
        simp only [hst] at ha
        rw [r3] at h
        simp at h ha
        simp [← h.1, ← h.2.1, ← h.2.2, ha.1, ha.2.1]
    generalize m.chip.resume env = c at r1 r2 hera
    -- two more steps of time
    have hb : ∀ a n s, ((c.tick env).isBusy env).2.era = some (a, n, s) → c.era = some (a, n, s) := by
      intro a n s h
      have h : ((c.tick env).tick env).era = some (a, n, s) := h
      rcases tick_era env (c.tick env) with h' | ⟨h', _⟩
      · rw [h'] at h
        rcases tick_era env c with h'' | ⟨h'', _⟩
        · rw [← h'']; exact h
        · rw [h''] at h; exact absurd h (by simp)
      · rw [h'] at h; exact absurd h (by simp)
    have hv : ((c.tick env).isBusy env).2.view = m.chip.view := by
      show ((c.tick env).tick env).view = _
      rw [tick_view, tick_view, r1]
    have hl : ((c.tick env).isBusy env).2.illegal = false := by
      show ((c.tick env).tick env).illegal = _
      rw [tick_illegal, tick_illegal, r2, hi.legal]
    have hbz : ((c.tick env).isBusy env).1 = false → ((c.tick env).isBusy env).2.era = none := by
      intro h
      match he : ((c.tick env).isBusy env).2.era with
      | none => rfl
      | some (a, n, s) =>
        have h5 := hera _ _ _ (hb _ _ _ he)
        have he' : ((c.tick env).tick env).era = some (a, n, s) := he
        have h6 : (match ((c.tick env).tick env).era with | some (_, _, false) => true | _ => false) = false := h
        rw [he'] at h6
        injection h5 with _ h5; injection h5 with _ h5
        subst h5
        exact absurd h6 (by simp)
    cases hbusy : ((c.tick env).isBusy env).1 with
    | false =>
      simp only [Bool.not_false, if_true]
      exact ⟨hv, ⟨hl, by simp only [hbz hbusy], by simp⟩⟩
    | true =>
      simp only [Bool.not_true, Bool.false_eq_true, if_false]
      refine ⟨hv, ⟨hl, ?_, ?_⟩⟩
      · match he : ((c.tick env).isBusy env).2.era with
        | none => trivial
        | some (a, n, s) =>
          simp only
          rw [hera _ _ _ (hb _ _ _ he)]
      · intro a n s h
        injection h with h; injection h with h1 h; injection h with h2 h
        subst h1; subst h2
        exact hi.aligned _ _ _ hst
  · exact ⟨rfl, hi⟩

theorem run_spec (env : Env) {m : Managed} (hi : Inv m) (o : Op) (ho : Aligned o) :
    (m.run env o).1 = (instant m.chip.view o).1 ∧ (m.run env o).2.chip.view = (instant m.chip.view o).2 ∧ Inv (m.run env o).2 := by
  cases o with
  | erase a n =>
    obtain ⟨w1, w2, w3, w4⟩ := waitPrev_spec env hi
    refine ⟨rfl, ?_, ?_⟩
    · show ((m.waitPrev env).chip.eraseNb env a n).view = FlashOp.apply m.chip.view (.erase a n)
      have h1 := tick_view env (m.waitPrev env).chip
      have h3 : ((m.waitPrev env).chip.tick env).era = none := by
        rcases tick_era env (m.waitPrev env).chip with h | ⟨h, _⟩
        · rw [h, w3]
        · exact h
      unfold Chip.eraseNb
      simp only [h3]
      rw [← w1, ← h1, view_none h3]; rfl
    · have h2 := tick_illegal env (m.waitPrev env).chip
      have h3 : ((m.waitPrev env).chip.tick env).era = none := by
        rcases tick_era env (m.waitPrev env).chip with h | ⟨h, _⟩
        · rw [h, w3]
        · exact h
      show Inv ⟨(m.waitPrev env).chip.eraseNb env a n, some (a, n, false)⟩
      unfold Chip.eraseNb
      simp only [h3]
      refine ⟨by rw [← w2, ← h2], rfl, ?_⟩
      intro a' n' s h
      injection h with h; injection h with h1 h; injection h with h2 h
      subst h1; subst h2
      exact ⟨ho.1, ho.2.1⟩
  | read a n =>
    obtain ⟨p1, p2, p3, p4⟩ := prepareRead_spec env hi a
    have ho : a % 4096 + n ≤ 4096 := ho
    have hpa := p2.agree
    obtain ⟨c1, c2, c3, c4⟩ := chipRead_spec env p3 a n (by
      intro x k s hx i hin
      have h5 := p4 x k s hx
      rw [hx] at hpa
      have h6 := p2.aligned x k s hpa
      omega)
    refine ⟨?_, ?_, ?_⟩
    · show ((m.prepareRead env a).chip.read env a n).1 = _; rw [c1, p1]; rfl
    · show ((m.prepareRead env a).chip.read env a n).2.view = _; rw [c2, p1]; rfl
    · show Inv ⟨((m.prepareRead env a).chip.read env a n).2, (m.prepareRead env a).st⟩
      exact ⟨by rw [c3]; exact p2.legal, by rw [c4]; exact hpa, p2.aligned⟩
  | write a data =>
    obtain ⟨p1, p2, p3, p4⟩ := prepareWrite_spec env hi a
    have ho : a % 256 = 0 := ho
    have hpa := p2.agree
    obtain ⟨c1, c2, c3⟩ := chipWrite_spec env p3 a data (by
      intro x k s hx
      have h5 := p4 x k s hx
      rw [hx] at hpa
      have h6 := p2.aligned x k s hpa
      omega)
    have hi2 : Inv { m.prepareWrite env a with chip := (m.prepareWrite env a).chip.write env a data } :=
      ⟨by rw [c2]; exact p2.legal, by rw [c3]; exact hpa, p2.aligned⟩
    obtain ⟨f1, f2⟩ := afterWrite_spec env hi2
    refine ⟨rfl, ?_, f2⟩
    show (Managed.afterWrite env { m.prepareWrite env a with chip := (m.prepareWrite env a).chip.write env a data }).chip.view = _
    rw [f1, c1, p1]; rfl

end Verif.Managed

namespace Verif.Props
open Verif Verif.Managed

/-- **C25** For every chip behaviour (erases finishing whenever they like), every initial content and every sequence of aligned erases,
page programs and reads within a sector: every read returns what a flash with instantaneous erases returns, the final content is the same,
and the chip never receives a command it does not accept. -/
theorem C25_transparent (env : Env) (fl : Flash) (ops : List Op) (ho : ∀ o ∈ ops, Aligned o) :
    let r := Managed.runAll env ⟨⟨fl, none, 0, false⟩, none⟩ ops
    r.1 = (instantAll fl ops).1 ∧ r.2.chip.view = (instantAll fl ops).2 ∧ r.2.chip.illegal = false := by
  have key : ∀ (ops : List Op) (m : Managed), Inv m → (∀ o ∈ ops, Aligned o) →
      (m.runAll env ops).1 = (instantAll m.chip.view ops).1 ∧ (m.runAll env ops).2.chip.view = (instantAll m.chip.view ops).2 ∧
      (m.runAll env ops).2.chip.illegal = false := by
    intro ops
    induction ops with
    | nil => intro m hi _; exact ⟨rfl, rfl, hi.legal⟩
    | cons o os ih =>
      intro m hi ho
      obtain ⟨h1, h2, h3⟩ := run_spec env hi o (ho o (by simp))
      obtain ⟨g1, g2, g3⟩ := ih _ h3 (fun x hx => ho x (by simp [hx]))
      rw [h2] at g1 g2
      simp only [Managed.runAll, instantAll]
      exact ⟨by rw [h1, g1], g2, g3⟩
  exact key ops ⟨⟨fl, none, 0, false⟩, none⟩ ⟨rfl, trivial, by simp⟩ ho

/-- **C25** (limit) The range check looks at the first byte only: a read that starts below a running erase and reaches into it can return
bytes that are neither the old content nor 0xFF. -/
theorem C25_straddling_read : ∃ (env : Env) (fl : Flash),
    (Managed.runAll env ⟨⟨fl, none, 0, false⟩, none⟩ [.erase 4096 4096, .read 4095 2]).1 = [[], [7, 5]] ∧
    (instantAll fl [.erase 4096 4096, .read 4095 2]).1 = [[], [7, 0xFF]] :=
  ⟨⟨fun _ => false, fun _ _ => 5⟩, fun _ => 7, by
    constructor <;> rfl⟩

/-- hypotheses of C25 are met and the run is not trivial: an erase is started, a page elsewhere is programmed (suspending and resuming it), a page
inside is read (waiting for it) -/
example : (∀ o ∈ [Op.erase 8192 4096, .write 256 [1, 2], .read 256 3, .read 8192 2], Aligned o) ∧
    (Managed.runAll ⟨fun _ => false, fun _ _ => 5⟩ ⟨⟨fun _ => 0xF7, none, 0, false⟩, none⟩
      [.erase 8192 4096, .write 256 [1, 2], .read 256 3, .read 8192 2]).1 = [[], [], [1, 2, 0xF7], [0xFF, 0xFF]] := by
  constructor
  · intro o ho
    simp at ho
    rcases ho with rfl | rfl | rfl | rfl <;> simp [Aligned]
  · decide +kernel

end Verif.Props
