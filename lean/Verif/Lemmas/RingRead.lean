import Verif.Lemmas.RingCut
/-
Reading a ring of sensor logs file by file.
-/
namespace Verif.RingLog
open Verif Verif.Spec Verif.Bit Verif.Delta Verif.Log

variable {TS TD D DD : Type}

/-- a file of the ring: its content, and what reading it gives at least and at most -/
structure Piece (TS D : Type) where
  content : Bytes
  must : List (Out TS D)
  may : List (Out TS D)

/-- what was read of a file, from its begin to its end -/
def Whole (p : Piece TS D) (o : List (Out TS D)) : Prop := p.must <+: o ∧ o <+: p.may

/-- how far the reader is -/
structure RdInv (c : Cfg TS TD D DD) (sched : Nat → Nat) (ps : List (Piece TS D)) (r : Reader TS D) (outs : List (Out TS D)) : Prop where
  st : ∃ (dn cc rest : List (Piece TS D)) (dl : List (List (Out TS D))), ps = dn ++ cc ++ rest ∧ r.rest = rest.map (·.content) ∧ List.Forall₂ Whole dn dl ∧
    match r.cur with
    | none => cc = [] ∧ outs = dl.flatten
    | some l => ∃ (p : Piece TS D) (lo : List (Out TS D)), cc = [p] ∧ ReadRun c sched p.content l lo ∧ outs = dl.flatten ++ lo

theorem RdInv.init {c : Cfg TS TD D DD} {sched : Nat → Nat} {ps : List (Piece TS D)} : RdInv c sched ps (Reader.new c (ps.map (·.content))) [] := by
  cases ps with
  | nil => exact ⟨[], [], [], [], rfl, rfl, .nil, rfl, rfl⟩
  | cons p ps => exact ⟨[], [p], ps, [], rfl, rfl, .nil, p, [], rfl, .new, rfl⟩

theorem RdInv.advance {c : Cfg TS TD D DD} {sched : Nat → Nat} {ps : List (Piece TS D)} {r : Reader TS D} {outs : List (Out TS D)} (h : RdInv c sched ps r outs) :
    RdInv c sched ps (r.advance c) outs := by
  obtain ⟨dn, cc, rest, dl, h1, h2, h3, h4⟩ := h.st
  obtain ⟨rr, rc⟩ := r
  simp only at h2 h4
  subst h2
  cases rc with
  | some l => exact ⟨dn, cc, rest, dl, h1, rfl, h3, h4⟩
  | none =>
    cases rest with
    | nil => exact ⟨dn, cc, [], dl, h1, rfl, h3, h4⟩
    | cons p rest =>
      obtain ⟨rfl, rfl⟩ := h4
      exact ⟨dn, [p], rest, dl, by simp [h1], rfl, h3, p, [], rfl, .new, by simp⟩

/-- one round -/
theorem RdInv.inner {c : Cfg TS TD D DD} {sched : Nat → Nat} {ps : List (Piece TS D)} {r : Reader TS D} {outs : List (Out TS D)} (hp : ∀ p ∈ ps, LogReads c p.content p.must p.may)
    (h : RdInv c sched ps r outs) :
    (∃ r', r.innerRead c sched = some (.eof, r') ∧ ∃ dl, List.Forall₂ Whole ps dl ∧ outs = dl.flatten) ∨
    (∃ o r', r.innerRead c sched = some (.data o, r') ∧ RdInv c sched ps r' (outs ++ [o])) ∨
    (∃ r', r.innerRead c sched = some (.tryAgain, r') ∧ RdInv c sched ps r' outs ∧ r'.cur = none ∧ r'.rest = (r.advance c).rest) := by
  have hcn : (r.advance c).cur = none → (r.advance c).rest = [] := by
    obtain ⟨rr, rc⟩ := r
    cases rc <;> cases rr <;> simp [Reader.advance]
  obtain ⟨dn, cc, rest, dl, h1, h2, h3, h4⟩ := h.advance.st
  unfold Reader.innerRead
  cases hc : (r.advance c).cur with
  | none =>
    rw [hc] at h4
    obtain ⟨rfl, rfl⟩ := h4
    rw [hcn hc] at h2
    cases rest with
    | cons _ _ => simp at h2
    | nil =>
      left
      refine ⟨_, rfl, dl, ?_, rfl⟩
      rw [h1, List.append_nil, List.append_nil]; exact h3
  | some l =>
    rw [hc] at h4
    obtain ⟨p, lo, rfl, h5, rfl⟩ := h4
    obtain ⟨k1, ⟨x, l'⟩, k2, k3⟩ := hp p (by rw [h1]; simp) sched l lo h5
    simp only
    rw [k2]
    right
    cases x with
    | some o => exact .inl ⟨o, _, rfl, dn, [p], rest, dl, h1, h2, h3, p, lo ++ [o], rfl, h5.next k2, by simp⟩
    | none =>
      refine .inr ⟨_, rfl, ⟨dn ++ [p], [], rest, dl ++ [lo], by simp [h1], h2, List.rel_append h3 (.cons ⟨k3 rfl, k1⟩ .nil), rfl, by simp⟩, rfl, rfl⟩

theorem advance_rest (c : Cfg TS TD D DD) (r : Reader TS D) : (r.advance c).rest.length ≤ r.rest.length ∧ (r.cur = none → r.rest ≠ [] → (r.advance c).rest.length < r.rest.length) ∧
    (r.cur = none → r.rest = [] → (r.advance c).cur = none) := by
  obtain ⟨rr, rc⟩ := r
  cases rc <;> cases rr <;> simp [Reader.advance]

/-- the rounds of one `read` -/
theorem RdInv.loop {c : Cfg TS TD D DD} {sched : Nat → Nat} {ps : List (Piece TS D)} (hp : ∀ p ∈ ps, LogReads c p.content p.must p.may) :
    ∀ (n : Nat) {r : Reader TS D} {outs : List (Out TS D)}, RdInv c sched ps r outs → r.rest.length + (if r.cur.isSome then 1 else 0) < n →
    (∃ r', Reader.loop c sched n r = some (none, r') ∧ ∃ dl, List.Forall₂ Whole ps dl ∧ outs = dl.flatten) ∨
    (∃ o r', Reader.loop c sched n r = some (some o, r') ∧ RdInv c sched ps r' (outs ++ [o]))
  | 0, _, _, _, h => absurd h (by omega)
  | n + 1, r, outs, h, hn => by
    unfold Reader.loop
    rcases h.inner hp with ⟨r', e, q⟩ | ⟨o, r', e, q⟩ | ⟨r', e, q, q2, q3⟩
    · rw [e]; exact .inl ⟨r', rfl, q⟩
    · rw [e]; exact .inr ⟨o, r', rfl, q⟩
    · rw [e]
      have hm : r'.rest.length + (if r'.cur.isSome then 1 else 0) < n := by
        rw [q2, q3]
        obtain ⟨a1, a2, a3⟩ := advance_rest c r
        cases hc : r.cur with
        | some l => rw [hc] at hn; simp at hn ⊢; omega
        | none =>
          rw [hc] at hn
          simp at hn ⊢
          by_cases hr : r.rest = []
          · exfalso
            have := a3 hc hr
            unfold Reader.innerRead at e
            rw [this] at e
            simp at e
          · have := a2 hc hr; omega
      exact RdInv.loop hp n q hm

/-- reading all files -/
theorem ring_reads {c : Cfg TS TD D DD} {sched : Nat → Nat} {ps : List (Piece TS D)} (hp : ∀ p ∈ ps, LogReads c p.content p.must p.may) {r : Reader TS D} {outs : List (Out TS D)}
    (h : RingReads c sched (ps.map (·.content)) r outs) : RdInv c sched ps r outs := by
  induction h with
  | new => exact .init
  | @next r r' outs o hr h ih =>
    unfold Reader.read at h
    rcases RdInv.loop hp (r.rest.length + 2) ih (by split <;> omega) with ⟨r2, e, _⟩ | ⟨o2, r2, e, q⟩
    · rw [e] at h; simp at h
    · rw [e] at h
      simp only [Option.some.injEq, Prod.mk.injEq] at h
      obtain ⟨rfl, rfl⟩ := h
      exact q

/-- … and what the reader says next -/
theorem ring_next {c : Cfg TS TD D DD} {sched : Nat → Nat} {ps : List (Piece TS D)} (hp : ∀ p ∈ ps, LogReads c p.content p.must p.may) {r : Reader TS D} {outs : List (Out TS D)}
    (h : RingReads c sched (ps.map (·.content)) r outs) : ∃ x, r.read c sched = some x ∧ (x.1 = none → ∃ dl, List.Forall₂ Whole ps dl ∧ outs = dl.flatten) := by
  unfold Reader.read
  rcases RdInv.loop hp (r.rest.length + 2) (ring_reads hp h) (by split <;> omega) with ⟨r2, e, q⟩ | ⟨o2, r2, e, q⟩
  · exact ⟨_, e, fun _ => q⟩
  · exact ⟨_, e, fun hx => by simp at hx⟩

end Verif.RingLog
