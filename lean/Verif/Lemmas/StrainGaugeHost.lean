import Verif.Lemmas.StrainGaugeRun
import Verif.Props.Tagged
import Mathlib.Data.List.Forall2
/-
Lemmas for C92: storing the readings, and the tables on the host.
-/
namespace Verif.SG
open Verif Verif.Spec Verif.Tagged Verif.Lut

variable {F S T : Type}

theorem stored_append : ∀ (l m : List (Rec T)), stored (l ++ m) = stored l ++ stored m
  | [], _ => rfl
  | .reading r :: l, m => by simp [stored, stored_append l m]
  | .sync b u :: l, m => by simp [stored, stored_append l m]

theorem stored_owed (s : Store T) : stored s.owed.1 = [] := by
  unfold Store.owed
  split
  · split <;> rfl
  · rfl

theorem step_stored (s : Store T) (ev : Ev T) : (segments (s.step ev)).flatMap stored = (segments s).flatMap stored ++ arrived [ev] := by
  cases ev with
  | unix b u => simp [Store.step, segments, arrived]
  | reading r => simp [Store.step, segments, arrived, stored_append, stored_owed, stored]
  | replaceWriter =>
    simp only [Store.step]
    split <;> simp [segments, arrived, stored]
  | finishSegment =>
    simp only [Store.step]
    split <;> simp [segments, arrived]

theorem arrived_append : ∀ (l m : List (Ev T)), arrived (l ++ m) = arrived l ++ arrived m
  | [], _ => rfl
  | .reading r :: l, m => by simp [arrived, arrived_append l m]
  | .unix b u :: l, m => by simp [arrived, arrived_append l m]
  | .replaceWriter :: l, m => by simp [arrived, arrived_append l m]
  | .finishSegment :: l, m => by simp [arrived, arrived_append l m]

theorem run_stored : ∀ (evs : List (Ev T)) (s : Store T), (segments (s.run evs)).flatMap stored = (segments s).flatMap stored ++ arrived evs
  | [], s => by simp [Store.run, arrived]
  | ev :: evs, s => by
    have := run_stored evs (s.step ev)
    rw [step_stored] at this
    rw [show ev :: evs = [ev] ++ evs from rfl, arrived_append, ← List.append_assoc]
    exact this

theorem newestSync_append : ∀ (l m : List (Ev T)), newestSync (l ++ m) = (newestSync m).or (newestSync l)
  | [], m => by simp [newestSync]
  | .unix b u :: l, m => by simp [newestSync, newestSync_append l m, Option.or_assoc]
  | .reading _ :: l, m => by simp [newestSync, newestSync_append l m]
  | .replaceWriter :: l, m => by simp [newestSync, newestSync_append l m]
  | .finishSegment :: l, m => by simp [newestSync, newestSync_append l m]

/-- the store's flags after some events -/
structure SInv (evs : List (Ev T)) (s : Store T) : Prop where
  unix : s.unix.map Prod.fst = newestSync evs
  there : ∀ u, s.unix = some (u, false) → s.rotating = false → s.newSegment = false → .sync u.1 u.2 ∈ s.current

theorem step_inv {evs : List (Ev T)} {s : Store T} (h : SInv evs s) (ev : Ev T) : SInv (evs ++ [ev]) (s.step ev) := by
  cases ev with
  | unix b u => exact ⟨by simp [Store.step, newestSync_append, newestSync], fun _ h => absurd h (by simp [Store.step])⟩
  | reading r =>
    have hu := h.unix
    refine ⟨?_, fun u h1 h2 _ => ?_⟩
    · rw [newestSync_append]
      simp only [Store.step, newestSync, Option.none_or]
      unfold Store.owed
      cases hx : s.unix with
      | none => rw [hx] at hu; simpa using hu
      | some p => obtain ⟨u, f⟩ := p; rw [hx] at hu; simp only []; split <;> simpa using hu
    · simp only [Store.step] at h1 h2 ⊢
      have ht := h.there
      rw [List.mem_append, List.mem_append]
      left
      unfold Store.owed at h1 ⊢
      cases hx : s.unix with
      | none => rw [hx] at h1; exact absurd h1 (by simp)
      | some p =>
        obtain ⟨v, f⟩ := p
        rw [hx] at h1 ht
        simp only at h1 ⊢
        split at h1
        · rename_i hc
          rw [if_pos hc]
          simp only [Option.some.injEq, Prod.mk.injEq, and_true] at h1
          subst h1
          exact .inr (by simp)
        · rename_i hc
          simp only [Option.some.injEq, Prod.mk.injEq] at h1
          obtain ⟨rfl, rfl⟩ := h1
          simp only [Bool.or_false] at hc
          exact .inl (ht v rfl h2 (by simpa using hc))
  | replaceWriter =>
    refine ⟨?_, fun u h1 h2 h3 => ?_⟩
    · rw [newestSync_append]
      simp only [Store.step, newestSync, Option.none_or]
      split <;> exact h.unix
    · simp only [Store.step] at h1 h2 h3 ⊢
      split at h1
      · rename_i hc
        rw [if_pos hc] at h2 h3 ⊢
        exact h.there u h1 h2 h3
      · rename_i hc
        rw [if_neg hc] at h2
        exact absurd h2 (by simp)
  | finishSegment =>
    refine ⟨?_, fun u h1 h2 h3 => ?_⟩
    · rw [newestSync_append]
      simp only [Store.step, newestSync, Option.none_or]
      split <;> exact h.unix
    · simp only [Store.step] at h1 h2 h3 ⊢
      split at h1
      · rename_i hc
        rw [if_pos hc] at h3
        exact absurd h3 (by simp)
      · rename_i hc
        rw [if_neg hc] at h2 h3 ⊢
        exact h.there u h1 h2 h3

theorem run_inv_from : ∀ (evs pre : List (Ev T)) (s : Store T), SInv pre s → SInv (pre ++ evs) (s.run evs)
  | [], pre, s, h => by simpa [Store.run] using h
  | ev :: evs, pre, s, h => by
    have := run_inv_from evs (pre ++ [ev]) (s.step ev) (step_inv h ev)
    simpa [Store.run] using this

theorem run_inv (evs : List (Ev T)) : SInv evs ((Store.new T).run evs) :=
  run_inv_from evs [] _ ⟨rfl, fun u h => absurd h (by simp [Store.new])⟩

/-- the number of records that are completely within the first `cut` bytes -/
def whole {α : Type} (e : Enum α) : Nat → List α → Nat
  | _, [] => 0
  | cut, v :: vs => if (e.bytes v).length ≤ cut then 1 + whole e (cut - (e.bytes v).length) vs else 0

theorem readRecs_spec {α : Type} {e : Enum α} (he : e.Ok) (sched : Nat → Nat) : ∀ (vs : List α) (cut fuel : Nat) (s : Src) (got : List α), vs.length < fuel →
    s.data = (vs.flatMap e.bytes).take cut → readRecs e sched fuel s got = some (got ++ vs.take (whole e cut vs))
  | _, _, 0, _, _, h, _ => absurd h (by simp)
  | [], cut, fuel + 1, s, got, _, hs => by
    have hd : s.data = [] := by rw [hs]; simp
    have : ∃ s', e.readNext sched s = some (none, s') := by
      unfold Enum.readNext
      rw [if_neg (by have := he.pos; omega)]
      obtain ⟨t, ht⟩ := readExact_eq sched 1 s
      rw [ht, hd, if_neg (by simp)]
      exact ⟨_, rfl⟩
    obtain ⟨s', h'⟩ := this
    unfold readRecs
    rw [h']; simp [whole]
  | v :: vs, cut, fuel + 1, s, got, hf, hs => by
    rw [List.length_cons] at hf
    rw [List.flatMap_cons] at hs
    unfold readRecs
    by_cases hc : (e.bytes v).length ≤ cut
    · rw [List.take_append, List.take_of_length_le hc] at hs
      obtain ⟨t, ht⟩ := readNext_record he sched v _ s hs
      rw [ht]
      simp only []
      rw [readRecs_spec he sched vs (cut - (e.bytes v).length) fuel _ _ (by omega) rfl]
      simp [whole, if_pos hc, Nat.add_comm 1]
    · rw [List.take_append_of_le_length (by omega)] at hs
      obtain ⟨s', ht⟩ := readNext_cut he sched v cut s hs (by omega)
      rw [ht]
      simp [whole, if_neg hc]

theorem whole_le {α : Type} (e : Enum α) : ∀ (vs : List α) (cut : Nat), whole e cut vs ≤ vs.length
  | [], _ => by simp [whole]
  | v :: vs, cut => by
    unfold whole
    split
    · have := whole_le e vs (cut - (e.bytes v).length)
      rw [List.length_cons]; omega
    · omega

theorem whole_fits {α : Type} (e : Enum α) : ∀ (vs : List α) (cut : Nat), ((vs.take (whole e cut vs)).flatMap e.bytes).length ≤ cut ∧
    (whole e cut vs < vs.length → cut < ((vs.take (whole e cut vs + 1)).flatMap e.bytes).length)
  | [], _ => by simp [whole]
  | v :: vs, cut => by
    have ih := whole_fits e vs (cut - (e.bytes v).length)
    unfold whole
    split
    · rename_i hc
      rw [show 1 + whole e (cut - (e.bytes v).length) vs = whole e (cut - (e.bytes v).length) vs + 1 by omega]
      simp only [List.take_succ_cons, List.flatMap_cons, List.length_append, List.length_cons]
      exact ⟨by omega, fun h => by have := ih.2 (by omega); omega⟩
    · rename_i hc
      simp only [List.take_zero, List.flatMap_nil, List.length_nil, Nat.zero_add, List.take_succ_cons, List.flatMap_cons, List.length_append]
      exact ⟨by omega, fun _ => by omega⟩

theorem whole_all {α : Type} (e : Enum α) : ∀ (vs : List α) (cut : Nat), (vs.flatMap e.bytes).length ≤ cut → whole e cut vs = vs.length
  | [], _, _ => rfl
  | v :: vs, cut, h => by
    rw [List.flatMap_cons, List.length_append] at h
    unfold whole
    rw [if_pos (by omega), whole_all e vs _ (by omega), List.length_cons]; omega

theorem fileOf_iff {e : Enum (Rec T)} (he : e.Ok) (recs : List (Rec T)) (b : Bytes) : FileOf e recs b ↔ b = recs.flatMap e.bytes := by
  obtain ⟨w, h1, h2⟩ := writeAll_ok he recs (w := Writer.new e) (by simp [Writer.new])
  have h2' : w.sink = recs.flatMap e.bytes := by rw [h2]; simp [Writer.new]
  constructor
  · rintro ⟨w', h3, rfl⟩
    rw [h1] at h3; injection h3 with h3; subst h3; exact h2'
  · rintro rfl; exact ⟨w, h1, h2'⟩

theorem filterMap_stored (env : Env T) (lut : List Point) : ∀ (l : List (Rec T)),
    l.filterMap (Rec.stamped env lut) = (stored l).map fun r => (r, convert lut (env.num r.start) (env.search lut (env.num r.start)))
  | [] => rfl
  | .reading r :: l => by simp [stored, Rec.stamped, filterMap_stored env lut l]
  | .sync _ _ :: l => by rw [List.filterMap_cons_none rfl, filterMap_stored env lut l]; rfl

theorem filterMap_syncs (env : Env T) : ∀ (l : List (Rec T)), l.filterMap (Rec.point env) = storedSyncs env l
  | [] => rfl
  | .reading r :: l => by rw [List.filterMap_cons_none rfl, filterMap_syncs env l]; rfl
  | .sync _ _ :: l => by simp [storedSyncs, Rec.point, filterMap_syncs env l]

/-- the unix timestamp of a reading, from the time syncs of its file -/
def stampOf (env : Env T) (recs : List (Rec T)) (r : Reading T) : Result :=
  convert (sort (storedSyncs env recs)) (env.num r.start) (env.search (sort (storedSyncs env recs)) (env.num r.start))

theorem parseSg_cut {e : Enum (Rec T)} (he : e.Ok) (env : Env T) (sched1 sched2 : Nat → Nat) (fuel cut : Nat) (recs : List (Rec T)) (hf : recs.length < fuel) :
    parseSg e env sched1 sched2 fuel ((recs.flatMap e.bytes).take cut) =
      some ((stored (recs.take (whole e cut recs))).map fun r => (r, stampOf env (recs.take (whole e cut recs)) r)) := by
  unfold parseSg
  rw [readRecs_spec he sched1 recs cut fuel _ [] hf rfl, readRecs_spec he sched2 recs cut fuel _ [] hf rfl]
  simp only [List.nil_append]
  rw [filterMap_syncs]
  rw [filterMap_stored]
  rfl

theorem parseSg_full {e : Enum (Rec T)} (he : e.Ok) (env : Env T) (sched1 sched2 : Nat → Nat) (fuel : Nat) (recs : List (Rec T)) (hf : recs.length < fuel) :
    parseSg e env sched1 sched2 fuel (recs.flatMap e.bytes) = some ((stored recs).map fun r => (r, stampOf env recs r)) := by
  have := parseSg_cut he env sched1 sched2 fuel (recs.flatMap e.bytes).length recs hf
  rw [List.take_length, whole_all e recs _ (Nat.le_refl _), List.take_length] at this
  exact this

theorem route_spec (a : Arith F S) (env : Env T) : ∀ (rs : List (Reading T × Result)) (tables : List (List (Row F))), tables.length = 4 → (∀ p ∈ rs, p.1.sg.toNat < 4) →
    ∃ out, route a env rs tables = some out ∧ out.length = 4 ∧ ∀ c t, tables[c]? = some t → out[c]? = some (t ++ (rs.filter fun p => p.1.sg.toNat == c).flatMap fun p => csvRows a env p.1 p.2)
  | [], tables, h, _ => ⟨tables, rfl, h, fun c t ht => by simp [ht]⟩
  | (r, u) :: rs, tables, h, hs => by
    have hr : r.sg.toNat < 4 := hs (r, u) List.mem_cons_self
    obtain ⟨out, h1, h2, h3⟩ := route_spec a env rs (tables.modify r.sg.toNat fun t => t ++ csvRows a env r u) (by simp [h]) fun p hp => hs p (List.mem_cons_of_mem _ hp)
    refine ⟨out, ?_, h2, fun c t ht => ?_⟩
    · unfold route
      rw [if_pos (by rw [h]; exact hr)]; exact h1
    · by_cases hc : r.sg.toNat = c
      · have := h3 c (t ++ csvRows a env r u) (by rw [List.getElem?_modify, ht]; simp [hc])
        rw [this, List.filter_cons_of_pos (by simpa using hc), List.flatMap_cons]
        simp
      · have := h3 c t (by rw [List.getElem?_modify, ht]; simp [hc])
        rw [this, List.filter_cons_of_neg (by simpa using hc)]

/-- the rows of a file for one channel -/
def fileRows (a : Arith F S) (env : Env T) (c : Nat) (recs : List (Rec T)) : List (Row F) :=
  ((stored recs).filter fun r => r.sg.toNat == c).flatMap fun r => csvRows a env r (stampOf env recs r)

theorem fileLoop_spec (a : Arith F S) {e : Enum (Rec T)} (he : e.Ok) (env : Env T) (sched1 sched2 : Nat → Nat) (fuel : Nat) : ∀ (segs : List (List (Rec T))) (files : List Bytes)
    (tables : List (List (Row F))), tables.length = 4 → List.Forall₂ (FileOf e) segs files → (∀ seg ∈ segs, seg.length < fuel) → (∀ seg ∈ segs, ∀ r ∈ stored seg, r.sg.toNat < 4) →
    ∃ out, fileLoop a e env sched1 sched2 fuel files tables = some out ∧ out.length = 4 ∧ ∀ c t, tables[c]? = some t → out[c]? = some (t ++ segs.flatMap (fileRows a env c))
  | [], [], tables, h, _, _, _ => ⟨tables, rfl, h, fun c t ht => by simp [ht]⟩
  | [], _ :: _, _, _, hf, _, _ => nomatch hf
  | _ :: _, [], _, _, hf, _, _ => nomatch hf
  | seg :: segs, b :: files, tables, h, hf, hl, hs => by
    cases hf with
    | cons h0 hf =>
      rw [fileOf_iff he] at h0
      subst h0
      obtain ⟨out1, a1, a2, a3⟩ := route_spec a env ((stored seg).map fun r => (r, stampOf env seg r)) tables h
        (by
          intro p hp
          obtain ⟨r, hr, rfl⟩ := List.mem_map.mp hp
          exact hs seg List.mem_cons_self r hr)
      obtain ⟨out, b1, b2, b3⟩ := fileLoop_spec a he env sched1 sched2 fuel segs files out1 a2 hf (fun s hs => hl s (List.mem_cons_of_mem _ hs)) (fun s hs' => hs s (List.mem_cons_of_mem _ hs'))
      refine ⟨out, ?_, b2, fun c t ht => ?_⟩
      · unfold fileLoop
        rw [parseSg_full he env sched1 sched2 fuel seg (hl seg List.mem_cons_self)]
        simp only [a1]; exact b1
      · rw [b3 c _ (a3 c t ht), List.flatMap_cons, List.append_assoc]
        congr 3
        rw [fileRows, List.filter_map, List.flatMap_map]
        rfl

theorem filter_pick {β : Type} (p : β → Bool) (c0 : Nat) (hc0 : c0 < 4) : ∀ (n : Nat) (l : List β), l.length = 4 * n → (∀ b c r, c < 4 → l[4 * b + c]? = some r → p r = (c == c0)) →
    (l.filter p).length = n ∧ ∀ b, (l.filter p)[b]? = l[4 * b + c0]?
  | 0, l, h, _ => by
    have : l = [] := List.length_eq_zero_iff.mp (by omega)
    subst this; simp
  | n + 1, l, h, hp => by
    match l, h with
    | x0 :: x1 :: x2 :: x3 :: l, h =>
      have h0 := hp 0 0 x0 (by omega) rfl
      have h1 := hp 0 1 x1 (by omega) rfl
      have h2 := hp 0 2 x2 (by omega) rfl
      have h3 := hp 0 3 x3 (by omega) rfl
      obtain ⟨i1, i2⟩ := filter_pick p c0 hc0 n l (by simp only [List.length_cons] at h; omega)
        (fun b c r hc hr => hp (b + 1) c r hc (by rw [show 4 * (b + 1) + c = 4 * b + c + 4 by omega]; simpa using hr))
      have hl : ∀ b, (x0 :: x1 :: x2 :: x3 :: l)[4 * (b + 1) + c0]? = l[4 * b + c0]? := fun b => by
        rw [show 4 * (b + 1) + c0 = 4 * b + c0 + 4 by omega]; simp
      have hcase : c0 = 0 ∨ c0 = 1 ∨ c0 = 2 ∨ c0 = 3 := by omega
      rcases hcase with rfl | rfl | rfl | rfl <;>
        (simp only [List.filter_cons, h0, h1, h2, h3]
         refine ⟨by simp [i1], fun b => ?_⟩
         cases b with
         | zero => simp
         | succ b => rw [hl b, ← i2 b]; simp)

theorem flat40 {β γ : Type} (f : β → List γ) (hf : ∀ r, (f r).length = 40) : ∀ (l : List β), (l.flatMap f).length = 40 * l.length ∧ ∀ j r, l[j / 40]? = some r → (l.flatMap f)[j]? = (f r)[j % 40]?
  | [] => ⟨rfl, fun j r h => absurd h (by simp)⟩
  | x :: l => by
    obtain ⟨h1, h2⟩ := flat40 f hf l
    refine ⟨by rw [List.flatMap_cons, List.length_append, h1, hf, List.length_cons]; omega, fun j r hj => ?_⟩
    rw [List.flatMap_cons]
    by_cases hlt : j < 40
    · rw [List.getElem?_append_left (by rw [hf]; exact hlt)]
      rw [show j / 40 = 0 by omega, List.getElem?_cons_zero] at hj
      injection hj with hj
      rw [hj, Nat.mod_eq_of_lt hlt]
    · rw [List.getElem?_append_right (by rw [hf]; omega), hf]
      rw [show j / 40 = (j - 40) / 40 + 1 by omega, List.getElem?_cons_succ] at hj
      rw [h2 (j - 40) r hj]
      congr 1
      omega

end Verif.SG
