import Verif.Model.Resampler2D
import Verif.Props.Resampler
import Mathlib.Tactic.Ring
import Mathlib.Tactic.NormNum
/-
C112: the time axis of the spectrogram.
-/
namespace Verif.Props
open Verif Ozys

/-- column `i` of the spectrogram: the history of one cell -/
def column (i : Nat) (rows : List (List Rat)) : List Rat := rows.map fun row => row.getD i 0

theorem emitRows_map {α β : Type} (start source target offset lo hi : Rat) (g : Rat → α) (f : α → β) (n : Nat) : ∀ i : Nat, (⌊(hi - offset) / target⌋ + 1 - i).toNat = n →
    emitRows start source target offset lo hi (fun t => f (g t)) i = ((emitRows start source target offset lo hi g i).1.map (fun s => (s.1, f s.2)), (emitRows start source target offset lo hi g i).2) := by
  induction n using Nat.strong_induction_on with
  | _ n ih =>
    intro i hi'
    by_cases h : 0 < target ∧ lo ≤ sampleTime target offset i ∧ sampleTime target offset i ≤ hi
    · rw [emitRows, dif_pos h]
      conv_rhs => rw [emitRows, dif_pos h]
      have hlt : (⌊(hi - offset) / target⌋ + 1 - (i + 1 : Nat)).toNat < n := by
        obtain ⟨h0, _, h2⟩ := h
        have h3 : (i : Rat) ≤ (hi - offset) / target := by
          rw [le_div_iff₀ h0]; unfold sampleTime at h2; linarith
        have : ((i : Int) : Rat) ≤ (hi - offset) / target := by exact_mod_cast h3
        have := Int.le_floor.mpr this
        omega
      simp only [ih _ hlt (i + 1) rfl, List.map_cons]
    · rw [emitRows, dif_neg h]
      conv_rhs => rw [emitRows, dif_neg h]
      rfl

theorem emitRows_all {α : Type} (start source target offset lo hi : Rat) (g : Rat → α) (P : α → Prop) (h : ∀ t, P (g t)) (i : Nat) :
    ∀ s ∈ (emitRows start source target offset lo hi g i).1, P s.2 := by
  have := emitRows_map start source target offset lo hi (fun t => (⟨g t, h t⟩ : { x // P x })) Subtype.val _ i rfl
  rw [show (fun t => Subtype.val (⟨g t, h t⟩ : { x // P x })) = g from rfl] at this
  rw [this]
  intro s hs
  obtain ⟨q, _, rfl⟩ := List.mem_map.mp hs
  exact q.2.2

theorem emit_rows (start source target offset lo hi a b : Rat) (n : Nat) : ∀ i : Nat, (⌊(hi - offset) / target⌋ + 1 - i).toNat = n →
    emit start source target offset lo hi a b i = emitRows start source target offset lo hi (lerp a b) i := by
  induction n using Nat.strong_induction_on with
  | _ n ih =>
    intro i hi'
    by_cases h : 0 < target ∧ lo ≤ sampleTime target offset i ∧ sampleTime target offset i ≤ hi
    · rw [emit, dif_pos h]
      conv_rhs => rw [emitRows, dif_pos h]
      have hlt : (⌊(hi - offset) / target⌋ + 1 - (i + 1 : Nat)).toNat < n := by
        obtain ⟨h0, _, h2⟩ := h
        have h3 : (i : Rat) ≤ (hi - offset) / target := by
          rw [le_div_iff₀ h0]; unfold sampleTime at h2; linarith
        have : ((i : Int) : Rat) ≤ (hi - offset) / target := by exact_mod_cast h3
        have := Int.le_floor.mpr this
        omega
      simp only [ih _ hlt (i + 1) rfl]
    · rw [emit, dif_neg h]
      conv_rhs => rw [emitRows, dif_neg h]

/-- two interpolations that agree on [0, 1] emit the same -/
theorem emitRows_congr {α : Type} (start source target offset lo : Rat) (hs : 0 < source) (g g' : Rat → α) (hg : ∀ t, 0 ≤ t → t ≤ 1 → g t = g' t) (n : Nat) :
    ∀ i : Nat, (⌊(lo + source - offset) / target⌋ + 1 - i).toNat = n → emitRows start source target offset lo (lo + source) g i = emitRows start source target offset lo (lo + source) g' i := by
  induction n using Nat.strong_induction_on with
  | _ n ih =>
    intro i hi'
    by_cases h : 0 < target ∧ lo ≤ sampleTime target offset i ∧ sampleTime target offset i ≤ lo + source
    · rw [emitRows, dif_pos h]
      conv_rhs => rw [emitRows, dif_pos h]
      have hlt : (⌊(lo + source - offset) / target⌋ + 1 - (i + 1 : Nat)).toNat < n := by
        obtain ⟨h0, _, h2⟩ := h
        have h3 : (i : Rat) ≤ (lo + source - offset) / target := by
          rw [le_div_iff₀ h0]; unfold sampleTime at h2; linarith
        have : ((i : Int) : Rat) ≤ (lo + source - offset) / target := by exact_mod_cast h3
        have := Int.le_floor.mpr this
        omega
      simp only [ih _ hlt (i + 1) rfl]
      rw [hg _ (div_nonneg (by linarith [h.2.1]) hs.le) (by rw [div_le_one hs]; linarith [h.2.2])]
    · rw [emitRows, dif_neg h]
      conv_rhs => rw [emitRows, dif_neg h]

theorem processRow_length {σ : Type} (p : Filter σ) : ∀ (fs : List σ) (xs : List Rat), fs.length = xs.length → (processRow p fs xs).length = xs.length := by
  intro fs
  induction fs with
  | nil => intro xs h; cases xs <;> simp_all [processRow]
  | cons f fs ih =>
    intro xs h
    cases xs with
    | nil => simp at h
    | cons x xs => simp only [processRow, List.length_cons]; rw [ih xs (by simpa using h)]

theorem processRow_get {σ : Type} (p : Filter σ) : ∀ (fs : List σ) (xs : List Rat) (i : Nat) (f : σ), fs.length = xs.length → fs[i]? = some f →
    (processRow p fs xs)[i]? = some (p.process f (xs.getD i 0)) := by
  intro fs
  induction fs with
  | nil => intro xs i f h hf; simp at hf
  | cons g fs ih =>
    intro xs i f h hf
    cases xs with
    | nil => simp at h
    | cons x xs =>
      cases i with
      | zero => simp at hf; subst hf; simp [processRow]
      | succ i =>
        have := ih xs i f (by simpa using h) (by simpa using hf)
        simpa [processRow] using this

theorem settleRow_spec {σ : Type} (p : Filter σ) (fuel : Nat) : ∀ (fs : List (Rat × σ)) (xs : List Rat) (s : List (Rat × σ)), fs.length = xs.length → settleRow p fuel fs xs = some s →
    s.length = xs.length ∧ ∀ i f, fs[i]? = some f → ∃ a, s[i]? = some a ∧ settle p (xs.getD i 0) fuel f.1 f.2 = some a := by
  intro fs
  induction fs with
  | nil =>
    intro xs s h hs
    cases xs with
    | nil => simp [settleRow] at hs; subst hs; simp
    | cons x xs => simp at h
  | cons g fs ih =>
    intro xs s h hs
    cases xs with
    | nil => simp at h
    | cons x xs =>
      unfold settleRow at hs
      obtain ⟨a, ha, hs⟩ := Option.bind_eq_some_iff.mp hs
      obtain ⟨r, hr, rfl⟩ := Option.map_eq_some_iff.mp hs
      obtain ⟨h1, h2⟩ := ih xs r (by simpa using h) hr
      refine ⟨by simp [h1], fun i f hf => ?_⟩
      cases i with
      | zero => simp at hf; subst hf; exact ⟨a, by simp, by simpa using ha⟩
      | succ i =>
        obtain ⟨b, hb1, hb2⟩ := h2 i f (by simpa using hf)
        exact ⟨b, by simpa using hb1, by simpa using hb2⟩

/-- the state of one cell of the resampler -/
def cell {σ : Type} (i : Nat) (r : Resampler2 σ) (f : σ) : Resampler σ := ⟨f, r.start, r.source, r.target, r.offset, r.sourceI, r.sampleI, r.last.map (·.getD i 0)⟩

theorem next_column {σ : Type} (p : Filter σ) (fuel w i : Nat) (hi : i < w) (r r' : Resampler2 σ) (f : σ) (row : List Rat) (outs : List (Rat × List Rat)) (hlin : r.linear = true) (hrow : row.length = w)
    (hw : r.filters.length = w) (hl : ∀ l, r.last = some l → l.length = w) (hf : r.filters[i]? = some f) (h : r.next p fuel row = some (outs, r')) :
    r'.linear = true ∧ r'.filters.length = w ∧ (∀ l, r'.last = some l → l.length = w) ∧ (∀ s ∈ outs, s.2.length = w) ∧
    ∃ f', r'.filters[i]? = some f' ∧ (cell i r f).next p fuel (row.getD i 0) = some (outs.map (fun s => (s.1, s.2.getD i 0)), cell i r' f') := by
  have hpl := processRow_length p r.filters row (by omega)
  have hpg := processRow_get p r.filters row i f (by omega) hf
  unfold Resampler2.next at h
  cases hlast : r.last with
  | none =>
    simp only [hlast] at h
    obtain ⟨s, hs, he⟩ := Option.map_eq_some_iff.mp h
    cases he
    obtain ⟨s1, s2⟩ := settleRow_spec p fuel _ _ _ hpl hs
    obtain ⟨a, ha, hse⟩ := s2 i _ hpg
    refine ⟨hlin, by simp [s1, hrow], by intro l hl'; cases hl'; simp [s1, hrow], by simp, a.2, by simp [ha], ?_⟩
    unfold Resampler.next cell
    simp only [hlast, Option.map_none]
    rw [hse]
    simp [ha]
  | some l =>
    simp only [hlast] at h
    cases h
    have hll := hl l hlast
    refine ⟨hlin, by simp [hpl, hrow], by intro l hl'; cases hl'; simp [hpl, hrow], ?_, (p.process f (row.getD i 0)).2, by simp [hpg], ?_⟩
    · exact emitRows_all _ _ _ _ _ _ _ (fun v : List Rat => v.length = w) (by intro t; unfold interpolate; rw [hlin]; simp [hll, hpl, hrow]) _
    · unfold Resampler.next cell
      simp only [hlast, Option.map_some]
      rw [emit_rows _ _ _ _ _ _ _ _ _ _ rfl]
      have := emitRows_map r.start r.source r.target r.offset (((r.sourceI : Rat) - 1) * r.source) (((r.sourceI : Rat) - 1) * r.source + r.source) (interpolate r.linear l ((processRow p r.filters row).map (·.1))) (fun v => v.getD i 0) _ r.sampleI rfl
      have e : (fun t => (interpolate r.linear l ((processRow p r.filters row).map (·.1)) t).getD i 0) = lerp (l.getD i 0) (p.process f (row.getD i 0)).1 := by
        funext t; unfold interpolate; rw [hlin]
        rw [if_pos rfl, List.getD_eq_getElem?_getD, List.getElem?_zipWith, List.getElem?_map, hpg, List.getD_eq_getElem?_getD (l := l), List.getElem?_eq_getElem (show i < l.length by omega)]
        rfl
      rw [e] at this
      rw [this]
      simp [hpg]

theorem feed_column {σ : Type} (p : Filter σ) (fuel w i : Nat) (hi : i < w) : ∀ (rows : List (List Rat)) (r r' : Resampler2 σ) (f : σ) (outs : List (Rat × List Rat)), r.linear = true →
    (∀ row ∈ rows, row.length = w) → r.filters.length = w → (∀ l, r.last = some l → l.length = w) → r.filters[i]? = some f → r.feed p fuel rows = some (outs, r') →
    (∀ s ∈ outs, s.2.length = w) ∧ ∃ f', (cell i r f).feed p fuel (column i rows) = some (outs.map (fun s => (s.1, s.2.getD i 0)), cell i r' f') := by
  intro rows
  induction rows with
  | nil =>
    intro r r' f outs _ _ _ _ _ h
    cases h
    exact ⟨by simp, f, rfl⟩
  | cons row rows ih =>
    intro r r' f outs hlin hrows hw hl hf h
    unfold Resampler2.feed at h
    obtain ⟨⟨o1, r1⟩, h1, h⟩ := Option.bind_eq_some_iff.mp h
    obtain ⟨⟨o2, r2⟩, h2, he⟩ := Option.map_eq_some_iff.mp h
    cases he
    obtain ⟨n1, n2, n3, n4, f', n5, n6⟩ := next_column p fuel w i hi r r1 f row o1 hlin (hrows row (by simp)) hw hl hf h1
    obtain ⟨m1, f2, m2⟩ := ih r1 _ f' o2 n1 (fun x hx => hrows x (by simp [hx])) n2 n3 n5 h2
    refine ⟨?_, f2, ?_⟩
    · intro s hs
      rcases List.mem_append.mp hs with hs | hs
      · exact n4 s hs
      · exact m1 s hs
    · show (((cell i r f).next p fuel (row.getD i 0)).bind _) = _
      rw [n6]
      simp only [Option.bind_some]
      show Option.map _ ((cell i r1 f').feed p fuel (column i rows)) = _
      rw [m2]
      simp

/-- **C112.** Slower than the source (linear interpolation): every row emitted has the width of the axis, and each of its cells is what the one-dimensional resampler (C104) makes of the history of this cell,
at the same times. No cell influences another one. -/
theorem C112_column {σ : Type} (p : Filter σ) (fuel w : Nat) (f0 : σ) (start sourceRate targetRate offset : Rat) (hlin : targetRate < sourceRate) (rows : List (List Rat)) (hrows : ∀ row ∈ rows, row.length = w)
    (outs : List (Rat × List Rat)) (r' : Resampler2 σ) (h : (Resampler2.new f0 w start sourceRate targetRate offset).feed p fuel rows = some (outs, r')) (i : Nat) (hi : i < w) :
    (∀ s ∈ outs, s.2.length = w) ∧ ∃ r1, (Resampler.new f0 start sourceRate targetRate offset).feed p fuel (column i rows) = some (outs.map (fun s => (s.1, s.2.getD i 0)), r1) := by
  obtain ⟨h1, f', h2⟩ := feed_column p fuel w i hi rows _ r' f0 outs (by simpa [Resampler2.new] using hlin) hrows (by simp [Resampler2.new]) (by intro l hl; cases hl) (by simp [Resampler2.new, hi]) h
  exact ⟨h1, _, h2⟩

/-- the row whose place `x` (in source periods) is nearest, the later one in the middle -/
def nearestRow (rows : List (List Rat)) (x : Rat) : List Rat := rows.getD ⌊x + 1 / 2⌋.toNat []

theorem processRow_noop : ∀ (fs : List Unit) (xs : List Rat), fs.length = xs.length → (processRow noop fs xs).map (·.1) = xs ∧ ((processRow noop fs xs).map (·.2)).length = xs.length := by
  intro fs xs h
  refine ⟨?_, by rw [List.length_map, processRow_length _ _ _ h]⟩
  induction fs generalizing xs with
  | nil => cases xs <;> simp_all [processRow]
  | cons f fs ih =>
    cases xs with
    | nil => simp at h
    | cons x xs => simp only [processRow, List.map_cons, ih xs (by simpa using h)]; rfl

theorem settleRow_noop (fuel : Nat) : ∀ (fs : List Unit) (xs : List Rat), fs.length = xs.length → settleRow noop fuel (processRow noop fs xs) xs = some (processRow noop fs xs) := by
  intro fs
  induction fs with
  | nil => intro xs h; cases xs <;> simp_all [processRow, settleRow]
  | cons f fs ih =>
    intro xs h
    cases xs with
    | nil => simp at h
    | cons x xs =>
      have hu : unsettled x x = false := by
        unfold unsettled
        split
        · rename_i h; simp [h]
        · simp
      have : settle noop x fuel x f = some (x, f) := by
        cases fuel <;> (unfold settle; rw [if_neg (by rw [hu]; simp)])
      have ih' := ih xs (by simpa using h)
      unfold processRow settleRow
      show (settle noop x fuel x f).bind _ = _
      rw [this, Option.bind_some, ih']
      rfl

/-- the nearest-neighbour resampler, after row `n`, beside a one-dimensional resampler that is fed 0, 1, 2, … -/
theorem feed_nearest (fuel w : Nat) (rows : List (List Rat)) (hrows : ∀ row ∈ rows, row.length = w) : ∀ (k n : Nat), n + 1 + k = rows.length → ∀ (r : Resampler2 Unit) (f : Unit), 0 < r.source → r.linear = false →
    r.filters.length = w → r.last = some (rows.getD n []) → r.sourceI = n →
    ∃ o1 r1 r', (⟨f, r.start, r.source, r.target, r.offset, n, r.sampleI, some (n : Rat)⟩ : Resampler Unit).feed noop fuel ((List.range' (n + 1) k).map fun j : Nat => (j : Rat)) = some (o1, r1) ∧
      r.feed noop fuel (rows.drop (n + 1)) = some (o1.map fun s => (s.1, nearestRow rows s.2), r') := by
  intro k
  induction k with
  | zero =>
    intro n hn r f _ _ _ _ _
    rw [List.drop_of_length_le (by omega)]
    exact ⟨[], _, r, rfl, rfl⟩
  | succ k ih =>
    intro n hn r f hs hlin hw hl hsi
    have hlt : n + 1 < rows.length := by omega
    obtain ⟨p1, p2⟩ := processRow_noop r.filters rows[n + 1] (by rw [hw, hrows _ (List.getElem_mem _)])
    rw [List.drop_eq_getElem_cons hlt, List.range'_succ, List.map_cons]
    unfold Resampler2.feed Resampler.feed Resampler2.next Resampler.next
    simp only [hl, Option.bind_some, p1]
    rw [emit_rows _ _ _ _ _ _ _ _ _ _ rfl]
    have hrw := emitRows_map r.start r.source r.target r.offset (((n : Rat) - 1) * r.source) (((n : Rat) - 1) * r.source + r.source) (lerp (n : Rat) (((n + 1 : Nat) : Rat))) (nearestRow rows) _ r.sampleI rfl
    have hcong := emitRows_congr r.start r.source r.target r.offset (((n : Rat) - 1) * r.source) hs (fun t => nearestRow rows (lerp (n : Rat) (((n + 1 : Nat) : Rat)) t)) (interpolate r.linear (rows.getD n []) rows[n + 1]) (by
      intro t h0 h1
      unfold interpolate nearestRow lerp
      rw [hlin, if_neg (by simp)]
      have e : (n : Rat) + t * (((n + 1 : Nat) : Rat) - n) + 1 / 2 = n + (t + 1 / 2) := by push_cast; ring
      rw [e]
      split
      · have : ⌊(n : Rat) + (t + 1 / 2)⌋ = (n : Int) := by
          rw [Int.floor_eq_iff]; push_cast; constructor <;> linarith
        rw [this]; rfl
      · have : ⌊(n : Rat) + (t + 1 / 2)⌋ = ((n + 1 : Nat) : Int) := by
          rw [Int.floor_eq_iff]; push_cast; constructor <;> linarith
        rw [this]; simp [hlt]) _ r.sampleI rfl
    rw [hrw] at hcong
    subst hsi
    rw [← hcong]
    obtain ⟨o1, r1, r', q1, q2⟩ := ih (r.sourceI + 1) (by omega)
      { r with filters := (processRow noop r.filters rows[r.sourceI + 1]).map (·.2), sourceI := r.sourceI + 1,
               sampleI := (emitRows r.start r.source r.target r.offset (((r.sourceI : Rat) - 1) * r.source) (((r.sourceI : Rat) - 1) * r.source + r.source) (lerp (r.sourceI : Rat) (((r.sourceI + 1 : Nat) : Rat))) r.sampleI).2,
               last := some rows[r.sourceI + 1] } () hs hlin (by rw [p2, hrows _ (List.getElem_mem _)]) (by simp [hlt]) rfl
    rw [show r.sourceI + 1 + 1 = r.sourceI + 2 from rfl] at *
    refine ⟨(emitRows r.start r.source r.target r.offset (((r.sourceI : Rat) - 1) * r.source) (((r.sourceI : Rat) - 1) * r.source + r.source) (lerp (r.sourceI : Rat) (((r.sourceI + 1 : Nat) : Rat))) r.sampleI).1 ++ o1, r1, r', ?_, ?_⟩
    · show Option.map _ (Resampler.feed noop fuel _ _) = _
      rw [show (noop.process f ((r.sourceI + 1 : Nat) : Rat)) = ((((r.sourceI + 1 : Nat) : Rat)), ()) from rfl]
      simp only
      rw [q1]
      rfl
    · simp only
      rw [q2]
      simp

/-- **C112.** Not slower than the source (nearest neighbour, no filter): the samples are at the times of C104, as many as those, and each is the row nearest to its place – unchanged, as a whole. The place is
one source period (100 ms) late: the row shown at the time of row `k` is row `k + 1`. -/
theorem C112_nearest (fuel w : Nat) (start sourceRate targetRate offset : Rat) (hnear : sourceRate ≤ targetRate) (hs : 0 < sourceRate) (ho : -(1000 / targetRate) ≤ offset) (rows : List (List Rat))
    (hrows : ∀ row ∈ rows, row.length = w) :
    ∃ m r', (Resampler2.new () w start sourceRate targetRate offset).feed noop fuel rows =
        some ((List.range m).map (fun j => (start + sampleTime (1000 / targetRate) offset (firstSample offset + j), nearestRow rows (sampleTime (1000 / targetRate) offset (firstSample offset + j) / (1000 / sourceRate) + 1))), r') ∧
      ∀ k, firstSample offset ≤ k → (k < firstSample offset + m ↔ sampleTime (1000 / targetRate) offset k ≤ ((rows.length : Rat) - 2) * (1000 / sourceRate)) := by
  have ht : 0 < targetRate := by linarith
  have hd : 0 < 1000 / sourceRate := div_pos (by norm_num) hs
  have hD : 0 < 1000 / targetRate := div_pos (by norm_num) ht
  have h0 : ∀ k, firstSample offset ≤ k → 0 ≤ sampleTime (1000 / targetRate) offset k := by
    intro k hk
    unfold sampleTime
    unfold firstSample at hk
    split at hk
    · have : (1 : Rat) ≤ k := by exact_mod_cast hk
      have := mul_le_mul_of_nonneg_right this hD.le
      linarith
    · have : (0 : Rat) ≤ k := by exact_mod_cast Nat.zero_le k
      have := mul_nonneg this hD.le
      linarith
  have hlinf : (Resampler2.new () w start sourceRate targetRate offset).linear = false := by
    unfold Resampler2.new; simp; exact hnear
  -- the resampler that is fed 0, 1, 2, …
  have key : ∃ o1 r1 r', (Resampler.new () start sourceRate targetRate offset).feed noop fuel ((List.range' 0 rows.length).map fun j : Nat => (j : Rat)) = some (o1, r1) ∧
      (Resampler2.new () w start sourceRate targetRate offset).feed noop fuel rows = some (o1.map fun s => (s.1, nearestRow rows s.2), r') := by
    cases hr : rows with
    | nil => exact ⟨[], _, _, rfl, rfl⟩
    | cons row rest =>
      have hfl : (Resampler2.new () w start sourceRate targetRate offset).filters.length = row.length := by
        rw [hrows row (by simp [hr])]; simp [Resampler2.new]
      obtain ⟨p1, p2⟩ := processRow_noop _ row hfl
      have hsr := settleRow_noop fuel _ row hfl
      obtain ⟨o1, r1, r', q1, q2⟩ := feed_nearest fuel w rows hrows rest.length 0 (by simp [hr]; omega)
        { Resampler2.new () w start sourceRate targetRate offset with filters := (processRow noop (Resampler2.new () w start sourceRate targetRate offset).filters row).map (·.2), last := some row } ()
        hd hlinf (by rw [p2]; exact hrows row (by simp [hr])) (by simp [hr]) rfl
      refine ⟨o1, r1, r', ?_, ?_⟩
      · have hu : unsettled 0 0 = false := by decide
        have hst : settle noop 0 fuel 0 () = some (0, ()) := by
          cases fuel <;> (unfold settle; rw [if_neg (by rw [hu]; simp)])
        rw [List.length_cons, List.range'_succ, List.map_cons]
        unfold Resampler.feed Resampler.next
        show Option.bind (Option.map _ (settle noop ((0 : Nat) : Rat) fuel ((0 : Nat) : Rat) ())) _ = _
        rw [show ((0 : Nat) : Rat) = 0 by norm_cast, hst]
        simp only [Option.map_some, Option.bind_some]
        have : (⟨(), start, 1000 / sourceRate, 1000 / targetRate, offset, 0, if offset < 0 then 1 else 0, some 0⟩ : Resampler Unit).feed noop fuel ((List.range' (0 + 1) rest.length).map fun j : Nat => (j : Rat)) = some (o1, r1) := by
          have := q1
          rw [show (((0 : Nat)) : Rat) = 0 by norm_cast] at this
          exact this
        show Option.map _ ((⟨(), start, 1000 / sourceRate, 1000 / targetRate, offset, 0, if offset < 0 then 1 else 0, some 0⟩ : Resampler Unit).feed noop fuel _) = _
        rw [this]
        rfl
      · unfold Resampler2.feed Resampler2.next
        show Option.bind (Option.map _ (settleRow noop fuel _ row)) _ = _
        rw [hsr]
        simp only [Option.map_some, Option.bind_some, p1]
        have hdrop : rows.drop (0 + 1) = rest := by simp [hr]
        rw [hdrop] at q2
        rw [q2, hr]
        rfl
  obtain ⟨o1, r1, r', q1, q2⟩ := key
  obtain ⟨ys, m, s1, s2, s3⟩ := C104_samples noop fuel () start sourceRate targetRate offset hs ht ho _ _ _ q1
  rw [noop_smoothed] at s1
  obtain rfl := Option.some.inj s1
  rw [show ((List.range' 0 rows.length).map fun j : Nat => (j : Rat)).length = rows.length by simp] at s3
  refine ⟨m, r', ?_, s3⟩
  rw [q2, s2, List.map_map]
  congr 2
  apply List.map_congr_left
  intro j hj
  have hj' := List.mem_range.mp hj
  have hle := (s3 (firstSample offset + j) (by omega)).mp (by omega)
  have hnn := h0 (firstSample offset + j) (by omega)
  simp only [Function.comp]
  generalize sampleTime (1000 / targetRate) offset (firstSample offset + j) = T at *
  have hx0 : 0 ≤ T / (1000 / sourceRate) := div_nonneg hnn hd.le
  have hx1 : T / (1000 / sourceRate) ≤ (rows.length : Rat) - 2 := by rw [div_le_iff₀ hd]; exact hle
  generalize T / (1000 / sourceRate) = x at *
  congr 2
  -- the polygon through 0, 1, 2, …
  obtain ⟨k, hk⟩ : ∃ k : Nat, ⌊x + 1⌋ = k := ⟨⌊x + 1⌋.toNat, by have := Int.floor_nonneg.mpr (show 0 ≤ x + 1 by linarith); omega⟩
  have hk' := Int.floor_eq_iff.mp hk
  have hk1 : (k : Rat) ≤ x + 1 := by exact_mod_cast hk'.1
  have hk2 : x + 1 < (k : Rat) + 1 := by exact_mod_cast hk'.2
  have hkl : k < rows.length := by
    have : (k : Rat) < rows.length := by linarith
    exact_mod_cast this
  have g : ∀ i : Nat, i < rows.length → ((List.range' 0 rows.length).map fun j : Nat => (j : Rat)).getD i 0 = i := by
    intro i hi; simp [hi]
  unfold polygon
  rw [hk, Int.toNat_natCast, g k hkl]
  unfold lerp
  by_cases hkk : k + 1 < rows.length
  · rw [g (k + 1) hkk]; push_cast; ring
  · have e1 : (rows.length : Rat) = k + 1 := by
      have : rows.length = k + 1 := by omega
      rw [this]; push_cast; rfl
    have : x + 1 = k := by linarith
    rw [this]; ring

theorem settleRow_some {σ : Type} (p : Filter σ) (fuel : Nat) : ∀ (fs : List (Rat × σ)) (xs : List Rat), fs.length = xs.length →
    (∀ i f, fs[i]? = some f → ∃ a, settle p (xs.getD i 0) fuel f.1 f.2 = some a) → ∃ s, settleRow p fuel fs xs = some s := by
  intro fs
  induction fs with
  | nil => intro xs _ _; cases xs <;> exact ⟨[], rfl⟩
  | cons f fs ih =>
    intro xs h hs
    cases xs with
    | nil => simp at h
    | cons x xs =>
      obtain ⟨a, ha⟩ := hs 0 f (by simp)
      obtain ⟨s, hs'⟩ := ih xs (by simpa using h) (fun i g hg => by simpa using hs (i + 1) g (by simpa using hg))
      refine ⟨a :: s, ?_⟩
      unfold settleRow
      rw [show settle p x fuel f.1 f.2 = some a by simpa using ha, Option.bind_some, hs']
      rfl

/-- **C112.** The resampler returns whenever the filter of each cell settles on its first value. -/
theorem C112_returns {σ : Type} (p : Filter σ) (fuel w : Nat) (f0 : σ) (start sourceRate targetRate offset : Rat) (rows : List (List Rat)) (hrows : ∀ row ∈ rows, row.length = w)
    (hset : ∀ i, i < w → ∃ ys, smoothed p fuel f0 (column i rows) = some ys) : ∃ r, (Resampler2.new f0 w start sourceRate targetRate offset).feed p fuel rows = some r := by
  have mapSome : ∀ {α β : Type} {o : Option α} {f : α → β}, (∃ q, o = some q) → ∃ r, o.map f = some r := by
    rintro α β o f ⟨q, rfl⟩; exact ⟨_, rfl⟩
  have key : ∀ (rows : List (List Rat)) (r : Resampler2 σ) (l : List Rat), r.last = some l → ∃ q, r.feed p fuel rows = some q := by
    intro rows
    induction rows with
    | nil => intro r l _; exact ⟨_, rfl⟩
    | cons x xs ih =>
      intro r l hl
      unfold Resampler2.feed Resampler2.next
      simp only [hl, Option.bind_some]
      refine mapSome ?_
      exact ih _ _ rfl
  cases rows with
  | nil => exact ⟨_, rfl⟩
  | cons row rest =>
    have hrow := hrows row (by simp)
    have hfl : (List.replicate w f0).length = row.length := by simp [hrow]
    obtain ⟨s, hs⟩ := settleRow_some p fuel (processRow p (List.replicate w f0) row) row (processRow_length _ _ _ hfl) (by
      intro i f hf
      have hi : i < w := by
        have := (List.getElem?_eq_some_iff.mp hf).1
        rw [processRow_length _ _ _ hfl] at this; omega
      have hg := processRow_get p (List.replicate w f0) row i f0 hfl (by simp [hi])
      rw [hf] at hg
      obtain rfl := Option.some.inj hg
      obtain ⟨ys, hy⟩ := hset i hi
      unfold column smoothed at hy
      simp only [List.map_cons] at hy
      obtain ⟨a, ha, -⟩ := Option.map_eq_some_iff.mp hy
      exact ⟨a, ha⟩)
    unfold Resampler2.feed Resampler2.next
    show ∃ r, Option.bind (Option.map _ (settleRow p fuel (processRow p (List.replicate w f0) row) row)) _ = some r
    rw [hs]
    simp only [Option.map_some, Option.bind_some]
    refine mapSome ?_
    exact key rest _ _ rfl

/-- three rows of two cells, 10 per second, shown at 20 per second: three samples, and the first row is not among them -/
example : ∃ r', (Resampler2.new () 2 0 10 20 0).feed noop 0 [[1, 2], [3, 4], [5, 6]] = some ([(0, [3, 4]), (50, [5, 6]), (100, [5, 6])], r') := by
  obtain ⟨m, r', h1, h2⟩ := C112_nearest 0 2 0 10 20 0 (by norm_num) (by norm_num) (by norm_num) [[1, 2], [3, 4], [5, 6]] (by simp)
  have hf : firstSample 0 = 0 := by unfold firstSample; rw [if_neg (by norm_num)]
  rw [hf] at h1 h2
  have hm : m = 3 := by
    have a := (h2 2 (by omega)).mpr (by unfold sampleTime; norm_num)
    have b := mt (h2 3 (by omega)).mp (by unfold sampleTime; norm_num)
    omega
  subst hm
  refine ⟨r', h1.trans ?_⟩
  have f1 : ⌊(1 + 1 / 2 : Rat)⌋ = 1 := by rw [Int.floor_eq_iff]; norm_num
  have f2 : ⌊(2 : Rat)⌋ = 2 := by rw [Int.floor_eq_iff]; norm_num
  have f3 : ⌊(2 + 1 / 2 : Rat)⌋ = 2 := by rw [Int.floor_eq_iff]; norm_num
  have e : List.range 3 = [0, 1, 2] := rfl
  rw [e]
  simp only [List.map_cons, List.map_nil, nearestRow, sampleTime]
  rw [show (((0 + 0 : Nat) : Rat) * (1000 / 20) + 0) / (1000 / 10) + 1 + 1 / 2 = 1 + 1 / 2 by norm_num, show (((0 + 1 : Nat) : Rat) * (1000 / 20) + 0) / (1000 / 10) + 1 + 1 / 2 = 2 by norm_num,
    show (((0 + 2 : Nat) : Rat) * (1000 / 20) + 0) / (1000 / 10) + 1 + 1 / 2 = 2 + 1 / 2 by norm_num, f1, f2, f3]
  rw [show (0 + (((0 + 0 : Nat) : Rat) * (1000 / 20) + 0)) = 0 by norm_num, show (0 + (((0 + 1 : Nat) : Rat) * (1000 / 20) + 0)) = 50 by norm_num, show (0 + (((0 + 2 : Nat) : Rat) * (1000 / 20) + 0)) = 100 by norm_num]
  rfl

/-- two cells, 10 rows per second shown at 5 per second: the hypotheses of `C112_column` are met -/
example : ∃ outs r', (Resampler2.new () 2 0 10 5 0).feed noop 0 [[1, 2], [3, 4], [5, 6]] = some (outs, r') ∧ ∀ i, i < 2 →
    ∃ r1, (Resampler.new () 0 10 5 0).feed noop 0 (column i [[1, 2], [3, 4], [5, 6]]) = some (outs.map (fun s => (s.1, s.2.getD i 0)), r1) := by
  obtain ⟨⟨outs, r'⟩, h⟩ := C112_returns noop 0 2 () 0 10 5 0 [[1, 2], [3, 4], [5, 6]] (by simp) (fun i _ => ⟨_, noop_smoothed _ _⟩)
  exact ⟨outs, r', h, fun i hi => (C112_column noop 0 2 () 0 10 5 0 (by norm_num) _ (by simp) outs r' h i hi).2⟩

end Verif.Props
