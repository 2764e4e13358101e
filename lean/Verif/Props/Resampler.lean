import Verif.Model.Resampler
import Mathlib.Tactic.Ring
/-
C104: the resampler of the OZYS app.
-/
namespace Verif.Props
open Verif Verif.Ozys

/-- the readings after the filter, from a state on -/
def follow {σ : Type} (p : Filter σ) (s : σ) : List Rat → List Rat
  | [] => []
  | x :: xs => (p.process s x).1 :: follow p (p.process s x).2 xs

/-- the readings after the filter; it has settled on the first one -/
def smoothed {σ : Type} (p : Filter σ) (fuel : Nat) (s : σ) : List Rat → Option (List Rat)
  | [] => some []
  | x :: xs => (settle p x fuel (p.process s x).1 (p.process s x).2).map fun a => a.1 :: follow p a.2 xs

/-- the polygon through the points (0, ys[0]), (1, ys[1]), … -/
def polygon (ys : List Rat) (x : Rat) : Rat := lerp (ys.getD ⌊x⌋.toNat 0) (ys.getD (⌊x⌋.toNat + 1) 0) (x - ⌊x⌋.toNat)

/-- the number of the first sample -/
def firstSample (offset : Rat) : Nat := if offset < 0 then 1 else 0

theorem sampleTime_mono {D off : Rat} (h : 0 < D) {i j : Nat} (hij : i ≤ j) : sampleTime D off i ≤ sampleTime D off j := by
  unfold sampleTime
  have : (i : Rat) ≤ j := by exact_mod_cast hij
  have := mul_le_mul_of_nonneg_right this h.le
  linarith

theorem emit_spec (start d D off lo hi a b : Rat) (hD : 0 < D) : ∀ (n i : Nat), (⌊(hi - off) / D⌋ + 1 - i).toNat ≤ n → lo ≤ sampleTime D off i →
    ∃ m, emit start d D off lo hi a b i = ((List.range m).map (fun j => (start + sampleTime D off (i + j), lerp a b ((sampleTime D off (i + j) - lo) / d))), i + m) ∧
      ∀ k, i ≤ k → (k < i + m ↔ sampleTime D off k ≤ hi) := by
  intro n
  induction n with
  | zero =>
    intro i hn hlo
    rw [emit]
    have : ¬ sampleTime D off i ≤ hi := by
      intro h2
      have h3 : ((i : Int) : Rat) ≤ (hi - off) / D := by
        rw [le_div_iff₀ hD]; unfold sampleTime at h2; push_cast; linarith
      have := Int.le_floor.mpr h3
      omega
    rw [dif_neg (by rintro ⟨_, _, h⟩; exact this h)]
    refine ⟨0, rfl, fun k hk => ⟨fun h => absurd h (by omega), fun h => absurd (le_trans (sampleTime_mono hD hk) h) this⟩⟩
  | succ n ih =>
    intro i hn hlo
    by_cases h : sampleTime D off i ≤ hi
    · obtain ⟨m, e1, e2⟩ := ih (i + 1) (by omega) (le_trans hlo (sampleTime_mono hD (Nat.le_succ i)))
      refine ⟨m + 1, ?_, ?_⟩
      · rw [emit, dif_pos ⟨hD, hlo, h⟩, e1]
        simp only []
        rw [List.range_succ_eq_map, List.map_cons, List.map_map]
        have e : i + 1 + m = i + (m + 1) := by omega
        rw [e]
        congr 2
        apply List.map_congr_left
        intro j _
        show _ = (fun j => (start + sampleTime D off (i + j), lerp a b ((sampleTime D off (i + j) - lo) / d))) (j + 1)
        have e : i + 1 + j = i + (j + 1) := by omega
        simp only [e]
      · intro k hk
        by_cases hk' : k = i
        · subst hk'; exact ⟨fun _ => h, fun _ => by omega⟩
        · rw [← e2 k (by omega)]; omega
    · rw [emit, dif_neg (by rintro ⟨_, _, h'⟩; exact h h')]
      exact ⟨0, rfl, fun k hk => ⟨fun h => absurd h (by omega), fun h' => absurd (le_trans (sampleTime_mono hD hk) h') h⟩⟩

theorem polygon_between (Y : List Rat) (n : Nat) (x : Rat) (h1 : (n : Rat) ≤ x) (h2 : x ≤ n + 1) : polygon Y x = lerp (Y.getD n 0) (Y.getD (n + 1) 0) (x - n) := by
  unfold polygon
  by_cases h : x = n + 1
  · have : ⌊x⌋.toNat = n + 1 := by
      rw [h]
      have : (⌊((n : Rat) + 1)⌋) = ((n + 1 : Nat) : Int) := by
        rw [Int.floor_eq_iff]; push_cast; constructor <;> linarith
      rw [this]; rfl
    rw [this, h]
    unfold lerp
    push_cast
    ring
  · have : ⌊x⌋.toNat = n := by
      have h3 : x < n + 1 := lt_of_le_of_ne h2 h
      have : ⌊x⌋ = (n : Int) := by
        rw [Int.floor_eq_iff]; push_cast; exact ⟨h1, h3⟩
      rw [this]; rfl
    rw [this]

/-- feeding a resampler that has had a reading -/
theorem feed_aux {σ : Type} (p : Filter σ) (fuel : Nat) (Y : List Rat) : ∀ (xs : List Rat) (r : Resampler σ) (n : Nat), 0 < r.source → 0 < r.target → r.sourceI = n →
    r.last = some (Y.getD n 0) → Y.drop (n + 1) = follow p r.filter xs → (∀ k, r.sampleI ≤ k → ((n : Rat) - 1) * r.source ≤ sampleTime r.target r.offset k) →
    ∃ m r', r.feed p fuel xs = some ((List.range m).map (fun j => (r.start + sampleTime r.target r.offset (r.sampleI + j), polygon Y (sampleTime r.target r.offset (r.sampleI + j) / r.source + 1))), r') ∧
      ∀ k, r.sampleI ≤ k → (k < r.sampleI + m ↔ (xs ≠ [] ∧ sampleTime r.target r.offset k ≤ ((n : Rat) + xs.length - 1) * r.source)) := by
  intro xs
  induction xs with
  | nil => intro r n _ _ _ _ _ _; exact ⟨0, r, rfl, fun k hk => ⟨fun h => absurd h (by omega), fun h => absurd rfl h.1⟩⟩
  | cons x xs ih =>
    intro r n hd hD hn hl hY hk
    have hlo := hk r.sampleI (Nat.le_refl _)
    obtain ⟨m, e1, e2⟩ := emit_spec r.start r.source r.target r.offset (((r.sourceI : Rat) - 1) * r.source) (((r.sourceI : Rat) - 1) * r.source + r.source) (Y.getD n 0) (p.process r.filter x).1 hD _ r.sampleI (Nat.le_refl _) (by rw [hn]; exact hlo)
    have hy : (p.process r.filter x).1 = Y.getD (n + 1) 0 := by
      have : (Y.drop (n + 1))[0]? = some (p.process r.filter x).1 := by rw [hY]; rfl
      rw [List.getElem?_drop] at this
      rw [List.getD_eq_getElem?_getD]
      have e : n + 1 + 0 = n + 1 := rfl
      rw [e] at this
      rw [this]; rfl
    have hnext : r.next p fuel x = some ((List.range m).map (fun j => (r.start + sampleTime r.target r.offset (r.sampleI + j), lerp (Y.getD n 0) (p.process r.filter x).1 ((sampleTime r.target r.offset (r.sampleI + j) - ((r.sourceI : Rat) - 1) * r.source) / r.source))),
        { r with filter := (p.process r.filter x).2, sourceI := r.sourceI + 1, sampleI := r.sampleI + m, last := some (p.process r.filter x).1 }) := by
      unfold Resampler.next
      simp only [hl, e1]
    generalize hr1 : ({ r with filter := (p.process r.filter x).2, sourceI := r.sourceI + 1, sampleI := r.sampleI + m, last := some (p.process r.filter x).1 } : Resampler σ) = r1 at hnext
    have hhi : ((r.sourceI : Rat) - 1) * r.source + r.source = (((n + 1 : Nat) : Rat) - 1) * r.source := by rw [hn]; push_cast; ring
    obtain ⟨m', r', e3, e4⟩ := ih r1 (n + 1) (by rw [← hr1]; exact hd) (by rw [← hr1]; exact hD) (by rw [← hr1]; show r.sourceI + 1 = n + 1; omega) (by rw [← hr1]; exact congrArg some hy)
      (by rw [← hr1]; show Y.drop (n + 1 + 1) = follow p (p.process r.filter x).2 xs; rw [← List.drop_drop, hY]; rfl)
      (by
        rw [← hr1]
        intro k hk'
        show _ ≤ sampleTime r.target r.offset k
        have h' : r.sampleI + m ≤ k := hk'
        have : ¬ sampleTime r.target r.offset k ≤ _ := fun h => absurd ((e2 k (by omega)).mpr h) (by omega)
        rw [hhi] at this
        exact le_of_lt (not_le.mp this))
    have f1 : r1.start = r.start ∧ r1.target = r.target ∧ r1.offset = r.offset ∧ r1.source = r.source ∧ r1.sampleI = r.sampleI + m := by rw [← hr1]; exact ⟨rfl, rfl, rfl, rfl, rfl⟩
    rw [f1.1, f1.2.1, f1.2.2.1, f1.2.2.2.1, f1.2.2.2.2] at e3
    rw [f1.2.1, f1.2.2.1, f1.2.2.2.1, f1.2.2.2.2] at e4
    refine ⟨m + m', r', ?_, ?_⟩
    · unfold Resampler.feed
      rw [hnext]
      simp only [Option.bind_some, e3, Option.map_some]
      congr 2
      rw [List.range_add, List.map_append]
      congr 1
      · apply List.map_congr_left
        intro j hj
        have hj := List.mem_range.mp hj
        have h1 := hk (r.sampleI + j) (by omega)
        have h2 := (e2 (r.sampleI + j) (by omega)).mp (by omega)
        rw [hn] at h2
        rw [hn, hy, polygon_between Y n _ (by rw [← sub_le_iff_le_add, le_div_iff₀ hd]; linarith) (by have : sampleTime r.target r.offset (r.sampleI + j) / r.source ≤ n := by { rw [div_le_iff₀ hd]; linarith }; linarith)]
        congr 2
        field_simp
        ring
      · rw [List.map_map]
        apply List.map_congr_left
        intro j _
        show _ = (fun j => (r.start + sampleTime r.target r.offset (r.sampleI + j), polygon Y (sampleTime r.target r.offset (r.sampleI + j) / r.source + 1))) (m + j)
        have e : r.sampleI + m + j = r.sampleI + (m + j) := by omega
        simp only [e]
    · intro k hk'
      have hle : (((n + 1 : Nat) : Rat) - 1) * r.source ≤ ((n : Rat) + ((x :: xs).length : Nat) - 1) * r.source := by
        apply mul_le_mul_of_nonneg_right _ hd.le
        rw [List.length_cons]; push_cast
        have : (0 : Rat) ≤ xs.length := by exact_mod_cast Nat.zero_le _
        linarith
      by_cases hkm : k < r.sampleI + m
      · have h2 := (e2 k hk').mp hkm
        rw [hhi] at h2
        exact ⟨fun _ => ⟨by simp, le_trans h2 hle⟩, fun _ => by omega⟩
      · have h2 : ¬ sampleTime r.target r.offset k ≤ (((n + 1 : Nat) : Rat) - 1) * r.source := fun h => hkm ((e2 k hk').mpr (by rw [hhi]; exact h))
        have h4 := e4 k (by omega)
        have e : k < r.sampleI + m + m' ↔ k < r.sampleI + (m + m') := by omega
        rw [← e, h4]
        have el : (((n + 1 : Nat) : Rat) + (xs.length : Nat) - 1) = ((n : Rat) + ((x :: xs).length : Nat) - 1) := by rw [List.length_cons]; push_cast; ring
        rw [el]
        refine ⟨fun h => ⟨by simp, h.2⟩, fun h => ⟨?_, h.2⟩⟩
        intro hx
        apply h2
        have := h.2
        rw [hx] at this
        simpa using this

/-- C104: for every filter, every pair of rates and every offset not before minus one target period: what the resampler has put out after any number of readings is one sample for every time
`i * target period + offset` from the first one not before zero up to (number of readings - 2) source periods, in order, each once; and its value is that of the polygon through the filtered readings –
(finding) at the place of the *next* source period: the sample labelled `T` is the polygon at `T` plus one source period -/
theorem C104_samples {σ : Type} (p : Filter σ) (fuel : Nat) (f0 : σ) (start sourceRate targetRate offset : Rat) (hs : 0 < sourceRate) (ht : 0 < targetRate) (ho : -(1000 / targetRate) ≤ offset)
    (xs : List Rat) (outs : List (Rat × Rat)) (r' : Resampler σ) (h : (Resampler.new f0 start sourceRate targetRate offset).feed p fuel xs = some (outs, r')) :
    ∃ ys m, smoothed p fuel f0 xs = some ys ∧
      outs = (List.range m).map (fun j => (start + sampleTime (1000 / targetRate) offset (firstSample offset + j), polygon ys (sampleTime (1000 / targetRate) offset (firstSample offset + j) / (1000 / sourceRate) + 1))) ∧
      ∀ k, firstSample offset ≤ k → (k < firstSample offset + m ↔ sampleTime (1000 / targetRate) offset k ≤ ((xs.length : Rat) - 2) * (1000 / sourceRate)) := by
  have hd : 0 < 1000 / sourceRate := div_pos (by norm_num) hs
  have hD : 0 < 1000 / targetRate := div_pos (by norm_num) ht
  have h0 : ∀ k, firstSample offset ≤ k → 0 ≤ sampleTime (1000 / targetRate) offset k := by
    intro k hk
    refine le_trans ?_ (sampleTime_mono hD hk)
    unfold firstSample sampleTime
    split
    · push_cast; linarith
    · push_cast; linarith
  cases xs with
  | nil =>
    obtain ⟨rfl, _⟩ := Prod.mk.inj (Option.some.inj h)
    refine ⟨[], 0, rfl, rfl, fun k hk => ⟨fun h => absurd h (by omega), fun h => ?_⟩⟩
    exfalso
    have := h0 k hk
    have e : (((([] : List Rat).length : Nat) : Rat) - 2) * (1000 / sourceRate) = -2 * (1000 / sourceRate) := by simp
    rw [e] at h
    linarith
  | cons x xs =>
    unfold Resampler.feed Resampler.next at h
    have hl : (Resampler.new f0 start sourceRate targetRate offset).last = none := rfl
    simp only [hl] at h
    cases hset : settle p x fuel (p.process f0 x).1 (p.process f0 x).2 with
    | none =>
      have e : settle p x fuel (p.process (Resampler.new f0 start sourceRate targetRate offset).filter x).1 (p.process (Resampler.new f0 start sourceRate targetRate offset).filter x).2 = none := hset
      rw [e] at h; cases h
    | some a =>
      have e : settle p x fuel (p.process (Resampler.new f0 start sourceRate targetRate offset).filter x).1 (p.process (Resampler.new f0 start sourceRate targetRate offset).filter x).2 = some a := hset
      rw [e] at h
      simp only [Option.map_some, Option.bind_some] at h
      obtain ⟨m, r1, e1, e2⟩ := feed_aux p fuel (a.1 :: follow p a.2 xs) xs { Resampler.new f0 start sourceRate targetRate offset with filter := a.2, last := some a.1 } 0 hd hD rfl rfl rfl
        (by
          intro k hk
          have := h0 k hk
          show (((0 : Nat) : Rat) - 1) * (1000 / sourceRate) ≤ sampleTime (1000 / targetRate) offset k
          push_cast; linarith)
      rw [e1] at h
      simp only [Option.map_some, List.nil_append] at h
      obtain ⟨rfl, _⟩ := Prod.mk.inj (Option.some.inj h)
      refine ⟨a.1 :: follow p a.2 xs, m, ?_, rfl, ?_⟩
      · show (settle p x fuel (p.process f0 x).1 (p.process f0 x).2).map _ = _
        rw [hset]; rfl
      · intro k hk
        have := e2 k hk
        rw [show (k < firstSample offset + m ↔ _) from this]
        show (xs ≠ [] ∧ sampleTime (1000 / targetRate) offset k ≤ (((0 : Nat) : Rat) + (xs.length : Nat) - 1) * (1000 / sourceRate)) ↔ _
        have el : (((0 : Nat) : Rat) + (xs.length : Nat) - 1) = (((x :: xs).length : Nat) : Rat) - 2 := by rw [List.length_cons]; push_cast; ring
        rw [el]
        refine ⟨fun h => h.2, fun h => ⟨?_, h⟩⟩
        intro hx
        subst hx
        have := h0 k hk
        have e : ((([x].length : Nat) : Rat) - 2) * (1000 / sourceRate) = -(1000 / sourceRate) := by simp; ring
        rw [e] at h
        linarith

/-- a filter that changes nothing is settled at once -/
theorem noop_smoothed (fuel : Nat) (xs : List Rat) : smoothed noop fuel () xs = some xs := by
  have hf : ∀ (xs : List Rat), follow noop () xs = xs := by
    intro xs
    induction xs with
    | nil => rfl
    | cons x xs ih => show x :: follow noop () xs = _; rw [ih]
  cases xs with
  | nil => rfl
  | cons x xs =>
    have hu : unsettled x x = false := by
      unfold unsettled
      split
      · rename_i h; simp [h]
      · simp
    have : settle noop x fuel x () = some (x, ()) := by
      cases fuel <;> (unfold settle; rw [if_neg (by rw [hu]; simp)])
    show (settle noop x fuel x ()).map _ = _
    rw [this, Option.map_some, hf]

/-- C104 (finding): a straight line is drawn too early: with readings `a + b t` taken at the times `start`, `start` + one source period, … and no filter, the sample labelled `T` has the value of the
line one source period after `T` -/
theorem C104_early (fuel : Nat) (start sourceRate targetRate offset a b : Rat) (hs : 0 < sourceRate) (ht : 0 < targetRate) (ho : -(1000 / targetRate) ≤ offset) (n : Nat)
    (outs : List (Rat × Rat)) (r' : Resampler Unit)
    (h : (Resampler.new () start sourceRate targetRate offset).feed noop fuel ((List.range n).map fun k : Nat => a + b * (start + (k : Rat) * (1000 / sourceRate))) = some (outs, r')) :
    ∀ s ∈ outs, s.2 = a + b * (s.1 + 1000 / sourceRate) := by
  obtain ⟨ys, m, h1, h2, h3⟩ := C104_samples noop fuel () start sourceRate targetRate offset hs ht ho _ outs r' h
  have hd : 0 < 1000 / sourceRate := div_pos (by norm_num) hs
  have hD : 0 < 1000 / targetRate := div_pos (by norm_num) ht
  rw [noop_smoothed] at h1
  obtain rfl := Option.some.inj h1
  intro s hsm
  rw [h2] at hsm
  obtain ⟨j, hj, rfl⟩ := List.mem_map.mp hsm
  have hj := List.mem_range.mp hj
  have h4 := (h3 (firstSample offset + j) (by omega)).mp (by omega)
  rw [List.length_map, List.length_range] at h4
  have h0 : 0 ≤ sampleTime (1000 / targetRate) offset (firstSample offset + j) := by
    refine le_trans ?_ (sampleTime_mono hD (Nat.le_add_right _ _))
    unfold firstSample sampleTime
    split <;> (push_cast; linarith)
  generalize sampleTime (1000 / targetRate) offset (firstSample offset + j) = T at *
  generalize 1000 / sourceRate = d at *
  show polygon _ (T / d + 1) = a + b * (start + T + d)
  have hx0 : 0 ≤ T / d := div_nonneg h0 hd.le
  have hxn : T / d ≤ (n : Rat) - 2 := by rw [div_le_iff₀ hd]; linarith
  obtain ⟨k, hk⟩ : ∃ k : Nat, ⌊T / d⌋ = k := ⟨⌊T / d⌋.toNat, by have := Int.floor_nonneg.mpr hx0; omega⟩
  have hk' := Int.floor_eq_iff.mp hk
  have hk1 : (k : Rat) ≤ T / d := by exact_mod_cast hk'.1
  have hk2 : T / d < (k : Rat) + 1 := by exact_mod_cast hk'.2
  have hkn : k + 2 ≤ n := by
    have : ((k : Rat)) ≤ (n : Rat) - 2 := by linarith
    have : ((k + 2 : Nat) : Rat) ≤ (n : Rat) := by push_cast; linarith
    exact_mod_cast this
  have hg : ∀ i, i < n → ((List.range n).map fun k : Nat => a + b * (start + (k : Rat) * d)).getD i 0 = a + b * (start + i * d) := by
    intro i hi
    rw [List.getD_eq_getElem?_getD, List.getElem?_map, List.getElem?_range hi]; rfl
  by_cases hlast : k + 2 = n
  · have hT : T / d = k := by
      have : (n : Rat) = k + 2 := by rw [← hlast]; push_cast; ring
      linarith
    have hTk : T = k * d := by field_simp at hT; linarith
    rw [polygon_between _ k _ (by linarith) (by linarith), hg _ (by omega), hg _ (by omega)]
    unfold lerp
    rw [hT, hTk]
    push_cast
    ring
  · rw [polygon_between _ (k + 1) _ (by push_cast; linarith) (by push_cast; linarith), hg _ (by omega), hg _ (by omega)]
    have hTd : T = (T / d) * d := by field_simp
    unfold lerp
    generalize T / d = x at *
    subst hTd
    push_cast
    ring

/-- C104 (finding): the filter is not given time to settle if the first reading is negative: `|f - r| / r` is then never above 0.01 -/
theorem C104_negative {σ : Type} (p : Filter σ) (fuel : Nat) (f r : Rat) (s : σ) (hr : r < 0) : settle p r fuel f s = some (f, s) := by
  have hu : unsettled f r = false := by
    unfold unsettled
    rw [if_neg (by linarith)]
    have : |f - r| / r ≤ 0 := div_nonpos_of_nonneg_of_nonpos (abs_nonneg _) hr.le
    simp
    linarith
  cases fuel <;> (unfold settle; rw [if_neg (by rw [hu]; simp)])

/-- C104: no overshoot: a value of the polygon lies between two neighbouring filtered readings -/
theorem C104_within (ys : List Rat) (x : Rat) (hx : 0 ≤ x) : ∃ k : Nat, (k : Rat) ≤ x ∧ x < k + 1 ∧ min (ys.getD k 0) (ys.getD (k + 1) 0) ≤ polygon ys x ∧ polygon ys x ≤ max (ys.getD k 0) (ys.getD (k + 1) 0) := by
  obtain ⟨k, hk⟩ : ∃ k : Nat, ⌊x⌋ = k := ⟨⌊x⌋.toNat, by have := Int.floor_nonneg.mpr hx; omega⟩
  have hk' := Int.floor_eq_iff.mp hk
  have hk1 : (k : Rat) ≤ x := by exact_mod_cast hk'.1
  have hk2 : x < (k : Rat) + 1 := by exact_mod_cast hk'.2
  refine ⟨k, hk1, hk2, ?_⟩
  rw [polygon_between ys k x hk1 hk2.le]
  generalize ys.getD k 0 = u
  generalize ys.getD (k + 1) 0 = w
  have ht0 : 0 ≤ x - k := by linarith
  have ht1 : x - k ≤ 1 := by linarith
  generalize x - (k : Rat) = t at ht0 ht1
  unfold lerp
  rcases le_total u w with h | h
  · rw [min_eq_left h, max_eq_right h]
    constructor <;> nlinarith
  · rw [min_eq_right h, max_eq_left h]
    constructor <;> nlinarith

/-- readings 0, 1, 2, 3, 4 at 1000 readings a second, wanted 500 a second, offset -1: the samples labelled 1 and 3 are 2 and 4 -/
example : ((Resampler.new () 0 1000 500 (-1)).feed noop 0 [0, 1, 2, 3, 4]).map (·.1) = some [(1, 2), (3, 4)] := by
  have key : ∀ outs r', (Resampler.new () 0 1000 500 (-1)).feed noop 0 [0, 1, 2, 3, 4] = some (outs, r') → outs = [(1, 2), (3, 4)] := by
    intro outs r' h
    obtain ⟨ys, m, h1, h2, h3⟩ := C104_samples noop 0 () 0 1000 500 (-1) (by norm_num) (by norm_num) (by norm_num) _ _ _ h
    rw [noop_smoothed] at h1
    obtain rfl := Option.some.inj h1
    have hf : firstSample (-1) = 1 := by unfold firstSample; norm_num
    rw [hf] at h2 h3
    have e1 := h3 1 (by omega)
    have e2 := h3 2 (by omega)
    have e3 := h3 3 (by omega)
    unfold sampleTime at e1 e2 e3
    norm_num at e1 e2 e3
    have hm : m = 2 := by omega
    subst hm
    rw [h2]
    show [_, _] = _
    unfold sampleTime polygon lerp
    norm_num
    have t2 : Int.toNat 2 = 2 := rfl
    have t4 : Int.toNat 4 = 4 := rfl
    simp only [t2, t4]
    norm_num
  obtain ⟨q, hq⟩ : ∃ q, (Resampler.new () 0 1000 500 (-1)).feed noop 0 [0, 1, 2, 3, 4] = q := ⟨_, rfl⟩
  cases q with
  | none =>
    exfalso
    unfold Resampler.feed Resampler.next at hq
    obtain ⟨m, r', e, _⟩ := feed_aux noop 0 [0, 1, 2, 3, 4] [1, 2, 3, 4] { Resampler.new () 0 1000 500 (-1) with filter := (), last := some 0 } 0 (by show (0 : Rat) < 1000 / 1000; norm_num) (by show (0 : Rat) < 1000 / 500; norm_num) rfl rfl rfl
      (by
        intro k hk
        have hk : (1 : Nat) ≤ k := by
          have : (Resampler.new () (0 : Rat) 1000 500 (-1)).sampleI = 1 := by show (if (-1 : Rat) < 0 then 1 else 0) = 1; norm_num
          rw [← this]; exact hk
        show (((0 : Nat) : Rat) - 1) * (1000 / 1000) ≤ sampleTime (1000 / 500) (-1) k
        have := sampleTime_mono (D := 1000 / 500) (off := -1) (by norm_num) hk
        unfold sampleTime at *
        push_cast at *
        linarith)
    have hs : settle noop 0 0 (noop.process (Resampler.new () 0 1000 500 (-1)).filter 0).1 (noop.process (Resampler.new () 0 1000 500 (-1)).filter 0).2 = some (0, ()) := by
      unfold settle; rw [if_neg]; · rfl
      · unfold unsettled noop; simp
    have hl : (Resampler.new () (0 : Rat) 1000 500 (-1)).last = none := rfl
    simp only [hl, hs, Option.map_some, Option.bind_some, e] at hq
    cases hq
  | some a => rw [hq]; exact congrArg some (key a.1 a.2 hq)

end Verif.Props
