import Verif.Spec.Indicator
import Mathlib.Tactic.Linarith
import Mathlib.Tactic.Ring
import Mathlib.Tactic.Positivity
import Mathlib.Tactic.NormNum
import Mathlib.Data.List.Forall2
/-
C98: blink patterns.
-/
namespace Verif.Props
open Verif Verif.Indicator Verif.Spec.Indicator

/-- the switchings of an ideal round that begins at `t` -/
def idealPass : Bool → List Nat → Rat → List Ev
  | _, [], _ => []
  | en, d :: ds, t => if d = 0 then idealPass (!en) ds t else (t, en) :: idealPass (!en) ds (t + d)

/-- the switchings of `m` ideal rounds -/
def idealRounds (pattern : List Nat) : Nat → Rat → List Ev
  | 0, _ => []
  | m + 1, t => idealPass true pattern t ++ idealRounds pattern m (t + total pattern)

/-- same switching, at most `L` late and never early -/
def Near (L : Rat) (e i : Ev) : Prop := e.2 = i.2 ∧ i.1 ≤ e.1 ∧ e.1 ≤ i.1 + L

variable {lat : Nat → Rat × Rat} {A B : Rat}

theorem ind_pass (hA : ∀ i, 0 ≤ (lat i).1 ∧ (lat i).1 ≤ A) (hB : ∀ i, 0 ≤ (lat i).2 ∧ (lat i).2 ≤ B) (hL : A + B ≤ 1) :
    ∀ (ds : List Nat) (en : Bool) (s : St), s.start ≤ s.now → s.now ≤ s.start + B →
      List.Forall₂ (Near (A + B)) (pass lat en ds s).1 (idealPass en ds s.start) ∧ (pass lat en ds s).2.start = s.start + total ds ∧
      (pass lat en ds s).2.start ≤ (pass lat en ds s).2.now ∧ (pass lat en ds s).2.now ≤ (pass lat en ds s).2.start + B := by
  intro ds
  induction ds with
  | nil => intro en s h1 h2; exact ⟨.nil, by simp [pass, total], h1, h2⟩
  | cons d ds ih =>
    intro en s h1 h2
    obtain ⟨a0, a1⟩ := hA s.n
    obtain ⟨b0, b1⟩ := hB s.n
    by_cases hd : d = 0
    · subst hd
      obtain ⟨g1, g2, g3, g4⟩ := ih (!en) s h1 h2
      simp only [pass, idealPass, if_true]
      exact ⟨g1, by rw [g2]; simp [total], g3, g4⟩
    · have hd1 : (1 : Rat) ≤ d := by exact_mod_cast Nat.one_le_iff_ne_zero.mpr hd
      simp only [pass, idealPass, if_neg hd]
      have hw : wait (s.now + (lat s.n).1) (s.start + d - (s.now + (lat s.n).1)) (lat s.n).2 = s.start + d + (lat s.n).2 := by
        unfold wait
        split
        · linarith
        · linarith
      obtain ⟨g1, g2, g3, g4⟩ := ih (!en) ⟨s.n + 1, wait (s.now + (lat s.n).1) (s.start + d - (s.now + (lat s.n).1)) (lat s.n).2, s.start + d⟩
        (by show s.start + d ≤ _; rw [hw]; linarith) (by show _ ≤ s.start + d + B; rw [hw]; linarith)
      refine ⟨.cons ⟨rfl, ?_, ?_⟩ g1, ?_, g3, g4⟩
      · show s.start ≤ s.now + (lat s.n).1; linarith
      · show s.now + (lat s.n).1 ≤ s.start + (A + B); linarith
      · rw [g2]
        show s.start + d + total ds = s.start + ((d + total ds : Nat) : Rat)
        push_cast
        ring

theorem ind_rounds (hA : ∀ i, 0 ≤ (lat i).1 ∧ (lat i).1 ≤ A) (hB : ∀ i, 0 ≤ (lat i).2 ∧ (lat i).2 ≤ B) (hL : A + B ≤ 1) (pattern : List Nat) :
    ∀ (m : Nat) (s : St), s.start ≤ s.now → s.now ≤ s.start + B → List.Forall₂ (Near (A + B)) (rounds lat pattern m s).1 (idealRounds pattern m s.start) := by
  intro m
  induction m with
  | zero => intro s _ _; exact .nil
  | succ m ih =>
    intro s h1 h2
    obtain ⟨g1, g2, g3, g4⟩ := ind_pass hA hB hL pattern true s h1 h2
    have := ih _ g3 g4
    rw [g2] at this
    exact List.rel_append g1 this

/-- the times of a list of switchings, from `t` on, at least a gap apart and all before `u` -/
def Spaced : Rat → List Ev → Rat → Prop
  | t, [], u => t ≤ u
  | t, e :: es, u => t ≤ e.1 ∧ ∃ t', e.1 < t' ∧ Spaced t' es u

theorem spaced_le {t u : Rat} {es : List Ev} (h : Spaced t es u) : t ≤ u := by
  induction es generalizing t with
  | nil => exact h
  | cons e es ih => obtain ⟨h1, t', h2, h3⟩ := h; have := ih h3; linarith

theorem spaced_append {t u v : Rat} {es fs : List Ev} (h1 : Spaced t es u) (h2 : Spaced u fs v) : Spaced t (es ++ fs) v := by
  induction es generalizing t with
  | nil =>
    have h1 : t ≤ u := h1
    cases fs with
    | nil => exact le_trans h1 h2
    | cons f fs => exact ⟨le_trans h1 h2.1, h2.2⟩
  | cons e es ih => obtain ⟨g1, t', g2, g3⟩ := h1; exact ⟨g1, t', g2, ih g3⟩

theorem spaced_pass (ds : List Nat) : ∀ (en : Bool) (t : Rat), Spaced t (idealPass en ds t) (t + total ds) := by
  induction ds with
  | nil => intro en t; show t ≤ t + ((0 : Nat) : Rat); simp
  | cons d ds ih =>
    intro en t
    have e : t + (total (d :: ds) : Rat) = t + d + total ds := by
      show t + ((d + total ds : Nat) : Rat) = _
      push_cast; ring
    rw [e]
    unfold idealPass
    split
    · rename_i h; subst h; simpa using ih (!en) t
    · rename_i h
      have hd1 : (1 : Rat) ≤ d := by exact_mod_cast Nat.one_le_iff_ne_zero.mpr h
      exact ⟨le_refl _, t + d, by show t < t + d; linarith, ih _ _⟩

theorem spaced_rounds (p : List Nat) : ∀ (m : Nat) (t : Rat), Spaced t (idealRounds p m t) (t + m * total p) := by
  intro m
  induction m with
  | zero => intro t; show t ≤ t + ((0 : Nat) : Rat) * _; simp
  | succ m ih =>
    intro t
    have := spaced_append (spaced_pass p true t) (ih (t + total p))
    have e : t + ((m + 1 : Nat) : Rat) * total p = t + total p + m * total p := by push_cast; ring
    rw [e]
    exact this

theorem lamp_before {init : Bool} {t u x : Rat} {es : List Ev} (h : Spaced t es u) (hx : x < t) : lamp init es x = init := by
  cases es with
  | nil => rfl
  | cons e es => exact if_neg (by have := h.1; intro g; linarith)

/-- the lamp after slightly late switchings shows what the ideal lamp showed at most `L` earlier -/
theorem lamp_near {L : Rat} (hL : 0 ≤ L) : ∀ (es is : List Ev), List.Forall₂ (Near L) es is → ∀ (init : Bool) (t u x lo : Rat), Spaced t is u → lo ≤ x → lo < t →
    ∃ y, lamp init es x = lamp init is y ∧ x - L ≤ y ∧ y ≤ x ∧ lo ≤ y := by
  intro es is h
  induction h with
  | nil => intro init t u x lo _ h2 _; exact ⟨x, rfl, by linarith, le_refl _, h2⟩
  | @cons e i es is h1 h2 ih =>
    intro init t u x lo hs hlo ht
    obtain ⟨n1, n2, n3⟩ := h1
    obtain ⟨s1, t', s2, s3⟩ := hs
    by_cases hx : e.1 ≤ x
    · obtain ⟨y, y1, y2, y3, y4⟩ := ih e.2 t' u x i.1 s3 (by linarith) s2
      refine ⟨y, ?_, y2, y3, by linarith⟩
      show (if e.1 ≤ x then lamp e.2 es x else init) = (if i.1 ≤ y then lamp i.2 is y else init)
      rw [if_pos hx, if_pos y4, y1, n1]
    · have hx : x < e.1 := not_le.mp hx
      refine ⟨max lo (x - L), ?_, le_max_right _ _, max_le hlo (by linarith), le_max_left _ _⟩
      show (if e.1 ≤ x then lamp e.2 es x else init) = (if i.1 ≤ max lo (x - L) then lamp i.2 is (max lo (x - L)) else init)
      rw [if_neg (not_le.mpr hx), if_neg (not_le.mpr (max_lt (by linarith) (by linarith)))]

theorem lamp_append {t u x : Rat} {es fs : List Ev} (h1 : Spaced t es u) (hx : u ≤ x) : ∀ init, lamp init (es ++ fs) x = lamp (lamp init es x) fs x := by
  induction es generalizing t with
  | nil => intro init; rfl
  | cons e es ih =>
    intro init
    obtain ⟨g1, t', g2, g3⟩ := h1
    have := spaced_le g3
    show (if e.1 ≤ x then lamp e.2 (es ++ fs) x else init) = lamp (if e.1 ≤ x then lamp e.2 es x else init) fs x
    rw [if_pos (by linarith), if_pos (by linarith), ih g3]

theorem lamp_append_early {u v x : Rat} {fs : List Ev} (h2 : Spaced u fs v) (hx : x < u) : ∀ (es : List Ev) (t : Rat), Spaced t es u → ∀ init,
    lamp init (es ++ fs) x = lamp init es x := by
  intro es
  induction es with
  | nil => intro t _ init; exact lamp_before h2 hx
  | cons e es ih =>
    intro t h init
    obtain ⟨g1, t', g2, g3⟩ := h
    show (if e.1 ≤ x then lamp e.2 (es ++ fs) x else init) = (if e.1 ≤ x then lamp e.2 es x else init)
    rw [ih t' g3]

theorem lamp_pass (ds : List Nat) : ∀ (en init : Bool) (t x : Rat), 0 ≤ x → x < total ds → lamp init (idealPass en ds t) (t + x) = lit en ds x := by
  induction ds with
  | nil => intro en init t x h0 h1; exact absurd h1 (by show ¬ x < ((0 : Nat) : Rat); push_cast; linarith)
  | cons d ds ih =>
    intro en init t x h0 h1
    have e : (total (d :: ds) : Rat) = d + total ds := by
      show ((d + total ds : Nat) : Rat) = _
      push_cast; ring
    rw [e] at h1
    unfold idealPass lit
    split
    · rename_i h
      subst h
      have c : ¬ x < ((0 : Nat) : Rat) := by push_cast; linarith
      rw [if_neg c]
      simpa using ih (!en) init t x h0 (by simpa using h1)
    · show (if t ≤ t + x then lamp en (idealPass (!en) ds (t + d)) (t + x) else init) = _
      rw [if_pos (by linarith)]
      split
      · exact lamp_before (spaced_pass ds _ _) (by linarith)
      · rename_i hx
        have := ih (!en) en (t + d) (x - d) (by linarith [not_lt.mp hx]) (by linarith)
        rw [show t + d + (x - d) = t + x by ring] at this
        exact this

theorem lamp_rounds (p : List Nat) : ∀ (m c : Nat) (init : Bool) (t x : Rat), c < m → 0 ≤ x → x < total p →
    lamp init (idealRounds p m t) (t + c * total p + x) = lit true p x := by
  intro m
  induction m with
  | zero => intro c _ _ _ h; omega
  | succ m ih =>
    intro c init t x hc h0 h1
    unfold idealRounds
    cases c with
    | zero =>
      rw [show t + ((0 : Nat) : Rat) * total p + x = t + x by push_cast; ring]
      rw [lamp_append_early (spaced_rounds p m _) (by linarith) _ _ (spaced_pass p true t)]
      exact lamp_pass p true init t x h0 h1
    | succ c =>
      have hp : (0 : Rat) ≤ (c : Rat) * total p := by positivity
      have e : t + ((c + 1 : Nat) : Rat) * total p + x = t + total p + c * total p + x := by push_cast; ring
      rw [lamp_append (spaced_pass p true t) (by rw [e]; linarith), e]
      exact ih c _ _ x (by omega) h0 h1

/-- **C98** A lamp follows its pattern for ever without drift: if switching takes at most `A`, delays return at most `B` late and both together take at most 1 ms, then at every moment of
the first `m` rounds, however many, the lamp shows what the pattern prescribes for some moment `y` at most `A + B` earlier (before the start: off). In particular (`A = B = 0`) exactly what it prescribes. -/
theorem C98_pattern (hA : ∀ i, 0 ≤ (lat i).1 ∧ (lat i).1 ≤ A) (hB : ∀ i, 0 ≤ (lat i).2 ∧ (lat i).2 ≤ B) (hL : A + B ≤ 1) (pattern : List Nat) (t : Rat) (m c : Nat) (x : Rat)
    (hc : c < m) (hx0 : 0 ≤ x) (hx : x < total pattern) :
    ∃ y, t + c * total pattern + x - (A + B) ≤ y ∧ y ≤ t + c * total pattern + x ∧
      ((y < t ∧ lamp false (runSingle lat pattern m t) (t + c * total pattern + x) = false) ∨
        ∃ (c' : Nat) (x' : Rat), y = t + c' * total pattern + x' ∧ 0 ≤ x' ∧ x' < total pattern ∧
          lamp false (runSingle lat pattern m t) (t + c * total pattern + x) = lit true pattern x') := by
  have hA0 : 0 ≤ A := le_trans (hA 0).1 (hA 0).2
  have hB0 : 0 ≤ B := le_trans (hB 0).1 (hB 0).2
  have hT : (0 : Rat) < total pattern := by linarith
  have hp : pattern.length ≠ 0 := by
    intro h
    rw [List.length_eq_zero_iff] at h
    subst h
    simp [total] at hT
  have hrun : runSingle lat pattern m t = (rounds lat pattern m ⟨0, t, t⟩).1 := if_neg hp
  have hn := ind_rounds hA hB hL pattern m ⟨0, t, t⟩ (le_refl _) (by show t ≤ t + B; linarith)
  have hpos : (0 : Rat) ≤ (c : Rat) * total pattern := by positivity
  obtain ⟨y, y1, y2, y3, y4⟩ := lamp_near (by linarith) _ _ hn false t _ (t + c * total pattern + x) (t - 1) (spaced_rounds pattern m t) (by linarith) (by linarith)
  rw [hrun, y1]
  refine ⟨y, y2, y3, ?_⟩
  by_cases hy : y < t
  · exact .inl ⟨hy, lamp_before (spaced_rounds pattern m t) hy⟩
  · refine .inr ?_
    have hy : t ≤ y := not_lt.mp hy
    -- the round `y` lies in
    have key : ∀ (n : Nat), y < t + n * total pattern → ∃ (c' : Nat) (x' : Rat), c' < n ∧ y = t + c' * total pattern + x' ∧ 0 ≤ x' ∧ x' < total pattern := by
      intro n
      induction n with
      | zero => intro h; exact absurd h (by push_cast; linarith)
      | succ n ih =>
        intro h
        by_cases g : y < t + n * total pattern
        · obtain ⟨c', x', q1, q2⟩ := ih g
          exact ⟨c', x', by omega, q2⟩
        · refine ⟨n, y - (t + n * total pattern), by omega, by ring, by linarith [not_lt.mp g], ?_⟩
          have : ((n + 1 : Nat) : Rat) * total pattern = n * total pattern + total pattern := by push_cast; ring
          rw [this] at h
          linarith
    have hcm : ((c + 1 : Nat) : Rat) * total pattern = c * total pattern + total pattern := by push_cast; ring
    obtain ⟨c', x', q1, q2, q3, q4⟩ := key (c + 1) (by rw [hcm]; linarith)
    refine ⟨c', x', q2, q3, q4, ?_⟩
    rw [q2]
    exact lamp_rounds pattern m c' false t x' (by omega) q3 q4

/-- **C98** exactly the pattern, on a system without latencies -/
theorem C98_exact (pattern : List Nat) (t : Rat) (m c : Nat) (x : Rat) (hc : c < m) (hx0 : 0 ≤ x) (hx : x < total pattern) :
    lamp false (runSingle (fun _ => (0, 0)) pattern m t) (t + c * total pattern + x) = lit true pattern x := by
  have hT : (0 : Rat) < total pattern := by linarith
  have hp : pattern.length ≠ 0 := by
    intro h
    rw [List.length_eq_zero_iff] at h
    subst h
    simp [total] at hT
  have hn := ind_rounds (lat := fun _ => (0, 0)) (A := 0) (B := 0) (fun _ => ⟨le_refl _, le_refl _⟩) (fun _ => ⟨le_refl _, le_refl _⟩) (by norm_num) pattern m ⟨0, t, t⟩ (le_refl _) (by simp)
  have : runSingle (fun _ => (0, 0)) pattern m t = idealRounds pattern m t := by
    unfold runSingle
    rw [if_neg hp]
    have gen : ∀ (a b : List Ev), List.Forall₂ (Near (0 + 0)) a b → a = b := by
      intro a b h
      induction h with
      | nil => rfl
      | cons h _ ih =>
        obtain ⟨h1, h2, h3⟩ := h
        rw [ih]
        congr 1
        exact Prod.ext (by linarith) h1
    exact gen _ _ hn
  rw [this]
  exact lamp_rounds pattern m c false t x hc hx0 hx

/-- **C98** whatever the latencies are, no switching happens before its time -/
theorem C98_never_early (h : ∀ i, 0 ≤ (lat i).1 ∧ 0 ≤ (lat i).2) (pattern : List Nat) (hp : pattern ≠ []) (t : Rat) (m : Nat) :
    List.Forall₂ (fun e i => e.2 = i.2 ∧ i.1 ≤ e.1) (runSingle lat pattern m t) (runSingle (fun _ => (0, 0)) pattern m t) := by
  have pass_ge : ∀ (ds : List Nat) (en : Bool) (s s0 : St), s.start = s0.start → s.start ≤ s.now → s0.now = s0.start →
      List.Forall₂ (fun (e i : Ev) => e.2 = i.2 ∧ i.1 ≤ e.1) (pass lat en ds s).1 (pass (fun _ => (0, 0)) en ds s0).1 ∧
      (pass lat en ds s).2.start = (pass (fun _ => (0, 0)) en ds s0).2.start ∧ (pass lat en ds s).2.start ≤ (pass lat en ds s).2.now ∧
      (pass (fun _ => (0, 0)) en ds s0).2.now = (pass (fun _ => (0, 0)) en ds s0).2.start := by
    intro ds
    induction ds with
    | nil => intro en s s0 h1 h2 h3; exact ⟨.nil, h1, h2, h3⟩
    | cons d ds ih =>
      intro en s s0 h1 h2 h3
      by_cases hd : d = 0
      · simp only [pass, if_pos hd]; exact ih _ _ _ h1 h2 h3
      · have hd1 : (1 : Rat) ≤ d := by exact_mod_cast Nat.one_le_iff_ne_zero.mpr hd
        obtain ⟨a0, b0⟩ := h s.n
        simp only [pass, if_neg hd]
        obtain ⟨g1, g2⟩ := ih (!en) ⟨s.n + 1, wait (s.now + (lat s.n).1) (s.start + d - (s.now + (lat s.n).1)) (lat s.n).2, s.start + d⟩
          ⟨s0.n + 1, wait (s0.now + 0) (s0.start + d - (s0.now + 0)) 0, s0.start + d⟩ (by rw [h1])
          (by show s.start + d ≤ wait _ _ _
              unfold wait
              split
              · linarith
              · rename_i g; linarith [not_lt.mp g])
          (by show wait _ _ _ = s0.start + d
              unfold wait
              rw [h3, if_pos (by linarith)]
              ring)
        exact ⟨.cons ⟨rfl, by show s0.now + 0 ≤ s.now + (lat s.n).1; linarith⟩ g1, g2⟩
  have hl : pattern.length ≠ 0 := fun g => hp (List.length_eq_zero_iff.mp g)
  unfold runSingle
  rw [if_neg hl, if_neg hl]
  have : ∀ (m : Nat) (s s0 : St), s.start = s0.start → s.start ≤ s.now → s0.now = s0.start →
      List.Forall₂ (fun (e i : Ev) => e.2 = i.2 ∧ i.1 ≤ e.1) (rounds lat pattern m s).1 (rounds (fun _ => (0, 0)) pattern m s0).1 := by
    intro m
    induction m with
    | zero => intro _ _ _ _ _; exact .nil
    | succ m ih =>
      intro s s0 h1 h2 h3
      obtain ⟨g1, g2, g3, g4⟩ := pass_ge pattern true s s0 h1 h2 h3
      exact List.rel_append g1 (ih _ _ g2 g3 g4)
  exact this m _ _ rfl (le_refl _) rfl

/-- **C98 (finding)** a pattern of zeros only makes the loop run for ever without a point where any other task can run: no round contains a wait, and no lamp is ever switched -/
theorem C98_zeros_hang (pattern : List Nat) (h : ∀ d ∈ pattern, d = 0) (hp : pattern ≠ []) (t : Rat) (m : Nat) :
    singleReturns pattern = false ∧ runSingle lat pattern m t = [] ∧ (rounds lat pattern m ⟨0, t, t⟩).2.n = 0 ∧ waitsPerRound pattern = 0 := by
  have hpass : ∀ (ds : List Nat), (∀ d ∈ ds, d = 0) → ∀ (en : Bool) (s : St), pass lat en ds s = ([], s) := by
    intro ds
    induction ds with
    | nil => intro _ en s; rfl
    | cons d ds ih =>
      intro hd en s
      have h0 := hd d (by simp)
      simp only [pass, if_pos h0]
      exact ih (fun d' hd' => hd d' (by simp [hd'])) _ _
  have hr : ∀ (m : Nat) (s : St), rounds lat pattern m s = ([], s) := by
    intro m
    induction m with
    | zero => intro s; rfl
    | succ m ih => intro s; unfold rounds; simp only [hpass pattern h, ih, List.append_nil]
  have hl : pattern.length ≠ 0 := fun g => hp (List.length_eq_zero_iff.mp g)
  refine ⟨by simp [singleReturns, hp], ?_, by rw [hr], ?_⟩
  · unfold runSingle; rw [if_neg hl, hr]
  · unfold waitsPerRound
    rw [List.filter_eq_nil_iff.mpr (fun d hd => by simp [h d hd])]
    rfl

/-- **C98** with any entry that is not zero, every round waits at least once -/
theorem C98_waits (pattern : List Nat) (m : Nat) (s : St) : (rounds lat pattern m s).2.n = s.n + m * waitsPerRound pattern ∧
    (waitsPerRound pattern = 0 ↔ ∀ d ∈ pattern, d = 0) := by
  have hpass : ∀ (ds : List Nat) (en : Bool) (s : St), (pass lat en ds s).2.n = s.n + waitsPerRound ds := by
    intro ds
    induction ds with
    | nil => intro en s; rfl
    | cons d ds ih =>
      intro en s
      by_cases hd : d = 0
      · simp only [pass, if_pos hd]
        rw [ih]
        simp [waitsPerRound, hd]
      · simp only [pass, if_neg hd]
        rw [ih]
        simp [waitsPerRound, hd]
        omega
  constructor
  · induction m generalizing s with
    | zero => simp [rounds]
    | succ m ih => show (rounds lat pattern m (pass lat true pattern s).2).2.n = _; rw [ih, hpass, Nat.add_mul]; omega
  · unfold waitsPerRound
    rw [List.length_eq_zero_iff, List.filter_eq_nil_iff]
    simp

/-! ### The hypotheses can be met -/

example : (∀ i : Nat, 0 ≤ ((fun _ => (1/10, 1/5) : Nat → Rat × Rat) i).1 ∧ ((fun _ => (1/10, 1/5) : Nat → Rat × Rat) i).1 ≤ 1/10) ∧ (1/10 + 1/5 : Rat) ≤ 1 ∧
    (500 : Rat) < total [333, 666] ∧ lit true [333, 666] 500 = false := by
  refine ⟨fun _ => ⟨by norm_num, le_refl _⟩, by norm_num, ?_, ?_⟩ <;> decide +kernel

/-- the pattern with which vl_main.rs:164-166 and avionics/mod.rs:151-153 halt: a round of 999 ms in which exactly one lamp is lit at any time -/
example : ∀ x : Rat, 0 ≤ x → x < 999 → [lit true [333, 666] x, lit true [0, 333, 333, 333] x, lit true [0, 666, 333, 0] x].count true = 1 := by
  intro x h0 h1
  have c : ¬ x < 0 := not_lt.mpr h0
  by_cases a : x < 333
  · have b : x < 666 := by linarith
    simp [lit, a, b, c]
  · by_cases b : x < 666
    · have b1 : x - 333 < 333 := by linarith
      have b2 : x - 333 < 666 := by linarith
      simp [lit, a, b, c, b1, b2]
    · have b1 : ¬ x - 333 < 333 := by linarith
      have b2 : x - 333 < 666 := by linarith
      have b3 : x - 666 < 333 := by linarith
      have b4 : x - 333 - 333 < 333 := by linarith
      simp [lit, a, b, c, b1, b2, b3, b4]

end Verif.Props
