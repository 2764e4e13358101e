import Verif.Model.GraphMenu
import Mathlib.Tactic.Linarith
import Mathlib.Tactic.NormNum
import Mathlib.Tactic.Ring
import Mathlib.Tactic.FieldSimp
import Mathlib.Tactic.Positivity
/-
C130: the menu and the mouse wheel of the strain graph.
-/
namespace Verif.Props
open Verif Verif.GraphMenu

/-- the clicks on the check box of a channel -/
def boxClicks (ch : Nat) (l : List Ev) : Nat := l.countP fun e => match e with | .toggle c => c == ch | _ => false

/-- the colour a channel has after the events: black when it is checked, then the last one picked -/
def lastColour (ch : Nat) : List Ev → Nat → Nat
  | [], c => c
  | .toggle x :: l, c => lastColour ch l (if x = ch then 0 else c)
  | .colour x y :: l, c => lastColour ch l (if x = ch then y else c)
  | .wheel _ :: l, c => lastColour ch l c

/-- by how much the wheel has changed the scale -/
def wheelFactor : List Ev → ℚ
  | [] => 1
  | .wheel d :: l => (1 + d / 1000) * wheelFactor l
  | _ :: l => wheelFactor l

theorem isSelected_iff (m : Menu) (ch : Nat) : m.isSelected ch = true ↔ ch ∈ m.selected.map (·.1) := by
  unfold Menu.isSelected
  rw [List.find?_isSome]
  constructor
  · rintro ⟨x, hx, e⟩
    exact List.mem_map.mpr ⟨x, hx, by simpa using e⟩
  · intro h
    obtain ⟨x, hx, e⟩ := List.mem_map.mp h
    exact ⟨x, hx, by simpa using e⟩

theorem recolour_spec (ch c : Nat) (l : List (Nat × Nat)) :
    match recolour ch c l with
    | none => ch ∉ l.map (·.1)
    | some l' => ch ∈ l.map (·.1) ∧ l'.map (·.1) = l.map (·.1) ∧ ((l.map (·.1)).Nodup → l' = l.map fun x => if x.1 = ch then (ch, c) else x) := by
  induction l with
  | nil => simp [recolour]
  | cons x l ih =>
    unfold recolour
    by_cases h : x.1 = ch
    · subst h
      simp only [beq_self_eq_true, if_true, List.map_cons, List.mem_cons, true_or, true_and]
      intro hn
      rw [List.nodup_cons] at hn
      congr 1
      have hid : l.map id = l.map fun x_1 => if x_1.1 = x.1 then (x.1, c) else x_1 := by
        refine List.map_congr_left fun y hy => ?_
        rw [if_neg]
        · rfl
        intro e
        exact hn.1 (List.mem_map.mpr ⟨y, hy, e⟩)
      rwa [List.map_id] at hid
    · have hb : (x.1 == ch) = false := by simpa using h
      rw [hb]
      simp only [Bool.false_eq_true, if_false]
      cases hr : recolour ch c l with
      | none =>
        rw [hr] at ih
        simp only [List.map_cons, List.mem_cons, not_or]
        exact ⟨fun e => h e.symm, ih⟩
      | some l' =>
        rw [hr] at ih
        simp only [List.map_cons, List.mem_cons]
        refine ⟨.inr ih.1, by rw [ih.2.1], fun hn => ?_⟩
        rw [List.nodup_cons] at hn
        rw [if_neg h, ih.2.2 hn.2]

/-- the channel is drawn in the colour -/
def DrawnIn (m : Menu) (ch c : Nat) : Prop := (ch, c) ∈ m.selected

/-- one event -/
theorem menu_step {m m' : Menu} {e : Ev} (hn : (m.selected.map (·.1)).Nodup) (h : m.step e = some m') :
    (m'.selected.map (·.1)).Nodup ∧ (∀ ch, ch ∈ m'.selected.map (·.1) ↔ (boxClicks ch [e] % 2 = 1) ≠ (ch ∈ m.selected.map (·.1))) ∧
      (∀ ch c, (ch ∈ m.selected.map (·.1) → DrawnIn m ch c) → ch ∈ m'.selected.map (·.1) → DrawnIn m' ch (lastColour ch [e] c)) ∧
      m'.msPerPixel = m.msPerPixel * wheelFactor [e] := by
  cases e with
  | toggle x =>
    simp only [Menu.step] at h
    by_cases hs : m.isSelected x = true
    · rw [if_pos hs] at h
      cases h
      rw [isSelected_iff] at hs
      refine ⟨(List.filter_sublist.map _).nodup hn, fun ch => ?_, fun ch c hc hm => ?_, by simp [wheelFactor]⟩
      · simp only [boxClicks, List.countP_cons, List.countP_nil, Nat.zero_add, List.mem_map, List.mem_filter, bne_iff_ne, ne_eq, eq_iff_iff]
        by_cases hx : x = ch
        · subst hx
          simp only [beq_self_eq_true, if_true, Nat.one_mod, true_iff]
          constructor
          · rintro ⟨a, ⟨_, h1⟩, h2⟩; exact absurd h2 h1
          · intro h1; exact absurd (List.mem_map.mp hs) h1
        · have hb : (x == ch) = false := by simpa using hx
          simp only [hb, Bool.false_eq_true, if_false, Nat.zero_mod, Nat.zero_ne_one, false_iff, not_not]
          constructor
          · rintro ⟨a, ⟨h1, _⟩, h3⟩; exact ⟨a, h1, h3⟩
          · rintro ⟨a, h1, h3⟩; exact ⟨a, ⟨h1, fun h4 => hx (h4.symm.trans h3)⟩, h3⟩
      · obtain ⟨a, h1, h2⟩ := List.mem_map.mp hm
        obtain ⟨h3, h4⟩ := List.mem_filter.mp h1
        have hx : x ≠ ch := by
          intro h5
          rw [h2, h5] at h4
          simp at h4
        simp only [lastColour, if_neg hx, DrawnIn]
        refine List.mem_filter.mpr ⟨hc (List.mem_map.mpr ⟨a, h3, h2⟩), ?_⟩
        simpa using fun h => hx h.symm
    · rw [if_neg hs] at h
      cases h
      rw [isSelected_iff] at hs
      refine ⟨?_, fun ch => ?_, fun ch c hc hm => ?_, by simp [wheelFactor]⟩
      · rw [List.map_append, List.nodup_append]
        refine ⟨hn, by simp, ?_⟩
        rintro a ha b hb rfl
        simp only [List.map_cons, List.map_nil, List.mem_singleton] at hb
        exact hs (hb ▸ ha)
      · simp only [boxClicks, List.countP_cons, List.countP_nil, Nat.zero_add, List.map_append, List.mem_append, List.map_cons, List.map_nil, List.mem_singleton, ne_eq, eq_iff_iff]
        by_cases hx : x = ch
        · subst hx
          simp [hs]
        · have hb : (x == ch) = false := by simpa using hx
          simp only [hb, Bool.false_eq_true, if_false, Nat.zero_mod, Nat.zero_ne_one, false_iff, not_not]
          exact ⟨fun h => h.elim id fun h => absurd h.symm hx, .inl⟩
      · by_cases hx : x = ch
        · simp only [lastColour, if_pos hx, DrawnIn, ← hx]
          exact List.mem_append_right _ (List.mem_singleton.mpr rfl)
        · simp only [lastColour, if_neg hx, DrawnIn]
          rw [List.map_append, List.mem_append] at hm
          rcases hm with hm | hm
          · exact List.mem_append_left _ (hc hm)
          · exact absurd (by simpa using hm) (fun h : ch = x => hx h.symm)
  | colour x y =>
    simp only [Menu.step] at h
    have hr := recolour_spec x y m.selected
    cases hc : recolour x y m.selected with
    | none => rw [hc] at h; simp at h
    | some l =>
      rw [hc] at h hr
      cases h
      obtain ⟨h1, h2, h3⟩ := hr
      refine ⟨by simp only [h2]; exact hn, fun ch => by simp [boxClicks, h2], fun ch c hd hm => ?_, by simp [wheelFactor]⟩
      simp only [h2] at hm
      simp only [DrawnIn, h3 hn, lastColour]
      refine List.mem_map.mpr ⟨(ch, c), hd hm, ?_⟩
      by_cases hx : ch = x
      · subst hx; simp
      · rw [if_neg hx, if_neg (fun h => hx h.symm)]
  | wheel d =>
    simp only [Menu.step] at h
    cases h
    exact ⟨hn, fun ch => by simp [boxClicks], fun ch c hd hm => hd hm, by simp [wheelFactor]⟩

theorem wheelFactor_cons (e : Ev) (l : List Ev) : wheelFactor (e :: l) = wheelFactor [e] * wheelFactor l := by
  cases e <;> simp [wheelFactor]

theorem lastColour_cons (ch : Nat) (e : Ev) (l : List Ev) (c : Nat) : lastColour ch (e :: l) c = lastColour ch l (lastColour ch [e] c) := by
  cases e <;> rfl

theorem menu_run (l : List Ev) : ∀ m m' : Menu, (m.selected.map (·.1)).Nodup → m.run l = some m' →
    (m'.selected.map (·.1)).Nodup ∧ (∀ ch, ch ∈ m'.selected.map (·.1) ↔ (boxClicks ch l % 2 = 1) ≠ (ch ∈ m.selected.map (·.1))) ∧
      (∀ ch c, (ch ∈ m.selected.map (·.1) → DrawnIn m ch c) → ch ∈ m'.selected.map (·.1) → DrawnIn m' ch (lastColour ch l c)) ∧
      m'.msPerPixel = m.msPerPixel * wheelFactor l := by
  induction l with
  | nil =>
    intro m m' hn h
    simp only [Menu.run, Option.some.injEq] at h
    subst h
    exact ⟨hn, fun ch => by simp [boxClicks], fun ch c hd hm => hd hm, by simp [wheelFactor]⟩
  | cons e l ih =>
    intro m m' hn h
    simp only [Menu.run] at h
    cases hs : m.step e with
    | none => rw [hs] at h; simp at h
    | some m1 =>
      rw [hs] at h
      obtain ⟨a1, a2, a3, a4⟩ := menu_step hn hs
      obtain ⟨b1, b2, b3, b4⟩ := ih m1 m' a1 h
      have hcl : ∀ ch, boxClicks ch (e :: l) = boxClicks ch [e] + boxClicks ch l := by
        intro ch
        simp only [boxClicks]
        rw [show e :: l = [e] ++ l from rfl, List.countP_append]
      refine ⟨b1, fun ch => ?_, fun ch c hd hm => ?_, ?_⟩
      · rw [b2 ch, hcl ch]
        have h1 := a2 ch
        simp only [ne_eq, eq_iff_iff] at h1 ⊢
        have hsplit : (boxClicks ch [e] + boxClicks ch l) % 2 = 1 ↔ ¬((boxClicks ch [e] % 2 = 1) ↔ (boxClicks ch l % 2 = 1)) := by omega
        rw [hsplit, h1]
        tauto
      · rw [lastColour_cons]
        refine b3 ch _ (fun h1 => a3 ch c hd h1) hm
      · rw [wheelFactor_cons, b4, a4, mul_assoc]

/-- **C130** Whatever is clicked, as long as no handler throws: each channel is drawn at most once, exactly the channels whose box was clicked an odd number of times are drawn, each in the colour picked last
since it was checked, black before; and the scale is the product of all turns of the wheel. -/
theorem C130_selection (l : List Ev) (m : Menu) (h : Menu.new.run l = some m) :
    (m.selected.map (·.1)).Nodup ∧ (∀ ch, ch ∈ m.selected.map (·.1) ↔ boxClicks ch l % 2 = 1) ∧ (∀ ch, ch ∈ m.selected.map (·.1) → DrawnIn m ch (lastColour ch l 0)) ∧
      m.msPerPixel = 10 * wheelFactor l := by
  obtain ⟨h1, h2, h3, h4⟩ := menu_run l Menu.new m (by simp [Menu.new]) h
  exact ⟨h1, fun ch => by rw [h2 ch]; simp [Menu.new], fun ch hm => h3 ch 0 (by simp [Menu.new]) hm, h4⟩

theorem menu_run_append (a b : List Ev) : ∀ m : Menu, m.run (a ++ b) = (m.run a).bind fun m => m.run b := by
  induction a with
  | nil => intro m; rfl
  | cons e a ih =>
    intro m
    simp only [List.cons_append, Menu.run]
    cases m.step e with
    | none => rfl
    | some m => exact ih m

/-- **C130 (finding)** The menu offers a colour for channels that are not drawn as well; picking one throws, and nothing else does. -/
theorem C130_colour_throws (l : List Ev) (m : Menu) (h : Menu.new.run l = some m) (e : Ev) :
    Menu.new.run (l ++ [e]) = none ↔ ∃ ch c, e = .colour ch c ∧ boxClicks ch l % 2 = 0 := by
  obtain ⟨_, h2, _, _⟩ := C130_selection l m h
  rw [menu_run_append, h]
  simp only [Option.bind_some, Menu.run]
  cases e with
  | toggle x =>
    simp only [Menu.step]
    split_ifs <;> simp
  | wheel d => simp [Menu.step]
  | colour ch c =>
    simp only [Menu.step]
    have hr := recolour_spec ch c m.selected
    cases hc : recolour ch c m.selected with
    | none =>
      rw [hc] at hr
      have := (h2 ch).not.mp hr
      simp only [true_iff]
      exact ⟨ch, c, rfl, by omega⟩
    | some l' =>
      rw [hc] at hr
      have := (h2 ch).mp hr.1
      simp only [reduceCtorEq, false_iff]
      rintro ⟨ch', c', e, h5⟩
      cases e
      omega

/-- **C130** The scale stays positive if no turn of the wheel is as far as 1000 up -/
theorem C130_scale_positive (l : List Ev) (m : Menu) (h : Menu.new.run l = some m) (hd : ∀ d, Ev.wheel d ∈ l → -1000 < d) : 0 < m.msPerPixel := by
  rw [(C130_selection l m h).2.2.2]
  have : 0 < wheelFactor l := by
    clear h
    induction l with
    | nil => simp [wheelFactor]
    | cons e l ih =>
      have i := ih fun d h => hd d (List.mem_cons_of_mem _ h)
      cases e with
      | wheel d =>
        have := hd d List.mem_cons_self
        simp only [wheelFactor]
        refine mul_pos ?_ i
        linarith
      | toggle _ => exact i
      | colour _ _ => exact i
  linarith

/-- **C130 (finding)** One turn of 1000 up makes the scale zero for good; a farther one turns it around. -/
theorem C130_scale_lost (l more : List Ev) (m : Menu) (d : ℚ) (hd : d ≤ -1000) (hp : ∀ x, Ev.wheel x ∈ l ++ more → -1000 < x) (h : Menu.new.run (l ++ .wheel d :: more) = some m) :
    m.msPerPixel ≤ 0 ∧ (d = -1000 → m.msPerPixel = 0) := by
  rw [(C130_selection _ m h).2.2.2]
  have hpos : ∀ l : List Ev, (∀ x, Ev.wheel x ∈ l → -1000 < x) → 0 < wheelFactor l := by
    intro l
    induction l with
    | nil => intro _; simp [wheelFactor]
    | cons e l ih =>
      intro hl
      have i := ih fun d h => hl d (List.mem_cons_of_mem _ h)
      cases e with
      | wheel x =>
        have := hl x List.mem_cons_self
        simp only [wheelFactor]
        refine mul_pos ?_ i
        linarith
      | toggle _ => exact i
      | colour _ _ => exact i
  have ha : ∀ a b : List Ev, wheelFactor (a ++ b) = wheelFactor a * wheelFactor b := by
    intro a b
    induction a with
    | nil => simp [wheelFactor]
    | cons e a ih => rw [List.cons_append, wheelFactor_cons, wheelFactor_cons e a, ih, mul_assoc]
  have p1 := hpos l fun x hx => hp x (List.mem_append_left _ hx)
  have p2 := hpos more fun x hx => hp x (List.mem_append_right _ hx)
  rw [ha, wheelFactor_cons]
  simp only [wheelFactor, mul_one]
  constructor
  · have q : 1 + d / 1000 ≤ 0 := by linarith
    have := mul_nonpos_of_nonneg_of_nonpos p1.le (mul_nonpos_of_nonpos_of_nonneg q p2.le)
    linarith
  · intro e
    subst e
    norm_num

/-- **C130 (finding)** Turning the wheel back does not undo a turn: there and back leaves the graph zoomed in. -/
theorem C130_wheel_drifts (m : Menu) (hm : 0 < m.msPerPixel) (d : ℚ) (hd : d ≠ 0) :
    ∃ m', m.run [.wheel d, .wheel (-d)] = some m' ∧ m'.msPerPixel < m.msPerPixel := by
  refine ⟨_, rfl, ?_⟩
  have : 0 < d ^ 2 := by positivity
  have h2 : m.msPerPixel * (1 + d / 1000) * (1 + -d / 1000) = m.msPerPixel - m.msPerPixel * d ^ 2 / 1000000 := by ring
  show m.msPerPixel * (1 + d / 1000) * (1 + -d / 1000) < m.msPerPixel
  rw [h2]
  have : 0 < m.msPerPixel * d ^ 2 / 1000000 := by positivity
  linarith

/-- two channels are checked, one gets a colour, the wheel is turned, and the other is unchecked (a case of the hypotheses) -/
example : Menu.new.run [.toggle 4, .toggle 7, .colour 7 255, .wheel 100, .toggle 4] = some ⟨[(7, 255)], 11⟩ := by
  simp [Menu.new, Menu.run, Menu.step, Menu.isSelected, recolour]
  norm_num

end Verif.Props
