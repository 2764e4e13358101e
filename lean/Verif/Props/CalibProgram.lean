import Verif.Model.CalibProgram
import Verif.Props.Calibration
/-
C134: the calibration program.
-/
namespace Verif.Props
open Verif Cal

/-- whether a state is announced by a sound: all but `idle`, which is never announced, and the start of the second half of a measurement -/
def audible : State → Bool
  | .idle => false
  | .at _ _ .variance => false
  | _ => true

/-- what is heard, without the lengths of tones and pauses -/
def pitches (l : List Sound) : List Nat := l.filterMap fun
  | .tone f _ => some f
  | .silence _ => none

/-- how long the sounds take, in ms -/
def soundsTake (l : List Sound) : Nat := (l.map fun
  | .tone _ d => d
  | .silence d => d).sum

/-- all states -/
def allStates : List State :=
  [.idle, .waitingStill, .success, .failure] ++ [Axis.x, .y, .z].flatMap fun a => [Dir.plus, .minus, .rotation].flatMap fun d => [Event.start, .variance, .finish].map fun e => .at a d e

theorem mem_allStates (s : State) : s ∈ allStates := by
  cases s with
  | idle => decide
  | waitingStill => decide
  | success => decide
  | failure => decide
  | «at» a d e => cases a <;> cases d <;> cases e <;> decide

/-- two tunes differ at some point within both, or the one that goes on does so with 1500 Hz -/
def diverge : List Nat → List Nat → Bool
  | x :: l, y :: m => x != y || diverge l m
  | [], y :: _ => y == 1500
  | x :: _, [] => x == 1500
  | [], [] => false

theorem diverge_append (l m a b : List Nat) (ha : a.head? ≠ some 1500) (hb : b.head? ≠ some 1500) (h : diverge l m = true) : l ++ a ≠ m ++ b := by
  induction l generalizing m with
  | nil =>
    cases m with
    | nil => simp [diverge] at h
    | cons y m =>
      simp only [diverge, beq_iff_eq] at h
      rintro he
      rw [List.nil_append] at he
      rw [he, h] at ha
      simp at ha
  | cons x l ih =>
    cases m with
    | nil =>
      simp only [diverge, beq_iff_eq] at h
      rintro he
      rw [List.nil_append] at he
      rw [← he, h] at hb
      simp at hb
    | cons y m =>
      simp only [diverge, Bool.or_eq_true, bne_iff_ne] at h
      intro he
      rw [List.cons_append, List.cons_append, List.cons.injEq] at he
      rcases h with h | h
      · exact h he.1
      · exact ih m h he.2

theorem announce_diverge : ∀ s ∈ allStates, ∀ t ∈ allStates, audible s → audible t → s = t ∨ diverge (pitches (announce s)) (pitches (announce t)) = true := by decide +kernel

theorem announce_head : ∀ s ∈ allStates, audible s → pitches (announce s) ≠ [] ∧ (pitches (announce s)).head? ≠ some 1500 := by decide +kernel

theorem announce_silent : ∀ s ∈ allStates, audible s = false → announce s = [] := by decide +kernel

theorem pitches_append (a b : List Sound) : pitches (a ++ b) = pitches a ++ pitches b := List.filterMap_append

theorem heard_head (l : List State) : (pitches (l.flatMap announce)).head? ≠ some 1500 := by
  induction l with
  | nil => simp [pitches]
  | cons s l ih =>
    rw [List.flatMap_cons, pitches_append]
    cases h : audible s with
    | false => rw [announce_silent s (mem_allStates s) h]; exact ih
    | true =>
      obtain ⟨h1, h2⟩ := announce_head s (mem_allStates s) h
      rw [List.head?_append_of_ne_nil _ h1]
      exact h2

/-- **C134** What is heard tells the states: if two sequences of announcements sound alike (the pitches of the tones in turn; their lengths and the pauses do not matter), the same states were announced. -/
theorem C134_heard (l m : List State) (h : pitches (l.flatMap announce) = pitches (m.flatMap announce)) : l.filter audible = m.filter audible := by
  have silent : ∀ (l : List State), pitches ((l.filter audible).flatMap announce) = pitches (l.flatMap announce) := by
    intro l
    induction l with
    | nil => rfl
    | cons s l ih =>
      cases hs : audible s with
      | false => rw [List.filter_cons_of_neg (by simp [hs]), List.flatMap_cons, announce_silent s (mem_allStates s) hs]; exact ih
      | true => rw [List.filter_cons_of_pos hs, List.flatMap_cons, List.flatMap_cons, pitches_append, pitches_append, ih]
  rw [← silent l, ← silent m] at h
  have key : ∀ (l m : List State), (∀ s ∈ l, audible s = true) → (∀ s ∈ m, audible s = true) → pitches (l.flatMap announce) = pitches (m.flatMap announce) → l = m := by
    intro l
    induction l with
    | nil =>
      intro m _ hm h
      cases m with
      | nil => rfl
      | cons t m =>
        rw [List.flatMap_cons, pitches_append] at h
        have := (announce_head t (mem_allStates t) (hm t List.mem_cons_self)).1
        have h2 := (List.append_eq_nil_iff.mp h.symm).1
        exact absurd h2 this
    | cons s l ih =>
      intro m hl hm h
      cases m with
      | nil =>
        rw [List.flatMap_cons, pitches_append] at h
        have := (announce_head s (mem_allStates s) (hl s List.mem_cons_self)).1
        have h2 := (List.append_eq_nil_iff.mp h).1
        exact absurd h2 this
      | cons t m =>
        rw [List.flatMap_cons, List.flatMap_cons, pitches_append, pitches_append] at h
        rcases announce_diverge s (mem_allStates s) t (mem_allStates t) (hl s List.mem_cons_self) (hm t List.mem_cons_self) with he | hd
        · subst he
          rw [ih m (fun x hx => hl x (List.mem_cons_of_mem _ hx)) (fun x hx => hm x (List.mem_cons_of_mem _ hx)) (List.append_cancel_left h)]
        · exact absurd h (diverge_append _ _ _ _ (heard_head l) (heard_head m) hd)
  exact key _ _ (fun s hs => (List.mem_filter.mp hs).2) (fun s hs => (List.mem_filter.mp hs).2) h

/-- **C134** No announcement takes longer than 1.75 s (the sensor is not read meanwhile); the longest is that of the end of a measurement along z. -/
theorem C134_pause (s : State) : soundsTake (announce s) ≤ 1750 ∧ soundsTake (announce (.at .z .plus .finish)) = 1750 := by
  have : ∀ s ∈ allStates, soundsTake (announce s) ≤ 1750 := by decide +kernel
  exact ⟨this s (mem_allStates s), by decide +kernel⟩

theorem calLoop_spec (rs : List Reading) : ∀ (pre : List Reading) (c : Calib) (h : Seen), feeds (some (5 / 100)) none none pre = some (c, h) → c.state ≠ .success → c.state ≠ .failure →
    ∃ d c' h', calLoop c rs = some d ∧ d.readings ≤ rs.length ∧ feeds (some (5 / 100)) none none (pre ++ rs.take d.readings) = some (c', h') ∧
      h'.announced.flatMap announce = h.announced.flatMap announce ++ d.sounds ∧
      (c'.state = .success ∧ d.answer = some 1 ∧ d.stored = c'.info ∧ d.stored.isSome ∨ c'.state = .failure ∧ d.answer = some 0 ∧ d.stored = none ∨
        c'.state ≠ .success ∧ c'.state ≠ .failure ∧ d.readings = rs.length ∧ d.answer = none ∧ d.stored = none) := by
  induction rs with
  | nil =>
    intro pre c h hf h1 h2
    exact ⟨⟨0, [], none, none⟩, c, h, rfl, le_refl _, by simpa using hf, by simp, .inr (.inr ⟨h1, h2, rfl, rfl, rfl⟩)⟩
  | cons r rs ih =>
    intro pre c h hf h1 h2
    have hp := (C65_panic pre hf r).not.mpr (by rintro (x | x); exacts [h1 x, h2 x])
    obtain ⟨⟨c', a⟩, hc⟩ := Option.ne_none_iff_exists'.mp hp
    have hfeed : feeds (some (5 / 100)) none none (pre ++ [r]) = some (c', ⟨h.trace ++ [(c.state, r)], h.announced ++ a.toList⟩) := by
      rw [feeds_snoc, hf]
      simp [feed, hc]
    have hstate := (C65_order _ hfeed).2
    cases a with
    | none =>
      have hst : c'.state = c.state := by
        have := (C65_order _ hf).2
        rw [hstate, this]
        simp
      obtain ⟨d, c2, h', e1, e2, e3, e4, e5⟩ := ih (pre ++ [r]) c' _ hfeed (hst ▸ h1) (hst ▸ h2)
      refine ⟨{ d with readings := d.readings + 1 }, c2, h', by simp only [calLoop, hc, e1]; rfl, Nat.succ_le_succ e2, ?_, ?_, ?_⟩
      · simpa using e3
      · simpa using e4
      · rcases e5 with e5 | e5 | ⟨x1, x2, x3, x4⟩
        · exact .inl e5
        · exact .inr (.inl e5)
        · exact .inr (.inr ⟨x1, x2, by simp [x3], x4⟩)
    | some s =>
      have hst : c'.state = s := by
        rw [hstate]
        show (((State.idle :: (h.announced ++ [s])) : List State).getLast?).getD .idle = s
        rw [← List.cons_append, List.getLast?_append]
        rfl
      by_cases hs : s = .success
      · have hinfo := (C65_result _ hfeed).2.mpr (hst.trans hs)
        obtain ⟨i, hi⟩ := Option.isSome_iff_exists.mp hinfo
        refine ⟨⟨1, announce s, some 1, some i⟩, c', _, by simp only [calLoop, hc, if_pos hs, hi], by simp, by simpa using hfeed, by simp, .inl ⟨hst.trans hs, rfl, hi.symm, rfl⟩⟩
      · by_cases hs2 : s = .failure
        · refine ⟨⟨1, announce s, some 0, none⟩, c', _, by simp only [calLoop, hc, if_neg hs, if_pos hs2], by simp, by simpa using hfeed, by simp, .inr (.inl ⟨hst.trans hs2, rfl, rfl⟩)⟩
        · obtain ⟨d, c2, h', e1, e2, e3, e4, e5⟩ := ih (pre ++ [r]) c' _ hfeed (by rw [hst]; exact hs) (by rw [hst]; exact hs2)
          refine ⟨{ d with readings := d.readings + 1, sounds := announce s ++ d.sounds }, c2, h', by simp only [calLoop, hc, if_neg hs, if_neg hs2, e1]; rfl, Nat.succ_le_succ e2, ?_, ?_, ?_⟩
          · simpa using e3
          · simpa using e4
          · rcases e5 with e5 | e5 | ⟨x1, x2, x3, x4⟩
            · exact .inl e5
            · exact .inr (.inl e5)
            · exact .inr (.inr ⟨x1, x2, by simp [x3], x4⟩)

/-- **C134** For all readings the program does not panic, and plays the announcements of the calibrator's states in turn. It ends at the first reading with which the calibrator succeeds (it answers 1 and stores the
parameters) or fails (it answers 0 and stores nothing, so that an earlier calibration stays), and goes on otherwise. -/
theorem C134_program (rs : List Reading) :
    ∃ d c h, calProgram rs = some d ∧ feeds (some (5 / 100)) none none (rs.take d.readings) = some (c, h) ∧ d.sounds = h.announced.flatMap announce ∧
      (d.answer = some 1 ∧ c.state = .success ∧ d.stored = c.info ∧ c.info.isSome ∨ d.answer = some 0 ∧ c.state = .failure ∧ d.stored = none ∨
        d.answer = none ∧ d.readings = rs.length ∧ c.state ≠ .success ∧ c.state ≠ .failure ∧ d.stored = none) := by
  obtain ⟨d, c, h, e1, _, e3, e4, e5⟩ := calLoop_spec rs [] (.new (some (5 / 100)) none none) ⟨[], []⟩ rfl (by simp [Calib.new]) (by simp [Calib.new])
  refine ⟨d, c, h, e1, by simpa using e3, by simpa using e4.symm, ?_⟩
  rcases e5 with ⟨x1, x2, x3, x4⟩ | ⟨x1, x2, x3⟩ | ⟨x1, x2, x3, x4, x5⟩
  · exact .inl ⟨x2, x1, x3, x3 ▸ x4⟩
  · exact .inr (.inl ⟨x2, x1, x3⟩)
  · exact .inr (.inr ⟨x4, x3, x1, x2, x5⟩)

/-- success and failure, start and end, up and down sound different (cases of C134_heard) -/
example : pitches (announce .success) = [1000, 1250, 1500, 1750] ∧ pitches (announce .failure) = [1750, 1500, 1250, 1000] ∧
    pitches (announce (.at .y .minus .start)) = [2700, 2700, 3500, 2000, 1500, 1500] ∧ pitches (announce (.at .y .minus .finish)) = [2700, 2700, 3500, 2000, 1500] := by decide +kernel

/-- a long stream of readings (that of C65_spinning_is_still) -/
example : ∃ d, calProgram (spinning 4213) = some d := by
  obtain ⟨d, _, _, h, _⟩ := C134_program (spinning 4213)
  exact ⟨d, h⟩

end Verif.Props
