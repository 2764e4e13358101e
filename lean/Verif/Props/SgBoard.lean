import Verif.Model.SgBoard
import Mathlib.Tactic.Linarith
import Mathlib.Tactic.NormNum
import Mathlib.Algebra.Order.Archimedean.Basic
import Mathlib.Data.Rat.Floor
/-
C131: the strain gauge board: its lamp and the time syncs of its battery log.
-/
namespace Verif.Props
open Verif Verif.SgBoard

/-- what the lamp is to tell -/
inductive LampSays
  | usbConnected | error | recording | idle
  deriving DecidableEq

/-- the most important thing that is the case -/
def lampSays (usb canError adcError recording : Bool) : LampSays :=
  if usb then .usbConnected else if canError || adcError then .error else if recording then .recording else .idle

/-- **C131** The lamp tells which of the four is the case: two states blink alike only if they say the same. Each pattern switches the lamp on first, and none takes longer than a second. -/
theorem C131_lamp (e e' : Errors) :
    (blink e = blink e' ↔ lampSays e.usb e.canBus e.sgAdc e.recording = lampSays e'.usb e'.canBus e'.sgAdc e'.recording) ∧ (blink e).sum ≤ 1000 ∧ 0 < (blink e).sum ∧
      (blink e).length % 2 = 0 ∧ (∀ d ∈ blink e, 0 < d) := by
  obtain ⟨a, b, c, d⟩ := e
  obtain ⟨a', b', c', d'⟩ := e'
  refine ⟨?_, ?_, ?_, ?_, ?_⟩
  · revert a b c d a' b' c' d'; decide
  · revert a b c d; decide
  · revert a b c d; decide
  · revert a b c d; decide
  · revert a b c d; decide

theorem cycleStart_step (states : ℚ → Errors) (late : Nat → ℚ) (m : ℚ) (h : ∀ k, 0 ≤ late k ∧ late k ≤ m) (k : Nat) :
    cycleStart states late k + 200 ≤ cycleStart states late (k + 1) ∧ cycleStart states late (k + 1) ≤ cycleStart states late k + 1000 + m := by
  have hb : ∀ e : Errors, (200 : ℚ) ≤ ((blink e).sum : ℕ) ∧ (((blink e).sum : ℕ) : ℚ) ≤ 1000 := by
    rintro ⟨a, b, c, d⟩
    have : 200 ≤ (blink ⟨a, b, c, d⟩).sum ∧ (blink ⟨a, b, c, d⟩).sum ≤ 1000 := by revert a b c d; decide
    exact ⟨by exact_mod_cast this.1, by exact_mod_cast this.2⟩
  have := hb (states (cycleStart states late k))
  have := h k
  simp only [cycleStart]
  constructor <;> linarith

/-- **C131** At any time, the lamp shows what was the case at most a second ago (and `m` ms more, if delays are up to `m` ms late): a cycle that began since then shows the state at its beginning. -/
theorem C131_lamp_follows (states : ℚ → Errors) (late : Nat → ℚ) (m : ℚ) (h : ∀ k, 0 ≤ late k ∧ late k ≤ m) (t : ℚ) (ht : 0 ≤ t) :
    ∃ k, cycleStart states late k ≤ t ∧ t < cycleStart states late (k + 1) ∧ t - cycleStart states late k < 1000 + m := by
  have hgrow : ∀ k : Nat, (200 : ℚ) * k ≤ cycleStart states late k := by
    intro k
    induction k with
    | zero => simp [cycleStart]
    | succ k ih =>
      have := (cycleStart_step states late m h k).1
      push_cast
      linarith
  have hex : ∃ k : Nat, t < cycleStart states late (k + 1) := by
    obtain ⟨n, hn⟩ := exists_nat_gt t
    refine ⟨n, ?_⟩
    have := hgrow (n + 1)
    push_cast at this
    have hn0 : (0 : ℚ) ≤ n := Nat.cast_nonneg n
    linarith
  classical
  have hf := Nat.find_spec hex
  have hlow : cycleStart states late (Nat.find hex) ≤ t := by
    rcases Nat.eq_zero_or_pos (Nat.find hex) with h0 | h0
    · rw [h0]; exact ht
    · obtain ⟨j, hj⟩ : ∃ j, Nat.find hex = j + 1 := ⟨Nat.find hex - 1, by omega⟩
      have := Nat.find_min hex (m := j) (by omega)
      rw [hj]
      exact not_lt.mp this
  refine ⟨Nat.find hex, hlow, hf, ?_⟩
  have := (cycleStart_step states late m h (Nat.find hex)).2
  linarith

/-- a list without direct repetitions: each entry that equals the last one kept is dropped -/
def withoutRepeats {U : Type} [DecidableEq U] : Option U → List U → List U
  | _, [] => []
  | l, u :: us => if l = some u then withoutRepeats l us else u :: withoutRepeats (some u) us

/-- the newest time sync at each look of the battery task -/
def newestAtTicks {U : Type} : Option U → List (Ev U) → List U
  | _, [] => []
  | _, .canMessage (some u) :: l => newestAtTicks (some u) l
  | n, .batteryTick :: l => n.toList ++ newestAtTicks n l
  | n, _ :: l => newestAtTicks n l

theorem sgBoard_battery {U : Type} [DecidableEq U] (l : List (Ev U)) : ∀ b : Board U,
    (b.run l).battery = b.battery ++ withoutRepeats b.lastBattery (newestAtTicks (b.unix.map (·.1)) l) := by
  induction l with
  | nil => intro b; simp [Board.run, newestAtTicks, withoutRepeats]
  | cons e l ih =>
    intro b
    have hr : b.run (e :: l) = (b.step e).run l := rfl
    rw [hr, ih]
    cases e with
    | adc ok => rfl
    | usbAtBoot => rfl
    | startRecording => rfl
    | canError => rfl
    | health => rfl
    | sgReading n =>
      simp only [Board.step, newestAtTicks]
      cases hu : b.unix with
      | none => simp [hu]
      | some x =>
        simp only
        split_ifs <;> simp [hu]
    | canMessage s => cases s <;> rfl
    | batteryTick =>
      simp only [Board.step, newestAtTicks]
      cases hu : b.unix with
      | none => simp [hu]
      | some x =>
        cases hl : b.lastBattery with
        | none => simp [withoutRepeats, hu]
        | some y =>
          simp only
          by_cases hxy : x.1 = y
          · simp [withoutRepeats, hu, hl, hxy]
          · rw [if_pos hxy]
            have : ¬(y = x.1) := fun h => hxy h.symm
            simp [withoutRepeats, hu, this]

/-- **C131** Whatever the tasks do, and in whatever order: the battery log gets the newest time sync at each look, every five minutes, except those that it got last. -/
theorem C131_battery_syncs {U : Type} [DecidableEq U] (l : List (Ev U)) : ((Board.new U).run l).battery = withoutRepeats none (newestAtTicks none l) := by
  rw [sgBoard_battery]; rfl

/-- **C131** No time sync is in the battery log twice in a row -/
theorem C131_no_repeats {U : Type} [DecidableEq U] (l : List (Ev U)) : ((Board.new U).run l).battery.IsChain (· ≠ ·) := by
  rw [C131_battery_syncs]
  have : ∀ (x : List U) (o : Option U), (o.toList ++ withoutRepeats o x).IsChain (· ≠ ·) := by
    intro x
    induction x with
    | nil => intro o; cases o <;> simp [withoutRepeats]
    | cons u x ih =>
      intro o
      simp only [withoutRepeats]
      split
      · exact ih o
      next hne =>
        have := ih (some u)
        cases o with
        | none => simpa using this
        | some y =>
          simp only [Option.toList_some, List.cons_append, List.nil_append] at this ⊢
          refine List.isChain_cons_cons.mpr ⟨?_, this⟩
          rintro rfl
          exact hne rfl
  simpa using this (newestAtTicks none l) none

/-- **C131** The health message says whether there was no error when it was sent: the last event of either kind decides -/
theorem C131_health {U : Type} [DecidableEq U] (l : List (Ev U)) (b : Board U) :
    (b.run (l ++ [.health])).health = (b.run l).health ++ [!((b.run l).errors.canBus || (b.run l).errors.sgAdc)] := by
  simp [Board.run, List.foldl_append, Board.step]

/-- **C131 (finding)** On the board as it is started, whatever its tasks do: the CAN bus is never found to be broken, no health message is ever sent, and no time sync ever comes, so that neither the readings nor the battery log
can be related to the time of day. -/
theorem C131_can_never_runs {U : Type} [DecidableEq U] (l : List (Ev U)) (h : ∀ e ∈ l, started e = true) :
    ((Board.new U).run l).errors.canBus = false ∧ ((Board.new U).run l).health = [] ∧ ((Board.new U).run l).unix = none ∧ ((Board.new U).run l).battery = [] := by
  have : ∀ b : Board U, b.errors.canBus = false → b.health = [] → b.unix = none → b.battery = [] →
      (b.run l).errors.canBus = false ∧ (b.run l).health = [] ∧ (b.run l).unix = none ∧ (b.run l).battery = [] := by
    induction l with
    | nil => intro b h1 h2 h3 h4; exact ⟨h1, h2, h3, h4⟩
    | cons e l ih =>
      intro b h1 h2 h3 h4
      have he := h e List.mem_cons_self
      have hr : b.run (e :: l) = (b.step e).run l := rfl
      rw [hr]
      refine ih (fun x hx => h x (List.mem_cons_of_mem _ hx)) _ ?_ ?_ ?_ ?_ <;> cases e <;> simp [started] at he <;> simp [Board.step, h1, h2, h3, h4]
  exact this _ rfl rfl rfl rfl

/-- what the lamp says after events of the tasks that are started: USB if it was connected at the start, else whether the last ADC read failed, else whether the board records -/
theorem C131_started_errors {U : Type} [DecidableEq U] (l : List (Ev U)) (h : ∀ e ∈ l, started e = true) :
    ((Board.new U).run l).errors = ⟨false, l.foldl (fun x e => match e with | .adc ok => !ok | _ => x) false, l.any (fun e => match e with | .usbAtBoot => true | _ => false),
      l.any (fun e => match e with | .startRecording => true | _ => false)⟩ := by
  have : ∀ b : Board U, (b.run l).errors = ⟨b.errors.canBus, l.foldl (fun x e => match e with | .adc ok => !ok | _ => x) b.errors.sgAdc,
      b.errors.usb || l.any (fun e => match e with | .usbAtBoot => true | _ => false), b.errors.recording || l.any (fun e => match e with | .startRecording => true | _ => false)⟩ := by
    induction l with
    | nil => intro b; simp [Board.run]
    | cons e l ih =>
      intro b
      have he := h e List.mem_cons_self
      have hr : b.run (e :: l) = (b.step e).run l := rfl
      rw [hr, ih (fun x hx => h x (List.mem_cons_of_mem _ hx))]
      cases e with
      | canMessage _ => simp [started] at he
      | canError => simp [started] at he
      | health => simp [started] at he
      | adc ok => simp [Board.step]
      | usbAtBoot => simp [Board.step]
      | startRecording => simp [Board.step]
      | sgReading n =>
        simp only [Board.step]
        split <;> [split_ifs; skip] <;> simp
      | batteryTick =>
        simp only [Board.step]
        split <;> [split <;> [split_ifs; skip]; skip] <;> simp
  simpa [Board.new] using this (Board.new U)

/-- three looks after a sync, and one after the next (a case of the theorems) -/
example : ((Board.new Nat).run [.batteryTick, .canMessage (some 5), .batteryTick, .sgReading true, .batteryTick, .canMessage none, .batteryTick, .canMessage (some 6), .canMessage (some 7), .batteryTick]).battery = [5, 7] := by decide

end Verif.Props
