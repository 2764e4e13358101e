import Verif.Model.SimLaunch
import Mathlib.Tactic.Linarith
import Mathlib.Tactic.NormNum
import Mathlib.Tactic.FieldSimp
import Mathlib.Tactic.Ring
import Mathlib.Algebra.Order.BigOperators.Group.List
/-
C129: the launch of the simulated rocket.
-/
namespace Verif.Props
open Verif Verif.Keyframe Verif.SimLaunch

/-- the thrust of the motor (in the simulator's unit) `t` seconds after ignition: rising to 2250 in 0.2 s, to 2600 at 1.3 s, falling to 2200 at 2.9 s and to nothing at 3.5 s -/
def motorThrust (t : ℚ) : ℚ :=
  if t ≤ 1 / 5 then 11250 * t
  else if t ≤ 13 / 10 then 2250 + 350 * (t - 1 / 5) / (11 / 10)
  else if t ≤ 29 / 10 then 2600 - 250 * (t - 13 / 10)
  else if t ≤ 7 / 2 then 2200 - 2200 * (t - 29 / 10) / (3 / 5)
  else 0

theorem curve_eq : curve = ⟨[1 / 5, 11 / 10, 8 / 5, 3 / 5], [0, 2250, 2600, 2200, 0]⟩ := by
  simp only [curve, Keyframe.new, Animation.addAbsolute, Animation.finish, List.nil_append, List.cons_append, List.sum_cons, List.sum_nil]
  norm_num

theorem curve_show (t : ℚ) : show_ lerpNum curve t = if t ≤ 7 / 2 then .frame (motorThrust t) else .finished := by
  rw [curve_eq]
  by_cases h1 : t ≤ 1 / 5
  · have n1 : ¬ t > 1 / 5 := by linarith
    rw [if_pos (by linarith)]
    simp only [show_, walk, if_neg n1, motorThrust, if_pos h1]
    norm_num [lerpNum]
    ring
  · have p1 : t > 1 / 5 := by linarith
    by_cases h2 : t ≤ 13 / 10
    · have n2 : ¬ t - 1 / 5 > 11 / 10 := by linarith
      rw [if_pos (by linarith)]
      simp only [show_, walk, if_pos p1, if_neg n2, motorThrust, if_neg h1, if_pos h2]
      norm_num [lerpNum]
      ring
    · have p2 : t - 1 / 5 > 11 / 10 := by linarith
      by_cases h3 : t ≤ 29 / 10
      · have n3 : ¬ t - 1 / 5 - 11 / 10 > 8 / 5 := by linarith
        rw [if_pos (by linarith)]
        simp only [show_, walk, if_pos p1, if_pos p2, if_neg n3, motorThrust, if_neg h1, if_neg h2, if_pos h3]
        norm_num [lerpNum]
        ring
      · have p3 : t - 1 / 5 - 11 / 10 > 8 / 5 := by linarith
        by_cases h4 : t ≤ 7 / 2
        · have n4 : ¬ t - 1 / 5 - 11 / 10 - 8 / 5 > 3 / 5 := by linarith
          rw [if_pos h4]
          simp only [show_, walk, if_pos p1, if_pos p2, if_pos p3, if_neg n4, motorThrust, if_neg h1, if_neg h2, if_neg h3, if_pos h4]
          norm_num [lerpNum]
          ring
        · have p4 : t - 1 / 5 - 11 / 10 - 8 / 5 > 3 / 5 := by linarith
          rw [if_neg h4]
          simp only [show_, walk, if_pos p1, if_pos p2, if_pos p3, if_pos p4]

/-- the thrust is positive while the motor burns, and never more than 2600 -/
theorem motorThrust_range (t : ℚ) (h0 : 0 < t) (h1 : t < 7 / 2) : 0 < motorThrust t ∧ motorThrust t ≤ 2600 := by
  unfold motorThrust
  split_ifs <;> constructor <;> (try rw [div_eq_mul_inv]) <;> norm_num <;> linarith

/-- frames of the simulation -/
def simFrames {R : Type} (fs : List (ℚ × R)) : List (Ev R) := fs.map fun x => .frame x.1 x.2

/-- the time the frames take -/
def frameTime {R : Type} (fs : List (ℚ × R)) : ℚ := (fs.map (·.1)).sum

theorem simRun_append {R : Type} (s : Sim R) (a b : List (Ev R)) : s.run (a ++ b) = (s.run a).bind fun s => s.run b := by
  induction a generalizing s with
  | nil => rfl
  | cons e a ih =>
    simp only [List.cons_append, Sim.run]
    cases s.step e with
    | none => rfl
    | some s => exact ih s

theorem simFrame_off {R : Type} (s : Sim R) (h : s.player = none) (fs : List (ℚ × R)) : s.run (simFrames fs) = some s := by
  induction fs with
  | nil => rfl
  | cons x fs ih =>
    simp only [simFrames, List.map_cons, Sim.run, Sim.step, Sim.frame, h]
    exact ih

theorem simFrame_burning {R : Type} (s : Sim R) (t d : ℚ) (r : R) (h : s.player = some ⟨curve, t⟩) :
    s.frame d r = if t + d ≤ 7 / 2 then ⟨s.mounts, some ⟨curve, t + d⟩, some (r, motorThrust (t + d) * (11 / 10))⟩ else ⟨s.mounts, none, s.force⟩ := by
  unfold Sim.frame
  rw [h]
  simp only [Player.update, curve_show]
  split_ifs <;> rfl

theorem sim_burning {R : Type} (fs : List (ℚ × R)) : ∀ (s : Sim R) (t : ℚ), s.player = some ⟨curve, t⟩ → (∀ x ∈ fs, 0 ≤ x.1) → t + frameTime fs ≤ 7 / 2 →
    s.run (simFrames fs) = some ⟨s.mounts, some ⟨curve, t + frameTime fs⟩, (fs.getLast?.map fun x => (x.2, motorThrust (t + frameTime fs) * (11 / 10))).or s.force⟩ := by
  induction fs with
  | nil =>
    intro s t h _ _
    obtain ⟨m, p, f⟩ := s
    cases h
    simp [simFrames, Sim.run, frameTime]
  | cons x fs ih =>
    intro s t h hpos hle
    have e : frameTime (x :: fs) = x.1 + frameTime fs := by simp [frameTime]
    have hfs : 0 ≤ frameTime fs := List.sum_nonneg (by
      intro y hy
      obtain ⟨z, hz, rfl⟩ := List.mem_map.mp hy
      exact hpos z (List.mem_cons_of_mem _ hz))
    rw [e] at hle
    have h1 : t + x.1 ≤ 7 / 2 := by linarith
    simp only [simFrames, List.map_cons, Sim.run, Sim.step, simFrame_burning s t x.1 x.2 h, if_pos h1]
    have := ih ⟨s.mounts, some ⟨curve, t + x.1⟩, some (x.2, motorThrust (t + x.1) * (11 / 10))⟩ (t + x.1) rfl (fun y hy => hpos y (List.mem_cons_of_mem _ hy)) (by linarith)
    simp only [simFrames] at this
    rw [this, e]
    have ea : t + x.1 + frameTime fs = t + (x.1 + frameTime fs) := by ring
    rw [ea]
    cases fs with
    | nil => simp [frameTime]
    | cons y fs =>
      rw [List.getLast?_cons_cons]
      cases hl : (y :: fs).getLast? with
      | none => simp at hl
      | some z => rfl

/-- **C129** While the motor burns: after the ignition of a rocket in a mount and frames of any lengths, together at most 3.5 s, the force on the motor tube is along its axis as it is turned in the last
of them, and 1.1 times the thrust at that time. -/
theorem C129_thrust {R : Type} (s : Sim R) (hm : s.mounts ≠ 0) (pre : List (ℚ × R)) (d : ℚ) (r : R) (hpos : ∀ x ∈ pre ++ [(d, r)], 0 ≤ x.1) (hle : frameTime (pre ++ [(d, r)]) ≤ 7 / 2) :
    ∃ s', s.run (.ignition :: simFrames (pre ++ [(d, r)])) = some s' ∧ s'.force = some (r, motorThrust (frameTime (pre ++ [(d, r)])) * (11 / 10)) := by
  simp only [Sim.run, Sim.step, if_neg hm]
  have := sim_burning (pre ++ [(d, r)]) ⟨s.mounts - 1, some (Player.new curve), s.force⟩ 0 rfl hpos (by simpa using hle)
  rw [this]
  exact ⟨_, rfl, by simp⟩

/-- **C129 (finding)** The motor never stops pushing: if no frame falls on the very end of the burn, then the force of the last frame before it stays on the motor tube for the rest of the simulation,
in the direction the tube had then, however many frames follow. -/
theorem C129_thrust_remains {R : Type} (s : Sim R) (hm : s.mounts ≠ 0) (pre : List (ℚ × R)) (d : ℚ) (r : R) (hpos : ∀ x ∈ pre ++ [(d, r)], 0 ≤ x.1)
    (h0 : 0 < frameTime (pre ++ [(d, r)])) (h1 : frameTime (pre ++ [(d, r)]) < 7 / 2) (d2 : ℚ) (r2 : R) (h2 : 7 / 2 < frameTime (pre ++ [(d, r)]) + d2) (more : List (ℚ × R)) :
    ∃ s' f, s.run (.ignition :: simFrames (pre ++ [(d, r)] ++ (d2, r2) :: more)) = some s' ∧ s'.player = none ∧ s'.force = some (r, f) ∧ 0 < f ∧
      f = motorThrust (frameTime (pre ++ [(d, r)])) * (11 / 10) := by
  have hb := sim_burning (pre ++ [(d, r)]) ⟨s.mounts - 1, some (Player.new curve), s.force⟩ 0 rfl hpos (by linarith)
  refine ⟨⟨s.mounts - 1, none, some (r, motorThrust (frameTime (pre ++ [(d, r)])) * (11 / 10))⟩, _, ?_, rfl, rfl, ?_, rfl⟩
  · simp only [Sim.run, Sim.step, if_neg hm]
    rw [simFrames, List.map_append, simRun_append]
    simp only [simFrames] at hb
    rw [hb]
    simp only [Option.bind_some, List.map_cons, Sim.run, Sim.step, zero_add, List.getLast?_concat, Option.map_some, Option.or_some]
    rw [simFrame_burning _ (frameTime (pre ++ [(d, r)])) d2 r2 rfl, if_neg (by linarith)]
    exact simFrame_off _ rfl more
  · have := (motorThrust_range _ h0 h1).1
    linarith

/-- at 60 frames per second the last frame before the end is up to a sixtieth of a second early: a case of the hypotheses, with 40 N left for good -/
example : ∃ s' : Sim Unit, (Sim.new Unit).run (.setup :: .ignition :: simFrames [(349 / 100, ()), (1 / 60, ()), (1000, ())]) = some s' ∧ s'.player = none ∧ s'.force = some ((), 121 / 3) := by
  have := C129_thrust_remains (R := Unit) ⟨1, none, none⟩ (by decide) [] (349 / 100) () (by norm_num) (by norm_num [frameTime]) (by norm_num [frameTime]) (1 / 60) ()
    (by norm_num [frameTime]) [(1000, ())]
  obtain ⟨s', f, h1, h2, h3, _, h5⟩ := this
  refine ⟨s', h1, h2, ?_⟩
  rw [h3, h5]
  norm_num [frameTime, motorThrust]

/-- how often an event of a kind is in a list -/
def clicks {R : Type} (p : Ev R → Bool) (l : List (Ev R)) : Nat := l.countP p

/-- the button "Setup Rocket" of the launch -/
def isSetup {R : Type} : Ev R → Bool
  | .setup => true
  | _ => false

/-- the button "Ignition" -/
def isIgnition {R : Type} : Ev R → Bool
  | .ignition => true
  | _ => false

/-- the buttons that need a mount -/
def needsMount {R : Type} : Ev R → Bool
  | .ignition => true
  | .angle => true
  | _ => false

theorem simFrame_mounts {R : Type} (s : Sim R) (d : ℚ) (r : R) : (s.frame d r).mounts = s.mounts := by
  unfold Sim.frame
  split
  · rfl
  · split <;> rfl

theorem simRun_mounts {R : Type} (l : List (Ev R)) : ∀ s : Sim R,
    match s.run l with
    | some s' => s'.mounts + clicks isIgnition l = s.mounts + clicks isSetup l
    | none => ∃ pre e post, l = pre ++ e :: post ∧ needsMount e = true ∧ clicks isIgnition pre = s.mounts + clicks isSetup pre := by
  induction l with
  | nil => intro s; simp [Sim.run, clicks]
  | cons e l ih =>
    intro s
    simp only [Sim.run]
    cases hs : s.step e with
    | none =>
      simp only
      refine ⟨[], e, l, rfl, ?_, ?_⟩
      · cases e <;> simp [Sim.step] at hs <;> rfl
      · cases e <;> simp [Sim.step] at hs <;> simp [clicks, hs]
    | some s1 =>
      simp only
      have hm : s1.mounts + clicks isIgnition [e] = s.mounts + clicks isSetup [e] := by
        cases e with
        | frame d r => simp only [Sim.step, Option.some.injEq] at hs; subst hs; simp [clicks, isIgnition, isSetup, simFrame_mounts]
        | setup => simp only [Sim.step, Option.some.injEq] at hs; subst hs; simp [clicks, isIgnition, isSetup]
        | angle =>
          simp only [Sim.step] at hs
          split at hs
          · simp at hs
          · cases hs; simp [clicks, isIgnition, isSetup]
        | ignition =>
          simp only [Sim.step] at hs
          split at hs
          · simp at hs
          · cases hs; simp [clicks, isIgnition, isSetup]; omega
      have hc : ∀ (p : Ev R → Bool) (x : List (Ev R)), clicks p (e :: x) = clicks p [e] + clicks p x := by
        intro p x
        simp only [clicks]
        rw [show e :: x = [e] ++ x from rfl, List.countP_append]
      have := ih s1
      cases hr : s1.run l with
      | none =>
        rw [hr] at this
        obtain ⟨pre, e', post, q1, q2, q3⟩ := this
        refine ⟨e :: pre, e', post, by rw [q1]; rfl, q2, ?_⟩
        rw [hc isIgnition pre, hc isSetup pre, q3]; omega
      | some s' =>
        rw [hr] at this
        simp only at this ⊢
        rw [hc isIgnition, hc isSetup]; omega

/-- **C129** Whatever is clicked: the rocket stands in as many mounts as it was set up more often than ignited; the simulator dies only if "Ignition" or "Set Launch Angle" is clicked when there is no mount. -/
theorem C129_mounts {R : Type} (l : List (Ev R)) :
    match (Sim.new R).run l with
    | some s => s.mounts + clicks isIgnition l = clicks isSetup l
    | none => ∃ pre e post, l = pre ++ e :: post ∧ needsMount e = true ∧ clicks isIgnition pre = clicks isSetup pre := by
  have := simRun_mounts l (Sim.new R)
  simpa [Sim.new] using this

/-- **C129 (finding)** The simulator dies if a rocket that is not in a mount is ignited, also if it was ignited before. -/
theorem C129_ignition_panics {R : Type} (s : Sim R) (h : s.mounts = 0) (l : List (Ev R)) : s.run (.ignition :: l) = none ∧ s.run (.angle :: l) = none := by
  simp [Sim.run, Sim.step, h]

/-- **C129 (finding)** A rocket that was set up twice is still held when its motor burns. -/
theorem C129_set_up_twice_held {R : Type} (fs : List (ℚ × R)) : ∃ s, (Sim.new R).run (.setup :: .setup :: .ignition :: simFrames fs) = some s ∧ s.mounts = 1 := by
  have := C129_mounts (R := R) (.setup :: .setup :: .ignition :: simFrames fs)
  have hf : clicks isIgnition (simFrames fs) = 0 ∧ clicks isSetup (simFrames fs) = 0 := by
    constructor <;> simp [clicks, simFrames, isIgnition, isSetup]
  cases hr : (Sim.new R).run (.setup :: .setup :: .ignition :: simFrames fs) with
  | none =>
    exfalso
    have hn : ∀ (g : List (ℚ × R)) (s : Sim R), s.run (simFrames g) ≠ none := by
      intro g
      induction g with
      | nil => intro s; simp [simFrames, Sim.run]
      | cons x g ih => intro s; exact ih _
    exact hn fs _ hr
  | some s =>
    rw [hr] at this
    refine ⟨s, rfl, ?_⟩
    simp only [clicks, List.countP_cons, isIgnition, isSetup] at this hf
    simp at this
    omega

end Verif.Props
