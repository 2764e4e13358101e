import Verif.Spec.VirtSensor
import Mathlib.Data.List.Induction
/- C117: the virtual sensors and switches of the Simulink bridge. -/
namespace Verif.Props
open Verif.Virt

theorem sensorRun_append {α : Type} (a b : List (SensorOp α)) : ∀ s : Option α, sensorRun s (a ++ b) = ((sensorRun s a).1 ++ (sensorRun (sensorRun s a).2 b).1, (sensorRun (sensorRun s a).2 b).2) := by
  induction a with
  | nil => intro s; rfl
  | cons o a ih => intro s; cases o <;> simp [sensorRun, ih]

/-- **C117 (sensor)**: a read returns the reading given last, if one was given since the read before; if none was given, at first or since the read before, it panics. -/
theorem C117_sensor {α : Type} (ops : List (SensorOp α)) (r : α) : readAfter (ops ++ [.put r]) = some (some r) ∧ readAfter (ops ++ [.read]) = some none ∧ readAfter ([] : List (SensorOp α)) = some none := by
  refine ⟨?_, ?_, rfl⟩
  · unfold readAfter; rw [sensorRun_append, sensorRun_append]; simp [sensorRun, sensorRead, sensorPut]
  · unfold readAfter; rw [sensorRun_append, sensorRun_append]; simp [sensorRun, sensorRead]

/-- **C117 (sensor, order)**: what the firmware reads is among what the simulation gave, in that order, no reading twice. -/
theorem C117_sensor_order {α : Type} (ops : List (SensorOp α)) : List.Sublist ((sensorRun none ops).1.filterMap fun x => x) (given ops) := by
  have key : ∀ (ops : List (SensorOp α)) (s : Option α), List.Sublist ((sensorRun s ops).1.filterMap fun x => x) (s.toList ++ given ops) := by
    intro ops
    induction ops with
    | nil => intro s; simp [sensorRun]
    | cons o ops ih =>
      intro s
      cases o with
      | put r => exact (ih (some r)).trans (List.sublist_append_right _ _)
      | read =>
        have h := ih none
        cases s with
        | none => simpa [sensorRun, sensorRead, given] using h
        | some x => simpa [sensorRun, sensorRead, given] using h
  exact key ops none

/-- **C117 (sensor, overwritten)**: of several readings given without a read in between, the firmware sees the last only. -/
theorem C117_sensor_overwrite {α : Type} (ops : List (SensorOp α)) (l : List α) (r : α) :
    (sensorRun none (ops ++ (l ++ [r]).map .put ++ [.read])).1 = (sensorRun none ops).1 ++ [some r] := by
  rw [sensorRun_append, sensorRun_append]
  have : ∀ (l : List α) (s : Option α), sensorRun s ((l ++ [r]).map .put) = ([], some r) := by
    intro l
    induction l with
    | nil => intro s; rfl
    | cons x l ih => intro s; exact ih _
  rw [this]
  simp [sensorRun, sensorRead]

example : (sensorRun none [.put 1, .put 2, .read, .put 3, .read, .read]).1 = [some 2, some 3, none] := rfl

theorem switch_append (a b : List SwitchOp) : ∀ s : Switch, s.run (a ++ b) = ((s.run a).1 ++ ((s.run a).2.run b).1, ((s.run a).2.run b).2) := by
  induction a with
  | nil => intro s; rfl
  | cons o a ih => intro s; simp only [List.cons_append, Switch.run, ih, List.append_assoc]

theorem reported_append (a b : List SwitchRes) : reported (a ++ b) = reported a ++ reported b := by
  induction a with
  | nil => rfl
  | cons o a ih => cases o <;> simp [reported, ih]

theorem position_snoc (ops : List SwitchOp) (o : SwitchOp) : position (ops ++ [o]) = match o with | .put b => b | _ => position ops := by
  rw [position, List.foldl_append]
  cases o <;> rfl

/-- state of a switch after a history -/
theorem switch_state (ops : List SwitchOp) : (Switch.new.run ops).2.on = position ops ∧
    (∀ b, (Switch.new.run ops).2.signal = some b → b = position ops) ∧
    ((Switch.new.run ops).2.signal = none → (reported (Switch.new.run ops).1).getLastD false = position ops) := by
  induction ops using List.reverseRecOn with
  | nil => exact ⟨rfl, by simp [Switch.run, Switch.new], fun _ => rfl⟩
  | append_singleton ops o ih =>
    rw [switch_append, position_snoc]
    generalize hs : (Switch.new.run ops).2 = s at ih
    obtain ⟨h1, h2, h3⟩ := ih
    cases o with
    | put b =>
      simp only [Switch.run, Switch.step, List.append_nil, Switch.set]
      split
      · simp
      · rename_i hb
        have hb' : s.on = b := by simpa using hb
        rw [← hb', h1]
        exact ⟨rfl, h2, h3⟩
    | read =>
      refine ⟨h1, h2, fun hn => ?_⟩
      simpa [Switch.run, Switch.step, reported_append, reported] using h3 hn
    | wait =>
      simp only [Switch.run, Switch.step, List.append_nil, Switch.wait]
      split
      · rename_i b hb
        refine ⟨h1, by simp, fun _ => ?_⟩
        have hb' : some b = s.signal := hb.symm
        simp [reported_append, reported, h2 b hb]
      · rename_i hb
        refine ⟨h1, h2, fun _ => ?_⟩
        simpa [reported_append, reported] using h3 hb

/-- **C117 (switch, read)**: reading a switch gives the position it was last put to. -/
theorem C117_switch_read (ops : List SwitchOp) : switchAt ops .read = [.read (position ops)] := by
  have h := (switch_state ops).1
  unfold switchAt
  show [SwitchRes.read _] = _
  rw [h]

/-- **C117 (switch, wait)**: a wait that returns gives the position of the switch, and one that does not finds the firmware informed: what was reported last (off if nothing was) is the position. So firmware that follows
the waits never keeps a wrong position while the switch is at rest. -/
theorem C117_switch_follow (ops : List SwitchOp) : switchAt ops .wait = [.change (position ops)] ∨
    (switchAt ops .wait = [.pending] ∧ (reported (Switch.new.run ops).1).getLastD false = position ops) := by
  obtain ⟨h1, h2, h3⟩ := switch_state ops
  unfold switchAt
  show [(Switch.wait _).1] = _ ∨ ([(Switch.wait _).1] = _ ∧ _)
  unfold Switch.wait
  split
  · rename_i b hb
    rw [← h2 b hb]; exact .inl rfl
  · rename_i hb
    exact .inr ⟨rfl, h3 hb⟩

/-- **C117 (switch, changes)**: a wait after a change of position returns; and the reports are among the changes, in order, no change reported twice. -/
theorem C117_switch_changes (ops : List SwitchOp) : List.Sublist (reported (Switch.new.run ops).1) (changes false ops) ∧
    ∀ b, b ≠ position ops → switchAt (ops ++ [.put b]) .wait = [.change b] := by
  constructor
  · have key : ∀ (ops : List SwitchOp) (s : Switch), List.Sublist (reported (s.run ops).1) (s.signal.toList ++ changes s.on ops) := by
      intro ops
      induction ops with
      | nil => intro s; simp [Switch.run, reported]
      | cons o ops ih =>
        intro s
        cases o with
        | put b =>
          have h := ih (s.set b)
          simp only [Switch.run, Switch.step, List.nil_append, changes]
          unfold Switch.set at h ⊢
          by_cases hb : s.on = b
          · simp only [hb, ne_eq, not_true, if_false] at h ⊢
            rw [if_pos trivial]; exact h
          · simp only [ne_eq, hb, not_false_eq_true, if_true] at h ⊢
            rw [if_neg (fun e => hb e.symm)]
            exact h.trans (List.sublist_append_right _ _)
        | read => simpa [Switch.run, Switch.step, reported, changes] using ih s
        | wait =>
          simp only [Switch.run, Switch.step, changes, reported_append]
          unfold Switch.wait
          split
          · rename_i b hb
            rw [hb]
            have h := ih ⟨s.on, none⟩
            simpa [reported] using h
          · have h := ih s
            simpa [reported] using h
    exact key ops Switch.new
  · intro b hb
    obtain ⟨h1, _, _⟩ := switch_state ops
    unfold switchAt
    rw [switch_append]
    show [(Switch.wait (Switch.set _ b)).1] = _
    unfold Switch.set
    rw [h1, if_pos (Ne.symm hb)]
    rfl

/-- **C117 (finding: a change that is none)**: a switch put back and forth between two waits is reported as changed to the position the firmware knows already, and the other position is never seen. -/
theorem C117_switch_stutter (ops : List SwitchOp) (b : Bool) (hb : b ≠ position ops) (hw : switchAt ops .wait = [.pending]) :
    reported (Switch.new.run (ops ++ [.put b, .put (position ops), .wait])).1 = reported (Switch.new.run ops).1 ++ [position ops] ∧
    (reported (Switch.new.run ops).1).getLastD false = position ops := by
  rcases C117_switch_follow ops with h | ⟨_, h⟩
  · rw [hw] at h; cases h
  refine ⟨?_, h⟩
  rw [switch_append, reported_append]
  congr 1
  obtain ⟨h1, _, _⟩ := switch_state ops
  generalize (Switch.new.run ops).2 = s at h1
  have e : s.set b = ⟨b, some b⟩ := by unfold Switch.set; rw [if_pos (by rw [h1]; exact Ne.symm hb)]
  simp only [Switch.run, Switch.step, e, List.nil_append]
  unfold Switch.set
  rw [if_pos hb]
  rfl

example : switchAt [.put true, .wait] .wait = [.pending] ∧ (false : Bool) ≠ position [.put true, .wait] := by decide

/-- **C117 (outputs)**: what the simulation reads of a pyro channel or an indicator is what the firmware set last, off at first. -/
theorem C117_output (sets : List Bool) (b : Bool) : outputRun [] = false ∧ outputRun (sets ++ [b]) = b := by
  constructor
  · rfl
  · simp [outputRun]

end Verif.Props
