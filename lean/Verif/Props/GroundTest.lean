import Verif.Model.GroundTest
/-
C64: continuity and control address the selected channel. C77: the ground test fires one channel once.
-/
namespace Verif.Props

open Verif Vlp Gt

/-- C64: switching a channel on and off addresses a different device for each selection -/
theorem C64_ctrl : ∀ a b : Pyro, ctrlDev a = ctrlDev b → a = b := by intro a b; cases a <;> cases b <;> decide

/-- the number of the channel a device belongs to -/
def channelOf : Dev → Pyro
  | .ctrl1 => .pyro1
  | .ctrl2 => .pyro2
  | .ctrl3 => .pyro3
  | .cont1 => .pyro1
  | .cont2 => .pyro2
  | .cont3 => .pyro3

/-- C64: control goes to the selected channel -/
theorem C64_ctrl_selected (a : Pyro) : channelOf (ctrlDev a) = a := by cases a <;> rfl

/-- C64 (finding): continuity is read on the selected channel except for channel 3, where it is read on channel 2 -/
theorem C64_cont (a : Pyro) : channelOf (contDev a) = a ↔ a ≠ .pyro3 := by cases a <;> decide

/-- C64 (finding): so for channel 3, control and continuity address different channels -/
theorem C64_mismatch : channelOf (contDev .pyro3) = .pyro2 ∧ channelOf (ctrlDev .pyro3) = .pyro3 := ⟨rfl, rfl⟩

theorem cont_snoc (sel : ContTask → Pyro) (l : List (ContTask × Bool × Bool)) (x : ContTask × Bool × Bool) :
    Cont.run sel (l ++ [x]) = (Cont.run sel l).poll sel x.1 x.2.1 x.2.2 := by
  unfold Cont.run
  rw [List.foldl_append]
  rfl

/-- the other task -/
def ContTask.other : ContTask → ContTask
  | .main => .drogue
  | .drogue => .main

/-- reports of a task -/
def Cont.reports (c : Cont) : ContTask → List Bool
  | .main => c.mainReports
  | .drogue => c.drogueReports

/-- what a task should report: its first poll, then every change -/
def wanted (k : ContTask) : List (ContTask × Bool × Bool) → List Bool
  | [] => []
  | (j, v, ch) :: l => if j = k then v :: (l.filter fun x => decide (x.1 = k) && x.2.2).map (fun x => x.2.1) else wanted k l

theorem wanted_snoc (k : ContTask) (l : List (ContTask × Bool × Bool)) (x : ContTask × Bool × Bool) :
    wanted k (l ++ [x]) = wanted k l ++ if x.1 = k then (if l.any (fun y => decide (y.1 = k)) = true ∧ x.2.2 = false then [] else [x.2.1]) else [] := by
  obtain ⟨j, v, ch⟩ := x
  induction l with
  | nil => simp [wanted]
  | cons y l ih =>
    obtain ⟨i, w, c2⟩ := y
    simp only [List.cons_append, wanted]
    by_cases hi : i = k
    · subst hi
      simp only [if_true, List.any_cons, decide_true, Bool.true_or, true_and]
      rw [List.filter_append, List.map_append]
      by_cases hj : j = i
      · subst hj
        cases ch <;> simp
      · simp [hj]
    · simp only [hi, if_false, ih, List.any_cons, decide_false, Bool.false_or]

theorem report_self (c : Cont) (k : ContTask) (v : Bool) : Cont.reports (c.report k v) k = Cont.reports c k ++ [v] := by cases k <;> rfl

theorem report_other (c : Cont) (j k : ContTask) (v : Bool) (h : j ≠ k) : Cont.reports (c.report j v) k = Cont.reports c k := by cases j <;> cases k <;> first | exact absurd rfl h | rfl

theorem report_panicked (c : Cont) (k : ContTask) (v : Bool) : (c.report k v).panicked = c.panicked ∧ (c.report k v).holder = c.holder := by cases k <;> exact ⟨rfl, rfl⟩

/-- C64: with continuity devices of their own, both tasks report their first reading and every change, however they are scheduled, and no claim fails -/
theorem C64_reports (sel : ContTask → Pyro) (hd : contDev (sel .main) ≠ contDev (sel .drogue)) (l : List (ContTask × Bool × Bool)) (k : ContTask) :
    Cont.reports (Cont.run sel l) k = wanted k l ∧ (Cont.run sel l).panicked = false := by
  have hne : ∀ i j : ContTask, i ≠ j → contDev (sel i) ≠ contDev (sel j) := by
    intro i j h
    cases i <;> cases j <;> first | exact absurd rfl h | exact hd | exact hd.symm
  have key : ∀ l : List (ContTask × Bool × Bool), (Cont.run sel l.reverse).panicked = false ∧ ∀ k, Cont.reports (Cont.run sel l.reverse) k = wanted k l.reverse ∧
      (Cont.run sel l.reverse).holder (contDev (sel k)) = if l.reverse.any (fun y => decide (y.1 = k)) = true then some k else none := by
    intro l
    induction l with
    | nil => exact ⟨rfl, fun k => by cases k <;> exact ⟨rfl, rfl⟩⟩
    | cons x l ih =>
      obtain ⟨ihp, ih⟩ := ih
      obtain ⟨j, v, ch⟩ := x
      have ihj := ih j
      have step : (Cont.run sel (l.reverse ++ [(j, v, ch)])) =
          if l.reverse.any (fun y => decide (y.1 = j)) = true then (if ch = true then (Cont.run sel l.reverse).report j v else Cont.run sel l.reverse)
          else { (Cont.run sel l.reverse).report j v with holder := fun e => if e = contDev (sel j) then some j else (Cont.run sel l.reverse).holder e } := by
        rw [cont_snoc]
        unfold Cont.poll
        simp only [ihp, ihj.2, Bool.false_eq_true, if_false]
        by_cases ha : l.reverse.any (fun y => decide (y.1 = j)) = true
        · simp only [ha, if_true]
        · simp only [ha, Bool.false_eq_true, if_false]
      rw [List.reverse_cons, step]
      refine ⟨?_, fun k => ?_⟩
      · split
        · split
          · rw [(report_panicked ..).1, ihp]
          · exact ihp
        · exact (report_panicked ..).1.trans ihp
      · rw [wanted_snoc]
        have ihk := ih k
        simp only [List.any_append, List.any_cons, List.any_nil, Bool.or_false]
        by_cases hk : j = k
        · subst hk
          simp only [decide_true, Bool.or_true, if_true]
          by_cases ha : l.reverse.any (fun y => decide (y.1 = j)) = true
          · have h2 := ihk.2
            rw [if_pos ha] at h2
            simp only [ha, if_true, true_and]
            cases ch with
            | true =>
              simp only [if_true, Bool.true_eq_false, if_false]
              exact ⟨by rw [report_self, ihk.1], by rw [(report_panicked ..).2, h2]⟩
            | false =>
              simp only [Bool.false_eq_true, if_false, if_true, List.append_nil]
              exact ⟨ihk.1, h2⟩
          · simp only [ha]
            simp only [Bool.false_eq_true, if_false, false_and]
            refine ⟨?_, by simp⟩
            show Cont.reports (Cont.report _ j v) j = _
            rw [report_self, ihk.1]
        · simp only [hk, decide_false, Bool.or_false, if_false, List.append_nil]
          rw [← ihk.1, ← ihk.2]
          by_cases ha : l.reverse.any (fun y => decide (y.1 = j)) = true
          · rw [if_pos ha]
            split
            · exact ⟨report_other _ _ _ _ hk, by rw [(report_panicked ..).2]⟩
            · exact ⟨rfl, rfl⟩
          · rw [if_neg ha]
            exact ⟨report_other _ _ _ _ hk, if_neg (fun h => hne j k hk h.symm)⟩
  have := key l.reverse
  rw [List.reverse_reverse] at this
  exact ⟨(this.2 k).1, this.1⟩

/-- C64 (finding): if both parachutes' continuity is read on the same device, as with channels 2 and 3 or with equal selections, the firmware panics as soon as both continuity tasks have
run once (both run in the first poll of the flight software); only the task that runs first ever reports -/
theorem C64_crash (sel : ContTask → Pyro) (hd : contDev (sel .main) = contDev (sel .drogue)) (l : List (ContTask × Bool × Bool)) (h1 : ∃ x ∈ l, x.1 = .main) (h2 : ∃ x ∈ l, x.1 = .drogue) :
    (Cont.run sel l).panicked = true ∧ ∃ k, Cont.reports (Cont.run sel l) k = [] := by
  have hsame : ∀ i j : ContTask, contDev (sel i) = contDev (sel j) := by intro i j; cases i <;> cases j <;> first | rfl | exact hd | exact hd.symm
  cases l with
  | nil => obtain ⟨x, hx, _⟩ := h1; simp at hx
  | cons y l =>
    obtain ⟨k, v, ch⟩ := y
    have key : ∀ (l : List (ContTask × Bool × Bool)) (c : Cont), Cont.reports c (ContTask.other k) = [] → c.holder (contDev (sel k)) = some k →
        (c.panicked = true ∨ ∃ x ∈ l, x.1 = ContTask.other k) →
        (l.foldl (fun c x => c.poll sel x.1 x.2.1 x.2.2) c).panicked = true ∧ Cont.reports (l.foldl (fun c x => c.poll sel x.1 x.2.1 x.2.2) c) (ContTask.other k) = [] := by
      intro l
      induction l with
      | nil =>
        intro c h _ hp
        rcases hp with hp | ⟨x, hx, _⟩
        · exact ⟨hp, h⟩
        · simp at hx
      | cons x l ih =>
        intro c h0 h1 hp
        obtain ⟨j, w, cc⟩ := x
        rw [List.foldl_cons]
        by_cases hpan : c.panicked = true
        · have : c.poll sel j w cc = c := by unfold Cont.poll; simp only [hpan, if_true]
          rw [this]
          exact ih c h0 h1 (.inl hpan)
        · have hp2 : c.poll sel j w cc = if k = j then (if cc = true then c.report j w else c) else { c with panicked := true } := by
            unfold Cont.poll
            simp only [hsame j k, h1, hpan, Bool.false_eq_true, if_false]
          rw [hp2]
          by_cases hj : k = j
          · subst hj
            simp only [if_true]
            have hrest : ∃ x ∈ l, x.1 = ContTask.other k := by
              rcases hp with hp | ⟨x, hx, hx2⟩
              · exact absurd hp hpan
              · rcases List.mem_cons.mp hx with rfl | hx
                · cases k <;> simp [ContTask.other] at hx2
                · exact ⟨x, hx, hx2⟩
            split
            · refine ih _ ?_ ?_ (.inr hrest)
              · rw [report_other _ _ _ _ (by cases k <;> simp [ContTask.other]), h0]
              · rw [(report_panicked ..).2]; exact h1
            · exact ih c h0 h1 (.inr hrest)
          · rw [if_neg hj]
            exact ih _ h0 h1 (.inl rfl)
    have := key l (Cont.init.poll sel k v ch) (by cases k <;> rfl) (by unfold Cont.poll; simp [Cont.init]) (.inr (by
      have hsel : ∃ x ∈ ((k, v, ch) :: l), x.1 = ContTask.other k := by cases k <;> assumption
      obtain ⟨x, hx, hx2⟩ := hsel
      rcases List.mem_cons.mp hx with rfl | hx
      · cases k <;> simp [ContTask.other] at hx2
      · exact ⟨x, hx, hx2⟩))
    exact ⟨this.1, _, this.2⟩

/-- channels 2 and 3 are such a pair, channels 1 and 3 are not -/
example : contDev .pyro2 = contDev .pyro3 ∧ contDev .pyro1 ≠ contDev .pyro3 := by decide

/-- the first packet of a history, with its time and the steps after it -/
def firstPacket : List Op → Option (Uplink × Nat)
  | [] => none
  | .packet p now :: _ => some (p, now)
  | _ :: l => firstPacket l

theorem firstPacket_snoc (l : List Op) (o : Op) : firstPacket (l ++ [o]) = match firstPacket l with | some x => some x | none => match o with | .packet p now => some (p, now) | _ => none := by
  induction l with
  | nil => cases o <;> rfl
  | cons x l ih => cases x <;> simp only [List.cons_append, firstPacket, ih]

theorem gt_snoc (l : List Op) (o : Op) : Gt.run (l ++ [o]) = (Gt.run l).step o := by
  unfold Gt.run
  rw [List.foldl_append]
  rfl

/-- the state fits the first packet -/
inductive GInv : Option (Uplink × Nat) → Fire → List (Dev × Bool × Nat) → List Nat → Nat → Prop
  | waiting (ft : Nat) : GInv none .waiting [] [] ft
  | other (p : Uplink) (t0 ft : Nat) : (∀ t s, p ≠ .groundTestDeploy t s) → GInv (some (p, t0)) .done [] [] ft
  | count (t : F64) (sel : Pyro) (t0 left since ft : Nat) : left ≤ 2 → t0 + (2 - left) * 1000 ≤ since → GInv (some (.groundTestDeploy t sel, t0)) (.count sel left since) [] [] ft
  | firing (t : F64) (sel : Pyro) (t0 s : Nat) : t0 + 3000 ≤ s → GInv (some (.groundTestDeploy t sel, t0)) (.firing sel s) [(ctrlDev sel, true, s)] [] s
  | after (t : F64) (sel : Pyro) (t0 s e : Nat) (f : Fire) : t0 + 3000 ≤ s → s + 3000 ≤ e → (f = .done ∨ f = .cooldown e) →
      GInv (some (.groundTestDeploy t sel, t0)) f [(ctrlDev sel, true, s), (ctrlDev sel, false, e)] [s] s

theorem gt_inv (l : List Op) : GInv (firstPacket l) (Gt.run l).fire (Gt.run l).acts (Gt.run l).log (Gt.run l).fireTime := by
  have : ∀ l : List Op, GInv (firstPacket l.reverse) (Gt.run l.reverse).fire (Gt.run l.reverse).acts (Gt.run l.reverse).log (Gt.run l.reverse).fireTime := by
    intro l
    induction l with
    | nil => exact .waiting 0
    | cons o l ih =>
      rw [List.reverse_cons, gt_snoc, firstPacket_snoc]
      revert ih
      generalize Gt.run l.reverse = g
      generalize firstPacket l.reverse = fp
      obtain ⟨fire, hw, acts, log, ft⟩ := g
      simp only
      intro ih
      cases o with
      | switch armed =>
        have hs : Gt.step ⟨fire, hw, acts, log, ft⟩ (.switch armed) = ⟨fire, armed, acts, log, ft⟩ := rfl
        rw [hs]
        cases fp <;> exact ih
      | packet p now =>
        cases ih with
        | waiting =>
          cases p with
          | groundTestDeploy t sel => exact .count t sel now 2 now ft (Nat.le_refl _) (by omega)
          | _ => exact .other _ _ _ (by intro t s h; cases h)
        | other q t0 ft h => exact .other q t0 ft h
        | count t sel t0 left since ft h1 h2 => exact .count t sel t0 left since ft h1 h2
        | firing t sel t0 s h => exact .firing t sel t0 _ h
        | after t sel t0 s e f h1 h2 h3 =>
          obtain rfl | rfl := h3
          · exact .after t sel t0 _ e _ h1 h2 (.inl rfl)
          · exact .after t sel t0 _ e _ h1 h2 (.inr rfl)
      | poll now =>
        cases ih with
        | waiting => exact .waiting ft
        | other q t0 ft h => exact .other q t0 ft h
        | count t sel t0 left since ft h1 h2 =>
          simp only [Gt.step]
          split
          · rename_i hlt
            cases left with
            | zero => exact .firing t sel t0 now (by omega)
            | succ left =>
              have h3 : t0 + (2 - left) * 1000 ≤ now := by
                have e : 2 - left = (2 - (left + 1)) + 1 := by clear h2 hlt; omega
                rw [e, Nat.add_mul, Nat.one_mul, ← Nat.add_assoc]
                exact Nat.le_trans (Nat.add_le_add_right h2 _) hlt
              exact .count t sel t0 left now ft (by omega) h3
          · exact .count t sel t0 left since ft h1 h2
        | firing t sel t0 s h =>
          simp only [Gt.step]
          split
          · exact .after t sel t0 _ now _ h (by omega) (.inr rfl)
          · exact .firing t sel t0 _ h
        | after t sel t0 s e f h1 h2 h3 =>
          obtain rfl | rfl := h3
          · exact .after t sel t0 _ e _ h1 h2 (.inl rfl)
          · simp only [Gt.step]
            split
            · exact .after t sel t0 _ e _ h1 h2 (.inl rfl)
            · exact .after t sel t0 _ e _ h1 h2 (.inr rfl)
  have h := this l.reverse
  rwa [List.reverse_reverse] at h

/-- C77: in a ground test, nothing is switched unless the first packet is a deployment command; then only the channel it selects, on at least 3 s after the command, off at least 3 s
after that, once; the logged fire time is the time it was switched on -/
theorem C77_pulse (l : List Op) : (Gt.run l).acts = [] ∨
    ∃ t sel t0, firstPacket l = some (.groundTestDeploy t sel, t0) ∧ ∃ s, t0 + 3000 ≤ s ∧
      ((Gt.run l).acts = [(ctrlDev sel, true, s)] ∧ (Gt.run l).log = [] ∨
        ∃ e, s + 3000 ≤ e ∧ (Gt.run l).acts = [(ctrlDev sel, true, s), (ctrlDev sel, false, e)] ∧ (Gt.run l).log = [s]) := by
  have h := gt_inv l
  revert h
  generalize (Gt.run l).acts = acts
  generalize (Gt.run l).fire = f
  generalize (Gt.run l).log = log
  generalize (Gt.run l).fireTime = ft
  intro h
  cases hf : firstPacket l with
  | none => rw [hf] at h; cases h; exact .inl rfl
  | some x =>
    rw [hf] at h
    cases h with
    | other => exact .inl rfl
    | count => exact .inl rfl
    | firing t sel t0 s h => exact .inr ⟨t, sel, t0, rfl, _, h, .inl ⟨rfl, rfl⟩⟩
    | after t sel t0 s e f h1 h2 h3 => exact .inr ⟨t, sel, t0, rfl, _, h1, .inr ⟨e, h2, rfl, rfl⟩⟩

example : (Gt.run [.packet (.groundTestDeploy 0 .pyro3) 10, .poll 1010, .poll 2010, .poll 3009, .poll 3010, .poll 6010, .packet (.groundTestDeploy 0 .pyro1) 7000, .poll 99000, .poll 999000]).acts =
    [(.ctrl3, true, 3010), (.ctrl3, false, 6010)] := by decide

/-- is this a change of the arming switch -/
def isSwitch : Op → Bool
  | .switch _ => true
  | _ => false

/-- C77 (finding): the arming switch has no influence on the firing: a disarmed device fires just the same -/
theorem C77_arming_ignored (l : List Op) : (Gt.run l).acts = (Gt.run (l.filter fun o => !isSwitch o)).acts := by
  have key : ∀ (l : List Op) (g h : Gt), g.fire = h.fire → g.acts = h.acts → (l.foldl Gt.step g).acts = ((l.filter fun o => !isSwitch o).foldl Gt.step h).acts := by
    intro l
    induction l with
    | nil => exact fun g h _ e => e
    | cons o l ih =>
      intro g h e1 e2
      cases o with
      | switch b => exact ih _ _ e1 e2
      | packet p now =>
        simp only [isSwitch, List.filter_cons, Bool.not_false, if_true, List.foldl_cons]
        refine ih _ _ ?_ ?_
        · simp only [Gt.step, e1]
          cases h.fire with
          | waiting => cases p <;> rfl
          | _ => simp only [e1]
        · simp only [Gt.step, e1]
          cases h.fire with
          | waiting => cases p <;> exact e2
          | _ => exact e2
      | poll now =>
        simp only [isSwitch, List.filter_cons, Bool.not_false, if_true, List.foldl_cons]
        refine ih _ _ ?_ ?_
        · simp only [Gt.step, e1]
          split
          · split
            · split <;> rfl
            · exact e1
          · split
            · rfl
            · exact e1
          · split
            · rfl
            · exact e1
          · exact e1
        · simp only [Gt.step, e1]
          split
          · split
            · split
              · rw [e2]
              · exact e2
            · exact e2
          · split
            · rw [e2]
            · exact e2
          · split <;> exact e2
          · exact e2
  exact key l _ _ rfl rfl

/-- C77 (finding): only the first packet counts: if it is of another kind, no later command fires -/
theorem C77_first_packet (l : List Op) (p : Uplink) (t0 : Nat) (h : firstPacket l = some (p, t0)) (hp : ∀ t s, p ≠ .groundTestDeploy t s) : (Gt.run l).acts = [] := by
  obtain h1 | ⟨t, sel, t1, h1, _⟩ := C77_pulse l
  · exact h1
  · rw [h] at h1
    cases h1
    exact absurd rfl (hp t sel)

end Verif.Props
