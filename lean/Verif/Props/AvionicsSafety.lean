import Verif.Props.Avionics
/-
C70: no deployment unless armed. C71: low power mode. C72: flight events on the CAN bus. C73: camera. C74: panics. C75: causes of a deployment.
-/
namespace Verif.Props

open Verif Fc Deb Vlp Av

/-- what a step does to the flight computers and their events -/
inductive Eff {fl : Floats} (c : Cfg fl) (a a' : Av fl) : Op fl → Prop
  | same (o : Op fl) : a'.backup = a.backup → a'.manual = a.manual → a'.events = a.events → Eff c a a' o
  | trigger (t : F64) (now : Nat) (m : Manual fl) : a.manual = some m → a'.backup = a.backup → a'.manual = some (m.trigger (c.clock now)).1 →
      a'.events = a.events ++ (m.trigger (c.clock now)).2.map (fun e => (.backupBackup, e)) → Eff c a a' (.packet (.manualTrigger t) now)
  | create : a.armMsg = some (true, true) → a.backup = none → a'.backup = some (.new c.q c.profile) → a'.manual = some (.new c.profile) → a'.events = a.events → Eff c a a' .setup
  | remove (b : Backup fl) : a.backup = some b → a'.backup = none → a'.manual = none → (∃ l, a'.events = a.events ++ l ∧ ∀ e ∈ l, e.2 = .changeState .disArmed) → Eff c a a' .setup
  | tick (b b' : Backup fl) (r : Reading fl) (ev : List (Event fl.S)) : a.sensor = some r → a.backup = some b → b.tick r = some (b', ev) → a'.backup = some b' →
      a'.manual = a.manual → a'.events = a.events ++ ev.map (fun e => (.backup, e)) → Eff c a a' .tick
  | manualTick (now : Nat) (m : Manual fl) : a.manual = some m → a'.backup = a.backup → a'.manual = some (m.tick (c.clock now)).1 →
      a'.events = a.events ++ (m.tick (c.clock now)).2.map (fun e => (.backupBackup, e)) → Eff c a a' (.manualTick now)

theorem act_eff {fl : Floats} (c : Cfg fl) (a : Av fl) (o : Op fl) : Eff c a (a.act c o) o := by
  cases o with
  | packet p now =>
    unfold Av.act Av.packet
    simp only
    split
    · exact .same _ rfl rfl rfl
    · cases p with
      | lowPowerMode t e => cases e <;> exact .same _ rfl rfl rfl
      | manualTrigger t =>
        simp only
        split
        · exact .same _ rfl rfl rfl
        · rename_i m hm
          exact .trigger t now m hm rfl rfl rfl
      | _ => exact .same _ rfl rfl rfl
  | applyHw => unfold Av.act Av.applyHw; simp only; split <;> exact .same _ rfl rfl rfl
  | setup =>
    unfold Av.act Av.setup
    simp only
    split
    · exact .same _ rfl rfl rfl
    · rename_i sw hw hm
      split
      · rename_i ha
        simp only [Bool.and_eq_true] at ha
        obtain ⟨rfl, rfl⟩ := ha
        split
        · rename_i hb; exact .create hm hb rfl rfl rfl
        · exact .same _ rfl rfl rfl
      · split
        · exact .same _ rfl rfl rfl
        · rename_i b hb
          split
          · rename_i hmn
            exact .remove b hb rfl hmn ⟨_, rfl, by simp [Backup.drop]⟩
          · refine .remove b hb rfl rfl ⟨[(.backup, .changeState .disArmed), (.backupBackup, .changeState .disArmed)], ?_, by simp⟩
            simp [Av.publish, Backup.drop]
  | reading r =>
    unfold Av.act Av.reading
    simp only
    repeat' split
    all_goals exact .same _ rfl rfl rfl
  | tick =>
    unfold Av.act Av.tick
    simp only
    split
    · exact .same _ rfl rfl rfl
    · rename_i r hr
      split
      · exact .same _ rfl rfl rfl
      · rename_i b hb
        split
        · exact .same _ rfl rfl rfl
        · rename_i b' ev he
          exact .tick b b' r ev hr hb he rfl rfl rfl
  | manualTick now =>
    unfold Av.act Av.manualTick
    simp only
    split
    · exact .same _ rfl rfl rfl
    · rename_i m hm
      exact .manualTick now m hm rfl rfl rfl
  | drogue now =>
    unfold Av.act Av.pollDrogue
    simp only
    repeat' split
    all_goals exact .same _ rfl rfl rfl
  | main now =>
    unfold Av.act Av.pollMain
    simp only
    repeat' split
    all_goals exact .same _ rfl rfl rfl
  | camera now =>
    unfold Av.act Av.pollCamera
    simp only
    repeat' split
    all_goals exact .same _ rfl rfl rfl
  | _ => exact .same _ rfl rfl rfl

theorem ea_snoc {fl : Floats} {c : Cfg fl} {ops : List (Op fl)} (h : EverArmed c ops) (o : Op fl) : EverArmed c (ops ++ [o]) := by
  obtain ⟨pre, ⟨t, e⟩, h⟩ := h
  exact ⟨pre, ⟨t ++ [o], by rw [← e, List.append_assoc]⟩, h⟩

/-- nothing from the flight computers before the rocket has been armed -/
theorem armed_inv {fl : Floats} (c : Cfg fl) (ops : List (Op fl)) :
    ((Av.run c ops).backup.isSome = true → EverArmed c ops) ∧ ((Av.run c ops).manual.isSome = true → EverArmed c ops) ∧ ((Av.run c ops).events ≠ [] → EverArmed c ops) := by
  refine run_induct c (P := fun ops a => (a.backup.isSome = true → EverArmed c ops) ∧ (a.manual.isSome = true → EverArmed c ops) ∧ (a.events ≠ [] → EverArmed c ops))
    ⟨(by intro h; cases h), (by intro h; cases h), fun h => absurd rfl h⟩ ?_ ops
  intro ops o ih
  by_cases hp : (Av.run c ops).panicked = true
  · unfold Av.step
    rw [if_pos hp]
    exact ⟨fun h => ea_snoc (ih.1 h) o, fun h => ea_snoc (ih.2.1 h) o, fun h => ea_snoc (ih.2.2 h) o⟩
  · have hp' : (Av.run c ops).panicked = false := by simpa using hp
    rw [step_eq c _ o hp']
    have he := act_eff c (Av.run c ops) o
    have hc := core_inv c ops hp'
    have all : EverArmed c ops → ((((Av.run c ops).act c o).backup.isSome = true → EverArmed c (ops ++ [o])) ∧ ((((Av.run c ops).act c o).manual.isSome = true → EverArmed c (ops ++ [o])) ∧
        (((Av.run c ops).act c o).events ≠ [] → EverArmed c (ops ++ [o])))) := fun h => ⟨fun _ => ea_snoc h o, fun _ => ea_snoc h o, fun _ => ea_snoc h o⟩
    cases he with
    | same _ h1 h2 h3 =>
      rw [h1, h2, h3]
      exact ⟨fun h => ea_snoc (ih.1 h) _, fun h => ea_snoc (ih.2.1 h) _, fun h => ea_snoc (ih.2.2 h) _⟩
    | trigger t now m hm => exact all (ih.2.1 (by rw [hm]; rfl))
    | create hm =>
      refine all ⟨ops, List.prefix_refl _, ?_⟩
      have := hc.msg _ hm
      simp only [Prod.mk.injEq] at this
      unfold Av.isArmed
      rw [← this.1, ← this.2]
      rfl
    | remove b hb => exact all (ih.1 (by rw [hb]; rfl))
    | tick b b' r ev hr hb => exact all (ih.1 (by rw [hb]; rfl))
    | manualTick now m hm => exact all (ih.2.1 (by rw [hm]; rfl))

/-- C70: no pyro channel is ever switched on in a boot in which the rocket has not been armed before (by radio and by the switch) -/
theorem C70_armed_before {fl : Floats} (c : Cfg fl) (k : Chute) (ch : Pyro) (t : Nat) (ops : List (Op fl)) (h : Act.pyro k ch true t ∈ (Av.run c ops).acts) : EverArmed c ops := by
  obtain ⟨pre, post, e, _, ev, hev, _⟩ := C46_cause c k ch t ops h
  obtain ⟨p, ⟨x, hx⟩, ha⟩ := (armed_inv c pre).2.2 (List.ne_nil_of_mem hev)
  exact ⟨p, ⟨x ++ pollOp k t :: post, by rw [e, ← hx, List.append_assoc]⟩, ha⟩

/-- C70: a flight event, in particular a deployment, is only published while the rocket is armed, or while the message that it has been disarmed is still unread -/
theorem C70_events {fl : Floats} (c : Cfg fl) (ops : List (Op fl)) (hp : (Av.run c ops).panicked = false) (o : Op fl)
    (h : ((Av.run c ops).act c o).events ≠ (Av.run c ops).events) : (Av.run c ops).isArmed = true ∨ (Av.run c ops).armMsg ≠ none := by
  have hc := core_inv c ops hp
  have key : (Av.run c ops).backup.isSome = true → (Av.run c ops).isArmed = true ∨ (Av.run c ops).armMsg ≠ none := by
    intro h
    by_cases hm : (Av.run c ops).armMsg = none
    · exact .inl (by rw [← hc.done hm]; exact h)
    · exact .inr hm
  cases act_eff c (Av.run c ops) o with
  | same _ h1 h2 h3 => exact absurd h3 h
  | trigger t now m hm => exact key (by rw [hc.both, hm]; rfl)
  | create _ _ _ _ h3 => exact absurd h3 h
  | remove b hb => exact key (by rw [hb]; rfl)
  | tick b b' r ev hr hb => exact key (by rw [hb]; rfl)
  | manualTick now m hm => exact key (by rw [hc.both, hm]; rfl)

/-- the demo flight switches on, so C70 is not empty -/
example : Act.pyro .drogue .pyro1 true 11 ∈ (Av.run demoCfg (demoArm ++ [.packet (.manualTrigger 0) 10, .drogue 11])).acts := by decide +kernel

/-- C70 (finding): disarming does not stop a deployment that has been announced but not yet carried out: the charge fires while the rocket is disarmed and the flight computers are
removed -/
theorem C70_after_disarm : ∃ (c : Cfg ratFloats) (ops : List (Op ratFloats)) (t : Nat), (Av.run c ops).isArmed = false ∧ (Av.run c ops).backup = none ∧
    pulses .drogue (Av.run c ops).acts = [] ∧ pulses .drogue ((Av.run c ops).act c (.drogue t)).acts = [(c.channel .drogue, true, t)] :=
  ⟨demoCfg, demoArm ++ [.packet (.manualTrigger 0) 10, .packet (.softArm 0 false) 11, .setup], 12, by decide +kernel, Option.isNone_iff_eq_none.mp (by decide +kernel), by decide +kernel, by decide +kernel⟩

theorem fs_snoc {fl : Floats} {c : Cfg fl} {ops : List (Op fl)} (h : FallSeen c ops) (o : Op fl) : FallSeen c (ops ++ [o]) := by
  obtain ⟨pre, post, b, r, e, h⟩ := h
  exact ⟨pre, post ++ [o], b, r, by rw [e]; simp, h⟩

theorem tr_snoc {fl : Floats} {c : Cfg fl} {ops : List (Op fl)} (h : Triggered c ops) (o : Op fl) : Triggered c (ops ++ [o]) := by
  obtain ⟨pre, post, t, now, e, h⟩ := h
  exact ⟨pre, post ++ [o], t, now, by rw [e]; simp, h⟩

/-- one of the two causes -/
def Cause {fl : Floats} (c : Cfg fl) (ops : List (Op fl)) : Prop := FallSeen c ops ∨ Triggered c ops

theorem ca_snoc {fl : Floats} {c : Cfg fl} {ops : List (Op fl)} (h : Cause c ops) (o : Op fl) : Cause c (ops ++ [o]) := h.imp (fs_snoc · o) (tr_snoc · o)

/-- is the backup flight computer still waiting for the fall -/
def bArmed {fl : Floats} (b : Backup fl) : Bool :=
  match b.state with
  | .armed => true
  | _ => false

/-- is the manual flight computer still waiting for the command -/
def mArmed {fl : Floats} (m : Manual fl) : Bool :=
  match m.state with
  | .armed => true
  | _ => false

/-- the backup computer leaves the waiting state only on a fall, and announces a deployment only after having left it -/
theorem tick_cause {fl : Floats} {b b' : Backup fl} {r : Reading fl} {ev : List (Event fl.S)} (h : b.tick r = some (b', ev)) :
    (bArmed b' = false → bArmed b = false ∨ fl.s.lt (b.filter.feed r).1 (fl.s.neg (fl.s.lit 20)) = true) ∧
    (∀ k x, IsDeploy k ((.backup, x) : Redundancy × Event fl.S) → x ∈ ev → bArmed b = false) := by
  unfold Backup.tick at h
  simp only [Option.map_eq_some_iff] at h
  obtain ⟨⟨b1, ev1⟩, h1, h2⟩ := h
  simp only [Prod.mk.injEq] at h2
  obtain ⟨rfl, rfl⟩ := h2
  unfold Backup.stage at h1
  simp only at h1
  constructor
  · intro hb
    cases hs : b.state with
    | armed =>
      rw [hs] at h1
      simp only at h1
      split at h1
      · rename_i hl; exact .inr hl
      · simp only [Option.some.injEq, Prod.mk.injEq] at h1
        obtain ⟨rfl, _⟩ := h1
        unfold bArmed at hb
        simp only [hs] at hb
        cases hb
    | _ => exact .inl (by unfold bArmed; rw [hs])
  · intro k x hd hx
    cases hs : b.state with
    | armed =>
      rw [hs] at h1
      simp only at h1
      simp only [IsDeploy] at hd
      subst hd
      split at h1 <;>
      · simp only [Option.some.injEq, Prod.mk.injEq] at h1
        obtain ⟨_, rfl⟩ := h1
        split at hx <;> cases k <;> simp at hx
    | _ => unfold bArmed; rw [hs]

theorem manualTick_cause {fl : Floats} (m : Manual fl) (t : fl.D) :
    (mArmed (m.tick t).1 = false → mArmed m = false) ∧ ((m.tick t).2 ≠ [] → mArmed m = false) := by
  unfold Manual.tick mArmed
  cases hs : m.state <;> simp [hs]

theorem cause_inv {fl : Floats} (c : Cfg fl) (ops : List (Op fl)) :
    (∀ b, (Av.run c ops).backup = some b → bArmed b = false → FallSeen c ops) ∧ (∀ m, (Av.run c ops).manual = some m → mArmed m = false → Triggered c ops) ∧
      (∀ e ∈ (Av.run c ops).events, ∀ k, IsDeploy k e → Cause c ops) := by
  refine run_induct c (P := fun ops a => (∀ b, a.backup = some b → bArmed b = false → FallSeen c ops) ∧ (∀ m, a.manual = some m → mArmed m = false → Triggered c ops) ∧
      (∀ e ∈ a.events, ∀ k, IsDeploy k e → Cause c ops)) ⟨(by intro b h; cases h), (by intro b h; cases h), (by intro e h; cases h)⟩ ?_ ops
  intro ops o ih
  obtain ⟨i1, i2, i3⟩ := ih
  by_cases hp : (Av.run c ops).panicked = true
  · unfold Av.step
    rw [if_pos hp]
    exact ⟨fun b h h' => fs_snoc (i1 b h h') o, fun m h h' => tr_snoc (i2 m h h') o, fun e h k h' => ca_snoc (i3 e h k h') o⟩
  · have hp' : (Av.run c ops).panicked = false := by simpa using hp
    rw [step_eq c _ o hp']
    have old : ∀ e ∈ (Av.run c ops).events, ∀ k, IsDeploy k e → Cause c (ops ++ [o]) := fun e h k h' => ca_snoc (i3 e h k h') o
    cases act_eff c (Av.run c ops) o with
    | same _ h1 h2 h3 =>
      rw [h1, h2, h3]
      exact ⟨fun b h h' => fs_snoc (i1 b h h') _, fun m h h' => tr_snoc (i2 m h h') _, old⟩
    | trigger t now m hm h1 h2 h3 =>
      have hT : Triggered c (ops ++ [.packet (.manualTrigger t) now]) := ⟨ops, [], t, now, rfl, by rw [hm]; rfl⟩
      exact ⟨fun b h h' => fs_snoc (i1 b (by rw [← h1]; exact h) h') _, fun _ _ _ => hT, fun _ _ _ _ => .inr hT⟩
    | create hm hb h1 h2 h3 =>
      refine ⟨fun b h h' => ?_, fun m h h' => ?_, by rw [h3]; exact old⟩
      · rw [h1] at h
        cases h
        cases h'
      · rw [h2] at h
        cases h
        cases h'
    | remove b hb h1 h2 h3 =>
      refine ⟨fun b h h' => ?_, fun m h h' => ?_, ?_⟩
      · rw [h1] at h; cases h
      · rw [h2] at h; cases h
      · obtain ⟨l, h3, h4⟩ := h3
        rw [h3]
        intro e he k hk
        obtain he | he := List.mem_append.mp he
        · exact old e he k hk
        · unfold IsDeploy at hk
          rw [h4 e he] at hk
          cases k <;> cases hk
    | tick b b' r ev hr hb ht h1 h2 h3 =>
      have hcz := tick_cause ht
      have hF : fl.s.lt (b.filter.feed r).1 (fl.s.neg (fl.s.lit 20)) = true → FallSeen c (ops ++ [.tick]) := fun h => ⟨ops, [], b, r, rfl, hb, hr, h⟩
      refine ⟨fun b2 h h' => ?_, fun m h h' => tr_snoc (i2 m (by rw [← h2]; exact h) h') _, ?_⟩
      · rw [h1] at h
        cases h
        obtain h | h := hcz.1 h'
        · exact fs_snoc (i1 b hb h) _
        · exact hF h
      · rw [h3]
        intro e he k hk
        obtain he | he := List.mem_append.mp he
        · exact old e he k hk
        · obtain ⟨x, hx, rfl⟩ := List.mem_map.mp he
          exact .inl (fs_snoc (i1 b hb (hcz.2 k x hk hx)) _)
    | manualTick now m hm h1 h2 h3 =>
      have hcz := manualTick_cause m (c.clock now)
      refine ⟨fun b h h' => fs_snoc (i1 b (by rw [← h1]; exact h) h') _, fun m2 h h' => ?_, ?_⟩
      · rw [h2] at h
        cases h
        exact tr_snoc (i2 m hm (hcz.1 h')) _
      · rw [h3]
        intro e he k hk
        obtain he | he := List.mem_append.mp he
        · exact old e he k hk
        · obtain ⟨x, hx, rfl⟩ := List.mem_map.mp he
          exact .inr (tr_snoc (i2 m hm (hcz.2 (List.ne_nil_of_mem hx))) _)

/-- C75: a parachute is deployed only if before that, with the flight computers set up, the vertical speed estimated from the barometer was a fall at more than 20 m/s, or a manual
deployment command was received -/
theorem C75_cause {fl : Floats} (c : Cfg fl) (k : Chute) (ch : Pyro) (t : Nat) (ops : List (Op fl)) (h : Act.pyro k ch true t ∈ (Av.run c ops).acts) :
    FallSeen c ops ∨ Triggered c ops := by
  obtain ⟨pre, post, e, _, ev, hev, hd⟩ := C46_cause c k ch t ops h
  obtain ⟨p, q, b, r, e1, h1⟩ | ⟨p, q, s, now, e1, h1⟩ := (cause_inv c pre).2.2 ev hev k hd
  · exact .inl ⟨p, q ++ pollOp k t :: post, b, r, by rw [e, e1]; simp, h1⟩
  · exact .inr ⟨p, q ++ pollOp k t :: post, s, now, by rw [e, e1]; simp, h1⟩

/-- the backup flight computer knows the altitude of the pad once it needs it -/
def BOk {fl : Floats} (b : Backup fl) : Prop := bArmed b = false → b.pad.isSome = true

theorem tick_ok {fl : Floats} (b : Backup fl) (r : Reading fl) (h : BOk b) : ∃ b' ev, b.tick r = some (b', ev) ∧ BOk b' := by
  unfold Backup.tick Backup.stage
  simp only
  unfold BOk bArmed at h ⊢
  cases hs : b.state with
  | armed =>
    simp only
    split
    · refine ⟨_, _, rfl, fun _ => ?_⟩
      simp only
      split <;> rfl
    · refine ⟨_, _, rfl, fun _ => ?_⟩
      simp only
      split <;> rfl
  | drogueChuteDeployed =>
    simp only
    rw [hs] at h
    have hp : b.pad.isSome = true := h rfl
    cases hq : b.pad with
    | none => rw [hq] at hp; cases hp
    | some p =>
      simp only
      split
      · exact ⟨_, _, rfl, fun _ => by simp [hq]⟩
      · exact ⟨_, _, rfl, fun _ => by simp [hq]⟩
  | _ =>
    rw [hs] at h
    have hp : b.pad.isSome = true := h rfl
    simp only
    first
      | (split
         · exact ⟨_, _, rfl, fun _ => hp⟩
         · exact ⟨_, _, rfl, fun _ => hp⟩)
      | exact ⟨_, _, rfl, fun _ => hp⟩

/-- panics by a step -/
theorem panic_step {fl : Floats} (c : Cfg fl) (a : Av fl) (o : Op fl) (hp : a.panicked = false) (hb : ∀ b, a.backup = some b → BOk b) (h : (a.act c o).panicked = true) :
    o = .reading none ∧ a.lowPower = false := by
  cases o with
  | packet p now =>
    unfold Av.act Av.packet at h
    simp only at h
    split at h
    · rw [hp] at h; cases h
    · cases p with
      | lowPowerMode t e => cases e <;> (change a.panicked = true at h; rw [hp] at h; cases h)
      | manualTrigger t => simp only at h; split at h <;> (change a.panicked = true at h; rw [hp] at h; cases h)
      | _ => change a.panicked = true at h; rw [hp] at h; cases h
  | applyHw => unfold Av.act Av.applyHw at h; simp only at h; split at h <;> (change a.panicked = true at h; rw [hp] at h; cases h)
  | setup =>
    unfold Av.act Av.setup at h
    simp only at h
    repeat' split at h
    all_goals (change a.panicked = true at h; rw [hp] at h; cases h)
  | reading r =>
    unfold Av.act Av.reading at h
    simp only at h
    split at h
    · rw [hp] at h; cases h
    · rename_i hl
      cases r with
      | none => exact ⟨rfl, by simpa using hl⟩
      | some r => change a.panicked = true at h; rw [hp] at h; cases h
  | tick =>
    unfold Av.act Av.tick at h
    simp only at h
    split at h
    · rw [hp] at h; cases h
    · rename_i r hr
      split at h
      · change a.panicked = true at h; rw [hp] at h; cases h
      · rename_i b hb'
        obtain ⟨b', ev, he, _⟩ := tick_ok b r (hb b hb')
        rw [he] at h
        change a.panicked = true at h
        rw [hp] at h; cases h
  | manualTick now => unfold Av.act Av.manualTick at h; simp only at h; split at h <;> (change a.panicked = true at h; rw [hp] at h; cases h)
  | drogue now =>
    unfold Av.act Av.pollDrogue at h
    simp only at h
    repeat' split at h
    all_goals (change a.panicked = true at h; rw [hp] at h; cases h)
  | main now =>
    unfold Av.act Av.pollMain at h
    simp only at h
    repeat' split at h
    all_goals (change a.panicked = true at h; rw [hp] at h; cases h)
  | camera now =>
    unfold Av.act Av.pollCamera at h
    simp only at h
    repeat' split at h
    all_goals (change a.panicked = true at h; rw [hp] at h; cases h)
  | _ => change a.panicked = true at h; rw [hp] at h; cases h

theorem backup_ok {fl : Floats} (c : Cfg fl) (ops : List (Op fl)) (b : Backup fl) (h : (Av.run c ops).backup = some b) : BOk b := by
  refine run_induct c (P := fun _ a => ∀ b, a.backup = some b → BOk b) (by intro b h; cases h) ?_ ops b h
  intro ops o ih
  unfold Av.step
  split
  · exact ih
  · cases act_eff c (Av.run c ops) o with
    | same _ h1 h2 h3 => rw [h1]; exact ih
    | trigger t now m hm h1 h2 h3 => rw [h1]; exact ih
    | create hm hb h1 h2 h3 =>
      intro b h
      rw [h1] at h
      cases h
      intro h
      cases h
    | remove b hb h1 h2 h3 =>
      intro b h
      rw [h1] at h; cases h
    | tick b b' r ev hr hb ht h1 h2 h3 =>
      intro b2 h
      rw [h1] at h
      cases h
      obtain ⟨b3, ev3, he, hok⟩ := tick_ok b r (ih b hb)
      rw [ht] at he
      obtain ⟨rfl, _⟩ := Prod.mk.inj (Option.some.inj he)
      exact hok
    | manualTick now m hm h1 h2 h3 => rw [h1]; exact ih

/-- C74: the only thing in these tasks that makes the firmware panic is a failed sensor read outside low power mode -/
theorem C74_panic {fl : Floats} (c : Cfg fl) (ops : List (Op fl)) :
    (Av.run c ops).panicked = true ↔ ∃ pre post, ops = pre ++ .reading none :: post ∧ (Av.run c pre).lowPower = false := by
  constructor
  · intro h
    refine run_induct c (P := fun ops a => a.panicked = true → ∃ pre post, ops = pre ++ .reading none :: post ∧ (Av.run c pre).lowPower = false) (by intro h; cases h) ?_ ops h
    intro ops o ih h
    by_cases hp : (Av.run c ops).panicked = true
    · obtain ⟨pre, post, e, r⟩ := ih hp
      exact ⟨pre, post ++ [o], by rw [e]; simp, r⟩
    · have hp' : (Av.run c ops).panicked = false := by simpa using hp
      rw [step_eq c _ o hp'] at h
      obtain ⟨rfl, hl⟩ := panic_step c _ o hp' (backup_ok c ops) h
      exact ⟨ops, [], rfl, hl⟩
  · rintro ⟨pre, post, rfl, hl⟩
    have hstep : (Av.run c (pre ++ [.reading none])).panicked = true := by
      rw [run_snoc]
      unfold Av.step
      split
      · assumption
      · simp only [Av.act, Av.reading, hl]
        rfl
    have : ∀ (l : List (Op fl)) (a : Av fl), a.panicked = true → (l.foldl (Av.step c) a).panicked = true := by
      intro l
      induction l with
      | nil => exact fun a h => h
      | cons o l ih =>
        intro a h
        refine ih _ ?_
        unfold Av.step
        rw [if_pos h]
        exact h
    rw [show pre ++ .reading none :: post = (pre ++ [.reading none]) ++ post by simp]
    unfold Av.run at hstep ⊢
    rw [List.foldl_append]
    exact this _ _ hstep

/-- C74 (finding): one failed read stops everything: after it, no deployment is carried out however the tasks are scheduled -/
theorem C74_stuck {fl : Floats} (c : Cfg fl) (pre post : List (Op fl)) (hl : (Av.run c pre).lowPower = false) (hp : (Av.run c pre).panicked = false) :
    (Av.run c (pre ++ .reading none :: post)).acts = (Av.run c pre).acts ∧ (Av.run c (pre ++ .reading none :: post)).events = (Av.run c pre).events := by
  have hstep : (Av.run c (pre ++ [.reading none])) = { Av.run c pre with panicked := true } := by
    rw [run_snoc, step_eq c _ _ hp]
    simp only [Av.act, Av.reading, hl]
    rfl
  have : ∀ (l : List (Op fl)) (a : Av fl), a.panicked = true → l.foldl (Av.step c) a = a := by
    intro l
    induction l with
    | nil => exact fun a h => rfl
    | cons o l ih =>
      intro a h
      have : a.step c o = a := by unfold Av.step; rw [if_pos h]
      rw [List.foldl_cons, this]
      exact ih a h
  have e : Av.run c (pre ++ .reading none :: post) = { Av.run c pre with panicked := true } := by
    rw [show pre ++ .reading none :: post = (pre ++ [.reading none]) ++ post by simp, ← hstep]
    show List.foldl _ _ _ = _
    rw [List.foldl_append]
    refine this _ _ ?_
    show (Av.run c _).panicked = true
    rw [hstep]
  rw [e]
  exact ⟨rfl, rfl⟩

end Verif.Props
