import Verif.Spec.Operator
import Verif.Props.Avionics
import Verif.Props.VlpClient
import Verif.Props.GroundTest
/-
C107: the operator's commands, from the command line tool to the avionics.
-/
namespace Verif.Props
open Verif Vlp Fc Av Operator

/-- C107: different commands, or the same at different times, are different packets -/
theorem C107_distinct (c c' : Command) (ts ts' : F64) (h : c.packet ts = c'.packet ts') : c = c' ∧ ts = ts' := by
  cases c <;> cases c' <;> simp_all [Command.packet]

/-- C107: whatever the link loses, each transmission of the command the rocket hears reaches the avionics as that command, at most five of them; success is reported exactly if an
answer came back, and then the rocket has heard it. -/
theorem C107_received {x : Ext} (hx : x.Laws) {key : Bytes} {b : Builder} (hb : Reach x key b) (cmd : Command) (ts : F64) (air : Nat → Attempt) (rocket after : Nat → Rocket)
    (heard acked : Nat → Bool) (frames : List Bytes) (hfr : (sendLoop x (cmd.packet ts) air 5 0 b).2.2 = frames) (hfit : ∀ i, (air i).rx.Fits) (htx : ∀ i, (air i).txOk = true)
    (hr : ∀ i, Reach x key (rocket i).builder)
    (hl : ∀ i (hi : i < frames.length), LinkStep x frames[i] (rocket i) (after i) (air i).rx (heard i) (acked i)) :
    frames.length ≤ 5 ∧
    (∀ i, i < frames.length → heard i = true → ∃ st, (after i).rx = some (cmd.packet ts, st) ∧ ∀ cmd' ts', cmd'.packet ts' = cmd.packet ts → cmd' = cmd ∧ ts' = ts) ∧
    ((∃ st, (sendLoop x (cmd.packet ts) air 5 0 b).1 = .acked st) ↔ ∃ i, i < frames.length ∧ acked i = true) ∧
    (∀ st, (sendLoop x (cmd.packet ts) air 5 0 b).1 = .acked st → ∃ i, i < frames.length ∧ heard i = true) := by
  obtain ⟨h1, h2, h3, _, _⟩ := C38_lossy_link hx hb (cmd.packet ts) air rocket after heard acked frames hfr hfit htx hr hl
  have hlen := (C38_transmissions hx hb (cmd.packet ts) air hfit).1
  rw [hfr] at hlen
  refine ⟨by omega, ?_, h3, ?_⟩
  · intro i hi hh
    obtain ⟨st, h⟩ := h1 i hi hh
    exact ⟨st, h, fun cmd' ts' e => C107_distinct _ _ _ _ e⟩
  · intro st h
    obtain ⟨i, hi, ha⟩ := h3.1 ⟨st, h⟩
    exact ⟨i, hi, h2 i hi ha⟩

/-- C107: what each command does -/
theorem C107_effect {fl : Floats} (c : Cfg fl) (s : Av fl) (cmd : Command) (ts : F64) (now : Nat) (hp : s.panicked = false) (hr : s.resetting = false) :
    Effect cmd s (s.step c (.packet (cmd.packet ts) now)) := by
  rw [step_eq c s _ hp]
  unfold Av.act Av.packet
  simp only [hr]
  cases cmd with
  | manualTriggerDeployment =>
    simp only [Command.packet]
    cases hm : s.manual with
    | none => exact ⟨rfl, rfl, rfl, rfl, (by rintro _ ⟨m, h, _⟩; rw [hm] at h; cases h), fun _ => rfl, ⟨rfl, rfl, rfl, rfl, rfl, rfl, rfl⟩⟩
    | some m =>
      simp only [Bool.false_eq_true, if_false, Av.publish, Manual.trigger]
      refine ⟨rfl, rfl, rfl, rfl, ?_, ?_, ⟨rfl, rfl, rfl, rfl, rfl, rfl, rfl⟩⟩
      · rintro _ ⟨m', h1, h2⟩
        rw [hm] at h1
        cases h1
        simp [h2]
      · intro h
        cases hms : m.state with
        | armed => exact absurd ⟨rfl, m, hm, hms⟩ h
        | _ => simp
  | reset => exact ⟨rfl, rfl, rfl, rfl, by simp, fun _ => rfl, ⟨rfl, rfl, rfl, rfl, rfl, rfl, rfl⟩⟩
  | _ => exact ⟨rfl, rfl, rfl, rfl, by simp, fun _ => rfl, ⟨rfl, rfl, rfl, rfl, rfl, rfl, rfl⟩⟩

/-- as `SameButMessage`, but the extra message is one that says what is already the case -/
structure OneMore {fl : Floats} (s s' : Av fl) : Prop where
  same : SameButMessage s s'
  msg : s'.armMsg = s.armMsg ∨ s.armMsg = none ∧ s'.armMsg = some (s.sw, s.hw)

/-- the state with another message -/
def setMsg {fl : Floats} (s : Av fl) (m : Option (Bool × Bool)) : Av fl := { s with armMsg := m }

theorem oneMore_iff {fl : Floats} (s s' : Av fl) : OneMore s s' ↔ s' = s ∨ s.armMsg = none ∧ s' = setMsg s (some (s.sw, s.hw)) := by
  constructor
  · rintro ⟨h1, h2⟩
    unfold SameButMessage at h1
    rcases h2 with h2 | ⟨h2, h3⟩
    · rw [h2] at h1; exact .inl h1
    · rw [h3] at h1; exact .inr ⟨h2, h1⟩
  · rintro (rfl | ⟨h2, rfl⟩)
    · exact ⟨rfl, .inl rfl⟩
    · exact ⟨rfl, .inr ⟨h2, rfl⟩⟩

/-- steps that neither read nor write the message -/
theorem act_msg {fl : Floats} (c : Cfg fl) (s : Av fl) (m : Option (Bool × Bool)) (o : Op fl) (h1 : o.isPacket = false) (h2 : o ≠ .applyHw) (h3 : o ≠ .setup) :
    (setMsg s m).act c o = setMsg (s.act c o) m := by
  obtain ⟨lowPower, storageFull, sw, hw, deb, hwSignal, armMsg, backup, manual, sensor, events, posCan, posDrogue, posMain, posCamera, drogueTask, mainTask, cameraWait, telemSw, telemHw, telemDrogue, telemMain, resetting, panicked, logged, acts⟩ := s
  cases o with
  | packet p now => cases h1
  | applyHw => exact absurd rfl h2
  | setup => exact absurd rfl h3
  | switch v now => rfl
  | debounce now => rfl
  | reading r => cases lowPower <;> cases r <;> rfl
  | storage free => rfl
  | tick =>
    cases sensor with
    | none => rfl
    | some r =>
      cases backup with
      | none => rfl
      | some b =>
        unfold Av.act Av.tick setMsg
        simp only
        cases b.tick r <;> rfl
  | manualTick now => cases manual <;> rfl
  | drogue now =>
    cases drogueTask with
    | done => rfl
    | waiting =>
      unfold Av.act Av.pollDrogue setMsg
      simp only
      cases (PubSub.unread 10 events posDrogue).any (isDeploy .drogue) <;> rfl
    | firing since =>
      unfold Av.act Av.pollDrogue setMsg
      simp only
      by_cases h : since + 3000 ≤ now
      · simp only [if_pos h]
      · simp only [if_neg h]
  | main now =>
    cases mainTask with
    | done => rfl
    | waiting =>
      unfold Av.act Av.pollMain setMsg
      simp only
      cases (PubSub.unread 10 events posMain).any (isDeploy .main) <;> rfl
    | firing since =>
      unfold Av.act Av.pollMain setMsg
      simp only
      by_cases h : since + 3000 ≤ now
      · simp only [if_pos h]
      · simp only [if_neg h]
  | can => rfl
  | camera now =>
    cases cameraWait with
    | none => rfl
    | some since =>
      unfold Av.act Av.pollCamera setMsg
      simp only
      by_cases h : since + 60000 ≤ now
      · simp only [if_pos h]
      · simp only [if_neg h]

/-- they leave it as it is -/
theorem act_msg_eq {fl : Floats} (c : Cfg fl) (s : Av fl) (o : Op fl) (h1 : o.isPacket = false) (h2 : o ≠ .applyHw) (h3 : o ≠ .setup) :
    (s.act c o).armMsg = s.armMsg := by
  have h : s.act c o = setMsg (s.act c o) s.armMsg := act_msg c s s.armMsg o h1 h2 h3
  rw [h]; rfl

/-- … and the arming state -/
theorem act_arm_eq {fl : Floats} (c : Cfg fl) (s : Av fl) (o : Op fl) (h1 : o.isPacket = false) (h2 : o ≠ .applyHw) :
    (s.act c o).sw = s.sw ∧ (s.act c o).hw = s.hw := by
  refine ⟨congrArg Prod.fst (frame_packet c s o h1), ?_⟩
  cases o with
  | packet p now => cases h1
  | applyHw => exact absurd rfl h2
  | switch v now => rfl
  | debounce now => rfl
  | setup => unfold Av.act Av.setup; simp only; repeat' split <;> try rfl
  | reading r => unfold Av.act Av.reading; simp only; repeat' split <;> try rfl
  | storage free => rfl
  | tick => unfold Av.act Av.tick; simp only; repeat' split <;> try rfl
  | manualTick now => unfold Av.act Av.manualTick; simp only; repeat' split <;> try rfl
  | drogue now => unfold Av.act Av.pollDrogue; simp only; repeat' split <;> try rfl
  | main now => unfold Av.act Av.pollMain; simp only; repeat' split <;> try rfl
  | can => rfl
  | camera now => unfold Av.act Av.pollCamera; simp only; repeat' split <;> try rfl

/-- one step with and without the extra message -/
theorem oneMore_act {fl : Floats} (c : Cfg fl) {s s' : Av fl} (hc : CoreInv s) (h : OneMore s s') (o : Op fl) : OneMore (s.act c o) (s'.act c o) := by
  rcases (oneMore_iff s s').1 h with rfl | ⟨h2, rfl⟩
  · exact ⟨rfl, .inl rfl⟩
  · clear h
    have hd := hc.done h2
    by_cases hp : o.isPacket = false ∧ o ≠ .applyHw ∧ o ≠ .setup
    · obtain ⟨e1, e2⟩ := act_arm_eq c s o hp.1 hp.2.1
      rw [act_msg c s _ o hp.1 hp.2.1 hp.2.2]
      refine (oneMore_iff _ _).2 (.inr ⟨?_, ?_⟩)
      · rw [act_msg_eq c s o hp.1 hp.2.1 hp.2.2]; exact h2
      · rw [e1, e2]
    · clear hc
      obtain ⟨lowPower, storageFull, sw, hw, deb, hwSignal, armMsg, backup, manual, sensor, events, posCan, posDrogue, posMain, posCamera, drogueTask, mainTask, cameraWait, telemSw, telemHw, telemDrogue, telemMain, resetting, panicked, logged, acts⟩ := s
      cases h2
      cases o with
      | setup =>
        cases backup with
        | none =>
          cases sw with
          | false => exact ⟨rfl, .inl rfl⟩
          | true =>
            cases hw with
            | false => exact ⟨rfl, .inl rfl⟩
            | true => cases hd
        | some b =>
          cases sw with
          | false => cases hd
          | true =>
            cases hw with
            | false => cases hd
            | true => exact ⟨rfl, .inl rfl⟩
      | applyHw =>
        cases hwSignal with
        | none => exact ⟨rfl, .inr ⟨rfl, rfl⟩⟩
        | some v => exact ⟨rfl, .inl rfl⟩
      | packet p now =>
        cases resetting with
        | true => exact ⟨rfl, .inr ⟨rfl, rfl⟩⟩
        | false =>
          cases p with
          | softArm t b => exact ⟨rfl, .inl rfl⟩
          | lowPowerMode t b =>
            cases b with
            | true => exact ⟨rfl, .inr ⟨rfl, rfl⟩⟩
            | false => exact ⟨rfl, .inl rfl⟩
          | manualTrigger t =>
            cases manual with
            | none => exact ⟨rfl, .inr ⟨rfl, rfl⟩⟩
            | some m => exact ⟨rfl, .inr ⟨rfl, rfl⟩⟩
          | _ => exact ⟨rfl, .inr ⟨rfl, rfl⟩⟩
      | _ => exact absurd ⟨rfl, nofun, nofun⟩ hp

theorem run_append {fl : Floats} (c : Cfg fl) (l m : List (Op fl)) : Av.run c (l ++ m) = m.foldl (Av.step c) (Av.run c l) := by
  unfold Av.run; rw [List.foldl_append]

theorem oneMore_run {fl : Floats} (c : Cfg fl) (l l' post : List (Op fl)) (h : OneMore (Av.run c l) (Av.run c l')) : OneMore (Av.run c (l ++ post)) (Av.run c (l' ++ post)) := by
  induction post generalizing l l' with
  | nil => rw [List.append_nil, List.append_nil]; exact h
  | cons o post ih =>
    have hh : OneMore (Av.run c (l ++ [o])) (Av.run c (l' ++ [o])) := by
      rw [run_snoc, run_snoc]
      have hp : (Av.run c l').panicked = (Av.run c l).panicked := by
        rcases (oneMore_iff _ _).1 h with e | ⟨_, e⟩ <;> rw [e] <;> rfl
      cases hq : (Av.run c l).panicked with
      | true =>
        unfold Av.step
        rw [hp, hq]
        exact h
      | false =>
        rw [step_eq c _ o hq, step_eq c _ o (by rw [hp, hq])]
        exact oneMore_act c (core_inv c l hq) h o
    have := ih (l ++ [o]) (l' ++ [o]) hh
    rwa [List.append_assoc, List.append_assoc] at this

/-- what a packet has brought about, as long as no other packet comes -/
def Settled {fl : Floats} (p : Uplink) (s : Av fl) : Prop :=
  s.resetting = true ∨
  match p with
  | .softArm _ b => s.lowPower = false ∧ s.sw = b ∧ s.telemSw = b
  | .lowPowerMode _ true => s.lowPower = true
  | .lowPowerMode _ false => s.lowPower = false ∧ s.sw = false ∧ s.telemSw = false
  | .reset _ => False
  | _ => s.lowPower = false

theorem settled_packet {fl : Floats} (c : Cfg fl) (s : Av fl) (p : Uplink) (t : Nat) : Settled p (s.packet c p t) := by
  unfold Av.packet
  cases hr : s.resetting with
  | true => exact .inl hr
  | false =>
    simp only [Bool.false_eq_true, if_false]
    cases p with
    | softArm ts b => exact .inr ⟨rfl, rfl, rfl⟩
    | lowPowerMode ts b => cases b <;> [exact .inr ⟨rfl, rfl, rfl⟩; exact .inr rfl]
    | reset ts => exact .inl rfl
    | manualTrigger ts => refine .inr ?_; simp only; cases s.manual <;> rfl
    | _ => exact .inr rfl

theorem settled_congr {fl : Floats} {p : Uplink} {s s' : Av fl} (h : pk s' = pk s) (hs : Settled p s) : Settled p s' := by
  have h1 : s'.sw = s.sw := congrArg Prod.fst h
  have h2 : s'.lowPower = s.lowPower := congrArg (fun x => x.2.1) h
  have h3 : s'.resetting = s.resetting := congrArg (fun x => x.2.2.1) h
  have h4 : s'.telemSw = s.telemSw := congrArg (fun x => x.2.2.2) h
  unfold Settled at hs ⊢
  rw [h1, h2, h3, h4]
  exact hs

theorem settled_mid {fl : Floats} (c : Cfg fl) (p : Uplink) (mid : List (Op fl)) (hm : ∀ o ∈ mid, o.isPacket = false) (s : Av fl) (hs : Settled p s) :
    Settled p (mid.foldl (Av.step c) s) := by
  induction mid generalizing s with
  | nil => exact hs
  | cons o mid ih =>
    refine ih (fun o' h => hm o' (List.mem_cons_of_mem _ h)) _ ?_
    unfold Av.step
    split
    · exact hs
    · exact settled_congr (frame_packet c s o (hm o List.mem_cons_self)) hs

/-- a settled packet once more -/
theorem settled_again {fl : Floats} (c : Cfg fl) (s : Av fl) (hc : CoreInv s) (p : Uplink) (t : Nat) (hp : ∀ ts, p ≠ .manualTrigger ts) (hs : Settled p s) : OneMore s (s.packet c p t) := by
  have pend : s.armMsg = some (s.sw, s.hw) ∨ s.armMsg = none := by
    cases hm : s.armMsg with
    | none => exact .inr rfl
    | some m => rw [hc.msg m hm]; exact .inl rfl
  clear hc
  obtain ⟨lowPower, storageFull, sw, hw, deb, hwSignal, armMsg, backup, manual, sensor, events, posCan, posDrogue, posMain, posCamera, drogueTask, mainTask, cameraWait, telemSw, telemHw, telemDrogue, telemMain, resetting, panicked, logged, acts⟩ := s
  cases resetting with
  | true => exact ⟨rfl, .inl rfl⟩
  | false =>
    have hs' := hs.resolve_left nofun
    cases p with
    | manualTrigger ts => exact absurd rfl (hp ts)
    | softArm ts b =>
      obtain ⟨h1, h2, h3⟩ := hs'
      cases h1; cases h2; cases h3
      rcases pend with h | h
      · exact ⟨rfl, .inl h.symm⟩
      · exact ⟨rfl, .inr ⟨h, rfl⟩⟩
    | lowPowerMode ts b =>
      cases b with
      | true =>
        have h1 : lowPower = true := hs'
        cases h1
        exact ⟨rfl, .inl rfl⟩
      | false =>
        obtain ⟨h1, h2, h3⟩ := hs'
        cases h1; cases h2; cases h3
        rcases pend with h | h
        · exact ⟨rfl, .inl h.symm⟩
        · exact ⟨rfl, .inr ⟨h, rfl⟩⟩
    | reset ts => exact hs'.elim
    | _ =>
      have h1 : lowPower = false := hs'
      cases h1
      exact ⟨rfl, .inl rfl⟩

/-- C107: the avionics carry a command out once for every transmission they hear (C38), but carrying it out again changes nothing: whatever else goes on before, in between and
afterwards, with and without the repetition the device publishes the same events, switches the same outputs at the same times and is in the same state. For every command except the
manual deployment. -/
theorem C107_retries {fl : Floats} (c : Cfg fl) (p : Uplink) (hp : ∀ ts, p ≠ .manualTrigger ts) (l l' : List (Op fl)) (h : Retried p l l') :
    SameButMessage (Av.run c l) (Av.run c l') := by
  obtain ⟨pre, mid, post, t, t', hm⟩ := h
  refine (oneMore_run c _ _ post ?_).same
  rw [run_snoc]
  have hs : (Av.run c (pre ++ [Av.Op.packet p t] ++ mid)).panicked = false → Settled p (Av.run c (pre ++ [Av.Op.packet p t] ++ mid)) := by
    intro hq
    rw [run_append c (pre ++ [Av.Op.packet p t]) mid]
    refine settled_mid c p mid hm _ ?_
    rw [run_snoc]
    unfold Av.step
    split
    · rename_i hpre
      exfalso
      have : ∀ (k : List (Op fl)) (s : Av fl), s.panicked = true → (k.foldl (Av.step c) s).panicked = true := by
        intro k
        induction k with
        | nil => exact fun s h => h
        | cons o k ih => intro s h; refine ih _ ?_; unfold Av.step; rw [if_pos h]; exact h
      rw [List.append_assoc, run_append] at hq
      rw [this _ _ hpre] at hq
      cases hq
    · exact settled_packet c _ p t
  cases hq : (Av.run c (pre ++ [Av.Op.packet p t] ++ mid)).panicked with
  | true =>
    unfold Av.step
    rw [hq, if_pos rfl]
    exact ⟨rfl, .inl rfl⟩
  | false =>
    rw [step_eq c _ _ hq]
    exact settled_again c _ (core_inv c _ hq) p t' hp (hs hq)

/-- the manual flight computer is missing, or has been triggered -/
def Triggered {fl : Floats} (s : Av fl) : Prop := s.resetting = true ∨ s.lowPower = false ∧ ∀ m, s.manual = some m → m.state ≠ .armed

theorem triggered_packet {fl : Floats} (c : Cfg fl) (s : Av fl) (ts : F64) (t : Nat) : Triggered (s.packet c (.manualTrigger ts) t) := by
  unfold Av.packet
  cases hr : s.resetting with
  | true => exact .inl hr
  | false =>
    refine .inr ?_
    simp only [Bool.false_eq_true, if_false]
    cases hm : s.manual with
    | none => exact ⟨rfl, fun m h => by simp only [hm] at h; cases h⟩
    | some m =>
      refine ⟨rfl, fun m' h => ?_⟩
      simp only [Av.publish, Option.some.injEq] at h
      subst h
      unfold Manual.trigger
      cases hs : m.state <;> simp [hs]

theorem triggered_act {fl : Floats} (c : Cfg fl) (s : Av fl) (o : Op fl) (h1 : o.isPacket = false) (h2 : o ≠ .setup) (hs : Triggered s) : Triggered (s.act c o) := by
  have hpk := frame_packet c s o h1
  have e2 : (s.act c o).lowPower = s.lowPower := congrArg (fun x => x.2.1) hpk
  have e3 : (s.act c o).resetting = s.resetting := congrArg (fun x => x.2.2.1) hpk
  unfold Triggered
  rw [e2, e3]
  refine hs.imp id (fun h => ⟨h.1, ?_⟩)
  by_cases hm : ∃ now, o = .manualTick now
  · obtain ⟨now, rfl⟩ := hm
    unfold Av.act Av.manualTick
    simp only
    cases hm : s.manual with
    | none => intro m hm'; simp only [hm] at hm'; cases hm'
    | some m =>
      intro m' hm'
      simp only [Av.publish, Option.some.injEq] at hm'
      subst hm'
      have := h.2 m hm
      unfold Manual.tick
      cases hst : m.state with
      | armed => exact absurd hst this
      | drogueChuteDeployed x => simp only; split <;> simp [hst]
      | mainChuteDeployed x => simp only; split <;> simp [hst]
      | landed => simp [hst]
  · have : (s.act c o).manual = s.manual := by
      cases o with
      | packet p now => cases h1
      | setup => exact absurd rfl h2
      | manualTick now => exact absurd ⟨now, rfl⟩ hm
      | switch v now => rfl
      | debounce now => rfl
      | applyHw => unfold Av.act Av.applyHw; simp only; split <;> rfl
      | reading r => unfold Av.act Av.reading; simp only; repeat' split <;> try rfl
      | storage free => rfl
      | tick => unfold Av.act Av.tick; simp only; repeat' split <;> try rfl
      | drogue now => unfold Av.act Av.pollDrogue; simp only; repeat' split <;> try rfl
      | main now => unfold Av.act Av.pollMain; simp only; repeat' split <;> try rfl
      | can => rfl
      | camera now => unfold Av.act Av.pollCamera; simp only; repeat' split <;> try rfl
    rw [this]
    exact h.2

theorem triggered_again {fl : Floats} (c : Cfg fl) (s : Av fl) (ts : F64) (t : Nat) (hs : Triggered s) : s.packet c (.manualTrigger ts) t = s := by
  unfold Triggered at hs
  obtain ⟨lowPower, storageFull, sw, hw, deb, hwSignal, armMsg, backup, manual, sensor, events, posCan, posDrogue, posMain, posCamera, drogueTask, mainTask, cameraWait, telemSw, telemHw, telemDrogue, telemMain, resetting, panicked, logged, acts⟩ := s
  cases resetting with
  | true => rfl
  | false =>
    obtain ⟨h1, h2⟩ := hs.resolve_left nofun
    cases h1
    cases manual with
    | none => rfl
    | some m =>
      have := h2 m rfl
      unfold Av.packet
      simp only [Bool.false_eq_true, if_false, Manual.trigger, Av.publish]
      cases hst : m.state with
      | armed => exact absurd hst this
      | _ => simp

/-- C107: the same for the manual deployment, unless the flight computers are set up or dropped in between -/
theorem C107_retries_manual {fl : Floats} (c : Cfg fl) (ts : F64) (pre mid post : List (Op fl)) (t t' : Nat) (hm : ∀ o ∈ mid, o.isPacket = false ∧ o ≠ .setup) :
    Av.run c (pre ++ [Av.Op.packet (.manualTrigger ts) t] ++ mid ++ [.packet (.manualTrigger ts) t'] ++ post) = Av.run c (pre ++ [Av.Op.packet (.manualTrigger ts) t] ++ mid ++ post) := by
  rw [run_append c _ post, run_append c _ post, run_snoc]
  congr 1
  have key : ∀ (k : List (Op fl)) (s : Av fl), (∀ o ∈ k, o.isPacket = false ∧ o ≠ .setup) → s.panicked = true ∨ Triggered s →
      (k.foldl (Av.step c) s).panicked = true ∨ Triggered (k.foldl (Av.step c) s) := by
    intro k
    induction k with
    | nil => exact fun s _ h => h
    | cons o k ih =>
      intro s hk h
      refine ih _ (fun o' ho => hk o' (List.mem_cons_of_mem _ ho)) ?_
      unfold Av.step
      cases hp : s.panicked with
      | true => rw [if_pos rfl]; exact .inl hp
      | false =>
        rw [if_neg (by decide)]
        refine .inr (triggered_act c s o (hk o List.mem_cons_self).1 (hk o List.mem_cons_self).2 (h.resolve_left ?_))
        rw [hp]; decide
  have h1 : (Av.run c (pre ++ [Av.Op.packet (.manualTrigger ts) t] ++ mid)).panicked = true ∨ Triggered (Av.run c (pre ++ [Av.Op.packet (.manualTrigger ts) t] ++ mid)) := by
    rw [run_append c _ mid]
    refine key mid _ hm ?_
    rw [run_snoc]
    unfold Av.step
    cases hp : (Av.run c pre).panicked with
    | true => rw [if_pos rfl]; exact .inl hp
    | false => rw [if_neg (by decide)]; exact .inr (triggered_packet c _ ts t)
  unfold Av.step
  rcases h1 with h1 | h1
  · rw [if_pos h1]
  · split
    · rfl
    · exact triggered_again c _ ts t' h1

/-- C107 (finding): a manual deployment that arrives before the flight computers are set up is dropped, although it was acknowledged; a retry of it that arrives after that deploys -/
theorem C107_manual_late {fl : Floats} (c : Cfg fl) (ts : F64) : ∃ pre mid : List (Op fl), (∀ o ∈ mid, o.isPacket = false) ∧
    (Av.run c (pre ++ [.packet (.manualTrigger ts) 1100])).events = [] ∧ (Av.run c (pre ++ [.packet (.manualTrigger ts) 1100] ++ mid)).events = [] ∧
    (Av.run c (pre ++ [.packet (.manualTrigger ts) 1100] ++ mid ++ [.packet (.manualTrigger ts) 1300])).events = [(.backupBackup, .changeState .drogueChuteDeployed)] :=
  ⟨[.switch true 0, .debounce 1000, .applyHw, .packet (.softArm 0 true) 1050], [.setup], by simp [Op.isPacket], rfl, rfl, rfl⟩

/-- a retried arming command: the flight computers are set up between the two copies -/
example {fl : Floats} : Retried (fl := fl) (.softArm 0 true) [.switch true 0, .debounce 1000, .applyHw, .packet (.softArm 0 true) 1050, .setup, .packet (.softArm 1 false) 1200]
    [.switch true 0, .debounce 1000, .applyHw, .packet (.softArm 0 true) 1050, .setup, .packet (.softArm 0 true) 1100, .packet (.softArm 1 false) 1200] :=
  .intro [.switch true 0, .debounce 1000, .applyHw] [.setup] [.packet (.softArm 1 false) 1200] 1050 1100 (by simp [Op.isPacket])

/-- in that history the computers are there when the copy arrives: the copy does not start them anew, and the manual deployment that follows is announced once -/
example {fl : Floats} (c : Cfg fl) : (Av.run c [.switch true 0, .debounce 1000, .applyHw, .packet (.softArm 0 true) 1050, .setup, .packet (.softArm 0 true) 1100, .setup,
    .packet (.manualTrigger 2) 1200, .packet (.manualTrigger 2) 1300]).events = [(.backupBackup, .changeState .drogueChuteDeployed)] := rfl

/-- the initial state meets the hypotheses of `C107_effect` -/
example {fl : Floats} (c : Cfg fl) : (Av.run c []).panicked = false ∧ (Av.run c []).resetting = false := ⟨rfl, rfl⟩

/-- the first packet of a ground test history is one of its steps -/
theorem firstPacket_mem {l : List Verif.Gt.Op} {p : Uplink} {now : Nat} (h : firstPacket l = some (p, now)) : Verif.Gt.Op.packet p now ∈ l := by
  induction l with
  | nil => cases h
  | cons o l ih =>
    cases o with
    | packet q t => cases h; exact List.mem_cons_self
    | _ => exact List.mem_cons_of_mem _ (ih h)

/-- C107 (finding): with the commands of the tool alone a ground test does not fire -/
theorem C107_ground_test (l : List Verif.Gt.Op) (h : ∀ p now, Verif.Gt.Op.packet p now ∈ l → ∃ cmd ts, p = Command.packet ts cmd) : (Verif.Gt.Gt.run l).acts = [] := by
  obtain h1 | ⟨t, sel, t0, h1, _⟩ := C77_pulse l
  · exact h1
  · exfalso
    obtain ⟨cmd, ts, e⟩ := h _ _ (firstPacket_mem h1)
    cases cmd <;> simp [Command.packet] at e

end Verif.Props
