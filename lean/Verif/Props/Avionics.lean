import Verif.Spec.Avionics
import Verif.Props.Debounce
import Verif.Props.PrimaryCore
/-
C46: pyro channels. C47: arming. C70-C74: deployment only when armed, low power mode, flight events on the CAN bus, camera, sensor failures.
-/
namespace Verif.Props

open Verif Fc Deb Vlp Av

theorem run_snoc {fl : Floats} (c : Cfg fl) (ops : List (Op fl)) (o : Op fl) : Av.run c (ops ++ [o]) = (Av.run c ops).step c o := by
  unfold Av.run
  rw [List.foldl_append]
  rfl

/-- induction over a run, newest step last -/
theorem run_induct {fl : Floats} (c : Cfg fl) {P : List (Op fl) → Av fl → Prop} (h0 : P [] .init)
    (hs : ∀ ops o, P ops (Av.run c ops) → P (ops ++ [o]) ((Av.run c ops).step c o)) (ops : List (Op fl)) : P ops (Av.run c ops) := by
  have : ∀ l : List (Op fl), P l.reverse (Av.run c l.reverse) := by
    intro l
    induction l with
    | nil => exact h0
    | cons o l ih =>
      rw [List.reverse_cons, run_snoc]
      exact hs _ _ ih
  have h := this ops.reverse
  rwa [List.reverse_reverse] at h

theorem step_ok {fl : Floats} (c : Cfg fl) (a : Av fl) (o : Op fl) (h : (a.step c o).panicked = false) : a.panicked = false := by
  cases hp : a.panicked with
  | false => rfl
  | true => unfold Av.step at h; rw [hp, if_pos rfl, hp] at h; cases h

theorem step_eq {fl : Floats} (c : Cfg fl) (a : Av fl) (o : Op fl) (h : a.panicked = false) : a.step c o = a.act c o := by
  unfold Av.step
  rw [h, if_neg (by simp)]

/-- induction over a run that does not panic -/
theorem run_induct' {fl : Floats} (c : Cfg fl) {P : List (Op fl) → Av fl → Prop} (h0 : P [] .init)
    (hs : ∀ ops o a, Av.run c ops = a → a.panicked = false → P ops a → P (ops ++ [o]) (a.act c o)) (ops : List (Op fl)) (hp : (Av.run c ops).panicked = false) :
    P ops (Av.run c ops) := by
  have := run_induct c (P := fun ops a => a.panicked = false → P ops a) (fun _ => h0) (by
    intro ops o ih hp
    have hp0 := step_ok c _ o hp
    rw [step_eq c _ o hp0]
    exact hs ops o _ rfl hp0 (ih hp0)) ops
  exact this hp

/-- the flags that packets control -/
def pk {fl : Floats} (a : Av fl) : Bool × Bool × Bool × Bool := (a.sw, a.lowPower, a.resetting, a.telemSw)

/-- only packets touch these -/
theorem frame_packet {fl : Floats} (c : Cfg fl) (a : Av fl) (o : Op fl) (ho : o.isPacket = false) : pk (a.act c o) = pk a := by
  cases o with
  | packet p now => cases ho
  | switch v now => rfl
  | debounce now => rfl
  | applyHw => unfold Av.act Av.applyHw; simp only; split <;> rfl
  | setup => unfold Av.act Av.setup; simp only; repeat' split <;> try rfl
  | reading r => unfold Av.act Av.reading; simp only; repeat' split <;> try rfl
  | storage free => rfl
  | tick => unfold Av.act Av.tick; simp only; repeat' split <;> try rfl
  | manualTick now => unfold Av.act Av.manualTick; simp only; repeat' split <;> try rfl
  | drogue now => unfold Av.act Av.pollDrogue; simp only; repeat' split <;> try rfl
  | main now => unfold Av.act Av.pollMain; simp only; repeat' split <;> try rfl
  | can => rfl
  | camera now => unfold Av.act Av.pollCamera; simp only; repeat' split <;> try rfl

/-- has a reset been requested -/
def resetSeen (l : List Uplink) : Bool := l.any fun p => match p with | .reset _ => true | _ => false

/-- one more packet -/
def pushPacket (l : List Uplink) (p : Uplink) : List Uplink := bif resetSeen l then l else l ++ [p]

theorem pushPacket_cons (l : List Uplink) (x p : Uplink) (hx : (match x with | .reset _ => true | _ => false) = false) : pushPacket (x :: l) p = x :: pushPacket l p := by
  unfold pushPacket
  have : resetSeen (x :: l) = resetSeen l := by
    unfold resetSeen
    rw [List.any_cons, hx, Bool.false_or]
  rw [this]
  cases resetSeen l <;> rfl

theorem handled_snoc {fl : Floats} (ops : List (Op fl)) (o : Op fl) : handled (ops ++ [o]) = match o with | .packet p _ => pushPacket (handled ops) p | _ => handled ops := by
  induction ops with
  | nil =>
    cases o with
    | packet p now => cases p <;> rfl
    | _ => rfl
  | cons x l ih =>
    cases x with
    | packet p now =>
      cases p with
      | reset t =>
        rw [List.cons_append, handled, handled]
        cases o <;> rfl
      | _ =>
        simp only [List.cons_append, handled, ih]
        cases o with
        | packet q now => exact (pushPacket_cons _ _ _ rfl).symm
        | _ => rfl
    | _ => simp only [List.cons_append, handled, ih]

theorem commanded_snoc (l : List Uplink) (q : Uplink) : commanded (l ++ [q]) =
    (match q with | .softArm _ armed => armed | .lowPowerMode _ false => false | _ => commanded l) := by
  unfold commanded
  rw [List.foldl_append]
  cases q with
  | lowPowerMode t e => cases e <;> rfl
  | _ => rfl

theorem lowPowerOf_snoc (l : List Uplink) (q : Uplink) : lowPowerOf (l ++ [q]) = (match q with | .lowPowerMode _ true => true | _ => false) := by
  unfold lowPowerOf
  rw [List.getLast?_append, List.getLast?_singleton]
  cases q with
  | lowPowerMode t e => cases e <;> rfl
  | _ => rfl

theorem resetSeen_snoc (l : List Uplink) (q : Uplink) (h : resetSeen l = false) : resetSeen (l ++ [q]) = (match q with | .reset _ => true | _ => false) := by
  unfold resetSeen at h ⊢
  rw [List.any_append, h]
  cases q <;> rfl

/-- the flags that packets control are what the packets said -/
theorem packet_inv {fl : Floats} (c : Cfg fl) (ops : List (Op fl)) (hp : (Av.run c ops).panicked = false) :
    pk (Av.run c ops) = (commanded (handled ops), lowPowerOf (handled ops), resetSeen (handled ops), commanded (handled ops)) := by
  refine run_induct' c (P := fun ops a => pk a = (commanded (handled ops), lowPowerOf (handled ops), resetSeen (handled ops), commanded (handled ops))) rfl ?_ ops hp
  intro ops o a _ _ h
  rw [handled_snoc]
  by_cases ho : o.isPacket = false
  · rw [frame_packet c a o ho, h]
    cases o with
    | packet p now => cases ho
    | _ => rfl
  · cases o with
    | packet p now =>
      have hr0 : a.resetting = resetSeen (handled ops) := congrArg (fun x => x.2.2.1) h
      have hs0 : a.sw = commanded (handled ops) := congrArg (fun x => x.1) h
      have ht0 : a.telemSw = commanded (handled ops) := congrArg (fun x => x.2.2.2) h
      simp only [Av.act]
      unfold Av.packet
      by_cases hr : resetSeen (handled ops) = true
      · rw [hr0, if_pos hr, show pushPacket (handled ops) p = handled ops by unfold pushPacket; rw [hr]; rfl]
        exact h
      · have hr' : resetSeen (handled ops) = false := by simpa using hr
        have hr1 := hr0.trans hr'
        rw [hr0, if_neg hr, show pushPacket (handled ops) p = handled ops ++ [p] by unfold pushPacket; rw [hr']; rfl, commanded_snoc, lowPowerOf_snoc, resetSeen_snoc _ _ hr']
        cases p with
        | verticalCalibration t => simp only [pk, hs0, ht0, hr']
        | softArm t b => simp only [pk, Av.setSoftware, hr']
        | lowPowerMode t e => cases e <;> simp [pk, Av.setSoftware, hr', hs0, ht0]
        | reset t => simp only [pk, hs0, ht0]
        | deleteLogs t => simp only [pk, hs0, ht0, hr']
        | groundTestDeploy t y => simp only [pk, hs0, ht0, hr']
        | manualTrigger t =>
          simp only
          split <;> simp only [pk, Av.publish, hs0, ht0, hr']
    | _ => exact absurd rfl ho

/-- C47, C71: low power mode is on exactly if the last packet switched it on; software arming is as last commanded, where leaving low power mode counts as a command to disarm;
the telemetry shows the same -/
theorem C47_software {fl : Floats} (c : Cfg fl) (ops : List (Op fl)) (hp : (Av.run c ops).panicked = false) :
    (Av.run c ops).sw = commanded (handled ops) ∧ (Av.run c ops).telemSw = (Av.run c ops).sw ∧ (Av.run c ops).lowPower = lowPowerOf (handled ops) := by
  have h := packet_inv c ops hp
  have h1 : (Av.run c ops).sw = _ := congrArg (fun x => x.1) h
  have h2 : (Av.run c ops).lowPower = _ := congrArg (fun x => x.2.1) h
  have h4 : (Av.run c ops).telemSw = _ := congrArg (fun x => x.2.2.2) h
  exact ⟨h1, h4.trans h1.symm, h2⟩

/-- the hardware side of arming -/
def hk {fl : Floats} (a : Av fl) : Deb Bool × Bool := (a.deb, (match a.hwSignal with | some v => v | none => a.hw))

/-- steps that do not concern the switch -/
def quietHw {fl : Floats} : Op fl → Bool
  | .switch _ _ => false
  | .debounce _ => false
  | _ => true

theorem frame_hw {fl : Floats} (c : Cfg fl) (a : Av fl) (o : Op fl) (ho : quietHw o = true) : hk (a.act c o) = hk a := by
  cases o with
  | packet p now =>
    unfold Av.act Av.packet
    simp only
    split
    · rfl
    · cases p with
      | lowPowerMode t e => cases e <;> rfl
      | manualTrigger t => simp only; split <;> rfl
      | _ => rfl
  | switch v now => cases ho
  | debounce now => cases ho
  | applyHw =>
    unfold Av.act Av.applyHw
    simp only
    split
    · rfl
    · rename_i v hv
      unfold hk
      simp only [hv]
  | setup => unfold Av.act Av.setup; simp only; repeat' split <;> try rfl
  | reading r => unfold Av.act Av.reading; simp only; repeat' split <;> try rfl
  | storage free => rfl
  | tick => unfold Av.act Av.tick; simp only; repeat' split <;> try rfl
  | manualTick now => unfold Av.act Av.manualTick; simp only; repeat' split <;> try rfl
  | drogue now => unfold Av.act Av.pollDrogue; simp only; repeat' split <;> try rfl
  | main now => unfold Av.act Av.pollMain; simp only; repeat' split <;> try rfl
  | can => rfl
  | camera now => unfold Av.act Av.pollCamera; simp only; repeat' split <;> try rfl

theorem switchInputs_snoc {fl : Floats} (ops : List (Op fl)) (o : Op fl) : switchInputs (ops ++ [o]) = switchInputs ops ++ switchInputs [o] := by
  induction ops with
  | nil => rfl
  | cons x l ih =>
    cases x <;> simp only [List.cons_append, switchInputs, ih]

/-- the inputs of the debouncer as a stream -/
def stream (l : List (Nat × Option Bool)) : Inputs Bool := fun i => l.getD i (0, none)

theorem debRun_congr {V : Type} [DecidableEq V] (T : Nat) (x y : Inputs V) (n : Nat) (h : ∀ i, i < n → x i = y i) : debRun T x n = debRun T y n := by
  induction n with
  | zero => rfl
  | succ n ih =>
    simp only [debRun]
    rw [ih (fun i hi => h i (by omega)), h n (by omega)]

theorem stream_snoc (l : List (Nat × Option Bool)) (e : Nat × Option Bool) :
    debRun 1000 (stream (l ++ [e])) (l ++ [e]).length =
      (((debRun 1000 (stream l) l.length).1.poll 1000 e.1 e.2).1, (debRun 1000 (stream l) l.length).2 ++
        (match ((debRun 1000 (stream l) l.length).1.poll 1000 e.1 e.2).2 with | some v => [(l.length, v)] | none => [])) := by
  have h1 : debRun 1000 (stream (l ++ [e])) l.length = debRun 1000 (stream l) l.length := by
    refine debRun_congr _ _ _ _ fun i hi => ?_
    unfold stream
    rw [List.getD_eq_getElem?_getD, List.getD_eq_getElem?_getD, List.getElem?_append_left hi]
  have h2 : stream (l ++ [e]) l.length = e := by
    unfold stream
    rw [List.getD_eq_getElem?_getD, List.getElem?_append_right (Nat.le_refl _), Nat.sub_self]
    rfl
  rw [List.length_append]
  simp only [List.length_singleton, debRun]
  rw [h1, h2]
  generalize (debRun 1000 (stream l) l.length).1.poll 1000 e.1 e.2 = z
  obtain ⟨z1, z2⟩ := z
  cases z2 <;> rfl

/-- the outputs of the debouncer for the switch history of these steps -/
def debounced {fl : Floats} (ops : List (Op fl)) : List (Nat × Bool) := (debRun 1000 (stream (switchInputs ops)) (switchInputs ops).length).2

theorem hw_inv {fl : Floats} (c : Cfg fl) (ops : List (Op fl)) (hp : (Av.run c ops).panicked = false) :
    hk (Av.run c ops) = ((debRun 1000 (stream (switchInputs ops)) (switchInputs ops).length).1, (((debounced ops).getLast?).map Prod.snd).getD false) := by
  refine run_induct' c (P := fun ops a => hk a = ((debRun 1000 (stream (switchInputs ops)) (switchInputs ops).length).1,
    (((debounced ops).getLast?).map Prod.snd).getD false)) rfl ?_ ops hp
  intro ops o a _ _ h
  have key : ∀ (t : Nat) (e : Option Bool) (b : Av fl), hk b = hk a → switchInputs (ops ++ [o]) = switchInputs ops ++ [(t, e)] →
      hk (b.pollDebounce e t) = ((debRun 1000 (stream (switchInputs (ops ++ [o]))) (switchInputs (ops ++ [o])).length).1,
        (((debounced (ops ++ [o])).getLast?).map Prod.snd).getD false) := by
    intro t e b hb hs
    have hb1 : b.deb = (debRun 1000 (stream (switchInputs ops)) (switchInputs ops).length).1 := congrArg Prod.fst (hb.trans h)
    have hb2 : (match b.hwSignal with | some v => v | none => b.hw) = (((debounced ops).getLast?).map Prod.snd).getD false := congrArg Prod.snd (hb.trans h)
    unfold debounced at hb2 ⊢
    rw [hs, stream_snoc]
    unfold hk Av.pollDebounce
    simp only [hb1]
    cases hq : ((debRun 1000 (stream (switchInputs ops)) (switchInputs ops).length).1.poll 1000 t e).2 with
    | none => simp only [List.append_nil, hb2]
    | some v => simp
  by_cases ho : quietHw o = true
  · rw [frame_hw c a o ho, h]
    have : switchInputs (ops ++ [o]) = switchInputs ops := by
      rw [switchInputs_snoc]
      cases o <;> first | (cases ho; done) | simp [switchInputs]
    unfold debounced
    rw [this]
  · cases o with
    | switch v now => exact key now (some v) { a with telemHw := v } rfl (switchInputs_snoc _ _)
    | debounce now => exact key now none a rfl (switchInputs_snoc _ _)
    | _ => exact absurd rfl ho

/-- C47: after any history of steps, the rocket is armed exactly if software arming was last commanded on and the last output of the debouncer (C48), fed with the history of the
hardware switch, is on (as soon as the task that takes over the debounced value has run) -/
theorem C47_armed {fl : Floats} (c : Cfg fl) (ops : List (Op fl)) (hp : (Av.run c ops).panicked = false) (hs : (Av.run c ops).hwSignal = none) :
    (Av.run c ops).isArmed = true ↔ commanded (handled ops) = true ∧ ((debounced ops).getLast?.map Prod.snd) = some true := by
  have h1 := (C47_software c ops hp).1
  have h2 := congrArg Prod.snd (hw_inv c ops hp)
  unfold hk at h2
  simp only [hs] at h2
  unfold Av.isArmed
  rw [Bool.and_eq_true, h1, h2]
  cases (debounced ops).getLast?.map Prod.snd <;> simp

/-- the flight computers and the message about arming -/
structure CoreInv {fl : Floats} (a : Av fl) : Prop where
  both : a.backup.isSome = a.manual.isSome
  msg : ∀ m, a.armMsg = some m → m = (a.sw, a.hw)
  done : a.armMsg = none → a.backup.isSome = a.isArmed

theorem core_inv {fl : Floats} (c : Cfg fl) (ops : List (Op fl)) (hp : (Av.run c ops).panicked = false) : CoreInv (Av.run c ops) := by
  refine run_induct' c (P := fun _ a => CoreInv a) ⟨rfl, (by intro m h; cases h), fun _ => rfl⟩ ?_ ops hp
  intro ops o a _ _ h
  have same : ∀ b : Av fl, b.backup.isSome = a.backup.isSome → b.manual.isSome = a.manual.isSome → b.armMsg = a.armMsg → b.sw = a.sw → b.hw = a.hw → CoreInv b := by
    intro b h1 h2 h3 h4 h5
    refine ⟨by rw [h1, h2]; exact h.both, ?_, ?_⟩
    · rw [h3, h4, h5]; exact h.msg
    · rw [h3, h1]; intro h6; rw [h.done h6]; unfold Av.isArmed; rw [h4, h5]
  have fresh : ∀ b : Av fl, b.backup.isSome = a.backup.isSome → b.manual.isSome = a.manual.isSome → b.armMsg = some (b.sw, b.hw) → CoreInv b := by
    intro b h1 h2 h3
    refine ⟨by rw [h1, h2]; exact h.both, ?_, ?_⟩
    · rw [h3]; intro m hm; exact (Option.some.inj hm).symm
    · rw [h3]; intro h; cases h
  cases o with
  | packet p now =>
    unfold Av.act Av.packet
    simp only
    split
    · exact h
    · cases p with
      | softArm t b => exact fresh _ rfl rfl rfl
      | lowPowerMode t e =>
        cases e with
        | false => exact fresh _ rfl rfl rfl
        | true => exact same _ rfl rfl rfl rfl rfl
      | manualTrigger t =>
        simp only
        split
        · exact same _ rfl rfl rfl rfl rfl
        · rename_i m hm
          exact same _ rfl (by simp only [Av.publish]; rw [hm]; rfl) rfl rfl rfl
      | _ => exact same _ rfl rfl rfl rfl rfl
  | switch v now => exact same _ rfl rfl rfl rfl rfl
  | debounce now => exact same _ rfl rfl rfl rfl rfl
  | applyHw =>
    unfold Av.act Av.applyHw
    simp only
    split
    · exact h
    · exact fresh _ rfl rfl rfl
  | setup =>
    unfold Av.act Av.setup
    simp only
    split
    · exact h
    · rename_i sw hw hm
      have hm' := h.msg _ hm
      simp only [Prod.mk.injEq] at hm'
      obtain ⟨rfl, rfl⟩ := hm'
      split
      · rename_i ha
        split
        · exact ⟨rfl, (by intro m h; cases h), fun _ => (by unfold Av.isArmed; simp only [ha]; rfl)⟩
        · rename_i b hb
          refine ⟨h.both, (by intro m h; cases h), fun _ => ?_⟩
          unfold Av.isArmed
          simp only [ha, hb]
          rfl
      · rename_i ha
        have ha' : (a.sw && a.hw) = false := by simpa using ha
        split
        · rename_i hb
          refine ⟨h.both, (by intro m h; cases h), fun _ => ?_⟩
          unfold Av.isArmed
          simp only [ha', hb]
          rfl
        · rename_i b hb
          have hman : a.manual.isSome = true := by rw [← h.both, hb]; rfl
          split
          · rename_i hmn
            simp only [Av.publish] at hmn
            rw [hmn] at hman
            cases hman
          · exact ⟨rfl, (by intro m h; cases h), fun _ => (by unfold Av.isArmed; simp only [Av.publish, ha']; rfl)⟩
  | reading r =>
    unfold Av.act Av.reading
    simp only
    repeat' split
    all_goals exact same _ rfl rfl rfl rfl rfl
  | storage free => exact same _ rfl rfl rfl rfl rfl
  | tick =>
    unfold Av.act Av.tick
    simp only
    split
    · exact h
    · split
      · exact same _ rfl rfl rfl rfl rfl
      · rename_i b hb
        split
        · exact same _ rfl rfl rfl rfl rfl
        · exact same _ (by simp only [Av.publish]; rw [hb]; rfl) rfl rfl rfl rfl
  | manualTick now =>
    unfold Av.act Av.manualTick
    simp only
    split
    · exact h
    · rename_i m hm
      exact same _ rfl (by simp only [Av.publish]; rw [hm]; rfl) rfl rfl rfl
  | drogue now =>
    unfold Av.act Av.pollDrogue
    simp only
    repeat' split
    all_goals exact same _ rfl rfl rfl rfl rfl
  | main now =>
    unfold Av.act Av.pollMain
    simp only
    repeat' split
    all_goals exact same _ rfl rfl rfl rfl rfl
  | can => exact same _ rfl rfl rfl rfl rfl
  | camera now =>
    unfold Av.act Av.pollCamera
    simp only
    repeat' split
    all_goals exact same _ rfl rfl rfl rfl rfl

/-- C47: the flight computers exist exactly while the rocket is armed (as soon as the task that sets them up has seen the last change) -/
theorem C47_cores {fl : Floats} (c : Cfg fl) (ops : List (Op fl)) (hp : (Av.run c ops).panicked = false) (hs : (Av.run c ops).armMsg = none) :
    (Av.run c ops).backup.isSome = (Av.run c ops).isArmed ∧ (Av.run c ops).manual.isSome = (Av.run c ops).isArmed := by
  have h := core_inv c ops hp
  exact ⟨h.done hs, by rw [← h.both]; exact h.done hs⟩

theorem pulses_append (k : Chute) (l m : List Act) : pulses k (l ++ m) = pulses k l ++ pulses k m := by
  induction l with
  | nil => rfl
  | cons x l ih =>
    cases x with
    | pyro k' ch on t =>
      simp only [List.cons_append, pulses, ih]
      split <;> rfl
    | _ => simp only [List.cons_append, pulses, ih]

/-- what the task has done so far fits its state -/
def PyroInv {fl : Floats} (c : Cfg fl) (k : Chute) (a : Av fl) : Prop :=
  match a.task k with
  | .waiting => pulses k a.acts = []
  | .firing s => pulses k a.acts = [(c.channel k, true, s)]
  | .done => ∃ s t, s + 3000 ≤ t ∧ pulses k a.acts = [(c.channel k, true, s), (c.channel k, false, t)]

/-- what concerns a pyro task -/
def yk {fl : Floats} (k : Chute) (a : Av fl) : PyroTask × List (Pyro × Bool × Nat) := (a.task k, pulses k a.acts)

theorem pyroInv_congr {fl : Floats} {c : Cfg fl} {k : Chute} {a b : Av fl} (h : yk k b = yk k a) (ha : PyroInv c k a) : PyroInv c k b := by
  have h1 : b.task k = a.task k := congrArg Prod.fst h
  have h2 : pulses k b.acts = pulses k a.acts := congrArg Prod.snd h
  unfold PyroInv at ha ⊢
  rw [h1, h2]
  exact ha

/-- is this a poll of a pyro task -/
def isPoll {fl : Floats} : Op fl → Bool
  | .drogue _ => true
  | .main _ => true
  | _ => false

theorem pulses_camera (k : Chute) {S : Type} (l : List (Redundancy × Event S)) : pulses k (cameraRead l).2.1 = [] := by
  induction l with
  | nil => rfl
  | cons e l ih =>
    unfold cameraRead
    split <;> first | rfl | exact ih

theorem pulses_can (k : Chute) (l : List Can.FlightEvent) : pulses k (l.map .canEvent) = [] := by
  induction l with
  | nil => rfl
  | cons e l ih => exact ih

theorem frame_pyro {fl : Floats} (c : Cfg fl) (k : Chute) (a : Av fl) (o : Op fl) (ho : isPoll o = false) : yk k (a.act c o) = yk k a := by
  have same : ∀ b : Av fl, b.drogueTask = a.drogueTask → b.mainTask = a.mainTask → pulses k b.acts = pulses k a.acts → yk k b = yk k a := by
    intro b h1 h2 h3
    unfold yk
    rw [h3]
    cases k
    · simp only [Av.task, h1]
    · simp only [Av.task, h2]
  cases o with
  | packet p now =>
    unfold Av.act Av.packet
    simp only
    split
    · rfl
    · cases p with
      | lowPowerMode t e => cases e <;> exact same _ rfl rfl rfl
      | manualTrigger t => simp only; split <;> exact same _ rfl rfl rfl
      | reset t => exact same _ rfl rfl (by simp only [pulses_append]; simp [pulses])
      | _ => exact same _ rfl rfl rfl
  | switch v now => exact same _ rfl rfl rfl
  | debounce now => exact same _ rfl rfl rfl
  | applyHw => unfold Av.act Av.applyHw; simp only; split <;> exact same _ rfl rfl rfl
  | setup =>
    unfold Av.act Av.setup
    simp only
    repeat' split
    all_goals exact same _ rfl rfl rfl
  | reading r =>
    unfold Av.act Av.reading
    simp only
    repeat' split
    all_goals exact same _ rfl rfl rfl
  | storage free => exact same _ rfl rfl rfl
  | tick =>
    unfold Av.act Av.tick
    simp only
    repeat' split
    all_goals exact same _ rfl rfl rfl
  | manualTick now =>
    unfold Av.act Av.manualTick
    simp only
    repeat' split
    all_goals exact same _ rfl rfl rfl
  | drogue now => cases ho
  | main now => cases ho
  | can => exact same _ rfl rfl (by simp only [Av.act, Av.pollCan, pulses_append, pulses_can, List.append_nil])
  | camera now =>
    unfold Av.act Av.pollCamera
    simp only
    split
    · split
      · exact same _ rfl rfl (by simp only [pulses_append]; simp [pulses])
      · rfl
    · exact same _ rfl rfl (by simp only [pulses_append, pulses_camera, List.append_nil])

theorem pyro_inv {fl : Floats} (c : Cfg fl) (k : Chute) (ops : List (Op fl)) (hp : (Av.run c ops).panicked = false) : PyroInv c k (Av.run c ops) := by
  refine run_induct' c (P := fun _ a => PyroInv c k a) (by cases k <;> rfl) ?_ ops hp
  intro ops o a _ _ h
  by_cases ho : isPoll o = false
  · exact pyroInv_congr (frame_pyro c k a o ho) h
  · cases o with
    | drogue now =>
      cases k with
      | main =>
        refine pyroInv_congr ?_ h
        unfold Av.act Av.pollDrogue
        simp only
        repeat' split
        all_goals simp [yk, Av.task, pulses_append, pulses]
      | drogue =>
        unfold Av.act Av.pollDrogue
        simp only
        unfold PyroInv at h
        simp only [Av.task] at h
        split
        · rename_i ht
          rw [ht] at h
          split
          · simp only [PyroInv, Av.task, pulses_append, h]
            simp [pulses, Cfg.channel]
          · simp only [PyroInv, Av.task, ht]
            exact h
        · rename_i s ht
          rw [ht] at h
          split
          · rename_i hl
            simp only [PyroInv, Av.task, pulses_append, h]
            exact ⟨s, now, hl, by simp [pulses, Cfg.channel]⟩
          · simp only [PyroInv, Av.task, ht]
            exact h
        · rename_i ht
          rw [ht] at h
          simp only [PyroInv, Av.task, ht]
          exact h
    | main now =>
      cases k with
      | drogue =>
        refine pyroInv_congr ?_ h
        unfold Av.act Av.pollMain
        simp only
        repeat' split
        all_goals simp [yk, Av.task, pulses_append, pulses]
      | main =>
        unfold Av.act Av.pollMain
        simp only
        unfold PyroInv at h
        simp only [Av.task] at h
        split
        · rename_i ht
          rw [ht] at h
          split
          · simp only [PyroInv, Av.task, pulses_append, h]
            simp [pulses, Cfg.channel]
          · simp only [PyroInv, Av.task, ht]
            exact h
        · rename_i s ht
          rw [ht] at h
          split
          · rename_i hl
            simp only [PyroInv, Av.task, pulses_append, h]
            exact ⟨s, now, hl, by simp [pulses, Cfg.channel]⟩
          · simp only [PyroInv, Av.task, ht]
            exact h
        · rename_i ht
          rw [ht] at h
          simp only [PyroInv, Av.task, ht]
          exact h
    | _ => exact absurd rfl ho

/-- C46: whatever happens, the deployment task of a parachute has by any time done nothing, or switched on the channel the profile assigns, or switched it on and at least 3 s
later off; no other channel, and nothing twice -/
theorem C46_once {fl : Floats} (c : Cfg fl) (k : Chute) (ops : List (Op fl)) (hp : (Av.run c ops).panicked = false) :
    pulses k (Av.run c ops).acts = [] ∨ (∃ s, pulses k (Av.run c ops).acts = [(c.channel k, true, s)]) ∨
      ∃ s t, s + 3000 ≤ t ∧ pulses k (Av.run c ops).acts = [(c.channel k, true, s), (c.channel k, false, t)] := by
  have h := pyro_inv c k ops hp
  unfold PyroInv at h
  split at h
  · exact .inl h
  · exact .inr (.inl ⟨_, h⟩)
  · exact .inr (.inr h)

theorem isDeploy_iff {S : Type} (k : Chute) (e : Redundancy × Event S) : isDeploy k e = true ↔ IsDeploy k e := by
  obtain ⟨r, e⟩ := e
  unfold isDeploy IsDeploy
  cases k <;> cases e with
  | changeState s => cases s <;> simp
  | _ => simp

theorem unread_mem {S : Type} {l : List S} {p n : Nat} {e : S} (h : e ∈ PubSub.unread n l p) : e ∈ l := List.mem_of_mem_drop h

theorem mem_pulses (k : Chute) (ch : Pyro) (on : Bool) (t : Nat) (l : List Act) : Act.pyro k ch on t ∈ l ↔ (ch, on, t) ∈ pulses k l := by
  induction l with
  | nil => simp [pulses]
  | cons x l ih =>
    cases x with
    | pyro k' ch' on' t' =>
      simp only [pulses, List.mem_cons, ih, Act.pyro.injEq]
      by_cases hk : k' = k
      · subst hk; simp
      · rw [if_neg hk]
        constructor
        · rintro (⟨h, _⟩ | h)
          · exact absurd h.symm hk
          · exact h
        · exact .inr
    | _ => simp [pulses, ih]

/-- a step that switches a channel on is a poll of the deployment task that finds the deployment event -/
theorem on_cause {fl : Floats} (c : Cfg fl) (k : Chute) (a : Av fl) (o : Op fl) (ch : Pyro) (t : Nat) (h : Act.pyro k ch true t ∈ (a.act c o).acts) (h0 : Act.pyro k ch true t ∉ a.acts) :
    o = pollOp k t ∧ ch = c.channel k ∧ a.task k = .waiting ∧ ∃ e ∈ a.events, IsDeploy k e := by
  by_cases ho : isPoll o = false
  · have := congrArg Prod.snd (frame_pyro c k a o ho)
    simp only [yk] at this
    rw [mem_pulses, this, ← mem_pulses] at h
    exact absurd h h0
  · cases o with
    | drogue now =>
      simp only [Av.act, Av.pollDrogue] at h
      split at h
      · rename_i ht
        split at h
        · rename_i hu
          simp only [List.mem_append, List.mem_singleton] at h
          obtain h | h := h
          · exact absurd h h0
          · cases h
            obtain ⟨e, he, hd⟩ := List.any_eq_true.mp hu
            exact ⟨rfl, rfl, ht, e, unread_mem he, (isDeploy_iff _ _).mp hd⟩
        · exact absurd h h0
      · split at h
        · simp only [List.mem_append, List.mem_singleton] at h
          obtain h | h := h
          · exact absurd h h0
          · cases h
        · exact absurd h h0
      · exact absurd h h0
    | main now =>
      simp only [Av.act, Av.pollMain] at h
      split at h
      · rename_i ht
        split at h
        · rename_i hu
          simp only [List.mem_append, List.mem_singleton] at h
          obtain h | h := h
          · exact absurd h h0
          · cases h
            obtain ⟨e, he, hd⟩ := List.any_eq_true.mp hu
            exact ⟨rfl, rfl, ht, e, unread_mem he, (isDeploy_iff _ _).mp hd⟩
        · exact absurd h h0
      · split at h
        · simp only [List.mem_append, List.mem_singleton] at h
          obtain h | h := h
          · exact absurd h h0
          · cases h
        · exact absurd h h0
      · exact absurd h h0
    | _ => exact absurd rfl ho

/-- C46: a channel is switched on only by the deployment task of the parachute it belongs to, and only if a flight computer has announced the deployment of that parachute before -/
theorem C46_cause {fl : Floats} (c : Cfg fl) (k : Chute) (ch : Pyro) (t : Nat) (ops : List (Op fl)) (h : Act.pyro k ch true t ∈ (Av.run c ops).acts) :
    ∃ pre post, ops = pre ++ pollOp k t :: post ∧ ch = c.channel k ∧ ∃ e ∈ (Av.run c pre).events, IsDeploy k e := by
  refine run_induct c (P := fun ops a => Act.pyro k ch true t ∈ a.acts → ∃ pre post, ops = pre ++ pollOp k t :: post ∧ ch = c.channel k ∧ ∃ e ∈ (Av.run c pre).events, IsDeploy k e)
    (by intro h; cases h) ?_ ops h
  intro ops o ih h
  by_cases h0 : Act.pyro k ch true t ∈ (Av.run c ops).acts
  · obtain ⟨pre, post, e, r⟩ := ih h0
    exact ⟨pre, post ++ [o], by rw [e]; simp, r⟩
  · unfold Av.step at h
    split at h
    · exact absurd h h0
    · obtain ⟨e, h1, _, h2⟩ := on_cause c k _ o ch t h h0
      exact ⟨ops, [], by rw [e], h1, h2⟩

/-- C46: a poll of the deployment task, while it still waits, switches its channel on if the deployment has been announced since it last looked and is among the last ten events -/
theorem C46_fires {fl : Floats} (c : Cfg fl) (k : Chute) (a : Av fl) (now i : Nat) (hw : a.task k = .waiting) {e : Redundancy × Event fl.S} (he : a.events[i]? = some e)
    (hd : IsDeploy k e) (hpos : a.pos k ≤ i) (hlast : a.events.length ≤ i + 10) :
    (a.act c (pollOp k now)).acts = a.acts ++ [.pyro k (c.channel k) true now] ∧ (a.act c (pollOp k now)).task k = .firing now := by
  have hany : (PubSub.unread 10 a.events (a.pos k)).any (isDeploy k) = true := by
    refine List.any_eq_true.mpr ⟨e, ?_, (isDeploy_iff _ _).mpr hd⟩
    unfold PubSub.unread PubSub.next
    have hle : max (a.pos k) (a.events.length - 10) ≤ i := by omega
    rw [List.mem_iff_getElem?]
    refine ⟨i - max (a.pos k) (a.events.length - 10), ?_⟩
    rw [List.getElem?_drop, Nat.add_sub_cancel' hle]
    exact he
  cases k with
  | drogue =>
    simp only [Av.task, Av.pos] at hw hany
    simp only [Av.act, pollOp, Av.pollDrogue, hw, hany, if_true, Cfg.channel, Av.task]
    exact ⟨trivial, trivial⟩
  | main =>
    simp only [Av.task, Av.pos] at hw hany
    simp only [Av.act, pollOp, Av.pollMain, hw, hany, if_true, Cfg.channel, Av.task]
    exact ⟨trivial, trivial⟩

/-- C46: the pulse ends at the first poll at least 3 s after its beginning -/
theorem C46_ends {fl : Floats} (c : Cfg fl) (k : Chute) (a : Av fl) (now s : Nat) (hw : a.task k = .firing s) (h : s + 3000 ≤ now) :
    (a.act c (pollOp k now)).acts = a.acts ++ [.pyro k (c.channel k) false now] ∧ (a.act c (pollOp k now)).task k = .done := by
  cases k with
  | drogue =>
    simp only [Av.task] at hw
    simp only [Av.act, pollOp, Av.pollDrogue, hw, h, if_true, Cfg.channel, Av.task]
    exact ⟨trivial, trivial⟩
  | main =>
    simp only [Av.task] at hw
    simp only [Av.act, pollOp, Av.pollMain, hw, h, if_true, Cfg.channel, Av.task]
    exact ⟨trivial, trivial⟩

/-- a boot with rational floats -/
def demoCfg : Cfg ratFloats := ⟨demoProfile, .pyro1, .pyro2, demoBiquad, fun n => (n : Rat)⟩

/-- arming: software, switch (stable since the first reading), flight computers -/
def demoArm : List (Op ratFloats) := [.packet (.softArm 0 true) 0, .switch true 0, .applyHw, .setup]

/-- a barometer reading -/
def demoReading (t : Nat) : Op ratFloats := .reading (some ⟨(t : Rat), (100 : Rat)⟩)

/-- a reading and a tick of the flight computer -/
def demoTick (t : Nat) : List (Op ratFloats) := [demoReading t, .tick]

example : (Av.run demoCfg demoArm).isArmed = true ∧ (Av.run demoCfg demoArm).backup.isSome = true ∧ (Av.run demoCfg demoArm).panicked = false := by decide +kernel

/-- the hypotheses are met: armed, triggered by radio, the task polls: the pulse -/
example : pulses .drogue (Av.run demoCfg (demoArm ++ [.packet (.manualTrigger 0) 10, .drogue 11, .drogue 500, .drogue 3011, .drogue 9000])).acts =
    [(.pyro1, true, 11), (.pyro1, false, 3011)] := by decide +kernel

/-- C46 (finding): a deployment event is lost if ten more events are published before the deployment task is polled. Then the parachute is never deployed although a flight
computer announced it, and the flight computer does not announce it again -/
theorem C46_missed : ∃ (c : Cfg ratFloats) (ops : List (Op ratFloats)), (Av.run c ops).panicked = false ∧ (∃ e ∈ (Av.run c ops).events, IsDeploy .drogue e) ∧
    ∀ now, pulses .drogue ((Av.run c ops).act c (.drogue now)).acts = [] ∧ ((Av.run c ops).act c (.drogue now)).posDrogue = (Av.run c ops).events.length := by
  refine ⟨demoCfg, demoArm ++ .packet (.manualTrigger 0) 10 :: (List.range 10).flatMap demoTick, by decide +kernel, ?_, fun now => ?_⟩
  · exact ⟨(.backupBackup, .changeState .drogueChuteDeployed), by decide +kernel, rfl⟩
  · have h1 : (Av.run demoCfg (demoArm ++ .packet (.manualTrigger 0) 10 :: (List.range 10).flatMap demoTick)).drogueTask = .waiting := by decide +kernel
    have h2 : (PubSub.unread 10 (Av.run demoCfg (demoArm ++ .packet (.manualTrigger 0) 10 :: (List.range 10).flatMap demoTick)).events
      (Av.run demoCfg (demoArm ++ .packet (.manualTrigger 0) 10 :: (List.range 10).flatMap demoTick)).posDrogue).any (isDeploy .drogue) = false := by decide +kernel
    have h3 : pulses .drogue (Av.run demoCfg (demoArm ++ .packet (.manualTrigger 0) 10 :: (List.range 10).flatMap demoTick)).acts = [] := by decide +kernel
    simp only [Av.act, Av.pollDrogue, h1, h2]
    exact ⟨h3, rfl⟩

end Verif.Props
