import Verif.Props.AvionicsSafety
/-
C71: low power mode. C72: flight events on the CAN bus. C73: camera. C76: what is logged.
-/
namespace Verif.Props

open Verif Fc Deb Vlp Av

theorem fromBackup_append {S : Type} (l m : List (Redundancy × Event S)) : fromBackup (l ++ m) = fromBackup l ++ fromBackup m := by
  induction l with
  | nil => rfl
  | cons x l ih =>
    obtain ⟨r, e⟩ := x
    cases r with
    | backup =>
      cases e with
      | changeState s => cases s <;> simp [fromBackup, ih]
      | _ => simp [fromBackup, ih]
    | _ => simp [fromBackup, ih]

theorem fromBackup_none {S : Type} (l : List (Redundancy × Event S)) (h : ∀ e ∈ l, e.1 = .backupBackup ∨ e.2 = .changeState .disArmed) : fromBackup l = [] := by
  induction l with
  | nil => rfl
  | cons x l ih =>
    obtain ⟨r, e⟩ := x
    have h1 := h _ (List.mem_cons_self ..)
    have h2 := ih fun e he => h e (List.mem_cons_of_mem _ he)
    cases r with
    | backup =>
      simp only [reduceCtorEq, false_or] at h1
      subst h1
      simp [fromBackup, h2]
    | _ => simp [fromBackup, h2]

/-- in low power mode no reading arrives -/
theorem low_sensor {fl : Floats} (c : Cfg fl) (a : Av fl) (o : Op fl) (hl : a.lowPower = true) (hs : a.sensor = none) (ho : o.isPacket = false) : (a.act c o).sensor = none := by
  cases o with
  | packet p now => cases ho
  | applyHw => unfold Av.act Av.applyHw; simp only; split <;> exact hs
  | setup =>
    unfold Av.act Av.setup
    simp only
    repeat' split
    all_goals exact hs
  | reading r =>
    unfold Av.act Av.reading
    simp only
    rw [if_pos hl]
    exact hs
  | tick =>
    unfold Av.act Av.tick
    simp only
    rw [hs]
    exact hs
  | manualTick now => unfold Av.act Av.manualTick; simp only; split <;> exact hs
  | drogue now =>
    unfold Av.act Av.pollDrogue
    simp only
    repeat' split
    all_goals exact hs
  | main now =>
    unfold Av.act Av.pollMain
    simp only
    repeat' split
    all_goals exact hs
  | camera now =>
    unfold Av.act Av.pollCamera
    simp only
    repeat' split
    all_goals exact hs
  | _ => exact hs

/-- C71 (finding): in low power mode, until the next packet, the barometer does not reach the flight computer: it announces nothing, no deployment in particular, whatever the rocket
does -/
theorem C71_blind {fl : Floats} (c : Cfg fl) (ops later : List (Op fl)) (hl : (Av.run c ops).lowPower = true) (hs : (Av.run c ops).sensor = none)
    (hlater : ∀ o ∈ later, o.isPacket = false) : fromBackup (Av.run c (ops ++ later)).events = fromBackup (Av.run c ops).events := by
  have key : ∀ (l : List (Op fl)) (a : Av fl), a.lowPower = true → a.sensor = none → (∀ o ∈ l, o.isPacket = false) → fromBackup (l.foldl (Av.step c) a).events = fromBackup a.events := by
    intro l
    induction l with
    | nil => exact fun _ _ _ _ => rfl
    | cons o l ih =>
      intro a hl hs h
      have ho := h o (List.mem_cons_self ..)
      have h' : ∀ o ∈ l, o.isPacket = false := fun o' ho' => h o' (List.mem_cons_of_mem _ ho')
      rw [List.foldl_cons]
      by_cases hp : a.panicked = true
      · have : a.step c o = a := by unfold Av.step; rw [if_pos hp]
        rw [this]
        exact ih a hl hs h'
      · have hp' : a.panicked = false := by simpa using hp
        rw [step_eq c a o hp']
        have hl' : (a.act c o).lowPower = true := (congrArg (fun x => x.2.1) (frame_packet c a o ho)).trans hl
        rw [ih _ hl' (low_sensor c a o hl hs ho) h']
        cases act_eff c a o with
        | same _ h1 h2 h3 => rw [h3]
        | trigger t now m => cases ho
        | create _ _ _ _ h3 => rw [h3]
        | remove b hb h1 h2 h3 =>
          obtain ⟨m, h3, h4⟩ := h3
          rw [h3, fromBackup_append, fromBackup_none m (fun e he => .inr (h4 e he)), List.append_nil]
        | tick b b' r ev hr => rw [hs] at hr; cases hr
        | manualTick now m hm h1 h2 h3 =>
          rw [h3, fromBackup_append, fromBackup_none ((m.tick (c.clock now)).2.map fun e => (Redundancy.backupBackup, e)) (fun e he => ?_), List.append_nil]
          obtain ⟨x, _, rfl⟩ := List.mem_map.mp he
          exact .inl rfl
  unfold Av.run at hl hs ⊢
  rw [List.foldl_append]
  exact key later _ hl hs hlater

/-- the hypotheses of C71_blind are met by an armed rocket -/
example : (Av.run demoCfg (demoArm ++ [.packet (.lowPowerMode 0 true) 5])).isArmed = true ∧ (Av.run demoCfg (demoArm ++ [.packet (.lowPowerMode 0 true) 5])).lowPower = true ∧
    (Av.run demoCfg (demoArm ++ [.packet (.lowPowerMode 0 true) 5])).sensor.isNone = true ∧ (Av.run demoCfg (demoArm ++ [.packet (.lowPowerMode 0 true) 5])).backup.isSome = true := by
  decide +kernel

/-- C71 (finding): a command that switches low power mode on leaves the rocket armed; one that switches it off disarms -/
theorem C71_arming {fl : Floats} (c : Cfg fl) (a : Av fl) (t : F64) (now : Nat) (hr : a.resetting = false) :
    ((a.act c (.packet (.lowPowerMode t true) now)).isArmed = a.isArmed ∧ (a.act c (.packet (.lowPowerMode t true) now)).lowPower = true) ∧
    ((a.act c (.packet (.lowPowerMode t false) now)).isArmed = false ∧ (a.act c (.packet (.lowPowerMode t false) now)).lowPower = false) := by
  simp [Av.act, Av.packet, hr, Av.isArmed, Av.setSoftware]

/-- C71: low power mode ends with the next packet of any other kind -/
theorem C71_mode {fl : Floats} (c : Cfg fl) (ops : List (Op fl)) (hp : (Av.run c ops).panicked = false) : (Av.run c ops).lowPower = lowPowerOf (handled ops) := (C47_software c ops hp).2.2

/-- the states the two flight computers in use announce -/
def Announced (s : FcState) : Prop := s = .armed ∨ s = .disArmed ∨ s = .drogueChuteDeployed ∨ s = .mainChuteDeployed ∨ s = .landed

theorem tick_states {fl : Floats} {b b' : Backup fl} {r : Reading fl} {ev : List (Event fl.S)} (h : b.tick r = some (b', ev)) (s : FcState) (hs : Event.changeState s ∈ ev) : Announced s := by
  unfold Backup.tick at h
  simp only [Option.map_eq_some_iff] at h
  obtain ⟨⟨b1, ev1⟩, h1, h2⟩ := h
  simp only [Prod.mk.injEq] at h2
  obtain ⟨_, rfl⟩ := h2
  simp only [List.mem_cons, reduceCtorEq, false_or] at hs
  unfold Backup.stage at h1
  simp only at h1
  unfold Announced
  cases hb : b.state with
  | armed =>
    rw [hb] at h1
    simp only at h1
    split at h1 <;>
    · simp only [Option.some.injEq, Prod.mk.injEq] at h1
      obtain ⟨_, rfl⟩ := h1
      split at hs <;> simp_all
  | drogueChuteDeployed =>
    rw [hb] at h1
    simp only at h1
    split at h1
    · cases h1
    · split at h1 <;>
      · simp only [Option.some.injEq, Prod.mk.injEq] at h1
        obtain ⟨_, rfl⟩ := h1
        simp_all
  | landed =>
    rw [hb] at h1
    simp only [Option.some.injEq, Prod.mk.injEq] at h1
    obtain ⟨_, rfl⟩ := h1
    simp_all
  | _ =>
    rw [hb] at h1
    simp only at h1
    split at h1 <;>
    · simp only [Option.some.injEq, Prod.mk.injEq] at h1
      obtain ⟨_, rfl⟩ := h1
      simp_all

theorem manual_states {fl : Floats} (m : Manual fl) (t : fl.D) (s : FcState) : (Event.changeState s ∈ (m.trigger t).2 → Announced s) ∧ (Event.changeState s ∈ (m.tick t).2 → Announced s) := by
  unfold Manual.trigger Manual.tick Announced
  constructor
  · intro h
    split at h <;> simp_all
  · intro h
    split at h
    · simp at h
    · split at h <;> simp_all
    · split at h <;> simp_all
    · simp at h

/-- C72 (finding): power ascend, coast and descent are never published -/
theorem C72_states {fl : Floats} (c : Cfg fl) (ops : List (Op fl)) : ∀ e ∈ (Av.run c ops).events, ∀ s, e.2 = .changeState s →
    s = .armed ∨ s = .disArmed ∨ s = .drogueChuteDeployed ∨ s = .mainChuteDeployed ∨ s = .landed := by
  refine run_induct c (P := fun _ a => ∀ e ∈ a.events, ∀ s, e.2 = .changeState s → Announced s) (by intro e h; cases h) ?_ ops
  intro ops o ih
  unfold Av.step
  split
  · exact ih
  · have app : ∀ l m : List (Redundancy × Event fl.S), (∀ e ∈ l, ∀ s, e.2 = .changeState s → Announced s) → (∀ e ∈ m, ∀ s, e.2 = .changeState s → Announced s) →
        ∀ e ∈ l ++ m, ∀ s, e.2 = .changeState s → Announced s := by
      intro l m hl hm e he
      obtain he | he := List.mem_append.mp he
      · exact hl e he
      · exact hm e he
    cases act_eff c (Av.run c ops) o with
    | same _ h1 h2 h3 => rw [h3]; exact ih
    | trigger t now m hm h1 h2 h3 =>
      rw [h3]
      refine app _ _ ih fun e he s hs => ?_
      obtain ⟨x, hx, rfl⟩ := List.mem_map.mp he
      simp only at hs
      exact (manual_states m (c.clock now) s).1 (hs ▸ hx)
    | create _ _ _ _ h3 => rw [h3]; exact ih
    | remove b hb h1 h2 h3 =>
      obtain ⟨m, h3, h4⟩ := h3
      rw [h3]
      refine app _ _ ih fun e he s hs => ?_
      rw [h4 e he] at hs
      cases hs
      exact .inr (.inl rfl)
    | tick b b' r ev hr hb ht h1 h2 h3 =>
      rw [h3]
      refine app _ _ ih fun e he s hs => ?_
      obtain ⟨x, hx, rfl⟩ := List.mem_map.mp he
      simp only at hs
      exact tick_states ht s (hs ▸ hx)
    | manualTick now m hm h1 h2 h3 =>
      rw [h3]
      refine app _ _ ih fun e he s hs => ?_
      obtain ⟨x, hx, rfl⟩ := List.mem_map.mp he
      simp only at hs
      exact (manual_states m (c.clock now) s).2 (hs ▸ hx)

/-- the flight events sent so far -/
def canSent (l : List Act) : List Can.FlightEvent :=
  l.filterMap fun x => match x with | .canEvent e => some e | _ => none

theorem canSent_append (l m : List Act) : canSent (l ++ m) = canSent l ++ canSent m := List.filterMap_append

theorem canSent_camera {S : Type} (l : List (Redundancy × Event S)) : canSent (cameraRead l).2.1 = [] := by
  induction l with
  | nil => rfl
  | cons e l ih =>
    unfold cameraRead
    split <;> first | rfl | exact ih

theorem canSent_can (l : List Can.FlightEvent) : canSent (l.map .canEvent) = l := by
  induction l with
  | nil => rfl
  | cons e l ih =>
    unfold canSent at ih ⊢
    rw [List.map_cons, List.filterMap_cons, ih]

theorem can_frame {fl : Floats} (c : Cfg fl) (a : Av fl) (o : Op fl) :
    canSent (a.act c o).acts = canSent a.acts ++ (match o with | .can => (PubSub.unread 10 a.events a.posCan).filterMap canEventOf | _ => []) := by
  have same : ∀ b : Av fl, b.acts = a.acts → canSent b.acts = canSent a.acts ++ [] := by intro b h; rw [h, List.append_nil]
  cases o with
  | packet p now =>
    unfold Av.act Av.packet
    simp only
    split
    · exact same _ rfl
    · cases p with
      | lowPowerMode t e => cases e <;> exact same _ rfl
      | manualTrigger t => simp only; split <;> exact same _ rfl
      | reset t => simp [canSent_append, canSent]
      | _ => exact same _ rfl
  | applyHw => unfold Av.act Av.applyHw; simp only; split <;> exact same _ rfl
  | setup =>
    unfold Av.act Av.setup
    simp only
    repeat' split
    all_goals exact same _ rfl
  | reading r =>
    unfold Av.act Av.reading
    simp only
    repeat' split
    all_goals exact same _ rfl
  | tick =>
    unfold Av.act Av.tick
    simp only
    repeat' split
    all_goals exact same _ rfl
  | manualTick now =>
    unfold Av.act Av.manualTick
    simp only
    repeat' split
    all_goals exact same _ rfl
  | drogue now =>
    unfold Av.act Av.pollDrogue
    simp only
    repeat' split
    all_goals first | exact same _ rfl | simp [canSent_append, canSent]
  | main now =>
    unfold Av.act Av.pollMain
    simp only
    repeat' split
    all_goals first | exact same _ rfl | simp [canSent_append, canSent]
  | can => simp only [Av.act, Av.pollCan, canSent_append, canSent_can]
  | camera now =>
    unfold Av.act Av.pollCamera
    simp only
    split
    · split
      · simp [canSent_append, canSent]
      · exact same _ rfl
    · simp only [canSent_append, canSent_camera]
  | _ => exact same _ rfl

/-- C72 (finding): the only flight event that ever goes out on the CAN bus is the landing; the other nodes never learn of ignition, coast or apogee -/
theorem C72_only_landed {fl : Floats} (c : Cfg fl) (ops : List (Op fl)) : ∀ e ∈ canSent (Av.run c ops).acts, e = .landed := by
  refine run_induct c (P := fun _ a => ∀ e ∈ canSent a.acts, e = .landed) (by intro e h; cases h) ?_ ops
  intro ops o ih
  unfold Av.step
  split
  · exact ih
  · rw [can_frame]
    intro e he
    obtain he | he := List.mem_append.mp he
    · exact ih e he
    · cases o with
      | can =>
        obtain ⟨x, hx, h⟩ := List.mem_filterMap.mp he
        have := C72_states c ops x (unread_mem hx)
        unfold canEventOf at h
        split at h
        · rename_i hs; rcases this _ hs with h' | h' | h' | h' | h' <;> cases h'
        · rename_i hs; rcases this _ hs with h' | h' | h' | h' | h' <;> cases h'
        · rename_i hs; rcases this _ hs with h' | h' | h' | h' | h' <;> cases h'
        · cases h; rfl
        · cases h
      | _ => cases he

/-- C72: a landing announced since the task last looked, and among the last ten events, is sent -/
theorem C72_landing_sent {fl : Floats} (c : Cfg fl) (a : Av fl) (i : Nat) {r : Redundancy} (he : a.events[i]? = some (r, .changeState .landed)) (hpos : a.posCan ≤ i)
    (hlast : a.events.length ≤ i + 10) : .landed ∈ (canSent (a.act c .can).acts).drop (canSent a.acts).length := by
  rw [can_frame, List.drop_left]
  refine List.mem_filterMap.mpr ⟨(r, .changeState .landed), ?_, rfl⟩
  unfold PubSub.unread PubSub.next
  have hle : max a.posCan (a.events.length - 10) ≤ i := by omega
  rw [List.mem_iff_getElem?]
  refine ⟨i - max a.posCan (a.events.length - 10), ?_⟩
  rw [List.getElem?_drop, Nat.add_sub_cancel' hle]
  exact he

/-- the manual flight to its end -/
def demoManual : List (Op ratFloats) := demoArm ++ [.packet (.manualTrigger 0) 10, .manualTick 3010, .manualTick 8010]

example : canSent (Av.run demoCfg (demoManual ++ [.can])).acts = [.landed] := by decide +kernel

theorem cameraRead_follow {S : Type} (l : List (Redundancy × Event S)) (h : ∀ e ∈ l, e.2 ≠ .changeState .landed) : cameraRead l = (l.length, cameraWanted l, false) := by
  induction l with
  | nil => rfl
  | cons x l ih =>
    obtain ⟨r, e⟩ := x
    have h1 : e ≠ .changeState .landed := h (r, e) (List.mem_cons_self ..)
    have h2 := ih fun e he => h e (List.mem_cons_of_mem _ he)
    cases e with
    | changeState s =>
      cases s with
      | landed => exact absurd rfl h1
      | _ => simp [cameraRead, cameraWanted, h2]
    | _ => simp [cameraRead, cameraWanted, h2]

theorem cameraRead_landed {S : Type} (l m : List (Redundancy × Event S)) (r : Redundancy) (h : ∀ e ∈ l, e.2 ≠ .changeState .landed) :
    cameraRead (l ++ (r, .changeState .landed) :: m) = (l.length + 1, cameraWanted l, true) := by
  induction l with
  | nil => rfl
  | cons x l ih =>
    obtain ⟨r, e⟩ := x
    have h1 : e ≠ .changeState .landed := h (r, e) (List.mem_cons_self ..)
    have h2 := ih fun e he => h e (List.mem_cons_of_mem _ he)
    cases e with
    | changeState s =>
      cases s with
      | landed => exact absurd rfl h1
      | _ => simp [cameraRead, cameraWanted, h2]
    | _ => simp [cameraRead, cameraWanted, h2]

/-- C73: outside the minute after a landing, a poll of the camera task carries out, in order, all armings (camera on) and disarmings (camera off) since the last poll, if there were at
most ten events and no landing -/
theorem C73_follows {fl : Floats} (c : Cfg fl) (a : Av fl) (now : Nat) (hw : a.cameraWait = none) (hn : a.events.length ≤ a.posCamera + 10)
    (hl : ∀ e ∈ a.events.drop a.posCamera, e.2 ≠ .changeState .landed) (hpos : a.posCamera ≤ a.events.length) :
    (a.act c (.camera now)).acts = a.acts ++ cameraWanted (a.events.drop a.posCamera) ∧ (a.act c (.camera now)).posCamera = a.events.length ∧
      (a.act c (.camera now)).cameraWait = none := by
  have h0 : PubSub.next 10 a.events a.posCamera = a.posCamera := by unfold PubSub.next; omega
  simp only [Av.act, Av.pollCamera, hw, PubSub.unread, h0, cameraRead_follow _ hl, List.length_drop]
  exact ⟨trivial, by omega, rfl⟩

/-- C73: a landing starts a wait; the first poll a minute later switches the camera off -/
theorem C73_landed {fl : Floats} (c : Cfg fl) (a : Av fl) (now : Nat) (hw : a.cameraWait = none) (hn : a.events.length ≤ a.posCamera + 10)
    {l m : List (Redundancy × Event fl.S)} {r : Redundancy} (he : a.events.drop a.posCamera = l ++ (r, .changeState .landed) :: m) (hl : ∀ e ∈ l, e.2 ≠ .changeState .landed) :
    (a.act c (.camera now)).acts = a.acts ++ cameraWanted l ∧ (a.act c (.camera now)).cameraWait = some now := by
  have h0 : PubSub.next 10 a.events a.posCamera = a.posCamera := by unfold PubSub.next; omega
  simp only [Av.act, Av.pollCamera, hw, PubSub.unread, h0, he, cameraRead_landed _ _ _ hl, if_true]
  exact ⟨trivial, trivial⟩

theorem C73_minute {fl : Floats} (c : Cfg fl) (a : Av fl) (s now : Nat) (hw : a.cameraWait = some s) :
    (a.act c (.camera now)).acts = a.acts ++ (if s + 60000 ≤ now then [.camera false] else []) ∧ (a.act c (.camera now)).cameraWait = if s + 60000 ≤ now then none else some s := by
  simp only [Av.act, Av.pollCamera, hw]
  split
  · exact ⟨rfl, rfl⟩
  · exact ⟨(List.append_nil _).symm, hw⟩

/-- landing, then disarmed and armed again within the minute, then more than ten events; the camera task is polled after every step -/
def demoRearm : List (Op ratFloats) :=
  demoManual ++ [.camera 8011, .packet (.softArm 0 false) 9000, .setup, .camera 9001, .packet (.softArm 0 true) 10000, .setup, .camera 10001] ++
    ((List.range 12).flatMap fun i => demoTick (10002 + i) ++ [.camera (10002 + i)]) ++ [.camera 68011, .camera 68012, .camera 68013]

/-- C73 (finding): the camera is not recording although the rocket is armed, if it was armed again in the minute after a landing: the arming is lost while the camera task waits -/
theorem C73_rearm : (Av.run demoCfg demoRearm).isArmed = true ∧ (Av.run demoCfg demoRearm).cameraWait = none ∧ (Av.run demoCfg demoRearm).posCamera = (Av.run demoCfg demoRearm).events.length ∧
    (Av.run demoCfg demoRearm).acts.getLast? = some (.camera false) ∧ Act.camera true ∉ (Av.run demoCfg demoRearm).acts := by decide +kernel

/-- the hypotheses of C73_follows, C73_landed -/
example : (Av.run demoCfg (demoArm ++ demoTick 1 ++ [.camera 2])).acts = [.camera true] ∧ (Av.run demoCfg (demoManual ++ [.camera 8011])).cameraWait = some 8011 := by decide +kernel

theorem lastFree_snoc {fl : Floats} (ops : List (Op fl)) (o : Op fl) : lastFree (ops ++ [o]) = match o with | .storage n => some n | _ => lastFree ops := by
  unfold lastFree
  rw [List.foldl_append]
  cases o <;> rfl

theorem wantLogged_snoc {fl : Floats} (ops : List (Op fl)) (o : Op fl) : wantLogged (ops ++ [o]) = wantLogged ops ++ keeps ops o := by
  unfold wantLogged
  rw [List.length_append, List.length_singleton, List.range_succ, List.flatMap_append]
  congr 1
  · rw [List.flatMap_def, List.flatMap_def]
    congr 1
    refine List.map_congr_left ?_
    intro i hi
    have hi' : i < ops.length := List.mem_range.mp hi
    rw [List.getElem?_append_left hi', List.take_append_of_le_length (by omega)]
  · simp

/-- the fields about logging -/
def lk {fl : Floats} (a : Av fl) : Bool × List (Reading fl) := (a.storageFull, a.logged)

theorem frame_log {fl : Floats} (c : Cfg fl) (a : Av fl) (o : Op fl) : lk (a.act c o) =
    match o with
    | .storage n => (decide (n < 1048576), a.logged)
    | .reading (some r) => (a.storageFull, a.logged ++ if a.lowPower || a.storageFull then [] else [r])
    | _ => lk a := by
  cases o with
  | packet p now =>
    unfold Av.act Av.packet
    simp only
    split
    · rfl
    · cases p with
      | lowPowerMode t e => cases e <;> rfl
      | manualTrigger t => simp only; split <;> rfl
      | _ => rfl
  | applyHw => unfold Av.act Av.applyHw; simp only; split <;> rfl
  | setup => unfold Av.act Av.setup; simp only; repeat' split <;> try rfl
  | reading r =>
    unfold Av.act Av.reading
    simp only
    cases r with
    | none => simp only; split <;> rfl
    | some r =>
      simp only
      cases hl : a.lowPower with
      | true => simp [lk]
      | false =>
        cases hs : a.storageFull <;> simp [lk, hs]
  | storage n => rfl
  | tick => unfold Av.act Av.tick; simp only; repeat' split <;> try rfl
  | manualTick now => unfold Av.act Av.manualTick; simp only; repeat' split <;> try rfl
  | drogue now => unfold Av.act Av.pollDrogue; simp only; repeat' split <;> try rfl
  | main now => unfold Av.act Av.pollMain; simp only; repeat' split <;> try rfl
  | camera now => unfold Av.act Av.pollCamera; simp only; repeat' split <;> try rfl
  | _ => rfl

theorem log_inv {fl : Floats} (c : Cfg fl) (ops : List (Op fl)) (hp : (Av.run c ops).panicked = false) :
    ((Av.run c ops).storageFull = true ↔ ∃ n, lastFree ops = some n ∧ n < 1048576) ∧ (Av.run c ops).logged = wantLogged ops := by
  refine run_induct' c (P := fun ops a => (a.storageFull = true ↔ ∃ n, lastFree ops = some n ∧ n < 1048576) ∧ a.logged = wantLogged ops) ⟨by simp [Av.init, lastFree], rfl⟩ ?_ ops hp
  intro ops o a ha hpa h
  have hf := frame_log c a o
  have hlow : a.lowPower = lowPowerOf (handled ops) := by rw [← ha] at hpa ⊢; exact C71_mode c ops hpa
  have h1 : (a.act c o).storageFull = _ := congrArg Prod.fst hf
  have h2 : (a.act c o).logged = _ := congrArg Prod.snd hf
  rw [h1, h2, lastFree_snoc, wantLogged_snoc]
  cases o with
  | storage n =>
    simp only [keeps, List.append_nil, decide_eq_true_eq, Option.some.injEq]
    exact ⟨⟨fun h => ⟨n, rfl, h⟩, fun ⟨m, e, h⟩ => e ▸ h⟩, h.2⟩
  | reading r =>
    cases r with
    | none => simp only [lk, keeps, List.append_nil]; exact h
    | some r =>
      simp only [keeps]
      refine ⟨h.1, ?_⟩
      rw [h.2]
      congr 1
      by_cases hc : lowPowerOf (handled ops) = true ∨ ∃ n, lastFree ops = some n ∧ n < 1048576
      · rw [if_pos hc, if_pos (by rw [Bool.or_eq_true, hlow, h.1]; exact hc)]
      · rw [if_neg hc, if_neg (by rw [Bool.or_eq_true, hlow, h.1]; exact hc)]
  | _ => simp only [lk, keeps, List.append_nil]; exact h

/-- C76: exactly the readings taken outside low power mode, while at least 1 MiB was free at the last check, are logged, in order -/
theorem C76_logged {fl : Floats} (c : Cfg fl) (ops : List (Op fl)) (hp : (Av.run c ops).panicked = false) : (Av.run c ops).logged = wantLogged ops := (log_inv c ops hp).2

example : (Av.run demoCfg [demoReading 1, .storage 1000, demoReading 2, .storage 1048576, demoReading 3, .packet (.lowPowerMode 0 true) 4, demoReading 4]).logged =
    [⟨(1 : Rat), (100 : Rat)⟩, ⟨(3 : Rat), (100 : Rat)⟩] := rfl

end Verif.Props
