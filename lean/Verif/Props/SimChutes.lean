import Verif.Model.SimChutes
import Mathlib.Tactic.Abel
import Mathlib.Tactic.NormNum
/-
C133: the chutes of the launch simulator.
-/
namespace Verif.Props
open Verif.SimChutes

/-- whether an event orders the chute `c`: its pyro (channel 1: main, channel 2: drogue) is switched on, or its button is clicked -/
def ordersChute (c : Chute) : Ev → Bool
  | .enable channel on => on && (if channel = 1 then Chute.main else .drogue) == c
  | .button d => d == c
  | _ => false

/-- how often a list of events orders the chute -/
def chuteOrdered (c : Chute) (es : List Ev) : Nat := (es.filter (ordersChute c)).length

/-- how often the chute was ordered and not yet ejected -/
def waitingFor (s : Sim) (c : Chute) : Nat := s.pending.count c + s.signals c

theorem chuteOrdered_cons (c : Chute) (e : Ev) (es : List Ev) : chuteOrdered c (e :: es) = (if ordersChute c e then 1 else 0) + chuteOrdered c es := by
  unfold chuteOrdered
  rw [List.filter_cons]
  split <;> simp [Nat.add_comm]

theorem chutes_receive_waiting (s : Sim) (c : Chute) : waitingFor s.receive c = waitingFor s c ∧ s.receive.handled = s.handled ∧ s.receive.rocket = s.rocket := by
  refine ⟨?_, rfl, rfl⟩
  unfold waitingFor Sim.receive
  simp only [List.count_append]
  cases c <;> by_cases h1 : 0 < s.signals .main <;> by_cases h2 : 0 < s.signals .drogue <;> simp [h1, h2] <;> omega

theorem eject_fold (n m : V) (l : List Chute) (s : Sim) :
    (l.foldl (Sim.eject n m) s).handled = s.handled ++ l ∧ (l.foldl (Sim.eject n m) s).signals = s.signals ∧ (l.foldl (Sim.eject n m) s).pending = s.pending ∧
      (l.foldl (Sim.eject n m) s).rocket = s.rocket := by
  induction l generalizing s with
  | nil => simp
  | cons c l ih =>
    rw [List.foldl_cons]
    obtain ⟨h1, h2, h3, h4⟩ := ih (s.eject n m c)
    cases c <;> simp_all [Sim.eject]

theorem chutes_waiting {s s' : Sim} {n m : V} (h : s.chutes n m = some s') (c : Chute) :
    waitingFor s' c + s'.handled.count c = waitingFor s c + s.handled.count c ∧ s'.pending = [] ∧ s'.signals = s.signals ∧ s'.rocket = s.rocket ∧ s'.handled = s.handled ++ s.pending := by
  unfold Sim.chutes at h
  split at h
  · cases h
  · cases h
    obtain ⟨h1, h2, h3, h4⟩ := eject_fold n m s.pending { s with pending := [] }
    unfold waitingFor
    rw [h1, h2, h3, h4]
    simp
    omega

theorem chutes_step_waiting {s s' : Sim} {e : Ev} (h : s.step e = some s') (c : Chute) :
    waitingFor s' c + s'.handled.count c = waitingFor s c + s.handled.count c + (if ordersChute c e then 1 else 0) := by
  cases e with
  | enable d on =>
    cases h
    cases on
    · simp [ordersChute]
    · cases c <;> by_cases hd : d = 1 <;> simp [ordersChute, waitingFor, chuteOf, hd] <;> omega
  | button d =>
    cases h
    cases c <;> cases d <;> simp [ordersChute, waitingFor] <;> omega
  | setup => cases h; simp [ordersChute, waitingFor]
  | frame r n m =>
    cases r
    · simp only [Sim.step, Option.map_eq_some_iff] at h
      obtain ⟨x, h1, rfl⟩ := h
      have h3 := (chutes_waiting h1 c).1
      change waitingFor x.receive c + x.handled.count c = _
      rw [(chutes_receive_waiting x c).1, h3]
      rfl
    · simp only [Sim.step, Option.map_eq_some_iff] at h
      obtain ⟨x, h1, rfl⟩ := h
      have h3 := (chutes_waiting h1 c).1
      change waitingFor x c + x.handled.count c = _
      rw [h3, (chutes_receive_waiting s c).1]
      rfl

theorem chutes_run_waiting (es : List Ev) : ∀ (s s' : Sim), s.run es = some s' → ∀ c, waitingFor s' c + s'.handled.count c = waitingFor s c + s.handled.count c + chuteOrdered c es := by
  induction es with
  | nil => intro s s' h c; cases h; simp [chuteOrdered]
  | cons e es ih =>
    intro s s' h c
    simp only [Sim.run, Option.bind_eq_some_iff] at h
    obtain ⟨x, h1, h2⟩ := h
    rw [ih x s' h2 c, chutes_step_waiting h1 c, chuteOrdered_cons]
    omega

/-- **C133** No order is lost and none made up: at any time, the ejections of a chute and the orders still waiting are together as many as the orders. Switching a pyro off is no order, and stops none. -/
theorem C133_orders (es : List Ev) (s : Sim) (h : Sim.new.run es = some s) (c : Chute) : s.handled.count c + waitingFor s c = chuteOrdered c es := by
  have := chutes_run_waiting es _ _ h c
  simp [waitingFor, Sim.new] at this ⊢
  omega

theorem chutes_run_append (s : Sim) (a b : List Ev) : s.run (a ++ b) = (s.run a).bind fun s => s.run b := by
  induction a generalizing s with
  | nil => rfl
  | cons e a ih =>
    simp only [List.cons_append, Sim.run]
    cases s.step e with
    | none => rfl
    | some x => exact ih x

/-- the frames that follow each other -/
def chuteFrames (fs : List (Bool × V × V)) : List Ev := fs.map fun f => .frame f.1 f.2.1 f.2.2

theorem chuteFrame_progress {s s' : Sim} {r : Bool} {n m : V} (h : s.step (.frame r n m) = some s') (c : Chute) :
    s'.signals c = s.signals c - 1 ∧ (r = true → s'.pending = []) ∧ (s.signals = (fun _ => 0) → s'.pending = []) := by
  cases r
  · simp only [Sim.step, Option.map_eq_some_iff] at h
    obtain ⟨x, h1, rfl⟩ := h
    obtain ⟨_, h2, h3, _⟩ := chutes_waiting h1 c
    refine ⟨?_, by simp, fun h0 => ?_⟩
    · simp [Sim.physics, Sim.receive, h3]
    · simp [Sim.physics, Sim.receive, h3, h2, h0]
  · simp only [Sim.step, Option.map_eq_some_iff] at h
    obtain ⟨x, h1, rfl⟩ := h
    obtain ⟨_, h2, h3, _⟩ := chutes_waiting h1 c
    exact ⟨by simp [Sim.physics, h3, Sim.receive], fun _ => h2, fun _ => h2⟩

theorem chutes_step_rocket {s s' : Sim} {e : Ev} (h : s.step e = some s') : s'.rocket = (s.rocket || (match e with | .setup => true | _ => false)) := by
  cases e with
  | enable d on => cases h; cases on <;> simp
  | button d => cases h; simp
  | setup => cases h; simp
  | frame r n m =>
    cases r <;> simp only [Sim.step, Option.map_eq_some_iff] at h <;> obtain ⟨x, h1, rfl⟩ := h
    · have := (chutes_waiting h1 .main).2.2.2.1
      simp [Sim.physics, Sim.receive, this]
    · have := (chutes_waiting h1 .main).2.2.2.1
      simp [Sim.physics, this, Sim.receive]

theorem chuteFrame_runs (s : Sim) (h : s.rocket = true) (r : Bool) (n m : V) : ∃ s', s.step (.frame r n m) = some s' := by
  cases r <;> simp [Sim.step, Sim.chutes, h, Sim.receive]

theorem chuteFrames_empty (fs : List (Bool × V × V)) : ∀ (s : Sim), s.rocket = true → ∀ c, s.signals .main < fs.length → s.signals .drogue < fs.length →
    ∃ s', s.run (chuteFrames fs) = some s' ∧ waitingFor s' c = 0 ∧ s'.rocket = true := by
  induction fs with
  | nil => intro s _ c h _; simp at h
  | cons f fs ih =>
    intro s hr c h1 h2
    obtain ⟨r, n, m⟩ := f
    obtain ⟨x, hx⟩ := chuteFrame_runs s hr r n m
    have hxr : x.rocket = true := by rw [chutes_step_rocket hx, hr]; rfl
    simp only [chuteFrames, List.map_cons, Sim.run, hx, Option.bind_some]
    cases fs with
    | nil =>
      simp only [List.length_cons, List.length_nil, Nat.zero_add, Nat.lt_one_iff] at h1 h2
      refine ⟨x, rfl, ?_, hxr⟩
      have h0 : s.signals = fun _ => 0 := by funext d; cases d <;> assumption
      have := chuteFrame_progress hx c
      unfold waitingFor
      rw [this.1, this.2.2 h0, h0]
      rfl
    | cons g gs =>
      refine ih x hxr c ?_ ?_
      · rw [(chuteFrame_progress hx .main).1]; simp only [List.length_cons] at h1 ⊢; omega
      · rw [(chuteFrame_progress hx .drogue).1]; simp only [List.length_cons] at h2 ⊢; omega

/-- **C133** Every order is carried out: with a rocket set up, after any events and then more frames than there were orders, each chute has been ejected as often as it was ordered. -/
theorem C133_all_ejected (es : List Ev) (s : Sim) (h : Sim.new.run es = some s) (hr : s.rocket = true) (fs : List (Bool × V × V))
    (hm : chuteOrdered .main es < fs.length) (hd : chuteOrdered .drogue es < fs.length) (c : Chute) :
    ∃ s', Sim.new.run (es ++ chuteFrames fs) = some s' ∧ s'.handled.count c = chuteOrdered c es := by
  have w1 := C133_orders es s h .main
  have w2 := C133_orders es s h .drogue
  obtain ⟨s', h1, h2, _⟩ := chuteFrames_empty fs s hr c (by unfold waitingFor at w1; omega) (by unfold waitingFor at w2; omega)
  have hrun : Sim.new.run (es ++ chuteFrames fs) = some s' := by rw [chutes_run_append, h]; exact h1
  refine ⟨s', hrun, ?_⟩
  have h3 := chutes_run_waiting (chuteFrames fs) s s' h1 c
  have h4 := C133_orders es s h c
  have h5 : chuteOrdered c (chuteFrames fs) = 0 := by
    unfold chuteOrdered chuteFrames
    rw [List.length_eq_zero_iff, List.filter_eq_nil_iff]
    intro e he
    obtain ⟨f, _, rfl⟩ := List.mem_map.mp he
    simp [ordersChute]
  omega

/-- **C133 (finding)** If a chute is ordered before a rocket is set up, the simulator panics within the next two frames. -/
theorem C133_no_rocket_panics (es : List Ev) (hs : Ev.setup ∉ es) (c : Chute) (ho : 0 < chuteOrdered c es) (f g : Bool × V × V) : Sim.new.run (es ++ chuteFrames [f, g]) = none := by
  have key : ∀ (es : List Ev) (s s' : Sim), Ev.setup ∉ es → s.rocket = false → s.handled = [] → s.run es = some s' → s'.rocket = false ∧ s'.handled = [] := by
    intro es
    induction es with
    | nil => intro s s' _ h1 h2 h; cases h; exact ⟨h1, h2⟩
    | cons e es ih =>
      intro s s' hs h1 h2 h
      simp only [Sim.run, Option.bind_eq_some_iff] at h
      obtain ⟨x, hx, h⟩ := h
      rw [List.mem_cons, not_or] at hs
      refine ih x s' hs.2 ?_ ?_ h
      · rw [chutes_step_rocket hx, h1]
        cases e <;> simp_all
      · cases e with
        | enable d on => cases hx; cases on <;> simpa using h2
        | button d => cases hx; exact h2
        | setup => simp at hs
        | frame r n m =>
          cases r <;> simp only [Sim.step, Option.map_eq_some_iff] at hx <;> obtain ⟨y, hy, rfl⟩ := hx
          · have hp : s.pending = [] := by
              unfold Sim.chutes at hy
              split at hy
              · cases hy
              · rename_i hc; simpa [h1] using hc
            have := (chutes_waiting hy .main).2.2.2.2
            simp [Sim.physics, Sim.receive, this, h2, hp]
          · have hp : s.receive.pending = [] := by
              unfold Sim.chutes at hy
              split at hy
              · cases hy
              · rename_i hc
                simpa [(chutes_receive_waiting s .main).2.2, h1] using hc
            have := (chutes_waiting hy .main).2.2.2.2
            simp [Sim.physics, this, (chutes_receive_waiting s .main).2.1, h2, hp]
  cases hrun : Sim.new.run (es ++ chuteFrames [f, g]) with
  | none => rfl
  | some s' =>
    exfalso
    have hord : chuteOrdered c (es ++ chuteFrames [f, g]) = chuteOrdered c es := by
      simp [chuteOrdered, chuteFrames, ordersChute]
    obtain ⟨h1, h2⟩ := key _ _ s' (by simp [chuteFrames, hs]) rfl rfl hrun
    have hw := C133_orders _ s' hrun c
    rw [hord, h2] at hw
    simp only [List.count_nil, Nat.zero_add] at hw
    -- before the two chuteFrames
    rw [chutes_run_append] at hrun
    rw [Option.bind_eq_some_iff] at hrun
    obtain ⟨s, hs1, hs2⟩ := hrun
    obtain ⟨hr, _⟩ := key es _ s hs rfl rfl hs1
    obtain ⟨r, n, m⟩ := f
    obtain ⟨r', n', m'⟩ := g
    simp only [chuteFrames, List.map_cons, List.map_nil, Sim.run, Option.bind_eq_some_iff] at hs2
    obtain ⟨x, hx, y, hy, hs2⟩ := hs2
    cases hs2
    have hxr : x.rocket = false := by rw [chutes_step_rocket hx, hr]; rfl
    -- each frame handles nothing, so nothing waits
    have none_pending : ∀ (a b : Sim) (r : Bool) (n m : V), a.rocket = false → a.step (.frame r n m) = some b → a.pending = [] ∧ (r = true → ∀ d, a.signals d = 0) ∧ b.signals = fun d => a.signals d - 1 := by
      intro a b r n m ha hb
      refine ⟨?_, ?_, funext fun d => (chuteFrame_progress hb d).1⟩
      · cases r <;> simp only [Sim.step, Option.map_eq_some_iff] at hb <;> obtain ⟨z, hz, rfl⟩ := hb <;> unfold Sim.chutes at hz <;> split at hz <;> first | (cases hz; done) | (rename_i hc)
        · simpa [ha] using hc
        · have : a.receive.pending = [] := by simpa [(chutes_receive_waiting a .main).2.2, ha] using hc
          unfold Sim.receive at this
          simp at this
          exact this.1
      · rintro rfl d
        simp only [Sim.step, Option.map_eq_some_iff] at hb
        obtain ⟨z, hz, rfl⟩ := hb
        unfold Sim.chutes at hz
        split at hz
        · cases hz
        · rename_i hc
          have : a.receive.pending = [] := by simpa [(chutes_receive_waiting a .main).2.2, ha] using hc
          unfold Sim.receive at this
          simp at this
          cases d
          · exact this.2.1
          · exact this.2.2
    obtain ⟨p1, p2, p3⟩ := none_pending s x r n m hr hx
    obtain ⟨q1, q2, q3⟩ := none_pending x s' r' n' m' hxr hy
    have hws := C133_orders es s hs1 c
    have hh : s.handled = [] := (key es _ s hs rfl rfl hs1).2
    rw [hh] at hws
    simp only [List.count_nil, Nat.zero_add, waitingFor, p1] at hws
    have hsig : s.signals c = chuteOrdered c es := by simpa using hws
    cases r with
    | true => have := p2 rfl c; omega
    | false =>
      -- what was received in the first frame is still there in the second
      have : x.pending ≠ [] := by
        simp only [Sim.step, Option.map_eq_some_iff] at hx
        obtain ⟨z, hz, rfl⟩ := hx
        obtain ⟨_, hz1, hz2, _⟩ := chutes_waiting hz c
        simp only [Sim.physics, Sim.receive, hz1, hz2]
        cases c <;> simp <;> omega
      exact this q1

/-- **C133** A part hangs on the body by a rope of 3 m, with the chute's damping, from its first ejection on, and is fixed before. -/
theorem C133_parts (es : List Ev) (s : Sim) (h : Sim.new.run es = some s) :
    (s.nose.joint = if .main ∈ s.handled then .rope 3 else .fixed) ∧ (s.nose.damping = if .main ∈ s.handled then 3 else 0) ∧
    (s.motor.joint = if .drogue ∈ s.handled then .rope 3 else .fixed) ∧ (s.motor.damping = if .drogue ∈ s.handled then 3 / 10 else 2 / 100) := by
  let P : Sim → Prop := fun s => (s.nose.joint = if .main ∈ s.handled then .rope 3 else .fixed) ∧ (s.nose.damping = if .main ∈ s.handled then 3 else 0) ∧
    (s.motor.joint = if .drogue ∈ s.handled then .rope 3 else .fixed) ∧ (s.motor.damping = if .drogue ∈ s.handled then 3 / 10 else 2 / 100)
  have hfold : ∀ (l : List Chute) (n m : V) (s : Sim), P s → P (l.foldl (Sim.eject n m) s) := by
    intro l
    induction l with
    | nil => intro n m s hP; exact hP
    | cons c l ih =>
      intro n m s hP
      rw [List.foldl_cons]
      refine ih n m _ ?_
      obtain ⟨p1, p2, p3, p4⟩ := hP
      cases c <;> simp [P, Sim.eject, p1, p2, p3, p4]
  have hstep : ∀ (e : Ev) (s s' : Sim), P s → s.step e = some s' → P s' := by
    intro e s s' hP hs
    cases e with
    | enable d on => cases hs; cases on <;> exact hP
    | button d => cases hs; exact hP
    | setup => cases hs; exact hP
    | frame r n m =>
      cases r <;> simp only [Sim.step, Option.map_eq_some_iff] at hs <;> obtain ⟨x, hx, rfl⟩ := hs <;> unfold Sim.chutes at hx <;> split at hx <;> first | (cases hx; done) | cases hx
      · exact hfold s.pending n m { s with pending := [] } hP
      · exact hfold s.receive.pending n m { s.receive with pending := [] } hP
  have hrun : ∀ (es : List Ev) (s s' : Sim), P s → s.run es = some s' → P s' := by
    intro es
    induction es with
    | nil => intro s s' hP h; cases h; exact hP
    | cons e es ih =>
      intro s s' hP h
      simp only [Sim.run, Option.bind_eq_some_iff] at h
      obtain ⟨x, hx, h⟩ := h
      exact ih x s' (hstep e s x hP hx) h
  exact hrun es _ s (by simp [P, Sim.new]) h

/-- the impulses given so far, of all parts together: by the law of action and reaction it ought to be zero -/
def impulsesGiven (s : Sim) : V := s.given.1 + s.given.2.1 + s.given.2.2

/-- all that is waiting is about one chute -/
def OneChuteWaits (s : Sim) : Prop := ∃ c, waitingFor s c = 0

theorem eject_fold_main (n m : V) (l : List Chute) (hl : Chute.drogue ∉ l) (s : Sim) (h0 : s.nose.impulse = none) (h1 : s.body = none) (h2 : s.motor.impulse = none) :
    impulsesGiven (l.foldl (Sim.eject n m) s).physics = impulsesGiven s := by
  have key : ∀ (l : List Chute) (s : Sim), Chute.drogue ∉ l → s.nose.impulse.getD 0 + s.body.getD 0 = 0 → s.motor.impulse = none →
      impulsesGiven (l.foldl (Sim.eject n m) s).physics = impulsesGiven s := by
    intro l
    induction l with
    | nil =>
      intro s _ h1 h2
      simp only [List.foldl_nil, impulsesGiven, Sim.physics, h2, Option.getD_none, add_zero]
      have e : s.given.1 + s.nose.impulse.getD 0 + (s.given.2.1 + s.body.getD 0) + s.given.2.2 = s.given.1 + s.given.2.1 + s.given.2.2 + (s.nose.impulse.getD 0 + s.body.getD 0) := by abel
      rw [e, h1, add_zero]
    | cons c l ih =>
      intro s hc h1 h2
      rw [List.mem_cons, not_or] at hc
      cases c with
      | drogue => simp at hc
      | main =>
        rw [List.foldl_cons, ih (Sim.eject n m s .main) hc.2 (by simp [Sim.eject]) h2]
        rfl
  exact key l s hl (by simp [h0, h1]) h2

theorem eject_fold_drogue (n m : V) (l : List Chute) (hl : Chute.main ∉ l) (s : Sim) (h0 : s.nose.impulse = none) (h1 : s.body = none) (h2 : s.motor.impulse = none) :
    impulsesGiven (l.foldl (Sim.eject n m) s).physics = impulsesGiven s := by
  have key : ∀ (l : List Chute) (s : Sim), Chute.main ∉ l → s.motor.impulse.getD 0 + s.body.getD 0 = 0 → s.nose.impulse = none →
      impulsesGiven (l.foldl (Sim.eject n m) s).physics = impulsesGiven s := by
    intro l
    induction l with
    | nil =>
      intro s _ h1 h2
      simp only [List.foldl_nil, impulsesGiven, Sim.physics, h2, Option.getD_none, add_zero]
      have e : s.given.1 + (s.given.2.1 + s.body.getD 0) + (s.given.2.2 + s.motor.impulse.getD 0) = s.given.1 + s.given.2.1 + s.given.2.2 + (s.motor.impulse.getD 0 + s.body.getD 0) := by abel
      rw [e, h1, add_zero]
    | cons c l ih =>
      intro s hc h1 h2
      rw [List.mem_cons, not_or] at hc
      cases c with
      | main => simp at hc
      | drogue =>
        rw [List.foldl_cons, ih (Sim.eject n m s .drogue) hc.2 (by simp [Sim.eject]) h2]
        rfl
  exact key l s hl (by simp [h1, h2]) h0

/-- between frames no impulse waits -/
def NoImpulseWaits (s : Sim) : Prop := s.nose.impulse = none ∧ s.body = none ∧ s.motor.impulse = none

theorem chutes_step_calm {s s' : Sim} {e : Ev} (hs : NoImpulseWaits s) (h : s.step e = some s') : NoImpulseWaits s' := by
  cases e with
  | enable d on => cases h; cases on <;> exact hs
  | button d => cases h; exact hs
  | setup => cases h; exact hs
  | frame r n m =>
    cases r <;> simp only [Sim.step, Option.map_eq_some_iff] at h <;> obtain ⟨x, _, rfl⟩ := h <;> exact ⟨rfl, rfl, rfl⟩

theorem chutes_step_total {s s' : Sim} {e : Ev} (hc : NoImpulseWaits s) (h1 : OneChuteWaits s) (h : s.step e = some s') : impulsesGiven s' = impulsesGiven s := by
  cases e with
  | enable d on => cases h; cases on <;> rfl
  | button d => cases h; rfl
  | setup => cases h; rfl
  | frame r n m =>
    obtain ⟨c, hw⟩ := h1
    have fold : ∀ (t : Sim), NoImpulseWaits t → waitingFor t c = 0 → impulsesGiven ((t.pending.foldl (Sim.eject n m) { t with pending := [] }).physics) = impulsesGiven t := by
      intro t ht hwt
      have : c ∉ t.pending := by
        unfold waitingFor at hwt
        exact List.count_eq_zero.mp (by omega)
      cases c with
      | main => exact eject_fold_drogue n m _ this { t with pending := [] } ht.1 ht.2.1 ht.2.2
      | drogue => exact eject_fold_main n m _ this { t with pending := [] } ht.1 ht.2.1 ht.2.2
    cases r <;> simp only [Sim.step, Option.map_eq_some_iff] at h <;> obtain ⟨x, hx, rfl⟩ := h <;> unfold Sim.chutes at hx <;> split at hx <;> first | (cases hx; done) | cases hx
    · exact fold s hc hw
    · exact fold s.receive hc (by rw [(chutes_receive_waiting s c).1]; exact hw)

/-- **C133** Action and reaction: as long as orders for the two chutes never wait at the same time, the impulses given to the three parts add up to zero, whatever the axes. -/
theorem C133_momentum (es : List Ev) (s : Sim) (h : Sim.new.run es = some s)
    (h1 : ∀ (k : Nat) (t : Sim), Sim.new.run (es.take k) = some t → OneChuteWaits t) : impulsesGiven s = 0 := by
  have key : ∀ (es : List Ev) (a s : Sim), NoImpulseWaits a → a.run es = some s → (∀ (k : Nat) (t : Sim), a.run (es.take k) = some t → OneChuteWaits t) → impulsesGiven s = impulsesGiven a := by
    intro es
    induction es with
    | nil => intro a s _ h _; cases h; rfl
    | cons e es ih =>
      intro a s ha h hk
      simp only [Sim.run, Option.bind_eq_some_iff] at h
      obtain ⟨x, hx, h⟩ := h
      rw [ih x s (chutes_step_calm ha hx) h ?_, chutes_step_total ha (hk 0 a rfl) hx]
      intro k t ht
      refine hk (k + 1) t ?_
      rw [List.take_succ_cons, Sim.run, hx]
      exact ht
  rw [key es _ s ⟨rfl, rfl, rfl⟩ h h1]
  simp [impulsesGiven, Sim.new]

/-- **C133 (finding)** If both chutes are ordered within one frame, the body gets the impulse of the drogue only: the rocket as a whole is pushed along the nose cone's axis, by an impulse of 15. -/
theorem C133_together (r : Bool) (n m n' m' : V) :
    ∃ s, Sim.new.run (.setup :: .enable 1 true :: .enable 2 true :: chuteFrames [(r, n, m), (r, n', m')]) = some s ∧
      s.given = if r then ((15 : ℚ) • n, (35 : ℚ) • m, -((35 : ℚ) • m)) else ((15 : ℚ) • n', (35 : ℚ) • m', -((35 : ℚ) • m')) := by
  cases r
  · refine ⟨_, rfl, ?_⟩
    simp [Sim.physics, Sim.receive, Sim.eject, Sim.new, chuteOf]
  · refine ⟨_, rfl, ?_⟩
    simp [Sim.physics, Sim.receive, Sim.eject, Sim.new, chuteOf]

/-- **C133 (finding)** A pyro that is switched on twice ejects its chute twice (a charge burns once): the impulse is given again. -/
theorem C133_twice (n m : V) :
    ∃ s, Sim.new.run (.setup :: .enable 1 true :: .enable 1 false :: .enable 1 true :: chuteFrames [(true, n, m), (true, n, m)]) = some s ∧
      s.given = ((30 : ℚ) • n, -((30 : ℚ) • n), 0) := by
  refine ⟨_, rfl, ?_⟩
  simp [Sim.physics, Sim.receive, Sim.eject, Sim.new, chuteOf]
  constructor
  · rw [← add_smul]; norm_num
  · rw [← neg_add, ← add_smul]; norm_num

/-- one order after the other (a case of the hypothesis of C133_momentum, and of C133_all_ejected) -/
example (n m : V) : ∃ s, Sim.new.run [.setup, .enable 1 true, .frame true n m, .enable 2 true, .frame true n m] = some s ∧ s.handled = [.main, .drogue] ∧ s.rocket = true := ⟨_, rfl, rfl, rfl⟩

example (n m : V) (k : Nat) (t : Sim) (h : Sim.new.run ([.setup, .enable 1 true, .frame true n m, .enable 2 true, .frame true n m].take k) = some t) : OneChuteWaits t := by
  match k with
  | 0 => cases h; exact ⟨.main, rfl⟩
  | 1 => cases h; exact ⟨.main, rfl⟩
  | 2 => cases h; exact ⟨.drogue, rfl⟩
  | 3 => cases h; exact ⟨.main, rfl⟩
  | 4 => cases h; exact ⟨.main, rfl⟩
  | k + 5 => rw [List.take_of_length_le (by simp)] at h; cases h; exact ⟨.main, rfl⟩

end Verif.Props
