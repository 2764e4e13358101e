import Verif.Props.ModuleBus

/-!
C57: requests of the master of the module bus. C82: events of a module on their way to the drivers of the master.
-/
namespace Verif.Props
open Verif.ModuleBus

/-! ### C57 -/

theorem attempts_spec {σ : Type} (h : App σ) (req : List Byte) (atts : Nat → Att) (fuel : Nat) :
    ∀ (i : Nat) (w : World σ), i + fuel = 5 → 0 < fuel →
      let rs := (w.attempts h req atts fuel i).2
      rs ≠ [] ∧ rs.length ≤ fuel ∧ (∀ j, j + 1 < rs.length → ∃ e, rs[j]? = some (.error e))
        ∧ ((∃ p, rs.getLast? = some (.ok p)) ∨ (rs.length = fuel ∧ ∃ e, rs.getLast? = some (.error e))) := by
  induction fuel with
  | zero => intro i w _ h0; omega
  | succ fuel ih =>
    intro i w hi _
    simp only [World.attempts]
    by_cases hc : (isOk (w.once h req (atts i)).2 || i > 3) = true
    · rw [if_pos hc]
      refine ⟨by simp, by simp, fun j hj => by simp at hj, ?_⟩
      cases hr : (w.once h req (atts i)).2 with
      | ok p => exact .inl ⟨p, by simp⟩
      | error e =>
        rw [hr] at hc
        simp [isOk] at hc
        exact .inr ⟨by simp; omega, e, by simp⟩
    · rw [if_neg hc]
      simp [isOk] at hc
      have hfu : 0 < fuel := by omega
      obtain ⟨h1, h2, h3, h4⟩ := ih (i + 1) (w.once h req (atts i)).1 (by omega) hfu
      generalize (World.attempts h req atts fuel (i + 1) (w.once h req (atts i)).1).2 = rs at *
      refine ⟨by simp, by simp; omega, ?_, ?_⟩
      · intro j hj
        cases j with
        | zero =>
          cases hr : (w.once h req (atts i)).2 with
          | ok p => rw [hr] at hc; simp [isOk] at hc
          | error e => exact ⟨e, by simp⟩
        | succ j => obtain ⟨e, he⟩ := h3 j (by simp at hj; omega); exact ⟨e, by simpa using he⟩
      · have hl : ((w.once h req (atts i)).2 :: rs).getLast? = rs.getLast? := by
          cases rs with
          | nil => exact absurd rfl h1
          | cons a rs => simp [List.getLast?_cons_cons]
        rw [hl]
        rcases h4 with h4 | ⟨h4, h5⟩
        · exact .inl h4
        · exact .inr ⟨by simp; omega, h5⟩

/-- C57: a request makes between one and five attempts, stops at the first that succeeds and returns what that one gave; if none of five does, it returns the last error.
`rs` are the results of the attempts. -/
theorem C57_attempts {σ : Type} (h : App σ) (w : World σ) (p : Pkg) (atts : Nat → Att) :
    ∃ rs : List (Except Err Pkg), rs = (w.attempts h (encode p) atts 5 0).2 ∧ 1 ≤ rs.length ∧ rs.length ≤ 5
      ∧ (∀ j, j + 1 < rs.length → ∃ e, rs[j]? = some (.error e))
      ∧ rs.getLast? = some (w.request h p atts).2
      ∧ ((∃ q, (w.request h p atts).2 = .ok q) ∨ (rs.length = 5 ∧ ∃ e, (w.request h p atts).2 = .error e)) := by
  obtain ⟨h1, h2, h3, h4⟩ := attempts_spec h (encode p) atts 5 0 w rfl (by omega)
  refine ⟨_, rfl, ?_, h2, h3, ?_, ?_⟩
  · exact List.length_pos_iff.2 h1
  · unfold World.request
    rcases h4 with ⟨q, hq⟩ | ⟨_, e, he⟩
    · rw [hq]; rfl
    · rw [he]; rfl
  · unfold World.request
    rcases h4 with ⟨q, hq⟩ | ⟨hl, e, he⟩
    · exact .inl ⟨q, by rw [hq]; rfl⟩
    · exact .inr ⟨hl, e, by rw [he]; rfl⟩

/-- the module after it got the same request `k` times -/
def recvN {σ : Type} (h : App σ) (req : List Byte) : Nat → Slave σ → Slave σ
  | 0, s => s
  | k + 1, s => recvN h req k (s.recv h req).1

theorem recvN_succ {σ : Type} (h : App σ) (req : List Byte) (k : Nat) (s : Slave σ) : recvN h req (k + 1) s = ((recvN h req k s).recv h req).1 := by
  induction k generalizing s with
  | zero => rfl
  | succ k ih => exact ih (s.recv h req).1

theorem read_slave {σ : Type} (w : World σ) (a : Att) : (w.read a).1.slave = w.slave := by
  unfold World.read
  split
  · split
    · split <;> rfl
    · rfl
  · rfl

theorem once_slave {σ : Type} (h : App σ) (w : World σ) (req : List Byte) (a : Att) :
    (w.once h req a).1.slave = if a.writeOk && a.arrives then (w.slave.recv h req).1 else w.slave := by
  unfold World.once
  by_cases hw : a.writeOk = true
  · rw [if_pos hw, read_slave]
    unfold World.reach
    by_cases ha : a.arrives = true
    · simp [ha, hw]
    · simp [ha, hw]
  · simp [hw]

theorem attempts_slave {σ : Type} (h : App σ) (req : List Byte) (atts : Nat → Att) (fuel : Nat) :
    ∀ (i : Nat) (w : World σ), ∃ k, k ≤ fuel ∧ (w.attempts h req atts fuel i).1.slave = recvN h req k w.slave := by
  induction fuel with
  | zero => intro i w; exact ⟨0, Nat.le_refl _, rfl⟩
  | succ fuel ih =>
    intro i w
    have ho := once_slave h w req (atts i)
    simp only [World.attempts]
    by_cases hc : (isOk (w.once h req (atts i)).2 || i > 3) = true
    · rw [if_pos hc]
      by_cases ha : ((atts i).writeOk && (atts i).arrives) = true
      · rw [if_pos ha] at ho; exact ⟨1, by omega, ho⟩
      · rw [if_neg ha] at ho; exact ⟨0, by omega, ho⟩
    · rw [if_neg hc]
      obtain ⟨k, hk, he⟩ := ih (i + 1) (w.once h req (atts i)).1
      by_cases ha : ((atts i).writeOk && (atts i).arrives) = true
      · rw [if_pos ha] at ho; exact ⟨k + 1, by omega, by rw [he, ho]; rfl⟩
      · rw [if_neg ha] at ho; exact ⟨k, by omega, by rw [he, ho]⟩

/-- C57: whatever the line does, the module handles the request at most five times, and nothing else happens to it -/
theorem C57_handled {σ : Type} (h : App σ) (w : World σ) (p : Pkg) (atts : Nat → Att) :
    ∃ k, k ≤ 5 ∧ (w.request h p atts).1.slave = recvN h (encode p) k w.slave := attempts_slave h (encode p) atts 5 0 w

/-- an attempt on a line that loses packages but delivers nothing late and changes nothing -/
def Prompt (a : Att) : Prop := a.inTime = true ∧ a.readOk = true ∧ (a.answer = .whole ∨ a.answer = .lost)

theorem once_prompt {σ : Type} (h : App σ) (w : World σ) (req : List Byte) (a : Att) (hp : Prompt a) (hl : w.line = []) :
    (w.once h req a).1.line = [] ∧ ∀ q, (w.once h req a).2 = .ok q →
      (w.once h req a).1.slave = (w.slave.recv h req).1 ∧ ∃ ans, (w.slave.recv h req).2 = some ans ∧ decode ans = .ok q := by
  obtain ⟨ht, hr, hf⟩ := hp
  unfold World.once
  by_cases hw : a.writeOk = true
  · rw [if_pos hw]
    unfold World.reach
    by_cases ha : a.arrives = true
    · rw [if_pos ha]
      cases hans : (w.slave.recv h req).2 with
      | none => simp [World.read, ht, hr, arrive, hl]
      | some ans =>
        rcases hf with hf | hf
        · simp [World.read, ht, hr, arrive, hl, hf]
          intro q hq
          unfold result at hq
          cases hd : decode ans <;> rw [hd] at hq <;> simp at hq
          rw [hq]
        · simp [World.read, ht, hr, arrive, hl, hf]
    · simp [ha, World.read, ht, hr, hl]
  · simp [hw, hl]

theorem attempts_prompt {σ : Type} (h : App σ) (req : List Byte) (atts : Nat → Att) (hp : ∀ i, Prompt (atts i)) (fuel : Nat) :
    ∀ (i : Nat) (w : World σ), w.line = [] → (w.attempts h req atts fuel i).1.line = []
      ∧ ∀ q, (w.attempts h req atts fuel i).2.getLast? = some (.ok q) →
        ∃ k, k < fuel ∧ (w.attempts h req atts fuel i).1.slave = recvN h req (k + 1) w.slave
          ∧ ∃ ans, ((recvN h req k w.slave).recv h req).2 = some ans ∧ decode ans = .ok q := by
  induction fuel with
  | zero => intro i w hl; exact ⟨hl, fun q hq => by simp [World.attempts] at hq⟩
  | succ fuel ih =>
    intro i w hl
    obtain ⟨hl1, hq1⟩ := once_prompt h w req (atts i) (hp i) hl
    simp only [World.attempts]
    by_cases hc : (isOk (w.once h req (atts i)).2 || i > 3) = true
    · rw [if_pos hc]
      refine ⟨hl1, fun q hq => ⟨0, by omega, ?_⟩⟩
      simp at hq
      obtain ⟨hs, ha⟩ := hq1 q hq
      exact ⟨hs, ha⟩
    · rw [if_neg hc]
      obtain ⟨hl2, hq2⟩ := ih (i + 1) (w.once h req (atts i)).1 hl1
      refine ⟨hl2, fun q hq => ?_⟩
      have ho := once_slave h w req (atts i)
      by_cases hne : (World.attempts h req atts fuel (i + 1) (w.once h req (atts i)).1).2 = []
      · simp only [hne] at hq
        simp at hq
        rw [hq] at hc
        simp [isOk] at hc
      · have hg : ∀ (x : Except Err Pkg) (l : List (Except Err Pkg)), l ≠ [] → (x :: l).getLast? = l.getLast? := by
          intro x l hl'; cases l with
          | nil => exact absurd rfl hl'
          | cons b l => simp [List.getLast?_cons_cons]
        rw [hg _ _ hne] at hq
        obtain ⟨k, hk, hs, ha⟩ := hq2 q hq
        by_cases harr : ((atts i).writeOk && (atts i).arrives) = true
        · rw [if_pos harr] at ho
          rw [ho] at hs ha
          exact ⟨k + 1, by omega, hs, ha⟩
        · rw [if_neg harr] at ho
          rw [ho] at hs ha
          exact ⟨k, by omega, hs, ha⟩

/-- C57: on a line that may lose any request or answer but delivers none late, a successful request was handled by the module, and what is returned is the module's answer to its last handling of this very request; the line is clean afterwards -/
theorem C57_genuine {σ : Type} (h : App σ) (w : World σ) (p : Pkg) (atts : Nat → Att) (hp : ∀ i, Prompt (atts i)) (hl : w.line = []) :
    (w.request h p atts).1.line = [] ∧ ∀ q, (w.request h p atts).2 = .ok q →
      ∃ k, k < 5 ∧ (w.request h p atts).1.slave = recvN h (encode p) (k + 1) w.slave
        ∧ ∃ ans, ((recvN h (encode p) k w.slave).recv h (encode p)).2 = some ans ∧ decode ans = .ok q := by
  obtain ⟨h1, h2⟩ := attempts_prompt h (encode p) atts hp 5 0 w hl
  refine ⟨h1, fun q hq => h2 q ?_⟩
  obtain ⟨rs, hrs, _, _, _, hlast, _⟩ := C57_attempts h w p atts
  rw [← hrs, hlast, hq]

/-- a module that acknowledges every package, and answers questions about continuity with yes -/
def demoApp : App Unit := fun _ p => match p with
  | .getContinuity _ => ((), some (.continuityInfo true))
  | _ => ((), some .ack)

/-- a module that has just started, and nothing on the line -/
def busWorld : World Unit := ⟨⟨[], (), []⟩, []⟩

/-- a good attempt, a lost request, a lost answer, a late answer -/
def good : Att := ⟨true, true, .whole, true, true⟩
def noRequest : Att := ⟨true, false, .whole, true, true⟩
def noAnswer : Att := ⟨true, true, .lost, true, true⟩
def late : Att := ⟨true, true, .whole, true, false⟩

/-- case: the request is lost, then the answer, then both arrive: the module handled it twice, the caller gets the acknowledgement -/
example : (busWorld.request demoApp (.pyroCtrl 1#8 true) fun i => if i = 0 then noRequest else if i = 1 then noAnswer else good).2 = .ok .ack
    ∧ (busWorld.request demoApp (.pyroCtrl 1#8 true) fun i => if i = 0 then noRequest else if i = 1 then noAnswer else good).1.slave.got
      = [.pyroCtrl 1#8 true, .pyroCtrl 1#8 true] := by
  refine ⟨by rfl, by decide +kernel⟩

/-- C57, finding: a request that returns an error may have been done: with five lost answers the master reports a timeout, but the module has switched its channel on -/
theorem C57_error_but_done :
    expectAck (busWorld.request demoApp (.pyroCtrl 1#8 true) fun _ => noAnswer).2 = .error .timeout
    ∧ (busWorld.request demoApp (.pyroCtrl 1#8 true) fun _ => noAnswer).1.slave.got = List.replicate 5 (.pyroCtrl 1#8 true) := by
  refine ⟨by rfl, by decide +kernel⟩

/-- the line after a command to channel 1 whose first acknowledgement came late -/
def staleWorld : World Unit := (busWorld.request demoApp (.pyroCtrl 1#8 true) fun i => if i = 0 then late else good).1

/-- C57, finding: an answer that comes late is taken for the answer to a later request: the master's next command, to channel 2, is reported as done although the module never got it -/
theorem C57_stale_ack :
    (busWorld.request demoApp (.pyroCtrl 1#8 true) fun i => if i = 0 then late else good).2 = .ok .ack
    ∧ expectAck (staleWorld.request demoApp (.pyroCtrl 2#8 true) fun _ => noRequest).2 = .ok ()
    ∧ Pkg.pyroCtrl 2#8 true ∉ (staleWorld.request demoApp (.pyroCtrl 2#8 true) fun _ => noRequest).1.slave.got := by
  refine ⟨by rfl, by rfl, by decide +kernel⟩

/-- C57: an answer of another kind than the question asks for is never returned as an answer to it -/
theorem C57_typed (r : Except Err Pkg) :
    (∀ u, expectAck r = .ok u → r = .ok .ack) ∧ (∀ b, expectContinuity r = .ok b → r = .ok (.continuityInfo b))
    ∧ (∀ b, expectArming r = .ok b → r = .ok (.armingInfo b)) ∧ (∀ n, (expectEvent r).1 = .ok n → ∃ e, r = .ok (.event n e))
    ∧ (∀ e, (expectEvent r).2 = some e → ∃ n, r = .ok (.event n (some e))) := by
  cases r with
  | error e => simp [expectAck, expectContinuity, expectArming, expectEvent]
  | ok p => cases p <;> simp [expectAck, expectContinuity, expectArming, expectEvent]

/-- C57, finding: a module that uses the ready-made loop (`Slave::run`) answers no poll, so its events are never read -/
theorem C57_run_ignores_polls {σ : Type} (h : App σ) (s : Slave σ) : s.runOne h (encode .pollEvent) = (s, none) := by
  have : decode (encode .pollEvent) = .ok .pollEvent := C55_roundtrip _ trivial
  unfold Slave.runOne
  rw [this]

/-! ### C82 -/

/-- the events in the answers that wait on the line -/
def lineEvents (line : List (List Byte)) : List Event := line.filterMap fun b => match decode b with
  | .ok (.event _ e) => e
  | _ => none

/-- the event of a result -/
def resEvents : Except Err Pkg → List Event
  | .ok (.event _ (some e)) => [e]
  | _ => []

/-- the line loses and delays but does not change answers -/
def Faithful (a : Att) : Prop := a.answer = .whole ∨ a.answer = .lost

/-- sentences are arrays of 84 bytes -/
def Event.Wf : Event → Prop
  | .nmea s _ => s.length = 84
  | _ => True

/-- an application answers with packages, but not with events: those are answered by the protocol itself -/
def NoEvents {σ : Type} (h : App σ) : Prop := ∀ s p q, (h s p).2 = some q → q.Wf ∧ ∀ n e, q ≠ .event n e

theorem poll_wf {q : List Event} (hq : ∀ e ∈ q, Event.Wf e) : (poll q).2.Wf := by
  cases q with
  | nil => trivial
  | cons e q =>
    have := hq e (by simp)
    cases e <;> first | trivial | exact this

theorem lineEvents_snoc (l : List (List Byte)) (b : List Byte) : lineEvents (l ++ [b]) = lineEvents l ++ lineEvents [b] := by
  simp [lineEvents, List.filterMap_append]

theorem lineEvents_encode (p : Pkg) (h : p.Wf) : lineEvents [encode p] = (eventOf p).toList := by
  have := C55_roundtrip p h
  cases p with
  | event n e =>
    cases e with
    | none => simp [lineEvents, List.filterMap_cons, this, eventOf]
    | some e => simp [lineEvents, List.filterMap_cons, this, eventOf]
  | _ => simp [lineEvents, this, eventOf]

theorem recv_events {σ : Type} (h : App σ) (hn : NoEvents h) (s : Slave σ) (hw : ∀ e ∈ s.events, Event.Wf e) (req : List Byte) :
    (∀ e ∈ (s.recv h req).1.events, Event.Wf e)
    ∧ (lineEvents (s.recv h req).2.toList ++ (s.recv h req).1.events).Sublist s.events := by
  unfold Slave.recv
  have hpoll := poll_wf hw
  split
  · constructor
    · intro e he; cases hq : s.events with
      | nil => simp [hq, poll] at he
      | cons a q => simp [hq, poll] at he; exact hw e (by rw [hq]; exact List.mem_cons_of_mem _ he)
    · simp only [Option.toList]
      rw [lineEvents_encode _ hpoll]
      cases s.events with
      | nil => exact List.Sublist.refl _
      | cons a q => exact List.Sublist.refl _
  · refine ⟨hw, ?_⟩
    rename_i p _ _
    cases ha : (h s.app p).2 with
    | none => simp [lineEvents]
    | some q =>
      obtain ⟨hq, hne⟩ := hn s.app p q ha
      simp only [Option.map, Option.toList]
      rw [lineEvents_encode q hq]
      cases q <;> first | exact List.Sublist.refl _ | exact absurd rfl (hne _ _)
  · exact ⟨hw, by simp [lineEvents]⟩

theorem sub_mid {α : Type} {a b c l m : List α} (h : (b ++ c).Sublist m) (hl : l = a) : (l ++ b ++ c).Sublist (a ++ m) := by
  subst hl; rw [List.append_assoc]; exact List.Sublist.append (List.Sublist.refl _) h

theorem once_events {σ : Type} (h : App σ) (hn : NoEvents h) (w : World σ) (hw : ∀ e ∈ w.slave.events, Event.Wf e) (req : List Byte) (a : Att) (hf : Faithful a) :
    (∀ e ∈ (w.once h req a).1.slave.events, Event.Wf e)
    ∧ (resEvents (w.once h req a).2 ++ lineEvents (w.once h req a).1.line ++ (w.once h req a).1.slave.events).Sublist (lineEvents w.line ++ w.slave.events) := by
  have hread : ∀ w' : World σ, (resEvents (w'.read a).2 ++ lineEvents (w'.read a).1.line).Sublist (lineEvents w'.line) := by
    intro w'
    unfold World.read
    split
    · split
      · split
        · rename_i b r hl
          rw [hl]
          have : lineEvents (b :: r) = lineEvents [b] ++ lineEvents r := by
            rw [show b :: r = [b] ++ r from rfl]; simp only [lineEvents, List.filterMap_append]
          rw [this]
          refine List.Sublist.append ?_ (List.Sublist.refl _)
          unfold result
          cases hd : decode b with
          | ok p => cases p with
            | event n e => cases e <;> simp [resEvents, lineEvents, hd]
            | _ => exact List.nil_sublist _
          | _ => exact List.nil_sublist _
        · exact List.Sublist.refl _
      · exact List.Sublist.refl _
    · exact List.Sublist.refl _
  unfold World.once
  by_cases hwo : a.writeOk = true
  · rw [if_pos hwo, read_slave]
    obtain ⟨hr1, hr2⟩ := recv_events h hn w.slave hw req
    unfold World.reach
    by_cases ha : a.arrives = true
    · rw [if_pos ha]
      refine ⟨hr1, ?_⟩
      refine List.Sublist.trans (List.Sublist.append (hread _) (List.Sublist.refl _)) ?_
      show (lineEvents (arrive w.line a.answer (w.slave.recv h req).2) ++ (w.slave.recv h req).1.events).Sublist _
      cases hans : (w.slave.recv h req).2 with
      | none =>
        rw [hans] at hr2
        exact List.Sublist.append (List.Sublist.refl _) (by simpa [lineEvents] using hr2)
      | some b =>
        rw [hans] at hr2
        rcases hf with hf | hf
        · simp only [arrive, hf, lineEvents_snoc, List.append_assoc]
          exact List.Sublist.append (List.Sublist.refl _) hr2
        · simp only [arrive, hf]
          exact List.Sublist.append (List.Sublist.refl _) (List.Sublist.trans (List.sublist_append_right _ _) hr2)
    · rw [if_neg ha]
      exact ⟨hw, List.Sublist.append (hread w) (List.Sublist.refl _)⟩
  · rw [if_neg hwo]
    exact ⟨hw, List.Sublist.refl _⟩

theorem attempts_events {σ : Type} (h : App σ) (hn : NoEvents h) (req : List Byte) (atts : Nat → Att) (hf : ∀ i, Faithful (atts i)) (fuel : Nat) :
    ∀ (i : Nat) (w : World σ), (∀ e ∈ w.slave.events, Event.Wf e) →
      (∀ e ∈ (w.attempts h req atts fuel i).1.slave.events, Event.Wf e)
      ∧ (resEvents (((w.attempts h req atts fuel i).2.getLast?).getD (.error .timeout)) ++ lineEvents (w.attempts h req atts fuel i).1.line
          ++ (w.attempts h req atts fuel i).1.slave.events).Sublist (lineEvents w.line ++ w.slave.events) := by
  induction fuel with
  | zero => intro i w hw; exact ⟨hw, List.Sublist.refl _⟩
  | succ fuel ih =>
    intro i w hw
    obtain ⟨h1, h2⟩ := once_events h hn w hw req (atts i) (hf i)
    simp only [World.attempts]
    by_cases hc : (isOk (w.once h req (atts i)).2 || i > 3) = true
    · rw [if_pos hc]
      exact ⟨h1, by simpa using h2⟩
    · rw [if_neg hc]
      obtain ⟨h3, h4⟩ := ih (i + 1) (w.once h req (atts i)).1 h1
      refine ⟨h3, List.Sublist.trans ?_ (List.Sublist.trans h4 (List.Sublist.trans ?_ h2))⟩
      · refine List.Sublist.append (List.Sublist.append ?_ (List.Sublist.refl _)) (List.Sublist.refl _)
        have herr : resEvents (w.once h req (atts i)).2 = [] := by
          cases hr : (w.once h req (atts i)).2 with
          | ok p => rw [hr] at hc; simp [isOk] at hc
          | error e => rfl
        cases hrs : (World.attempts h req atts fuel (i + 1) (w.once h req (atts i)).1).2 with
        | nil => simp [herr]
        | cons x l => simp [List.getLast?_cons_cons]
      · rw [List.append_assoc]; exact List.sublist_append_right _ _

/-- what happens on the bus -/
inductive BusOp
  /-- the module pushes an event -/
  | push (e : Event)
  /-- the master makes a request -/
  | request (p : Pkg) (atts : Nat → Att)

/-- the world, and the events that the master's polls returned so far -/
def busStep {σ : Type} (h : App σ) (s : World σ × List Event) : BusOp → World σ × List Event
  | .push e => ({ s.1 with slave := { s.1.slave with events := push s.1.slave.events e } }, s.2)
  | .request .pollEvent atts => ((s.1.request h .pollEvent atts).1, s.2 ++ (expectEvent (s.1.request h .pollEvent atts).2).2.toList)
  | .request p atts => ((s.1.request h p atts).1, s.2)

/-- a history of the bus -/
def busRun {σ : Type} (h : App σ) (app : σ) (l : List BusOp) : World σ × List Event := l.foldl (busStep h) (⟨⟨[], app, []⟩, []⟩, [])

/-- the events pushed -/
def busPushed (l : List BusOp) : List Event := l.filterMap fun o => match o with
  | .push e => some e
  | .request .. => none

/-- a history with real events on a line that does not change answers -/
def BusOp.Fair : BusOp → Prop
  | .push e => Event.Wf e
  | .request _ atts => ∀ i, Faithful (atts i)

theorem expect_res (r : Except Err Pkg) : (expectEvent r).2.toList = resEvents r := by
  cases r with
  | error e => rfl
  | ok p => cases p with
    | event n e => cases e <;> rfl
    | _ => rfl

/-- C82: on a line that loses and delays whatever it wants, the events the master gets are events of the module, in the order they were pushed, none of them twice -/
theorem C82_no_invention {σ : Type} (h : App σ) (hn : NoEvents h) (app : σ) (l : List BusOp) (hl : ∀ o ∈ l, o.Fair) :
    (busRun h app l).2.Sublist (busPushed l) := by
  have key : ∀ (l : List BusOp) (s : World σ × List Event) (P : List Event), (∀ o ∈ l, o.Fair) → (∀ e ∈ s.1.slave.events, Event.Wf e) →
      (s.2 ++ lineEvents s.1.line ++ s.1.slave.events).Sublist P →
      ((l.foldl (busStep h) s).2 ++ lineEvents (l.foldl (busStep h) s).1.line ++ (l.foldl (busStep h) s).1.slave.events).Sublist (P ++ busPushed l) := by
    intro l
    induction l with
    | nil => intro s P _ _ hs; simpa [busPushed] using hs
    | cons o l ih =>
      intro s P hl hw hs
      have ho := hl o (by simp)
      have hl' : ∀ o ∈ l, o.Fair := fun o' h' => hl o' (by simp [h'])
      rw [List.foldl_cons]
      have req : ∀ p atts, o = .request p atts → (∀ e ∈ (busStep h s o).1.slave.events, Event.Wf e)
          ∧ ((busStep h s o).2 ++ lineEvents (busStep h s o).1.line ++ (busStep h s o).1.slave.events).Sublist P := by
        intro p atts hoe
        subst hoe
        obtain ⟨h1, h2⟩ := attempts_events h hn (encode p) atts ho 5 0 s.1 hw
        have hP : (s.2 ++ (resEvents (s.1.request h p atts).2 ++ lineEvents (s.1.request h p atts).1.line ++ (s.1.request h p atts).1.slave.events)).Sublist P :=
          List.Sublist.trans (List.Sublist.append (List.Sublist.refl _) h2) (by rw [← List.append_assoc]; exact hs)
        have hP' : (s.2 ++ lineEvents (s.1.request h p atts).1.line ++ (s.1.request h p atts).1.slave.events).Sublist P := by
          refine List.Sublist.trans ?_ hP
          rw [List.append_assoc]
          refine List.Sublist.append (List.Sublist.refl _) ?_
          rw [List.append_assoc]
          exact List.sublist_append_right _ _
        cases p <;> first
          | exact ⟨h1, hP'⟩
          | (refine ⟨h1, ?_⟩; show (s.2 ++ (expectEvent _).2.toList ++ _ ++ _).Sublist P; rw [expect_res, List.append_assoc, List.append_assoc, ← List.append_assoc (resEvents _)]; exact hP)
      cases o with
      | push e =>
        have hb : busPushed (BusOp.push e :: l) = e :: busPushed l := rfl
        rw [hb, show P ++ e :: busPushed l = (P ++ [e]) ++ busPushed l by simp]
        refine ih _ (P ++ [e]) hl' ?_ ?_
        · intro e' he'
          show Event.Wf e'
          have : e' ∈ push s.1.slave.events e := he'
          unfold push at this
          simp at this
          rcases this with h' | h'
          · split at h'
            · exact hw e' (List.mem_of_mem_tail h')
            · exact hw e' h'
          · subst h'; exact ho
        · show (s.2 ++ lineEvents s.1.line ++ push s.1.slave.events e).Sublist _
          unfold push
          rw [← List.append_assoc]
          refine List.Sublist.append ?_ (List.Sublist.refl _)
          split
          · exact List.Sublist.trans (List.Sublist.append (List.Sublist.refl _) (List.drop_sublist 1 _)) hs
          · exact hs
      | request p atts =>
        have hb : busPushed (BusOp.request p atts :: l) = busPushed l := rfl
        rw [hb]
        obtain ⟨h1, h2⟩ := req p atts rfl
        exact ih _ P hl' h1 h2
  have := key l (⟨⟨[], app, []⟩, []⟩, []) [] hl (by simp) (by simp [lineEvents])
  refine List.Sublist.trans ?_ (by simpa using this)
  show (busRun h app l).2.Sublist _
  exact List.sublist_append_left _ _

theorem once_good_poll {σ : Type} (h : App σ) (w : World σ) (a : Att) (hp : Prompt a) (hw : a.writeOk = true) (ha : a.arrives = true) (hf : a.answer = .whole)
    (hl : w.line = []) (hwf : ∀ e ∈ w.slave.events, Event.Wf e) :
    w.once h (encode .pollEvent) a = (⟨{ w.slave with events := (poll w.slave.events).1 }, []⟩, .ok (poll w.slave.events).2) := by
  have hd : decode (encode .pollEvent) = .ok .pollEvent := C55_roundtrip _ trivial
  have hd2 := C55_roundtrip _ (poll_wf hwf)
  simp [World.once, hw, World.reach, ha, Slave.recv, hd, arrive, hf, hl, World.read, hp.1, hp.2.1, result, hd2]

/-- C82: on a line that works, a poll gives the oldest waiting event and takes it from the queue -/
theorem C82_poll {σ : Type} (h : App σ) (w : World σ) (atts : Nat → Att) (hp : Prompt (atts 0)) (hw : (atts 0).writeOk = true) (ha : (atts 0).arrives = true)
    (hf : (atts 0).answer = .whole) (hl : w.line = []) (e : Event) (q : List Event) (hq : w.slave.events = e :: q) (hwf : ∀ e ∈ w.slave.events, Event.Wf e) :
    expectEvent (w.request h .pollEvent atts).2 = (.ok (BitVec.ofNat 8 q.length), some e) ∧ (w.request h .pollEvent atts).1.slave.events = q
      ∧ (w.request h .pollEvent atts).1.line = [] := by
  have := once_good_poll h w (atts 0) hp hw ha hf hl hwf
  simp [World.request, World.attempts, this, isOk, hq, poll, expectEvent]

/-- C82, finding: an event whose answer is lost is lost, although the master asks again and gets an answer: the module takes it from its queue when it answers -/
theorem C82_lost_answer :
    (busRun demoApp () [.push (.arming true), .push (.continuity 1#8 false), .request .pollEvent (fun i => if i = 0 then noAnswer else good)]).2 = [.continuity 1#8 false]
    ∧ (busRun demoApp () [.push (.arming true), .push (.continuity 1#8 false), .request .pollEvent (fun i => if i = 0 then noAnswer else good)]).1.slave.events = [] := by
  refine ⟨by decide +kernel, by decide +kernel⟩

/-- what happens to the master's event slot -/
inductive SlotOp
  | store (e : Option Event)
  | run (d : Driver)

/-- one step of the slot -/
def slotStep (s : Slot) : SlotOp → Slot
  | .store e => s.store e
  | .run d => s.run d

/-- a history of the slot -/
def slotRun (l : List SlotOp) : Slot := l.foldl slotStep ⟨none, []⟩

/-- the events the polls stored -/
def slotStored (l : List SlotOp) : List Event := l.filterMap fun o => match o with
  | .store e => e
  | .run _ => none

/-- the module's event is meant for the driver: continuity events for the driver of that channel, arming events for the arming driver, NMEA
sentences for the GPS driver -/
inductive MeantFor : Event → Driver → Prop
  | continuity (c : Byte) (b : Bool) : MeantFor (.continuity c b) (.continuity c)
  | arming (b : Bool) : MeantFor (.arming b) .arming
  | gps (sentence : List Byte) (length : Byte) : MeantFor (.nmea sentence length) .gps

theorem wants_iff (d : Driver) (e : Event) : d.wants e = true ↔ MeantFor e d := by
  constructor
  · intro h
    cases d <;> cases e <;> simp_all [Driver.wants]
    · exact .continuity _ _
    · exact .arming _
    · exact .gps _ _
  · rintro (_ | _ | _)
    · simp [Driver.wants]
    · rfl
    · rfl

theorem drivers_aux (l : List SlotOp) : ((slotRun l).taken.map (·.2)).Sublist (slotStored l) ∧ ∀ x ∈ (slotRun l).taken, x.1.wants x.2 = true := by
  have key : ∀ (l : List SlotOp) (s : Slot) (P : List Event), (s.taken.map (·.2) ++ s.last.toList).Sublist P → (∀ x ∈ s.taken, x.1.wants x.2 = true) →
      (((l.foldl slotStep s).taken.map (·.2)) ++ (l.foldl slotStep s).last.toList).Sublist (P ++ slotStored l) ∧ ∀ x ∈ (l.foldl slotStep s).taken, x.1.wants x.2 = true := by
    intro l
    induction l with
    | nil => intro s P h1 h2; exact ⟨by simpa [slotStored] using h1, h2⟩
    | cons o l ih =>
      intro s P h1 h2
      rw [List.foldl_cons]
      cases o with
      | store e =>
        cases e with
        | none => exact ih s P h1 h2
        | some e =>
          have hb : slotStored (.store (some e) :: l) = e :: slotStored l := rfl
          rw [hb, show P ++ e :: slotStored l = (P ++ [e]) ++ slotStored l by simp]
          exact ih _ (P ++ [e]) (List.Sublist.append (List.Sublist.trans (List.sublist_append_left _ _) h1) (List.Sublist.refl _)) h2
      | run d =>
        have hb : slotStored (.run d :: l) = slotStored l := rfl
        rw [hb]
        refine ih _ P ?_ ?_
        · show ((s.run d).taken.map (·.2) ++ (s.run d).last.toList).Sublist P
          unfold Slot.run
          cases hl : s.last with
          | none => rw [hl] at h1; simpa [hl] using h1
          | some e =>
            rw [hl] at h1
            by_cases hw : d.wants e = true
            · simp only [hw, if_true]; simpa using h1
            · simp only [hw]; simpa [hl] using h1
        · show ∀ x ∈ (s.run d).taken, _
          unfold Slot.run
          cases hl : s.last with
          | none => exact h2
          | some e =>
            by_cases hw : d.wants e = true
            · simp only [hw, if_true]
              intro x hx
              simp at hx
              rcases hx with hx | hx
              · exact h2 x hx
              · subst hx; exact hw
            · simp only [hw]; exact h2
  obtain ⟨h1, h2⟩ := key l ⟨none, []⟩ [] (List.Sublist.refl _) (by simp)
  rw [List.nil_append] at h1
  exact ⟨List.Sublist.trans (List.sublist_append_left _ _) h1, h2⟩

/-- C82: the drivers together take the events in order, each at most once, and every one takes only what is meant for it -/
theorem C82_drivers (l : List SlotOp) : ((slotRun l).taken.map (·.2)).Sublist (slotStored l) ∧ ∀ x ∈ (slotRun l).taken, MeantFor x.2 x.1 :=
  ⟨(drivers_aux l).1, fun x hx => (wants_iff _ _).mp ((drivers_aux l).2 x hx)⟩

/-- an event whose driver runs before the next poll that brings an event gets to it, whichever other drivers run before -/
theorem reaches_aux (s : Slot) (e : Event) (ds : List Driver) (d : Driver) (hd : d ∈ ds) (hw : d.wants e = true) :
    ∃ d', d' ∈ ds ∧ d'.wants e = true ∧ (ds.foldl Slot.run (s.store (some e))).taken = s.taken ++ [(d', e)] := by
  have stay : ∀ (ds : List Driver) (s : Slot), s.last = none → ds.foldl Slot.run s = s := by
    intro ds; induction ds with
    | nil => intro s _; rfl
    | cons a ds ih => intro s hs; rw [List.foldl_cons]; have : s.run a = s := by unfold Slot.run; rw [hs]
                      rw [this]; exact ih s hs
  have go : ∀ (ds : List Driver) (s : Slot), s.last = some e → d ∈ ds →
      ∃ d', d' ∈ ds ∧ d'.wants e = true ∧ (ds.foldl Slot.run s).taken = s.taken ++ [(d', e)] := by
    intro ds; induction ds with
    | nil => intro s _ h; cases h
    | cons a ds ih =>
      intro s hs hm
      rw [List.foldl_cons]
      by_cases ha : a.wants e = true
      · have hr : s.run a = ⟨none, s.taken ++ [(a, e)]⟩ := by unfold Slot.run; rw [hs]; simp [ha]
        exact ⟨a, by simp, ha, by rw [hr, stay _ _ rfl]⟩
      · have hr : s.run a = s := by unfold Slot.run; rw [hs]; simp [ha]
        rw [hr]
        have hm' : d ∈ ds := by
          rcases List.mem_cons.1 hm with h | h
          · subst h; exact absurd hw ha
          · exact h
        obtain ⟨d', h1, h2, h3⟩ := ih s hs hm'
        exact ⟨d', by simp [h1], h2, h3⟩
  exact go ds (s.store (some e)) rfl hd

/-- C82: an event whose driver runs before the next poll that brings an event gets to it, whichever other drivers run before -/
theorem C82_reaches_driver (s : Slot) (e : Event) (ds : List Driver) (d : Driver) (hd : d ∈ ds) (hw : MeantFor e d) :
    (ds.foldl Slot.run (s.store (some e))).taken = s.taken ++ [(d, e)] := by
  obtain ⟨d', _, h2, h3⟩ := reaches_aux s e ds d hd ((wants_iff _ _).mpr hw)
  have h2 := (wants_iff _ _).mp h2
  have : d' = d := by
    cases hw <;> cases h2 <;> rfl
  rw [h3, this]

/-- C82, finding: the master keeps one event: if two polls bring events before the drivers run, the first is gone -/
theorem C82_overwritten (s : Slot) (e e' : Event) (ds : List Driver) :
    ds.foldl Slot.run ((s.store (some e)).store (some e')) = ds.foldl Slot.run (s.store (some e')) := rfl

/-- case: arming is lost, continuity gets to its driver and not to that of another channel -/
example : (slotRun [.store (some (.arming true)), .store (some (.continuity 2#8 true)), .run .arming, .run (.continuity 1#8), .run (.continuity 2#8)]).taken
    = [(.continuity 2#8, .continuity 2#8 true)] := by decide
example : Fate.whole ≠ Fate.lost ∧ Prompt good ∧ Faithful late ∧ NoEvents demoApp := by
  refine ⟨by simp, ⟨rfl, rfl, .inl rfl⟩, .inl rfl, fun s p q hq => ?_⟩
  cases p <;> simp [demoApp] at hq <;> subst hq <;> simp [Pkg.Wf]

end Verif.Props
