import Verif.Spec.RpcChannel
/-
C95, C96: calls between tasks, and the mailbox of downlink packets.
-/
namespace Verif.RpcChan
variable {Q P : Type} [DecidableEq Q]

/-- what is between a request and the server's answer to it -/
def Server.handling : Server Q P → List Q
  | .busy q => [q]
  | _ => []
/-- the answer the server wants to put into the channel -/
def Server.holding : Server Q P → List P
  | .answer p => [p]
  | _ => []

structure Inv (w : World Q P) : Prop where
  reqs : w.asked.map (·.2) = w.served.map (·.1) ++ w.server.handling ++ w.chan.req.toList
  resps : w.served.map (·.2) = w.results.map (·.2.2) ++ w.chan.resp.toList ++ w.server.holding
  count : w.asked.length = w.results.length + w.dropped + w.waiting.length

theorem pollReceive_ready {c c' : Chan Q P} {p : P} (h : c.pollReceive = (c', .ready p)) : c.resp = some p ∧ c' = { c with resp := none } := by
  unfold Chan.pollReceive at h
  split at h
  · next x hx => injection h with h1 h2; injection h2 with h2; exact ⟨by rw [hx, h2], h1.symm⟩
  · simp at h

theorem pollReceive_waiting {c c' : Chan Q P} (h : c.pollReceive = (c', .waiting)) : c.resp = none ∧ c' = c := by
  unfold Chan.pollReceive at h
  split at h
  · simp at h
  · next hx => injection h with h1 _; exact ⟨hx, h1.symm⟩

theorem pollReceive_sending {c c' : Chan Q P} (h : c.pollReceive = (c', .sending)) : False := by
  unfold Chan.pollReceive at h
  split at h <;> simp at h

theorem pollSend_sending {c c' : Chan Q P} {q : Q} (h : c.pollSend q = (c', .sending)) : c.req.isSome = true ∧ c' = c := by
  unfold Chan.pollSend at h
  split at h
  · next hx => injection h with h1 _; exact ⟨by rw [hx]; rfl, h1.symm⟩
  · exact absurd h pollReceive_sending

theorem pollSend_waiting {c c' : Chan Q P} {q : Q} (h : c.pollSend q = (c', .waiting)) : c.req = none ∧ c.resp = none ∧ c' = { c with req := some q } := by
  unfold Chan.pollSend at h
  split at h
  · simp at h
  · next hx => obtain ⟨h1, h2⟩ := pollReceive_waiting h; exact ⟨hx, h1, h2⟩

theorem pollSend_ready {c c' : Chan Q P} {q : Q} {p : P} (h : c.pollSend q = (c', .ready p)) : c.req = none ∧ c.resp = some p ∧ c' = ⟨some q, none⟩ := by
  unfold Chan.pollSend at h
  split at h
  · simp at h
  · next hx => obtain ⟨h1, h2⟩ := pollReceive_ready h; exact ⟨hx, h1, h2⟩

theorem Inv.step {solo drops : Prop} {w w' : World Q P} (hi : Inv w) (hs : Step solo drops w w') : Inv w' := by
  obtain ⟨h1, h2, h3⟩ := hi
  cases hs with
  | call i q hi hs => exact ⟨h1, h2, h3⟩
  | sendPending i q c hm h => obtain ⟨_, rfl⟩ := pollSend_sending h; exact ⟨h1, h2, h3⟩
  | sendWaiting i q c hm h =>
    obtain ⟨r1, r2, rfl⟩ := pollSend_waiting h
    refine ⟨?_, ?_, ?_⟩
    · simp only [List.map_append, h1, r1]; simp
    · exact h2
    · simp [h3]; omega
  | sendReady i q c p hm h =>
    obtain ⟨r1, r2, rfl⟩ := pollSend_ready h
    refine ⟨?_, ?_, ?_⟩
    · simp only [List.map_append, h1, r1]; simp
    · simp only [List.map_append, h2, r2]; simp
    · simp [h3]; omega
  | waitPending i q c hm h => obtain ⟨_, rfl⟩ := pollReceive_waiting h; exact ⟨h1, h2, h3⟩
  | waitReady i q c p hm h =>
    obtain ⟨r1, rfl⟩ := pollReceive_ready h
    refine ⟨h1, ?_, ?_⟩
    · simp only [List.map_append, h2, r1]; simp
    · have := List.length_erase_of_mem hm
      have := List.length_pos_of_mem hm
      simp only [List.length_append, List.length_singleton]; omega
  | dropSending i q hm => exact ⟨h1, h2, h3⟩
  | dropWaiting i q hd hm =>
    refine ⟨h1, h2, ?_⟩
    have := List.length_erase_of_mem hm
    have := List.length_pos_of_mem hm
    show w.asked.length = w.results.length + (w.dropped + 1) + (w.waiting.erase (i, q)).length
    omega
  | take q c hs h =>
    unfold Chan.takeRequest at h
    rw [Option.map_eq_some_iff] at h
    obtain ⟨x, hx, he⟩ := h
    injection he with e1 e2
    subst e1 e2
    refine ⟨?_, ?_, h3⟩
    · rw [h1, hs, hx]; simp [Server.handling]
    · rw [h2, hs]; rfl
  | serve q p hs =>
    refine ⟨?_, ?_, h3⟩
    · rw [h1, hs]; simp [Server.handling]
    · simp only [List.map_append, h2, hs]; simp [Server.holding]
  | put p c hs h =>
    unfold Chan.putResponse at h
    split at h
    · next hx =>
      injection h with h; subst h
      refine ⟨?_, ?_, h3⟩
      · rw [h1, hs]; rfl
      · rw [h2, hs, hx]; simp [Server.holding]
    · simp at h

theorem reach_inv {solo drops : Prop} {w : World Q P} (h : Reach solo drops w) : Inv w := by
  induction h with
  | start => exact ⟨rfl, rfl, rfl⟩
  | step _ hs ih => exact ih.step hs

/-- calls do not overlap -/
theorem solo_one {drops : Prop} {w : World Q P} (h : Reach True drops w) : w.sending.length + w.waiting.length ≤ 1 := by
  induction h with
  | start => simp [World.new]
  | step _ hs ih =>
    cases hs with
    | call i q hi hs => obtain ⟨a, b⟩ := hs trivial; simp [a, b]
    | sendPending i q c hm h => exact ih
    | sendWaiting i q c hm h =>
      have := List.length_erase_of_mem hm
      have := List.length_pos_of_mem hm
      simp only [List.length_cons]; omega
    | sendReady i q c p hm h => have := List.length_erase_of_mem hm; simp only; omega
    | waitPending i q c hm h => exact ih
    | waitReady i q c p hm h => have := List.length_erase_of_mem hm; simp only; omega
    | dropSending i q hm => have := List.length_erase_of_mem hm; simp only; omega
    | dropWaiting i q hd hm => have := List.length_erase_of_mem hm; simp only; omega
    | take q c hs h => exact ih
    | serve q p hs => exact ih
    | put p c hs h => exact ih

/-- when calls do not overlap, the waiting call sent the last request -/
theorem solo_last {drops : Prop} {w : World Q P} (h : Reach True drops w) {x : Nat × Q} (hx : x ∈ w.waiting) : w.asked.getLast? = some x := by
  induction h with
  | start => simp [World.new] at hx
  | @step w w' h hs ih =>
    have h1 := solo_one h
    cases hs with
    | call i q hi hs => exact ih hx
    | sendPending i q c hm h => exact ih hx
    | sendWaiting i q c hm h =>
      have := List.length_pos_of_mem hm
      have hz : w.waiting = [] := List.length_eq_zero_iff.mp (by omega)
      rw [hz, List.mem_singleton] at hx
      simp [hx]
    | sendReady i q c p hm h =>
      have := List.length_pos_of_mem hm
      have hz : w.waiting = [] := List.length_eq_zero_iff.mp (by omega)
      simp [hz] at hx
    | waitPending i q c hm h => exact ih hx
    | waitReady i q c p hm h => exact ih (List.mem_of_mem_erase hx)
    | dropSending i q hm => exact ih hx
    | dropWaiting i q hd hm => exact ih (List.mem_of_mem_erase hx)
    | take q c hs h => exact ih hx
    | serve q p hs => exact ih hx
    | put p c hs h => exact ih hx

end Verif.RpcChan

namespace Verif.Props
open Verif.RpcChan

variable {Q P : Type} [DecidableEq Q]

/-- **C95** In every schedule: the server handles the requests in the order in which they were sent, each at most once; and the answers are handed to callers in the order in which the server gave them, each
at most once, so the `k`-th call that returns returns the answer to the `k`-th request that was sent. -/
theorem C95_order {solo drops : Prop} {w : World Q P} (h : RpcChan.Reach solo drops w) :
    w.served.map (·.1) <+: w.asked.map (·.2) ∧ w.results.map (·.2.2) <+: w.served.map (·.2) ∧
    ∀ (k i : Nat) (q : Q) (p : P), w.results[k]? = some (i, q, p) → ∃ j q', w.asked[k]? = some (j, q') ∧ w.served[k]? = some (q', p) := by
  obtain ⟨h1, h2, h3⟩ := RpcChan.reach_inv h
  have a1 : w.served.map (·.1) <+: w.asked.map (·.2) := by rw [h1, List.append_assoc]; exact List.prefix_append ..
  have a2 : w.results.map (·.2.2) <+: w.served.map (·.2) := by rw [h2, List.append_assoc]; exact List.prefix_append ..
  refine ⟨a1, a2, fun k i q p hk => ?_⟩
  have b2 : (w.results.map (·.2.2))[k]? = some p := by rw [List.getElem?_map, hk]; rfl
  have b3 : (w.served.map (·.2))[k]? = some p := by
    obtain ⟨t, ht⟩ := a2
    have := (List.getElem?_eq_some_iff.mp b2).1
    rw [← ht, List.getElem?_append_left this, b2]
  rw [List.getElem?_map, Option.map_eq_some_iff] at b3
  obtain ⟨⟨q', p'⟩, c1, c2⟩ := b3
  have c2 : p' = p := c2
  subst c2
  have b4 : (w.served.map (·.1))[k]? = some q' := by rw [List.getElem?_map, c1]; rfl
  have b5 : (w.asked.map (·.2))[k]? = some q' := by
    obtain ⟨t, ht⟩ := a1
    have := (List.getElem?_eq_some_iff.mp b4).1
    rw [← ht, List.getElem?_append_left this, b4]
  rw [List.getElem?_map, Option.map_eq_some_iff] at b5
  obtain ⟨⟨j, q''⟩, d1, d2⟩ := b5
  have d2 : q'' = q' := d2
  subst d2
  exact ⟨j, q'', d1, c1⟩

/-- what a step that lets a call return says -/
theorem returns_cases {solo drops : Prop} {w w' : World Q P} {i : Nat} {q : Q} {p : P} (hs : RpcChan.Step solo drops w w') (hr : w'.results = w.results ++ [(i, q, p)]) :
    w'.dropped = w.dropped ∧ ((i, q) ∈ w.waiting ∧ w'.asked = w.asked ∧ w.results.length + w.dropped + w.waiting.length = w.results.length + w.dropped + 1 + w'.waiting.length ∨
      (i, q) ∈ w.sending ∧ w'.asked = w.asked ++ [(i, q)] ∧ w'.waiting = w.waiting) := by
  have key : ∀ {a b : Nat × Q × P}, w.results ++ [a] = w.results ++ [b] → a = b := fun h => by simpa using h
  cases hs with
  | sendReady i' q' c p' hm h => obtain h := key hr; injection h with e1 e2; injection e2 with e2 e3; subst e1 e2 e3; exact ⟨rfl, .inr ⟨hm, rfl, rfl⟩⟩
  | waitReady i' q' c p' hm h =>
    obtain h := key hr; injection h with e1 e2; injection e2 with e2 e3; subst e1 e2 e3
    have := List.length_erase_of_mem hm
    have := List.length_pos_of_mem hm
    exact ⟨rfl, .inl ⟨hm, rfl, by simp only; omega⟩⟩
  | _ => simp at hr

/-- **C95** When calls do not overlap: let `d` be the number of calls that were dropped while waiting for their answer. A call that returns has sent the last request, and it returns the server's answer to the
request that was sent `d` requests earlier. -/
theorem C95_lag {drops : Prop} {w w' : World Q P} (h : RpcChan.Reach True drops w) (hs : RpcChan.Step True drops w w') {i : Nat} {q : Q} {p : P} (hr : w'.results = w.results ++ [(i, q, p)]) :
    w'.asked.getLast? = some (i, q) ∧ ∃ n j q', w'.asked.length = n + 1 + w'.dropped ∧ w'.asked[n]? = some (j, q') ∧ w'.served[n]? = some (q', p) := by
  have h' := h.step hs
  have hi := RpcChan.reach_inv h'
  obtain ⟨hd, hc⟩ := returns_cases hs hr
  have h1 := solo_one h
  have hw : w'.asked.getLast? = some (i, q) ∧ w'.waiting = [] := by
    rcases hc with ⟨m, a, b⟩ | ⟨m, a, b⟩
    · have := List.length_pos_of_mem m
      exact ⟨by rw [a]; exact solo_last h m, List.length_eq_zero_iff.mp (by omega)⟩
    · have := List.length_pos_of_mem m
      exact ⟨by rw [a]; simp, by rw [b]; exact List.length_eq_zero_iff.mp (by omega)⟩
  refine ⟨hw.1, ?_⟩
  obtain ⟨j, q', e1, e2⟩ := (C95_order h').2.2 w.results.length i q p (by rw [hr]; simp)
  refine ⟨w.results.length, j, q', ?_, e1, e2⟩
  have := hi.count
  rw [hr, hw.2] at this
  simpa [Nat.add_right_comm] using this

/-- **C95** When calls do not overlap and no call is dropped while it waits for its answer: every call that returns, returns the server's answer to its own request. -/
theorem C95_own {w : World Q P} (h : RpcChan.Reach True False w) (k i : Nat) (q : Q) (p : P) (hk : w.results[k]? = some (i, q, p)) :
    w.asked[k]? = some (i, q) ∧ w.served[k]? = some (q, p) := by
  have mono : ∀ {w w' : World Q P}, RpcChan.Step True False w w' → w.asked <+: w'.asked ∧ w.served <+: w'.served := by
    intro w w' hs
    cases hs <;> first | exact ⟨List.prefix_refl _, List.prefix_refl _⟩ | exact ⟨List.prefix_append .., List.prefix_refl _⟩ | exact ⟨List.prefix_refl _, List.prefix_append ..⟩
  have lift : ∀ {α : Type} {a b : List α} {k : Nat} {x : α}, a <+: b → a[k]? = some x → b[k]? = some x := by
    rintro α a _ k x ⟨t, rfl⟩ hx
    rw [List.getElem?_append_left (List.getElem?_eq_some_iff.mp hx).1, hx]
  have zero : ∀ {w : World Q P}, RpcChan.Reach True False w → w.dropped = 0 := by
    intro w h
    induction h with
    | start => rfl
    | step _ hs ih => cases hs <;> first | exact ih | contradiction
  induction h with
  | start => simp [World.new] at hk
  | @step w w' h hs ih =>
    by_cases hlt : w.results[k]? = some (i, q, p)
    · obtain ⟨a, b⟩ := ih hlt
      exact ⟨lift (mono hs).1 a, lift (mono hs).2 b⟩
    · have hr : w'.results = w.results ++ [(i, q, p)] ∧ k = w.results.length := by
        cases hs with
        | sendReady i' q' c p' hm h =>
          rw [List.getElem?_append] at hk
          split at hk
          · exact absurd hk hlt
          · rw [List.getElem?_singleton] at hk
            split at hk
            · next h1 h2 => injection hk with hk; exact ⟨by rw [hk], by omega⟩
            · simp at hk
        | waitReady i' q' c p' hm h =>
          rw [List.getElem?_append] at hk
          split at hk
          · exact absurd hk hlt
          · rw [List.getElem?_singleton] at hk
            split at hk
            · next h1 h2 => injection hk with hk; exact ⟨by rw [hk], by omega⟩
            · simp at hk
        | _ => exact absurd hk hlt
      obtain ⟨l1, n, j, q', l2, l3, l4⟩ := C95_lag h hs hr.1
      have hc := (RpcChan.reach_inv (h.step hs)).count
      have hz := zero (h.step hs)
      have hn : n = k := by
        have h1 := solo_one (h.step hs)
        rw [hr.1, hz] at hc
        rw [hz] at l2
        obtain ⟨_, hcs⟩ := returns_cases hs hr.1
        have h1 := solo_one h
        rcases hcs with ⟨m, _, b⟩ | ⟨m, _, b⟩
        · simp at hc; omega
        · have := List.length_pos_of_mem m
          rw [b] at hc; simp at hc; omega
      subst hn
      have hl : w'.asked[n]? = w'.asked.getLast? := by
        rw [List.getLast?_eq_getElem?, l2, hz]; rfl
      rw [hl, l1] at l3
      injection l3 with l3
      injection l3 with e1 e2
      subst e1 e2
      exact ⟨by rw [hl, l1], l4⟩

/-- **C95** No call waits for ever when the server goes on: in every reachable world, if a call waits for its answer then steps of the server alone, and at last a poll of this call, make it return. -/
theorem C95_progress {solo drops : Prop} {w : World Q P} (h : RpcChan.Reach solo drops w) {i : Nat} {q : Q} (hw : (i, q) ∈ w.waiting) (p0 : P) :
    ∃ w' p, RpcChan.Steps solo drops w w' ∧ w'.results = w.results ++ [(i, q, p)] ∧ w'.waiting = w.waiting.erase (i, q) := by
  obtain ⟨h1, h2, h3⟩ := RpcChan.reach_inv h
  have fin : ∀ {w1 : World Q P} {p : P}, RpcChan.Steps solo drops w w1 → w1.results = w.results → w1.waiting = w.waiting → w1.chan.resp = some p →
      ∃ w' p, RpcChan.Steps solo drops w w' ∧ w'.results = w.results ++ [(i, q, p)] ∧ w'.waiting = w.waiting.erase (i, q) := by
    intro w1 p s1 e1 e2 e3
    refine ⟨_, p, s1.step (.waitReady w1 i q { w1.chan with resp := none } p (by rw [e2]; exact hw) (by unfold Chan.pollReceive; rw [e3])), ?_, ?_⟩
    · show w1.results ++ _ = _; rw [e1]
    · show w1.waiting.erase _ = _; rw [e2]
  have putS : ∀ {w1 : World Q P} {p : P}, RpcChan.Steps solo drops w w1 → w1.results = w.results → w1.waiting = w.waiting → w1.chan.resp = none → w1.server = .answer p →
      ∃ w' p, RpcChan.Steps solo drops w w' ∧ w'.results = w.results ++ [(i, q, p)] ∧ w'.waiting = w.waiting.erase (i, q) := by
    intro w1 p s1 e1 e2 e3 e4
    exact fin (s1.step (.put w1 p { w1.chan with resp := some p } e4 (by unfold Chan.putResponse; rw [e3]))) e1 e2 rfl
  have busyS : ∀ {w1 : World Q P} {q1 : Q}, RpcChan.Steps solo drops w w1 → w1.results = w.results → w1.waiting = w.waiting → w1.chan.resp = none → w1.server = .busy q1 →
      ∃ w' p, RpcChan.Steps solo drops w w' ∧ w'.results = w.results ++ [(i, q, p)] ∧ w'.waiting = w.waiting.erase (i, q) := by
    intro w1 q1 s1 e1 e2 e3 e4
    exact putS (p := p0) (s1.step (.serve w1 q1 p0 e4)) e1 e2 e3 rfl
  cases hr : w.chan.resp with
  | some p => exact fin .refl rfl rfl hr
  | none =>
    cases hs : w.server with
    | answer p => exact putS .refl rfl rfl hr hs
    | busy q1 => exact busyS .refl rfl rfl hr hs
    | get =>
      cases hq : w.chan.req with
      | some q1 => exact busyS (q1 := q1) (Steps.refl.step (.take w q1 { w.chan with req := none } hs (by unfold Chan.takeRequest; rw [hq]; rfl))) rfl rfl hr rfl
      | none =>
        rw [hs, hq] at h1
        rw [hs, hr] at h2
        have l1 := congrArg List.length h1
        have l2 := congrArg List.length h2
        have := List.length_pos_of_mem hw
        simp [Server.handling] at l1
        simp [Server.holding] at l2
        omega

/-- **C95** (finding) A call was dropped while it waited for its answer: the next call returns the answer to the request of the dropped one (here the answer to `q` is `q + 100`). -/
theorem C95_dropped : ∃ w : World Nat Nat, RpcChan.Reach True True w ∧ w.served = [(1, 101)] ∧ w.results = [(0, 2, 101)] := by
  have r0 : RpcChan.Reach True True (World.new Nat Nat) := .start
  have r1 := r0.step (.call _ 0 1 (by simp [World.calling, World.new]) (by simp [World.new]))
  have r2 := r1.step (.sendWaiting _ 0 1 ⟨some 1, none⟩ (by simp) rfl)
  have r3 := r2.step (.take _ 1 ⟨none, none⟩ rfl rfl)
  have r4 := r3.step (.dropWaiting _ 0 1 trivial (by simp))
  have r5 := r4.step (.serve _ 1 101 rfl)
  have r6 := r5.step (.put _ 101 ⟨none, some 101⟩ rfl rfl)
  have r7 := r6.step (.call _ 0 2 (by simp [World.calling, World.new]) (by simp [World.new]))
  have r8 := r7.step (.sendReady _ 0 2 ⟨some 2, none⟩ 101 (by simp) rfl)
  exact ⟨_, r8, rfl, rfl⟩

/-- **C95** (finding) Two callers with calls in progress at the same time (the serial and the USB console): each gets the answer to the other one's request. No call was dropped. -/
theorem C95_crossed : ∃ w : World Nat Nat, RpcChan.Reach False False w ∧ w.served = [(1, 101), (2, 102)] ∧ w.results = [(1, 2, 101), (0, 1, 102)] := by
  have r0 : RpcChan.Reach False False (World.new Nat Nat) := .start
  have r1 := r0.step (.call _ 0 1 (by simp [World.calling, World.new]) False.elim)
  have r2 := r1.step (.sendWaiting _ 0 1 ⟨some 1, none⟩ (by simp) rfl)
  have r3 := r2.step (.take _ 1 ⟨none, none⟩ rfl rfl)
  have r4 := r3.step (.call _ 1 2 (by simp [World.calling, World.new]) False.elim)
  have r5 := r4.step (.sendWaiting _ 1 2 ⟨some 2, none⟩ (by simp) rfl)
  have r6 := r5.step (.serve _ 1 101 rfl)
  have r7 := r6.step (.put _ 101 ⟨some 2, some 101⟩ rfl rfl)
  have r8 := r7.step (.waitReady _ 1 2 ⟨some 2, none⟩ 101 (by simp) rfl)
  have r9 := r8.step (.take _ 2 ⟨none, none⟩ rfl rfl)
  have r10 := r9.step (.serve _ 2 102 rfl)
  have r11 := r10.step (.put _ 102 ⟨none, some 102⟩ rfl rfl)
  have r12 := r11.step (.waitReady _ 0 1 ⟨none, none⟩ 102 (by simp [World.new]) rfl)
  exact ⟨_, r12, rfl, rfl⟩

/-- **C95** (finding) A device in another mode than GCM runs no server: no call ever returns. -/
theorem C95_no_server {solo drops : Prop} {w : World Q P} (h : RpcChan.Reach solo drops w) (hs : w.served = []) : w.results = [] := by
  have := (C95_order h).2.1
  rw [hs] at this
  simpa using List.prefix_nil.mp this

/-- … and such calls exist -/
example : ∃ w : World Nat Nat, RpcChan.Reach True False w ∧ w.served = [] ∧ w.waiting = [(0, 1)] :=
  ⟨_, (Reach.start.step (.call _ 0 1 (by simp [World.calling, World.new]) (by simp [World.new]))).step (.sendWaiting _ 0 1 ⟨some 1, none⟩ (by simp) rfl), rfl, rfl⟩

/-- the hypotheses of `C95_own`, `C95_lag` and `C95_progress` hold: two calls, one after the other, both answered -/
example : ∃ w w' : World Nat Nat, RpcChan.Reach True False w ∧ RpcChan.Step True False w w' ∧ (0, 2) ∈ w.waiting ∧ w.results = [(0, 1, 101)] ∧ w'.results = [(0, 1, 101)] ++ [(0, 2, 102)] := by
  have r0 : RpcChan.Reach True False (World.new Nat Nat) := .start
  have r1 := r0.step (.call _ 0 1 (by simp [World.calling, World.new]) (by simp [World.new]))
  have r2 := r1.step (.sendWaiting _ 0 1 ⟨some 1, none⟩ (by simp) rfl)
  have r3 := r2.step (.take _ 1 ⟨none, none⟩ rfl rfl)
  have r4 := r3.step (.serve _ 1 101 rfl)
  have r5 := r4.step (.put _ 101 ⟨none, some 101⟩ rfl rfl)
  have r6 := r5.step (.waitReady _ 0 1 ⟨none, none⟩ 101 (by simp) rfl)
  have r7 := r6.step (.call _ 0 2 (by simp [World.calling, World.new]) (by simp [World.new]))
  have r8 := r7.step (.sendWaiting _ 0 2 ⟨some 2, none⟩ (by simp) rfl)
  have r9 := r8.step (.take _ 2 ⟨none, none⟩ rfl rfl)
  have r10 := r9.step (.serve _ 2 102 rfl)
  have r11 := r10.step (.put _ 102 ⟨none, some 102⟩ rfl rfl)
  exact ⟨_, _, r11, .waitReady _ 0 2 ⟨none, none⟩ 102 (by simp) rfl, by simp, rfl, rfl⟩

/-! ### C96 -/

theorem mail_quiet {α : Type} (s : Option α × List (Option α)) (xs : List (MailEv α)) (hn : ∀ e ∈ xs, ∃ x, e = .arrive x) :
    xs.foldl mailStep s = ((match s.1 with | some x => some x | none => (arrivals xs).head?), s.2) := by
  induction xs generalizing s with
  | nil => rcases s with ⟨_ | x, l⟩ <;> rfl
  | cons e xs ih =>
    obtain ⟨x, rfl⟩ := hn e (by simp)
    rw [List.foldl_cons, ih _ fun e he => hn e (by simp [he])]
    rcases s with ⟨_ | y, l⟩ <;> rfl

/-- **C96** A poll answers with the first packet that arrived since the previous poll (or with none if none arrived): `before` is any history up to the previous poll, `xs` are the packets that arrived since. -/
theorem C96_oldest {α : Type} (before : List (MailEv α)) (xs : List α) :
    (mailRun (before ++ [.poll] ++ xs.map .arrive ++ [.poll])).2 = (mailRun (before ++ [.poll])).2 ++ [xs.head?] := by
  have har : arrivals (xs.map MailEv.arrive) = xs := by
    induction xs with
    | nil => rfl
    | cons x xs ih => show x :: _ = _; rw [ih]
  unfold mailRun
  rw [List.foldl_append, List.foldl_append]
  rw [mail_quiet _ (xs.map .arrive) (by simp), har]
  have : ((before ++ [MailEv.poll]).foldl mailStep (none, [])).1 = none := by rw [List.foldl_append]; rfl
  rw [this]; rfl

/-- **C96** … and the first poll with the first packet since the start. -/
theorem C96_first {α : Type} (xs : List α) : (mailRun (xs.map .arrive ++ [.poll])).2 = [xs.head?] := by
  have har : arrivals (xs.map MailEv.arrive) = xs := by
    induction xs with
    | nil => rfl
    | cons x xs ih => show x :: _ = _; rw [ih]
  unfold mailRun
  rw [List.foldl_append, mail_quiet _ (xs.map .arrive) (by simp), har]
  rfl

theorem mail_sub {α : Type} (evs : List (MailEv α)) (s : Option α × List (Option α)) :
    ∃ l, (evs.foldl mailStep s).2 = s.2 ++ l ∧ (l.filterMap id ++ (evs.foldl mailStep s).1.toList).Sublist (s.1.toList ++ arrivals evs) := by
  induction evs generalizing s with
  | nil => exact ⟨[], by simp, by simp [arrivals]⟩
  | cons e evs ih =>
    obtain ⟨l, h1, h2⟩ := ih (mailStep s e)
    rw [List.foldl_cons]
    cases e with
    | arrive x =>
      refine ⟨l, h1, h2.trans ?_⟩
      rcases s with ⟨_ | y, r⟩
      · exact List.Sublist.refl _
      · show ([y] ++ arrivals evs).Sublist ([y] ++ (x :: arrivals evs))
        exact (List.Sublist.refl [y]).append (List.sublist_cons_self ..)
    | poll =>
      refine ⟨s.1 :: l, by rw [h1]; simp [mailStep, mailboxPoll], ?_⟩
      rcases s with ⟨_ | y, r⟩
      · exact h2
      · exact h2.cons_cons y

/-- **C96** Every packet that a console gets has arrived, and no packet is handed out twice: the packets handed out, in order, are a subsequence of the arrivals. -/
theorem C96_sublist {α : Type} (evs : List (MailEv α)) : ((mailRun evs).2.filterMap id).Sublist (arrivals evs) := by
  obtain ⟨l, h1, h2⟩ := mail_sub evs (none, [])
  unfold mailRun
  rw [h1]
  exact (List.sublist_append_left _ _).trans h2

/-- **C96** (finding) The packet a poll returns can be older than any number of packets that were received and dropped. -/
theorem C96_stale (n : Nat) : ∃ xs : List Nat, xs.length = n + 1 ∧ (mailRun (xs.map .arrive ++ [.poll])).2 = [some 0] ∧ ∀ x ∈ xs.tail, 0 < x := by
  refine ⟨0 :: (List.range n).map (· + 1), by simp, ?_, by simp⟩
  rw [C96_first]; rfl

end Verif.Props
