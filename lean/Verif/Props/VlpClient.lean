import Verif.Spec.RadioLink
import Verif.Props.Radio
/-
C38: sending a command to the rocket.
-/
namespace Verif.Props

open Verif Vlp Bit

/-- every reachable client understands a received packet as a fresh one does -/
theorem decode_any {x : Ext} (hx : x.Laws) {key : Bytes} {b : Builder} (hb : Reach x key b) (now air : Nat) {buf : Bytes} (h : buf.length ≤ maxSize) :
    b.deserializeDownlink x now air buf = decodeDown x key buf := by
  unfold decodeDown
  rw [downlink_eq hx hb now air buf h, downlink_eq hx .new 0 0 buf h]

theorem recvAck_kind {x : Ext} (hx : x.Laws) {key : Bytes} {b : Builder} (hb : Reach x key b) {a : Attempt} (hf : a.rx.Fits) (ht : a.txOk = true) :
    recvAck x b a = a.kind x key := by
  unfold recvAck Attempt.kind
  rw [if_neg (by rw [ht]; decide)]
  cases e : a.rx with
  | timeout => rfl
  | error => rfl
  | packet buf st =>
    rw [e] at hf
    simp only [decode_any hx hb _ _ hf]
    cases decodeDown x key buf with
    | panic => rfl
    | err => rfl
    | ok d => cases d <;> rfl

/-- the whole loop, from any attempt -/
theorem sendLoop_spec {x : Ext} (hx : x.Laws) {key : Bytes} (p : Uplink) (air : Nat → Attempt) (hf : ∀ i, (air i).rx.Fits) :
    ∀ (rem i : Nat) (b : Builder), Reach x key b →
      Reach x key (sendLoop x p air rem i b).2.1 ∧
      (∀ f ∈ (sendLoop x p air rem i b).2.2, f.length ≤ maxSize ∧ ∀ (rcv : Builder), Reach x key rcv → ∀ later airTime, rcv.deserializeUplink x later airTime f = .ok p) ∧
      ((∃ k, k < rem ∧ (∀ j, j < k → (air (i + j)).kind x key = .other) ∧ (air (i + k)).kind x key ≠ .other ∧
          (sendLoop x p air rem i b).2.2.length = k + 1 ∧ (sendLoop x p air rem i b).1 = ((air (i + k)).kind x key).sendEnd) ∨
        ((∀ j, j < rem → (air (i + j)).kind x key = .other) ∧ (sendLoop x p air rem i b).2.2.length = rem ∧ (sendLoop x p air rem i b).1 = .notAcked)) := by
  intro rem
  induction rem with
  | zero => intro i b hb; exact ⟨hb, (fun f hf => absurd hf List.not_mem_nil), .inr ⟨fun j hj => absurd hj (Nat.not_lt_zero _), rfl, rfl⟩⟩
  | succ rem ih =>
    intro i b hb
    obtain ⟨buf, e1, _, e3, e4⟩ := C35_uplink hx hb (.new) (air i).now p
    have hall : ∀ (rcv : Builder), Reach x key rcv → ∀ later airTime, rcv.deserializeUplink x later airTime buf = .ok p := by
      intro rcv hr later airTime
      obtain ⟨buf', e1', _, _, e4'⟩ := C35_uplink hx hb hr (air i).now p
      rw [e1] at e1'
      injection e1' with e1'
      subst e1'
      exact e4' buf later airTime rfl (by rw [byteErrors_self]; omega)
    have hone : ∀ f ∈ [buf], f.length ≤ maxSize ∧ ∀ (rcv : Builder), Reach x key rcv → ∀ later airTime, rcv.deserializeUplink x later airTime f = .ok p := by
      intro f hm
      rw [List.mem_singleton] at hm
      subst hm
      exact ⟨e3, hall⟩
    have hb' : Reach x key (b.serializeUplink x (air i).now p).2 := .up _ _ hb
    cases hs : b.serializeUplink x (air i).now p with
    | mk o b' =>
      rw [hs] at hb'
      rw [hs] at e1
      simp only at e1 hb'
      subst e1
      unfold sendLoop
      rw [hs]
      simp only
      by_cases ht : (air i).txOk = true
      · simp only [if_pos ht]
        have hk := recvAck_kind hx hb' (hf i) ht
        rw [hk]
        cases hkk : (air i).kind x key with
        | ack st =>
          simp only
          exact ⟨hb', hone, .inl ⟨0, Nat.succ_pos _, (fun j hj => absurd hj (Nat.not_lt_zero _)), by rw [Nat.add_zero, hkk]; simp, rfl, by rw [Nat.add_zero, hkk]; rfl⟩⟩
        | radioError =>
          simp only
          exact ⟨hb', hone, .inl ⟨0, Nat.succ_pos _, (fun j hj => absurd hj (Nat.not_lt_zero _)), by rw [Nat.add_zero, hkk]; simp, rfl, by rw [Nat.add_zero, hkk]; rfl⟩⟩
        | panic =>
          simp only
          exact ⟨hb', hone, .inl ⟨0, Nat.succ_pos _, (fun j hj => absurd hj (Nat.not_lt_zero _)), by rw [Nat.add_zero, hkk]; simp, rfl, by rw [Nat.add_zero, hkk]; rfl⟩⟩
        | other =>
          simp only
          obtain ⟨i1, i2, i3⟩ := ih (i + 1) b' hb'
          refine ⟨i1, ?_, ?_⟩
          · intro f hm
            rcases List.mem_cons.1 hm with hm | hm
            · exact hone f (List.mem_singleton.2 hm)
            · exact i2 f hm
          · rcases i3 with ⟨k, k1, k2, k3, k4, k5⟩ | ⟨k1, k2, k3⟩
            · refine .inl ⟨k + 1, by omega, ?_, ?_, ?_, ?_⟩
              · intro j hj
                cases j with
                | zero => exact hkk
                | succ j => have := k2 j (by omega); rw [← this]; congr 2; omega
              · rw [show i + (k + 1) = i + 1 + k by omega]; exact k3
              · rw [List.length_cons, k4]
              · rw [show i + (k + 1) = i + 1 + k by omega]; exact k5
            · refine .inr ⟨?_, by rw [List.length_cons, k2], k3⟩
              intro j hj
              cases j with
              | zero => exact hkk
              | succ j => have := k1 j (by omega); rw [← this]; congr 2; omega
      · simp only [if_neg ht]
        have hkk : (air i).kind x key = .radioError := by
          unfold Attempt.kind
          rw [if_pos (by cases h : (air i).txOk <;> simp_all)]
        exact ⟨hb', hone, .inl ⟨0, Nat.succ_pos _, (fun j hj => absurd hj (Nat.not_lt_zero _)), by rw [Nat.add_zero, hkk]; simp, rfl, by rw [Nat.add_zero, hkk]; rfl⟩⟩

/-- C38: a command is transmitted at most five times. Every transmission is this command for every receiver with the key. Transmission stops at the
first acknowledgement, radio error or crash: if attempt `k` is the first that is not merely unanswered, there were exactly `k + 1` transmissions and this attempt
decides; if all five are unanswered there were five and the result is failure. -/
theorem C38_transmissions {x : Ext} (hx : x.Laws) {key : Bytes} {b : Builder} (hb : Reach x key b) (p : Uplink) (air : Nat → Attempt) (hf : ∀ i, (air i).rx.Fits) :
    (sendLoop x p air 5 0 b).2.2.length ≤ 5 ∧
    (∀ f ∈ (sendLoop x p air 5 0 b).2.2, ∀ (rcv : Builder), Reach x key rcv → ∀ later airTime, rcv.deserializeUplink x later airTime f = .ok p) ∧
    ((∃ k, k < 5 ∧ (∀ j, j < k → (air j).kind x key = .other) ∧ (air k).kind x key ≠ .other ∧
        (sendLoop x p air 5 0 b).2.2.length = k + 1 ∧ (sendLoop x p air 5 0 b).1 = ((air k).kind x key).sendEnd) ∨
      ((∀ j, j < 5 → (air j).kind x key = .other) ∧ (sendLoop x p air 5 0 b).2.2.length = 5 ∧ (sendLoop x p air 5 0 b).1 = .notAcked)) := by
  obtain ⟨_, h2, h3⟩ := sendLoop_spec hx p air hf 5 0 b hb
  simp only [Nat.zero_add] at h3
  refine ⟨?_, fun f hm => (h2 f hm).2, h3⟩
  rcases h3 with ⟨k, k1, _, _, k4, _⟩ | ⟨_, k2, _⟩ <;> omega

/-- C38: success is reported exactly when an acknowledgement was received: in the first attempt that was not merely unanswered, within the first five -/
theorem C38_success {x : Ext} (hx : x.Laws) {key : Bytes} {b : Builder} (hb : Reach x key b) (p : Uplink) (air : Nat → Attempt) (hf : ∀ i, (air i).rx.Fits) (st : Status) :
    (sendLoop x p air 5 0 b).1 = .acked st ↔
      ∃ k, k < 5 ∧ (∀ j, j < k → (air j).kind x key = .other) ∧ (air k).txOk = true ∧ ∃ buf ts, (air k).rx = .packet buf st ∧ decodeDown x key buf = .ok (.ack ts) := by
  have key_ : ∀ a : Attempt, a.kind x key = .ack st ↔ a.txOk = true ∧ ∃ buf ts, a.rx = .packet buf st ∧ decodeDown x key buf = .ok (.ack ts) := by
    intro a
    unfold Attempt.kind
    cases ht : a.txOk with
    | false => simp
    | true =>
      rw [if_neg (by decide)]
      cases e : a.rx with
      | timeout => simp
      | error => simp
      | packet buf s =>
        simp only
        cases hd : decodeDown x key buf with
        | panic =>
          simp only [reduceCtorEq, true_and, RxRes.packet.injEq, false_iff, not_exists, not_and]
          rintro b' ts ⟨rfl, _⟩ h'
          rw [hd] at h'
          exact absurd h' (by simp)
        | err =>
          simp only [reduceCtorEq, true_and, RxRes.packet.injEq, false_iff, not_exists, not_and]
          rintro b' ts ⟨rfl, _⟩ h'
          rw [hd] at h'
          exact absurd h' (by simp)
        | ok d =>
          cases d with
          | ack ts =>
            simp only [Reply.ack.injEq, true_and, RxRes.packet.injEq]
            constructor
            · rintro rfl; exact ⟨buf, ts, ⟨rfl, rfl⟩, hd⟩
            · rintro ⟨_, _, ⟨_, h⟩, _⟩; exact h
          | telemetry t =>
            simp only [reduceCtorEq, true_and, RxRes.packet.injEq, false_iff, not_exists, not_and]
            rintro b' ts ⟨rfl, _⟩ h'
            rw [hd] at h'
            exact absurd h' (by simp)
  obtain ⟨_, _, h3⟩ := C38_transmissions hx hb p air hf
  constructor
  · intro h
    rcases h3 with ⟨k, k1, k2, k3, _, k5⟩ | ⟨_, _, k3⟩
    · rw [h] at k5
      refine ⟨k, k1, k2, (key_ _).1 ?_⟩
      cases hk : (air k).kind x key with
      | ack s => rw [hk] at k5; simp only [Reply.sendEnd, SendEnd.acked.injEq] at k5; rw [k5]
      | other => exact absurd hk k3
      | radioError => rw [hk] at k5; simp [Reply.sendEnd] at k5
      | panic => rw [hk] at k5; simp [Reply.sendEnd] at k5
    · rw [h] at k3; simp at k3
  · rintro ⟨k, k1, k2, k3⟩
    have hk := (key_ _).2 k3
    rcases h3 with ⟨m, m1, m2, m3, _, m5⟩ | ⟨k1', _, _⟩
    · have : m = k := by
        rcases Nat.lt_trichotomy m k with h | h | h
        · exact absurd (k2 m h) m3
        · exact h
        · have := m2 k h; rw [hk] at this; exact absurd this (by simp)
      subst this
      rw [m5, hk]
      rfl
    · have := k1' k k1
      rw [hk] at this
      exact absurd this (by simp)

/-- C38: failure is reported exactly when five transmissions went unanswered -/
theorem C38_failure {x : Ext} (hx : x.Laws) {key : Bytes} {b : Builder} (hb : Reach x key b) (p : Uplink) (air : Nat → Attempt) (hf : ∀ i, (air i).rx.Fits) :
    (sendLoop x p air 5 0 b).1 = .notAcked ↔ ∀ j, j < 5 → (air j).kind x key = .other := by
  obtain ⟨_, _, h3⟩ := C38_transmissions hx hb p air hf
  constructor
  · intro h
    rcases h3 with ⟨k, k1, k2, k3, _, k5⟩ | ⟨k1, _, _⟩
    · rw [h] at k5
      cases hk : (air k).kind x key with
      | other => exact absurd hk k3
      | ack s => rw [hk] at k5; simp [Reply.sendEnd] at k5
      | radioError => rw [hk] at k5; simp [Reply.sendEnd] at k5
      | panic => rw [hk] at k5; simp [Reply.sendEnd] at k5
    · exact k1
  · intro h
    rcases h3 with ⟨k, k1, k2, k3, _, _⟩ | ⟨_, _, k3⟩
    · exact absurd (h k k1) k3
    · exact k3

/-- C38: nothing is transmitted and no result is signalled unless a command was handed over -/
theorem C38_idle (x : Ext) (g g' : Ground) (w : Pass) (fs : List Bytes) (h : g.tx = none) (e : g.pass x w = (some g', fs)) :
    fs = [] ∧ g'.tx = none ∧ g'.sendSuccess = g.sendSuccess := by
  have key_ : ∀ g1 : Ground, g1.tx = none → Ground.sendPart x g1 w = (some g1, []) := by
    intro g1 h1; unfold Ground.sendPart; rw [h1]
  unfold Ground.pass at e
  cases hr : w.rx with
  | timeout => rw [hr] at e; simp only [key_ g h, Prod.mk.injEq, Option.some.injEq] at e; obtain ⟨rfl, rfl⟩ := e; exact ⟨rfl, h, rfl⟩
  | error => rw [hr] at e; simp only [Prod.mk.injEq, Option.some.injEq] at e; obtain ⟨rfl, rfl⟩ := e; exact ⟨rfl, h, rfl⟩
  | packet buf st =>
    rw [hr] at e
    simp only at e
    cases hd : g.builder.deserializeDownlink x w.now w.airTime buf with
    | panic => rw [hd] at e; simp at e
    | err => rw [hd] at e; simp only [key_ g h, Prod.mk.injEq, Option.some.injEq] at e; obtain ⟨rfl, rfl⟩ := e; exact ⟨rfl, h, rfl⟩
    | ok d =>
      rw [hd] at e
      simp only [key_ { g with rx := some (d, st) } h, Prod.mk.injEq, Option.some.injEq] at e
      obtain ⟨rfl, rfl⟩ := e
      exact ⟨rfl, h, rfl⟩

/-- C38: a command handed over by `send` is transmitted in the next pass whose first reception ends without radio error and crash, and its result is the one the
caller of `send` gets -/
theorem C38_send (x : Ext) (g : Ground) (p : Uplink) (w : Pass) (hw : w.rx = .timeout) :
    ((g.send p).pass x w).2 = (sendLoop x p w.air 5 0 g.builder).2.2 ∧
    (∀ st, (sendLoop x p w.air 5 0 g.builder).1 = .acked st → ∃ g', ((g.send p).pass x w).1 = some g' ∧ g'.tx = none ∧ g'.sendResult.1 = some (some st)) ∧
    ((sendLoop x p w.air 5 0 g.builder).1 = .notAcked → ∃ g', ((g.send p).pass x w).1 = some g' ∧ g'.tx = none ∧ g'.sendResult.1 = some none) := by
  unfold Ground.pass Ground.send Ground.sendPart
  rw [hw]
  simp only
  refine ⟨?_, ?_, ?_⟩
  · cases (sendLoop x p w.air 5 0 g.builder).1 <;> rfl
  · intro st h; rw [h]; exact ⟨_, rfl, rfl, rfl⟩
  · intro h; rw [h]; exact ⟨_, rfl, rfl, rfl⟩

/-- passes of the ground station, one after the other, without a crash -/
inductive Passes (x : Ext) : Ground → Ground → Prop
  | refl (g : Ground) : Passes x g g
  | step {g g' g'' : Ground} {w : Pass} {fs : List Bytes} : Passes x g g' → g'.pass x w = (some g'', fs) → Passes x g g''

/-- C38 (finding): when the radio fails while a command is being sent, the command is dropped, no result is signalled, and the caller of `send` waits for ever: whatever
happens later, no result comes unless another command is handed over -/
theorem C38_radio_error_hangs {x : Ext} (hx : x.Laws) {key : Bytes} (g : Ground) (hb : Reach x key g.builder) (p : Uplink) (w : Pass) (hw : w.rx = .timeout)
    (hn : g.sendSuccess = none) (hf : ∀ i, (w.air i).rx.Fits) (h0 : (w.air 0).txOk = false ∨ (w.air 0).rx = .error) :
    ∃ g', ((g.send p).pass x w).1 = some g' ∧ ∀ g'', Passes x g' g'' → g''.tx = none ∧ g''.sendResult.1 = none := by
  have hk : (w.air 0).kind x key = .radioError := by
    unfold Attempt.kind
    by_cases ht : (w.air 0).txOk = false
    · rw [if_pos ht]
    · rw [if_neg ht]
      rcases h0 with h0 | h0
      · exact absurd h0 ht
      · rw [h0]
  have he : (sendLoop x p w.air 5 0 g.builder).1 = .radioError := by
    obtain ⟨_, _, h3⟩ := C38_transmissions hx hb p w.air hf
    rcases h3 with ⟨k, k1, k2, k3, _, k5⟩ | ⟨k1, _, _⟩
    · cases k with
      | zero => rw [k5, hk]; rfl
      | succ k => have := k2 0 (Nat.succ_pos _); rw [hk] at this; exact absurd this (by simp)
    · have := k1 0 (by decide); rw [hk] at this; exact absurd this (by simp)
  unfold Ground.pass Ground.send Ground.sendPart
  rw [hw]
  simp only [he]
  refine ⟨_, rfl, ?_⟩
  intro g'' hp
  suffices h : ∀ g0 : Ground, Passes x g0 g'' → g0.tx = none → g0.sendSuccess = none → g''.tx = none ∧ g''.sendSuccess = none by
    exact h _ hp rfl hn
  clear hp
  intro g0 hp h1 h2
  induction hp with
  | refl => exact ⟨h1, h2⟩
  | step _ e ih => obtain ⟨i1, i2⟩ := ih; obtain ⟨_, j1, j2⟩ := C38_idle x _ _ _ _ i1 e; exact ⟨j1, j2.trans i2⟩

/-- C38 (finding): an acknowledgement does not say what it acknowledges. Any acknowledgement of the rocket, of any time and for any other command, makes sending
report success -/
theorem C38_any_ack {x : Ext} (hx : x.Laws) {key : Bytes} {snd b : Builder} (hs : Reach x key snd) (hb : Reach x key b) (p : Uplink) (ts : F64) (now : Nat)
    (st : Status) : ∃ buf, (snd.serializeDownlink x now (.ack ts)).1 = .ok buf ∧
      ∀ air : Nat → Attempt, (∀ i, (air i).rx.Fits) → (air 0).txOk = true → (air 0).rx = .packet buf st → (sendLoop x p air 5 0 b).1 = .acked st := by
  obtain ⟨buf, e1, _, e3, e4⟩ := C35_downlink hx hs (.new) now (.ack ts)
  refine ⟨buf, e1, ?_⟩
  intro air hf ht hr
  refine (C38_success hx hb p air hf st).2 ⟨0, by decide, fun j hj => absurd hj (Nat.not_lt_zero _), ht, buf, ts, hr, ?_⟩
  exact e4 buf 0 0 rfl (by rw [byteErrors_self]; omega)

/-- the part of the rocket's loop that receives: a frame of the command `p` is acknowledged and handed to the application -/
theorem listen_ok {x : Ext} (hx : x.Laws) {key : Bytes} {r : Rocket} (hr : Reach x key r.builder) {w : RPass} {frame : Bytes} {st : Status} {p : Uplink}
    (hw : w.rx = .packet frame st) (ha : w.ackOk = true) (hd : ∀ (rcv : Builder), Reach x key rcv → ∀ later airTime, rcv.deserializeUplink x later airTime frame = .ok p) :
    ∃ r' a, r.listen x w = .done r' [a] ∧ r'.rx = some (p, st) ∧ Reach x key r'.builder ∧ a.length ≤ maxSize ∧ decodeDown x key a = .ok (.ack w.ts) ∧
      (∀ t e, p = .lowPowerMode t e → r'.lowPower = e) := by
  obtain ⟨buf, e1, _, e3, e4⟩ := C35_downlink hx hr (.new) w.later (.ack w.ts)
  have hb' : Reach x key (r.builder.serializeDownlink x w.later (.ack w.ts)).2 := .down _ _ hr
  unfold Rocket.listen
  rw [hw]
  simp only [hd r.builder hr]
  cases hs : r.builder.serializeDownlink x w.later (.ack w.ts) with
  | mk o b' =>
    rw [hs] at e1 hb'
    simp only at e1 hb'
    subst e1
    simp only [if_pos ha]
    refine ⟨_, buf, rfl, rfl, hb', e3, e4 buf 0 0 rfl (by rw [byteErrors_self]; omega), ?_⟩
    rintro t e rfl
    rfl

/-- a pass of the rocket that hears the frame of a command -/
theorem pass_ok {x : Ext} (hx : x.Laws) {key : Bytes} {r r' : Rocket} (hr : Reach x key r.builder) {w : RPass} {frame : Bytes} {st : Status} {p : Uplink} {fs : List Bytes}
    (hw : w.rx = .packet frame st) (ht : w.txOk = true) (ha : w.ackOk = true)
    (hd : ∀ (rcv : Builder), Reach x key rcv → ∀ later airTime, rcv.deserializeUplink x later airTime frame = .ok p) (e : r.pass x w = .done r' fs) :
    r'.rx = some (p, st) ∧ Reach x key r'.builder ∧ ∃ fs0 a, fs = fs0 ++ [a] ∧ a.length ≤ maxSize ∧ decodeDown x key a = .ok (.ack w.ts) := by
  unfold Rocket.pass at e
  by_cases hl : r.lowPower = true
  · rw [if_pos hl] at e
    obtain ⟨r1, a, e1, h1, h2, h3, h4, _⟩ := listen_ok hx hr hw ha hd
    rw [e1] at e
    injection e with ea eb
    subst ea; subst eb
    exact ⟨h1, h2, [], a, rfl, h3, h4⟩
  · rw [if_neg hl] at e
    cases hq : r.tx with
    | none => rw [hq] at e; simp at e
    | some q =>
      rw [hq] at e
      simp only at e
      obtain ⟨buf, b1, _, _, _⟩ := C35_downlink hx hr (.new) w.now q
      have hb' : Reach x key (r.builder.serializeDownlink x w.now q).2 := .down _ _ hr
      cases hs : r.builder.serializeDownlink x w.now q with
      | mk o b' =>
        rw [hs] at b1 hb' e
        simp only at b1 hb' e
        subst b1
        simp only [if_pos ht] at e
        obtain ⟨r1, a, e1, h1, h2, h3, h4, _⟩ := listen_ok (r := { r with tx := none, builder := b' }) hx hb' hw ha hd
        rw [e1] at e
        simp only [RStep.done.injEq] at e
        obtain ⟨ea, eb⟩ := e
        subst ea; subst eb
        exact ⟨h1, h2, [buf], a, rfl, h3, h4⟩

/-- C38, both ends over a link that loses packets in both directions. The rocket executes the command once for every transmission it hears, up to five times;
sending reports success exactly when, within five attempts, an answer came back; so success means that the rocket has received this command at least once. -/
theorem C38_lossy_link {x : Ext} (hx : x.Laws) {key : Bytes} {b : Builder} (hb : Reach x key b) (p : Uplink) (air : Nat → Attempt) (rocket after : Nat → Rocket)
    (heard acked : Nat → Bool) (frames : List Bytes) (hfr : (sendLoop x p air 5 0 b).2.2 = frames) (hfit : ∀ i, (air i).rx.Fits) (htx : ∀ i, (air i).txOk = true)
    (hr : ∀ i, Reach x key (rocket i).builder)
    (hl : ∀ i (hi : i < frames.length), LinkStep x frames[i] (rocket i) (after i) (air i).rx (heard i) (acked i)) :
    (∀ i, i < frames.length → heard i = true → ∃ st, (after i).rx = some (p, st)) ∧
    (∀ i, i < frames.length → acked i = true → heard i = true) ∧
    ((∃ st, (sendLoop x p air 5 0 b).1 = .acked st) ↔ ∃ i, i < frames.length ∧ acked i = true) ∧
    ((sendLoop x p air 5 0 b).1 = .notAcked ↔ frames.length = 5 ∧ ∀ i, i < 5 → acked i = false) ∧
    (∀ i, i + 1 < frames.length → acked i = false) := by
  obtain ⟨hlen, hdec, h3⟩ := C38_transmissions hx hb p air hfit
  rw [hfr] at hlen hdec h3
  have hstep : ∀ i (hi : i < frames.length), (heard i = true → ∃ st, (after i).rx = some (p, st)) ∧ (acked i = true → heard i = true) ∧
      (acked i = true → ∃ st, (air i).kind x key = .ack st) ∧ (acked i = false → (air i).kind x key = .other) := by
    intro i hi
    have hd := hdec _ (List.getElem_mem hi)
    have hs := hl i hi
    have h1 := htx i
    unfold Attempt.kind
    rw [if_neg (by rw [h1]; decide)]
    generalize air i = a at hs
    generalize e1 : heard i = h at hs
    generalize e2 : acked i = k at hs
    generalize e3 : a.rx = rx at hs
    cases hs with
    | lost => exact ⟨by simp, by simp, by simp, fun _ => rfl⟩
    | answerLost w st fs g1 g2 g3 g4 =>
      refine ⟨fun _ => ⟨st, (pass_ok hx (hr i) g1 g2 g3 hd g4).1⟩, by simp, by simp, fun _ => rfl⟩
    | answered w st st' fs answer g1 g2 g3 g4 =>
      obtain ⟨q1, q2, fs0, a0, q3, q4, q5⟩ := pass_ok hx (hr i) g1 g2 g3 hd g4
      obtain ⟨_, rfl⟩ := List.append_inj' q3 rfl |>.imp id (fun h => List.singleton_inj.1 h)
      refine ⟨fun _ => ⟨st, q1⟩, by simp, fun _ => ⟨st', ?_⟩, by simp⟩
      simp only [q5]
  refine ⟨fun i hi => (hstep i hi).1, fun i hi => (hstep i hi).2.1, ?_, ?_, ?_⟩
  · rcases h3 with ⟨k, k1, k2, k3, k4, k5⟩ | ⟨k1, k2, k3⟩
    · rw [k5]
      constructor
      · rintro ⟨st, h⟩
        refine ⟨k, by omega, ?_⟩
        cases ha : acked k with
        | true => rfl
        | false => exact absurd ((hstep k (by omega)).2.2.2 ha) k3
      · rintro ⟨i, hi, ha⟩
        obtain ⟨st, hk⟩ := (hstep i hi).2.2.1 ha
        have : i = k := by
          rcases Nat.lt_or_ge i k with h | h
          · have := k2 i h; rw [hk] at this; exact absurd this (by simp)
          · omega
        subst this
        exact ⟨st, by rw [hk]; rfl⟩
    · rw [k3]
      constructor
      · rintro ⟨st, h⟩; simp at h
      · rintro ⟨i, hi, ha⟩
        obtain ⟨st, hk⟩ := (hstep i hi).2.2.1 ha
        have := k1 i (by omega)
        rw [hk] at this
        exact absurd this (by simp)
  · rcases h3 with ⟨k, k1, k2, k3, k4, k5⟩ | ⟨k1, k2, k3⟩
    · rw [k5]
      constructor
      · intro h
        cases hk : (air k).kind x key with
        | other => exact absurd hk k3
        | ack s => rw [hk] at h; simp [Reply.sendEnd] at h
        | radioError => rw [hk] at h; simp [Reply.sendEnd] at h
        | panic => rw [hk] at h; simp [Reply.sendEnd] at h
      · rintro ⟨_, ha⟩
        exact absurd ((hstep k (by omega)).2.2.2 (ha k k1)) k3
    · rw [k3]
      simp only [true_iff]
      refine ⟨k2, ?_⟩
      intro i hi
      cases ha : acked i with
      | false => rfl
      | true =>
        obtain ⟨st, hk⟩ := (hstep i (by omega)).2.2.1 ha
        have := k1 i hi
        rw [hk] at this
        exact absurd this (by simp)
  · intro i hi
    cases ha : acked i with
    | false => rfl
    | true =>
      obtain ⟨st, hk⟩ := (hstep i (by omega)).2.2.1 ha
      rcases h3 with ⟨k, k1, k2, k3, k4, k5⟩ | ⟨k1, k2, k3⟩
      · have := k2 i (by omega); rw [hk] at this; exact absurd this (by simp)
      · have := k1 i (by omega); rw [hk] at this; exact absurd this (by simp)

/-- C38 (finding): the rocket acknowledges a command before it executes it. If transmitting the acknowledgement fails, the command is dropped: the application does not
get it, yet a low power command has changed the mode of the radio -/
theorem C38_ack_error_drops_command {x : Ext} (hx : x.Laws) {key : Bytes} (r : Rocket) (hr : Reach x key r.builder) (w : RPass) (frame : Bytes) (st : Status) (p : Uplink)
    (hl : r.lowPower = true) (hw : w.rx = .packet frame st) (ha : w.ackOk = false)
    (hd : ∀ (rcv : Builder), Reach x key rcv → ∀ later airTime, rcv.deserializeUplink x later airTime frame = .ok p) :
    ∃ r' fs, r.pass x w = .done r' fs ∧ r'.rx = r.rx ∧ ∀ t e, p = .lowPowerMode t e → r'.lowPower = e := by
  unfold Rocket.pass
  rw [if_pos hl]
  unfold Rocket.listen
  rw [hw]
  simp only [hd r.builder hr]
  obtain ⟨buf, e1, _, _, _⟩ := C35_downlink hx hr (.new) w.later (.ack w.ts)
  cases hs : r.builder.serializeDownlink x w.later (.ack w.ts) with
  | mk o b' =>
    rw [hs] at e1
    simp only at e1
    subst e1
    simp only [ha]
    refine ⟨_, _, rfl, rfl, ?_⟩
    rintro t e rfl
    rfl

/-- C38 (finding): outside low power mode the rocket listens only after it has transmitted something: without a telemetry packet it hears no command -/
theorem C38_deaf_without_telemetry (x : Ext) (r : Rocket) (hl : r.lowPower = false) (ht : r.tx = none) (w : RPass) : r.pass x w = .waiting := by
  unfold Rocket.pass
  rw [hl, ht]
  simp

/-- the hypotheses can be met: a code with the required laws, a ground station that has sent before, and a link on which the first two transmissions are lost, the third is
heard but its answer lost, and the fourth answered. The command is received twice, success is reported -/
example : ∃ (x : Ext) (_ : x.Laws) (key : Bytes) (b : Builder) (p : Uplink) (air : Nat → Attempt) (rocket after : Nat → Rocket) (heard acked : Nat → Bool),
    Reach x key b ∧ (∀ i, (air i).rx.Fits) ∧ (∀ i, (air i).txOk = true) ∧ (∀ i, Reach x key (rocket i).builder) ∧
    (∀ i (hi : i < (sendLoop x p air 5 0 b).2.2.length), LinkStep x (sendLoop x p air 5 0 b).2.2[i] (rocket i) (after i) (air i).rx (heard i) (acked i)) ∧
    (sendLoop x p air 5 0 b).2.2.length = 4 ∧ heard 2 = true ∧ acked 2 = false ∧ acked 3 = true := by
  let x := mdsExt fun k n i => (k.getD (i % 32) 0) + (n.getD (i % 8) 0)
  have hx : x.Laws := mds_laws _
  let key : Bytes := List.replicate 32 7
  let p : Uplink := .lowPowerMode 5 true
  let r : Rocket := { Rocket.new x key with lowPower := true }
  have hr : Reach x key r.builder := .new
  obtain ⟨ack, a1, _, a3, a4⟩ := C35_downlink hx hr (.new) 9 (.ack 7)
  have had : decodeDown x key ack = .ok (.ack 7) := a4 ack 0 0 rfl (by rw [byteErrors_self]; omega)
  let air : Nat → Attempt := fun i => ⟨i, true, if i = 3 then .packet ack (-80, 5) else .timeout, i, 0⟩
  have hfit : ∀ i, (air i).rx.Fits := by
    intro i
    show (if i = 3 then RxRes.packet ack (-80, 5) else .timeout).Fits
    by_cases h : i = 3
    · rw [if_pos h]; exact a3
    · rw [if_neg h]; trivial
  have hk : ∀ i, i ≠ 3 → (air i).kind x key = .other := by
    intro i h
    show (⟨i, true, if i = 3 then .packet ack (-80, 5) else .timeout, i, 0⟩ : Attempt).kind x key = .other
    rw [if_neg h]
    rfl
  have hk3 : (air 3).kind x key = .ack (-80, 5) := by
    show (⟨3, true, if 3 = 3 then .packet ack (-80, 5) else .timeout, 3, 0⟩ : Attempt).kind x key = .ack (-80, 5)
    rw [if_pos rfl]
    unfold Attempt.kind
    simp only [had]
    rfl
  have hsp := C38_transmissions hx (Reach.new (x := x) (key := key)) p air hfit
  obtain ⟨_, hdec, h3⟩ := hsp
  have hlen : (sendLoop x p air 5 0 (Builder.new x key)).2.2.length = 4 := by
    rcases h3 with ⟨k, k1, k2, k3, k4, _⟩ | ⟨k1, _, _⟩
    · have : k = 3 := by
        rcases Nat.lt_trichotomy k 3 with h | h | h
        · exact absurd (hk k (by omega)) k3
        · exact h
        · have := k2 3 h; rw [hk3] at this; exact absurd this (by simp)
      omega
    · have := k1 3 (by decide); rw [hk3] at this; exact absurd this (by simp)
  let w : Bytes → RPass := fun f => ⟨0, true, .packet f (-90, 3), 9, 0, 7, true⟩
  have hpass : ∀ f ∈ (sendLoop x p air 5 0 (Builder.new x key)).2.2, ∃ r' : Rocket, r.pass x (w f) = .done r' [ack] := by
    intro f hf
    have : ∀ s, r.pass x s = r.listen x s := by intro s; unfold Rocket.pass; rw [if_pos rfl]
    rw [this]
    unfold Rocket.listen
    simp only [w, hdec f hf r.builder hr]
    cases hs : r.builder.serializeDownlink x 9 (.ack 7) with
    | mk o b' =>
      rw [hs] at a1
      simp only at a1
      subst a1
      simp only [if_true]
      exact ⟨_, rfl⟩
  have getD_elem : ∀ (l : List Bytes) (i : Nat) (h : i < l.length), l.getD i [] = l[i] := by
    intro l i h; rw [List.getD_eq_getElem?_getD, List.getElem?_eq_getElem h]; rfl
  have hmem : ∀ i, i < 4 → (sendLoop x p air 5 0 (Builder.new x key)).2.2.getD i [] ∈ (sendLoop x p air 5 0 (Builder.new x key)).2.2 := by
    intro i hi
    rw [getD_elem _ _ (by rw [hlen]; exact hi)]
    exact List.getElem_mem _
  obtain ⟨r2, e2⟩ := hpass _ (hmem 2 (by decide))
  obtain ⟨r3, e3⟩ := hpass _ (hmem 3 (by decide))
  clear_value key
  have hstep : ∀ i, i < 4 → LinkStep x ((sendLoop x p air 5 0 (Builder.new x key)).2.2.getD i []) r (if i = 2 then r2 else if i = 3 then r3 else r) (air i).rx
      (decide (2 ≤ i)) (decide (i = 3)) := by
    intro i hi
    match i, hi with
    | 0, _ => exact .lost
    | 1, _ => exact .lost
    | 2, _ => exact .answerLost (w _) (-90, 3) [ack] rfl rfl rfl e2
    | 3, _ => exact .answered (w _) (-90, 3) (-80, 5) [] ack rfl rfl rfl e3
  refine ⟨x, hx, key, Builder.new x key, p, air, fun _ => r, fun i => if i = 2 then r2 else if i = 3 then r3 else r, fun i => decide (2 ≤ i), fun i => decide (i = 3),
    .new, hfit, fun _ => rfl, fun _ => hr, ?_, hlen, rfl, rfl, rfl⟩
  intro i hi
  rw [← getD_elem _ _ hi]
  exact hstep i (by rw [hlen] at hi; exact hi)

end Verif.Props
