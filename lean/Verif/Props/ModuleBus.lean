import Verif.Model.ModuleBus

/-!
C55: packages of the module bus. C56: the module's event queue. C57: requests of the master.
-/
namespace Verif.Props
open Verif.ModuleBus

/-! ### C55 -/

theorem unbit_bit (b : Bool) : unbit (bit b) = some b := by cases b <;> rfl

theorem unevent_bytes (e : Option Event) (h : ∀ s n, e = some (.nmea s n) → s.length = 84) : unevent (eventBytes e) = some e := by
  cases e with
  | none => rfl
  | some e => cases e with
    | continuity c ok => cases ok <;> rfl
    | arming a => cases a <;> rfl
    | nmea s n =>
      have hl := h s n rfl
      simp [eventBytes, unevent, List.take_append_of_le_length (Nat.le_of_eq hl.symm), hl, List.getD_eq_getElem?_getD]
      rw [List.take_of_length_le (Nat.le_of_eq hl)]

theorem eventBytes_length (e : Option Event) (h : ∀ s n, e = some (.nmea s n) → s.length = 84) : (eventBytes e).length = 87 := by
  cases e with
  | none => rfl
  | some e => cases e with
    | continuity c ok => rfl
    | arming a => rfl
    | nmea s n => have := h s n rfl; simp [eventBytes, this]

theorem wf_event {n : Byte} {e : Option Event} (h : (Pkg.event n e).Wf) : ∀ s m, e = some (.nmea s m) → s.length = 84 := by
  intro s m he; subst he; exact h

/-- the size of a structure is what the decoder takes it to be -/
theorem payload_size (p : Pkg) (h : p.Wf) : structSize p.id = some p.payload.length := by
  cases p with
  | event n e => simp [Pkg.payload, eventBytes_length e (wf_event h)]; rfl
  | deviceInfo i m => have : i.length = 12 := h; simp [Pkg.payload, this]; rfl
  | _ => rfl

theorem parse_payload (p : Pkg) (h : p.Wf) : parse p.id p.payload = some p := by
  cases p with
  | event n e => simp [Pkg.payload, parse, Pkg.id, unevent_bytes e (wf_event h)]
  | deviceInfo i m =>
    have hl : i.length = 12 := h
    simp [Pkg.payload, parse, Pkg.id, List.take_append_of_le_length (Nat.le_of_eq hl.symm), hl, List.getD_eq_getElem?_getD]
    rw [List.take_of_length_le (Nat.le_of_eq hl)]
  | pyroCtrl c e => cases e <;> rfl
  | continuityInfo e => cases e <;> rfl
  | armingInfo e => cases e <;> rfl
  | cameraCtrl e => cases e <;> rfl
  | _ => rfl

theorem payload_le (p : Pkg) (h : p.Wf) : p.payload.length ≤ 88 := by
  cases p with
  | event n e => simp [Pkg.payload, eventBytes_length e (wf_event h)]
  | deviceInfo i m => have : i.length = 12 := h; simp [Pkg.payload, this]
  | _ => simp [Pkg.payload]

/-- C55: an encoded package decodes to itself, whatever its fields -/
theorem C55_roundtrip (p : Pkg) (h : p.Wf) : decode (encode p) = .ok p := by
  have hle := payload_le p h
  have hn : (BitVec.ofNat 8 p.payload.length).toNat = p.payload.length := by
    rw [BitVec.toNat_ofNat]; exact Nat.mod_eq_of_lt (by omega)
  show decode (BitVec.ofNat 8 p.payload.length :: p.id :: p.payload) = _
  simp only [decode, hn, payload_size p h, decodeStruct]
  simp [parse_payload p h]

/-- C55: an encoded package fits the 128-byte buffers, says how long it is and carries its number -/
theorem C55_frame (p : Pkg) (h : p.Wf) :
    (encode p).length ≤ 90 ∧ ((encode p).getD 0 0).toNat + 2 = (encode p).length ∧ (encode p).getD 1 0 = p.id := by
  have hle := payload_le p h
  refine ⟨by simp [encode]; omega, ?_, rfl⟩
  show (BitVec.ofNat 8 p.payload.length).toNat + 2 = p.payload.length + 2
  rw [BitVec.toNat_ofNat, Nat.mod_eq_of_lt (by omega)]

/-- C55: packages of different kinds have different numbers, and different packages have different encodings -/
theorem C55_distinct (p q : Pkg) : (p.id = q.id → p.ctorIdx = q.ctorIdx) ∧ (p.Wf → q.Wf → encode p = encode q → p = q) := by
  refine ⟨fun h => ?_, fun hp hq h => ?_⟩
  · cases p <;> cases q <;> first | rfl | (simp [Pkg.id] at h)
  · have h1 := C55_roundtrip p hp
    rw [h, C55_roundtrip q hq] at h1
    injection h1 with h1
    exact h1.symm

/-- the package numbers 0 to 10 -/
theorem sizeOf_none (id : Byte) : structSize id = none ↔ 10 < id.toNat := by
  unfold structSize
  have : ∀ n : Nat, (match n with
    | 0 => some 0 | 1 => some 2 | 2 => some 0 | 3 => some 13 | 4 => some 0 | 5 => some 88
    | 6 => some 1 | 7 => some 1 | 8 => some 0 | 9 => some 1 | 10 => some 1 | _ => none : Option Nat) = none ↔ 10 < n := by
    intro n
    match n with
    | 0 | 1 | 2 | 3 | 4 | 5 | 6 | 7 | 8 | 9 | 10 => simp
    | n + 11 => simp
  exact this _

/-- C55: the errors: a buffer is refused for its length exactly if its first byte does not say how many bytes follow the number … -/
theorem C55_length_error (l : List Byte) : decode l = .lengthDoesNotMatch ↔ l = [] ∨ l.length ≠ (l.getD 0 0).toNat + 2 := by
  match l with
  | [] => simp [decode]
  | [a] => simp [decode]
  | a :: id :: p =>
    by_cases hl : p.length + 2 = a.toNat + 2
    · have hne : decode (a :: id :: p) ≠ .lengthDoesNotMatch := by
        simp only [decode, hl, ne_eq, not_true_eq_false, if_false]
        cases structSize id with
        | none => simp
        | some n =>
          simp only [decodeStruct]
          by_cases h2 : p.length < n
          · rw [if_pos h2]; simp
          · rw [if_neg h2]; cases parse id (p.drop (p.length - n)) <;> simp
      simp [hne]; omega
    · simp only [decode, ne_eq, hl, not_false_eq_true, if_true]; simp; omega

/-- … and for its number exactly if the length is right and the number is above 10 -/
theorem C55_unknown (l : List Byte) :
    decode l = .unknownPackageId ↔ 2 ≤ l.length ∧ l.length = (l.getD 0 0).toNat + 2 ∧ 10 < (l.getD 1 0).toNat := by
  match l with
  | [] => simp [decode]
  | [a] => simp [decode]
  | a :: id :: p =>
    by_cases hl : p.length + 2 = a.toNat + 2
    · simp only [decode, hl, ne_eq, not_true_eq_false, if_false]
      cases hs : structSize id with
      | none =>
        have := (sizeOf_none id).1 hs
        simp; omega
      | some n =>
        have hid : ¬ 10 < id.toNat := fun h => by rw [(sizeOf_none id).2 h] at hs; cases hs
        have : decodeStruct id n p ≠ .unknownPackageId := by
          simp only [decodeStruct]
          by_cases h2 : p.length < n
          · rw [if_pos h2]; simp
          · rw [if_neg h2]; cases parse id (p.drop (p.length - n)) <;> simp
        simp [this]; omega
    · simp only [decode, ne_eq, hl, not_false_eq_true, if_true]; simp; omega

/-- C55: the third error is never returned -/
theorem C55_no_structure_error (l : List Byte) : decode l ≠ .structureDoesNotMatch := by
  match l with
  | [] => simp [decode]
  | [a] => simp [decode]
  | a :: id :: p =>
    simp only [decode]
    by_cases hl : p.length + 2 ≠ a.toNat + 2
    · rw [if_pos hl]; simp
    · rw [if_neg hl]
      cases structSize id with
      | none => simp
      | some n =>
        simp only [decodeStruct]
        by_cases h2 : p.length < n
        · rw [if_pos h2]; simp
        · rw [if_neg h2]; cases parse id (p.drop (p.length - n)) <;> simp

/-- C55, finding: the decoder does not check the payload: one that is shorter than the structure of its number is undefined behaviour, for every number that has fields … -/
theorem C55_short_payload_undefined (id : Byte) (payload : List Byte) (n : Nat) (hn : structSize id = some n) (hs : payload.length < n) :
    decode (BitVec.ofNat 8 payload.length :: id :: payload) = .undefinedBehaviour := by
  have : n ≤ 88 := by
    revert hn; unfold structSize; split <;> intro h <;> first | (cases h; done) | (injection h with h; omega)
  have h1 : (BitVec.ofNat 8 payload.length).toNat = payload.length := by
    rw [BitVec.toNat_ofNat]; exact Nat.mod_eq_of_lt (by omega)
  simp [decode, hn, h1, decodeStruct, hs]

/-- … and so is a boolean that is neither 0 nor 1 -/
theorem C55_bad_bool_undefined (c b : Byte) (h : 1 < b.toNat) : decode [2#8, 1#8, c, b] = .undefinedBehaviour := by
  have h0 : ¬ b = 0#8 := by intro hb; subst hb; simp at h
  have h1 : ¬ b = 1#8 := by intro hb; subst hb; simp at h
  simp [decode, structSize, decodeStruct, parse, unbit, h0, h1]

/-- C55, finding: there is no checksum: whatever the line does to the channel byte of a pyro command, the module takes it for a command to that channel -/
theorem C55_corrupted_channel_accepted (c c' : Byte) (e : Bool) :
    encode (.pyroCtrl c e) = [2#8, 1#8, c, bit e] ∧ decode [2#8, 1#8, c', bit e] = .ok (.pyroCtrl c' e) :=
  ⟨rfl, C55_roundtrip (.pyroCtrl c' e) trivial⟩

/-- case: a sentence of 84 bytes, an event that is not there, a device -/
example : decode (encode (.event 3#8 (some (.nmea (List.replicate 84 0x24#8) 84#8)))) = .ok (.event 3#8 (some (.nmea (List.replicate 84 0x24#8) 84#8))) :=
  C55_roundtrip _ (by simp [Pkg.Wf])
example : (encode (.event 0#8 none)).length = 90 := rfl
example : decode [13#8, 3#8] = .lengthDoesNotMatch ∧ decode [0#8, 11#8] = .unknownPackageId ∧ decode [0#8, 1#8] = .undefinedBehaviour := by decide

/-! ### C56 -/

/-- what happens to the event queue -/
inductive QOp
  | push (e : Event)
  | poll
  deriving DecidableEq

/-- the queue and the answers to the polls -/
def qstep (s : List Event × List Pkg) : QOp → List Event × List Pkg
  | .push e => (push s.1 e, s.2)
  | .poll => ((poll s.1).1, s.2 ++ [(poll s.1).2])

/-- a history of a module's event queue, from the start -/
def qrun (h : List QOp) : List Event × List Pkg := h.foldl qstep ([], [])

/-- the events pushed, in order -/
def pushed (h : List QOp) : List Event := h.filterMap fun o => match o with
  | .push e => some e
  | .poll => none

/-- the event in an answer -/
def eventOf : Pkg → Option Event
  | .event _ e => e
  | _ => none

/-- the events delivered, in order -/
def delivered (l : List Pkg) : List Event := l.filterMap eventOf

theorem qrun_snoc (h : List QOp) (o : QOp) : qrun (h ++ [o]) = qstep (qrun h) o := by simp [qrun]
theorem pushed_snoc (h : List QOp) (o : QOp) : pushed (h ++ [o]) = pushed h ++ pushed [o] := by simp [pushed, List.filterMap_append]

theorem push_length (q : List Event) (e : Event) (h : q.length ≤ 5) : (push q e).length ≤ 5 := by
  unfold push; split <;> simp <;> omega

theorem poll_length (q : List Event) : (poll q).1.length ≤ q.length := by cases q <;> simp [poll]

theorem qrun_ind {P : List QOp → Prop} (h0 : P []) (hs : ∀ h o, P h → P (h ++ [o])) (h : List QOp) : P h := by
  have : ∀ l : List QOp, P l.reverse := by
    intro l; induction l with
    | nil => exact h0
    | cons a l ih => rw [List.reverse_cons]; exact hs _ _ ih
  simpa using this h.reverse

theorem queue_le (h : List QOp) : (qrun h).1.length ≤ 5 := by
  refine qrun_ind (P := fun h => (qrun h).1.length ≤ 5) (by simp [qrun]) (fun h o ih => ?_) h
  rw [qrun_snoc]
  cases o with
  | push e => exact push_length _ _ ih
  | poll => exact Nat.le_trans (poll_length _) ih

/-- C56: events are delivered in the order they were pushed, each at most once, and none that was not pushed: after any history, what was delivered and then what is still queued is a subsequence of what was pushed -/
theorem C56_in_order (h : List QOp) : (delivered (qrun h).2 ++ (qrun h).1).Sublist (pushed h) := by
  refine qrun_ind (P := fun h => (delivered (qrun h).2 ++ (qrun h).1).Sublist (pushed h)) (by simp [qrun, pushed, delivered]) (fun h o ih => ?_) h
  rw [qrun_snoc, pushed_snoc]
  cases o with
  | push e =>
    have hp : pushed [QOp.push e] = [e] := rfl
    rw [hp]
    show (delivered (qrun h).2 ++ push (qrun h).1 e).Sublist _
    unfold push
    rw [← List.append_assoc]
    refine List.Sublist.append ?_ (List.Sublist.refl _)
    split
    · exact List.Sublist.trans (List.Sublist.append (List.Sublist.refl _) (List.drop_sublist 1 _)) ih
    · exact ih
  | poll =>
    have hp : pushed [QOp.poll] = [] := rfl
    rw [hp, List.append_nil]
    show (delivered ((qrun h).2 ++ [(poll (qrun h).1).2]) ++ (poll (qrun h).1).1).Sublist _
    cases hq : (qrun h).1 with
    | nil =>
      have hz : List.filterMap eventOf [Pkg.event 0#8 none] = [] := rfl
      rw [hq] at ih; simpa [poll, delivered, List.filterMap_append, hz] using ih
    | cons e q => rw [hq] at ih; simpa [poll, delivered, List.filterMap_append, eventOf] using ih

/-- C56: nothing is lost as long as at most five events wait: a push with fewer than five waiting keeps them all; with five waiting exactly the oldest goes, never the newest -/
theorem C56_push (h : List QOp) (e : Event) :
    ((qrun h).1.length < 5 → (qrun (h ++ [.push e])).1 = (qrun h).1 ++ [e])
    ∧ ((qrun h).1.length = 5 → (qrun (h ++ [.push e])).1 = (qrun h).1.tail ++ [e]) := by
  rw [qrun_snoc]
  constructor
  · intro hl; show push _ _ = _; unfold push; rw [if_neg (by omega)]
  · intro hl; show push _ _ = _; unfold push; rw [if_pos hl, List.drop_one]

/-- if every prefix of the history leaves fewer than five waiting at each push, everything pushed is delivered or still waiting -/
theorem C56_nothing_lost (h : List QOp) (hroom : ∀ a e b, h = a ++ .push e :: b → (qrun a).1.length < 5) :
    delivered (qrun h).2 ++ (qrun h).1 = pushed h := by
  revert hroom
  refine qrun_ind (P := fun h => (∀ a e b, h = a ++ .push e :: b → (qrun a).1.length < 5) → delivered (qrun h).2 ++ (qrun h).1 = pushed h)
    (fun _ => by simp [qrun, pushed, delivered]) (fun h o ih hroom => ?_) h
  have ih := ih (fun a e b hab => hroom a e (b ++ [o]) (by rw [hab]; simp))
  rw [qrun_snoc, pushed_snoc]
  cases o with
  | push e =>
    have hl := hroom h e [] rfl
    have hp : pushed [QOp.push e] = [e] := rfl
    show delivered (qrun h).2 ++ push (qrun h).1 e = _
    unfold push
    rw [if_neg (by omega), ← List.append_assoc, ih, hp]
  | poll =>
    have hp : pushed [QOp.poll] = [] := rfl
    rw [hp, List.append_nil]
    show delivered ((qrun h).2 ++ [(poll (qrun h).1).2]) ++ (poll (qrun h).1).1 = _
    cases hq : (qrun h).1 with
    | nil =>
      have hz : List.filterMap eventOf [Pkg.event 0#8 none] = [] := rfl
      rw [hq] at ih; simpa [poll, delivered, List.filterMap_append, hz] using ih
    | cons e q => rw [hq] at ih; simpa [poll, delivered, List.filterMap_append, eventOf] using ih

/-- `k` polls in a row -/
def polls (k : Nat) : List QOp := List.replicate k .poll

theorem poll_qrun (h : List QOp) : qrun (h ++ [.poll]) = ((poll (qrun h).1).1, (qrun h).2 ++ [(poll (qrun h).1).2]) := by rw [qrun_snoc]; rfl

/-- the answers of `k` further polls: first the waiting events in order, then answers without an event -/
theorem polls_answers (h : List QOp) (k : Nat) :
    (qrun (h ++ polls k)).1 = (qrun h).1.drop k ∧
    ∃ as, (qrun (h ++ polls k)).2 = (qrun h).2 ++ as ∧ as.length = k
      ∧ as.map eventOf = (List.range k).map fun i => (qrun h).1[i]? := by
  induction k with
  | zero => exact ⟨by simp [polls], [], by simp [polls], rfl, rfl⟩
  | succ k ih =>
    obtain ⟨h1, as, h2, h3, h4⟩ := ih
    have hp : h ++ polls (k + 1) = (h ++ polls k) ++ [.poll] := by simp [polls, List.replicate_succ']
    rw [hp, poll_qrun, h1, h2]
    have hev : eventOf (poll ((qrun h).1.drop k)).2 = (qrun h).1[k]? := by
      rw [← List.head?_drop]
      cases (qrun h).1.drop k <;> rfl
    refine ⟨?_, as ++ [(poll ((qrun h).1.drop k)).2], by simp, by simp [h3], ?_⟩
    · rw [← List.drop_drop]
      cases (qrun h).1.drop k <;> simp [poll]
    · rw [List.map_append, h4, List.range_succ, List.map_append]; simp [hev]

/-- C56: the number in the answer is right: if a poll's answer says `n`, then of any number of polls right after it exactly the first `n` bring an event; an answer without an event says 0 -/
theorem C56_events_left (h : List QOp) (n : Byte) (e : Option Event) (ha : (poll (qrun h).1).2 = .event n e) (k : Nat) :
    (e = none → n = 0#8) ∧ ∃ as, (qrun (h ++ [.poll] ++ polls k)).2 = (qrun (h ++ [.poll])).2 ++ as ∧ as.length = k
      ∧ ∀ i, i < k → (((as.map eventOf).getD i none).isSome ↔ i < n.toNat) := by
  obtain ⟨_, as, h2, h3, h4⟩ := polls_answers (h ++ [.poll]) k
  have hle := queue_le h
  have hn : n.toNat = (qrun (h ++ [.poll])).1.length ∧ (e = none → n = 0#8) := by
    rw [poll_qrun]
    cases hq : (qrun h).1 with
    | nil => rw [hq] at ha; simp [poll] at ha; simp [poll, ← ha.1]
    | cons a q =>
      rw [hq] at ha hle
      simp [poll] at ha
      refine ⟨?_, fun he => by rw [he] at ha; simp at ha⟩
      simp at hle
      simp [poll, ← ha.1]
      omega
  refine ⟨hn.2, as, h2, h3, fun i hi => ?_⟩
  rw [h4, hn.1]
  simp [List.getD_eq_getElem?_getD, hi]

/-- C56: the newest five events survive any burst: after pushing any events in a row, exactly the last five of the waiting ones and the new ones wait -/
theorem C56_last_five (h : List QOp) (es : List Event) :
    (qrun (h ++ es.map .push)).1 = ((qrun h).1 ++ es).drop (((qrun h).1 ++ es).length - 5) := by
  have : ∀ (l : List Event), (qrun (h ++ l.reverse.map .push)).1 = ((qrun h).1 ++ l.reverse).drop (((qrun h).1 ++ l.reverse).length - 5) := by
    intro l
    induction l with
    | nil =>
      have := queue_le h
      simp [Nat.sub_eq_zero_of_le this]
    | cons e l ih =>
      rw [List.reverse_cons, List.map_append, ← List.append_assoc]
      show (qrun ((h ++ l.reverse.map .push) ++ [.push e])).1 = _
      rw [qrun_snoc]
      show push _ _ = _
      rw [ih]
      generalize hx : (qrun h).1 ++ l.reverse = x
      rw [← List.append_assoc, hx]
      unfold push
      by_cases h5 : x.length < 5
      · have e0 : x.length - 5 = 0 := by omega
        rw [e0, List.drop_zero, if_neg (by omega)]
        have e1 : (x ++ [e]).length - 5 = 0 := by simp; omega
        rw [e1, List.drop_zero]
      · have : (x.drop (x.length - 5)).length = 5 := by rw [List.length_drop]; omega
        rw [if_pos this, List.drop_drop]
        have e1 : (x ++ [e]).length - 5 = x.length - 5 + 1 := by simp; omega
        rw [e1, List.drop_append_of_le_length (by omega)]
  simpa using this es.reverse

/-- case: six pushes, the oldest is dropped; the poll says four are left -/
example : (qrun ((List.range 6).map (fun i => .push (.continuity (BitVec.ofNat 8 i) true)) ++ [.poll])).2 = [.event 4#8 (some (.continuity 1#8 true))] := by decide
example : (qrun [.push (.arming true), .push (.arming false), .poll, .poll, .poll]).2
    = [.event 1#8 (some (.arming true)), .event 0#8 (some (.arming false)), .event 0#8 none] := by decide

end Verif.Props
