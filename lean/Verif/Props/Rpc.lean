import Verif.Model.Rpc
/-
C54: RPC framing. C80: the checksum of requests. C81: answers belong to their calls.
-/
namespace Verif.Props

open Verif Rpc

/-- Spec: no command has the number 255 -/
def Api.Proper {σ : Type} (api : Api σ) : Prop := api.size 255#8 = none

/-- a request whose payload has the size of its command -/
def Fits {σ : Type} (api : Api σ) (id : Byte) (payload : List Byte) : Prop := api.size id = some payload.length

theorem getD_snoc (l : List Byte) (c : Byte) : (l ++ [c]).getD l.length 0 = c := by
  simp [List.getD_eq_getElem?_getD]

theorem feeds_one {σ : Type} (api : Api σ) (s : Server σ) (b : Byte) : s.feeds api [b] = s.feed api b := rfl

theorem feeds_cons {σ : Type} (api : Api σ) (s : Server σ) (b : Byte) (l : List Byte) : s.feeds api (b :: l) = (s.feed api b).feeds api l := rfl

theorem feed_request {σ : Type} (api : Api σ) (s : Server σ) (id : Byte) (n : Nat) (got l : List Byte) (h : s.pos = .request id n got) (hl : got.length + l.length < n + 1) :
    s.feeds api l = { s with pos := .request id n (got ++ l) } := by
  induction l generalizing s got with
  | nil =>
    rw [List.append_nil, ← h]
    rfl
  | cons b l ih =>
    have hb : s.feed api b = { s with pos := .request id n (got ++ [b]) } := by
      unfold Server.feed
      rw [h]
      simp only
      rw [if_neg]
      simp only [List.length_append, List.length_cons, List.length_nil] at hl ⊢
      omega
    show (s.feed api b).feeds api l = _
    rw [hb, ih _ (got ++ [b]) rfl (by simp only [List.length_append, List.length_cons, List.length_nil] at hl ⊢; omega)]
    simp

theorem feeds_append {σ : Type} (api : Api σ) (s : Server σ) (l m : List Byte) : s.feeds api (l ++ m) = (s.feeds api l).feeds api m := List.foldl_append

/-- a whole request, right or wrong -/
theorem feed_frame {σ : Type} (api : Api σ) (s : Server σ) (h : s.pos = .command) (id : Byte) (payload : List Byte) (c : Byte) (hf : Fits api id payload) :
    s.feeds api (id :: payload ++ [c]) = s.complete api id payload.length (payload ++ [c]) := by
  have h1 : s.feed api id = { s with pos := .request id payload.length [] } := by
    unfold Server.feed
    rw [h]
    simp only
    rw [hf]
  show (s.feed api id).feeds api (payload ++ [c]) = _
  rw [h1, feeds_append, feed_request api _ id payload.length [] payload rfl (by simp)]
  rw [feeds_one]
  unfold Server.feed
  simp only [List.nil_append]
  rw [if_pos (by simp)]
  rfl

/-- C54: at a command boundary the server handles a request of the client, with the bytes sent, answers with the response and its checksum, and is at a command boundary again -/
theorem C54_served {σ : Type} (api : Api σ) (s : Server σ) (h : s.pos = .command) (id : Byte) (payload : List Byte) (hf : Fits api id payload) :
    s.feeds api (request id payload) = { pos := .command, app := (api.handler s.app id payload).1, ran := s.ran ++ [(id, payload)], out := s.out ++ (api.handler s.app id payload).2 ++ [crc8 (api.handler s.app id payload).2] } := by
  unfold request
  rw [feed_frame api s h id payload _ hf]
  unfold Server.complete
  rw [List.take_left' rfl, getD_snoc]
  simp

/-- Spec: the parts a stream of bytes falls into -/
inductive Part
  /-- a request with a matching checksum -/
  | good (id : Byte) (payload : List Byte)
  /-- a request with another checksum -/
  | bad (id : Byte) (payload : List Byte) (c : Byte)
  /-- a byte that is no command -/
  | other (b : Byte)
  deriving DecidableEq

/-- Spec: the bytes of a part -/
def Part.bytes : Part → List Byte
  | .good id payload => request id payload
  | .bad id payload c => id :: payload ++ [c]
  | .other b => [b]

/-- Spec: the part is what it says -/
def Part.Ok {σ : Type} (api : Api σ) : Part → Prop
  | .good id payload => Fits api id payload
  | .bad id payload c => Fits api id payload ∧ c ≠ crc8 (id :: payload)
  | .other b => api.size b = none

/-- Spec: the request of a part, if it is to be handled -/
def Part.request? : Part → Option (Byte × List Byte)
  | .good id payload => some (id, payload)
  | _ => none

/-- the bytes of an unfinished request -/
def Pos.bytes : Pos → List Byte
  | .command => []
  | .request id _ got => id :: got

theorem feed_part {σ : Type} (api : Api σ) (s : Server σ) (h : s.pos = .command) (p : Part) (hp : p.Ok api) :
    (s.feeds api p.bytes).pos = .command ∧ (s.feeds api p.bytes).ran = s.ran ++ p.request?.toList := by
  cases p with
  | good id payload =>
    rw [Part.bytes, C54_served api s h id payload hp]
    exact ⟨rfl, rfl⟩
  | bad id payload c =>
    rw [Part.bytes, feed_frame api s h id payload c hp.1]
    unfold Server.complete
    rw [List.take_left' rfl, getD_snoc]
    rw [if_pos (by simpa using hp.2.symm)]
    simp [Part.request?]
  | other b =>
    show (s.feed api b).pos = _ ∧ (s.feed api b).ran = _
    unfold Server.feed
    rw [h]
    simp only
    rw [show api.size b = none from hp]
    simp only
    split
    · exact ⟨rfl, by simp [Part.request?]⟩
    · exact ⟨h, by simp [Part.request?]⟩

/-- C54: every stream of bytes falls, in one way, into requests with matching checksums, requests with others, and bytes that are no command, followed by an unfinished request; the server
handles exactly the former, in order, with the bytes of the stream -/
theorem C54_only_valid {σ : Type} (api : Api σ) (app : σ) (l : List Byte) :
    ∃ ps : List Part, (∀ p ∈ ps, p.Ok api) ∧ l = ps.flatMap Part.bytes ++ Pos.bytes ((Server.new app).feeds api l).pos ∧
      ((Server.new app).feeds api l).ran = ps.filterMap Part.request? ∧
      ∀ id n got, ((Server.new app).feeds api l).pos = .request id n got → api.size id = some n ∧ got.length ≤ n := by
  have key : ∀ l : List Byte, ∃ ps : List Part, (∀ p ∈ ps, p.Ok api) ∧ l.reverse = ps.flatMap Part.bytes ++ Pos.bytes ((Server.new app).feeds api l.reverse).pos ∧
      ((Server.new app).feeds api l.reverse).ran = ps.filterMap Part.request? ∧
      ∀ id n got, ((Server.new app).feeds api l.reverse).pos = .request id n got → api.size id = some n ∧ got.length ≤ n := by
    intro l
    induction l with
    | nil => exact ⟨[], by simp, rfl, rfl, fun _ _ _ h => by cases h⟩
    | cons b l ih =>
      obtain ⟨ps, h1, h2, h3, h4⟩ := ih
      rw [List.reverse_cons, feeds_append]
      show ∃ ps : List Part, (∀ p ∈ ps, p.Ok api) ∧ l.reverse ++ [b] = ps.flatMap Part.bytes ++ Pos.bytes (((Server.new app).feeds api l.reverse).feed api b).pos ∧
        (((Server.new app).feeds api l.reverse).feed api b).ran = ps.filterMap Part.request? ∧
        ∀ id n got, (((Server.new app).feeds api l.reverse).feed api b).pos = .request id n got → api.size id = some n ∧ got.length ≤ n
      revert h2 h3 h4
      generalize (Server.new app).feeds api l.reverse = s
      intro h2 h3 h4
      unfold Server.feed
      cases hp : s.pos with
      | command =>
        rw [hp] at h2
        simp only
        cases hs : api.size b with
        | some n =>
          refine ⟨ps, h1, by rw [h2]; simp [Pos.bytes], h3, ?_⟩
          intro id m got h
          injection h with e1 e2 e3
          subst e1 e2 e3
          exact ⟨hs, by simp⟩
        | none =>
          refine ⟨ps ++ [.other b], ?_, ?_, ?_, ?_⟩
          · intro p hm
            rcases List.mem_append.1 hm with hm | hm
            · exact h1 p hm
            · rw [List.mem_singleton] at hm
              subst hm
              exact hs
          · simp only
            split <;> simp [h2, hp, Pos.bytes, Part.bytes]
          · simp only
            split <;> simp [h3, Part.request?]
          · simp only
            split <;> (intro id m got h; simp [hp] at h)
      | request id n got =>
        obtain ⟨h5, h6⟩ := h4 id n got hp
        rw [hp] at h2
        simp only
        by_cases hl : (got ++ [b]).length = n + 1
        · rw [if_pos hl]
          have hgl : got.length = n := by simpa using hl
          subst hgl
          have ht : (got ++ [b]).take got.length = got := List.take_left' rfl
          have hd : (got ++ [b]).getD got.length 0 = b := by rw [getD_snoc]
          unfold Server.complete
          rw [ht, hd]
          by_cases hc : crc8 (id :: got) ≠ b
          · rw [if_pos hc]
            refine ⟨ps ++ [.bad id got b], ?_, ?_, ?_, ?_⟩
            · intro p hm
              rcases List.mem_append.1 hm with hm | hm
              · exact h1 p hm
              · rw [List.mem_singleton] at hm
                subst hm
                exact ⟨h5, hc.symm⟩
            · simp [h2, Pos.bytes, Part.bytes]
            · simp [h3, Part.request?]
            · intro id m got h; cases h
          · rw [if_neg hc]
            have hc' : crc8 (id :: got) = b := by simpa using hc
            refine ⟨ps ++ [.good id got], ?_, ?_, ?_, ?_⟩
            · intro p hm
              rcases List.mem_append.1 hm with hm | hm
              · exact h1 p hm
              · rw [List.mem_singleton] at hm
                subst hm
                exact h5
            · simp [h2, Pos.bytes, Part.bytes, request, hc']
            · simp [h3, Part.request?]
            · intro id m got h; cases h
        · rw [if_neg hl]
          refine ⟨ps, h1, by simp [h2, Pos.bytes], h3, ?_⟩
          intro id' m got' h
          injection h with e1 e2 e3
          subst e1 e2 e3
          refine ⟨h5, ?_⟩
          simp only [List.length_append, List.length_cons, List.length_nil] at hl ⊢
          omega
  have := key l.reverse
  rwa [List.reverse_reverse] at this

theorem feeds_255 {σ : Type} (api : Api σ) (hp : Api.Proper api) (s : Server σ) (h : s.pos = .command) (k : Nat) : (s.feeds api (List.replicate k 255#8)).pos = .command := by
  induction k generalizing s with
  | zero => exact h
  | succ k ih =>
    rw [List.replicate_succ]
    show ((s.feed api 255#8).feeds api _).pos = _
    refine ih _ ?_
    unfold Server.feed
    rw [h]
    simp only
    rw [show api.size 255#8 = none from hp]
    rfl

theorem complete_pos {σ : Type} (api : Api σ) (s : Server σ) (id : Byte) (n : Nat) (got : List Byte) : (s.complete api id n got).pos = .command := by
  unfold Server.complete
  split <;> rfl

/-- at any point, any bytes that are enough to finish the request being read lead to a boundary -/
theorem finish_request {σ : Type} (api : Api σ) (s : Server σ) (id : Byte) (n : Nat) (got l : List Byte) (h : s.pos = .request id n got) (hg : got.length ≤ n) (hl : l.length = n + 1 - got.length) :
    (s.feeds api l).pos = .command := by
  obtain ⟨m, b, rfl⟩ : ∃ m b, l = m ++ [b] := by
    refine ⟨l.dropLast, l.getLast (by intro e; rw [e] at hl; simp at hl; omega), (List.dropLast_concat_getLast _).symm⟩
  rw [List.length_append, List.length_singleton] at hl
  rw [feeds_append, feed_request api s id n got m h (by omega)]
  rw [feeds_one]
  unfold Server.feed
  simp only
  rw [if_pos (by simp only [List.length_append, List.length_singleton]; omega)]
  exact complete_pos api _ id n _

/-- C54: whatever the server has received before, after the bytes with which the client begins its reset the server is at a command boundary (`max` is at least the largest request size) -/
theorem C54_resync {σ : Type} (api : Api σ) (hp : Api.Proper api) (app : σ) (l : List Byte) (max : Nat) (hm : ∀ id n, api.size id = some n → n ≤ max) :
    ((Server.new app).feeds api (l ++ flush max)).pos = .command := by
  obtain ⟨ps, _, _, _, h4⟩ := C54_only_valid api app l
  rw [feeds_append]
  cases h : ((Server.new app).feeds api l).pos with
  | command => exact feeds_255 api hp _ h _
  | request id n got =>
    obtain ⟨h5, h6⟩ := h4 id n got h
    have hle := hm id n h5
    unfold flush
    rw [show max + 1 = (n + 1 - got.length) + (max - n + got.length) by omega, ← List.replicate_append_replicate, feeds_append]
    exact feeds_255 api hp _ (finish_request api _ id n got _ h h6 (by simp)) _

/-- C54: the reset succeeds whatever the server has received before and whatever is still on its way to the client; afterwards the server is at a command boundary and nothing is on its way -/
theorem C54_reset {σ : Type} (api : Api σ) (hp : Api.Proper api) (app : σ) (l : List Byte) (rx : List Byte) (max : Nat) (hm : ∀ id n, api.size id = some n → n ≤ max) :
    (Link.reset api ⟨(Server.new app).feeds api l, rx⟩ max).2 = true ∧ (Link.reset api ⟨(Server.new app).feeds api l, rx⟩ max).1.server.pos = .command ∧
    (Link.reset api ⟨(Server.new app).feeds api l, rx⟩ max).1.server.out = [] ∧ (Link.reset api ⟨(Server.new app).feeds api l, rx⟩ max).1.rx = [] := by
  have h := C54_resync api hp app l max hm
  rw [feeds_append] at h
  unfold Link.reset Link.deliver
  simp only
  generalize ((Server.new app).feeds api l).feeds api (flush max) = s at h
  have hf : Server.feeds api { s with out := [] } [255#8] = { s with out := [255#8, 0x69#8] } := by
    show Server.feed api { s with out := [] } 255#8 = _
    unfold Server.feed
    simp only [h]
    rw [show api.size 255#8 = none from hp]
    rfl
  rw [hf]
  exact ⟨rfl, h, trivial, rfl⟩

/-- C54: so the first call after a reset that is answered in time returns the response of the handler to exactly this request -/
theorem C54_call {σ : Type} (api : Api σ) (k : Link σ) (hs : k.server.pos = .command) (ho : k.server.out = []) (hr : k.rx = []) (id : Byte) (payload : List Byte) (hf : Fits api id payload) (size : Nat)
    (hz : (api.handler k.server.app id payload).2.length = size) :
    (k.call api id payload size true).2 = .ok (api.handler k.server.app id payload).2 ∧ (k.call api id payload size true).1.server.pos = .command ∧
    (k.call api id payload size true).1.server.app = (api.handler k.server.app id payload).1 ∧ (k.call api id payload size true).1.server.out = [] ∧ (k.call api id payload size true).1.rx = [] := by
  unfold Link.call Link.deliver
  simp only
  rw [C54_served api k.server hs id payload hf, ho, hr]
  subst hz
  simp only [List.nil_append, List.length_append, List.length_singleton]
  rw [if_pos (.inr ⟨trivial, Nat.le_refl _⟩)]
  have ht : ((api.handler k.server.app id payload).2 ++ [crc8 (api.handler k.server.app id payload).2]).take ((api.handler k.server.app id payload).2.length + 1) =
      (api.handler k.server.app id payload).2 ++ [crc8 (api.handler k.server.app id payload).2] := List.take_of_length_le (by simp)
  refine ⟨?_, rfl, rfl, rfl, ?_⟩
  · rw [ht]
    unfold check
    rw [List.take_left' rfl, getD_snoc]
    simp
  · exact List.drop_of_length_le (by simp)

/-! ### C80: the checksum -/

/-- the inverse of one bit of the checksum -/
def crcBack (y : Byte) : Byte := if y.getLsbD 0 then ((y ^^^ 7#8) >>> 1) ||| 0x80#8 else y >>> 1

theorem crcBack_bit (c : Byte) : crcBack (crcBit c) = c := by
  revert c
  decide +kernel

theorem crcBit_inj {a b : Byte} (h : crcBit a = crcBit b) : a = b := by
  have := congrArg crcBack h
  rwa [crcBack_bit, crcBack_bit] at this

theorem crcByte_inj {c d b e : Byte} (h : crcByte c b = crcByte d e) : c ^^^ b = d ^^^ e := by
  unfold crcByte at h
  exact crcBit_inj (crcBit_inj (crcBit_inj (crcBit_inj (crcBit_inj (crcBit_inj (crcBit_inj (crcBit_inj h)))))))

theorem crc_state_inj (l : List Byte) (c d : Byte) (h : l.foldl crcByte c = l.foldl crcByte d) : c = d := by
  induction l generalizing c d with
  | nil => exact h
  | cons b l ih =>
    have := crcByte_inj (ih _ _ h)
    exact (BitVec.xor_left_inj b).1 this

/-- C80: two streams that differ in one byte have different checksums -/
theorem C80_one_byte (a c : List Byte) (x y : Byte) (h : x ≠ y) : crc8 (a ++ x :: c) ≠ crc8 (a ++ y :: c) := by
  unfold crc8
  rw [List.foldl_append, List.foldl_append, List.foldl_cons, List.foldl_cons]
  intro he
  have := crcByte_inj (crc_state_inj c _ _ he)
  exact h ((BitVec.xor_right_inj _).1 this)

/-- C80: a request in which one byte of the payload was changed on the line, or the checksum, is not handled, changes nothing, is not answered, and the server is at a command boundary
after it -/
theorem C80_rejected {σ : Type} (api : Api σ) (s : Server σ) (h : s.pos = .command) (id : Byte) (payload : List Byte) (hf : Fits api id payload) (a c : List Byte) (x y : Byte)
    (hx : payload ++ [crc8 (id :: payload)] = a ++ x :: c) (hy : x ≠ y) : s.feeds api (id :: (a ++ y :: c)) = s := by
  have hs : s = { s with pos := .command } := by rw [← h]
  rcases List.eq_nil_or_concat c with rfl | ⟨c', z, rfl⟩
  · -- the checksum
    have h1 : payload = a ∧ crc8 (id :: payload) = x := by
      have := List.append_inj' hx rfl
      exact ⟨this.1, by simpa using this.2⟩
    obtain ⟨rfl, h2⟩ := h1
    rw [show id :: (payload ++ [y]) = id :: payload ++ [y] from rfl, feed_frame api s h id payload y hf]
    unfold Server.complete
    rw [List.take_left' rfl, getD_snoc]
    rw [if_pos (by simpa [h2] using hy), ← hs]
  · -- the payload
    rw [List.concat_eq_append] at hx ⊢
    have h1 : payload = a ++ x :: c' ∧ crc8 (id :: payload) = z := by
      have hx' : payload ++ [crc8 (id :: payload)] = (a ++ x :: c') ++ [z] := by rw [hx]; simp
      have := List.append_inj' hx' rfl
      exact ⟨this.1, by simpa using this.2⟩
    obtain ⟨h2, h3⟩ := h1
    have hf' : Fits api id (a ++ y :: c') := by
      unfold Fits at hf ⊢
      rw [hf, h2]
      simp
    rw [show id :: (a ++ y :: (c' ++ [z])) = id :: (a ++ y :: c') ++ [z] by simp, feed_frame api s h id (a ++ y :: c') z hf']
    unfold Server.complete
    rw [List.take_left' rfl, getD_snoc]
    rw [if_pos, ← hs]
    rw [← h3, h2]
    exact fun e => C80_one_byte (id :: a) c' x y hy (by simpa using e.symm)

/-! ### C81: answers and calls -/

/-- many calls, all answered in time: the results -/
def calls {σ : Type} (api : Api σ) (size : Byte → Nat) : Link σ → List (Byte × List Byte) → List Result
  | _, [] => []
  | k, (id, p) :: l => (k.call api id p (size id) true).2 :: calls api size (k.call api id p (size id) true).1 l

/-- Spec: the responses of the handlers when the requests are handled one after another -/
def responses {σ : Type} (api : Api σ) : σ → List (Byte × List Byte) → List (List Byte)
  | _, [] => []
  | a, (id, p) :: l => (api.handler a id p).2 :: responses api (api.handler a id p).1 l

/-- C81: from a command boundary with nothing on the line (as after a reset), if every call is answered in time, each call returns the response to its own request -/
theorem C81_in_time {σ : Type} (api : Api σ) (size : Byte → Nat) (k : Link σ) (hs : k.server.pos = .command) (ho : k.server.out = []) (hr : k.rx = []) (l : List (Byte × List Byte))
    (hf : ∀ r ∈ l, Fits api r.1 r.2) (hz : ∀ a, ∀ r ∈ l, (api.handler a r.1 r.2).2.length = size r.1) : calls api size k l = (responses api k.server.app l).map .ok := by
  induction l generalizing k with
  | nil => rfl
  | cons r l ih =>
    obtain ⟨id, p⟩ := r
    obtain ⟨h1, h2, h3, h4, h5⟩ := C54_call api k hs ho hr id p (hf _ List.mem_cons_self) (size id) (hz _ _ List.mem_cons_self)
    rw [calls, responses, List.map_cons, h1, ih _ h2 h4 h5 (fun r h => hf r (.tail _ h)) (fun a r h => hz a r (.tail _ h)), h3]

/-- an interface with a counter: command 3 without payload answers with the number of calls before -/
def counterApi : Api Nat := ⟨fun b => if b = 3#8 then some 0 else if b = 9#8 then some 2 else none, fun n id _ => if id = 3#8 then (n + 1, [BitVec.ofNat 8 n]) else (n, [])⟩

/-- C81 (finding): a call whose answer comes after the timeout leaves the answer on the line, and the next call takes it for its own: here the second and third call each get the answer to the call before -/
theorem C81_stale : let l0 : Link Nat := ⟨.new 0, []⟩
    let c1 := l0.call counterApi 3#8 [] 1 false
    let c2 := c1.1.call counterApi 3#8 [] 1 true
    let c3 := c2.1.call counterApi 3#8 [] 1 true
    c1.2 = .timeout ∧ c2.2 = .ok [0#8] ∧ c3.2 = .ok [1#8] ∧ c3.1.server.app = 3 := by decide +kernel

/-- C81 (finding): the flush of a reset can complete an unfinished request so that it is handled, although the client never sent it: the command 9 followed by one byte of its payload, and then
the bytes of the reset -/
theorem C81_reset_runs : ∃ (b : Byte), ((Server.new 0).feeds counterApi ([9#8, b] ++ flush 2)).ran = [(9#8, [b, 255#8])] := ⟨0x6f#8, by decide +kernel⟩

example : Api.Proper counterApi ∧ ∀ id n, counterApi.size id = some n → n ≤ 2 := by
  refine ⟨rfl, fun id n h => ?_⟩
  unfold counterApi at h
  simp only at h
  split at h
  · simp at h; omega
  · split at h
    · simp at h; omega
    · cases h

example : calls counterApi (fun id => if id = 3#8 then 1 else 0) ⟨.new 0, []⟩ [(3#8, []), (9#8, [1#8, 2#8]), (3#8, [])] = [.ok [0#8], .ok [], .ok [1#8]] := by decide +kernel

example : Fits counterApi 9#8 [1#8, 2#8] := rfl

example : ((Server.new 0).feeds counterApi ([77#8] ++ request 9#8 [1#8, 2#8] ++ [9#8, 1#8, 2#8, 0#8] ++ request 3#8 [] ++ [9#8])).ran = [(9#8, [1#8, 2#8]), (3#8, [])] := by decide +kernel

end Verif.Props
