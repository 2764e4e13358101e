import Verif.Spec.Can
/-
C39: CAN identifiers. C40: CAN payloads. C69: recording of the strain gauge board.
-/
namespace Verif.Props

open Verif Can

theorem id_new_valid (p m nt : UInt8) (ni : UInt16) : (Id.new p m nt ni).Valid := by
  constructor
  · exact Nat.mod_lt _ (by decide)
  · exact m.toNat_lt
  · exact Nat.mod_lt _ (by decide)
  · exact Nat.mod_lt _ (by decide)

/-- C39: packing then unpacking is the identity -/
theorem C39_round_trip (i : Id) (h : i.Valid) : Id.fromRaw i.toRaw = i := by
  obtain ⟨h1, h2, h3, h4⟩ := h
  cases i with
  | mk p m nt ni =>
    simp only [Id.fromRaw, Id.toRaw, Id.mk.injEq] at *
    refine ⟨by omega, by omega, by omega, by omega⟩

/-- C39: the identifier fits 29 bits -/
theorem C39_fits (i : Id) (h : i.Valid) : i.toRaw < 2 ^ 29 := by
  obtain ⟨h1, h2, h3, h4⟩ := h
  simp only [Id.toRaw] at *
  omega

/-- C39: different fields, different identifiers -/
theorem C39_injective (i j : Id) (hi : i.Valid) (hj : j.Valid) (h : i.toRaw = j.toRaw) : i = j := by
  rw [← C39_round_trip i hi, ← C39_round_trip j hj, h]

/-- C39: every 29 bit identifier is one of these, and unpacking then packing is the identity too -/
theorem C39_unpack (raw : Nat) (h : raw < 2 ^ 29) : (Id.fromRaw raw).Valid ∧ (Id.fromRaw raw).toRaw = raw := by
  refine ⟨⟨Nat.mod_lt _ (by decide), Nat.mod_lt _ (by decide), Nat.mod_lt _ (by decide), Nat.mod_lt _ (by decide)⟩, ?_⟩
  simp only [Id.fromRaw, Id.toRaw]
  omega

/-- C39: what is built from the arguments in range are those arguments -/
theorem C39_new (p m nt : UInt8) (ni : UInt16) (hp : p.toNat < 8) (ht : nt.toNat < 64) (hi : ni.toNat < 4096) :
    Id.fromRaw (Id.new p m nt ni).toRaw = ⟨p.toNat, m.toNat, nt.toNat, ni.toNat⟩ := by
  rw [C39_round_trip _ (id_new_valid p m nt ni)]
  simp only [Id.new, Id.mk.injEq]
  exact ⟨Nat.mod_eq_of_lt hp, trivial, Nat.mod_eq_of_lt ht, Nat.mod_eq_of_lt hi⟩

/-- C39: the node id made from a serial number fits the field -/
theorem C39_node_id (serial : Bytes) : (nodeIdFromSerial serial).toNat < 4096 := by
  unfold nodeIdFromSerial
  show BitVec.toNat (_ &&& 0xFFF#16) < 4096
  rw [BitVec.toNat_and]
  exact Nat.lt_of_le_of_lt Nat.and_le_right (by decide)

theorem arbitrate_spec : ∀ (n : Nat) (ids : List Nat) (x : Nat), x ∈ arbitrate n ids ↔ x ∈ ids ∧ ∀ y ∈ ids, x % 2 ^ n ≤ y % 2 ^ n := by
  intro n
  induction n with
  | zero => intro ids x; simp [arbitrate, Nat.mod_one]
  | succ n ih =>
    intro ids x
    unfold arbitrate
    have hs : ∀ y : Nat, y % 2 ^ (n + 1) = y % 2 ^ n + 2 ^ n * (y.testBit n).toNat := by
      intro y
      rw [Nat.pow_succ, Nat.mod_mul, Nat.toNat_testBit]
    have hl : ∀ y : Nat, y % 2 ^ n < 2 ^ n := fun y => Nat.mod_lt _ (Nat.two_pow_pos n)
    by_cases h : (ids.any fun i => !i.testBit n) = true
    · rw [if_pos h, ih]
      obtain ⟨z, hz, hzb⟩ := List.any_eq_true.1 h
      simp only [Bool.not_eq_true'] at hzb
      simp only [List.mem_filter, Bool.not_eq_true']
      constructor
      · rintro ⟨⟨h1, h2⟩, h3⟩
        refine ⟨h1, fun y hy => ?_⟩
        rw [hs, hs, h2]
        cases hb : y.testBit n with
        | false => have := h3 y ⟨hy, hb⟩; simpa using this
        | true => have := hl x; simp only [Bool.toNat_false, Bool.toNat_true]; omega
      · rintro ⟨h1, h2⟩
        have hx : x.testBit n = false := by
          cases hb : x.testBit n with
          | false => rfl
          | true =>
            have := h2 z hz
            rw [hs, hs, hb, hzb] at this
            have := hl z
            simp only [Bool.toNat_false, Bool.toNat_true] at *
            omega
        refine ⟨⟨h1, hx⟩, fun y hy => ?_⟩
        have := h2 y hy.1
        rw [hs, hs, hx, hy.2] at this
        simpa using this
    · rw [if_neg h, ih]
      have hall : ∀ y ∈ ids, y.testBit n = true := by
        intro y hy
        cases hb : y.testBit n with
        | true => rfl
        | false => exact absurd (List.any_eq_true.2 ⟨y, hy, by rw [hb]; rfl⟩) h
      constructor
      · rintro ⟨h1, h2⟩
        refine ⟨h1, fun y hy => ?_⟩
        rw [hs, hs, hall x h1, hall y hy]
        have := h2 y hy
        omega
      · rintro ⟨h1, h2⟩
        refine ⟨h1, fun y hy => ?_⟩
        have := h2 y hy
        rw [hs, hs, hall x h1, hall y hy] at this
        omega

/-- C39: arbitration is won by the identifier that is first in the order of priority, message type, node type, node id, each numerically: in particular
a numerically smaller priority always wins. -/
theorem C39_arbitration (ids : List Id) (hv : ∀ i ∈ ids, i.Valid) (w : Id) (hw : w ∈ ids) :
    w.toRaw ∈ arbitrate 29 (ids.map Id.toRaw) ↔ ∀ i ∈ ids, w.priority < i.priority ∨ w.priority = i.priority ∧ (w.messageType < i.messageType ∨
      w.messageType = i.messageType ∧ (w.nodeType < i.nodeType ∨ w.nodeType = i.nodeType ∧ w.nodeId ≤ i.nodeId)) := by
  rw [arbitrate_spec]
  have key : ∀ i ∈ ids, (w.toRaw % 2 ^ 29 ≤ i.toRaw % 2 ^ 29 ↔ w.priority < i.priority ∨ w.priority = i.priority ∧ (w.messageType < i.messageType ∨
      w.messageType = i.messageType ∧ (w.nodeType < i.nodeType ∨ w.nodeType = i.nodeType ∧ w.nodeId ≤ i.nodeId))) := by
    intro i hi
    obtain ⟨h1, h2, h3, h4⟩ := hv i hi
    obtain ⟨g1, g2, g3, g4⟩ := hv w hw
    rw [Nat.mod_eq_of_lt (C39_fits _ (hv i hi)), Nat.mod_eq_of_lt (C39_fits _ (hv w hw))]
    simp only [Id.toRaw] at *
    omega
  constructor
  · rintro ⟨_, h⟩ i hi
    exact (key i hi).1 (h _ (List.mem_map_of_mem hi))
  · intro h
    refine ⟨List.mem_map_of_mem hw, fun y hy => ?_⟩
    obtain ⟨i, hi, rfl⟩ := List.mem_map.1 hy
    exact (key i hi).2 (h i hi)

/-- C39 (finding): the documentation of `send` says that 7 is the highest priority; an identifier built with 7 loses the arbitration against every other priority -/
theorem C39_documented_priority_reversed (p m m' nt nt' : UInt8) (ni ni' : UInt16) (hp : p.toNat < 7) :
    (Id.new 7 m nt ni).toRaw ∉ arbitrate 29 [(Id.new p m' nt' ni').toRaw, (Id.new 7 m nt ni).toRaw] := by
  have hv : ∀ i ∈ [Id.new p m' nt' ni', Id.new 7 m nt ni], i.Valid := by
    intro i hi
    simp only [List.mem_cons, List.not_mem_nil, or_false] at hi
    rcases hi with rfl | rfl <;> exact id_new_valid _ _ _ _
  have := C39_arbitration [Id.new p m' nt' ni', Id.new 7 m nt ni] hv (Id.new 7 m nt ni) (by simp)
  simp only [List.map_cons, List.map_nil] at this
  rw [this]
  intro h
  have := h (Id.new p m' nt' ni') (by simp)
  have h7 : (Id.new 7 m nt ni).priority = 7 := rfl
  have hpp : (Id.new p m' nt' ni').priority = p.toNat := Nat.mod_eq_of_lt (by omega)
  rw [h7, hpp] at this
  omega

/-- two nodes start at the same time -/
example : (Id.new 3 4 20 77).Valid ∧ arbitrate 29 [(Id.new 3 4 20 77).toRaw, (Id.new 2 200 40 1).toRaw] = [(Id.new 2 200 40 1).toRaw] := by
  refine ⟨id_new_valid _ _ _ _, by decide +kernel⟩

/-- a message a sender can build: timestamps have 48 bits -/
def Can.MsgValid : Msg → Prop
  | .unixTime t => t < 2 ^ 48
  | .flightEvent t _ => t < 2 ^ 48
  | _ => True

/-- C40: every message decodes to itself, under its own type; its payload has the length of its type and fits a CAN frame -/
theorem C40_round_trip (m : Msg) (h : Can.MsgValid m) :
    Msg.fromData m.messageType m.toData = some m ∧ lenOf m.messageType = some m.toData.length ∧ m.toData.length ≤ 8 := by
  have hp : (256 : Nat) ^ 6 = 2 ^ 48 := by decide
  have hl6 : ∀ t, (beBytes 6 t).length = 6 := beBytes_length 6
  cases m with
  | unixTime t =>
    simp only [Can.MsgValid] at h
    simp only [Msg.fromData, Msg.messageType, Msg.toData, lenOf, hl6]
    rw [if_neg (by simp), Nat.mod_eq_of_lt h, beNat_beBytes_of_lt (by rw [hp]; exact h)]
    exact ⟨rfl, trivial, by decide⟩
  | avionicsStatus l a => cases l <;> cases a <;> decide
  | health s => cases s <;> decide
  | reset => decide
  | flightEvent t e =>
    simp only [Can.MsgValid] at h
    simp only [Msg.fromData, Msg.messageType, Msg.toData, lenOf, List.length_append, hl6, List.length_singleton]
    rw [if_neg (by simp), Nat.mod_eq_of_lt h, List.take_left' (hl6 t), beNat_beBytes_of_lt (by rw [hp]; exact h)]
    have : (beBytes 6 t ++ [UInt8.ofNat (e.toNat * 2 ^ 5)]).getD 6 0 = UInt8.ofNat (e.toNat * 2 ^ 5) := by
      rw [List.getD_eq_getElem?_getD, List.getElem?_append_right (by rw [hl6]; exact Nat.le_refl _), hl6]; rfl
    rw [this]
    refine ⟨?_, trivial, by decide⟩
    cases e <;> rfl

/-- C40: different messages of one type have different payloads -/
theorem C40_injective (m m' : Msg) (h : Can.MsgValid m) (h' : Can.MsgValid m') (ht : m.messageType = m'.messageType) (hd : m.toData = m'.toData) : m = m' := by
  have a := (C40_round_trip m h).1
  have b := (C40_round_trip m' h').1
  rw [← ht, ← hd, a] at b
  exact Option.some.inj b

/-- C40 (finding): exactly these payloads crash a node that decodes them: the wrong length, flight events 4 to 7, health state 3 -/
theorem C40_panics (typ : Nat) (d : Bytes) (ht : typ ≤ 4) :
    Msg.fromData typ d = none ↔
      (d.length ≠ (match typ with | 0 => 6 | 2 => 7 | _ => 1)) ∨ typ = 2 ∧ 4 ≤ (d.getD 6 0).toNat / 32 ∨ typ = 3 ∧ (d.getD 0 0).toNat / 64 = 3 := by
  have fe : ∀ k, FlightEvent.ofPrimitive k = none ↔ 4 ≤ k := by
    intro k
    match k with
    | 0 | 1 | 2 | 3 => simp [FlightEvent.ofPrimitive]
    | k + 4 => simp [FlightEvent.ofPrimitive]
  have he : ∀ k, k < 4 → (Health.ofPrimitive k = none ↔ k = 3) := by
    intro k hk
    match k, hk with
    | 0, _ | 1, _ | 2, _ | 3, _ => simp [Health.ofPrimitive]
  have h3 : (d.getD 0 0).toNat / 64 < 4 := by have := (d.getD 0 0).toNat_lt; omega
  unfold Msg.fromData
  match typ, ht with
  | 0, _ => by_cases h : d.length = 6 <;> simp [lenOf, h] <;> omega
  | 1, _ => by_cases h : d.length = 1 <;> simp [lenOf, h] <;> omega
  | 2, _ =>
    by_cases h : d.length = 7
    · simp only [lenOf, h]
      rw [if_neg (by simp)]
      simp only [Option.map_eq_none_iff, fe]
      simp
    · simp only [lenOf]
      rw [if_pos (by simp; omega)]
      simp [h]
  | 3, _ =>
    by_cases h : d.length = 1
    · simp only [lenOf, h]
      rw [if_neg (by simp)]
      simp only [Option.map_eq_none_iff]
      rw [show (2 : Nat) ^ 6 = 64 by decide, he _ h3]
      simp
    · simp only [lenOf]
      rw [if_pos (by simp; omega)]
      simp [h]
  | 4, _ => by_cases h : d.length = 1 <;> simp [lenOf, h] <;> omega

/-- C40: the unused bits do not matter -/
theorem C40_padding (lowPower armed : Bool) (pad : Nat) (h : pad < 64) :
    Msg.fromData 1 [UInt8.ofNat (lowPower.toNat * 128 + armed.toNat * 64 + pad)] = some (.avionicsStatus lowPower armed) := by
  simp only [Msg.fromData, lenOf, List.length_singleton]
  rw [if_neg (by simp)]
  have hb : ∀ n : Nat, n < 256 → (UInt8.ofNat n).toNat = n := by
    intro n hn; rw [UInt8.toNat_ofNat']; exact Nat.mod_eq_of_lt hn
  have hl : lowPower.toNat * 128 + armed.toNat * 64 + pad < 256 := by cases lowPower <;> cases armed <;> simp <;> omega
  simp only [List.getD_cons_zero, hb _ hl, Option.some.injEq, Msg.avionicsStatus.injEq]
  refine ⟨?_, ?_⟩
  · cases lowPower <;> cases armed <;> simp <;> omega
  · cases lowPower <;> cases armed <;> simp <;> omega

example : Can.MsgValid (.flightEvent 1700000000123 .apogee) ∧ Msg.fromData 2 [0x01, 0x8B, 0xCF, 0xE5, 0x68, 0x7B, 0x5F] = some (.flightEvent 1700000000123 .apogee) ∧
    Msg.fromData 2 [0x01, 0x8B, 0xCF, 0xE5, 0x68, 0x7B, 0x80] = none := by
  refine ⟨by simp only [Can.MsgValid]; omega, by decide +kernel, by decide +kernel⟩

theorem findSome_append {α β : Type} (f : α → Option β) (l : List α) (a : α) : lastOf f (l ++ [a]) = (f a).or (lastOf f l) := by
  unfold lastOf
  rw [List.reverse_append, List.reverse_singleton, List.singleton_append, List.findSome?_cons]
  cases f a <;> rfl

theorem event_landed (k : Nat) (e : FlightEvent) (h : FlightEvent.ofPrimitive k = some e) : decide (e = .landed) = decide (k = 3) := by
  match k with
  | 0 | 1 | 2 | 3 => simp only [FlightEvent.ofPrimitive, Option.some.injEq] at h; subst h; rfl
  | k + 4 => simp [FlightEvent.ofPrimitive] at h

/-- one frame: the board crashes exactly on the bad ones -/
theorem sg_receive (s : Sg) (f : Frame) :
    (f.Bad → s.receive f = none) ∧
    (¬ f.Bad → ∃ s', s.receive f = some s' ∧ s'.armed = (f.status.getD s.armed) ∧ s'.landed = (f.landing.getD s.landed) ∧ s'.unix = f.time.or s.unix ∧
      s'.enabled = (if f.rtr then s.enabled else (s'.armed && !s'.landed)) ∧ s'.reset = (s.reset || decide (f.rtr = false ∧ (Id.fromRaw f.id).messageType = 4))) := by
  unfold Frame.Bad Frame.status Frame.landing Frame.time Sg.receive
  cases hr : f.rtr with
  | true => simp
  | false =>
    generalize hm : (Id.fromRaw f.id).messageType = t
    simp only [Bool.false_eq_true, if_false, true_and]
    match t with
    | 0 =>
      refine ⟨?_, ?_⟩
      · intro h
        have : f.data.length ≠ 6 := by simpa using h
        simp [Msg.fromData, lenOf, Ne.symm this]
      · intro h
        have : f.data.length = 6 := by simpa using h
        simp [Msg.fromData, lenOf, this]
    | 1 =>
      refine ⟨?_, ?_⟩
      · intro h
        have : f.data.length ≠ 1 := by simpa using h
        simp [Msg.fromData, lenOf, Ne.symm this]
      · intro h
        have : f.data.length = 1 := by simpa using h
        simp [Msg.fromData, lenOf, this]
    | 2 =>
      refine ⟨?_, ?_⟩
      · intro h
        have h : f.data.length ≠ 7 ∨ 4 ≤ (f.data.getD 6 0).toNat / 32 := by simpa using h
        have := (C40_panics 2 f.data (by decide)).2 (h.imp id (fun h => .inl ⟨rfl, h⟩))
        simp [this]
      · intro h
        have h : ¬ (f.data.length ≠ 7 ∨ 4 ≤ (f.data.getD 6 0).toNat / 32) := by simpa using h
        have h1 : f.data.length = 7 := by omega
        have h2 : (f.data.getD 6 0).toNat / 32 < 4 := by omega
        have hd : ∃ e, FlightEvent.ofPrimitive ((f.data.getD 6 0).toNat / 2 ^ 5) = some e := by
          show ∃ e, FlightEvent.ofPrimitive ((f.data.getD 6 0).toNat / 32) = some e
          generalize (f.data.getD 6 0).toNat / 32 = k at h2
          match k, h2 with
          | 0, _ | 1, _ | 2, _ | 3, _ => exact ⟨_, rfl⟩
        obtain ⟨e, he⟩ := hd
        have hf : Msg.fromData 2 f.data = some (.flightEvent (beNat (f.data.take 6)) e) := by
          unfold Msg.fromData
          rw [if_neg (by simp [lenOf, h1])]
          simp only [he, Option.map_some]
        have hl := event_landed _ e he
        simp only [hf]
        refine ⟨_, rfl, ?_⟩
        simp only [hl]
        simp
    | 3 => simp
    | 4 => simp
    | t + 5 => simp

/-- C69: whether the strain gauge board records is decided by the newest avionics status and the newest flight event: after at least one data frame, it records exactly
if the newest status says armed and the newest event is not the landing (none of a kind counts as not armed, not landed). The time synchronization is the newest time
message. -/
theorem C69_recording (enabled : Bool) (fs : List Frame) :
    ((∃ f ∈ fs, f.Bad) → (Sg.init enabled).run fs = none) ∧
    ((∀ f ∈ fs, ¬ f.Bad) → ∃ s, (Sg.init enabled).run fs = some s ∧
      s.enabled = (if fs.all (fun f => f.rtr) then enabled else ((lastOf Frame.status fs).getD false && !(lastOf Frame.landing fs).getD false)) ∧
      s.unix = lastOf Frame.time fs ∧
      s.reset = fs.any (fun f => decide (f.rtr = false ∧ (Id.fromRaw f.id).messageType = 4))) := by
  have hrun : ∀ (l : List Frame) (a : Frame) (s : Sg), s.run (l ++ [a]) = (s.run l).bind fun s => s.receive a := by
    intro l
    induction l with
    | nil => intro a s; simp only [List.nil_append, Sg.run, Option.bind_some]; cases s.receive a <;> rfl
    | cons b l ih =>
      intro a s
      simp only [List.cons_append, Sg.run]
      cases s.receive b with
      | none => rfl
      | some s' => exact ih a s'
  have hmain : ∀ l : List Frame, ((∃ f ∈ l.reverse, f.Bad) → (Sg.init enabled).run l.reverse = none) ∧
    ((∀ f ∈ l.reverse, ¬ f.Bad) → ∃ s, (Sg.init enabled).run l.reverse = some s ∧ s.armed = (lastOf Frame.status l.reverse).getD false ∧
      s.landed = (lastOf Frame.landing l.reverse).getD false ∧
      s.enabled = (if l.reverse.all (fun f => f.rtr) then enabled else ((lastOf Frame.status l.reverse).getD false && !(lastOf Frame.landing l.reverse).getD false)) ∧
      s.unix = lastOf Frame.time l.reverse ∧
      s.reset = l.reverse.any (fun f => decide (f.rtr = false ∧ (Id.fromRaw f.id).messageType = 4))) := by
    intro l
    induction l with
    | nil => exact ⟨by simp, fun _ => ⟨_, rfl, rfl, rfl, rfl, rfl, rfl⟩⟩
    | cons a l ih =>
      obtain ⟨i1, i2⟩ := ih
      rw [List.reverse_cons]
      constructor
      · rintro ⟨f, hf, hb⟩
        rw [hrun]
        rcases List.mem_append.1 hf with hf | hf
        · rw [i1 ⟨f, hf, hb⟩]; rfl
        · rw [List.mem_singleton] at hf
          subst hf
          cases (Sg.init enabled).run l.reverse with
          | none => rfl
          | some s => exact (sg_receive s f).1 hb
      · intro h
        obtain ⟨s, e, e1, e2, e3, e4, e5⟩ := i2 fun f hf => h f (List.mem_append_left _ hf)
        obtain ⟨s', r, r1, r2, r3, r4, r5⟩ := (sg_receive s a).2 (h a (List.mem_append_right _ (List.mem_singleton.2 rfl)))
        have a1 : s'.armed = (lastOf Frame.status (l.reverse ++ [a])).getD false := by
          rw [r1, findSome_append, e1]; cases a.status <;> rfl
        have a2 : s'.landed = (lastOf Frame.landing (l.reverse ++ [a])).getD false := by
          rw [r2, findSome_append, e2]; cases a.landing <;> rfl
        refine ⟨s', by rw [hrun, e]; exact r, a1, a2, ?_, ?_, ?_⟩
        · rw [r4, List.all_append]
          cases hr : a.rtr with
          | false => simp [hr, a1, a2]
          | true =>
            have s1 : a.status = none := by simp [Frame.status, hr]
            have s2 : a.landing = none := by simp [Frame.landing, hr]
            rw [findSome_append, findSome_append, s1, s2, e3]
            simp [hr]
        · rw [r3, findSome_append, e4]
        · rw [r5, e5, List.any_append]; simp
  have := hmain fs.reverse
  rw [List.reverse_reverse] at this
  refine ⟨this.1, fun h => ?_⟩
  obtain ⟨s, e, _, _, e3, e4, e5⟩ := this.2 h
  exact ⟨s, e, e3, e4, e5⟩

/-- C69 (finding): a single frame of any node crashes the board, whatever it received before -/
theorem C69_one_frame_crashes (enabled : Bool) (before after : List Frame) (sender : Nat) :
    (Sg.init enabled).run (before ++ ⟨0, (⟨7, 2, 63, sender % 4096⟩ : Id).toRaw, false, [0, 0, 0, 0, 0, 0, 0xFF]⟩ :: after) = none := by
  refine (C69_recording enabled _).1 ⟨_, List.mem_append_right _ List.mem_cons_self, rfl, .inr (.inr ⟨?_, .inr (show 4 ≤ (255 : UInt8).toNat / 32 by decide)⟩)⟩
  rw [C39_round_trip _ ⟨show 7 < 8 by decide, show 2 < 256 by decide, show 63 < 64 by decide, Nat.mod_lt _ (by decide)⟩]

/-- armed, ignition, time, landed -/
example : ∃ s, (Sg.init true).run
    [⟨5, (Id.new 7 1 40 1).toRaw, false, [0x40]⟩, ⟨6, (Id.new 7 0 40 1).toRaw, false, [0, 0, 0, 0, 1, 0]⟩, ⟨7, (Id.new 7 2 40 1).toRaw, false, [0, 0, 0, 0, 0, 0, 0]⟩] = some s ∧
      s.enabled = true ∧ s.unix = some (6, 256) := ⟨_, rfl, by decide +kernel, by decide +kernel⟩

end Verif.Props
