import Verif.Model.Nmea

/-!
C58: NMEA sentences are validated, but the parser can crash. C59: assembling sentences from serial reads.
-/
namespace Verif.Props
open Verif.Nmea

/-! ### C58 -/

/-- the two checksum characters, read as the parser does -/
def statedChecksum (s : List Byte) : Option Byte := hex2 (s.getD (s.length - 4) 0#8) (s.getD (s.length - 3) 0#8)

/-- the exclusive or of the characters after the first and before the last five: of a sentence `$body*hh\r\n`, those of the body -/
def bodyChecksum (s : List Byte) : Byte := xorAll ((s.drop 1).take (s.length - 6))

/-- C58: a sentence is accepted only with at least six characters and the right checksum -/
theorem C58_validate (s : List Byte) : validate s = true ↔ 6 ≤ s.length ∧ statedChecksum s = some (bodyChecksum s) := by
  unfold validate statedChecksum bodyChecksum
  by_cases h : s.length < 6
  · rw [if_pos h]; simp; omega
  · rw [if_neg h]
    cases hex2 (s.getD (s.length - 4) 0#8) (s.getD (s.length - 3) 0#8) with
    | none => simp
    | some c => simp; constructor
                · intro h'; exact ⟨by omega, h'.symm⟩
                · intro h'; exact h'.2.symm

/-- C58: a sentence whose checksum is wrong is refused and changes nothing -/
theorem C58_wrong_checksum {F : Type} (fl : Floats F) (st : State F) (s : List Byte) (h : statedChecksum s ≠ some (bodyChecksum s)) :
    st.update fl s = (st, .err) := by
  have : validate s = false := by
    cases hv : validate s with
    | false => rfl
    | true => exact absurd ((C58_validate s).1 hv).2 h
  simp [State.update, parse, this]

/-- C58: an update that does not succeed changes nothing; one that does changes position and time, or the number of satellites, and nothing else -/
theorem C58_update {F : Type} (fl : Floats F) (st : State F) (s : List Byte) :
    ((st.update fl s).2 ≠ .ok () → (st.update fl s).1 = st)
    ∧ ((st.update fl s).2 = .ok () →
        ((st.update fl s).1.satellites = st.satellites ∧ (st.update fl s).1.latitude.isSome ∧ (st.update fl s).1.longitude.isSome ∧ (st.update fl s).1.utc.isSome)
        ∨ ((st.update fl s).1.satellites.isSome ∧ (st.update fl s).1.latitude = st.latitude ∧ (st.update fl s).1.longitude = st.longitude ∧ (st.update fl s).1.utc = st.utc)) := by
  unfold State.update
  cases parse fl s with
  | ok m => cases m <;> simp
  | err => simp
  | panic => simp

theorem foldl_xor (l : List Byte) : ∀ a : Byte, l.foldl (· ^^^ ·) a = a ^^^ xorAll l := by
  induction l with
  | nil => intro a; simp [xorAll]
  | cons b l ih => intro a; simp only [xorAll, List.foldl_cons]; rw [ih, ih]; simp [BitVec.xor_assoc]

theorem xorAll_append (a b : List Byte) : xorAll (a ++ b) = xorAll a ^^^ xorAll b := by
  unfold xorAll; rw [List.foldl_append, foldl_xor]; rfl

theorem xorAll_cons (x : Byte) (b : List Byte) : xorAll (x :: b) = x ^^^ xorAll b := by
  unfold xorAll; rw [List.foldl_cons, foldl_xor]; simp [xorAll]

theorem xor_cancel {a b c : Byte} (h : a ^^^ b = a ^^^ c) : b = c := by
  have : a ^^^ (a ^^^ b) = a ^^^ (a ^^^ c) := by rw [h]
  simpa [← BitVec.xor_assoc] using this

/-- the body of a sentence with one character singled out -/
theorem body_split (p q : List Byte) (x : Byte) (hp : 1 ≤ p.length) (hq : 5 ≤ q.length) :
    ((p ++ x :: q).drop 1).take ((p ++ x :: q).length - 6) = p.drop 1 ++ x :: q.take (q.length - 5) := by
  rw [List.drop_append_of_le_length hp]
  have hl : (p ++ x :: q).length - 6 = (p.drop 1).length + (q.length - 5 + 1) := by simp; omega
  rw [hl, List.take_length_add_append]
  simp

/-- C58: any single changed character of the body of an accepted sentence is noticed: the changed sentence is refused and changes nothing -/
theorem C58_detects {F : Type} (fl : Floats F) (st : State F) (p q : List Byte) (x y : Byte) (hxy : x ≠ y) (hp : 1 ≤ p.length) (hq : 5 ≤ q.length)
    (hv : validate (p ++ x :: q) = true) : st.update fl (p ++ y :: q) = (st, .err) := by
  refine C58_wrong_checksum fl st _ fun h => hxy ?_
  obtain ⟨_, hx⟩ := (C58_validate _).1 hv
  have hs : ∀ z, statedChecksum (p ++ z :: q) = hex2 (q.getD (q.length - 4) 0#8) (q.getD (q.length - 3) 0#8) := by
    intro z
    have h1 : (p ++ z :: q).length - 4 - p.length = q.length - 4 + 1 := by simp; omega
    have h2 : (p ++ z :: q).length - 3 - p.length = q.length - 3 + 1 := by simp; omega
    have l1 : p.length ≤ (p ++ z :: q).length - 4 := by simp; omega
    have l2 : p.length ≤ (p ++ z :: q).length - 3 := by simp; omega
    simp only [statedChecksum, List.getD_eq_getElem?_getD, List.getElem?_append_right l1, List.getElem?_append_right l2, h1, h2, List.getElem?_cons_succ]
  rw [hs] at hx h
  rw [hx] at h
  simp only [bodyChecksum, body_split _ _ _ hp hq, xorAll_append, xorAll_cons] at h
  injection h with h
  have h := xor_cancel h
  rw [BitVec.xor_comm x, BitVec.xor_comm y] at h
  exact xor_cancel h

/-- C58: what is not noticed: two characters of the body that change places -/
theorem C58_swap_unnoticed (p q : List Byte) (x y : Byte) (hp : 1 ≤ p.length) (hq : 5 ≤ q.length) (hv : validate (p ++ x :: y :: q) = true) :
    validate (p ++ y :: x :: q) = true := by
  obtain ⟨h6, hx⟩ := (C58_validate _).1 hv
  refine (C58_validate _).2 ⟨by simpa using h6, ?_⟩
  have hs : ∀ z w, statedChecksum (p ++ z :: w :: q) = hex2 (q.getD (q.length - 4) 0#8) (q.getD (q.length - 3) 0#8) := by
    intro z w
    have h1 : (p ++ z :: w :: q).length - 4 - p.length = q.length - 4 + 1 + 1 := by simp; omega
    have h2 : (p ++ z :: w :: q).length - 3 - p.length = q.length - 3 + 1 + 1 := by simp; omega
    have l1 : p.length ≤ (p ++ z :: w :: q).length - 4 := by simp; omega
    have l2 : p.length ≤ (p ++ z :: w :: q).length - 3 := by simp; omega
    simp only [statedChecksum, List.getD_eq_getElem?_getD, List.getElem?_append_right l1, List.getElem?_append_right l2, h1, h2, List.getElem?_cons_succ]
  rw [hs] at hx ⊢
  rw [hx]
  have h7 : ∀ z w : Byte, (z :: q).take ((z :: q).length - 5) = z :: q.take (q.length - 5) := by
    intro z w
    have : (z :: q).length - 5 = (q.length - 5) + 1 := by simp; omega
    rw [this, List.take_succ_cons]
  have hb : ∀ z w, bodyChecksum (p ++ z :: w :: q) = xorAll (p.drop 1) ^^^ (z ^^^ (w ^^^ xorAll (q.take (q.length - 5)))) := by
    intro z w
    simp only [bodyChecksum, body_split p (w :: q) z hp (by simp; omega), xorAll_append, xorAll_cons, h7 w w]
  rw [hb, hb]
  congr 2
  rw [← BitVec.xor_assoc, BitVec.xor_comm x, BitVec.xor_assoc]

/-- the separators of a sentence, one less than its fields -/
theorem split_length (s : List Byte) : ∀ cur, (split cur s).length = s.countP isSep + 1 := by
  induction s with
  | nil => intro cur; simp [split]
  | cons b r ih =>
    intro cur
    by_cases hb : isSep b = true
    · simp [split, hb, ih]
    · simp [split, hb, ih]

theorem field_ok {fields : List (List Byte)} {i : Nat} (h : i < fields.length) : field fields i = .ok fields[i] := by
  simp [field, h]

theorem bind_safe {α β : Type} {x : Out α} {f : α → Out β} (hx : x ≠ .panic) (hf : ∀ a, f a ≠ .panic) : x.bind f ≠ .panic := by
  cases x with
  | ok a => exact hf a
  | err => simp [Out.bind]
  | panic => exact absurd rfl hx

theorem orErr_safe {α : Type} (x : Option α) : orErr x ≠ .panic := by cases x <;> simp [orErr]

/-- C58: a sentence with at least six and at most forty separators does not crash the parser, whatever the rest of it -/
theorem C58_no_crash {F : Type} (fl : Floats F) (st : State F) (s : List Byte) (h1 : 6 ≤ s.countP isSep) (h2 : s.countP isSep ≤ 40) :
    (st.update fl s).2 ≠ .panic := by
  have hl : (split [] s).length = s.countP isSep + 1 := split_length s []
  have hf : ∀ i, i < 7 → field (split [] s) i ≠ .panic := fun i hi => by rw [field_ok (by omega)]; simp
  have key : parse fl s ≠ .panic := by
    unfold parse
    split
    · unfold dispatch collect
      rw [if_pos (by omega)]
      refine bind_safe (x := field (split [] s) 1) (hf 1 (by omega)) fun f1 => ?_
      split
      · simp
      · split
        · unfold parseGll
          refine bind_safe (hf 1 (by omega)) fun _ => bind_safe (hf 2 (by omega)) fun _ => bind_safe (orErr_safe _) fun _ => bind_safe (orErr_safe _) fun _ =>
            bind_safe (hf 3 (by omega)) fun _ => bind_safe (hf 4 (by omega)) fun _ => bind_safe (orErr_safe _) fun _ => bind_safe (orErr_safe _) fun _ =>
            bind_safe (hf 5 (by omega)) fun _ => bind_safe (hf 6 (by omega)) fun _ => bind_safe (orErr_safe _) fun _ => by simp
        · split
          · unfold parseGsv
            refine bind_safe (hf 1 (by omega)) fun _ => bind_safe (hf 4 (by omega)) fun _ => bind_safe (orErr_safe _) fun _ => by simp
          · simp
    · simp
  unfold State.update
  cases hp : parse fl s with
  | ok m => cases m <;> simp
  | err => simp
  | panic => exact absurd hp key

/-- C58, finding: text without a separator whose third and fourth characters happen to be right crashes the parser, … -/
theorem C58_crash_no_field {F : Type} (fl : Floats F) : (State.new.update fl (txt "000000")).2 = .panic := by
  have : validate (txt "000000") = true := by decide
  simp only [State.update, parse, this, if_true]
  rfl

/-- … so does a well-formed sentence with too few fields, … -/
theorem C58_crash_few_fields {F : Type} (fl : Floats F) : (State.new.update fl (txt "$GPGSV*55\r\n")).2 = .panic := by
  have : validate (txt "$GPGSV*55\r\n") = true := by decide
  simp only [State.update, parse, this, if_true]
  rfl

/-- … and one with too many -/
theorem C58_crash_many_fields {F : Type} (fl : Floats F) :
    (State.new.update fl (36#8 :: List.replicate 40 44#8 ++ txt "*00\r\n")).2 = .panic := by
  have : validate (36#8 :: List.replicate 40 44#8 ++ txt "*00\r\n") = true := by decide
  simp only [State.update, parse, this, if_true]
  rfl

/-- C58, finding: the "milliseconds" are the first two digits of the fraction: a quarter of a second is reported as 25 ms -/
theorem C58_milliseconds : parseTime (txt "080023.250") = some ⟨8, 0, 23, 25⟩ := by decide

/-- a plus sign is accepted in the checksum, and the characters `$`, `*` and the line end are not looked at -/
theorem C58_lenient : hex2 43#8 53#8 = some 5#8 ∧ hex2 48#8 53#8 = some 5#8 ∧ validate (txt "$GNGLL,4315.68533,N,07955.20234,W,080023.000,A,A*5D\r\n") = true
    ∧ validate (txt "?GNGLL,4315.68533,N,07955.20234,W,080023.000,A,A?5D??") = true := by decide

/-- case: the sentences of the crate's own tests -/
def demoFloats : Floats (List Byte) := ⟨some, fun a b => a ++ txt "+" ++ b, fun a => txt "-" ++ a⟩
example : (State.new.update demoFloats (txt "$GNGLL,4315.68533,N,07955.20234,W,080023.000,A,A*5D\r\n"))
    = (⟨some (txt "43+15.68533"), some (txt "-079+55.20234"), some ⟨8, 0, 23, 0⟩, none⟩, .ok ()) := by decide +kernel
example : (State.new.update demoFloats (txt "$GPGSV,2,2,07,23,62,115,24,24,42,057,20,32,52,272,21*4A\r\n")) = (⟨none, none, none, some 7⟩, .ok ()) := by decide +kernel
example : (State.new.update demoFloats (txt "$GNGLL,4314.68533,N,07955.20234,W,080023.000,A,A*5D\r\n")) = (State.new, .err) := by decide +kernel

/-! ### C59 -/

/-- a sentence as GPS receivers send it: `$`, ASCII text without `$` and line feed, line feed; at most 84 characters -/
structure Framed (s : List Byte) : Prop where
  shape : ∃ body, s = 36#8 :: body ++ [10#8] ∧ ∀ b ∈ body, b ≠ 36#8 ∧ b ≠ 10#8 ∧ b.toNat < 128
  short : s.length ≤ 84

theorem len_snoc (s : List Byte) (b : Byte) : len (s ++ [b]) = len s + width b := by simp [len, List.sum_append]

theorem len_ascii (s : List Byte) (h : ∀ b ∈ s, b.toNat < 128) : len s = s.length := by
  induction s with
  | nil => rfl
  | cons a s ih =>
    have ha := h a (by simp)
    have := ih (fun b hb => h b (by simp [hb]))
    unfold len at *
    simp [this, width, ha]; omega

/-- the buffer is good for the bytes that are still to come: `todo` is the rest of the sentence being received; at the boundary between sentences anything may be in the buffer -/
def GpsGood (sent todo cur : List Byte) : Prop := (todo = [] ∧ cur = []) ∨ (cur ≠ [] ∧ sent = cur ∧ todo ≠ [] ∧ Framed (cur ++ todo))

theorem framed_first {b : Byte} {s : List Byte} (h : Framed (b :: s)) : b = 36#8 ∧ s ≠ [] := by
  obtain ⟨body, hs, _⟩ := h.shape
  rw [List.cons_append] at hs
  injection hs with h1 h2
  exact ⟨h1, by rw [h2]; simp⟩

/-- the next character of a sentence that has begun: it is not `$`, and it is a line feed exactly if it is the last -/
theorem framed_next {cur r : List Byte} {b : Byte} (h : Framed (cur ++ b :: r)) (hc : cur ≠ []) : b ≠ 36#8 ∧ (b = 10#8 ↔ r = []) := by
  obtain ⟨body, hs, hb⟩ := h.shape
  cases cur with
  | nil => exact absurd rfl hc
  | cons a cur =>
    rw [List.cons_append, List.cons_append] at hs
    injection hs with _ hs
    rcases List.eq_nil_or_concat r with rfl | ⟨r', z, rfl⟩
    · have : b = 10#8 := by
        have := congrArg List.getLast? hs
        simpa using this
      subst this; simp
    · have hs' : (cur ++ b :: r') ++ [z] = body ++ [10#8] := by simpa using hs
      obtain ⟨h1, _⟩ := List.append_inj' hs' rfl
      have hbm : b ∈ body := by rw [← h1]; simp
      obtain ⟨h3, h4, _⟩ := hb b hbm
      exact ⟨h3, by simp [h4]⟩

theorem framed_ascii {s : List Byte} (h : Framed s) : ∀ b ∈ s, b.toNat < 128 := by
  obtain ⟨body, hs, hb⟩ := h.shape
  intro b hbm
  rw [hs] at hbm
  simp at hbm
  rcases hbm with rfl | h | rfl
  · decide
  · exact (hb b h).2.2
  · decide

/-- one character of a framed sentence -/
theorem gpsByte_next (cur r rest : List Byte) (b : Byte) (out : List (List Byte)) (sent : List Byte)
    (hs : cur = [] ∨ sent = cur) (hf : Framed (cur ++ b :: r)) :
    (r ≠ [] → gpsByte (sent, out) b rest = (cur ++ [b], out)) ∧ (r = [] → (gpsByte (sent, out) b rest).2 = out ++ [cur ++ [b]]) := by
  have hasc := framed_ascii hf
  have hlen : len (cur ++ [b]) = cur.length + 1 := by
    rw [len_ascii _ (fun x hx => hasc x (by simp at hx ⊢; rcases hx with h | h <;> simp [h]))]; simp
  have hlc : len cur = cur.length := len_ascii _ (fun x hx => hasc x (by simp [hx]))
  have hshort : cur.length + 1 + r.length ≤ 84 := by have := hf.short; simp at this; omega
  have hwb : width b = 1 := by simp [width, hasc b (by simp)]
  have hpush : push (if b = 36#8 then [] else sent) b = cur ++ [b] := by
    by_cases hc : cur = []
    · subst hc
      obtain ⟨hb, _⟩ := framed_first hf
      subst hb; rfl
    · have hsent : sent = cur := by
        rcases hs with h | h
        · exact absurd h hc
        · exact h
      obtain ⟨hb, _⟩ := framed_next hf hc
      rw [if_neg hb, hsent]
      unfold push
      rw [if_pos (by omega)]
  have hten : b = 10#8 ↔ r = [] := by
    by_cases hc : cur = []
    · subst hc
      obtain ⟨hb, hr⟩ := framed_first hf
      subst hb
      simp [hr]
    · exact (framed_next hf hc).2
  unfold gpsByte
  simp only [hpush]
  constructor
  · intro hr
    have hpos : 0 < r.length := List.length_pos_iff.2 hr
    rw [if_neg]
    rintro (h | h)
    · exact hr (hten.1 h)
    · omega
  · intro hr
    rw [if_pos (.inl (hten.2 hr))]

/-- what is to come: the rest of the current sentence, then whole sentences, then the beginning of another -/
theorem gpsRead_spec (chunk : List Byte) : ∀ (sent cur todo : List Byte) (ss : List (List Byte)) (out : List (List Byte)) (later : List Byte),
    GpsGood sent todo cur → (∀ s ∈ ss, Framed s) → chunk ++ later = todo ++ ss.flatten →
    ∃ sent' cur' todo' ss', GpsGood sent' todo' cur' ∧ (∀ s ∈ ss', Framed s) ∧ later = todo' ++ ss'.flatten
      ∧ gpsRead (sent, out) chunk = (sent', (gpsRead (sent, out) chunk).2)
      ∧ (gpsRead (sent, out) chunk).2 ++ (if cur' ++ todo' = [] then [] else [cur' ++ todo']) ++ ss' = out ++ (if cur ++ todo = [] then [] else [cur ++ todo]) ++ ss := by
  induction chunk with
  | nil =>
    intro sent cur todo ss out later hg hss hl
    exact ⟨sent, cur, todo, ss, hg, hss, hl, rfl, rfl⟩
  | cons b chunk ih =>
    -- one character of the sentence `cur ++ b :: r`
    have step : ∀ (sent cur r : List Byte) (ss : List (List Byte)) (out : List (List Byte)) (later : List Byte),
        (cur = [] ∨ sent = cur) → Framed (cur ++ b :: r) → (∀ s ∈ ss, Framed s) → chunk ++ later = r ++ ss.flatten →
        ∃ sent' cur' todo' ss', GpsGood sent' todo' cur' ∧ (∀ s ∈ ss', Framed s) ∧ later = todo' ++ ss'.flatten
          ∧ gpsRead (sent, out) (b :: chunk) = (sent', (gpsRead (sent, out) (b :: chunk)).2)
          ∧ (gpsRead (sent, out) (b :: chunk)).2 ++ (if cur' ++ todo' = [] then [] else [cur' ++ todo']) ++ ss' = out ++ [cur ++ b :: r] ++ ss := by
      intro sent cur r ss out later hs hf hss hl
      obtain ⟨hmid, hend⟩ := gpsByte_next cur r chunk b out sent hs hf
      by_cases hr : r = []
      · have hb := hend hr
        rw [hr] at hl ⊢
        obtain ⟨s', c', t', ss', h1, h2, h3, h4, h5⟩ := ih (gpsByte (sent, out) b chunk).1 [] [] ss (out ++ [cur ++ [b]]) later (.inl ⟨rfl, rfl⟩) hss hl
        have he : gpsByte (sent, out) b chunk = ((gpsByte (sent, out) b chunk).1, out ++ [cur ++ [b]]) := by rw [← hb]
        have hg : gpsRead (sent, out) (b :: chunk) = gpsRead ((gpsByte (sent, out) b chunk).1, out ++ [cur ++ [b]]) chunk := by
          show gpsRead (gpsByte (sent, out) b chunk) chunk = _; rw [← he]
        exact ⟨s', c', t', ss', h1, h2, h3, by rw [hg]; exact h4, by rw [hg]; simpa using h5⟩
      · have hb := hmid hr
        have hg : gpsRead (sent, out) (b :: chunk) = gpsRead (cur ++ [b], out) chunk := by
          show gpsRead (gpsByte (sent, out) b chunk) chunk = _; rw [hb]
        obtain ⟨s', c', t', ss', h1, h2, h3, h4, h5⟩ := ih (cur ++ [b]) (cur ++ [b]) r ss out later (.inr ⟨by simp, rfl, hr, by simpa using hf⟩) hss hl
        refine ⟨s', c', t', ss', h1, h2, h3, by rw [hg]; exact h4, ?_⟩
        rw [hg, h5]; simp
    intro sent cur todo ss out later hg hss hl
    rcases hg with ⟨ht, hc⟩ | ⟨hc, hs, ht, hf⟩
    · subst ht; subst hc
      cases ss with
      | nil => simp at hl
      | cons s ss =>
        have hfs := hss s (by simp)
        cases s with
        | nil => obtain ⟨body, h, _⟩ := hfs.shape; simp at h
        | cons x r =>
          rw [List.nil_append, List.flatten_cons, List.cons_append, List.cons_append] at hl
          injection hl with hx hl
          subst hx
          obtain ⟨s', c', t', ss', h1, h2, h3, h4, h5⟩ := step sent [] r ss out later (.inl rfl) hfs (fun s h => hss s (by simp [h])) hl
          exact ⟨s', c', t', ss', h1, h2, h3, h4, by rw [h5]; simp⟩
    · cases todo with
      | nil => exact absurd rfl ht
      | cons x r =>
        rw [List.cons_append, List.cons_append] at hl
        injection hl with hx hl
        subst hx
        obtain ⟨s', c', t', ss', h1, h2, h3, h4, h5⟩ := step sent cur r ss out later (.inr hs) hf hss hl
        exact ⟨s', c', t', ss', h1, h2, h3, h4, by rw [h5]; simp⟩

/-- C59: a stream of framed sentences gives exactly these sentences, in order, however the serial driver splits it into reads, and whatever was in the buffer before.
`p` is what has been received of the next sentence. -/
theorem C59_chunking (reads : List (List Byte)) (ss : List (List Byte)) (p q : List Byte) (hss : ∀ s ∈ ss, Framed s) (hq : q = [] ∧ p = [] ∨ q ≠ [] ∧ Framed (p ++ q))
    (hr : reads.flatten = ss.flatten ++ p) (junk : List Byte) : (gpsRun (junk, []) reads).2 = ss := by
  have key : ∀ (reads : List (List Byte)) (sent cur todo : List Byte) (ss : List (List Byte)) (out : List (List Byte)) (later : List Byte),
      GpsGood sent todo cur → (∀ s ∈ ss, Framed s) → reads.flatten ++ later = todo ++ ss.flatten →
      ∃ sent' cur' todo' ss', GpsGood sent' todo' cur' ∧ (∀ s ∈ ss', Framed s) ∧ later = todo' ++ ss'.flatten
        ∧ (gpsRun (sent, out) reads).2 ++ (if cur' ++ todo' = [] then [] else [cur' ++ todo']) ++ ss' = out ++ (if cur ++ todo = [] then [] else [cur ++ todo]) ++ ss := by
    intro reads
    induction reads with
    | nil => intro sent cur todo ss out later hg hss hl; exact ⟨sent, cur, todo, ss, hg, hss, hl, rfl⟩
    | cons c reads ih =>
      intro sent cur todo ss out later hg hss hl
      rw [List.flatten_cons, List.append_assoc] at hl
      obtain ⟨s1, c1, t1, ss1, h1, h2, h3, h4, h5⟩ := gpsRead_spec c sent cur todo ss out _ hg hss hl
      obtain ⟨s2, c2, t2, ss2, g1, g2, g3, g4⟩ := ih s1 c1 t1 ss1 (gpsRead (sent, out) c).2 later h1 h2 h3
      refine ⟨s2, c2, t2, ss2, g1, g2, g3, ?_⟩
      show (gpsRun (gpsRead (sent, out) c) reads).2 ++ _ ++ _ = _
      rw [h4, g4, h5]
  -- what comes after the reads: the rest of the last sentence
  have hne : ∀ s ∈ ss, s ≠ [] := fun s hs h => by obtain ⟨b, hb, _⟩ := (hss s hs).shape; rw [h] at hb; simp at hb
  obtain ⟨ls, hls1, hls2⟩ : ∃ ls : List (List Byte), (∀ s ∈ ls, Framed s) ∧ ls.flatten = p ++ q ∧ (ls = [] ∧ q = [] ∨ q ≠ [] ∧ ls = [p ++ q]) := by
    rcases hq with ⟨h1, h2⟩ | ⟨h1, h2⟩
    · exact ⟨[], by simp, by simp [h1, h2], .inl ⟨rfl, h1⟩⟩
    · exact ⟨[p ++ q], by simpa using h2, by simp, .inr ⟨h1, rfl⟩⟩
  obtain ⟨hlf, hlc⟩ := hls2
  obtain ⟨s', c', t', ss', g1, g2, g3, g4⟩ := key reads junk [] [] (ss ++ ls) [] q (.inl ⟨rfl, rfl⟩)
    (fun s hs => by rcases List.mem_append.1 hs with h | h; exact hss s h; exact hls1 s h) (by rw [hr]; simp [hlf])
  simp only [List.append_nil, if_true, List.nil_append] at g4
  rcases hlc with ⟨hl0, hq0⟩ | ⟨hq0, hl0⟩
  · -- nothing left
    subst hl0
    rw [hq0] at g3
    have ht : t' = [] := by cases t' with | nil => rfl | cons => simp at g3
    have hss' : ss' = [] := by
      cases ss' with
      | nil => rfl
      | cons s r =>
        rw [ht] at g3
        have : s = [] := by cases s with | nil => rfl | cons => simp at g3
        obtain ⟨b, hb, _⟩ := (g2 s (by simp)).shape
        rw [this] at hb; simp at hb
    have hc : c' = [] := by
      rcases g1 with ⟨_, h⟩ | ⟨_, _, h, _⟩
      · exact h
      · exact absurd ht h
    rw [ht, hss', hc] at g4
    simpa using g4
  · -- the last sentence is still to be completed
    subst hl0
    have hlen : ∀ a b : List (List Byte), a ++ b = ss ++ [p ++ q] → b.length = 1 → a = ss := by
      intro a b h hb
      exact (List.append_inj' h (by simp [hb])).1
    rcases g1 with ⟨ht, hc⟩ | ⟨hc, _, ht, hf⟩
    · subst ht; subst hc
      simp only [List.append_nil, if_true] at g4
      -- `ss'` holds exactly the last sentence
      have hss'ne : ss' ≠ [] := by intro h; rw [h] at g3; simp at g3; exact hq0 g3
      rcases List.eq_nil_or_concat ss' with h | ⟨init, s, hs⟩
      · exact absurd h hss'ne
      · subst hs
        have hassoc : ((gpsRun (junk, []) reads).2 ++ init) ++ [s] = ss ++ [p ++ q] := by simpa using g4
        obtain ⟨e1, e2⟩ := List.append_inj' hassoc rfl
        have e2 : s = p ++ q := by simpa using e2
        -- its length: q = init.flatten ++ p ++ q
        have hlen2 := congrArg List.length g3
        simp [e2] at hlen2
        have hinit : init = [] := by
          cases init with
          | nil => rfl
          | cons a r =>
            have ha := g2 a (by simp)
            obtain ⟨b, hb, _⟩ := ha.shape
            have : 0 < a.length := by rw [hb]; simp
            simp at hlen2
            omega
        rw [hinit] at e1
        simpa using e1
    · have hne' : ¬ (c' ++ t' = []) := by simp [hc]
      rw [if_neg hne'] at g4
      have hss' : ss' = [] := by
        rcases List.eq_nil_or_concat ss' with h | ⟨init, s, hs⟩
        · exact h
        · subst hs
          have hassoc : ((gpsRun (junk, []) reads).2 ++ [c' ++ t'] ++ init) ++ [s] = ss ++ [p ++ q] := by simpa using g4
          obtain ⟨_, e2⟩ := List.append_inj' hassoc rfl
          have e2 : s = p ++ q := by simpa using e2
          have hlen2 := congrArg List.length g3
          simp [e2] at hlen2
          have : 0 < t'.length := List.length_pos_iff.2 ht
          omega
      rw [hss', List.append_nil] at g4
      exact hlen _ _ g4 rfl

/-- C59, finding: text after a line feed that does not begin with `$` is taken twice if it comes in the same read: the result depends on the reads -/
theorem C59_doubled :
    (gpsRun ([], []) [txt "$A\n", txt "BC\n"]).2 = [txt "$A\n", txt "BC\n"]
    ∧ (gpsRun ([], []) [txt "$A\nBC\n"]).2 = [txt "$A\n", txt "BC\nBC\n"] := by decide

/-- C59, finding: a location is published for every line, also for one the parser refuses: the old position with a new time -/
theorem C59_stale {N D : Type} (parser : N → List Byte → N) (data : N → D) (n : N) (ss : List (List Byte)) (h : ∀ s ∈ ss, parser n s = n) :
    published parser data n ss = List.replicate ss.length (data n) := by
  induction ss with
  | nil => rfl
  | cons s r ih =>
    simp only [published, h s (by simp), List.length_cons, List.replicate_succ]
    rw [ih (fun s hs => h s (by simp [hs]))]

/-- case: two sentences and the beginning of a third, split in the middle of the line end and in the middle of a number -/
example : (gpsRun (txt "rubbish", []) [txt "$GPGLL,1", txt "23*00\r", txt "\n$GPGSV,2*11\r\n$G"]).2 = [txt "$GPGLL,123*00\r\n", txt "$GPGSV,2*11\r\n"] := by decide +kernel
example : Framed (txt "$GPGLL,123*00\r\n") := ⟨⟨txt "GPGLL,123*00\r", by decide, by decide⟩, by decide⟩

end Verif.Props
