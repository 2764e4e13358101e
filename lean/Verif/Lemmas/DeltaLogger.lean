import Verif.Spec.LogHistory
import Verif.Lemmas.Codec
import Verif.Props.BitSlice
namespace Verif.Log
open Verif.Bit Verif.Delta

variable {TS TD D DD : Type}

/-- an entry of the bit stream -/
inductive Ent (TS TD D DD : Type)
  | full (t : TS) (v : D)
  | dfull (k : TD) (v : D)
  | ddelta (k : TD) (x : DD)
  | unix (u : Unix)
  | eob

/-- the bits of an entry -/
inductive EntBits (c : Cfg TS TD D DD) : Ent TS TD D DD → List Bool → Prop
  | full {t v a b} (ha : Seg c.ts t a) (hb : Seg c.d v b) : EntBits c (.full t v) ([true, true, false] ++ (a ++ b))
  | dfull {k v a b} (ha : Seg c.td k a) (hb : Seg c.d v b) : EntBits c (.dfull k v) ([false, true] ++ (a ++ b))
  | ddelta {k x a b} (ha : Seg c.td k a) (hb : Seg c.dd x b) : EntBits c (.ddelta k x) ([true, false] ++ (a ++ b))
  | unix {u a} (ha : Seg unixPrim u a) : EntBits c (.unix u) ([false, false] ++ a)
  | eob {pad : List Bool} (hp : pad.length < 8) : EntBits c .eob ([true, true, true] ++ pad)

/-- a stream of entries that starts at bit position `pos`; a flush ends at a byte boundary -/
inductive Str (c : Cfg TS TD D DD) : Nat → List (Ent TS TD D DD) → List Bool → Prop
  | nil (pos : Nat) : Str c pos [] []
  | cons {pos : Nat} {e : Ent TS TD D DD} {eb : List Bool} {es : List (Ent TS TD D DD)} {bits : List Bool} (h : EntBits c e eb)
      (ha : e = .eob → (pos + eb.length) % 8 = 0) (hs : Str c (pos + eb.length) es bits) : Str c pos (e :: es) (eb ++ bits)

theorem Str.snoc {c : Cfg TS TD D DD} {pos : Nat} {es : List (Ent TS TD D DD)} {bits : List Bool} (h : Str c pos es bits) {e : Ent TS TD D DD} {eb : List Bool}
    (he : EntBits c e eb) (ha : e = .eob → (pos + bits.length + eb.length) % 8 = 0) : Str c pos (es ++ [e]) (bits ++ eb) := by
  induction h with
  | nil pos => simpa using Str.cons he (by simpa using ha) (.nil _)
  | cons h ha' hs ih =>
    rw [List.append_assoc]
    refine .cons h ha' (ih ?_)
    intro h'
    have := ha h'
    rw [List.length_append] at this
    rw [← this]; congr 1; omega

/-- what the reader's factories do with an entry -/
def apply (c : Cfg TS TD D DD) (st : Option TS × Option D) : Ent TS TD D DD → (Option TS × Option D) × Res TS D
  | .full t v => (((unPush c.tsDelta st.1 (.full t)).1, (unPush c.dDelta st.2 (.full v)).1),
      result (unPush c.tsDelta st.1 (.full t)).2 (unPush c.dDelta st.2 (.full v)).2)
  | .dfull k v => (((unPush c.tsDelta st.1 (.delta k)).1, (unPush c.dDelta st.2 (.full v)).1),
      result (unPush c.tsDelta st.1 (.delta k)).2 (unPush c.dDelta st.2 (.full v)).2)
  | .ddelta k x => (((unPush c.tsDelta st.1 (.delta k)).1, (unPush c.dDelta st.2 (.delta x)).1),
      result (unPush c.tsDelta st.1 (.delta k)).2 (unPush c.dDelta st.2 (.delta x)).2)
  | .unix u => (st, .data (.unix u))
  | .eob => (st, .again)

def Res.outs {TS D : Type} : Res TS D → List (Out TS D)
  | .data o => [o]
  | _ => []

/-- the state and the output of a sequence of entries -/
def applyAll (c : Cfg TS TD D DD) : Option TS × Option D → List (Ent TS TD D DD) → (Option TS × Option D) × List (Out TS D)
  | st, [] => (st, [])
  | st, e :: es => ((applyAll c (apply c st e).1 es).1, (apply c st e).2.outs ++ (applyAll c (apply c st e).1 es).2)

theorem applyAll_append (c : Cfg TS TD D DD) (st : Option TS × Option D) (es fs : List (Ent TS TD D DD)) :
    applyAll c st (es ++ fs) = ((applyAll c (applyAll c st es).1 fs).1, (applyAll c st es).2 ++ (applyAll c (applyAll c st es).1 fs).2) := by
  induction es generalizing st with
  | nil => simp [applyAll]
  | cons e es ih => simp [applyAll, ih]

/-! the reader -/

def LogReader.avail (s : LogReader TS D) : List Bool := s.r.pend ++ bytesBits s.src

theorem fill_ok {n : Nat} {s : LogReader TS D} (sched : Nat → Nat) (hi : RInv n s.r) (hroom : s.r.lenBits + 8 ≤ 8 * n) :
    ∃ m s', s.fill sched = some (m, s') ∧ RInv n s'.r ∧ s'.avail = s.avail ∧ s'.tsLast = s.tsLast ∧ s'.dLast = s.dLast ∧
      (m = 0 → s.src = []) ∧ s'.src.length + m = s.src.length := by
  have h1 := hi.len; have h2 := hi.order; have h3 := hi.stop
  have hm : min (max 1 (sched s.tick)) (min ((s.r.buffer.length - ((8 - s.r.lenBits % 8) % 8 + s.r.lenBits)) / 8) s.src.length) ≤ s.src.length := by omega
  generalize hmdef : min (max 1 (sched s.tick)) (min ((s.r.buffer.length - ((8 - s.r.lenBits % 8) % 8 + s.r.lenBits)) / 8) s.src.length) = m at hm
  have hfit : ¬ s.r.buffer.length < (8 - s.r.lenBits % 8) % 8 + s.r.lenBits + 8 * (s.src.take m).length := by
    rw [List.length_take]; omega
  have hex : ∃ r', s.r.replenish (s.src.take m) = some r' := by
    unfold Reader.replenish
    simp only
    rw [if_neg hfit]
    exact ⟨_, rfl⟩
  obtain ⟨r', hr'⟩ := hex
  obtain ⟨g1, g2⟩ := replenish_inv hi hr'
  refine ⟨m, { s with r := r', src := s.src.drop m, tick := s.tick + 1 }, ?_, g1, ?_, rfl, rfl, ?_, ?_⟩
  · unfold LogReader.fill
    simp only [hmdef, hr']
  · unfold LogReader.avail
    simp only
    rw [g2, List.append_assoc, ← bytesBits_append, List.take_append_drop]
  · intro h0
    apply List.eq_nil_of_length_eq_zero
    omega
  · simp only [List.length_drop]; omega

theorem ensureLoop_ok {n k : Nat} (sched : Nat → Nat) (hk : k + 7 ≤ 8 * n) : ∀ (fuel : Nat) (s : LogReader TS D), RInv n s.r → s.src.length < fuel →
    ∃ b s', s.ensureLoop sched k fuel = some (b, s') ∧ RInv n s'.r ∧ s'.avail = s.avail ∧ s'.tsLast = s.tsLast ∧ s'.dLast = s.dLast ∧
      (b = true ↔ k ≤ s.avail.length) ∧ (b = true → k ≤ s'.r.lenBits) := by
  intro fuel
  induction fuel with
  | zero => intro s _ h; exact absurd h (Nat.not_lt_zero _)
  | succ fuel ih =>
    intro s hi hf
    have hp := hi.pend_length
    unfold LogReader.ensureLoop
    by_cases hlt : s.r.lenBits < k
    · rw [if_pos hlt]
      obtain ⟨m, s', e1, e2, e3, e4, e5, e6, e7⟩ := fill_ok sched hi (by omega)
      rw [e1]
      simp only
      by_cases hm : m = 0
      · rw [if_pos hm]
        refine ⟨false, s', rfl, e2, e3, e4, e5, ?_, by simp⟩
        constructor
        · simp
        · intro hle
          rw [LogReader.avail, e6 hm, List.length_append, hp] at hle
          simp [bytesBits] at hle
          omega
      · rw [if_neg hm]
        obtain ⟨b, s'', g1, g2, g3, g4, g5, g6, g7⟩ := ih s' e2 (by omega)
        exact ⟨b, s'', g1, g2, g3.trans e3, g4.trans e4, g5.trans e5, by rw [g6, e3], g7⟩
    · rw [if_neg hlt]
      refine ⟨true, s, rfl, hi, rfl, rfl, rfl, ?_, fun _ => by omega⟩
      constructor
      · intro _; rw [LogReader.avail, List.length_append, hp]; omega
      · intro _; rfl

theorem ensure_ok {n k : Nat} (sched : Nat → Nat) (hk : k + 7 ≤ 8 * n) (s : LogReader TS D) (hi : RInv n s.r) :
    ∃ b s', s.ensure sched k = some (b, s') ∧ RInv n s'.r ∧ s'.avail = s.avail ∧ s'.tsLast = s.tsLast ∧ s'.dLast = s.dLast ∧
      (b = true ↔ k ≤ s.avail.length) ∧ (b = true → k ≤ s'.r.lenBits) :=
  ensureLoop_ok sched hk _ s hi (Nat.lt_succ_self _)

theorem take_ok {n : Nat} {α : Type} {p : Prim α} {v : α} {seg tail : List Bool} {s : LogReader TS D} (hi : RInv n s.r) (hs : Seg p v seg)
    (hav : s.avail = seg ++ tail) (hl : p.len ≤ s.r.lenBits) :
    ∃ s', s.take p = some (v, s') ∧ RInv n s'.r ∧ s'.avail = tail ∧ s'.tsLast = s.tsLast ∧ s'.dLast = s.dLast ∧ s'.r.lenBits + p.len = s.r.lenBits := by
  have hp := hi.pend_length
  obtain ⟨t, ht⟩ : seg <+: s.r.pend := by
    have h1 : s.r.pend <+: seg ++ tail := ⟨bytesBits s.src, hav⟩
    apply List.prefix_of_prefix_length_le (List.prefix_append seg tail) h1
    rw [hs.1, hp]; exact hl
  obtain ⟨g1, g2, g3⟩ := read_inv hi p hl v (by rw [← ht]; exact hs.2 t)
  refine ⟨{ s with r := { s.r with start := s.r.start + p.len } }, ?_, g2, ?_, rfl, rfl, ?_⟩
  · unfold LogReader.take
    rw [g1]
  · unfold LogReader.avail
    simp only
    rw [g3, ← ht, ← hs.1, List.drop_left]
    rw [LogReader.avail, ← ht, List.append_assoc] at hav
    exact List.append_cancel_left hav
  · have hl' : p.len ≤ s.r.stop - s.r.start := hl
    simp only [Reader.lenBits]; omega

/-- reading a field of the stream, all of it or only a part of it present -/
theorem get_ok {n : Nat} {α : Type} {p : Prim α} {v : α} {seg rest : List Bool} {s : LogReader TS D} (sched : Nat → Nat) (hi : RInv n s.r) (hs : Seg p v seg)
    (hk : p.len + 7 ≤ 8 * n) (hav : s.avail <+: seg ++ rest) :
    (∃ s' tail, s.avail = seg ++ tail ∧ s.get sched p = some (some v, s') ∧ RInv n s'.r ∧ s'.avail = tail ∧ s'.tsLast = s.tsLast ∧ s'.dLast = s.dLast) ∨
    (s.avail.length < seg.length ∧ ∃ s', s.get sched p = some (none, s')) := by
  obtain ⟨b, s1, e1, e2, e3, e4, e5, e6, e7⟩ := ensure_ok sched hk s hi
  unfold LogReader.get
  rw [e1]
  cases b with
  | true =>
    left
    have hle : p.len ≤ s.avail.length := e6.mp rfl
    obtain ⟨tail, ht⟩ : seg <+: s.avail := by
      apply List.prefix_of_prefix_length_le (List.prefix_append seg rest) hav
      rw [hs.1]; exact hle
    obtain ⟨s2, g1, g2, g3, g4, g5, _⟩ := take_ok e2 hs (e3.trans ht.symm) (e7 rfl)
    refine ⟨s2, tail, ht.symm, ?_, g2, g3, g4.trans e4, g5.trans e5⟩
    simp only [g1]
  | false =>
    right
    refine ⟨?_, s1, rfl⟩
    rw [hs.1]
    apply Nat.not_le.mp
    intro h
    exact absurd (e6.mpr h) (by simp)

theorem seg_bool (b : Bool) : Seg Prim.bool b [b] := ⟨rfl, fun _ => rfl⟩

structure Cfg.Rooms (c : Cfg TS TD D DD) : Prop where
  ts : c.ts.len + 7 ≤ 8 * c.bytes
  td : c.td.len + 7 ≤ 8 * c.bytes
  d : c.d.len + 7 ≤ 8 * c.bytes
  dd : c.dd.len + 7 ≤ 8 * c.bytes
  unix : 128 + 7 ≤ 8 * c.bytes

theorem Cfg.Fits.rooms {c : Cfg TS TD D DD} (h : c.Fits) : c.Rooms := by
  have := h.full; have := h.dfull; have := h.ddelta; have := h.unix
  exact ⟨by omega, by omega, by omega, by omega, by omega⟩

theorem readFull_ok {c : Cfg TS TD D DD} (hr : c.Rooms) {t : TS} {v : D} {a b rest : List Bool} {s : LogReader TS D} (sched : Nat → Nat)
    (hi : RInv c.bytes s.r) (ha : Seg c.ts t a) (hb : Seg c.d v b) (hav : s.avail <+: (a ++ b) ++ rest) :
    (∃ s' tail, s.avail = (a ++ b) ++ tail ∧ s.readFull c sched = some ((apply c (s.tsLast, s.dLast) (.full t v)).2, s') ∧ RInv c.bytes s'.r ∧ s'.avail = tail ∧
      (s'.tsLast, s'.dLast) = (apply c (s.tsLast, s.dLast) (.full t v)).1) ∨
    (s.avail.length < (a ++ b).length ∧ ∃ s', s.readFull c sched = some (.eof, s')) := by
  rw [List.append_assoc] at hav
  rcases get_ok sched hi ha hr.ts hav with ⟨s1, tail, f1, f2, f3, f4, f5, f6⟩ | ⟨f1, s1, f2⟩
  · have hav' : s1.avail <+: b ++ rest := by
      rw [f1] at hav
      rw [f4]
      exact (List.prefix_append_right_inj a).mp hav
    rcases get_ok (s := { s1 with tsLast := (unPush c.tsDelta s1.tsLast (.full t)).1 }) sched f3 hb hr.d hav' with ⟨s2, tail', g1, g2, g3, g4, g5, g6⟩ | ⟨g1, s2, g2⟩
    · left
      refine ⟨{ s2 with dLast := (unPush c.dDelta s2.dLast (.full v)).1 }, tail', ?_, ?_, g3, g4, ?_⟩
      · have g1 : s1.avail = b ++ tail' := g1
        rw [f1, ← f4, g1, List.append_assoc]
      · unfold LogReader.readFull
        simp only [f2, g2]
        rw [g6, f5]
        simp only [f6, apply]
      · simp only [g5, g6, f5, f6, apply]
    · right
      have g1 : s1.avail.length < b.length := g1
      refine ⟨by rw [f1, ← f4, List.length_append, List.length_append]; omega, s2, ?_⟩
      unfold LogReader.readFull
      simp only [f2, g2]
  · right
    refine ⟨by rw [List.length_append]; omega, s1, ?_⟩
    unfold LogReader.readFull
    simp only [f2]

theorem readDeltaFull_ok {c : Cfg TS TD D DD} (hr : c.Rooms) {k : TD} {v : D} {a b rest : List Bool} {s : LogReader TS D} (sched : Nat → Nat)
    (hi : RInv c.bytes s.r) (ha : Seg c.td k a) (hb : Seg c.d v b) (hav : s.avail <+: (a ++ b) ++ rest) :
    (∃ s' tail, s.avail = (a ++ b) ++ tail ∧ s.readDeltaFull c sched = some ((apply c (s.tsLast, s.dLast) (.dfull k v)).2, s') ∧ RInv c.bytes s'.r ∧ s'.avail = tail ∧
      (s'.tsLast, s'.dLast) = (apply c (s.tsLast, s.dLast) (.dfull k v)).1) ∨
    (s.avail.length < (a ++ b).length ∧ ∃ s', s.readDeltaFull c sched = some (.eof, s')) := by
  rw [List.append_assoc] at hav
  rcases get_ok sched hi ha hr.td hav with ⟨s1, tail, f1, f2, f3, f4, f5, f6⟩ | ⟨f1, s1, f2⟩
  · have hav' : s1.avail <+: b ++ rest := by
      rw [f1] at hav
      rw [f4]
      exact (List.prefix_append_right_inj a).mp hav
    rcases get_ok (s := { s1 with tsLast := (unPush c.tsDelta s1.tsLast (.delta k)).1 }) sched f3 hb hr.d hav' with ⟨s2, tail', g1, g2, g3, g4, g5, g6⟩ | ⟨g1, s2, g2⟩
    · left
      refine ⟨{ s2 with dLast := (unPush c.dDelta s2.dLast (.full v)).1 }, tail', ?_, ?_, g3, g4, ?_⟩
      · have g1 : s1.avail = b ++ tail' := g1
        rw [f1, ← f4, g1, List.append_assoc]
      · unfold LogReader.readDeltaFull
        simp only [f2, g2]
        rw [g6, f5]
        simp only [f6, apply]
      · simp only [g5, g6, f5, f6, apply]
    · right
      have g1 : s1.avail.length < b.length := g1
      refine ⟨by rw [f1, ← f4, List.length_append, List.length_append]; omega, s2, ?_⟩
      unfold LogReader.readDeltaFull
      simp only [f2, g2]
  · right
    refine ⟨by rw [List.length_append]; omega, s1, ?_⟩
    unfold LogReader.readDeltaFull
    simp only [f2]

theorem readDeltaDelta_ok {c : Cfg TS TD D DD} (hr : c.Rooms) {k : TD} {x : DD} {a b rest : List Bool} {s : LogReader TS D} (sched : Nat → Nat)
    (hi : RInv c.bytes s.r) (ha : Seg c.td k a) (hb : Seg c.dd x b) (hav : s.avail <+: (a ++ b) ++ rest) :
    (∃ s' tail, s.avail = (a ++ b) ++ tail ∧ s.readDeltaDelta c sched = some ((apply c (s.tsLast, s.dLast) (.ddelta k x)).2, s') ∧ RInv c.bytes s'.r ∧ s'.avail = tail ∧
      (s'.tsLast, s'.dLast) = (apply c (s.tsLast, s.dLast) (.ddelta k x)).1) ∨
    (s.avail.length < (a ++ b).length ∧ ∃ s', s.readDeltaDelta c sched = some (.eof, s')) := by
  rw [List.append_assoc] at hav
  rcases get_ok sched hi ha hr.td hav with ⟨s1, tail, f1, f2, f3, f4, f5, f6⟩ | ⟨f1, s1, f2⟩
  · have hav' : s1.avail <+: b ++ rest := by
      rw [f1] at hav
      rw [f4]
      exact (List.prefix_append_right_inj a).mp hav
    rcases get_ok (s := { s1 with tsLast := (unPush c.tsDelta s1.tsLast (.delta k)).1 }) sched f3 hb hr.dd hav' with ⟨s2, tail', g1, g2, g3, g4, g5, g6⟩ | ⟨g1, s2, g2⟩
    · left
      refine ⟨{ s2 with dLast := (unPush c.dDelta s2.dLast (.delta x)).1 }, tail', ?_, ?_, g3, g4, ?_⟩
      · have g1 : s1.avail = b ++ tail' := g1
        rw [f1, ← f4, g1, List.append_assoc]
      · unfold LogReader.readDeltaDelta
        simp only [f2, g2]
        rw [g6, f5]
        simp only [f6, apply]
      · simp only [g5, g6, f5, f6, apply]
    · right
      have g1 : s1.avail.length < b.length := g1
      refine ⟨by rw [f1, ← f4, List.length_append, List.length_append]; omega, s2, ?_⟩
      unfold LogReader.readDeltaDelta
      simp only [f2, g2]
  · right
    refine ⟨by rw [List.length_append]; omega, s1, ?_⟩
    unfold LogReader.readDeltaDelta
    simp only [f2]

theorem readUnix_ok {c : Cfg TS TD D DD} (hr : c.Rooms) {u : Unix} {a rest : List Bool} {s : LogReader TS D} (sched : Nat → Nat)
    (hi : RInv c.bytes s.r) (ha : Seg unixPrim u a) (hav : s.avail <+: a ++ rest) :
    (∃ s' tail, s.avail = a ++ tail ∧ s.readUnix sched = some (.data (.unix u), s') ∧ RInv c.bytes s'.r ∧ s'.avail = tail ∧
      (s'.tsLast, s'.dLast) = (s.tsLast, s.dLast)) ∨
    (s.avail.length < a.length ∧ ∃ s', s.readUnix sched = some (.eof, s')) := by
  rcases get_ok sched hi ha hr.unix hav with ⟨s1, tail, f1, f2, f3, f4, f5, f6⟩ | ⟨f1, s1, f2⟩
  · left
    refine ⟨s1, tail, f1, ?_, f3, f4, by rw [f5, f6]⟩
    unfold LogReader.readUnix
    simp only [f2]
  · right
    refine ⟨f1, s1, ?_⟩
    unfold LogReader.readUnix
    simp only [f2]

/-- the two header bits -/
theorem header_ok {c : Cfg TS TD D DD} (hr : c.Rooms) {h1 h2 : Bool} {rest : List Bool} {s : LogReader TS D} (sched : Nat → Nat)
    (hi : RInv c.bytes s.r) (hav : s.avail <+: [h1, h2] ++ rest) :
    (∃ s1 s2 s3 tail, s.avail = [h1, h2] ++ tail ∧ s.ensure sched 2 = some (true, s1) ∧ s1.take Prim.bool = some (h1, s2) ∧ s2.take Prim.bool = some (h2, s3) ∧
      RInv c.bytes s3.r ∧ s3.avail = tail ∧ s3.tsLast = s.tsLast ∧ s3.dLast = s.dLast) ∨
    (s.avail.length < 2 ∧ ∃ s', s.ensure sched 2 = some (false, s')) := by
  obtain ⟨b, s1, e1, e2, e3, e4, e5, e6, e7⟩ := ensure_ok (k := 2) sched (by have := hr.unix; omega) s hi
  cases b with
  | true =>
    left
    obtain ⟨tail, ht⟩ : [h1, h2] <+: s.avail :=
      List.prefix_of_prefix_length_le (List.prefix_append [h1, h2] rest) hav (e6.mp rfl)
    have hl2 := e7 rfl
    obtain ⟨s2, g1, g2, g3, g4, g5, g6⟩ := take_ok (tail := [h2] ++ tail) e2 (seg_bool h1) (by rw [e3, ← ht]; rfl) (show (1 : Nat) ≤ _ by omega)
    have g6 : s2.r.lenBits + 1 = s1.r.lenBits := g6
    obtain ⟨s3, k1, k2, k3, k4, k5, _⟩ := take_ok (tail := tail) g2 (seg_bool h2) g3 (show (1 : Nat) ≤ _ by omega)
    exact ⟨s1, s2, s3, tail, ht.symm, e1, g1, k1, k2, k3, k4.trans (g4.trans e4), k5.trans (g5.trans e5)⟩
  | false =>
    right
    refine ⟨?_, s1, e1⟩
    apply Nat.not_le.mp
    intro h
    exact absurd (e6.mpr h) (by simp)

theorem skip_ok {n : Nat} {r : Reader} (hi : RInv n r) : RInv n r.skipByte ∧ r.skipByte.pend = r.pend.drop (r.lenBits % 8) := by
  have h1 := hi.len; have h2 := hi.order; have h3 := hi.stop; have h4 := hi.align
  have hs : (r.start + 7) / 8 * 8 = r.start + r.lenBits % 8 := by unfold Reader.lenBits; omega
  have hle : r.start + r.lenBits % 8 ≤ r.stop := by unfold Reader.lenBits; omega
  refine ⟨⟨h1, by simp only [Reader.skipByte]; omega, h3, h4⟩, ?_⟩
  unfold Reader.pend Reader.skipByte
  simp only
  rw [hs, List.drop_take, List.drop_drop]
  congr 1; omega

/-- `inner_read` on a stream: the next entry, or the end of the file when it is not all there -/
theorem inner_ok {c : Cfg TS TD D DD} (hr : c.Rooms) {e : Ent TS TD D DD} {eb rest : List Bool} {s : LogReader TS D} {pos : Nat} (sched : Nat → Nat)
    (hi : RInv c.bytes s.r) (he : EntBits c e eb) (ha : e = .eob → (pos + eb.length) % 8 = 0) (htot : (pos + s.avail.length) % 8 = 0)
    (hav : s.avail <+: eb ++ rest) :
    (∃ s' tail, s.avail = eb ++ tail ∧ s.inner c sched = some ((apply c (s.tsLast, s.dLast) e).2, s') ∧ RInv c.bytes s'.r ∧ s'.avail = tail ∧
      (s'.tsLast, s'.dLast) = (apply c (s.tsLast, s.dLast) e).1) ∨
    (s.avail.length < eb.length ∧ ∃ s', s.inner c sched = some (.eof, s')) := by
  cases he with
  | @dfull k v a b h1 h2 =>
    rcases header_ok hr sched hi (h1 := false) (h2 := true) (rest := a ++ b ++ rest) (by simpa using hav) with ⟨s1, s2, s3, tail, f1, f2, f3, f4, f5, f6, f7, f8⟩ | ⟨f1, s', f2⟩
    · have hav' : s3.avail <+: (a ++ b) ++ rest := by
        rw [f1, List.append_assoc] at hav; rw [f6]; exact (List.prefix_append_right_inj _).mp hav
      rcases readDeltaFull_ok hr sched f5 h1 h2 hav' with ⟨s4, tail', g1, g2, g3, g4, g5⟩ | ⟨g1, s4, g2⟩
      · left
        refine ⟨s4, tail', by rw [f1, ← f6, g1]; simp, ?_, g3, g4, by rw [g5, f7, f8]⟩
        unfold LogReader.inner
        simp only [f2, f3, f4, g2, f7, f8]
      · right
        refine ⟨by rw [f1, ← f6, List.length_append, List.length_append]; omega, s4, ?_⟩
        unfold LogReader.inner
        simp only [f2, f3, f4, g2]
    · right
      refine ⟨by rw [List.length_append]; exact Nat.lt_of_lt_of_le f1 (Nat.le_add_right _ _), s', ?_⟩
      unfold LogReader.inner
      simp only [f2]
  | @ddelta k x a b h1 h2 =>
    rcases header_ok hr sched hi (h1 := true) (h2 := false) (rest := a ++ b ++ rest) (by simpa using hav) with ⟨s1, s2, s3, tail, f1, f2, f3, f4, f5, f6, f7, f8⟩ | ⟨f1, s', f2⟩
    · have hav' : s3.avail <+: (a ++ b) ++ rest := by
        rw [f1, List.append_assoc] at hav; rw [f6]; exact (List.prefix_append_right_inj _).mp hav
      rcases readDeltaDelta_ok hr sched f5 h1 h2 hav' with ⟨s4, tail', g1, g2, g3, g4, g5⟩ | ⟨g1, s4, g2⟩
      · left
        refine ⟨s4, tail', by rw [f1, ← f6, g1]; simp, ?_, g3, g4, by rw [g5, f7, f8]⟩
        unfold LogReader.inner
        simp only [f2, f3, f4, g2, f7, f8]
      · right
        refine ⟨by rw [f1, ← f6, List.length_append, List.length_append]; omega, s4, ?_⟩
        unfold LogReader.inner
        simp only [f2, f3, f4, g2]
    · right
      refine ⟨by rw [List.length_append]; exact Nat.lt_of_lt_of_le f1 (Nat.le_add_right _ _), s', ?_⟩
      unfold LogReader.inner
      simp only [f2]
  | @unix u a h1 =>
    rcases header_ok hr sched hi (h1 := false) (h2 := false) (rest := a ++ rest) (by simpa using hav) with ⟨s1, s2, s3, tail, f1, f2, f3, f4, f5, f6, f7, f8⟩ | ⟨f1, s', f2⟩
    · have hav' : s3.avail <+: a ++ rest := by
        rw [f1, List.append_assoc] at hav; rw [f6]; exact (List.prefix_append_right_inj _).mp hav
      rcases readUnix_ok hr sched f5 h1 hav' with ⟨s4, tail', g1, g2, g3, g4, g5⟩ | ⟨g1, s4, g2⟩
      · left
        refine ⟨s4, tail', by rw [f1, ← f6, g1]; simp, ?_, g3, g4, by rw [g5, f7, f8]; rfl⟩
        unfold LogReader.inner
        simp only [f2, f3, f4, g2, apply]
      · right
        refine ⟨by rw [f1, ← f6, List.length_append, List.length_append]; omega, s4, ?_⟩
        unfold LogReader.inner
        simp only [f2, f3, f4, g2]
    · right
      refine ⟨by rw [List.length_append]; exact Nat.lt_of_lt_of_le f1 (Nat.le_add_right _ _), s', ?_⟩
      unfold LogReader.inner
      simp only [f2]
  | @full t v a b h1 h2 =>
    rcases header_ok hr sched hi (h1 := true) (h2 := true) (rest := [false] ++ (a ++ b) ++ rest) (by simpa using hav) with ⟨s1, s2, s3, tail, f1, f2, f3, f4, f5, f6, f7, f8⟩ | ⟨f1, s', f2⟩
    · have hav' : s3.avail <+: [false] ++ ((a ++ b) ++ rest) := by
        have e : [true, true, false] ++ (a ++ b) ++ rest = [true, true] ++ ([false] ++ ((a ++ b) ++ rest)) := by simp
        rw [e, f1] at hav; rw [f6]; exact (List.prefix_append_right_inj _).mp hav
      rcases get_ok sched f5 (seg_bool false) (by have := hr.unix; simp only [Prim.bool]; omega) hav' with ⟨s4, tail', g1, g2, g3, g4, g5, g6⟩ | ⟨g1, s4, g2⟩
      · have hav'' : s4.avail <+: (a ++ b) ++ rest := by
          rw [g1] at hav'; rw [g4]; exact (List.prefix_append_right_inj _).mp hav'
        rcases readFull_ok hr sched g3 h1 h2 hav'' with ⟨s5, tail'', k1, k2, k3, k4, k5⟩ | ⟨k1, s5, k2⟩
        · left
          refine ⟨s5, tail'', by rw [f1, ← f6, g1, ← g4, k1]; simp, ?_, k3, k4, by rw [k5, g5, g6, f7, f8]⟩
          unfold LogReader.inner
          simp only [f2, f3, f4, g2, k2, g5, g6, f7, f8]
        · right
          refine ⟨by rw [f1, ← f6, g1, ← g4]; simp only [List.length_append, List.length_cons, List.length_nil] at k1 ⊢; omega, s5, ?_⟩
          unfold LogReader.inner
          simp only [f2, f3, f4, g2, k2]
      · right
        refine ⟨by rw [f1, ← f6]; simp only [List.length_append, List.length_cons, List.length_nil] at g1 ⊢; omega, s4, ?_⟩
        unfold LogReader.inner
        simp only [f2, f3, f4, g2]
    · right
      refine ⟨by simp only [List.length_append, List.length_cons, List.length_nil]; omega, s', ?_⟩
      unfold LogReader.inner
      simp only [f2]
  | @eob pad hp =>
    rcases header_ok hr sched hi (h1 := true) (h2 := true) (rest := [true] ++ pad ++ rest) (by simpa using hav) with ⟨s1, s2, s3, tail, f1, f2, f3, f4, f5, f6, f7, f8⟩ | ⟨f1, s', f2⟩
    · have hav' : s3.avail <+: [true] ++ (pad ++ rest) := by
        have e : [true, true, true] ++ pad ++ rest = [true, true] ++ ([true] ++ (pad ++ rest)) := by simp
        rw [e, f1] at hav; rw [f6]; exact (List.prefix_append_right_inj _).mp hav
      rcases get_ok sched f5 (seg_bool true) (by have := hr.unix; simp only [Prim.bool]; omega) hav' with ⟨s4, tail', g1, g2, g3, g4, g5, g6⟩ | ⟨g1, s4, g2⟩
      · left
        have hal := ha rfl
        simp only [List.length_append, List.length_cons, List.length_nil] at hal
        have hlen : s.avail.length = 3 + tail'.length := by
          rw [f1, ← f6, g1]; simp only [List.length_append, List.length_cons, List.length_nil]; omega
        have hpend := g3.pend_length
        have hlt : s4.r.lenBits % 8 = pad.length := by
          have h4 : tail'.length = s4.r.lenBits + 8 * s4.src.length := by
            rw [← g4, LogReader.avail, List.length_append, hpend, bytesBits_length]
          omega
        have hpre : tail' <+: pad ++ rest := by
          rw [g1] at hav'; exact (List.prefix_append_right_inj _).mp hav'
        have hle : pad.length ≤ s4.r.pend.length := by rw [hpend, ← hlt]; exact Nat.mod_le _ _
        obtain ⟨q, hq⟩ : pad <+: s4.r.pend := by
          have h1 : s4.r.pend <+: pad ++ rest := List.IsPrefix.trans ⟨_, g4⟩ hpre
          exact List.prefix_of_prefix_length_le (List.prefix_append _ _) h1 hle
        obtain ⟨k1, k2⟩ := skip_ok g3
        rw [hlt, ← hq, List.drop_left] at k2
        refine ⟨{ s4 with r := s4.r.skipByte }, q ++ bytesBits s4.src, ?_, ?_, k1, ?_, ?_⟩
        · rw [f1, ← f6, g1, ← g4, LogReader.avail, ← hq]; simp
        · unfold LogReader.inner
          simp only [f2, f3, f4, g2, apply]
        · unfold LogReader.avail
          simp only [k2]
        · simp only [g5, g6, f7, f8, apply]
      · right
        refine ⟨by rw [f1, ← f6]; simp only [List.length_append, List.length_cons, List.length_nil] at g1 ⊢; omega, s4, ?_⟩
        unfold LogReader.inner
        simp only [f2, f3, f4, g2]
    · right
      refine ⟨by simp only [List.length_append, List.length_cons, List.length_nil]; omega, s', ?_⟩
      unfold LogReader.inner
      simp only [f2]

end Verif.Log
