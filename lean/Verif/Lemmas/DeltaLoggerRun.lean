import Verif.Lemmas.DeltaLogger
namespace Verif.Log
open Verif.Bit Verif.Delta

variable {TS TD D DD : Type}

theorem entBits_two {c : Cfg TS TD D DD} {e : Ent TS TD D DD} {eb : List Bool} (h : EntBits c e eb) : 2 ≤ eb.length := by
  cases h <;> simp

/-- the loop of `read` on a stream -/
theorem readLoop_ok {c : Cfg TS TD D DD} (hr : c.Rooms) (sched : Nat → Nat) : ∀ (fuel : Nat) (es : List (Ent TS TD D DD)) (bits : List Bool) (pos : Nat) (s : LogReader TS D),
    RInv c.bytes s.r → Str c pos es bits → s.avail <+: bits → (pos + s.avail.length) % 8 = 0 → s.avail.length < fuel →
    (∃ o s' es1 es2 b2 pos', s.readLoop c sched fuel = some (some o, s') ∧ es = es1 ++ es2 ∧ Str c pos' es2 b2 ∧ s'.avail <+: b2 ∧ (pos' + s'.avail.length) % 8 = 0 ∧
      RInv c.bytes s'.r ∧ applyAll c (s.tsLast, s.dLast) es1 = ((s'.tsLast, s'.dLast), [o]) ∧ (s.avail = bits → s'.avail = b2)) ∨
    (∃ s' es1 es2, s.readLoop c sched fuel = some (none, s') ∧ es = es1 ++ es2 ∧ (applyAll c (s.tsLast, s.dLast) es1).2 = [] ∧ (s.avail = bits → es2 = [])) := by
  intro fuel
  induction fuel with
  | zero => intro _ _ _ s _ _ _ _ h; exact absurd h (Nat.not_lt_zero _)
  | succ fuel ih =>
    intro es bits pos s hi hs hav htot hf
    unfold LogReader.readLoop
    cases hs with
    | nil =>
      right
      have h0 : s.avail = [] := List.prefix_nil.mp hav
      rcases header_ok hr sched hi (h1 := true) (h2 := true) (rest := []) (by rw [h0]; exact List.nil_prefix) with ⟨s1, s2, s3, tail, f1, _⟩ | ⟨_, s', f2⟩
      · rw [h0] at f1; exact absurd f1 (by simp)
      · refine ⟨s', [], [], ?_, rfl, rfl, fun _ => rfl⟩
        have : s.inner c sched = some (.eof, s') := by
          unfold LogReader.inner
          simp only [f2]
        simp only [this]
    | @cons _ e eb es rest he ha hs =>
      have h2 := entBits_two he
      rcases inner_ok hr sched hi he ha htot hav with ⟨s1, tail, f1, f2, f3, f4, f5⟩ | ⟨f1, s1, f2⟩
      · have hav' : s1.avail <+: rest := by rw [f1] at hav; rw [f4]; exact (List.prefix_append_right_inj _).mp hav
        have hlen : s.avail.length = eb.length + s1.avail.length := by rw [f1, f4, List.length_append]
        rw [f2]
        have hfull : s.avail = eb ++ rest → s1.avail = rest := by
          intro h; rw [f1] at h; rw [f4]; exact List.append_cancel_left h
        cases hres : (apply c (s.tsLast, s.dLast) e).2 with
        | eof => cases e <;> simp only [apply, result] at hres <;> first | (split at hres <;> exact absurd hres (by simp)) | exact absurd hres (by simp)
        | data o =>
          left
          refine ⟨o, s1, [e], es, rest, pos + eb.length, rfl, rfl, hs, hav', by rw [← htot, hlen]; congr 1; omega, f3, ?_, hfull⟩
          simp only [applyAll, hres, Res.outs, ← f5, List.append_nil]
        | again =>
          simp only
          have happ : applyAll c (s.tsLast, s.dLast) [e] = ((s1.tsLast, s1.dLast), []) := by
            simp only [applyAll, hres, Res.outs, ← f5, List.append_nil]
          rcases ih es rest (pos + eb.length) s1 f3 hs hav' (by rw [← htot, hlen]; congr 1; omega) (by omega) with
            ⟨o, s', es1, es2, b2, pos', k1, k2, k3, k4, k5, k6, k7, k8⟩ | ⟨s', es1, es2, k1, k2, k3, k4⟩
          · left
            refine ⟨o, s', e :: es1, es2, b2, pos', k1, by rw [k2]; rfl, k3, k4, k5, k6, ?_, fun h => k8 (hfull h)⟩
            rw [show e :: es1 = [e] ++ es1 from rfl, applyAll_append, happ]
            simp only [k7, List.nil_append]
          · right
            refine ⟨s', e :: es1, es2, k1, by rw [k2]; rfl, ?_, fun h => k4 (hfull h)⟩
            rw [show e :: es1 = [e] ++ es1 from rfl, applyAll_append, happ]
            simp only [k3, List.nil_append]
      · right
        rw [f2]
        refine ⟨s1, [], e :: es, rfl, rfl, rfl, ?_⟩
        intro h
        rw [h, List.length_append] at f1
        omega

/-- a reader opened on (a byte prefix of) a stream -/
theorem readRun_inv {c : Cfg TS TD D DD} (hr : c.Rooms) {sched : Nat → Nat} {src : Bytes} {ents : List (Ent TS TD D DD)} {bits : List Bool}
    (hs : Str c 0 ents bits) (hpre : bytesBits src <+: bits) {s : LogReader TS D} {outs : List (Out TS D)} (h : ReadRun c sched src s outs) :
    RInv c.bytes s.r ∧ ∃ es1 es2 b2 pos, ents = es1 ++ es2 ∧ Str c pos es2 b2 ∧ s.avail <+: b2 ∧ (pos + s.avail.length) % 8 = 0 ∧
      applyAll c (none, none) es1 = ((s.tsLast, s.dLast), outs) ∧ (bytesBits src = bits → s.avail = b2) := by
  induction h with
  | new =>
    have hav : (LogReader.new c src : LogReader TS D).avail = bytesBits src := by
      simp [LogReader.avail, LogReader.new, Reader.new, Reader.pend]
    refine ⟨⟨by simp [LogReader.new, Reader.new], Nat.le_refl _, Nat.zero_le _, rfl⟩, [], ents, bits, 0, rfl, hs, by rw [hav]; exact hpre, ?_, rfl, fun h => hav.trans h⟩
    rw [hav, bytesBits_length]; omega
  | @next s s' outs o hrun hread ih =>
    obtain ⟨hi, es1, es2, b2, pos, e1, e2, e3, e4, e5, e6⟩ := ih
    have hfuel : s.avail.length < s.r.lenBits + 8 * s.src.length + 1 := by
      rw [LogReader.avail, List.length_append, hi.pend_length, bytesBits_length]; omega
    unfold LogReader.read at hread
    rcases readLoop_ok hr sched _ es2 b2 pos s hi e2 e3 e4 hfuel with ⟨o', s'', fs1, fs2, b3, pos', k1, k2, k3, k4, k5, k6, k7, k8⟩ | ⟨s'', fs1, fs2, k1, k2, k3, k4⟩
    · rw [k1] at hread
      injection hread with hread
      injection hread with h1 h2
      injection h1 with h1
      subst h1; subst h2
      refine ⟨k6, es1 ++ fs1, fs2, b3, pos', by rw [e1, k2, List.append_assoc], k3, k4, k5, ?_, fun h => k8 (e6 h)⟩
      rw [applyAll_append, e5]
      simp only [k7]
    · rw [k1] at hread
      injection hread with hread
      injection hread with h1 h2
      exact absurd h1 (by simp)

/-! the writer -/

theorem push_spec {T E : Type} {dt : Deltable T E} {last last' : Option T} {v : T} {e : Enc T E} (h : push dt last v = some (last', e)) :
    ∃ w, last' = some w ∧ unPush dt last e = (some w, some w) := by
  unfold push at h
  cases last with
  | none => simp only at h; injection h with h; injection h with h1 h2; subst h1; subst h2; exact ⟨v, rfl, rfl⟩
  | some l =>
    simp only at h
    cases hs : dt.subtract v l with
    | none => rw [hs] at h; simp only at h; injection h with h; injection h with h1 h2; subst h1; subst h2; exact ⟨v, rfl, rfl⟩
    | some d =>
      rw [hs] at h
      simp only at h
      cases ha : dt.addDelta l d with
      | none => rw [ha] at h; exact absurd h (by simp)
      | some w =>
        rw [ha] at h
        simp only at h
        injection h with h; injection h with h1 h2; subst h1; subst h2
        exact ⟨w, rfl, by simp [unPush, ha]⟩

theorem push_some {T E : Type} {dt : Deltable T E} (ha : Applies dt) (last : Option T) (v : T) : ∃ r, push dt last v = some r := by
  unfold push
  cases last with
  | none => exact ⟨_, rfl⟩
  | some l =>
    simp only
    cases hs : dt.subtract v l with
    | none => exact ⟨_, rfl⟩
    | some d =>
      obtain ⟨w, hw⟩ := ha v l d hs
      simp only [hw]
      exact ⟨_, rfl⟩

/-- a full value is the value pushed -/
theorem push_full {T E : Type} {dt : Deltable T E} {last last' : Option T} {v w : T} (h : push dt last v = some (last', .full w)) : w = v ∧ last' = some v := by
  unfold push at h
  cases last with
  | none => simp only at h; injection h with h; injection h with h1 h2; injection h2 with h2; exact ⟨h2.symm, h1.symm⟩
  | some l =>
    simp only at h
    cases hs : dt.subtract v l with
    | none => rw [hs] at h; simp only at h; injection h with h; injection h with h1 h2; injection h2 with h2; exact ⟨h2.symm, h1.symm⟩
    | some d =>
      rw [hs] at h
      simp only at h
      cases ha : dt.addDelta l d with
      | none => rw [ha] at h; exact absurd h (by simp)
      | some w => rw [ha] at h; simp only at h; injection h with h; injection h with h1 h2; exact absurd h2 (by simp)

/-- what the logger has written is a stream of entries whose outputs are `acc` -/
structure WInv (c : Cfg TS TD D DD) (l : Logger TS D) (acc : List (Out TS D)) : Prop where
  data : l.w.data.length = 8 * c.bytes
  str : ∃ ents, Str c 0 ents (bytesBits l.sink ++ wbits l.w) ∧ applyAll c (none, none) ents = ((l.tsLast, l.dLast), acc)

theorem wbits_length {n : Nat} {w : Writer} (hd : w.data.length = 8 * n) (hl : w.len ≤ 8 * n) : (wbits w).length = w.len := by
  rw [wbits, List.length_take]; omega

/-- appending an entry -/
theorem WInv.snoc {c : Cfg TS TD D DD} {l l' : Logger TS D} {acc : List (Out TS D)} (h : WInv c l acc) {e : Ent TS TD D DD} {eb : List Bool} {o : List (Out TS D)}
    (hd : l'.w.data.length = 8 * c.bytes) (hsink : l'.sink = l.sink) (hb : wbits l'.w = wbits l.w ++ eb) (he : EntBits c e eb) (hne : e ≠ .eob)
    (hst : (apply c (l.tsLast, l.dLast) e).1 = (l'.tsLast, l'.dLast)) (ho : (apply c (l.tsLast, l.dLast) e).2.outs = o) : WInv c l' (acc ++ o) := by
  obtain ⟨ents, h1, h2⟩ := h.str
  refine ⟨hd, ents ++ [e], ?_, ?_⟩
  · rw [hsink, hb, ← List.append_assoc]
    exact h1.snoc he (fun h => absurd h hne)
  · rw [applyAll_append, h2]
    simp only [applyAll, hst, ho, List.append_nil]

theorem hdr_seg {n : Nat} {l : { l : List Bool // l.length = n }} {seg : List Bool} (h : Seg (Prim.bool.arr n) l seg) : seg = l.1 := by
  have hlen : seg.length = n * 1 := h.1
  have hr := h.2 []
  rw [List.append_nil] at hr
  -- reading an array of booleans gives its bits
  have key : ∀ (n : Nat) (s : List Bool), s.length = n → readArr Prim.bool n s = some s := by
    intro n
    induction n with
    | zero => intro s hs; rw [List.eq_nil_of_length_eq_zero hs]; rfl
    | succ n ih =>
      intro s hs
      cases s with
      | nil => simp at hs
      | cons b t =>
        have ht : t.length = n := by simpa using hs
        unfold readArr
        rw [if_neg (show ¬ (b :: t).length < Prim.bool.len by simp [Prim.bool])]
        have h1 : readArr Prim.bool n ((b :: t).drop Prim.bool.len) = some t := ih t ht
        rw [h1]; rfl
  simp only [Prim.arr] at hr
  rw [key n seg (by omega)] at hr
  simp only at hr
  rw [dif_pos (by omega)] at hr
  injection hr with hr
  rw [← hr]

theorem write2_ok {α : Type} {p : Prim α} {c : Cfg TS TD D DD} {m : Nat} {hd : { l : List Bool // l.length = m }} {w : Writer} {v : α} (hp : Codec p)
    (hdl : w.data.length = 8 * c.bytes) (hf : w.len + m + p.len ≤ 8 * c.bytes) :
    ∃ w1 w2 a, w.write (Prim.bool.arr m) hd = some w1 ∧ w1.write p v = some w2 ∧ Seg p v a ∧ wbits w2 = wbits w ++ (hd.1 ++ a) ∧
      w2.len = w.len + m + p.len ∧ w2.data.length = 8 * c.bytes := by
  have hm : (Prim.bool.arr m).len = m := by simp [Prim.arr, Prim.bool]
  obtain ⟨w1, s1, e1, e2, e3, e4, e5⟩ := write_ok (good_arr good_bool m).codec hdl (by rw [hm]; omega) hd
  rw [hm] at e4
  obtain ⟨w2, s2, f1, f2, f3, f4, f5⟩ := write_ok hp e5 (by omega) v
  refine ⟨w1, w2, s2, e1, f1, f2, ?_, by omega, f5⟩
  rw [f3, e3, hdr_seg e2, List.append_assoc]

theorem writeReading_inv {c : Cfg TS TD D DD} (hc : c.Codecs) (hfit : c.Fits) {l l' : Logger TS D} {acc : List (Out TS D)} {t : TS} {v : D} (hw : WInv c l acc) (hlen : l.w.len < 8)
    (h : l.writeReading c t v = some l') :
    WInv c l' (acc ++ l'.recon) ∧ l'.w.len < 8 * c.bytes ∧ l'.lastUnix = l.lastUnix ∧ l'.unixBuf = l.unixBuf := by
  have hd := hw.data
  have hf1 := hfit.full; have hf2 := hfit.dfull; have hf3 := hfit.ddelta
  unfold Logger.writeReading at h
  cases hts : push c.tsDelta l.tsLast t with
  | none => rw [hts] at h; exact absurd h (by simp)
  | some r =>
    obtain ⟨tsLast, et⟩ := r
    obtain ⟨t', ht', htu⟩ := push_spec hts
    rw [hts] at h
    cases et with
    | full tt =>
      simp only at h
      obtain ⟨w1, w2, a, e1, e2, e3, e4, e5, e6⟩ := write2_ok (p := c.ts) (v := tt) (hd := hdr3 true true false) hc.ts hd (by omega)
      obtain ⟨w3, b, f1, f2, f3, f4, f5⟩ := write_ok hc.d e6 (by omega) v
      simp only [e1, e2, f1] at h
      injection h with h
      subst h
      refine ⟨?_, by simp only; omega, rfl, rfl⟩
      refine hw.snoc (e := .full tt v) (eb := [true, true, false] ++ (a ++ b)) f5 rfl ?_ (.full e3 f2) (by simp) ?_ ?_
      · simp only [f3, e4, hdr3, List.append_assoc]
      · simp only [apply, htu, ht']; rfl
      · simp only [apply, htu, ht', Logger.recon]; rfl
    | delta k =>
      simp only at h
      cases hdd : push c.dDelta l.dLast v with
      | none => rw [hdd] at h; exact absurd h (by simp)
      | some r =>
        obtain ⟨dLast, ed⟩ := r
        obtain ⟨v', hv', hvu⟩ := push_spec hdd
        rw [hdd] at h
        cases ed with
        | full vv =>
          simp only at h
          obtain ⟨w1, w2, a, e1, e2, e3, e4, e5, e6⟩ := write2_ok (p := c.td) (v := k) (hd := hdr2 false true) hc.td hd (by omega)
          obtain ⟨w3, b, f1, f2, f3, f4, f5⟩ := write_ok hc.d e6 (by omega) vv
          simp only [e1, e2, f1] at h
          injection h with h
          subst h
          refine ⟨?_, by simp only; omega, rfl, rfl⟩
          refine hw.snoc (e := .dfull k vv) (eb := [false, true] ++ (a ++ b)) f5 rfl ?_ (.dfull e3 f2) (by simp) ?_ ?_
          · simp only [f3, e4, hdr2, List.append_assoc]
          · simp only [apply, htu, ht', hvu, hv']
          · simp only [apply, htu, ht', hvu, hv', Logger.recon]; rfl
        | delta x =>
          simp only at h
          obtain ⟨w1, w2, a, e1, e2, e3, e4, e5, e6⟩ := write2_ok (p := c.td) (v := k) (hd := hdr2 true false) hc.td hd (by omega)
          obtain ⟨w3, b, f1, f2, f3, f4, f5⟩ := write_ok hc.dd e6 (by omega) x
          simp only [e1, e2, f1] at h
          injection h with h
          subst h
          refine ⟨?_, by simp only; omega, rfl, rfl⟩
          refine hw.snoc (e := .ddelta k x) (eb := [true, false] ++ (a ++ b)) f5 rfl ?_ (.ddelta e3 f2) (by simp) ?_ ?_
          · simp only [f3, e4, hdr2, List.append_assoc]
          · simp only [apply, htu, ht', hvu, hv']
          · simp only [apply, htu, ht', hvu, hv', Logger.recon]; rfl

theorem writeReading_some {c : Cfg TS TD D DD} (hc : c.Codecs) (hfit : c.Fits) (h1 : Applies c.tsDelta) (h2 : Applies c.dDelta) {l : Logger TS D} (t : TS) (v : D)
    (hd : l.w.data.length = 8 * c.bytes) (hlen : l.w.len < 8) : ∃ l', l.writeReading c t v = some l' := by
  have hf1 := hfit.full; have hf2 := hfit.dfull; have hf3 := hfit.ddelta
  unfold Logger.writeReading
  obtain ⟨⟨tsLast, et⟩, hts⟩ := push_some h1 l.tsLast t
  rw [hts]
  cases et with
  | full tt =>
    obtain ⟨w1, w2, a, e1, e2, e3, e4, e5, e6⟩ := write2_ok (p := c.ts) (v := tt) (hd := hdr3 true true false) hc.ts hd (by omega)
    obtain ⟨w3, b, f1, f2, f3, f4, f5⟩ := write_ok hc.d e6 (by omega) v
    simp only [e1, e2, f1]
    exact ⟨_, rfl⟩
  | delta k =>
    obtain ⟨⟨dLast, ed⟩, hdd⟩ := push_some h2 l.dLast v
    simp only
    rw [hdd]
    cases ed with
    | full vv =>
      obtain ⟨w1, w2, a, e1, e2, e3, e4, e5, e6⟩ := write2_ok (p := c.td) (v := k) (hd := hdr2 false true) hc.td hd (by omega)
      obtain ⟨w3, b, f1, f2, f3, f4, f5⟩ := write_ok hc.d e6 (by omega) vv
      simp only [e1, e2, f1]
      exact ⟨_, rfl⟩
    | delta x =>
      obtain ⟨w1, w2, a, e1, e2, e3, e4, e5, e6⟩ := write2_ok (p := c.td) (v := k) (hd := hdr2 true false) hc.td hd (by omega)
      obtain ⟨w3, b, f1, f2, f3, f4, f5⟩ := write_ok hc.dd e6 (by omega) x
      simp only [e1, e2, f1]
      exact ⟨_, rfl⟩

theorem drain_ok {c : Cfg TS TD D DD} {l : Logger TS D} {acc : List (Out TS D)} (hw : WInv c l acc) (hlen : l.w.len < 8 * c.bytes) :
    ∃ l', l.drain = some l' ∧ WInv c l' acc ∧ l'.w.len < 8 ∧ l'.lastUnix = l.lastUnix ∧ l'.unixBuf = l.unixBuf ∧ l'.tsLast = l.tsLast ∧ l'.dLast = l.dLast := by
  obtain ⟨w', e1, e2, e3, e4⟩ := clear_ok hw.data hlen
  obtain ⟨ents, h1, h2⟩ := hw.str
  refine ⟨{ l with sink := l.sink ++ l.w.fullBytes, w := w' }, ?_, ⟨e4, ents, ?_, h2⟩, by simp only; omega, rfl, rfl, rfl, rfl⟩
  · unfold Logger.drain
    rw [e1]
  · simp only
    rw [bytesBits_append, List.append_assoc, e2]
    exact h1

theorem logUnix_ok {c : Cfg TS TD D DD} (hfit : c.Fits) {l : Logger TS D} {acc : List (Out TS D)} (u : Unix) (hw : WInv c l acc) (hlen : l.w.len < 8) :
    ∃ l', l.logUnix u = some l' ∧ WInv c l' (acc ++ (if l.lastUnix then [] else [.unix u])) ∧ l'.w.len < 8 ∧ l'.lastUnix = true ∧
      l'.unixBuf = (if l.lastUnix then some u else l.unixBuf) ∧ l'.tsLast = l.tsLast ∧ l'.dLast = l.dLast := by
  have hf := hfit.unix
  unfold Logger.logUnix
  by_cases hu : l.lastUnix = true
  · simp only [if_pos hu]
    refine ⟨{ l with unixBuf := some u }, rfl, ?_, hlen, hu, rfl, rfl, rfl⟩
    obtain ⟨ents, h1, h2⟩ := hw.str
    simp only [List.append_nil]
    exact ⟨hw.data, ents, h1, h2⟩
  · simp only [if_neg hu]
    have hcu : Codec unixPrim := Codec.seq (good_uint 64).codec (good_uint 64).codec
    have hul : unixPrim.len = 128 := rfl
    obtain ⟨w1, w2, a, e1, e2, e3, e4, e5, e6⟩ := write2_ok (c := c) (p := unixPrim) (v := u) (hd := hdr2 false false) hcu hw.data (by rw [hul]; omega)
    have hw' : WInv c ({ l with w := w2 } : Logger TS D) (acc ++ [.unix u]) := by
      refine hw.snoc (e := .unix u) (eb := [false, false] ++ a) e6 rfl ?_ (.unix e3) (by simp) rfl rfl
      simp only [e4, hdr2]
    obtain ⟨l', g1, g2, g3, g4, g5, g6, g7⟩ := drain_ok hw' (by simp only; rw [e5, hul]; omega)
    refine ⟨{ l' with lastUnix := true }, ?_, ?_, g3, rfl, g5, g6, g7⟩
    · simp only [e1, e2]
      rw [g1]
    · obtain ⟨ents, k1, k2⟩ := g2.str
      exact ⟨g2.data, ents, k1, k2⟩

theorem flush_ok {c : Cfg TS TD D DD} (hfit : c.Fits) {l : Logger TS D} {acc : List (Out TS D)} (hw : WInv c l acc) (hlen : l.w.len < 8) :
    ∃ l', l.flush = some l' ∧ WInv c l' acc ∧ l'.w.len = 0 ∧ l'.lastUnix = l.lastUnix ∧ l'.unixBuf = l.unixBuf ∧ l'.tsLast = l.tsLast ∧ l'.dLast = l.dLast := by
  have hf := hfit.unix
  have hd := hw.data
  have hm : (Prim.bool.arr 3).len = 3 := rfl
  obtain ⟨w1, s1, e1, e2, e3, e4, e5⟩ := write_ok (good_arr good_bool 3).codec hd (by rw [hm]; omega) (hdr3 true true true)
  rw [hdr_seg e2] at e3
  rw [hm] at e4
  obtain ⟨pad, p1, p2, p3⟩ := all_ok e5 (by omega)
  obtain ⟨ents, h1, h2⟩ := hw.str
  refine ⟨{ l with sink := l.sink ++ w1.allBytes, w := w1.clear }, ?_, ⟨e5, ents ++ [.eob], ?_, ?_⟩, rfl, rfl, rfl, rfl, rfl⟩
  · unfold Logger.flush
    rw [e1]
  · have hz : wbits w1.clear = [] := rfl
    simp only [hz, List.append_nil]
    rw [bytesBits_append, p1, e3, List.append_assoc, ← List.append_assoc (bytesBits l.sink)]
    refine h1.snoc (.eob p2) ?_
    intro _
    have hwl := wbits_length hd (show l.w.len ≤ 8 * c.bytes by omega)
    simp only [List.length_append, bytesBits_length, hwl, hdr3, List.length_cons, List.length_nil]
    omega
  · rw [applyAll_append, h2]
    simp [applyAll, apply, Res.outs]

theorem log_inv {c : Cfg TS TD D DD} (hc : c.Codecs) (hfit : c.Fits) {l l' : Logger TS D} {acc : List (Out TS D)} {t : TS} {v : D} {b : Bool} (hw : WInv c l acc) (hlen : l.w.len < 8)
    (h : l.log c t v = some (b, l')) :
    (b = false ∧ l' = l ∧ l.refuses c t = true) ∨
    (b = true ∧ l.refuses c t = false ∧ WInv c l' (acc ++ (if l.lastUnix then [] else l.unixBuf.toList.map .unix) ++ l'.recon) ∧ l'.w.len < 8 ∧ l'.lastUnix = false ∧
      l'.unixBuf = (if l.lastUnix then l.unixBuf else none)) := by
  unfold Logger.log at h
  cases hre : l.refuses c t with
  | true =>
    rw [if_pos hre] at h
    injection h with h
    injection h with h1 h2
    exact Or.inl ⟨h1.symm, h2.symm, rfl⟩
  | false =>
    right
    rw [if_neg (by rw [hre]; simp)] at h
    -- the kept back time-sync record
    have hem : ∃ l1, l.emitBuffered = some l1 ∧ WInv c l1 (acc ++ (if l.lastUnix then [] else l.unixBuf.toList.map .unix)) ∧ l1.w.len < 8 ∧
        l1.unixBuf = (if l.lastUnix then l.unixBuf else none) := by
      unfold Logger.emitBuffered
      cases hb : l.unixBuf with
      | none => refine ⟨l, rfl, by simpa using hw, hlen, by rw [hb]; simp⟩
      | some u =>
        have hw0 : WInv c ({ l with unixBuf := none } : Logger TS D) acc := by
          obtain ⟨ents, h1, h2⟩ := hw.str
          exact ⟨hw.data, ents, h1, h2⟩
        obtain ⟨l1, e1, e2, e3, e4, e5, e6, e7⟩ := logUnix_ok hfit u hw0 hlen
        exact ⟨l1, e1, by simpa using e2, e3, e5⟩
    obtain ⟨l1, m1, m2, m3, m4⟩ := hem
    rw [m1] at h
    simp only at h
    cases hwr : l1.writeReading c t v with
    | none => rw [hwr] at h; exact absurd h (by simp)
    | some l2 =>
      obtain ⟨k1, k2, k3, k4⟩ := writeReading_inv hc hfit m2 m3 hwr
      obtain ⟨l3, g1, g2, g3, g4, g5, g6, g7⟩ := drain_ok k1 k2
      rw [hwr] at h
      simp only [g1] at h
      injection h with h
      injection h with h1 h2
      subst h2
      refine ⟨h1.symm, rfl, ?_, g3, rfl, ?_⟩
      · obtain ⟨ents, j1, j2⟩ := g2.str
        have : ({ l3 with lastUnix := false } : Logger TS D).recon = l2.recon := by
          simp only [Logger.recon, g6, g7]
        rw [this]
        exact ⟨g2.data, ents, j1, j2⟩
      · simp only [g5, k4, m4]

theorem log_some {c : Cfg TS TD D DD} (hc : c.Codecs) (hfit : c.Fits) (h1 : Applies c.tsDelta) (h2 : Applies c.dDelta) {l : Logger TS D} {acc : List (Out TS D)} (t : TS) (v : D)
    (hw : WInv c l acc) (hlen : l.w.len < 8) : ∃ r, l.log c t v = some r := by
  unfold Logger.log
  cases hre : l.refuses c t with
  | true => exact ⟨_, rfl⟩
  | false =>
    rw [if_neg (by simp)]
    have hem : ∃ l1 acc', l.emitBuffered = some l1 ∧ WInv c l1 acc' ∧ l1.w.len < 8 := by
      unfold Logger.emitBuffered
      cases hb : l.unixBuf with
      | none => exact ⟨l, acc, rfl, hw, hlen⟩
      | some u =>
        have hw0 : WInv c ({ l with unixBuf := none } : Logger TS D) acc := by
          obtain ⟨ents, h1, h2⟩ := hw.str
          exact ⟨hw.data, ents, h1, h2⟩
        obtain ⟨l1, e1, e2, e3, _⟩ := logUnix_ok hfit u hw0 hlen
        exact ⟨l1, _, e1, e2, e3⟩
    obtain ⟨l1, acc', m1, m2, m3⟩ := hem
    obtain ⟨l2, hl2⟩ := writeReading_some hc hfit h1 h2 t v m2.data m3
    obtain ⟨k1, k2, _, _⟩ := writeReading_inv hc hfit m2 m3 hl2
    obtain ⟨l3, g1, _⟩ := drain_ok k1 k2
    simp only [m1, hl2, g1]
    exact ⟨_, rfl⟩

theorem run_inv {c : Cfg TS TD D DD} (hc : c.Codecs) (hfit : c.Fits) {l : Logger TS D} {inputs : List (TS × D)} {acc : List (Out TS D)} (h : Run c l inputs acc) :
    WInv c l acc ∧ l.w.len < 8 := by
  induction h with
  | new =>
    refine ⟨⟨by simp [Logger.new, Writer.new], [], ?_, rfl⟩, by simp [Logger.new, Writer.new]⟩
    have : bytesBits (Logger.new c : Logger TS D).sink ++ wbits (Logger.new c : Logger TS D).w = [] := by simp [Logger.new, Writer.new, wbits, bytesBits]
    rw [this]; exact .nil 0
  | accept t v hr h ih =>
    rcases log_inv hc hfit ih.1 ih.2 h with ⟨h1, _⟩ | ⟨_, _, h2, h3, _, _⟩
    · exact absurd h1 (by simp)
    · exact ⟨h2, h3⟩
  | refuse t v hr h ih =>
    rcases log_inv hc hfit ih.1 ih.2 h with ⟨_, h1, _⟩ | ⟨h1, _⟩
    · rw [h1]; exact ih
    · exact absurd h1 (by simp)
  | unix u hr h ih =>
    obtain ⟨l', e1, e2, e3, _⟩ := logUnix_ok hfit u ih.1 ih.2
    rw [e1] at h
    injection h with h
    subst h
    exact ⟨e2, e3⟩
  | flush hr h ih =>
    obtain ⟨l', e1, e2, e3, _⟩ := flush_ok hfit ih.1 ih.2
    rw [e1] at h
    injection h with h
    subst h
    exact ⟨e2, by omega⟩

end Verif.Log
