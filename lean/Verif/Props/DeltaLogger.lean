import Verif.Lemmas.DeltaLoggerRun
import Verif.Spec.DeltaRun
/-
C28, C29: the sensor log.
-/
namespace Verif.Log
open Verif.Bit Verif.Delta

variable {TS TD D DD : Type}

def Out.isReading {TS D : Type} : Out TS D → Bool
  | .reading _ _ => true
  | .unix _ => false

theorem chained_snoc {T : Type} {chain : T → T → Prop} : ∀ {l : List T} {a b : T}, Chained chain (l ++ [a] ++ [b]) → chain a b
  | [], _, _, h => h.1
  | [_], _, _, h => h.2.1
  | _ :: y :: l, _, _, h => chained_snoc (l := y :: l) h.2

theorem chained_init {T : Type} {chain : T → T → Prop} : ∀ {l : List T} {a : T}, Chained chain (l ++ [a]) → Chained chain l
  | [], _, _ => trivial
  | [_], _, _ => trivial
  | _ :: y :: l, _, h => ⟨h.1, chained_init (l := y :: l) h.2⟩

theorem push_close {T E : Type} {dt : Deltable T E} {chain close : T → T → Prop} (h : OneStep dt chain close) {last last' : Option T} {v : T} {e : Enc T E}
    (hl : last = none ∨ ∃ p l, last = some l ∧ close p l ∧ chain p v) (hp : push dt last v = some (last', e)) : ∃ w, last' = some w ∧ close v w := by
  unfold push at hp
  rcases hl with hl | ⟨p, l, hl, hc, hch⟩
  · subst hl
    simp only at hp
    injection hp with hp; injection hp with h1 h2
    exact ⟨v, h1.symm, h.refl v⟩
  · subst hl
    simp only at hp
    cases hs : dt.subtract v l with
    | none => rw [hs] at hp; simp only at hp; injection hp with hp; injection hp with h1 h2; exact ⟨v, h1.symm, h.refl v⟩
    | some d =>
      obtain ⟨w, hw, hcl⟩ := h.step p l v d hc hch hs
      rw [hs] at hp
      simp only [hw] at hp
      injection hp with hp; injection hp with h1 h2
      exact ⟨w, h1.symm, hcl⟩

theorem writeReading_push {c : Cfg TS TD D DD} {l l' : Logger TS D} {t : TS} {v : D} (h : l.writeReading c t v = some l') :
    (∃ et, push c.tsDelta l.tsLast t = some (l'.tsLast, et)) ∧ (l'.dLast = some v ∨ ∃ ed, push c.dDelta l.dLast v = some (l'.dLast, ed)) := by
  unfold Logger.writeReading at h
  split at h
  · next tsLast tt hts =>
    split at h
    · split at h
      · split at h
        · injection h with h; subst h; exact ⟨⟨_, hts⟩, .inl rfl⟩
        · exact absurd h (by simp)
      · exact absurd h (by simp)
    · exact absurd h (by simp)
  · next tsLast k hts =>
    split at h
    · next dLast vv hdd =>
      split at h
      · split at h
        · split at h
          · injection h with h; subst h; exact ⟨⟨_, hts⟩, .inr ⟨_, hdd⟩⟩
          · exact absurd h (by simp)
        · exact absurd h (by simp)
      · exact absurd h (by simp)
    · next dLast x hdd =>
      split at h
      · split at h
        · split at h
          · injection h with h; subst h; exact ⟨⟨_, hts⟩, .inr ⟨_, hdd⟩⟩
          · exact absurd h (by simp)
        · exact absurd h (by simp)
      · exact absurd h (by simp)
    · exact absurd h (by simp)
  · exact absurd h (by simp)

theorem drain_same {l l' : Logger TS D} (h : l.drain = some l') : l'.tsLast = l.tsLast ∧ l'.dLast = l.dLast := by
  unfold Logger.drain at h
  split at h
  · injection h with h; subst h; exact ⟨rfl, rfl⟩
  · exact absurd h (by simp)

theorem logUnix_same {l l' : Logger TS D} {u : Unix} (h : l.logUnix u = some l') : l'.tsLast = l.tsLast ∧ l'.dLast = l.dLast := by
  unfold Logger.logUnix at h
  split at h
  · injection h with h; subst h; exact ⟨rfl, rfl⟩
  · split at h
    · split at h
      · split at h
        · next l2 hl2 =>
          injection h with h; subst h
          have := drain_same hl2; exact ⟨this.1, this.2⟩
        · exact absurd h (by simp)
      · exact absurd h (by simp)
    · exact absurd h (by simp)

theorem log_push {c : Cfg TS TD D DD} {l l' : Logger TS D} {t : TS} {v : D} (h : l.log c t v = some (true, l')) :
    (∃ et, push c.tsDelta l.tsLast t = some (l'.tsLast, et)) ∧ (l'.dLast = some v ∨ ∃ ed, push c.dDelta l.dLast v = some (l'.dLast, ed)) := by
  unfold Logger.log at h
  split at h
  · injection h with h; injection h with h1 _; exact absurd h1 (by simp)
  · split at h
    · next l1 hl1 =>
      have h1 : l1.tsLast = l.tsLast ∧ l1.dLast = l.dLast := by
        unfold Logger.emitBuffered at hl1
        split at hl1
        · have := logUnix_same hl1; exact ⟨this.1, this.2⟩
        · injection hl1 with hl1; subst hl1; exact ⟨rfl, rfl⟩
      split at h
      · next l2 hl2 =>
        have h2 := writeReading_push hl2
        split at h
        · next l3 hl3 =>
          have h3 := drain_same hl3
          injection h with h; injection h with _ h
          subst h
          simp only
          rw [h3.1, h3.2, ← h1.1, ← h1.2]
          exact h2
        · exact absurd h (by simp)
      · exact absurd h (by simp)
    · exact absurd h (by simp)

/-- the readings in the log, one for each accepted reading -/
theorem run_values {c : Cfg TS TD D DD} {chT clT : TS → TS → Prop} {chD clD : D → D → Prop} (ht : OneStep c.tsDelta chT clT) (hd : OneStep c.dDelta chD clD)
    {l : Logger TS D} {inputs : List (TS × D)} {acc : List (Out TS D)} (h : Run c l inputs acc) :
    Chained (fun p q => chT p.1 q.1 ∧ chD p.2 q.2) inputs →
    ((l.tsLast = none ∧ l.dLast = none ∧ inputs = []) ∨ ∃ init p lt lv, inputs = init ++ [p] ∧ l.tsLast = some lt ∧ l.dLast = some lv ∧ clT p.1 lt ∧ clD p.2 lv) ∧
    List.Forall₂ (fun p o => ∃ t v, o = Out.reading t v ∧ clT p.1 t ∧ clD p.2 v) inputs (acc.filter Out.isReading) := by
  induction h with
  | new => intro _; exact ⟨.inl ⟨rfl, rfl, rfl⟩, .nil⟩
  | @accept l l' inputs acc t v hr h ih =>
    intro hch
    obtain ⟨h1, h2⟩ := ih (chained_init hch)
    obtain ⟨⟨et, het⟩, hdl⟩ := log_push h
    have hcl : (∃ w, l'.tsLast = some w ∧ clT t w) ∧ (∃ w, l'.dLast = some w ∧ clD v w) := by
      rcases h1 with ⟨a, b, _⟩ | ⟨init, p, lt, lv, e, a, b, ca, cb⟩
      · refine ⟨push_close ht (.inl a) het, ?_⟩
        rcases hdl with hdl | ⟨ed, hed⟩
        · exact ⟨v, hdl, hd.refl v⟩
        · exact push_close hd (.inl b) hed
      · subst e
        have hstep := chained_snoc hch
        refine ⟨push_close ht (.inr ⟨p.1, lt, a, ca, hstep.1⟩) het, ?_⟩
        rcases hdl with hdl | ⟨ed, hed⟩
        · exact ⟨v, hdl, hd.refl v⟩
        · exact push_close hd (.inr ⟨p.2, lv, b, cb, hstep.2⟩) hed
    obtain ⟨⟨w, hw, cw⟩, ⟨x, hx, cx⟩⟩ := hcl
    refine ⟨.inr ⟨inputs, (t, v), w, x, rfl, hw, hx, cw, cx⟩, ?_⟩
    have hrec : l'.recon = [.reading w x] := by simp only [Logger.recon, hw, hx]
    have hmid : (if l.lastUnix then [] else l.unixBuf.toList.map (Out.unix (TS := TS) (D := D))).filter Out.isReading = [] := by
      split
      · rfl
      · cases l.unixBuf <;> rfl
    rw [hrec, List.filter_append, List.filter_append, hmid, List.append_nil]
    exact List.rel_append h2 (.cons ⟨w, x, rfl, cw, cx⟩ .nil)
  | @refuse l l' inputs acc t v hr h ih =>
    intro hch
    obtain ⟨h1, h2⟩ := ih hch
    have hl : l' = l := by
      unfold Logger.log at h
      split at h
      · injection h with h; injection h with _ h; exact h.symm
      · split at h
        · split at h
          · split at h
            · injection h with h; injection h with h _; exact absurd h (by simp)
            · exact absurd h (by simp)
          · exact absurd h (by simp)
        · exact absurd h (by simp)
    rw [hl]; exact ⟨h1, h2⟩
  | @unix l l' inputs acc u hr h ih =>
    intro hch
    obtain ⟨h1, h2⟩ := ih hch
    obtain ⟨e1, e2⟩ := logUnix_same h
    refine ⟨by rw [e1, e2]; exact h1, ?_⟩
    have hmid : (if l.lastUnix then [] else [Out.unix (TS := TS) (D := D) u]).filter Out.isReading = [] := by split <;> rfl
    rw [List.filter_append, hmid, List.append_nil]
    exact h2
  | @flush l l' inputs acc hr h ih =>
    intro hch
    obtain ⟨h1, h2⟩ := ih hch
    have hl : l'.tsLast = l.tsLast ∧ l'.dLast = l.dLast := by
      unfold Logger.flush at h
      split at h
      · injection h with h; subst h; exact ⟨rfl, rfl⟩
      · exact absurd h (by simp)
    exact ⟨by rw [hl.1, hl.2]; exact h1, h2⟩

theorem push_fst {T E : Type} {dt : Deltable T E} {l l' : Option T} {v w : T} {e : Enc T E} (h : push dt l v = some (l', e)) (hw : (push dt l v).map Prod.fst = some (some w)) : l' = some w := by
  rw [h] at hw; exact Option.some.inj hw

/-- a configuration for the witnesses: 64-bit timestamps and data, 8-bit differences -/
def demo : Cfg (BitVec 64) (BitVec 8) (BitVec 64) (BitVec 8) where
  ts := Prim.uint 64
  td := Prim.uint 8
  d := Prim.uint 64
  dd := Prim.uint 8
  tsDelta := ⟨fun l d => some (l + d.setWidth 64), fun v l => if (v - l).toNat < 256 then some ((v - l).setWidth 8) else none⟩
  dDelta := ⟨fun l d => some (l + d.setWidth 64), fun v l => if (v - l).toNat < 256 then some ((v - l).setWidth 8) else none⟩
  tooClose t l := decide (t.toNat < l.toNat + 5)
  bytes := 18

theorem demo_fits : demo.Fits := ⟨by decide, by decide, by decide, by decide⟩
theorem demo_codecs : demo.Codecs := ⟨(good_uint 64).codec, (good_uint 8).codec, (good_uint 64).codec, (good_uint 8).codec⟩

end Verif.Log

namespace Verif.Props
open Verif Verif.Bit Verif.Delta Verif.Log

variable {TS TD D DD : Type}

/-- **C28** Logging never panics: at any point of any history, whatever is logged next. -/
theorem C28_logger_never_panics {c : Cfg TS TD D DD} (hc : c.Codecs) (hf : c.Fits) (h1 : Applies c.tsDelta) (h2 : Applies c.dDelta)
    {l : Logger TS D} {inputs : List (TS × D)} {acc : List (Out TS D)} (h : Run c l inputs acc) :
    (∀ t v, ∃ r, l.log c t v = some r) ∧ (∀ u, ∃ l', l.logUnix u = some l') ∧ ∃ l', l.flush = some l' := by
  obtain ⟨hw, hl⟩ := run_inv hc hf h
  refine ⟨fun t v => log_some hc hf h1 h2 t v hw hl, fun u => ?_, ?_⟩
  · obtain ⟨l', e, _⟩ := logUnix_ok hf u hw hl; exact ⟨l', e⟩
  · obtain ⟨l', e, _⟩ := flush_ok hf hw hl; exact ⟨l', e⟩

/-- **C28** A reading is refused exactly when it comes too early, and a refused reading leaves no trace. -/
theorem C28_refused {c : Cfg TS TD D DD} (hc : c.Codecs) (hf : c.Fits) {l l' : Logger TS D} {inputs : List (TS × D)} {acc : List (Out TS D)} (h : Run c l inputs acc)
    {t : TS} {v : D} {b : Bool} (hlog : l.log c t v = some (b, l')) :
    (b = false ↔ ∃ last, l.tsLast = some last ∧ c.tooClose t last = true) ∧ (b = false → l' = l) := by
  obtain ⟨hw, hl⟩ := run_inv hc hf h
  have hre : l.refuses c t = true ↔ ∃ last, l.tsLast = some last ∧ c.tooClose t last = true := by
    unfold Logger.refuses
    cases l.tsLast with
    | none => simp
    | some x => simp
  rcases log_inv hc hf hw hl hlog with ⟨h1, h2, h3⟩ | ⟨h1, h2, _⟩
  · exact ⟨⟨fun _ => hre.mp h3, fun _ => h1⟩, fun _ => h2⟩
  · subst h1
    refine ⟨⟨fun h => absurd h (by simp), fun h => ?_⟩, fun h => absurd h (by simp)⟩
    rw [hre.mpr h] at h2
    exact absurd h2 (by simp)

/-- **C28** Reading back what the logger handed to the file — all of it or any beginning of it, however the bytes come from the file —
gives the log entries in order, from the first on; the reader never panics. -/
theorem C28_read_back {c : Cfg TS TD D DD} (hc : c.Codecs) (hf : c.Fits) {l : Logger TS D} {inputs : List (TS × D)} {acc : List (Out TS D)} (h : Run c l inputs acc)
    {src : Bytes} (hsrc : src <+: l.sink) {sched : Nat → Nat} {s : LogReader TS D} {outs : List (Out TS D)} (hr : ReadRun c sched src s outs) :
    outs <+: acc ∧ ∃ r, s.read c sched = some r := by
  obtain ⟨hw, hl⟩ := run_inv hc hf h
  obtain ⟨ents, hstr, happ⟩ := hw.str
  have hpre : bytesBits src <+: bytesBits l.sink ++ wbits l.w := by
    obtain ⟨x, hx⟩ := hsrc
    refine ⟨bytesBits x ++ wbits l.w, ?_⟩
    rw [← hx, bytesBits_append, List.append_assoc]
  obtain ⟨hi, es1, es2, b2, pos, e1, e2, e3, e4, e5, _⟩ := readRun_inv hf.rooms hstr hpre hr
  constructor
  · rw [e1, applyAll_append, e5] at happ
    injection happ with _ h2
    exact ⟨_, h2⟩
  · have hfuel : s.avail.length < s.r.lenBits + 8 * s.src.length + 1 := by
      rw [LogReader.avail, List.length_append, hi.pend_length, bytesBits_length]; omega
    unfold LogReader.read
    rcases readLoop_ok hf.rooms sched _ es2 b2 pos s hi e2 e3 e4 hfuel with ⟨o', s'', fs1, fs2, b3, pos', k1, _⟩ | ⟨s'', fs1, fs2, k1, _⟩
    · exact ⟨_, k1⟩
    · exact ⟨_, k1⟩

/-- **C28** After a flush nothing is missing: when the reader reports the end of the log, it has returned every entry. -/
theorem C28_flushed_complete {c : Cfg TS TD D DD} (hc : c.Codecs) (hf : c.Fits) {l l' : Logger TS D} {inputs : List (TS × D)} {acc : List (Out TS D)} (h : Run c l inputs acc)
    (hfl : l.flush = some l') {sched : Nat → Nat} {s s' : LogReader TS D} {outs : List (Out TS D)} (hr : ReadRun c sched l'.sink s outs)
    (heof : s.read c sched = some (none, s')) : outs = acc := by
  obtain ⟨hw, hl⟩ := run_inv hc hf h
  obtain ⟨l2, g1, g2, g3, _⟩ := flush_ok hf hw hl
  rw [g1] at hfl
  injection hfl with hfl
  subst hfl
  obtain ⟨ents, hstr, happ⟩ := g2.str
  have hz : wbits l2.w = [] := by rw [wbits, g3]; rfl
  rw [hz, List.append_nil] at hstr
  obtain ⟨hi, es1, es2, b2, pos, e1, e2, e3, e4, e5, e6⟩ := readRun_inv hf.rooms hstr (List.prefix_refl _) hr
  have hfuel : s.avail.length < s.r.lenBits + 8 * s.src.length + 1 := by
    rw [LogReader.avail, List.length_append, hi.pend_length, bytesBits_length]; omega
  unfold LogReader.read at heof
  rcases readLoop_ok hf.rooms sched _ es2 b2 pos s hi e2 e3 e4 hfuel with ⟨o', s'', fs1, fs2, b3, pos', k1, _⟩ | ⟨s'', fs1, fs2, k1, k2, k3, k4⟩
  · rw [k1] at heof
    injection heof with heof
    injection heof with heof
    exact absurd heof (by simp)
  · have hnil := k4 (e6 rfl)
    subst hnil
    rw [List.append_nil] at k2
    subst k2
    rw [e1, applyAll_append, e5] at happ
    injection happ with _ h2
    simp only [k3, List.append_nil] at h2
    exact h2

/-- **C28** The readings in the log are the accepted readings, in order, each within the error of one delta (C30). -/
theorem C28_values {c : Cfg TS TD D DD} {chT clT : TS → TS → Prop} {chD clD : D → D → Prop} (ht : OneStep c.tsDelta chT clT) (hd : OneStep c.dDelta chD clD)
    {l : Logger TS D} {inputs : List (TS × D)} {acc : List (Out TS D)} (h : Run c l inputs acc)
    (hch : Chained (fun p q => chT p.1 q.1 ∧ chD p.2 q.2) inputs) :
    List.Forall₂ (fun p o => ∃ t v, o = Out.reading t v ∧ clT p.1 t ∧ clD p.2 v) inputs (acc.filter Out.isReading) :=
  (run_values ht hd h hch).2

/-- **C29** A time-sync record that does not directly follow another one is in the log at its position. -/
theorem C29_in_place {c : Cfg TS TD D DD} (hc : c.Codecs) (hf : c.Fits) {l : Logger TS D} {inputs : List (TS × D)} {acc : List (Out TS D)} (h : Run c l inputs acc)
    (hl : l.lastUnix = false) (u : Unix) : ∃ l', l.logUnix u = some l' ∧ Run c l' inputs (acc ++ [.unix u]) := by
  obtain ⟨hw, hlen⟩ := run_inv hc hf h
  obtain ⟨l', e, _⟩ := logUnix_ok hf u hw hlen
  refine ⟨l', e, ?_⟩
  have := Run.unix u h e
  rw [hl] at this
  exact this

/-- **C29** (finding) Two time-sync records in a row, then a flush: the second one is not in the log. -/
theorem C29_second_not_flushed {c : Cfg TS TD D DD} (hc : c.Codecs) (hf : c.Fits) {l : Logger TS D} {inputs : List (TS × D)} {acc : List (Out TS D)} (h : Run c l inputs acc)
    (hl : l.lastUnix = false) (u1 u2 : Unix) :
    ∃ l1 l2 l3, l.logUnix u1 = some l1 ∧ l1.logUnix u2 = some l2 ∧ l2.flush = some l3 ∧ Run c l3 inputs (acc ++ [.unix u1]) ∧
      ∀ sched s s' outs, ReadRun c sched l3.sink s outs → s.read c sched = some (none, s') → outs = acc ++ [.unix u1] := by
  obtain ⟨hw, hlen⟩ := run_inv hc hf h
  obtain ⟨l1, e1, e2, e3, e4, _⟩ := logUnix_ok hf u1 hw hlen
  obtain ⟨l2, f1, f2, f3, _⟩ := logUnix_ok hf u2 e2 e3
  obtain ⟨l3, g1, _⟩ := flush_ok hf f2 f3
  have r1 := Run.unix u1 h e1
  rw [hl] at r1
  have r2 := Run.unix u2 r1 f1
  rw [e4] at r2
  simp only [if_true, List.append_nil] at r2
  exact ⟨l1, l2, l3, e1, f1, g1, r2.flush g1, fun sched s s' outs hr he => C28_flushed_complete hc hf r2 g1 hr he⟩

/-- **C29** (finding) Two time-sync records in a row, then two readings: the second record ends up behind the first reading, although it was logged
before it. -/
theorem C29_second_late {c : Cfg TS TD D DD} (hc : c.Codecs) (hf : c.Fits) {l l1 l2 l3 l4 : Logger TS D} {inputs : List (TS × D)} {acc : List (Out TS D)} (h : Run c l inputs acc)
    (hl : l.lastUnix = false) {u1 u2 : Unix} {t1 t2 : TS} {v1 v2 : D} (h1 : l.logUnix u1 = some l1) (h2 : l1.logUnix u2 = some l2)
    (h3 : l2.log c t1 v1 = some (true, l3)) (h4 : l3.log c t2 v2 = some (true, l4)) :
    Run c l4 (inputs ++ [(t1, v1)] ++ [(t2, v2)]) (acc ++ [.unix u1] ++ l3.recon ++ [.unix u2] ++ l4.recon) := by
  obtain ⟨hw, hlen⟩ := run_inv hc hf h
  obtain ⟨l1', e1, e2, e3, e4, _⟩ := logUnix_ok hf u1 hw hlen
  rw [e1] at h1; injection h1 with h1; subst h1
  obtain ⟨l2', f1, f2, f3, f4, f5, _⟩ := logUnix_ok hf u2 e2 e3
  rw [f1] at h2; injection h2 with h2; subst h2
  have r1 := Run.unix u1 h e1
  have r2 := Run.unix u2 r1 f1
  have r3 := Run.accept t1 v1 r2 h3
  rcases log_inv hc hf f2 f3 h3 with ⟨h', _, _⟩ | ⟨b1, b2, b3, b4, b5, b6⟩
  · exact absurd h' (by simp)
  have r4 := Run.accept t2 v2 r3 h4
  rw [b5, b6, f4, f5, e4, hl] at r4
  simpa using r4

/-- **C29** (finding) Of three time-sync records in a row the second one is dropped, whatever is logged later. -/
theorem C29_middle_dropped {c : Cfg TS TD D DD} (hc : c.Codecs) (hf : c.Fits) {l l1 l2 l3 l4 l5 : Logger TS D} {inputs : List (TS × D)} {acc : List (Out TS D)} (h : Run c l inputs acc)
    (hl : l.lastUnix = false) {u1 u2 u3 : Unix} {t1 t2 : TS} {v1 v2 : D} (h1 : l.logUnix u1 = some l1) (h2 : l1.logUnix u2 = some l2) (h2' : l2.logUnix u3 = some l3)
    (h3 : l3.log c t1 v1 = some (true, l4)) (h4 : l4.log c t2 v2 = some (true, l5)) :
    Run c l5 (inputs ++ [(t1, v1)] ++ [(t2, v2)]) (acc ++ [.unix u1] ++ l4.recon ++ [.unix u3] ++ l5.recon) ∧ l5.unixBuf = none := by
  obtain ⟨hw, hlen⟩ := run_inv hc hf h
  obtain ⟨l1', e1, e2, e3, e4, _⟩ := logUnix_ok hf u1 hw hlen
  rw [e1] at h1; injection h1 with h1; subst h1
  obtain ⟨l2', f1, f2, f3, f4, f5, _⟩ := logUnix_ok hf u2 e2 e3
  rw [f1] at h2; injection h2 with h2; subst h2
  obtain ⟨l3', k1, k2, k3, k4, k5, _⟩ := logUnix_ok hf u3 f2 f3
  rw [k1] at h2'; injection h2' with h2'; subst h2'
  have r1 := Run.unix u1 h e1
  have r2 := Run.unix u2 r1 f1
  have r3 := Run.unix u3 r2 k1
  have r4 := Run.accept t1 v1 r3 h3
  rcases log_inv hc hf k2 k3 h3 with ⟨h', _, _⟩ | ⟨b1, b2, b3, b4, b5, b6⟩
  · exact absurd h' (by simp)
  rcases log_inv hc hf b3 b4 h4 with ⟨h', _, _⟩ | ⟨d1, d2, d3, d4, d5, d6⟩
  · exact absurd h' (by simp)
  have r5 := Run.accept t2 v2 r4 h4
  rw [b5, b6, k4, k5, f4, e4, hl] at r5
  refine ⟨by simpa using r5, ?_⟩
  rw [d6, b5]; rfl

/-- **C29** (finding) For 4-byte data (the battery log: buffers of 4 + 10 bytes) a time-sync record does not fit the bit buffer: logging one panics. -/
theorem C29_small_data_panics {c : Cfg TS TD D DD} (hb : c.bytes = 14) (u : Unix) : (Logger.new c : Logger TS D).logUnix u = none := by
  have h1 : (Writer.new 14).write (Prim.bool.arr 2) (hdr2 false false) = some ⟨2, List.replicate 112 false⟩ := by decide +kernel
  have h2 : (⟨2, List.replicate 112 false⟩ : Writer).write unixPrim u = none := by
    rw [unixPrim, write_seq (good_uint 64).codec _ _ (by decide)]
    obtain ⟨w', seg, e1, _, _, e2, e3⟩ := write_ok (n := 14) (w := ⟨2, List.replicate 112 false⟩) (good_uint 64).codec (by decide) (by decide) u.1
    rw [e1]
    show w'.write (Prim.uint 64) u.2 = none
    have hl : w'.len = 66 := by rw [e2]; rfl
    unfold Writer.write
    rw [if_neg (by omega), (good_uint 64).short _ _ (by rw [List.length_drop]; simp only [Prim.uint]; omega)]
  unfold Logger.logUnix Logger.new
  rw [hb]
  simp only [Bool.false_eq_true, if_false, h1, h2]

/-- the hypotheses are met: two readings (the second one as deltas) with a time-sync record between them, flushed and read back -/
example : ∃ l l', Run demo l [(100#64, 7#64), (110#64, 9#64)] [.reading 100#64 7#64, .unix (1#64, 2#64), .reading 110#64 9#64] ∧ l.flush = some l' ∧ l.lastUnix = false := by
  obtain ⟨hw, hl⟩ := run_inv demo_codecs demo_fits (Run.new (c := demo))
  have ap : Applies demo.tsDelta ∧ Applies demo.dDelta := ⟨fun _ _ _ _ => ⟨_, rfl⟩, fun _ _ _ _ => ⟨_, rfl⟩⟩
  have r0 : Run demo (Logger.new demo) [] [] := .new
  obtain ⟨⟨b1, l1⟩, h1⟩ := (C28_logger_never_panics demo_codecs demo_fits ap.1 ap.2 r0).1 100#64 7#64
  rcases log_inv demo_codecs demo_fits hw hl h1 with ⟨_, _, hh⟩ | ⟨hb, _, _, _, hu, hub⟩
  · exact absurd hh (by decide)
  subst hb
  have r1 := Run.accept _ _ r0 h1
  obtain ⟨⟨et, p1⟩, q1⟩ := log_push h1
  have ts1 : l1.tsLast = some 100#64 := by
    exact push_fst p1 (by decide +kernel)
  have d1 : l1.dLast = some 7#64 := by
    rcases q1 with q1 | ⟨ed, q1⟩
    · exact q1
    · exact push_fst q1 (by decide +kernel)
  obtain ⟨l2, h2, r2⟩ := C29_in_place demo_codecs demo_fits r1 hu (1#64, 2#64)
  obtain ⟨w2, n2⟩ := run_inv demo_codecs demo_fits r2
  obtain ⟨w1, n1⟩ := run_inv demo_codecs demo_fits r1
  obtain ⟨l2', e1, _, _, e4, e5, e6, e7⟩ := logUnix_ok demo_fits (1#64, 2#64) w1 n1
  rw [h2] at e1; injection e1 with e1; subst e1
  obtain ⟨⟨b3, l3⟩, h3⟩ := (C28_logger_never_panics demo_codecs demo_fits ap.1 ap.2 r2).1 110#64 9#64
  rcases log_inv demo_codecs demo_fits w2 n2 h3 with ⟨_, _, hh⟩ | ⟨hb, _, w3, n3, hu3, hub3⟩
  · rw [Logger.refuses, e6, ts1] at hh; exact absurd hh (by decide)
  subst hb
  have r3 := Run.accept _ _ r2 h3
  obtain ⟨⟨et, p3⟩, q3⟩ := log_push h3
  have ts3 : l3.tsLast = some 110#64 := by
    rw [e6, ts1] at p3; exact push_fst p3 (by decide +kernel)
  have d3 : l3.dLast = some 9#64 := by
    rcases q3 with q3 | ⟨ed, q3⟩
    · exact q3
    · rw [e7, d1] at q3; exact push_fst q3 (by decide +kernel)
  obtain ⟨l4, h4⟩ := (C28_logger_never_panics demo_codecs demo_fits ap.1 ap.2 r3).2.2
  refine ⟨l3, l4, ?_, h4, hu3⟩
  simp only [Logger.recon, ts1, d1, ts3, d3, e4] at r3
  rw [show (Logger.new demo : Logger (BitVec 64) (BitVec 64)).lastUnix = false from rfl, show (Logger.new demo : Logger (BitVec 64) (BitVec 64)).unixBuf = none from rfl] at r3
  simpa using r3

end Verif.Props
