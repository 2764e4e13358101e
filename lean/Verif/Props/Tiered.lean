import Verif.Lemmas.Tiered
import Verif.Props.RingLogCase
/-
C90: the two rings of logs the avionics keep of every sensor. The runs are defined in Verif/Spec/Tiered.lean.
-/
namespace Verif.Props
open Verif Verif.Vlfs Verif.Spec Verif.Bit Verif.Delta Verif.Log Verif.RingLog Verif.Tiered

variable {TS TD D DD TD1 TD2 DD1 DD2 : Type}

/-- the first file of a ring -/
theorem new_chain {crc : Bytes → UInt32} {c : Cfg TS TD D DD} {typ cap r1 r2 : Nat} {fs fs' : FS} {ks : List Known} {s : RingLog.St TS D} {h : Half TS D} (hr : Hist crc fs ks)
    (hw : ∀ k ∈ ofKind typ ks, k.writer = none) (h2 : 2 ≤ cap) (ht : typ < 0x4000) (hcap : ks.length < 2518) (hok : countersOk fs) (hn : RingLog.St.new c fs typ cap r1 r2 = (.ok s, fs')) (hcur : s.cur = some h) :
    s.fs = fs' ∧ Chain crc typ fs ks fs' (rotated typ ((ofKind typ ks).length + 1 - cap) h.w ks) := by
  obtain ⟨files, f1, f2⟩ := count_kind (hist_inv hr) typ
  have hlen : files.length = (ofKind typ ks).length := by have := congrArg List.length f2; simpa using this
  unfold RingLog.St.new at hn
  rw [f1] at hn
  simp only at hn
  rw [if_neg (by omega)] at hn
  rcases hrot : fs.rotate typ (startPlan files.length cap).1 r1 r2 with ⟨_ | e, fs1⟩
  · rw [hrot] at hn; simp at hn
  rw [hrot] at hn
  simp only at hn
  cases hwo : writerOf e with
  | none => rw [hwo] at hn; simp at hn
  | some w =>
    rw [hwo] at hn
    simp only [Prod.mk.injEq, Except.ok.injEq] at hn
    obtain ⟨rfl, rfl⟩ := hn
    simp only [Option.some.injEq] at hcur
    subst hcur
    have hn1 : (startPlan files.length cap).1 = (ofKind typ ks).length + 1 - cap := by unfold startPlan; rw [hlen]; split <;> simp only <;> omega
    rw [hn1] at hrot
    exact ⟨rfl, rotate_chain hr hrot hwo (fun k hk => hw k (List.mem_of_mem_take hk)) hcap ht hok⟩

theorem chain_kind {crc : Bytes → UInt32} {typ t : Nat} {fs fs' : FS} {ks ks' : List Known} (h : Chain crc typ fs ks fs' ks') (hne : t ≠ typ) : ofKind t ks' = ofKind t ks := by
  induction h with
  | refl => rfl
  | step _ _ hk ih => exact (hk t hne).trans ih

/-- the types are different -/
theorem tiered_types {crc : Bytes → UInt32} {c1 : Cfg TS TD1 D DD1} {c2 : Cfg TS TD2 D DD2} {typ1 typ2 cap1 cap2 : Nat} {s : Tiered.St TS D} {ks : List Known} {segs1 segs2 : List (Segment TS D)}
    (h : TieredLogging crc c1 c2 typ1 typ2 cap1 cap2 s ks segs1 segs2) : typ1 ≠ typ2 := by
  induction h <;> assumption

/-- **C90** Each of the two rings is a ring of sensor logs in the sense of C88, whatever the other one does: its theorems hold for both. -/
theorem C90_both {crc : Bytes → UInt32} {c1 : Cfg TS TD1 D DD1} {c2 : Cfg TS TD2 D DD2} (hc1 : c1.Codecs) (hf1 : c1.Fits) (hc2 : c2.Codecs) (hf2 : c2.Fits) {typ1 typ2 cap1 cap2 : Nat} {s : Tiered.St TS D}
    {ks : List Known} {segs1 segs2 : List (Segment TS D)} (h : TieredLogging crc c1 c2 typ1 typ2 cap1 cap2 s ks segs1 segs2) :
    RingLogging crc c1 typ1 cap1 s.a ks segs1 ∧ RingLogging crc c2 typ2 cap2 s.b ks segs2 ∧ s.a.fs = s.b.fs := by
  induction h with
  | @start fs fs' ks s h1 h2 hr hw hne p1 p2 ht1 ht2 hcap hok r1 r2 r3 r4 hn hok2 ha hb =>
    unfold Tiered.St.new at hn
    rcases hx : RingLog.St.new c1 fs typ1 cap1 r1 r2 with ⟨_ | a, fs1⟩
    · rw [hx] at hn; simp at hn
    rw [hx] at hn hok2
    simp only at hn hok2
    rcases hy : RingLog.St.new c2 fs1 typ2 cap2 r3 r4 with ⟨_ | b, fs2⟩
    · rw [hy] at hn; simp at hn
    rw [hy] at hn
    simp only [Prod.mk.injEq, Except.ok.injEq] at hn
    obtain ⟨rfl, rfl⟩ := hn
    have hw1 : ∀ k ∈ ofKind typ1 ks, k.writer = none := fun k hk => by
      obtain ⟨q1, q2⟩ := List.mem_filter.mp hk
      exact hw k q1 (.inl (by simpa using q2))
    have hw2 : ∀ k ∈ ofKind typ2 ks, k.writer = none := fun k hk => by
      obtain ⟨q1, q2⟩ := List.mem_filter.mp hk
      exact hw k q1 (.inr (by simpa using q2))
    have ra := RingLogging.start (c := c1) hr hw1 p1 ht1 (by omega) hok r1 r2 hx ha
    obtain ⟨e1, ch1⟩ := new_chain hr hw1 p1 ht1 (by omega) hok hx ha
    subst e1
    have hh := (ring_inv hc1 hf1 ra).hist
    have hk2 := chain_kind ch1 (Ne.symm hne)
    have hlen : (rotated typ1 ((ofKind typ1 ks).length + 1 - cap1) h1.w ks).length < 2518 := by
      unfold rotated
      have := List.length_filter_le (fun k => !oldestKnown typ1 ((ofKind typ1 ks).length + 1 - cap1) ks k) ks
      rw [List.length_append, List.length_singleton]
      omega
    rw [← hk2] at hw2
    have rb := RingLogging.start (c := c2) hh hw2 p2 ht2 hlen hok2 r3 r4 hy hb
    obtain ⟨e2, ch2⟩ := new_chain hh hw2 p2 ht2 hlen hok2 hy hb
    rw [hk2] at rb ch2
    exact ⟨ring_chain hne ch2 rfl ra, rb, e2.symm⟩
  | @first s a' ks ks' segs1 segs2 segs1' hr hs ih =>
    obtain ⟨i1, i2, i3⟩ := ih
    obtain ⟨k1, k2⟩ := step_chain hc1 hf1 i1 hs
    rw [i3] at k2
    exact ⟨k1, ring_chain (Ne.symm (tiered_types hr)) k2 rfl i2, rfl⟩
  | @second s b' ks ks' segs1 segs2 segs2' hr hs ih =>
    obtain ⟨i1, i2, i3⟩ := ih
    obtain ⟨k1, k2⟩ := step_chain hc2 hf2 i2 hs
    rw [← i3] at k2
    exact ⟨ring_chain (tiered_types hr) k2 rfl i1, k1, rfl⟩
  | other hr hs h1 h2 ih =>
    obtain ⟨i1, i2, i3⟩ := ih
    refine ⟨i1.other hs h1, ?_, rfl⟩
    rw [i3] at hs
    exact i2.other hs h2

/-- **C90** A power loss, at any moment except the ones excluded in C88, leaves both rings readable: every segment on the chip, of either ring, reads back with at least what was logged up to its last flush
and at most what was logged. -/
theorem C90_survives {crc : Bytes → UInt32} {c1 : Cfg TS TD1 D DD1} {c2 : Cfg TS TD2 D DD2} (hc1 : c1.Codecs) (hf1 : c1.Fits) (hc2 : c2.Codecs) (hf2 : c2.Fits) {typ1 typ2 cap1 cap2 : Nat} {s : Tiered.St TS D}
    {ks : List Known} {segs1 segs2 : List (Segment TS D)} {fl' : Flash} {extra1 extra2 : List (Out TS D)} (h : TieredLogging crc c1 c2 typ1 typ2 cap1 cap2 s ks segs1 segs2)
    (hcut : TieredCut crc c1 c2 typ1 typ2 s ks fl' extra1 extra2) :
    ∃ fs, FS.mount fl' = (.ok (), fs) ∧
      (∃ kept1, RingHolds s.a.fs typ1 cap1 segs1 kept1 (s.a.next.toList.map (·.id)) ∧ ∀ g ∈ during extra1 kept1, ∃ content, ReadsAs crc fs g.id content ∧ LogReads c1 content g.safe g.entries) ∧
      ∃ kept2, RingHolds s.a.fs typ2 cap2 segs2 kept2 (s.b.next.toList.map (·.id)) ∧ ∀ g ∈ during extra2 kept2, ∃ content, ReadsAs crc fs g.id content ∧ LogReads c2 content g.safe g.entries := by
  obtain ⟨ra, rb, hfs⟩ := C90_both hc1 hf1 hc2 hf2 h
  have ia := ring_inv hc1 hf1 ra
  have ib := ring_inv hc2 hf2 rb
  have hne := tiered_types h
  obtain ⟨olds1, gone1, fin1, act1, finK1, actK1, nextK1, F1⟩ := ia.files
  obtain ⟨olds2, gone2, fin2, act2, finK2, actK2, nextK2, F2⟩ := ib.files
  have ha := ring_holds ra ia F1
  have hb := ring_holds rb ib F2
  rw [← hfs] at hb
  have both : ∀ {fl' : Flash} {e1 e2 : List (Out TS D)}, RingCut crc c1 typ1 s.a ks fl' e1 → RingCut crc c2 typ2 s.b ks fl' e2 →
      ∃ fs, FS.mount fl' = (.ok (), fs) ∧
      (∃ kept1, RingHolds s.a.fs typ1 cap1 segs1 kept1 (s.a.next.toList.map (·.id)) ∧ ∀ g ∈ during e1 kept1, ∃ content, ReadsAs crc fs g.id content ∧ LogReads c1 content g.safe g.entries) ∧
      ∃ kept2, RingHolds s.a.fs typ2 cap2 segs2 kept2 (s.b.next.toList.map (·.id)) ∧ ∀ g ∈ during e2 kept2, ∃ content, ReadsAs crc fs g.id content ∧ LogReads c2 content g.safe g.entries := by
    intro fl' e1 e2 q1 q2
    obtain ⟨fsa, m1, m2⟩ := ring_cut hc1 hf1 ia q1 F1
    obtain ⟨fsb, n1, n2⟩ := ring_cut hc2 hf2 ib q2 F2
    rw [m1] at n1
    obtain ⟨_, rfl⟩ := Prod.mk.inj n1
    exact ⟨fsa, m1, ⟨_, ha, m2⟩, _, hb, n2⟩
  cases hcut with
  | idle => exact both .idle (hfs ▸ .idle)
  | first hcall =>
    obtain ⟨fsa, m1, m2⟩ := ring_cut hc1 hf1 ia (callCut_ring hcall) F1
    obtain ⟨fsb, n1, n2⟩ := cut_others hc1 hf1 ia hcall
    rw [m1] at n1
    obtain ⟨_, rfl⟩ := Prod.mk.inj n1
    refine ⟨fsa, m1, ⟨_, ha, m2⟩, _, hb, ?_⟩
    rw [during_nil]
    refine all_kept hc2 hf2 ib.hist F2 fun k hk => ?_
    obtain ⟨q1, q2⟩ := List.mem_filter.mp hk
    have q2 : k.typ = typ2 := by simpa using q2
    exact n2 k q1 (by rw [q2]; exact Ne.symm hne)
  | second hcall =>
    obtain ⟨fsa, m1, m2⟩ := ring_cut hc2 hf2 ib (callCut_ring hcall) F2
    obtain ⟨fsb, n1, n2⟩ := cut_others hc2 hf2 ib hcall
    rw [m1] at n1
    obtain ⟨_, rfl⟩ := Prod.mk.inj n1
    refine ⟨fsa, m1, ⟨_, ha, ?_⟩, _, hb, m2⟩
    rw [during_nil]
    refine all_kept hc1 hf1 ia.hist F1 fun k hk => ?_
    obtain ⟨q1, q2⟩ := List.mem_filter.mp hk
    have q2 : k.typ = typ1 := by simpa using q2
    exact n2 k q1 (by rw [q2]; exact hne)
  | other h1 h2 => exact both h1 h2

/-! ### the calls of the merged logger -/

theorem merged_ok {α β γ : Type} {f : α × β → γ} {ra : Except Err α} {rb : Except Err β} {x : γ} (h : (fromResults ra rb).map f = .ok x) : ∃ a b, ra = .ok a ∧ rb = .ok b ∧ x = f (a, b) := by
  cases ra with
  | error e => cases rb <;> simp [fromResults, Except.map] at h
  | ok a =>
    cases rb with
    | error e => simp [fromResults, Except.map] at h
    | ok b =>
      simp only [fromResults, Except.map] at h
      injection h with h
      exact ⟨a, b, rfl, rfl, h.symm⟩

/-- what the ring does with a reading -/
theorem log_step {crc : Bytes → UInt32} {c : Cfg TS TD D DD} (hc : c.Codecs) (hfit : c.Fits) {typ cap : Nat} {s s' : RingLog.St TS D} {ks : List Known} {pre : List (Segment TS D)} {g : Segment TS D} {h h' : Half TS D}
    {rng1 rng2 : Nat → Nat × Nat} {t : TS} {v : D} {x : Bool} (hr : RingLogging crc c typ cap s ks (pre ++ [g])) (hcur : s.cur = some h) (hl : s.log crc c rng1 rng2 t v = (.ok x, s')) (hcur' : s'.cur = some h') :
    x = !h.l.refuses c t ∧ RingStep crc c typ s ks (pre ++ [g]) s' (tookFiles (h.l.refuses c t) g.id h' s'.fs ks) (pre ++ [tookReading (h.l.refuses c t) h h' t v g]) := by
  obtain ⟨h1, _, _⟩ := ring_log hc hfit (fs0 := s'.fs) hr hcur hl hcur'
  refine ⟨h1, ?_⟩
  cases hrf : h.l.refuses c t with
  | true => rw [h1, hrf] at hl; exact .refuse rng1 rng2 t v hl
  | false => rw [h1, hrf] at hl; exact .accept hcur rng1 rng2 t v hl hcur'

/-- the current logger stays the current one -/
theorem cur_of_log {crc : Bytes → UInt32} {c : Cfg TS TD D DD} {s : RingLog.St TS D} {h : Half TS D} {rng1 rng2 : Nat → Nat × Nat} {t : TS} {v : D} (hcur : s.cur = some h) :
    ∃ h', (s.log crc c rng1 rng2 t v).2.cur = some h' := by
  unfold RingLog.St.log
  rw [hcur]
  exact ⟨_, rfl⟩

/-- **C90** A reading that is handed to the merged logger is handed to both rings; each of them records it in its newest segment unless it comes too early for that ring, and the answer says whether at least one
of them recorded it. -/
theorem C90_log {crc : Bytes → UInt32} {c1 : Cfg TS TD1 D DD1} {c2 : Cfg TS TD2 D DD2} (hc1 : c1.Codecs) (hf1 : c1.Fits) (hc2 : c2.Codecs) (hf2 : c2.Fits) {typ1 typ2 cap1 cap2 : Nat} {s s' : Tiered.St TS D}
    {ks : List Known} {p1 p2 : List (Segment TS D)} {n1 n2 : Segment TS D} {h1 h2 : Half TS D} (h : TieredLogging crc c1 c2 typ1 typ2 cap1 cap2 s ks (p1 ++ [n1]) (p2 ++ [n2])) (ha : s.a.cur = some h1) (hb : s.b.cur = some h2)
    {g1 g2 g3 g4 : Nat → Nat × Nat} {t : TS} {v : D} {x : Bool} (hl : s.log crc c1 c2 g1 g2 g3 g4 t v = (.ok x, s')) :
    x = (!h1.l.refuses c1 t || !h2.l.refuses c2 t) ∧ ∃ h1' h2' ks', s'.a.cur = some h1' ∧ s'.b.cur = some h2' ∧
      TieredLogging crc c1 c2 typ1 typ2 cap1 cap2 s' ks' (p1 ++ [tookReading (h1.l.refuses c1 t) h1 h1' t v n1]) (p2 ++ [tookReading (h2.l.refuses c2 t) h2 h2' t v n2]) := by
  unfold Tiered.St.log at hl
  rcases hx : s.a.log crc c1 g1 g2 t v with ⟨ra, a⟩
  rw [hx] at hl
  simp only at hl
  rcases hy : (s.withA a).b.log crc c2 g3 g4 t v with ⟨rb, b⟩
  rw [hy] at hl
  simp only [Prod.mk.injEq] at hl
  obtain ⟨hres, rfl⟩ := hl
  obtain ⟨xa, xb, rfl, rfl, rfl⟩ := merged_ok hres
  obtain ⟨h1', ha'⟩ := cur_of_log (crc := crc) (c := c1) (rng1 := g1) (rng2 := g2) (t := t) (v := v) ha
  rw [hx] at ha'
  obtain ⟨i1, _, _⟩ := C90_both hc1 hf1 hc2 hf2 h
  obtain ⟨e1, st1⟩ := log_step hc1 hf1 i1 ha hx ha'
  have t1 := h.first st1
  obtain ⟨_, i2, _⟩ := C90_both hc1 hf1 hc2 hf2 t1
  have hb2 : (s.withA a).b.cur = some h2 := hb
  obtain ⟨h2', hb'⟩ := cur_of_log (crc := crc) (c := c2) (rng1 := g3) (rng2 := g4) (t := t) (v := v) hb2
  rw [hy] at hb'
  obtain ⟨e2, st2⟩ := log_step hc2 hf2 i2 hb2 hy hb'
  exact ⟨by rw [e1, e2], h1', h2', _, ha', hb', t1.second st2⟩

/-- **C90** The same for the time-sync records, … -/
theorem C90_unix {crc : Bytes → UInt32} {c1 : Cfg TS TD1 D DD1} {c2 : Cfg TS TD2 D DD2} {typ1 typ2 cap1 cap2 : Nat} {s s' : Tiered.St TS D}
    {ks : List Known} {p1 p2 : List (Segment TS D)} {n1 n2 : Segment TS D} {h1 h2 : Half TS D} (h : TieredLogging crc c1 c2 typ1 typ2 cap1 cap2 s ks (p1 ++ [n1]) (p2 ++ [n2])) (ha : s.a.cur = some h1) (hb : s.b.cur = some h2)
    {g1 g2 : Nat → Nat × Nat} {u : Unix} (hl : s.logUnix crc g1 g2 u = (.ok (), s')) :
    ∃ ks', TieredLogging crc c1 c2 typ1 typ2 cap1 cap2 s' ks' (p1 ++ [n1.add [] (if h1.l.lastUnix then [] else [.unix u])]) (p2 ++ [n2.add [] (if h2.l.lastUnix then [] else [.unix u])]) := by
  unfold Tiered.St.logUnix at hl
  rcases hx : s.a.logUnix crc g1 u with ⟨ra, a⟩
  rw [hx] at hl
  simp only at hl
  rcases hy : (s.withA a).b.logUnix crc g2 u with ⟨rb, b⟩
  rw [hy] at hl
  simp only [Prod.mk.injEq] at hl
  obtain ⟨hres, rfl⟩ := hl
  obtain ⟨xa, xb, rfl, rfl, _⟩ := merged_ok hres
  have ha' : ∃ h', a.cur = some h' := by
    unfold RingLog.St.logUnix at hx
    rw [ha] at hx
    injection hx with _ hx
    exact ⟨_, by rw [← hx]⟩
  obtain ⟨h1', ha'⟩ := ha'
  have hb' : ∃ h', b.cur = some h' := by
    have hb2 : (s.withA a).b.cur = some h2 := hb
    unfold RingLog.St.logUnix at hy
    rw [hb2] at hy
    injection hy with _ hy
    exact ⟨_, by rw [← hy]⟩
  obtain ⟨h2', hb'⟩ := hb'
  have hb2 : (s.withA a).b.cur = some h2 := hb
  have t1 := h.first (.unix ha g1 u hx ha')
  have st2 := RingStep.unix (crc := crc) (c := c2) (typ := typ2) (ks := wrote n1.id ⟨h1'.l, h1'.w, a.fs⟩ ks) (pre := p2) (g := n2) hb2 g2 u hy hb'
  exact ⟨_, t1.second st2⟩

/-- **C90** … and after a successful `flush` everything in both newest segments is safe. -/
theorem C90_flush {crc : Bytes → UInt32} {c1 : Cfg TS TD1 D DD1} {c2 : Cfg TS TD2 D DD2} {typ1 typ2 cap1 cap2 : Nat} {s s' : Tiered.St TS D}
    {ks : List Known} {p1 p2 : List (Segment TS D)} {n1 n2 : Segment TS D} (h : TieredLogging crc c1 c2 typ1 typ2 cap1 cap2 s ks (p1 ++ [n1]) (p2 ++ [n2]))
    {g1 g2 : Nat → Nat × Nat} {r1 r2 r3 r4 : Nat} (hl : s.flush crc g1 g2 r1 r2 r3 r4 = (.ok (), s')) :
    ∃ ks', TieredLogging crc c1 c2 typ1 typ2 cap1 cap2 s' ks' (p1 ++ [n1.flushed]) (p2 ++ [n2.flushed]) := by
  unfold Tiered.St.flush at hl
  rcases hx : s.a.flush crc g1 r1 r2 with ⟨ra, a⟩
  rw [hx] at hl
  simp only at hl
  rcases hy : (s.withA a).b.flush crc g2 r3 r4 with ⟨rb, b⟩
  rw [hy] at hl
  simp only [Prod.mk.injEq] at hl
  obtain ⟨hres, rfl⟩ := hl
  obtain ⟨xa, xb, rfl, rfl, _⟩ := merged_ok hres
  have key : ∀ {r s' : RingLog.St TS D} {g : Nat → Nat × Nat} {r1 r2 : Nat} {x : Unit}, r.flush crc g r1 r2 = (.ok x, s') → ∃ h', s'.cur = some h' := by
    intro r s' g r1 r2 x hx
    unfold RingLog.St.flush at hx
    cases hc : r.cur with
    | none => rw [hc] at hx; simp at hx
    | some h =>
      rw [hc] at hx
      injection hx with _ hx
      exact ⟨_, by rw [← hx]⟩
  obtain ⟨h1', ha'⟩ := key hx
  obtain ⟨h2', hb'⟩ := key hy
  have t1 := h.first (.flush g1 r1 r2 hx ha')
  have st2 := RingStep.flush (crc := crc) (c := c2) (typ := typ2) (ks := flushed n1.id ⟨h1'.l, h1'.w, a.fs⟩ ks) (pre := p2) (g := n2) g2 r3 r4 hy hb'
  exact ⟨_, t1.second st2⟩

/-- **C90** A failure of one ring does not keep the reading from the other one: the second ring is always called, on the file system as the first one left it, and the answer names the ring that failed. -/
theorem C90_failures (crc : Bytes → UInt32) (c1 : Cfg TS TD1 D DD1) (c2 : Cfg TS TD2 D DD2) (s : Tiered.St TS D) (g1 g2 g3 g4 : Nat → Nat × Nat) (t : TS) (v : D) {ra rb : Except Err Bool} {a b : RingLog.St TS D}
    (h1 : s.a.log crc c1 g1 g2 t v = (ra, a)) (h2 : RingLog.St.log crc c2 g3 g4 { s.b with fs := a.fs } t v = (rb, b)) :
    (s.log crc c1 c2 g1 g2 g3 g4 t v).2 = ⟨{ a with fs := b.fs }, b⟩ ∧
      ((∀ e, ra ≠ .error e) → (∀ e, rb ≠ .error e) → ∃ x, (s.log crc c1 c2 g1 g2 g3 g4 t v).1 = .ok x) ∧
      (∀ e, ra = .error e → (∀ e, rb ≠ .error e) → (s.log crc c1 c2 g1 g2 g3 g4 t v).1 = .error (.logger1 e)) ∧
      (∀ e, rb = .error e → (∀ e, ra ≠ .error e) → (s.log crc c1 c2 g1 g2 g3 g4 t v).1 = .error (.logger2 e)) ∧
      (∀ e e', ra = .error e → rb = .error e' → (s.log crc c1 c2 g1 g2 g3 g4 t v).1 = .error (.both e e')) := by
  have : s.log crc c1 c2 g1 g2 g3 g4 t v = ((fromResults ra rb).map fun r => r.1 || r.2, ⟨{ a with fs := b.fs }, b⟩) := by
    unfold Tiered.St.log
    rw [h1]
    simp only
    have : (s.withA a).b.log crc c2 g3 g4 t v = (rb, b) := h2
    rw [this]
    rfl
  rw [this]
  refine ⟨rfl, ?_, ?_, ?_, ?_⟩
  · intro ha hb
    cases ra with
    | error e => exact absurd rfl (ha e)
    | ok x =>
      cases rb with
      | error e => exact absurd rfl (hb e)
      | ok y => exact ⟨_, rfl⟩
  · rintro e rfl hb
    cases rb with
    | error e => exact absurd rfl (hb e)
    | ok y => rfl
  · rintro e rfl ha
    cases ra with
    | error e => exact absurd rfl (ha e)
    | ok y => rfl
  · rintro e e' rfl rfl
    rfl

/-- the newest segments of the case -/
def tierA : Segment (BitVec 64) (BitVec 64) := ⟨1, [(10#64, 20#64)], [.reading 10#64 20#64], []⟩
def tierB : Segment (BitVec 64) (BitVec 64) := ⟨2, [(10#64, 20#64)], [.reading 10#64 20#64], []⟩

/-- Two rings are started on an empty chip, and the merged logger is given a reading. -/
theorem C90_case (crc : Bytes → UInt32) : ∃ (s s' : Tiered.St (BitVec 64) (BitVec 64)) (ks ks' : List Known), TieredLogging crc Log.demo Log.demo 5 6 2 3 s ks [Segment.empty 1] [Segment.empty 2] ∧
    s.log crc Log.demo Log.demo (fun _ => (0, 0)) (fun _ => (0, 0)) (fun _ => (0, 0)) (fun _ => (0, 0)) 10#64 20#64 = (.ok true, s') ∧
    TieredLogging crc Log.demo Log.demo 5 6 2 3 s' ks' [tierA] [tierB] ∧ TieredCut crc Log.demo Log.demo 5 6 s' ks' s'.a.fs.dev.flash [] [] := by
  obtain ⟨z0, a0, m0⟩ := format_sys crc
  have h0 : Hist crc (FS.mount fun _ => 0xFF).2 [] := .format _ Props.blank_noheader
  generalize (FS.mount fun _ => 0xFF).2 = fs0 at z0 a0 h0 m0
  have ok0 : countersOk fs0 := by unfold countersOk; rw [a0]; exact ⟨by decide, by decide⟩
  have hid : fs0.at'.maxId + 1 = 1 := by rw [a0]; rfl
  have hseq : fs0.at'.seq + 1 = 2 := by rw [a0]; rfl
  obtain ⟨x, fs1, b1, z1, q1, q2, q3⟩ := open_new z0 (typ := 5) (by decide) (by decide) (by rw [(freeBytes_eq z0.inv).1]; decide) ok0
  rw [hid] at b1 z1 q2
  rw [hseq] at q1
  have hnew1 : RingLog.St.new Log.demo fs0 5 2 0 0 = (.ok ⟨5, 2, 1, some ⟨Logger.new Log.demo, FileWriter.new x 1⟩, none, none, fs1⟩, fs1) := by
    unfold RingLog.St.new
    rw [z0.reach.dir.filesIter]
    simp [startPlan, b1, writerOf]
  have ok1 : countersOk fs1 := by unfold countersOk; rw [q1, q2]; exact ⟨by decide, by decide⟩
  have hid1 : fs1.at'.maxId + 1 = 2 := by rw [q2]
  obtain ⟨y, fs2, b2, z2, u1, u2, u3⟩ := open_new z1 (typ := 6) (by decide) (by simp) (by rw [(freeBytes_eq z1.inv).1]; simp [FileSt.own, secs]) ok1
  rw [hid1] at b2 z2 u2
  have hnew2 : RingLog.St.new Log.demo fs1 6 3 0 0 = (.ok ⟨6, 3, 1, some ⟨Logger.new Log.demo, FileWriter.new y 2⟩, none, none, fs2⟩, fs2) := by
    unfold RingLog.St.new
    rw [z1.reach.dir.filesIter]
    simp [startPlan, b2, writerOf]
  have hnew : Tiered.St.new Log.demo Log.demo fs0 5 2 6 3 0 0 0 0 = (.ok ⟨⟨5, 2, 1, some ⟨Logger.new Log.demo, FileWriter.new x 1⟩, none, none, fs2⟩, ⟨6, 3, 1, some ⟨Logger.new Log.demo, FileWriter.new y 2⟩, none, none, fs2⟩⟩, fs2) := by
    unfold Tiered.St.new
    rw [hnew1]
    simp only
    rw [hnew2]
  have r1 := TieredLogging.start (crc := crc) (typ1 := 5) (typ2 := 6) (cap1 := 2) (cap2 := 3) h0 (by simp) (by decide) (by decide) (by decide) (by decide) (by decide) (by decide) ok0 0 0 0 0 hnew (by rw [hnew1]; exact ok1) rfl rfl
  -- a reading
  obtain ⟨w3, fs3, cur3, g3, z3, n3, t3⟩ := log_fits (as := []) (bs := [_]) (c := Log.demo) z2 rfl rfl ring_new_sink ringA_log (by
    have := ringA_len.1
    rw [List.length_nil]; omega)
  obtain ⟨w4, fs4, cur4, g4, z4, n4, t4⟩ := log_fits (as := [_]) (bs := []) (c := Log.demo) z3 rfl rfl ring_new_sink ringA_log (by
    have := ringA_len.1
    rw [List.length_nil]; omega)
  have hl1 : RingLog.St.log crc Log.demo (fun _ => (0, 0)) (fun _ => (0, 0)) ⟨5, 2, 1, some ⟨Logger.new Log.demo, FileWriter.new x 1⟩, none, none, fs2⟩ 10#64 20#64 = (.ok true, ⟨5, 2, 1, some ⟨ringA, w3⟩, none, none, fs3⟩) := by
    unfold RingLog.St.log
    simp only [g3]
  have hl2 : RingLog.St.log crc Log.demo (fun _ => (0, 0)) (fun _ => (0, 0)) ⟨6, 3, 1, some ⟨Logger.new Log.demo, FileWriter.new y 2⟩, none, none, fs3⟩ 10#64 20#64 = (.ok true, ⟨6, 3, 1, some ⟨ringA, w4⟩, none, none, fs4⟩) := by
    unfold RingLog.St.log
    simp only [g4]
  have s1 := r1.first (.accept (pre := []) (h' := ⟨ringA, w3⟩) rfl _ _ _ _ hl1 rfl)
  have s2 := s1.second (.accept (pre := []) (h' := ⟨ringA, w4⟩) rfl _ _ _ _ hl2 rfl)
  simp only [ringA_out] at s2
  refine ⟨_, _, _, _, r1, ?_, s2, .idle⟩
  unfold Tiered.St.log
  rw [hl1]
  simp only
  have hl2' : (St.withA (⟨⟨5, 2, 1, some ⟨Logger.new Log.demo, FileWriter.new x 1⟩, none, none, fs2⟩, ⟨6, 3, 1, some ⟨Logger.new Log.demo, FileWriter.new y 2⟩, none, none, fs2⟩⟩ : Tiered.St (BitVec 64) (BitVec 64)) ⟨5, 2, 1, some ⟨ringA, w3⟩, none, none, fs3⟩).b.log crc Log.demo (fun _ => (0, 0)) (fun _ => (0, 0)) 10#64 20#64 = (.ok true, ⟨6, 3, 1, some ⟨ringA, w4⟩, none, none, fs4⟩) := hl2
  rw [hl2']
  rfl

end Verif.Props
