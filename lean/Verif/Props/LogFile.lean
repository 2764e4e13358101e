import Verif.Lemmas.Recording
import Verif.Lemmas.OpenedList
import Verif.Lemmas.WitnessLog
/-
C87: a sensor log in a file, from the first reading to reading it back after power was lost. The runs are defined in Verif/Spec/LogFile.lean.
-/
namespace Verif.Props
open Verif Verif.Vlfs Verif.Spec Verif.Bit Verif.Delta Verif.Log Verif.LogFile

variable {TS TD D DD : Type}

/-- **C87** Whenever power is lost while a log is being recorded, whatever the file system is used for besides: the chip mounts, the file of the log can be opened, and reading
the log back (in pieces of any sizes) never panics, gives a prefix of the entries that were logged (or were just being logged), and before it reports the end of the
log it gives at least all entries logged up to the last successful flush. -/
theorem C87_survives {crc : Bytes → UInt32} {c : Cfg TS TD D DD} (hc : c.Codecs) (hf : c.Fits) {id : Nat} {s : St TS D} {ks : List Known} {inputs : List (TS × D)}
    {acc safe extra : List (Out TS D)} {fl' : Flash} (h : Recording crc c id s ks inputs acc safe) (hcut : CutOff crc c id s ks fl' extra) :
    ∃ fs content, FS.mount fl' = (.ok (), fs) ∧ ReadsAs crc fs id content ∧
      ∀ (sched : Nat → Nat) (r : LogReader TS D) (outs : List (Out TS D)), ReadRun c sched content r outs →
        outs <+: acc ++ extra ∧ ∃ x, r.read c sched = some x ∧ (x.1 = none → safe <+: outs) := by
  obtain ⟨fs, hm, cont, l', h1, h2, h3, l0, h4, h5, h6⟩ := cutOff_content hc hf (recording_inv hc hf h) hcut
  refine ⟨fs, cont, hm, h1, fun sched r outs hr => ?_⟩
  obtain ⟨k1, ⟨x, k2⟩, k3⟩ := cut_log hf h4 h5 h2 h6 h3 hr
  refine ⟨k1, x, k2, fun hx => ?_⟩
  obtain ⟨x1, x2⟩ := x
  simp only at hx
  subst hx
  exact k3 x2 k2

/-- **C87** Reading ends: from every content, after finitely many entries the reader reports the end of the log. -/
theorem C87_reading_ends {c : Cfg TS TD D DD} {src : Bytes} {sched : Nat → Nat} {acc : List (Out TS D)}
    (h : ∀ (r : LogReader TS D) (outs : List (Out TS D)), ReadRun c sched src r outs → outs <+: acc ∧ ∃ x, r.read c sched = some x) :
    ∃ r outs r', ReadRun c sched src r outs ∧ r.read c sched = some (none, r') := by
  have key : ∀ (n : Nat) (r : LogReader TS D) (outs : List (Out TS D)), acc.length - outs.length ≤ n → ReadRun c sched src r outs →
      ∃ r outs r', ReadRun c sched src r outs ∧ r.read c sched = some (none, r') := by
    intro n
    induction n with
    | zero =>
      intro r outs hn hr
      obtain ⟨hp, ⟨o, r'⟩, hx⟩ := h r outs hr
      cases o with
      | none => exact ⟨r, outs, r', hr, hx⟩
      | some o =>
        have := (h r' _ (hr.next hx)).1.length_le
        rw [List.length_append, List.length_singleton] at this
        omega
    | succ n ih =>
      intro r outs hn hr
      obtain ⟨hp, ⟨o, r'⟩, hx⟩ := h r outs hr
      cases o with
      | none => exact ⟨r, outs, r', hr, hx⟩
      | some o => exact ih r' _ (by rw [List.length_append, List.length_singleton]; omega) (hr.next hx)
  exact key _ _ [] (Nat.le_refl _) .new

/-- **C87** A recording that is flushed and closed: the file holds a log that reads back as exactly the entries that were logged. -/
theorem C87_closed {crc : Bytes → UInt32} {c : Cfg TS TD D DD} (hc : c.Codecs) (hf : c.Fits) {id : Nat} {s s' : St TS D} {ks : List Known} {inputs : List (TS × D)}
    {acc safe : List (Out TS D)} (h : Recording crc c id s ks inputs acc safe) {rng : Nat → Nat × Nat} {r1 r2 : Nat} (hfl : s.flush crc rng r1 r2 = (.ok (), s'))
    (ho : (s'.fs.closeWriter crc s'.w).at'.opened.length < 32) :
    ∃ content, ReadsAs crc (s'.fs.closeWriter crc s'.w) id content ∧
      ∀ (sched : Nat → Nat) (r : LogReader TS D) (outs : List (Out TS D)), ReadRun c sched content r outs →
        outs <+: acc ∧ ∃ x, r.read c sched = some x ∧ (x.1 = none → outs = acc) := by
  have hrec := h.flush rng r1 r2 hfl
  have inv := recording_inv hc hf hrec
  obtain ⟨k, hk, hkf⟩ := inv.file
  obtain ⟨a, b, hab⟩ := List.append_of_mem hk
  have hh := inv.hist
  rw [hab] at hh
  have hcl := hh.step (.close s'.w a b k rfl hkf.writer)
  obtain ⟨pre, p1, _, p2⟩ := (hist_inv hcl).closed (k := { k with durable := k.data, writer := none, guarded := false }) (by simp) rfl ((hist_inv inv.hist).whole (k := k) hk hkf.writer)
  have p1 : pre <+: k.maybe := p1
  have p2 : k.id ∉ (s'.fs.closeWriter crc s'.w).at'.opened → (s'.fs.closeWriter crc s'.w).at'.opened.length < 32 → ReadsAs crc (s'.fs.closeWriter crc s'.w) k.id (k.data ++ pre) := p2
  rw [hkf.maybe] at p1
  rw [List.prefix_nil.mp p1, List.append_nil, hkf.id, hkf.data] at p2
  have hwid := ((hist_inv hh).durable (k := k) (by simp) hkf.writer).2
  have hopen := p2 (by
    rw [← hkf.id, ← hwid]
    exact markClosed_gone (fs := { s'.fs with dev := s'.w.close crc s'.fs.dev }) (show s'.fs.at'.opened.Nodup from hist_nodup hh)) ho
  refine ⟨s'.l.sink, hopen, fun sched r outs hr => ?_⟩
  obtain ⟨hw, hl⟩ := run_inv hc hf (recording_inv hc hf h).run
  obtain ⟨l0, d1, d2, d3⟩ := hkf.durable
  have hwinv := (run_inv hc hf inv.run).1
  have hdur := ((hist_inv hh).durable (k := k) (by simp) hkf.writer).1
  rw [hkf.maybe, List.append_nil, hkf.data] at hdur
  obtain ⟨k1, ⟨x, k2⟩, k3⟩ := cut_log hf d1 d2 hwinv (d3.trans hdur) List.prefix_rfl hr
  refine ⟨k1, x, k2, fun hx => ?_⟩
  obtain ⟨x1, x2⟩ := x
  simp only at hx
  subst hx
  have := k3 x2 k2
  exact (this.eq_of_length_le k1.length_le).symm

/-- **C87** What the entries are: the readings among them correspond one to one, in order, to the readings that were accepted, each reconstructed to within what one
encoding step loses (no accumulation), as long as successive inputs meet the step condition. -/
theorem C87_values {crc : Bytes → UInt32} {c : Cfg TS TD D DD} (hc : c.Codecs) (hf : c.Fits) {id : Nat} {s : St TS D} {ks : List Known} {inputs : List (TS × D)}
    {acc safe : List (Out TS D)} (h : Recording crc c id s ks inputs acc safe) {chT clT : TS → TS → Prop} {chD clD : D → D → Prop} (ht : OneStep c.tsDelta chT clT)
    (hd : OneStep c.dDelta chD clD) (hch : Chained (fun p q => chT p.1 q.1 ∧ chD p.2 q.2) inputs) :
    List.Forall₂ (fun p o => ∃ t v, o = Out.reading t v ∧ clT p.1 t ∧ clD p.2 v) inputs (acc.filter Out.isReading) :=
  C28_values ht hd (recording_inv hc hf h).run hch

/-! ### a case -/

/-- the only file, open for writing: appends that fit into a page succeed -/
theorem small_writes {crc : Bytes → UInt32} {ops : List WriterOp} {fs : FS} {k : Known} {e : FileEntry} {segs : List (Nat × Bytes)} {cur : Bytes} {w : FileWriter}
    (hs : Sys crc fs [⟨k, e, segs, cur⟩] []) (hw : k.writer = some w) (hm : k.maybe = []) (ho : OnlyWrites ops) (hl : cur.length + (writtenBytes ops).length < 252) :
    ∃ w' fs', runWriter crc fs w ops = (.ok (), w', fs') ∧
      Sys crc fs' [⟨{ k with data := k.data ++ writtenBytes ops, writer := some w' }, e, segs, cur ++ writtenBytes ops⟩] [] := by
  obtain ⟨w', fs', h1, h2, _⟩ := small_writes_at (as := []) (bs := []) hs hw hm ho hl
  exact ⟨w', fs', h1, h2⟩

/-- … and a flush succeeds if a sector is free -/
theorem free_flush {crc : Bytes → UInt32} {fs : FS} {k : Known} {e : FileEntry} {segs : List (Nat × Bytes)} {cur : Bytes} {w : FileWriter}
    (hs : Sys crc fs [⟨k, e, segs, cur⟩] []) (hw : k.writer = some w) (hm : k.maybe = []) (hlen : segs.length < 100) (r1 r2 : Nat) :
    ∃ w' fs' segs', fs.flushWriter crc w r1 r2 = (.ok (), w', fs') ∧ Sys crc fs' [⟨{ k with durable := k.data, writer := some w' }, e, segs', []⟩] [] := by
  obtain ⟨w', fs', segs', h1, h2, _⟩ := free_flush_at (as := []) (bs := []) hs hw hm (by simp [others]; omega) r1 r2
  exact ⟨w', fs', segs', h1, h2⟩

/-- a state of the case: the log is the only file -/
structure Alone (crc : Bytes → UInt32) (s : St (BitVec 64) (BitVec 64)) (ks : List Known) (n m : Nat) : Prop where
  st : ∃ k e segs cur, ks = [k] ∧ Sys crc s.fs [⟨k, e, segs, cur⟩] [] ∧ k.id = 1 ∧ k.writer = some s.w ∧ k.maybe = [] ∧ k.data = s.l.sink ∧ cur.length = n ∧ segs.length = m

/-- a reading is logged -/
theorem demo_accept {crc : Bytes → UInt32} {s : St (BitVec 64) (BitVec 64)} {ks : List Known} {n m : Nat} {inputs : List (BitVec 64 × BitVec 64)} {acc safe : List (Out (BitVec 64) (BitVec 64))}
    (ha : Alone crc s ks n m) (hr : Recording crc Log.demo 1 s ks inputs acc safe) {t v : BitVec 64} {l' : Logger (BitVec 64) (BitVec 64)} (hl : s.l.log Log.demo t v = some (true, l'))
    (hn : n + (l'.sink.length - s.l.sink.length) < 252) :
    ∃ s' ks', Recording crc Log.demo 1 s' ks' (inputs ++ [(t, v)]) (acc ++ (if s.l.lastUnix then [] else s.l.unixBuf.toList.map .unix) ++ l'.recon) safe ∧ s'.l = l' ∧
      Alone crc s' ks' (n + (l'.sink.length - s.l.sink.length)) m := by
  obtain ⟨k, e, segs, cur, rfl, h1, h2, h3, h4, h5, rfl, rfl⟩ := ha.st
  obtain ⟨ops, ho, hdo⟩ := log_does crc (fun _ => (0, 0)) (fun _ => (0, 0)) hl
  obtain ⟨d1, d2⟩ := hdo s.w s.fs
  have hb : l'.sink.length - s.l.sink.length = (writtenBytes ops).length := by rw [d1, List.length_append]; simp
  rw [hb] at hn ⊢
  obtain ⟨w', fs', g1, g2⟩ := small_writes h1 h3 h4 ho hn
  have g1' : runWriter crc (⟨s.l, s.w, s.fs⟩ : St (BitVec 64) (BitVec 64)).fs (⟨s.l, s.w, s.fs⟩ : St (BitVec 64) (BitVec 64)).w ops = (.ok (), w', fs') := g1
  rw [g1'] at d2
  simp only at d2
  refine ⟨⟨l', w', fs'⟩, _, hr.accept _ _ t v d2, rfl, ⟨{ k with data := k.data ++ writtenBytes ops, writer := some w' }, e, segs, cur ++ writtenBytes ops, ?_, g2, h2, rfl, h4, ?_, ?_, rfl⟩⟩
  · simp only [wrote, List.map_cons, List.map_nil, h2, if_true, d1, h5]
  · show k.data ++ writtenBytes ops = l'.sink
    rw [d1, h5]
  · rw [List.length_append]

/-- the log is flushed -/
theorem demo_flush {crc : Bytes → UInt32} {s : St (BitVec 64) (BitVec 64)} {ks : List Known} {n m : Nat} {inputs : List (BitVec 64 × BitVec 64)} {acc safe : List (Out (BitVec 64) (BitVec 64))}
    (ha : Alone crc s ks n m) (hr : Recording crc Log.demo 1 s ks inputs acc safe) {l' : Logger (BitVec 64) (BitVec 64)} (hl : s.l.flush = some l') (hm : m < 100)
    (hn : n + (l'.sink.length - s.l.sink.length) < 252) : ∃ s' ks' m', Recording crc Log.demo 1 s' ks' inputs acc acc ∧ s'.l = l' ∧ Alone crc s' ks' 0 m' := by
  obtain ⟨k, e, segs, cur, rfl, h1, h2, h3, h4, h5, rfl, rfl⟩ := ha.st
  obtain ⟨ops, ho, hdo⟩ := flush_does crc (fun _ => (0, 0)) 0 0 hl
  obtain ⟨d1, d2⟩ := hdo s.w s.fs
  have hb' : writtenBytes (ops ++ [.flush 0 0]) = writtenBytes ops := by rw [writtenBytes_append]; simp [writtenBytes]
  rw [hb'] at d1
  have hb : l'.sink.length - s.l.sink.length = (writtenBytes ops).length := by rw [d1, List.length_append]; simp
  rw [hb] at hn
  obtain ⟨w1, fs1, g1, g2⟩ := small_writes h1 h3 h4 ho hn
  obtain ⟨w2, fs2, segs', g3, g4⟩ := free_flush g2 rfl h4 hm 0 0
  have g1' : runWriter crc (⟨s.l, s.w, s.fs⟩ : St (BitVec 64) (BitVec 64)).fs (⟨s.l, s.w, s.fs⟩ : St (BitVec 64) (BitVec 64)).w (ops ++ [.flush 0 0]) = (.ok (), w2, fs2) := by
    rw [runWriter_append]
    simp only [g1, runWriter, g3]
  rw [g1'] at d2
  simp only at d2
  refine ⟨⟨l', w2, fs2⟩, _, segs'.length, hr.flush _ 0 0 d2, rfl, ⟨{ k with data := k.data ++ writtenBytes ops, durable := k.data ++ writtenBytes ops, writer := some w2 }, e, segs', [], ?_, g4, h2, rfl, h4, ?_, rfl, rfl⟩⟩
  · simp only [flushed, List.map_cons, List.map_nil, h2, if_true, d1, h5]
  · show k.data ++ writtenBytes ops = l'.sink
    rw [d1, h5]

theorem pick {α : Type} (x : Option (Bool × α)) (d : α) (h : x.map Prod.fst = some true) : x = some (true, (x.getD (true, d)).2) := by
  cases x with
  | none => simp at h
  | some p => obtain ⟨a, b⟩ := p; simp at h; simp [h]

/-- the states of the logger in the case -/
def case1 : Logger (BitVec 64) (BitVec 64) := (((Logger.new Log.demo).log Log.demo 10#64 20#64).getD (true, Logger.new Log.demo)).2
def case2 : Logger (BitVec 64) (BitVec 64) := ((case1.log Log.demo 18#64 21#64).getD (true, Logger.new Log.demo)).2
def case3 : Logger (BitVec 64) (BitVec 64) := case2.flush.getD (Logger.new Log.demo)
def case4 : Logger (BitVec 64) (BitVec 64) := ((case3.log Log.demo 30#64 22#64).getD (true, Logger.new Log.demo)).2

/-- two readings are logged, the log is flushed, a third reading is logged; power is lost (here between two calls): the first two readings are safe -/
theorem C87_case (crc : Bytes → UInt32) : ∃ s ks fl', Recording crc Log.demo 1 s ks [(10#64, 20#64), (18#64, 21#64), (30#64, 22#64)]
    [.reading 10#64 20#64, .reading 18#64 21#64, .reading 30#64 22#64] [.reading 10#64 20#64, .reading 18#64 21#64] ∧ CutOff crc Log.demo 1 s ks fl' [] := by
  obtain ⟨fs, new, h0, _, s0, _⟩ := demo_fresh crc
  have rec0 : Recording crc Log.demo 1 ⟨Logger.new Log.demo, FileWriter.new new 1, fs⟩ _ [] [] [] := .start h0 (List.mem_singleton.mpr rfl) rfl rfl rfl rfl rfl
  have a0 : Alone crc ⟨Logger.new Log.demo, FileWriter.new new 1, fs⟩ _ 0 0 := ⟨_, _, _, _, rfl, s0, rfl, rfl, rfl, rfl, rfl, rfl⟩
  have p1 : (Logger.new Log.demo).log Log.demo 10#64 20#64 = some (true, case1) := pick _ _ (by decide +kernel)
  obtain ⟨s1, ks1, rec1, e1, a1⟩ := demo_accept a0 rec0 p1 (by
    show 0 + (case1.sink.length - (Logger.new Log.demo).sink.length) < 252
    decide +kernel)
  have p2 : case1.log Log.demo 18#64 21#64 = some (true, case2) := pick _ _ (by decide +kernel)
  rw [← e1] at p2
  obtain ⟨s2, ks2, rec2, e2, a2⟩ := demo_accept a1 rec1 p2 (by
    rw [e1]
    show 0 + (case1.sink.length - (Logger.new Log.demo).sink.length) + (case2.sink.length - case1.sink.length) < 252
    decide +kernel)
  have p3 : case2.flush = some case3 := by
    have : case2.flush.isSome = true := by decide +kernel
    obtain ⟨x, hx⟩ := Option.isSome_iff_exists.mp this
    rw [case3, hx]; rfl
  rw [← e2] at p3
  obtain ⟨s3, ks3, m3, rec3, e3, a3⟩ := demo_flush a2 rec2 p3 (by decide) (by
    rw [e1, e2]
    show 0 + (case1.sink.length - (Logger.new Log.demo).sink.length) + (case2.sink.length - case1.sink.length) + (case3.sink.length - case2.sink.length) < 252
    decide +kernel)
  have p4 : case3.log Log.demo 30#64 22#64 = some (true, case4) := pick _ _ (by decide +kernel)
  rw [← e3] at p4
  obtain ⟨s4, ks4, rec4, e4, a4⟩ := demo_accept a3 rec3 p4 (by rw [e3]; decide +kernel)
  refine ⟨s4, ks4, _, ?_, .idle⟩
  rw [e1, e3] at rec4
  have q1 : ((([] ++ if (Logger.new Log.demo).lastUnix = true then [] else List.map Out.unix (Logger.new Log.demo).unixBuf.toList) ++ case1.recon ++
        if case1.lastUnix = true then [] else List.map Out.unix case1.unixBuf.toList) ++ case2.recon : List (Out (BitVec 64) (BitVec 64))) = [.reading 10#64 20#64, .reading 18#64 21#64] := by
    decide +kernel
  have q2 : ((if case3.lastUnix then [] else case3.unixBuf.toList.map .unix) : List (Out (BitVec 64) (BitVec 64))) = [] := by decide +kernel
  have q3 : case4.recon = [Out.reading 30#64 22#64] := by decide +kernel
  simp only at rec4
  rw [q1, q2, q3] at rec4
  exact rec4

end Verif.Props
