import Verif.Spec.LogFile
import Verif.Lemmas.LogPrefix
import Verif.Lemmas.ConfigCrash
import Verif.Lemmas.SystemUse
import Verif.Lemmas.LossAny
import Verif.Lemmas.Touch
/-
A log that is written into a file.
-/
namespace Verif.LogFile
open Verif Verif.Vlfs Verif.Spec Verif.Bit Verif.Delta Verif.Log

variable {TS TD D DD : Type}

theorem runWriter_append (crc : Bytes → UInt32) : ∀ (a b : List WriterOp) (fs : FS) (w : FileWriter),
    runWriter crc fs w (a ++ b) = match runWriter crc fs w a with
      | (.ok (), w', fs') => runWriter crc fs' w' b
      | r => r := by
  intro a
  induction a with
  | nil => intro b fs w; rfl
  | cons x a ih =>
    intro b fs w
    cases x with
    | write rng sl =>
      simp only [List.cons_append, runWriter]
      rcases h : fs.extendWriter crc w rng sl with ⟨_ | _, w', fs'⟩
      · rfl
      · exact ih b fs' w'
    | flush r1 r2 =>
      simp only [List.cons_append, runWriter]
      rcases h : fs.flushWriter crc w r1 r2 with ⟨_ | _, w', fs'⟩
      · rfl
      · exact ih b fs' w'

theorem writtenBytes_append : ∀ (a b : List WriterOp), writtenBytes (a ++ b) = writtenBytes a ++ writtenBytes b := by
  intro a
  induction a with
  | nil => intro b; rfl
  | cons x a ih => intro b; cases x <;> simp [writtenBytes, ih]

/-- the call `r`, made in the state `s`, does the writer operations `ops`; if they all succeed it returns `b` and the logger is `l'` -/
def Does {α : Type} (crc : Bytes → UInt32) (s : St TS D) (ops : List WriterOp) (r : Except Err α × St TS D) (b : α) (l' : Logger TS D) : Prop :=
  l'.sink = s.l.sink ++ writtenBytes ops ∧
  match runWriter crc s.fs s.w ops with
  | (.ok (), w, fs) => r = (.ok b, ⟨l', w, fs⟩)
  | (.error e, w, fs) => r.1 = .error e ∧ r.2.w = w ∧ r.2.fs = fs

theorem Does.same {α : Type} {crc : Bytes → UInt32} {s : St TS D} {b : α} {l' : Logger TS D} (h : l'.sink = s.l.sink) :
    Does crc s [] (.ok b, { s with l := l' }) b l' := by
  refine ⟨by rw [h]; simp [writtenBytes], ?_⟩
  simp only [runWriter]

/-- the operation of `write_all` -/
def wops (rng : Nat → Nat × Nat) (d : Bytes) : List WriterOp := if d = [] then [] else [.write rng d]

theorem wops_bytes (rng : Nat → Nat × Nat) (d : Bytes) : writtenBytes (wops rng d) = d := by
  unfold wops
  split
  · rename_i h; rw [h]; rfl
  · simp [writtenBytes]

/-- appends of at least one byte, no flush -/
def OnlyWrites (ops : List WriterOp) : Prop := ∀ o ∈ ops, ∃ rng d, o = .write rng d ∧ d ≠ []

theorem wops_only (rng : Nat → Nat × Nat) (d : Bytes) : OnlyWrites (wops rng d) := by
  intro o ho
  unfold wops at ho
  split at ho
  · exact absurd ho (by simp)
  · rename_i hd
    exact ⟨rng, d, by simpa using ho, hd⟩

theorem OnlyWrites.append {a b : List WriterOp} (ha : OnlyWrites a) (hb : OnlyWrites b) : OnlyWrites (a ++ b) := fun o ho => by
  rcases List.mem_append.mp ho with h | h
  · exact ha o h
  · exact hb o h

theorem onlyNil : OnlyWrites [] := fun o ho => absurd ho (by simp)

theorem writeAll_does (crc : Bytes → UInt32) (rng : Nat → Nat × Nat) (s : St TS D) (d : Bytes) :
    Does crc s (wops rng d) (s.writeAll crc rng d) () { s.l with sink := s.l.sink ++ d } := by
  refine ⟨by rw [wops_bytes], ?_⟩
  unfold St.writeAll wops
  by_cases hd : d = []
  · subst hd
    rw [if_pos rfl, if_pos rfl]
    simp only [List.append_nil, runWriter]
  · rw [if_neg hd, if_neg hd]
    simp only [runWriter]
    rcases h : s.fs.extendWriter crc s.w rng d with ⟨_ | _, w', fs'⟩
    · exact ⟨rfl, rfl, rfl⟩
    · rfl

/-- two parts of a call -/
theorem Does.bind {α β : Type} {crc : Bytes → UInt32} {s : St TS D} {ops : List WriterOp} {r : Except Err α × St TS D} {b : α} {l1 : Logger TS D}
    (h : Does crc s ops r b l1) {R : Except Err β × St TS D} {b' : β} {l2 : Logger TS D} (ops2 : List WriterOp) (hs : l2.sink = l1.sink ++ writtenBytes ops2)
    (hok : ∀ w fs, r = (.ok b, ⟨l1, w, fs⟩) → Does crc ⟨l1, w, fs⟩ ops2 R b' l2) (herr : ∀ e s', r = (.error e, s') → R = (.error e, s')) :
    Does crc s (ops ++ ops2) R b' l2 := by
  obtain ⟨h1, h2⟩ := h
  refine ⟨?_, ?_⟩
  · rw [hs, h1, writtenBytes_append, List.append_assoc]
  · rw [runWriter_append]
    rcases hr : runWriter crc s.fs s.w ops with ⟨_ | _, w', fs'⟩
    · rw [hr] at h2
      obtain ⟨h3, h4, h5⟩ := h2
      obtain ⟨r1, r2⟩ := r
      simp only at h3 h4 h5
      subst h3
      rw [herr _ _ rfl]
      exact ⟨rfl, h4, h5⟩
    · rw [hr] at h2
      simp only at h2
      exact (hok w' fs' h2).2

theorem drain_does (crc : Bytes → UInt32) (rng : Nat → Nat × Nat) {l l' : Logger TS D} (h : l.drain = some l') (w : FileWriter) (fs : FS) :
    Does crc ⟨l, w, fs⟩ (wops rng l.w.fullBytes) (St.drain crc rng ⟨l, w, fs⟩) () l' := by
  unfold Logger.drain at h
  obtain ⟨w', hw⟩ : ∃ w', l.w.clearFull = w' := ⟨_, rfl⟩
  cases w' with
  | none => rw [hw] at h; exact absurd h (by simp)
  | some w' =>
    rw [hw] at h
    injection h with h
    subst h
    have := (writeAll_does crc rng ⟨l, w, fs⟩ l.w.fullBytes).bind (R := St.drain crc rng ⟨l, w, fs⟩) (b' := ()) (l2 := { l with sink := l.sink ++ l.w.fullBytes, w := w' }) []
      (by simp [writtenBytes]) (fun w fs hr => by
          unfold St.drain
          simp only at hr ⊢
          rw [hr]
          simp only [hw]
          exact Does.same rfl) (fun e s' hr => by
          unfold St.drain
          simp only at hr ⊢
          rw [hr])
    rw [List.append_nil] at this
    exact this

theorem logUnix_does (crc : Bytes → UInt32) (rng : Nat → Nat × Nat) {l l' : Logger TS D} {u : Unix} (h : l.logUnix u = some l') :
    ∃ ops, OnlyWrites ops ∧ ∀ w fs, Does crc ⟨l, w, fs⟩ ops (St.logUnix crc rng ⟨l, w, fs⟩ u) () l' := by
  unfold Logger.logUnix at h
  unfold St.logUnix
  simp only
  by_cases hu : l.lastUnix = true
  · rw [if_pos hu] at h
    injection h with h
    subst h
    refine ⟨[], onlyNil, fun w fs => ?_⟩
    rw [if_pos hu]
    exact Does.same rfl
  · rw [if_neg hu] at h
    simp only [if_neg hu]
    rcases h1 : l.w.write (Prim.bool.arr 2) (hdr2 false false) with _ | w1
    · rw [h1] at h; exact absurd h (by simp)
    · rw [h1] at h
      simp only at h ⊢
      rcases h2 : w1.write unixPrim u with _ | w2
      · rw [h2] at h; exact absurd h (by simp)
      · rw [h2] at h
        simp only at h ⊢
        rcases h3 : ({ l with w := w2 } : Logger TS D).drain with _ | l3
        · rw [h3] at h; exact absurd h (by simp)
        · rw [h3] at h
          injection h with h
          subst h
          refine ⟨wops rng w2.fullBytes ++ [], (wops_only _ _).append onlyNil, fun w fs => ?_⟩
          refine (drain_does crc rng h3 w fs).bind [] (by simp [writtenBytes]) (fun w fs hr => ?_) (fun e s' hr => by rw [hr])
          rw [hr]
          exact Does.same rfl

theorem emit_does (crc : Bytes → UInt32) (rng : Nat → Nat × Nat) {l l' : Logger TS D} (h : l.emitBuffered = some l') :
    ∃ ops, OnlyWrites ops ∧ ∀ w fs, Does crc ⟨l, w, fs⟩ ops (St.emitBuffered crc rng ⟨l, w, fs⟩) () l' := by
  unfold Logger.emitBuffered at h
  unfold St.emitBuffered
  simp only
  rcases hb : l.unixBuf with _ | u
  · rw [hb] at h
    injection h with h
    subst h
    exact ⟨[], onlyNil, fun w fs => Does.same rfl⟩
  · rw [hb] at h
    simp only at h
    obtain ⟨ops, ho1, ho⟩ := logUnix_does crc rng h
    exact ⟨ops, ho1, fun w fs => ho w fs⟩

theorem log_does (crc : Bytes → UInt32) (rng1 rng2 : Nat → Nat × Nat) {c : Cfg TS TD D DD} {l l' : Logger TS D} {t : TS} {v : D} {b : Bool} (h : l.log c t v = some (b, l')) :
    ∃ ops, OnlyWrites ops ∧ ∀ w fs, Does crc ⟨l, w, fs⟩ ops (St.log crc c rng1 rng2 ⟨l, w, fs⟩ t v) b l' := by
  unfold Logger.log at h
  unfold St.log
  simp only
  by_cases hre : l.refuses c t = true
  · rw [if_pos hre] at h
    injection h with h
    injection h with h h'
    subst h; subst h'
    refine ⟨[], onlyNil, fun w fs => ?_⟩
    rw [if_pos hre]
    exact Does.same rfl
  · rw [if_neg hre] at h
    simp only [if_neg hre]
    rcases h1 : l.emitBuffered with _ | l1
    · rw [h1] at h; exact absurd h (by simp)
    · rw [h1] at h
      simp only at h
      obtain ⟨ops1, ho1, he⟩ := emit_does crc rng1 h1
      rcases h2 : l1.writeReading c t v with _ | l2
      · rw [h2] at h; exact absurd h (by simp)
      · rw [h2] at h
        simp only at h
        rcases h3 : l2.drain with _ | l3
        · rw [h3] at h; exact absurd h (by simp)
        · rw [h3] at h
          injection h with h
          injection h with h h'
          subst h; subst h'
          have hs2 : l2.sink = l1.sink := by
            unfold Logger.writeReading at h2
            repeat' split at h2
            all_goals first | (injection h2 with h2; subst h2; rfl) | exact absurd h2 (by simp)
          refine ⟨ops1 ++ (wops rng2 l2.w.fullBytes ++ []), ho1.append ((wops_only _ _).append onlyNil), fun w fs => ?_⟩
          have hb3 : l3.sink = l2.sink ++ l2.w.fullBytes := by rw [(drain_does crc rng2 h3 w fs).1, wops_bytes]
          refine (he w fs).bind _ (by rw [List.append_nil, wops_bytes]; simp only [hb3, hs2]) (fun w fs hr => ?_) (fun e s' hr => by rw [hr])
          rw [hr]
          simp only [h2]
          have := (drain_does crc rng2 h3 w fs).bind (R := match St.drain crc rng2 ⟨l2, w, fs⟩ with
              | (.ok (), s) => (.ok true, { s with l := { s.l with lastUnix := false } })
              | (.error e, s) => (.error e, s)) (b' := true)
            (l2 := { l3 with lastUnix := false }) [] (by simp [writtenBytes]) (fun w fs hr => by rw [hr]; exact Does.same rfl) (fun e s' hr => by rw [hr])
          exact ⟨by rw [this.1, hs2], this.2⟩

theorem flush_does (crc : Bytes → UInt32) (rng : Nat → Nat × Nat) (r1 r2 : Nat) {l l' : Logger TS D} (h : l.flush = some l') :
    ∃ ops, OnlyWrites ops ∧ ∀ w fs, Does crc ⟨l, w, fs⟩ (ops ++ [.flush r1 r2]) (St.flush crc rng r1 r2 ⟨l, w, fs⟩) () l' := by
  unfold Logger.flush at h
  unfold St.flush
  simp only
  rcases h1 : l.w.write (Prim.bool.arr 3) (hdr3 true true true) with _ | w1
  · rw [h1] at h; exact absurd h (by simp)
  · rw [h1] at h
    injection h with h
    subst h
    refine ⟨wops rng w1.allBytes, wops_only _ _, fun w fs => ?_⟩
    have := (writeAll_does crc rng ⟨{ l with w := w1 }, w, fs⟩ w1.allBytes).bind (b' := ()) (l2 := { l with sink := l.sink ++ w1.allBytes, w := w1.clear })
      (R := match St.writeAll crc rng ⟨{ l with w := w1 }, w, fs⟩ w1.allBytes with
        | (.ok (), s) =>
          match s.fs.flushWriter crc s.w r1 r2 with
          | (.ok (), fw, fs) => (.ok (), ⟨{ s.l with w := s.l.w.clear }, fw, fs⟩)
          | (.error e, fw, fs) => (.error e, ⟨s.l, fw, fs⟩)
        | (.error e, s) => (.error e, s)) [.flush r1 r2] (by simp [writtenBytes]) (fun w fs hr => by
          refine ⟨by simp [writtenBytes], ?_⟩
          rw [hr]
          simp only [runWriter]
          rcases h : fs.flushWriter crc w r1 r2 with ⟨_ | _, w', fs'⟩
          · exact ⟨rfl, rfl, rfl⟩
          · rfl) (fun e s' hr => by rw [hr])
    exact ⟨this.1, this.2⟩

/-- if the call succeeds, the logger did what it does on a sink that never fails -/
theorem log_pure (crc : Bytes → UInt32) (rng1 rng2 : Nat → Nat × Nat) {c : Cfg TS TD D DD} (hc : c.Codecs) (hfit : c.Fits) {s s' : St TS D} {acc : List (Out TS D)} {t : TS} {v : D}
    {b : Bool} (hw : WInv c s.l acc) (hlen : s.l.w.len < 8) (h : s.log crc c rng1 rng2 t v = (.ok b, s')) : ∃ b' l', s.l.log c t v = some (b', l') := by
  obtain ⟨l, w, fs⟩ := s
  simp only at hw hlen
  unfold Logger.log
  simp only
  by_cases hre : l.refuses c t = true
  · exact ⟨_, _, by rw [if_pos hre]⟩
  · obtain ⟨l1, acc1, h1, hw1, hl1⟩ : ∃ l1 acc1, l.emitBuffered = some l1 ∧ WInv c l1 acc1 ∧ l1.w.len < 8 := by
      unfold Logger.emitBuffered
      rcases hb : l.unixBuf with _ | u
      · exact ⟨_, _, rfl, hw, hlen⟩
      · obtain ⟨l1, h1, h2, h3, _⟩ := logUnix_ok hfit (l := { l with unixBuf := none }) (acc := acc) u ⟨hw.data, hw.str⟩ hlen
        exact ⟨l1, _, h1, h2, h3⟩
    obtain ⟨ops1, ho1, he⟩ := emit_does crc rng1 h1
    rw [if_neg hre, h1]
    simp only
    rcases h2 : l1.writeReading c t v with _ | l2
    · exfalso
      obtain ⟨e1, e2⟩ := he w fs
      unfold St.log at h
      rw [if_neg hre] at h
      simp only at e2
      rcases hr : runWriter crc fs w ops1 with ⟨_ | _, w', fs'⟩
      · rw [hr] at e2
        obtain ⟨e3, -⟩ := e2
        rcases hx : St.emitBuffered crc rng1 ⟨l, w, fs⟩ with ⟨x, y⟩
        rw [hx] at e3 h
        simp only at e3
        subst e3
        simp only at h
        injection h with h _
        exact absurd h (by simp)
      · rw [hr] at e2
        simp only at e2
        rw [e2] at h
        simp only [h2] at h
        injection h with h _
        exact absurd h (by simp)
    · obtain ⟨k1, k2, _⟩ := writeReading_inv hc hfit hw1 hl1 h2
      obtain ⟨l3, k3, _⟩ := drain_ok k1 k2
      exact ⟨_, _, by simp only [k3]; rfl⟩

theorem Does.ok {α : Type} {crc : Bytes → UInt32} {s s' : St TS D} {ops : List WriterOp} {r : Except Err α × St TS D} {b b' : α} {l' : Logger TS D} (h : Does crc s ops r b l')
    (hr : r = (.ok b', s')) : b' = b ∧ s'.l = l' ∧ runWriter crc s.fs s.w ops = (.ok (), s'.w, s'.fs) := by
  obtain ⟨_, h2⟩ := h
  rcases hx : runWriter crc s.fs s.w ops with ⟨_ | _, w', fs'⟩
  · rw [hx, hr] at h2
    exact absurd h2.1 (by simp)
  · rw [hx, hr] at h2
    simp only at h2
    injection h2 with h3 h4
    injection h3 with h3
    subst h4
    exact ⟨h3, rfl, rfl⟩

theorem Does.fs {α : Type} {crc : Bytes → UInt32} {s : St TS D} {ops : List WriterOp} {r : Except Err α × St TS D} {b : α} {l' : Logger TS D} (h : Does crc s ops r b l') :
    r.2.fs = (runWriter crc s.fs s.w ops).2.2 := by
  obtain ⟨_, h2⟩ := h
  rcases hx : runWriter crc s.fs s.w ops with ⟨_ | _, w', fs'⟩
  · rw [hx] at h2
    exact h2.2.2
  · rw [hx] at h2
    rw [h2]

/-- appends only -/
theorem writes_hist {crc : Bytes → UInt32} : ∀ {ops : List WriterOp} {fs fs' : FS} {w w' : FileWriter} {a b : List Known} {k : Known}, OnlyWrites ops →
    Hist crc fs (a ++ k :: b) → k.writer = some w → k.maybe = [] → runWriter crc fs w ops = (.ok (), w', fs') →
    Hist crc fs' (a ++ { k with data := k.data ++ writtenBytes ops, writer := some w' } :: b) := by
  intro ops
  induction ops with
  | nil =>
    intro fs fs' w w' a b k _ hr hw hm h
    injection h with _ h
    injection h with h1 h2
    subst h1; subst h2
    simp only [writtenBytes, List.append_nil]
    rw [← hw]
    exact hr
  | cons o ops ih =>
    intro fs fs' w w' a b k ho hr hw hm h
    obtain ⟨rng, d, rfl, _⟩ := ho o (by simp)
    simp only [runWriter] at h
    rcases hx : fs.extendWriter crc w rng d with ⟨_ | _, w1, fs1⟩
    · rw [hx] at h; simp only at h; injection h with h _; exact absurd h (by simp)
    · rw [hx] at h
      have := ih (k := { k with data := k.data ++ d, writer := some w1 }) (fun o ho' => ho o (by simp [ho'])) (.step hr (.extend rng d w w1 fs1 a b k rfl hw hm hx)) rfl hm h
      simp only [writtenBytes]
      rw [← List.append_assoc]
      exact this

theorem runWriter_dev {crc : Bytes → UInt32} : ∀ {ops : List WriterOp} {fs : FS} {w : FileWriter} {a b : List Known} {k : Known}, Hist crc fs (a ++ k :: b) →
    k.writer = some w → k.maybe = [] → ∃ os, (runWriter crc fs w ops).2.2.dev = fs.dev.ops os := by
  intro ops
  induction ops with
  | nil => intro fs w a b k hr hw hm; exact ⟨[], by simp [runWriter, Dev.ops, applyOps]⟩
  | cons o ops ih =>
    intro fs w a b k hr hw hm
    cases o with
    | write rng d =>
      obtain ⟨os, ho⟩ := writerCall_dev (hist_inv hr) rfl hw (.extend rng d)
      simp only [runWriter]
      rcases hx : fs.extendWriter crc w rng d with ⟨_ | _, w1, fs1⟩
      · rw [hx] at ho; exact ⟨os, ho⟩
      · rw [hx] at ho
        simp only at ho
        obtain ⟨os2, ho2⟩ := ih (k := { k with data := k.data ++ d, writer := some w1 }) (.step hr (.extend rng d w w1 fs1 a b k rfl hw hm hx)) rfl hm
        exact ⟨os ++ os2, by rw [ho2, ho]; simp [Dev.ops, applyOps_append]⟩
    | flush r1 r2 =>
      obtain ⟨os, ho⟩ := writerCall_dev (hist_inv hr) rfl hw (.flush r1 r2)
      simp only [runWriter]
      rcases hx : fs.flushWriter crc w r1 r2 with ⟨_ | _, w1, fs1⟩
      · rw [hx] at ho; exact ⟨os, ho⟩
      · rw [hx] at ho
        simp only at ho
        obtain ⟨os2, ho2⟩ := ih (k := { k with durable := k.data, writer := some w1 }) (.step hr (.flush r1 r2 w w1 fs1 a b k rfl hw hx)) rfl hm
        exact ⟨os ++ os2, by rw [ho2, ho]; simp [Dev.ops, applyOps_append]⟩

/-- after a restart the file of a writer holds a prefix of what was handed over -/
theorem idle_content {crc : Bytes → UInt32} {fs : FS} {ks : List Known} {k : Known} {w : FileWriter} (hr : Hist crc fs ks) (hk : k ∈ ks) (hw : k.writer = some w) (hm : k.maybe = []) :
    ∃ fs'', FS.mount fs.dev.flash = (.ok (), fs'') ∧ ∃ cont, k.durable <+: cont ∧ cont <+: k.data ∧ ReadsAs crc fs'' k.id cont := by
  obtain ⟨fs', m1, _, m3, m4⟩ := step_restart (hist_inv hr)
  have hd := ((hist_inv hr).durable hk hw).1
  obtain ⟨cont, h1, h2, h3⟩ := (m4.afterLoss m3 hk ((hist_inv hr).whole hk hw)).2 (by rw [hw]; rfl) hd
  rw [hm, List.append_nil] at h2
  exact ⟨fs', m1, cont, h1, h2, h3⟩

/-- the mounted file system has all files of the list, as they are after a loss of power -/
def Keeps (crc : Bytes → UInt32) (fs : FS) (l : List Known) : Prop := ∃ ks, Found crc fs ks ∧ ∀ x ∈ l, x.afterLoss ∈ ks

theorem keeps_sub {crc : Bytes → UInt32} {fs : FS} {a b : List Known} {k : Known} (h : Found crc fs ((a ++ k :: b).map Known.afterLoss)) : Keeps crc fs (a ++ b) := by
  refine ⟨_, h, fun x hx => List.mem_map.mpr ⟨x, ?_, rfl⟩⟩
  rcases List.mem_append.mp hx with hx | hx
  · exact List.mem_append_left _ hx
  · exact List.mem_append_right _ (List.mem_cons_of_mem _ hx)

/-- power loss during some calls of a writer -/
theorem runWriter_crash {crc : Bytes → UInt32} : ∀ {ops : List WriterOp} {fs : FS} {w : FileWriter} {a b : List Known} {k : Known} {fops : List FlashOp} {fl' : Flash},
    Hist crc fs (a ++ k :: b) → k.writer = some w → k.maybe = [] → issued fs (runWriter crc fs w ops).2.2 fops → CrashImage fs.dev.flash fops fl' →
    ∃ fs'', FS.mount fl' = (.ok (), fs'') ∧ ∃ cont, k.durable <+: cont ∧ cont <+: k.data ++ writtenBytes ops ∧ ReadsAs crc fs'' k.id cont ∧ Keeps crc fs'' (a ++ b) := by
  intro ops
  induction ops with
  | nil =>
    intro fs w a b k fops fl' hr hw hm hi hcr
    have : fops = [] := by
      unfold issued runWriter at hi
      simpa using hi
    subst this
    have := crash_nil hcr
    subst this
    simp only [writtenBytes, List.append_nil]
    obtain ⟨fs'', m1, cont, h1, h2, h3⟩ := idle_content hr (by simp) hw hm
    obtain ⟨fs2, n1, n4⟩ := restart_back (hist_inv hr)
    rw [m1] at n1
    obtain ⟨_, rfl⟩ := Prod.mk.inj n1
    exact ⟨fs'', m1, cont, h1, h2, h3, keeps_sub n4⟩
  | cons o ops ih =>
    intro fs w a b k fops fl' hr hw hm hi hcr
    have hdur := ((hist_inv hr).durable (k := k) (by simp) hw).1
    rw [hm, List.append_nil] at hdur
    -- the crash within a call that appends `d`
    have one : ∀ {fs1 : FS} {d : Bytes} {os : List FlashOp}, WriterCall crc fs w fs1 d → issued fs fs1 os → CrashImage fs.dev.flash os fl' →
        ∃ fs'', FS.mount fl' = (.ok (), fs'') ∧ ∃ cont, k.durable <+: cont ∧ cont <+: k.data ++ d ∧ ReadsAs crc fs'' k.id cont ∧ Keeps crc fs'' (a ++ b) := by
      intro fs1 d os hc hi1 hc1
      obtain ⟨fs', m1, _, m3, m4⟩ := step_loss (hist_inv hr) (.mk a b k w fs1 d os fl' rfl hw (.inl hm) hc hi1 hc1)
      obtain ⟨cont, h1, h2, h3⟩ := (m4.afterLoss m3 (k := { k with maybe := k.maybe ++ d }) (by simp) ((hist_inv hr).whole (k := k) (by simp) hw)).2 (by simp [hw]) (by
        show k.durable <+: k.data ++ (k.maybe ++ d)
        exact hdur.trans (List.prefix_append _ _))
      have h2 : cont <+: k.data ++ (k.maybe ++ d) := h2
      rw [hm, List.nil_append] at h2
      refine ⟨fs', m1, cont, h1, h2, h3, ?_⟩
      have m4 := m4.back m3
      unfold Back at m4
      rw [List.map_append, List.map_cons] at m4
      exact ⟨_, m4, fun x hx => by
        rcases List.mem_append.mp hx with hx | hx
        · exact List.mem_append_left _ (List.mem_map.mpr ⟨x, hx, rfl⟩)
        · exact List.mem_append_right _ (List.mem_cons_of_mem _ (List.mem_map.mpr ⟨x, hx, rfl⟩))⟩
    cases o with
    | write rng d =>
      obtain ⟨os, ho⟩ := writerCall_dev (hist_inv hr) rfl hw (.extend rng d)
      simp only [runWriter] at hi
      rcases hx : fs.extendWriter crc w rng d with ⟨_ | _, w1, fs1⟩
      · rw [hx] at hi
        obtain ⟨fs'', m1, cont, h1, h2, h3⟩ := one (.extend rng d) (by rw [hx]; exact hi) hcr
        exact ⟨fs'', m1, cont, h1, h2.trans (by simp only [writtenBytes]; rw [← List.append_assoc]; exact List.prefix_append _ _), h3⟩
      · rw [hx] at hi ho
        simp only at hi ho
        have hr1 := Hist.step hr (.extend rng d w w1 fs1 a b k rfl hw hm hx)
        obtain ⟨os2, ho2⟩ := runWriter_dev (ops := ops) (k := { k with data := k.data ++ d, writer := some w1 }) hr1 rfl hm
        have hfo : fops = os ++ os2 := by
          unfold issued at hi
          rw [ho2, ho] at hi
          simp only [Dev.ops, List.append_assoc, List.append_cancel_left_eq] at hi
          exact hi.symm
        subst hfo
        rcases crash_append hcr with hc | hc
        · obtain ⟨fs'', m1, cont, h1, h2, h3⟩ := one (os := os) (.extend rng d) (by rw [hx]; unfold issued; rw [ho]; rfl) hc
          exact ⟨fs'', m1, cont, h1, h2.trans (by simp only [writtenBytes]; rw [← List.append_assoc]; exact List.prefix_append _ _), h3⟩
        · obtain ⟨fs'', m1, cont, h1, h2, h3⟩ := ih (k := { k with data := k.data ++ d, writer := some w1 }) (fops := os2) (fl' := fl') hr1 rfl hm (by unfold issued; rw [ho2]; rfl)
            (by rw [ho]; exact hc)
          refine ⟨fs'', m1, cont, h1, ?_, h3⟩
          simp only [writtenBytes]
          rw [← List.append_assoc]
          exact h2
    | flush r1 r2 =>
      obtain ⟨os, ho⟩ := writerCall_dev (hist_inv hr) rfl hw (.flush r1 r2)
      simp only [runWriter] at hi
      rcases hx : fs.flushWriter crc w r1 r2 with ⟨_ | _, w1, fs1⟩
      · rw [hx] at hi
        obtain ⟨fs'', m1, cont, h1, h2, h3⟩ := one (.flush r1 r2) (by rw [hx]; exact hi) hcr
        rw [List.append_nil] at h2
        exact ⟨fs'', m1, cont, h1, h2.trans (List.prefix_append _ _), h3⟩
      · rw [hx] at hi ho
        simp only at hi ho
        have hr1 := Hist.step hr (.flush r1 r2 w w1 fs1 a b k rfl hw hx)
        obtain ⟨os2, ho2⟩ := runWriter_dev (ops := ops) (k := { k with durable := k.data, writer := some w1 }) hr1 rfl hm
        have hfo : fops = os ++ os2 := by
          unfold issued at hi
          rw [ho2, ho] at hi
          simp only [Dev.ops, List.append_assoc, List.append_cancel_left_eq] at hi
          exact hi.symm
        subst hfo
        rcases crash_append hcr with hc | hc
        · obtain ⟨fs'', m1, cont, h1, h2, h3⟩ := one (os := os) (.flush r1 r2) (by rw [hx]; unfold issued; rw [ho]; rfl) hc
          rw [List.append_nil] at h2
          exact ⟨fs'', m1, cont, h1, h2.trans (List.prefix_append _ _), h3⟩
        · obtain ⟨fs'', m1, cont, h1, h2, h3⟩ := ih (k := { k with durable := k.data, writer := some w1 }) (fops := os2) (fl' := fl') hr1 rfl hm (by unfold issued; rw [ho2]; rfl)
            (by rw [ho]; exact hc)
          exact ⟨fs'', m1, cont, hdur.trans h1, h2, h3⟩

end Verif.LogFile
