import Verif.Spec.Tiered
import Verif.Lemmas.RingCut
/-
Two rings of different types do not disturb each other.
-/
namespace Verif.Tiered
open Verif Verif.Vlfs Verif.Spec Verif.Log Verif.LogFile Verif.RingLog

variable {TS TD D DD : Type}

/-- a sequence of calls, none of which changes what is known about files of other types -/
inductive Chain (crc : Bytes → UInt32) (typ : Nat) : FS → List Known → FS → List Known → Prop
  | refl (fs : FS) (ks : List Known) : Chain crc typ fs ks fs ks
  | step {fs fs1 fs2 : FS} {ks ks1 ks2 : List Known} (h : Chain crc typ fs ks fs1 ks1) (hs : Step crc fs1 ks1 fs2 ks2) (hk : ∀ t, t ≠ typ → ofKind t ks2 = ofKind t ks1) : Chain crc typ fs ks fs2 ks2

theorem Chain.trans {crc : Bytes → UInt32} {typ : Nat} {fs fs1 fs2 : FS} {ks ks1 ks2 : List Known} (h : Chain crc typ fs ks fs1 ks1) (h2 : Chain crc typ fs1 ks1 fs2 ks2) : Chain crc typ fs ks fs2 ks2 := by
  induction h2 with
  | refl => exact h
  | step _ hs hk ih => exact .step (ih h) hs hk

/-- a ring goes on undisturbed -/
theorem ring_chain {crc : Bytes → UInt32} {c : Cfg TS TD D DD} {typ typ' cap : Nat} {fs' : FS} {ks ks' : List Known} {segs : List (Segment TS D)} {fs : FS} (hne : typ ≠ typ')
    (h : Chain crc typ' fs ks fs' ks') : ∀ {s : RingLog.St TS D}, s.fs = fs → RingLogging crc c typ cap s ks segs → RingLogging crc c typ cap { s with fs := fs' } ks' segs := by
  induction h with
  | refl => intro s he hr; subst he; exact hr
  | step _ hs hk ih =>
    intro s he hr
    exact (ih he hr).other hs (hk _ hne)

theorem ofKind_file {t typ : Nat} {a b : List Known} {k k' : Known} (hk : k.typ = typ) (hk' : k'.typ = typ) (hne : t ≠ typ) : ofKind t (a ++ k' :: b) = ofKind t (a ++ k :: b) := by
  have h1 : (k.typ == t) = false := by rw [hk]; simpa using Ne.symm hne
  have h2 : (k'.typ == t) = false := by rw [hk']; simpa using Ne.symm hne
  simp [ofKind, List.filter_append, List.filter_cons, h1, h2]

theorem writes_chain {crc : Bytes → UInt32} {typ : Nat} : ∀ {ops : List WriterOp} {fs fs' : FS} {w w' : FileWriter} {a b : List Known} {k : Known}, OnlyWrites ops → k.typ = typ →
    k.writer = some w → k.maybe = [] → runWriter crc fs w ops = (.ok (), w', fs') →
    Chain crc typ fs (a ++ k :: b) fs' (a ++ { k with data := k.data ++ writtenBytes ops, writer := some w' } :: b) := by
  intro ops
  induction ops with
  | nil =>
    intro fs fs' w w' a b k _ ht hw hm h
    injection h with _ h
    injection h with h1 h2
    subst h1; subst h2
    simp only [writtenBytes, List.append_nil]
    rw [← hw]
    exact .refl _ _
  | cons o ops ih =>
    intro fs fs' w w' a b k ho ht hw hm h
    obtain ⟨rng, d, rfl, _⟩ := ho o (by simp)
    simp only [runWriter] at h
    rcases hx : fs.extendWriter crc w rng d with ⟨_ | _, w1, fs1⟩
    · rw [hx] at h; simp only at h; injection h with h _; exact absurd h (by simp)
    · rw [hx] at h
      have := ih (a := a) (b := b) (k := { k with data := k.data ++ d, writer := some w1 }) (fun o ho' => ho o (by simp [ho'])) ht rfl hm h
      simp only [writtenBytes]
      rw [← List.append_assoc]
      exact (Chain.step (.refl fs _) (.extend rng d w w1 fs1 a b k rfl hw hm hx) fun t hne => ofKind_file ht ht hne).trans this

theorem log_chain {crc : Bytes → UInt32} {c : Cfg TS TD D DD} (hc : c.Codecs) (hfit : c.Fits) {typ id : Nat} {s s' : LogFile.St TS D} {ks : List Known} {inputs : List (TS × D)}
    {acc safe : List (Out TS D)} (ih : RecInv crc c id s ks inputs acc safe) (htyp : ∀ k ∈ ks, k.id = id → k.typ = typ) {rng1 rng2 : Nat → Nat × Nat} {t : TS} {v : D}
    (h : s.log crc c rng1 rng2 t v = (.ok true, s')) : Chain crc typ s.fs ks s'.fs (wrote id s' ks) := by
  obtain ⟨k, hk, hf⟩ := ih.file
  obtain ⟨hw, hl⟩ := run_inv hc hfit ih.run
  obtain ⟨b', l', hp⟩ := log_pure crc rng1 rng2 hc hfit hw hl h
  obtain ⟨ops, ho, hdo⟩ := log_does crc rng1 rng2 hp
  obtain ⟨h1, h2, h3⟩ := (hdo s.w s.fs).ok h
  have hsink := (hdo s.w s.fs).1
  subst h1; subst h2
  have ht := htyp k hk hf.id
  obtain ⟨a, b, rfl⟩ := List.append_of_mem hk
  have hh := writes_chain (a := a) (b := b) ho ht hf.writer hf.maybe h3
  have heq : wrote id s' (a ++ k :: b) = a ++ { k with data := k.data ++ writtenBytes ops, writer := some s'.w } :: b := by
    unfold wrote
    rw [← hf.id, map_file (ids_unique (hist_inv ih.hist)) (fun k => { k with data := s'.l.sink, writer := some s'.w }), hsink, hf.data]
  rw [heq]
  exact hh

theorem unix_chain {crc : Bytes → UInt32} {c : Cfg TS TD D DD} (hc : c.Codecs) (hfit : c.Fits) {typ id : Nat} {s s' : LogFile.St TS D} {ks : List Known} {inputs : List (TS × D)}
    {acc safe : List (Out TS D)} (ih : RecInv crc c id s ks inputs acc safe) (htyp : ∀ k ∈ ks, k.id = id → k.typ = typ) {rng : Nat → Nat × Nat} {u : Unix}
    (h : s.logUnix crc rng u = (.ok (), s')) : Chain crc typ s.fs ks s'.fs (wrote id s' ks) := by
  obtain ⟨k, hk, hf⟩ := ih.file
  obtain ⟨hw, hl⟩ := run_inv hc hfit ih.run
  obtain ⟨l', hp, _⟩ := logUnix_ok hfit u hw hl
  obtain ⟨ops, ho, hdo⟩ := logUnix_does crc rng hp
  obtain ⟨_, h2, h3⟩ := (hdo s.w s.fs).ok h
  have hsink := (hdo s.w s.fs).1
  subst h2
  have ht := htyp k hk hf.id
  obtain ⟨a, b, rfl⟩ := List.append_of_mem hk
  have hh := writes_chain (a := a) (b := b) ho ht hf.writer hf.maybe h3
  have heq : wrote id s' (a ++ k :: b) = a ++ { k with data := k.data ++ writtenBytes ops, writer := some s'.w } :: b := by
    unfold wrote
    rw [← hf.id, map_file (ids_unique (hist_inv ih.hist)) (fun k => { k with data := s'.l.sink, writer := some s'.w }), hsink, hf.data]
  rw [heq]
  exact hh

theorem flush_chain {crc : Bytes → UInt32} {c : Cfg TS TD D DD} (hc : c.Codecs) (hfit : c.Fits) {typ id : Nat} {s s' : LogFile.St TS D} {ks : List Known} {inputs : List (TS × D)}
    {acc safe : List (Out TS D)} (ih : RecInv crc c id s ks inputs acc safe) (htyp : ∀ k ∈ ks, k.id = id → k.typ = typ) {rng : Nat → Nat × Nat} {r1 r2 : Nat}
    (h : s.flush crc rng r1 r2 = (.ok (), s')) : Chain crc typ s.fs ks s'.fs (flushed id s' ks) := by
  obtain ⟨k, hk, hf⟩ := ih.file
  obtain ⟨hw, hl⟩ := run_inv hc hfit ih.run
  obtain ⟨l', hp, hw', hz, _⟩ := flush_ok hfit hw hl
  obtain ⟨ops, ho, hdo⟩ := flush_does crc rng r1 r2 hp
  obtain ⟨_, h2, h3⟩ := (hdo s.w s.fs).ok h
  have hsink := (hdo s.w s.fs).1
  rw [writtenBytes_append] at hsink
  simp only [writtenBytes, List.append_nil] at hsink
  subst h2
  have ht := htyp k hk hf.id
  obtain ⟨a, b, rfl⟩ := List.append_of_mem hk
  rw [runWriter_append] at h3
  simp only at h3
  rcases hx : runWriter crc s.fs s.w ops with ⟨_ | _, w1, fs1⟩
  · rw [hx] at h3; simp only at h3; injection h3 with h3 _; exact absurd h3 (by simp)
  · rw [hx] at h3
    simp only [runWriter] at h3
    have hh := writes_chain (a := a) (b := b) ho ht hf.writer hf.maybe hx
    rcases hy : fs1.flushWriter crc w1 r1 r2 with ⟨_ | _, w2, fs2⟩
    · rw [hy] at h3; simp only at h3; injection h3 with h3 _; exact absurd h3 (by simp)
    · rw [hy] at h3
      simp only at h3
      injection h3 with _ h3
      injection h3 with h3 h4
      subst h3; subst h4
      have hh2 := hh.step (.flush r1 r2 w1 _ _ a b _ rfl rfl hy) fun t hne => ofKind_file ht ht hne
      have heq : flushed id s' (a ++ k :: b) = a ++ { k with data := k.data ++ writtenBytes ops, durable := k.data ++ writtenBytes ops, writer := some s'.w } :: b := by
        unfold flushed
        rw [← hf.id, map_file (ids_unique (hist_inv ih.hist)) (fun k => { k with data := s'.l.sink, durable := s'.l.sink, writer := some s'.w }), hsink, hf.data]
      rw [heq]
      exact hh2

/-- the file of the current logger -/
theorem cur_rec {crc : Bytes → UInt32} {c : Cfg TS TD D DD} {typ cap : Nat} {s : RingLog.St TS D} {ks : List Known} {pre : List (Segment TS D)} {g : Segment TS D} {h : Half TS D}
    (hi : RInv crc c typ cap s ks (pre ++ [g])) (hc : s.cur = some h) :
    RecInv crc c g.id ⟨h.l, h.w, s.fs⟩ ks g.inputs g.entries g.safe ∧ (∀ k ∈ ks, k.id = g.id → k.typ = typ) ∧ ∃ A B k, ofKind typ ks = A ++ k :: B ∧ Act c h g k := by
  obtain ⟨olds, gone, fin, act, finK, actK, nextK, F⟩ := hi.files
  have hp := F.parts
  rw [hc] at hp
  obtain ⟨pa, pk, g0, k, rfl, rfl, ha, hback⟩ := parts_cur hp
  have hsp := F.split
  rw [← List.append_assoc] at hsp
  obtain ⟨rfl, rfl⟩ := last_eq hsp
  have hk : ofKind typ ks = (olds ++ finK ++ pk) ++ k :: nextK := by rw [F.files]; simp
  refine ⟨ha.recInv hi.hist (mem_kind hk).1, fun x hx hid => ?_, _, _, _, hk, ha⟩
  rw [same_file (ids_unique (hist_inv hi.hist)) hx (mem_kind hk).1 (hid.trans ha.id.symm)]
  exact (mem_kind hk).2

/-- the file of the logger that was replaced -/
theorem old_rec {crc : Bytes → UInt32} {c : Cfg TS TD D DD} {typ cap : Nat} {s : RingLog.St TS D} {ks : List Known} {pre : List (Segment TS D)} {o g : Segment TS D} {h : Half TS D}
    (hi : RInv crc c typ cap s ks (pre ++ [o, g])) (hc : s.old = some h) :
    RecInv crc c o.id ⟨h.l, h.w, s.fs⟩ ks o.inputs o.entries o.safe ∧ (∀ k ∈ ks, k.id = o.id → k.typ = typ) ∧ ∃ A B k, ofKind typ ks = A ++ k :: B ∧ Act c h o k := by
  obtain ⟨olds, gone, fin, act, finK, actK, nextK, F⟩ := hi.files
  have hp := F.parts
  rw [hc] at hp
  obtain ⟨hcur, go, g0, ko, k, hcc, rfl, rfl, ha, ha2⟩ := parts_old hp
  have hsp := F.split
  obtain ⟨rfl, hsp2⟩ := List.append_inj' hsp rfl
  injection hsp2 with h1 h2
  injection h2 with h2 _
  subst h1; subst h2
  have hk : ofKind typ ks = (olds ++ finK) ++ ko :: (k :: nextK) := by rw [F.files]; simp
  refine ⟨ha.recInv hi.hist (mem_kind hk).1, fun x hx hid => ?_, _, _, _, hk, ha⟩
  rw [same_file (ids_unique (hist_inv hi.hist)) hx (mem_kind hk).1 (hid.trans ha.id.symm)]
  exact (mem_kind hk).2

theorem close_chain {crc : Bytes → UInt32} {c : Cfg TS TD D DD} {typ : Nat} {fs : FS} {ks A B : List Known} {k : Known} {h : Half TS D} {g : Segment TS D} (ha : Act c h g k) (hh : Hist crc fs ks)
    (hk : ofKind typ ks = A ++ k :: B) : Chain crc typ fs ks (fs.closeWriter crc h.w) (closed g.id ks) := by
  have hu := ids_unique (hist_inv hh)
  obtain ⟨a, b, hab⟩ := List.append_of_mem (mem_kind hk).1
  have : closed g.id ks = a ++ { k with durable := k.data, writer := none, guarded := false } :: b := by
    unfold closed
    rw [hab] at hu ⊢
    rw [← ha.id]
    exact map_file hu fun k => { k with durable := k.data, writer := none, guarded := false }
  rw [this]
  refine .step (.refl _ _) (.close h.w a b k hab ha.writer) fun t hne => ?_
  rw [hab]
  exact ofKind_file (mem_kind hk).2 (mem_kind hk).2 hne

theorem rotate_chain {crc : Bytes → UInt32} {typ n r1 r2 : Nat} {fs fs' : FS} {ks : List Known} {e : FileEntry} {w : FileWriter} (hh : Hist crc fs ks) (h : fs.rotate typ n r1 r2 = (.ok e, fs')) (hw : writerOf e = some w)
    (hfree : ∀ k ∈ (ofKind typ ks).take n, k.writer = none) (hcap : ks.length < 2518) (ht : typ < 0x4000) (hok : countersOk fs) : Chain crc typ fs ks fs' (rotated typ n w ks) := by
  have hs : Step crc fs ks fs' _ := .rotate typ n r1 r2 e fs' h (fun k hk ho => hfree k (dropped_mem (ids_sorted (hist_inv hh)) hk ho)) hcap ht hok
  unfold writerOf at hw
  have hid : e.id = w.id := by
    cases hf : e.first with
    | none => rw [hf] at hw; simp at hw
    | some x => rw [hf] at hw; simp at hw; rw [← hw]; rfl
  rw [hw, hid] at hs
  refine .step (.refl _ _) hs fun t hne => ?_
  unfold ofKind rotated
  rw [List.filter_append, List.filter_filter]
  have h1 : ∀ k ∈ ks, (k.typ == t && !oldestKnown typ n ks k) = (k.typ == t) := by
    intro k hk
    cases hkt : k.typ == t with
    | false => rfl
    | true =>
      have hkt : k.typ = t := by simpa using hkt
      have : oldestKnown typ n ks k ≠ true := by
        intro ho
        have := dropped_mem (ids_sorted (hist_inv hh)) hk ho
        have := List.mem_filter.mp (List.mem_of_mem_take this)
        have h2 : k.typ = typ := by simpa using this.2
        exact hne (hkt.symm.trans h2)
      simp [this]
  rw [List.filter_congr h1]
  have : (typ == t) = false := by simpa using Ne.symm hne
  simp [this]

theorem ring_refused {crc : Bytes → UInt32} {c : Cfg TS TD D DD} {s s' : RingLog.St TS D} {rng1 rng2 : Nat → Nat × Nat} {t : TS} {v : D} (hl : s.log crc c rng1 rng2 t v = (.ok false, s')) : s' = s := by
  unfold RingLog.St.log at hl
  cases hcur : s.cur with
  | none => rw [hcur] at hl; simp at hl
  | some h =>
    rw [hcur] at hl
    rcases hx : LogFile.St.log crc c rng1 rng2 ⟨h.l, h.w, s.fs⟩ t v with ⟨r, f⟩
    simp only [hx] at hl
    simp only [Prod.mk.injEq] at hl
    obtain ⟨rfl, rfl⟩ := hl
    have := log_refused hx
    subst this
    simp only
    rw [← hcur]

/-- a reading given to a ring -/
theorem ring_log {crc : Bytes → UInt32} {c : Cfg TS TD D DD} (hc : c.Codecs) (hfit : c.Fits) {typ cap : Nat} {s s' : RingLog.St TS D} {ks : List Known} {pre : List (Segment TS D)} {g : Segment TS D}
    {h h' : Half TS D} {rng1 rng2 : Nat → Nat × Nat} {t : TS} {v : D} {x : Bool} {fs0 : FS} (hr : RingLogging crc c typ cap s ks (pre ++ [g])) (hcur : s.cur = some h) (hl : s.log crc c rng1 rng2 t v = (.ok x, s')) (hcur' : s'.cur = some h') :
    x = !h.l.refuses c t ∧ RingLogging crc c typ cap s' (tookFiles (h.l.refuses c t) g.id h' fs0 ks) (pre ++ [tookReading (h.l.refuses c t) h h' t v g]) ∧
      Chain crc typ s.fs ks s'.fs (tookFiles (h.l.refuses c t) g.id h' fs0 ks) := by
  have hi := ring_inv hc hfit hr
  have hl0 := hl
  unfold RingLog.St.log at hl
  rw [hcur] at hl
  rcases hx : LogFile.St.log crc c rng1 rng2 ⟨h.l, h.w, s.fs⟩ t v with ⟨r, f⟩
  simp only [hx] at hl
  simp only [Prod.mk.injEq] at hl
  obtain ⟨rfl, hs'⟩ := hl
  have hb : x = !h.l.refuses c t := by
    have hx := hx
    unfold LogFile.St.log at hx
    simp only at hx
    split at hx
    · rename_i hrf; injection hx with hx _; injection hx with hx; rw [← hx, hrf]; rfl
    · rename_i hrf
      have hrf : h.l.refuses c t = false := by simpa using hrf
      rw [hrf]
      split at hx
      · split at hx
        · split at hx <;> (injection hx with hx _; first | (injection hx with hx; rw [← hx]; rfl) | simp at hx)
        · injection hx with hx _; simp at hx
      · injection hx with hx _; simp at hx
  cases hrf : h.l.refuses c t with
  | true =>
    rw [hrf] at hb
    subst hb
    refine ⟨rfl, hr.refuse rng1 rng2 t v hl0, ?_⟩
    have := log_refused hx
    subst this
    subst hs'
    exact .refl _ _
  | false =>
    rw [hrf] at hb
    subst hb
    refine ⟨rfl, hr.accept hcur rng1 rng2 t v hl0 hcur', ?_⟩
    subst hs'
    simp only [Option.some.injEq] at hcur'
    subst hcur'
    obtain ⟨q1, q2, _⟩ := cur_rec hi hcur
    exact log_chain hc hfit q1 q2 hx

theorem ring_unix {crc : Bytes → UInt32} {c : Cfg TS TD D DD} (hc : c.Codecs) (hfit : c.Fits) {typ cap : Nat} {s s' : RingLog.St TS D} {ks : List Known} {pre : List (Segment TS D)} {g : Segment TS D}
    {h h' : Half TS D} {rng : Nat → Nat × Nat} {u : Unix} {fs0 : FS} (hr : RingLogging crc c typ cap s ks (pre ++ [g])) (hcur : s.cur = some h) (hl : s.logUnix crc rng u = (.ok (), s')) (hcur' : s'.cur = some h') :
    RingLogging crc c typ cap s' (wrote g.id ⟨h'.l, h'.w, fs0⟩ ks) (pre ++ [g.add [] (if h.l.lastUnix then [] else [.unix u])]) ∧ Chain crc typ s.fs ks s'.fs (wrote g.id ⟨h'.l, h'.w, fs0⟩ ks) := by
  have hi := ring_inv hc hfit hr
  refine ⟨hr.unix hcur rng u hl hcur', ?_⟩
  unfold RingLog.St.logUnix at hl
  rw [hcur] at hl
  rcases hx : LogFile.St.logUnix crc rng ⟨h.l, h.w, s.fs⟩ u with ⟨r, f⟩
  simp only [hx] at hl
  simp only [Prod.mk.injEq] at hl
  obtain ⟨rfl, rfl⟩ := hl
  simp only [Option.some.injEq] at hcur'
  subst hcur'
  obtain ⟨q1, q2, _⟩ := cur_rec hi hcur
  exact unix_chain hc hfit q1 q2 hx

theorem ring_flush {crc : Bytes → UInt32} {c : Cfg TS TD D DD} (hc : c.Codecs) (hfit : c.Fits) {typ cap : Nat} {s s' : RingLog.St TS D} {ks : List Known} {pre : List (Segment TS D)} {g : Segment TS D}
    {h' : Half TS D} {rng : Nat → Nat × Nat} {r1 r2 : Nat} {fs0 : FS} (hr : RingLogging crc c typ cap s ks (pre ++ [g])) (hl : s.flush crc rng r1 r2 = (.ok (), s')) (hcur' : s'.cur = some h') :
    RingLogging crc c typ cap s' (flushed g.id ⟨h'.l, h'.w, fs0⟩ ks) (pre ++ [g.flushed]) ∧ Chain crc typ s.fs ks s'.fs (flushed g.id ⟨h'.l, h'.w, fs0⟩ ks) := by
  have hi := ring_inv hc hfit hr
  refine ⟨hr.flush rng r1 r2 hl hcur', ?_⟩
  unfold RingLog.St.flush at hl
  cases hcur : s.cur with
  | none => rw [hcur] at hl; simp at hl
  | some h =>
    rw [hcur] at hl
    rcases hx : LogFile.St.flush crc rng r1 r2 ⟨h.l, h.w, s.fs⟩ with ⟨r, f⟩
    simp only [hx] at hl
    simp only [Prod.mk.injEq] at hl
    obtain ⟨rfl, rfl⟩ := hl
    simp only [Option.some.injEq] at hcur'
    subst hcur'
    obtain ⟨q1, q2, _⟩ := cur_rec hi hcur
    exact flush_chain hc hfit q1 q2 hx

/-- every step of a ring is a sequence of calls on its own files -/
theorem step_chain {crc : Bytes → UInt32} {c : Cfg TS TD D DD} (hc : c.Codecs) (hfit : c.Fits) {typ cap : Nat} {s s' : RingLog.St TS D} {ks ks' : List Known} {segs segs' : List (Segment TS D)}
    (hr : RingLogging crc c typ cap s ks segs) (hs : RingStep crc c typ s ks segs s' ks' segs') : RingLogging crc c typ cap s' ks' segs' ∧ Chain crc typ s.fs ks s'.fs ks' := by
  have hi := ring_inv hc hfit hr
  cases hs with
  | @accept _ _ pre g h h' hcur rng1 rng2 t v hl hcur' =>
    obtain ⟨k1, k2, k3⟩ := ring_log hc hfit (fs0 := s'.fs) hr hcur hl hcur'
    have k1 : h.l.refuses c t = false := by simpa using k1.symm
    rw [k1] at k2 k3
    exact ⟨k2, k3⟩
  | refuse rng1 rng2 t v hl =>
    refine ⟨hr.refuse rng1 rng2 t v hl, ?_⟩
    have := ring_refused hl
    subst this
    exact .refl _ _
  | unix hcur rng u hl hcur' => exact ring_unix hc hfit hr hcur hl hcur'
  | flush rng r1 r2 hl hcur' => exact ring_flush hc hfit hr hl hcur'
  | @begin _ _ _ w h1 h2 hcur hcap hok r1 r2 hb hn =>
    refine ⟨hr.begin h1 h2 hcur hcap hok r1 r2 hb hn, ?_⟩
    obtain ⟨h, hcur⟩ := Option.isSome_iff_exists.mp hcur
    unfold RingLog.St.beginSegment at hb
    rcases hrot : s.fs.rotate s.typ s.plan.1 r1 r2 with ⟨_ | e, fs1⟩
    · rw [hrot] at hb; simp at hb
    rw [hrot] at hb
    simp only at hb
    cases hwo : writerOf e with
    | none => rw [hwo] at hb; simp at hb
    | some w' =>
      rw [hwo] at hb
      simp only [Prod.mk.injEq, true_and] at hb
      subst hb
      simp only [Option.some.injEq] at hn
      subst hn
      obtain ⟨olds, gone, fin, act, finK, actK, nextK, F⟩ := hi.files
      have hp := F.parts
      rw [hcur, h2] at hp
      obtain ⟨g, k, rfl, rfl, ha⟩ := parts_snoc_ne hp
      have hnk := F.next
      rw [h1] at hnk
      have hnk : nextK = [] := hnk
      subst hnk
      have hfiles := F.files
      rw [List.append_nil] at hfiles
      have hcount := F.count
      rw [h1, h2] at hcount
      simp only [Option.isSome_none, Bool.false_eq_true, or_self, if_false] at hcount
      have h2 := hi.two
      have hcapEq := hi.capEq
      have hplan : s.plan.1 ≤ (olds ++ finK).length := by
        have hl : (olds ++ finK).length + 1 = s.segments := by rw [← hcount, hfiles]; simp only [List.length_append, List.length_singleton]
        have := hi.seg
        unfold RingLog.St.plan
        split <;> simp only <;> omega
      have htake : ∀ x ∈ (ofKind typ ks).take s.plan.1, x.writer = none := by
        intro x hx
        rw [hfiles, List.take_append_of_le_length hplan] at hx
        rcases List.mem_append.mp (List.mem_of_mem_take hx) with hx | hx
        · exact F.closed x hx
        · obtain ⟨g, hg⟩ := forall2_right F.done hx
          exact hg.writer
      rw [hi.typEq] at hrot
      exact rotate_chain hi.hist hrot hwo htake hcap hi.small hok
  | @swap _ _ _ w hn hsw =>
    refine ⟨hr.swap hn hsw, ?_⟩
    unfold RingLog.St.swap at hsw
    rw [hn] at hsw
    cases hcur : s.cur with
    | none => rw [hcur] at hsw; simp at hsw
    | some h =>
      rw [hcur] at hsw
      simp only [Prod.mk.injEq, true_and] at hsw
      subst hsw
      exact .refl _ _
  | @flushOld _ _ pre o g h' rng r1 r2 hl hc' =>
    refine ⟨hr.flushOld rng r1 r2 hl hc', ?_⟩
    unfold RingLog.St.flushOld at hl
    cases hcur : s.old with
    | none => rw [hcur] at hl; simp at hl
    | some h =>
      rw [hcur] at hl
      rcases hx : LogFile.St.flush crc rng r1 r2 ⟨h.l, h.w, s.fs⟩ with ⟨r, f⟩
      simp only [hx] at hl
      simp only [Prod.mk.injEq] at hl
      obtain ⟨rfl, rfl⟩ := hl
      simp only [Option.some.injEq] at hc'
      subst hc'
      obtain ⟨q1, q2, _⟩ := old_rec hi hcur
      exact flush_chain hc hfit q1 q2 hx
  | @closeOld _ _ pre o g hf hl =>
    refine ⟨hr.closeOld hf hl, ?_⟩
    unfold RingLog.St.closeOld at hl
    cases hold : s.old with
    | none => rw [hold] at hl; simp at hl
    | some h =>
      rw [hold] at hl
      simp only [Prod.mk.injEq, true_and] at hl
      subst hl
      obtain ⟨_, _, A, B, k, q3, q4⟩ := old_rec hi hold
      exact close_chain q4 hi.hist q3
  | @close _ _ pre g h h1 h2 hcur rng r1 r2 hl =>
    refine ⟨hr.close h1 h2 hcur rng r1 r2 hl, ?_⟩
    have hl0 := hl
    unfold RingLog.St.close at hl
    rw [hcur] at hl
    rcases hx : LogFile.St.flush crc rng r1 r2 ⟨h.l, h.w, s.fs⟩ with ⟨r, f⟩
    simp only [hx] at hl
    cases r with
    | error e => simp at hl
    | ok x =>
    cases x
    simp only [Prod.mk.injEq, true_and] at hl
    subst hl
    obtain ⟨q1, q2, _⟩ := cur_rec hi hcur
    have inv := cur_call (h' := ⟨f.l, f.w⟩) (g' := g.flushed) (fs' := f.fs) (f := fun k => { k with data := f.l.sink, durable := f.l.sink, writer := some f.w }) hi hcur (fun _ => rfl) (fun _ => rfl) rfl (fun _ => List.prefix_rfl)
      fun hri => hri.flush hc hfit hx
    obtain ⟨_, _, A, B, k, q3, q4⟩ := cur_rec inv rfl
    exact (flush_chain hc hfit q1 q2 hx).trans (close_chain (g := g.flushed) q4 inv.hist q3)

/-- the files of others after power was lost during a call on a ring -/
theorem cut_others {crc : Bytes → UInt32} {c : Cfg TS TD D DD} (hc : c.Codecs) (hf : c.Fits) {typ cap : Nat} {s : RingLog.St TS D} {ks : List Known} {segs : List (Segment TS D)} {fl' : Flash} {extra : List (Out TS D)}
    (inv : RInv crc c typ cap s ks segs) (hcut : CallCut crc c typ s ks fl' extra) :
    ∃ fs'', FS.mount fl' = (.ok (), fs'') ∧ ∀ k ∈ ks, k.typ ≠ typ → ∃ ks'', Found crc fs'' ks'' ∧ k.afterLoss ∈ ks'' := by
  obtain ⟨olds, gone, fin, act, finK, actK, nextK, F⟩ := inv.files
  have idle : ∃ fs'', FS.mount s.fs.dev.flash = (.ok (), fs'') ∧ ∀ k ∈ ks, k.typ ≠ typ → ∃ ks'', Found crc fs'' ks'' ∧ k.afterLoss ∈ ks'' := by
    obtain ⟨fs', m1, m4⟩ := restart_back (hist_inv inv.hist)
    exact ⟨fs', m1, fun k hk _ => ⟨_, m4, List.mem_map.mpr ⟨k, hk, rfl⟩⟩⟩
  have none' : ∀ {ops : List FlashOp}, issued s.fs s.fs ops → CrashImage s.fs.dev.flash ops fl' →
      ∃ fs'', FS.mount fl' = (.ok (), fs'') ∧ ∀ k ∈ ks, k.typ ≠ typ → ∃ ks'', Found crc fs'' ks'' ∧ k.afterLoss ∈ ks'' := by
    intro ops hi hcr
    have := issued_nil hi
    subst this
    have := crash_nil hcr
    subst this
    exact idle
  -- a logger was making a call
  have call : ∀ {h : Half TS D} {g : Segment TS D} {k : Known} {A B : List Known} {α : Type} {ops : List WriterOp} {fops : List FlashOp} {r : Except Err α × LogFile.St TS D} {b : α} {l' : Logger TS D},
      Act c h g k → ofKind typ ks = A ++ k :: B → Does crc ⟨h.l, h.w, s.fs⟩ ops r b l' → issued s.fs r.2.fs fops → CrashImage s.fs.dev.flash fops fl' →
      ∃ fs'', FS.mount fl' = (.ok (), fs'') ∧ ∀ k ∈ ks, k.typ ≠ typ → ∃ ks'', Found crc fs'' ks'' ∧ k.afterLoss ∈ ks'' := by
    intro h g k A B α ops fops r b l' ha hk hdo hi hcr
    obtain ⟨q1, q2⟩ := mem_kind hk
    rw [hdo.fs] at hi
    obtain ⟨a, b, hab⟩ := List.append_of_mem q1
    have hh := inv.hist
    rw [hab] at hh
    obtain ⟨fs'', m1, cont, e1, e2, e3, ks'', e4, e5⟩ := runWriter_crash hh ha.writer ha.maybe hi hcr
    refine ⟨fs'', m1, fun x hx hne => ⟨ks'', e4, e5 x ?_⟩⟩
    rw [hab] at hx
    rcases List.mem_append.mp hx with hx | hx
    · simp [hx]
    · rcases List.mem_cons.mp hx with rfl | hx
      · exact absurd q2 hne
      · simp [hx]
  have curk : ∀ {h : Half TS D}, s.cur = some h → ∃ A B k g, ofKind typ ks = A ++ k :: B ∧ Act c h g k := by
    intro h hcur
    have hp := F.parts
    rw [hcur] at hp
    obtain ⟨pa, pk, g, k, rfl, rfl, ha, hback⟩ := parts_cur hp
    exact ⟨_, _, _, _, by rw [F.files]; simp only [List.append_assoc]; rw [← List.append_assoc, ← List.append_assoc]; rfl, ha⟩
  have oldk : ∀ {h : Half TS D}, s.old = some h → ∃ A B k g, ofKind typ ks = A ++ k :: B ∧ Act c h g k := by
    intro h hold
    have hp := F.parts
    rw [hold] at hp
    obtain ⟨hcur, go, g, ko, k, hcc, rfl, rfl, ha, ha2⟩ := parts_old hp
    exact ⟨olds ++ finK, k :: nextK, ko, go, by rw [F.files]; simp, ha⟩
  cases hcut with
  | log h hcur rng1 rng2 t v b l' ops _ hl' hi hcr =>
    obtain ⟨A, B, k, g, hk, ha⟩ := curk hcur
    obtain ⟨wops, ho, hdo⟩ := log_does crc rng1 rng2 hl'
    unfold RingLog.St.log at hi
    rw [hcur] at hi
    exact call ha hk (hdo h.w s.fs) hi hcr
  | unix h hcur rng u ops _ hi hcr =>
    obtain ⟨A, B, k, g, hk, ha⟩ := curk hcur
    obtain ⟨hwi, hli⟩ := run_inv hc hf ha.run
    obtain ⟨l', hpu, _⟩ := logUnix_ok hf u hwi hli
    obtain ⟨wops, ho, hdo⟩ := logUnix_does crc rng hpu
    unfold RingLog.St.logUnix at hi
    rw [hcur] at hi
    exact call ha hk (hdo h.w s.fs) hi hcr
  | flush rng r1 r2 ops _ hi hcr =>
    unfold RingLog.St.flush at hi
    cases hcur : s.cur with
    | none => rw [hcur] at hi; exact none' hi hcr
    | some h =>
      rw [hcur] at hi
      obtain ⟨A, B, k, g, hk, ha⟩ := curk hcur
      obtain ⟨hwi, hli⟩ := run_inv hc hf ha.run
      obtain ⟨l', hpu, _⟩ := flush_ok hf hwi hli
      obtain ⟨wops, ho, hdo⟩ := flush_does crc rng r1 r2 hpu
      exact call ha hk (hdo h.w s.fs) hi hcr
  | flushOld rng r1 r2 ops _ hi hcr =>
    unfold RingLog.St.flushOld at hi
    cases hold : s.old with
    | none => rw [hold] at hi; exact none' hi hcr
    | some h =>
      rw [hold] at hi
      obtain ⟨A, B, k, g, hk, ha⟩ := oldk hold
      obtain ⟨hwi, hli⟩ := run_inv hc hf ha.run
      obtain ⟨l', hpu, _⟩ := flush_ok hf hwi hli
      obtain ⟨wops, ho, hdo⟩ := flush_does crc rng r1 r2 hpu
      exact call ha hk (hdo h.w s.fs) hi hcr
  | closeOld ops _ hi hcr =>
    unfold RingLog.St.closeOld at hi
    cases hold : s.old with
    | none => rw [hold] at hi; exact none' hi hcr
    | some h =>
      rw [hold] at hi
      obtain ⟨A, B, k, g, hk, ha⟩ := oldk hold
      obtain ⟨a, b, hab⟩ := List.append_of_mem (mem_kind hk).1
      obtain ⟨fs', m1, _, m3, m4⟩ := step_loss (hist_inv inv.hist) (.mk a b k h.w _ [] ops fl' hab ha.writer (.inr rfl) .close hi hcr)
      rw [List.append_nil, show ({ k with maybe := k.maybe } : Known) = k from rfl, ← hab] at m4
      have m4 := m4.back m3
      exact ⟨fs', m1, fun k hk _ => ⟨_, m4, List.mem_map.mpr ⟨k, hk, rfl⟩⟩⟩
  | close rng r1 r2 ops _ hi hcr =>
    unfold RingLog.St.close at hi
    cases hcur : s.cur with
    | none => rw [hcur] at hi; exact none' hi hcr
    | some h =>
      rw [hcur] at hi
      obtain ⟨A, B, k, g, hk, ha⟩ := curk hcur
      obtain ⟨hwi, hli⟩ := run_inv hc hf ha.run
      obtain ⟨l', hpu, hwu, _⟩ := flush_ok hf hwi hli
      obtain ⟨wops, ho, hdo⟩ := flush_does crc rng r1 r2 hpu
      rcases hx : LogFile.St.flush crc rng r1 r2 ⟨h.l, h.w, s.fs⟩ with ⟨r, f⟩
      simp only [hx] at hi
      cases r with
      | error e => exact call ha hk (hdo h.w s.fs) (by rw [hx]; exact hi) hcr
      | ok x =>
        cases x
        simp only at hi
        obtain ⟨a, b, hab⟩ := List.append_of_mem (mem_kind hk).1
        have hfs := (hdo h.w s.fs).fs
        rw [hx] at hfs
        obtain ⟨os1, ho1⟩ := runWriter_dev (ops := wops ++ [.flush r1 r2]) (hab ▸ inv.hist) ha.writer ha.maybe
        have ho1 : f.fs.dev = s.fs.dev.ops os1 := by rw [← ho1, hfs]
        have hri := (ha.recInv inv.hist (mem_kind hk).1).flush hc hf hx
        obtain ⟨k2, hk2, hr2⟩ := hri.file
        obtain ⟨a2, b2, hab2⟩ := List.append_of_mem hk2
        obtain ⟨os2, ho2⟩ := writerCall_dev (hist_inv hri.hist) hab2 hr2.writer .close
        have hfo : ops = os1 ++ os2 := by
          unfold issued at hi
          rw [ho2, ho1] at hi
          simp only [Dev.ops, List.append_assoc, List.append_cancel_left_eq] at hi
          exact hi.symm
        subst hfo
        rcases crash_append hcr with hc1 | hc2
        · exact call (fops := os1) ha hk (hdo h.w s.fs) (by rw [hx]; unfold issued; rw [ho1]; rfl) hc1
        · have hc2 : CrashImage f.fs.dev.flash os2 fl' := by rw [ho1]; exact hc2
          obtain ⟨fs', m1, _, m3, m4⟩ := step_loss (hist_inv hri.hist) (.mk a2 b2 k2 f.w _ [] os2 fl' hab2 hr2.writer (.inr rfl) .close (by unfold issued; rw [ho2]; rfl) hc2)
          rw [List.append_nil, show ({ k2 with maybe := k2.maybe } : Known) = k2 from rfl, ← hab2] at m4
          have m4 := m4.back m3
          refine ⟨fs', m1, fun x hx hne => ⟨_, m4, List.mem_map.mpr ⟨x, List.mem_map.mpr ⟨x, hx, if_neg fun hid => hne ?_⟩, rfl⟩⟩⟩
          rw [same_file (ids_unique (hist_inv inv.hist)) hx (mem_kind hk).1 (hid.trans ha.id.symm)]
          exact (mem_kind hk).2
  | begin r1 r2 s' ops _ hroom hcap hok hb hi hp =>
    have hz : s.plan.1 = 0 := by unfold RingLog.St.plan; rw [if_neg (by omega)]
    unfold RingLog.St.beginSegment at hb
    rw [hz, rotate_zero, inv.typEq] at hb
    rcases hrot : s.fs.createFileAndOpen typ r1 r2 with ⟨_ | e, fs1⟩
    · rw [hrot] at hb; simp at hb
    simp only [hrot] at hb
    have hfs : s'.fs = fs1 := by
      cases hwo : writerOf e with
      | none => rw [hwo] at hb; simp at hb
      | some w' => rw [hwo] at hb; simp at hb; rw [← hb]
    rw [hfs] at hi
    obtain ⟨fs'', ks2, m1, m2, m3⟩ := loss_allocStep_any (hist_inv inv.hist) (.createOpen typ r1 r2 e fs1 hrot (by omega) inv.small hok) hi (by simp; omega) hp
    refine ⟨fs'', m1, fun k hk _ => ⟨_, m3, List.mem_map.mpr ⟨k, ?_, rfl⟩⟩⟩
    rcases m2 with rfl | rfl
    · exact hk
    · exact List.mem_append_left _ hk

theorem callCut_ring {crc : Bytes → UInt32} {c : Cfg TS TD D DD} {typ : Nat} {s : RingLog.St TS D} {ks : List Known} {fl' : Flash} {extra : List (Out TS D)} (h : CallCut crc c typ s ks fl' extra) :
    RingCut crc c typ s ks fl' extra := by
  cases h with
  | log h hc rng1 rng2 t v b l' ops _ hl hi hcr => exact .log h hc rng1 rng2 t v b l' ops _ hl hi hcr
  | unix h hc rng u ops _ hi hcr => exact .unix h hc rng u ops _ hi hcr
  | flush rng r1 r2 ops _ hi hcr => exact .flush rng r1 r2 ops _ hi hcr
  | flushOld rng r1 r2 ops _ hi hcr => exact .flushOld rng r1 r2 ops _ hi hcr
  | closeOld ops _ hi hcr => exact .closeOld ops _ hi hcr
  | close rng r1 r2 ops _ hi hcr => exact .close rng r1 r2 ops _ hi hcr
  | begin r1 r2 s' ops _ hroom hcap hok hb hi hp => exact .begin r1 r2 s' ops _ hroom hcap hok hb hi hp

end Verif.Tiered
