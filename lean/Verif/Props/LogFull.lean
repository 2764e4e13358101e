import Verif.Lemmas.LogFull
import Verif.Props.LogFile
/-
**C89** A sensor log on a chip that has become full: the error is reported, but a caller that goes on logging runs into a panic.
-/
namespace Verif.Props
open Verif Verif.Vlfs Verif.Bit Verif.Delta Verif.Log Verif.LogFile Verif.Spec

variable {TS TD D DD : Type}

theorem sound_of {crc : Bytes → UInt32} {c : Cfg TS TD D DD} (hc : c.Codecs) (hf : c.Fits) {id : Nat} {s : St TS D} {ks : List Known} {inputs : List (TS × D)}
    {acc safe : List (Out TS D)} (h : Recording crc c id s ks inputs acc safe) : Sound crc id s ks ∧ s.l.w.data.length = 8 * c.bytes := by
  have hi := recording_inv hc hf h
  obtain ⟨k, hk, hk2⟩ := hi.file
  exact ⟨⟨hi.hist, k, hk, hk2.id, hk2.writer, hk2.maybe, hk2.data⟩, (run_inv hc hf hi.run).1.data⟩

/-- **C89** The first call of `log` on a recording that fails without a panic fails with `DeviceFull`, and then no sector is free. -/
theorem C89_first_failure {crc : Bytes → UInt32} {c : Cfg TS TD D DD} (hc : c.Codecs) (hf : c.Fits) (hs : StrictCfg c) {id : Nat} {s s1 : St TS D} {ks : List Known}
    {inputs : List (TS × D)} {acc safe : List (Out TS D)} (h : Recording crc c id s ks inputs acc safe) {rng1 rng2 : Nat → Nat × Nat} {t : TS} {v : D} {e : Err}
    (hl : s.log crc c rng1 rng2 t v = (.error e, s1)) (hp : e ≠ .panic) :
    e = .deviceFull ∧ s1.fs.mng.freeBytes = 0 ∧ ∃ ks1, Hist crc s1.fs ks1 ∧ ∃ k ∈ ks1, k.id = id ∧ k.writer = some s1.w := by
  obtain ⟨h1, h2⟩ := sound_of hc hf h
  obtain ⟨g1, g2⟩ := first_log hs h1 h2 hl hp
  obtain ⟨ks1, g3⟩ := g2.stuck
  exact ⟨g1, g3.full, ks1, g3.hist, g3.file⟩

/-- **C89** From then on, as long as the chip stays full, nothing more reaches the file: none of the calls that follow changes the writer of the file or hands over a byte.
Every reading that does not come too early is added to the bit buffer all the same, so that at most `8 * c.bytes / leastEntry c` of them are survived: the call
after those panics. -/
theorem C89_full_log_panics {crc : Bytes → UInt32} {c : Cfg TS TD D DD} (hc : c.Codecs) (hf : c.Fits) (hs : StrictCfg c) {id : Nat} {s s1 s2 : St TS D} {ks ks1 ks2 : List Known}
    {inputs : List (TS × D)} {acc safe : List (Out TS D)} (h : Recording crc c id s ks inputs acc safe) {rng1 rng2 : Nat → Nat × Nat} {t : TS} {v : D} {e : Err}
    (hl : s.log crc c rng1 rng2 t v = (.error e, s1)) (hp : e ≠ .panic) {n : Nat} (hh : Hist crc s1.fs ks1) {k : Known} (hk : k ∈ ks1) (hid : k.id = id)
    (hw : k.writer = some s1.w) (ht : Tries crc c id s1 ks1 n s2 ks2) :
    8 + n * leastEntry c ≤ 8 * c.bytes ∧ s2.w = s1.w ∧ s2.l.sink = s1.l.sink := by
  obtain ⟨h1, h2⟩ := sound_of hc hf h
  obtain ⟨_, g2⟩ := first_log hs h1 h2 hl hp
  obtain ⟨ks', g3⟩ := g2.stuck
  obtain ⟨i1, i2, i3, i4, i5, i6⟩ := tries_inv hs ht ⟨hh, ⟨k, hk, hid, hw⟩, g3.filled, g3.full⟩ g2.bits g2.fits
  have := g2.bits
  have := g2.data
  exact ⟨by omega, i5, i6⟩

/-- **C89** One call after another: on the full chip every `log` that is not refused answers `DeviceFull` or panics, and leaves the file system as it is. -/
theorem C89_full_stays_full {crc : Bytes → UInt32} {c : Cfg TS TD D DD} (hc : c.Codecs) (hf : c.Fits) (hs : StrictCfg c) {id : Nat} {s s1 s2 s3 : St TS D} {ks ks1 ks2 : List Known}
    {inputs : List (TS × D)} {acc safe : List (Out TS D)} (h : Recording crc c id s ks inputs acc safe) {rng1 rng2 : Nat → Nat × Nat} {t : TS} {v : D} {e : Err}
    (hl : s.log crc c rng1 rng2 t v = (.error e, s1)) (hp : e ≠ .panic) {n : Nat} (hh : Hist crc s1.fs ks1) {k : Known} (hk : k ∈ ks1) (hid : k.id = id)
    (hw : k.writer = some s1.w) (ht : Tries crc c id s1 ks1 n s2 ks2) {rng3 rng4 : Nat → Nat × Nat} {t' : TS} {v' : D} {r : Except Err Bool}
    (hl' : s2.log crc c rng3 rng4 t' v' = (r, s3)) : r = .ok false ∨ r = .error .panic ∨ (r = .error .deviceFull ∧ s3.fs = s2.fs ∧ s3.w = s2.w) := by
  obtain ⟨h1, h2⟩ := sound_of hc hf h
  obtain ⟨_, g2⟩ := first_log hs h1 h2 hl hp
  obtain ⟨ks', g3⟩ := g2.stuck
  obtain ⟨i1, i2, i3, i4, i5, i6⟩ := tries_inv hs ht ⟨hh, ⟨k, hk, hid, hw⟩, g3.filled, g3.full⟩ g2.bits g2.fits
  by_cases hpa : r = .error .panic
  · exact .inr (.inl hpa)
  · have := g2.bits
    obtain ⟨a1, a2, a3⟩ := stuck_log hs i1 (by omega) hl' hpa
    rcases a3 with ⟨a3, _⟩ | ⟨a3, _⟩
    · exact .inl a3
    · exact .inr (.inr ⟨a3, a2, a1⟩)

/-- **C89** Whoever feeds a log for ever without looking at the errors ends in a panic: every recording, continued by any stream of readings of which none comes too early, with
nobody else freeing storage, panics at one of its first `8 * (4016 * 16384 + c.bytes) / leastEntry c + 1` readings. -/
theorem C89_fed_for_ever {crc : Bytes → UInt32} {c : Cfg TS TD D DD} (hc : c.Codecs) (hf : c.Fits) (hs : StrictCfg c) {id : Nat} {s : St TS D} {ks : List Known}
    {inputs : List (TS × D)} {acc safe : List (Out TS D)} (h : Recording crc c id s ks inputs acc safe) (rng : Nat → (Nat → Nat × Nat) × (Nat → Nat × Nat)) (rd : Nat → TS × D)
    (hr : ∀ n, n * leastEntry c ≤ 8 * (4016 * 16384 + c.bytes) → answer crc c rng rd s n ≠ .ok false) :
    ∃ n, n * leastEntry c ≤ 8 * (4016 * 16384 + c.bytes) ∧ answer crc c rng rd s n = .error .panic := by
  by_contra hno
  have hnp : ∀ n, n * leastEntry c ≤ 8 * (4016 * 16384 + c.bytes) → answer crc c rng rd s n ≠ .error .panic := fun n hn hx => hno ⟨n, hn, hx⟩
  have he2 : 2 ≤ leastEntry c := by unfold leastEntry; omega
  -- the invariant
  have inv : ∀ n, (∀ m, m < n → m * leastEntry c ≤ 8 * (4016 * 16384 + c.bytes)) → n * leastEntry c ≤ produced (feed crc c rng rd s n).l ∧
      ((∃ ks inputs acc safe, Recording crc c id (feed crc c rng rd s n) ks inputs acc safe) ∨ FirstFail crc c id (feed crc c rng rd s n)) := by
    intro n
    induction n with
    | zero => exact fun _ => ⟨by simp, .inl ⟨_, _, _, _, h⟩⟩
    | succ n ih =>
      intro hb
      obtain ⟨i1, i2⟩ := ih fun m hm => hb m (by omega)
      have hp := hnp n (hb n (by omega))
      have hq := hr n (hb n (by omega))
      obtain ⟨⟨r, s'⟩, hl⟩ : ∃ q, (feed crc c rng rd s n).log crc c (rng n).1 (rng n).2 (rd n).1 (rd n).2 = q := ⟨_, rfl⟩
      have hfd : feed crc c rng rd s (n + 1) = s' := by show ((feed crc c rng rd s n).log crc c _ _ _ _).2 = s'; rw [hl]
      have han : answer crc c rng rd s n = r := by show ((feed crc c rng rd s n).log crc c _ _ _ _).1 = r; rw [hl]
      rw [han] at hp hq
      rw [hfd]
      have hg := log_produced hs hl hp hq
      refine ⟨by rw [Nat.succ_mul]; omega, ?_⟩
      rcases i2 with ⟨ks0, in0, acc0, safe0, i2⟩ | i2
      · cases r with
        | ok b =>
          cases b with
          | false => exact absurd rfl hq
          | true => exact .inl ⟨_, _, _, _, i2.accept _ _ _ _ hl⟩
        | error e =>
          obtain ⟨h1, h2⟩ := sound_of hc hf i2
          exact .inr (first_log hs h1 h2 hl fun hx => hp (by rw [hx])).2
      · obtain ⟨ks0, i3⟩ := i2.stuck
        obtain ⟨a1, a2, a3⟩ := stuck_log hs i3 i2.bits hl hp
        rcases a3 with ⟨a3, _⟩ | ⟨a3, g⟩
        · exact absurd a3 hq
        · have := i2.bits
          have := g.len
          refine .inr ⟨⟨ks0, by rw [a2]; exact i3.hist, by rw [a1]; exact i3.file, by rw [a1]; exact i3.filled, by rw [a2]; exact i3.full⟩, by omega, g.fits, g.data.trans i2.data, ?_⟩
          rw [g.sink]; exact i2.sink
  -- it cannot hold that long
  have hlt : ∀ n, (∀ m, m < n → m * leastEntry c ≤ 8 * (4016 * 16384 + c.bytes)) → n * leastEntry c ≤ 8 * (4016 * 16384 + c.bytes) := by
    intro n hn
    obtain ⟨i1, i2⟩ := inv n hn
    refine Nat.le_trans i1 ?_
    unfold produced
    rcases i2 with ⟨ks0, in0, acc0, safe0, i2⟩ | i2
    · have h1 := (sound_of hc hf i2).1.bound
      have h2 := (run_inv hc hf (recording_inv hc hf i2).run).2
      have h3 := hf.unix
      omega
    · have h1 := i2.sink
      have h2 := i2.fits
      have h3 := i2.data
      omega
  have hall : ∀ n m, m < n → m * leastEntry c ≤ 8 * (4016 * 16384 + c.bytes) := by
    intro n
    induction n with
    | zero => intro m hm; omega
    | succ n ih =>
      intro m hm
      rcases Nat.lt_or_ge m n with hx | hx
      · exact ih m hx
      · rw [show m = n by omega]; exact hlt n ih
  have := hall (8 * (4016 * 16384 + c.bytes) + 2) (8 * (4016 * 16384 + c.bytes) + 1) (by omega)
  have h4 : (8 * (4016 * 16384 + c.bytes) + 1) * 2 ≤ (8 * (4016 * 16384 + c.bytes) + 1) * leastEntry c := Nat.mul_le_mul_left _ he2
  omega

theorem runWriter_err {crc : Bytes → UInt32} : ∀ {ops : List WriterOp} {fs fs' : FS} {w w' : FileWriter} {a b : List Known} {k : Known} {e : Err}, OnlyWrites ops →
    Hist crc fs (a ++ k :: b) → k.writer = some w → k.maybe = [] → runWriter crc fs w ops = (.error e, w', fs') → e = .deviceFull := by
  intro ops
  induction ops with
  | nil => intro fs fs' w w' a b k e _ _ _ _ h; simp [runWriter] at h
  | cons o ops ih =>
    intro fs fs' w w' a b k e ho hh hw hm h
    cases o with
    | flush r1 r2 => have := ho _ (List.mem_cons_self ..); simp at this
    | write rng d =>
      obtain ⟨⟨r0, w1, fs1⟩, he⟩ : ∃ q, fs.extendWriter crc w rng d = q := ⟨_, rfl⟩
      rw [runWriter, he] at h
      rcases step_extend (hist_inv hh) rfl hw hm rng d with ⟨g, _⟩ | ⟨g1, _, _⟩
      · rw [he] at g
        simp only at g
        subst g
        simp only at h
        exact ih (fun x hx => ho x (List.mem_cons_of_mem _ hx)) (hh.step (.extend rng d w w1 fs1 a b k rfl hw hm he)) rfl hm h
      · rw [he] at g1
        simp only at g1
        subst g1
        simp only at h
        injection h with h1 _; injection h1 with h1; exact h1.symm

/-- **C89** As long as every call has succeeded, `log` does not panic. -/
theorem C89_no_panic_before {crc : Bytes → UInt32} {c : Cfg TS TD D DD} (hc : c.Codecs) (hf : c.Fits) (h1 : Applies c.tsDelta) (h2 : Applies c.dDelta) {id : Nat} {s : St TS D}
    {ks : List Known} {inputs : List (TS × D)} {acc safe : List (Out TS D)} (h : Recording crc c id s ks inputs acc safe) (rng1 rng2 : Nat → Nat × Nat) (t : TS) (v : D) :
    (s.log crc c rng1 rng2 t v).1 ≠ .error .panic := by
  have hi := recording_inv hc hf h
  obtain ⟨hw, hl⟩ := run_inv hc hf hi.run
  obtain ⟨⟨b, l'⟩, hlog⟩ := log_some hc hf h1 h2 t v hw hl
  obtain ⟨ops, ho, hdo⟩ := log_does crc rng1 rng2 hlog
  obtain ⟨_, d2⟩ := hdo s.w s.fs
  obtain ⟨k, hk, hk2⟩ := hi.file
  obtain ⟨x, y, rfl⟩ := List.append_of_mem hk
  obtain ⟨⟨r0, w0, fs0⟩, he⟩ : ∃ q, runWriter crc s.fs s.w ops = q := ⟨_, rfl⟩
  have he' : runWriter crc (⟨s.l, s.w, s.fs⟩ : St TS D).fs (⟨s.l, s.w, s.fs⟩ : St TS D).w ops = (r0, w0, fs0) := he
  rw [he'] at d2
  cases r0 with
  | ok u =>
    simp only at d2
    have d3 : s.log crc c rng1 rng2 t v = _ := d2
    rw [d3]; simp
  | error e =>
    simp only at d2
    have d3 : (s.log crc c rng1 rng2 t v).1 = .error e := d2.1
    rw [d3, runWriter_err ho hi.hist hk2.writer hk2.maybe he]
    simp

/-! ### The hypotheses can be met -/

/-- the demo configuration, without a lowest sampling interval -/
def demoAny : Cfg (BitVec 64) (BitVec 8) (BitVec 64) (BitVec 8) := { Log.demo with tooClose := fun _ _ => false }

theorem demoAny_codecs : demoAny.Codecs := ⟨demo_codecs.ts, demo_codecs.td, demo_codecs.d, demo_codecs.dd⟩
theorem demoAny_fits : demoAny.Fits := ⟨demo_fits.full, demo_fits.dfull, demo_fits.ddelta, demo_fits.unix⟩
theorem demoAny_strict : StrictCfg demoAny := ⟨strict_uint 64, strict_uint 8, strict_uint 64, strict_uint 8⟩
theorem demoAny_answer (crc : Bytes → UInt32) (rng : Nat → (Nat → Nat × Nat) × (Nat → Nat × Nat)) (rd : Nat → BitVec 64 × BitVec 64) (s : St (BitVec 64) (BitVec 64)) (n : Nat) :
    answer crc demoAny rng rd s n ≠ .ok false := by
  intro h
  unfold answer St.log at h
  have hr : (feed crc demoAny rng rd s n).l.refuses demoAny (rd n).1 = false := by
    unfold Logger.refuses
    split <;> rfl
  rw [if_neg (by rw [hr]; simp)] at h
  split at h
  · split at h
    · split at h <;> simp at h
    · simp at h
  · simp at h

/-- a log that is fed for ever with any readings: at some point `log` answers `DeviceFull`, some time after that it panics -/
theorem C89_case (crc : Bytes → UInt32) (rd : Nat → BitVec 64 × BitVec 64) : ∃ s0 ks0, Recording crc demoAny 1 s0 ks0 [] [] [] ∧
    ∃ n m, n < m ∧ answer crc demoAny (fun _ => (fun _ => (0, 0), fun _ => (0, 0))) rd s0 n = .error .deviceFull ∧
      answer crc demoAny (fun _ => (fun _ => (0, 0), fun _ => (0, 0))) rd s0 m = .error .panic ∧
      ∃ ks inputs acc safe, Recording crc demoAny 1 (feed crc demoAny (fun _ => (fun _ => (0, 0), fun _ => (0, 0))) rd s0 n) ks inputs acc safe := by
  obtain ⟨fs, new, h0, _, s0, _⟩ := demo_fresh crc
  have rec0 : Recording crc demoAny 1 ⟨Logger.new demoAny, FileWriter.new new 1, fs⟩ _ [] [] [] := .start h0 (List.mem_singleton.mpr rfl) rfl rfl rfl rfl rfl
  refine ⟨_, _, rec0, ?_⟩
  generalize (⟨Logger.new demoAny, FileWriter.new new 1, fs⟩ : St (BitVec 64) (BitVec 64)) = s at rec0
  generalize (fun _ => (fun _ => (0, 0), fun _ => (0, 0)) : Nat → (Nat → Nat × Nat) × (Nat → Nat × Nat)) = rng
  obtain ⟨m, _, hm⟩ := C89_fed_for_ever demoAny_codecs demoAny_fits demoAny_strict rec0 rng rd fun n _ => demoAny_answer crc rng rd s n
  have ap : Applies demoAny.tsDelta ∧ Applies demoAny.dDelta := ⟨fun _ _ _ _ => ⟨_, rfl⟩, fun _ _ _ _ => ⟨_, rfl⟩⟩
  -- the first call that fails
  have hex : ∃ n, n ≤ m ∧ (∃ e, answer crc demoAny rng rd s n = .error e) ∧ ∃ ks inputs acc safe, Recording crc demoAny 1 (feed crc demoAny rng rd s n) ks inputs acc safe := by
    have key : ∀ j, j ≤ m → (∃ n, n ≤ m ∧ (∃ e, answer crc demoAny rng rd s n = .error e) ∧ ∃ ks inputs acc safe, Recording crc demoAny 1 (feed crc demoAny rng rd s n) ks inputs acc safe) ∨
        ∃ ks inputs acc safe, Recording crc demoAny 1 (feed crc demoAny rng rd s j) ks inputs acc safe := by
      intro j
      induction j with
      | zero => exact fun _ => .inr ⟨_, _, _, _, rec0⟩
      | succ j ih =>
        intro hj
        rcases ih (by omega) with h | ⟨ks1, in1, acc1, safe1, h⟩
        · exact .inl h
        · obtain ⟨⟨r, s'⟩, hl⟩ : ∃ q, (feed crc demoAny rng rd s j).log crc demoAny (rng j).1 (rng j).2 (rd j).1 (rd j).2 = q := ⟨_, rfl⟩
          have hfd : feed crc demoAny rng rd s (j + 1) = s' := by show ((feed crc demoAny rng rd s j).log crc demoAny _ _ _ _).2 = s'; rw [hl]
          have han : answer crc demoAny rng rd s j = r := by show ((feed crc demoAny rng rd s j).log crc demoAny _ _ _ _).1 = r; rw [hl]
          cases r with
          | error e => exact .inl ⟨j, by omega, ⟨e, han⟩, _, _, _, _, h⟩
          | ok b =>
            cases b with
            | false => exact absurd han (demoAny_answer crc rng rd s j)
            | true => rw [hfd]; exact .inr ⟨_, _, _, _, h.accept _ _ _ _ hl⟩
    rcases key m (Nat.le_refl _) with h | h
    · exact h
    · exact ⟨m, Nat.le_refl _, ⟨_, hm⟩, h⟩
  obtain ⟨n, hn, ⟨e, he⟩, ks1, in1, acc1, safe1, hrec⟩ := hex
  have hnp := C89_no_panic_before demoAny_codecs demoAny_fits ap.1 ap.2 hrec (rng n).1 (rng n).2 (rd n).1 (rd n).2
  have hnp' : answer crc demoAny rng rd s n ≠ .error .panic := hnp
  have hne : e ≠ .panic := fun hx => hnp' (by rw [he, hx])
  have hlt : n < m := by
    rcases Nat.lt_or_ge n m with h | h
    · exact h
    · have : n = m := by omega
      subst this; exact absurd hm hnp'
  obtain ⟨⟨r, s'⟩, hl⟩ : ∃ q, (feed crc demoAny rng rd s n).log crc demoAny (rng n).1 (rng n).2 (rd n).1 (rd n).2 = q := ⟨_, rfl⟩
  have han : answer crc demoAny rng rd s n = r := by show ((feed crc demoAny rng rd s n).log crc demoAny _ _ _ _).1 = r; rw [hl]
  rw [← han, he] at hl
  have hdf := (C89_first_failure demoAny_codecs demoAny_fits demoAny_strict hrec hl hne).1
  exact ⟨n, m, hlt, by rw [he, hdf], hm, ks1, in1, acc1, safe1, hrec⟩

/-- the shortest entry of the demo log has 18 bits: 7 readings after the first failure are survived at most -/
example : leastEntry demoAny = 18 ∧ demoAny.bytes = 18 := by decide

end Verif.Props
