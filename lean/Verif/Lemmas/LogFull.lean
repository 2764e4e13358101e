import Verif.Spec.LogFull
import Verif.Lemmas.Recording
import Verif.Lemmas.BitSlice
import Verif.Lemmas.WitnessFull
/-
A sensor log on a chip that has become full.
-/
namespace Verif.Spec
open Verif Verif.Vlfs Verif.Bit Verif.Delta Verif.Log Verif.LogFile

variable {TS TD D DD : Type}

theorem Good.strict {α : Type} {p : Prim α} (h : Good p) : Strict p := by
  intro v s s' hw
  by_cases hl : p.len ≤ s.length
  · obtain ⟨e, h1, h2, _⟩ := h.ok v s hl
    rw [h2] at hw; injection hw with hw; subst hw
    exact ⟨hl, by rw [List.length_append, List.length_drop]; omega⟩
  · rw [h.short v s (by omega)] at hw; exact absurd hw (by simp)

theorem write_strict {α : Type} {p : Prim α} (h : Strict p) {w w' : Writer} {v : α} (hw : w.write p v = some w') :
    w'.len = w.len + p.len ∧ w'.data.length = w.data.length ∧ w'.len ≤ w'.data.length := by
  unfold Writer.write at hw
  split at hw
  · exact absurd hw (by simp)
  · next hlt =>
    split at hw
    · next s hs =>
      injection hw with hw; subst hw
      obtain ⟨h1, h2⟩ := h _ _ _ hs
      rw [List.length_drop] at h1 h2
      have : (w.data.take w.len ++ s).length = w.data.length := by rw [List.length_append, List.length_take]; omega
      exact ⟨rfl, this, by show w.len + p.len ≤ (w.data.take w.len ++ s).length; omega⟩
    · exact absurd hw (by simp)

/-! ### the file writer -/

/-- the writer has filled its sector -/
def Filled (w : FileWriter) : Prop := w.len ≥ 252 * 15 ∧ 256 - w.offset - 20 = 0

theorem extendLoop_filled (crc : Bytes → UInt32) (rng : Nat → Nat × Nat) : ∀ (fuel : Nat) (w : FileWriter) (m : SectorsMng) (dev : Dev) (slice : Bytes)
    {w' : FileWriter} {m' : SectorsMng} {dev' : Dev}, FileWriter.extendLoop crc rng fuel w m dev slice = (.error .deviceFull, w', m', dev') → Filled w' := by
  intro fuel
  induction fuel with
  | zero => intro w m dev slice w' m' dev' h; rw [FileWriter.extendLoop] at h; simp at h
  | succ fuel ih =>
    intro w m dev slice w' m' dev' h
    rw [FileWriter.extendLoop] at h
    by_cases h0 : slice.length > 0
    · rw [if_pos h0] at h
      obtain ⟨q, hq⟩ : ∃ q, decide (w.len ≥ 252 * 15) = q := ⟨_, rfl⟩
      simp only [hq] at h
      cases q with
      | true =>
        have hwl : w.len ≥ 252 * 15 := of_decide_eq_true hq
        simp only [if_true] at h
        by_cases hlt : slice.length < 256 - w.offset - (8 + 8 + 4)
        · rw [if_pos hlt] at h; simp at h
        · rw [if_neg hlt] at h
          split at h
          · injection h with h1 h2
            injection h2 with h2 h3
            subst h2
            exact ⟨by show w.len + _ ≥ _; omega, by show 256 - (w.offset + (256 - w.offset - (8 + 8 + 4))) - 20 = 0; omega⟩
          · exact ih _ _ _ _ h
      | false =>
        simp only [Bool.false_eq_true, if_false] at h
        by_cases hlt : slice.length < 256 - w.offset - 4
        · rw [if_pos hlt] at h; simp at h
        · rw [if_neg hlt] at h; exact ih _ _ _ _ h
    · rw [if_neg h0] at h; simp at h

/-- no sector is left -/
theorem full_claim {crc : Bytes → UInt32} {rest : List Nat} {first : Nat} {segs : List (Nat × Bytes)} {w : FileWriter} {D : Bytes}
    {m : SectorsMng} {dev : Dev} (h : WSt crc rest first segs w D m dev) (hf : m.freeBytes = 0) (r1 r2 : Nat) : m.claim r1 r2 dev = (.error .deviceFull, m, dev) := by
  have hlen := (freeBytes_eq h.inv)
  rcases claim_step h r1 r2 with ⟨x, m1, os, c1, c2, c3, _⟩ | ⟨c1, _⟩
  · have := (freeBytes_eq c3).2
    simp only [List.length_cons] at this
    omega
  · exact c1

theorem put_nil (b : Bytes) (i : Nat) : put b i [] = b := by
  unfold put; simp

theorem extend_filled {crc : Bytes → UInt32} {rest : List Nat} {first : Nat} {segs : List (Nat × Bytes)} {w : FileWriter} {D : Bytes}
    {m : SectorsMng} {dev : Dev} (h : WSt crc rest first segs w D m dev) (hf : m.freeBytes = 0) (hw : Filled w) (rng : Nat → Nat × Nat) {slice : Bytes} (hs : slice ≠ []) :
    w.extend crc m dev rng slice = (.error .deviceFull, w, m, dev) := by
  have hpos : slice.length > 0 := List.length_pos_iff.mpr hs
  rw [FileWriter.extend, FileWriter.extendLoop, if_pos hpos]
  have hwl : decide (w.len ≥ 252 * 15) = true := decide_eq_true hw.1
  have hz : 256 - w.offset - 20 = 0 := hw.2
  simp only [hwl, if_true, hz]
  rw [if_neg (by omega), full_claim h hf]
  simp only [List.take_zero, put_nil, Nat.add_zero]

/-! ### the logger -/

/-- the state a failed call leaves behind, while the chip stays full -/
structure Stuck (crc : Bytes → UInt32) (id : Nat) (s : St TS D) (ks : List Known) : Prop where
  hist : Hist crc s.fs ks
  file : ∃ k ∈ ks, k.id = id ∧ k.writer = some s.w
  filled : Filled s.w
  full : s.fs.mng.freeBytes = 0

theorem Stuck.extend {crc : Bytes → UInt32} {id : Nat} {s : St TS D} {ks : List Known} (h : Stuck crc id s ks) (rng : Nat → Nat × Nat) {slice : Bytes} (hs : slice ≠ []) :
    s.fs.extendWriter crc s.w rng slice = (.error .deviceFull, s.w, s.fs) := by
  obtain ⟨k, hk, _, hw⟩ := h.file
  obtain ⟨files, leak, f, hf, hsys, hm, rfl⟩ := (hist_inv h.hist).file hk
  obtain ⟨as, bs, rfl⟩ := List.append_of_mem hm
  obtain ⟨first, _, hst⟩ := hsys.wst hw
  unfold FS.extendWriter
  rw [extend_filled hst h.full h.filled rng hs]

theorem Stuck.writeAll {crc : Bytes → UInt32} {id : Nat} {s : St TS D} {ks : List Known} (h : Stuck crc id s ks) (rng : Nat → Nat × Nat) {d : Bytes} (hd : d ≠ []) :
    s.writeAll crc rng d = (.error .deviceFull, s) := by
  unfold St.writeAll
  rw [if_neg hd, h.extend rng hd]

/-- only the logger's own fields have changed -/
theorem Stuck.congr {crc : Bytes → UInt32} {id : Nat} {s : St TS D} {ks : List Known} (h : Stuck crc id s ks) (l : Logger TS D) : Stuck crc id { s with l := l } ks :=
  ⟨h.hist, h.file, h.filled, h.full⟩

theorem fullBytes_ne {w : Writer} (h : 8 ≤ w.len) : w.fullBytes ≠ [] := by
  unfold Writer.fullBytes
  obtain ⟨n, hn⟩ : ∃ n, w.len / 8 = n + 1 := ⟨w.len / 8 - 1, by omega⟩
  rw [hn, bitsBytes]; simp

theorem allBytes_ne {w : Writer} (h : 0 < w.len) : w.allBytes ≠ [] := by
  unfold Writer.allBytes
  obtain ⟨n, hn⟩ : ∃ n, (w.len + 7) / 8 = n + 1 := ⟨(w.len + 7) / 8 - 1, by omega⟩
  rw [hn, bitsBytes]; simp

theorem Stuck.drain {crc : Bytes → UInt32} {id : Nat} {s : St TS D} {ks : List Known} (h : Stuck crc id s ks) (rng : Nat → Nat × Nat) (hl : 8 ≤ s.l.w.len) :
    s.drain crc rng = (.error .deviceFull, s) := by
  unfold St.drain
  rw [h.writeAll rng (fullBytes_ne hl)]

theorem strict_hdr (n : Nat) : Strict (Prim.bool.arr n) := Good.strict (good_arr good_bool n)
/-- a struct of fields -/
theorem Strict.seq {α β : Type} {p : Prim α} {q : Prim β} (hp : Strict p) (hq : Strict q) : Strict (p.seq q) := by
  intro v s s' h
  simp only [Prim.seq] at h
  split at h
  · next s1 e1 =>
    obtain ⟨a1, a2⟩ := hp _ _ _ e1
    split at h
    · exact absurd h (by simp)
    · split at h
      · next t e2 =>
        obtain ⟨b1, b2⟩ := hq _ _ _ e2
        injection h with h; subst h
        rw [List.length_drop] at b1 b2
        refine ⟨by show p.len + q.len ≤ s.length; omega, ?_⟩
        rw [List.length_append, List.length_take]; omega
      · exact absurd h (by simp)
  · exact absurd h (by simp)

theorem strict_uint (n : Nat) : Strict (Prim.uint n) := Good.strict (good_uint n)
theorem strict_unix : Strict unixPrim := Strict.seq (strict_uint 64) (strict_uint 64)

/-- what an entry does to the bit buffer -/
structure Grown (c : Cfg TS TD D DD) (l l' : Logger TS D) (k : Nat) : Prop where
  len : l.w.len + k ≤ l'.w.len
  data : l'.w.data.length = l.w.data.length
  fits : l'.w.len ≤ l'.w.data.length
  sink : l'.sink = l.sink

theorem writeReading_grown {c : Cfg TS TD D DD} (hs : StrictCfg c) {l l' : Logger TS D} {t : TS} {v : D} (h : l.writeReading c t v = some l') :
    Grown c l l' (leastEntry c) := by
  have three : ∀ {α β : Type} {n : Nat} {p : Prim α} {q : Prim β} {hd : { x : List Bool // x.length = n }} {a : α} {b : β} {w1 w2 w3 : Writer} (hp : Strict p) (hq : Strict q),
      l.w.write (Prim.bool.arr n) hd = some w1 → w1.write p a = some w2 → w2.write q b = some w3 →
      w3.len = l.w.len + (n + p.len + q.len) ∧ w3.data.length = l.w.data.length ∧ w3.len ≤ w3.data.length := by
    intro α β n p q hd a b w1 w2 w3 hp hq e1 e2 e3
    obtain ⟨a1, a2, _⟩ := write_strict (strict_hdr n) e1
    obtain ⟨b1, b2, _⟩ := write_strict hp e2
    obtain ⟨c1, c2, c3⟩ := write_strict hq e3
    have : (Prim.bool.arr n).len = n := by show n * 1 = n; omega
    refine ⟨by omega, by omega, c3⟩
  unfold Logger.writeReading at h
  split at h
  · split at h
    · next w1 e1 =>
      split at h
      · next w2 e2 =>
        split at h
        · next w3 e3 =>
          injection h with h; subst h
          obtain ⟨g1, g2, g3⟩ := three hs.ts hs.d e1 e2 e3
          exact ⟨by show l.w.len + leastEntry c ≤ w3.len; unfold leastEntry; omega, g2, g3, rfl⟩
        · exact absurd h (by simp)
      · exact absurd h (by simp)
    · exact absurd h (by simp)
  · split at h
    · split at h
      · next w1 e1 =>
        split at h
        · next w2 e2 =>
          split at h
          · next w3 e3 =>
            injection h with h; subst h
            obtain ⟨g1, g2, g3⟩ := three hs.td hs.d e1 e2 e3
            exact ⟨by show l.w.len + leastEntry c ≤ w3.len; unfold leastEntry; omega, g2, g3, rfl⟩
          · exact absurd h (by simp)
        · exact absurd h (by simp)
      · exact absurd h (by simp)
    · split at h
      · next w1 e1 =>
        split at h
        · next w2 e2 =>
          split at h
          · next w3 e3 =>
            injection h with h; subst h
            obtain ⟨g1, g2, g3⟩ := three hs.td hs.dd e1 e2 e3
            exact ⟨by show l.w.len + leastEntry c ≤ w3.len; unfold leastEntry; omega, g2, g3, rfl⟩
          · exact absurd h (by simp)
        · exact absurd h (by simp)
      · exact absurd h (by simp)
    · exact absurd h (by simp)
  · exact absurd h (by simp)

/-- `log_unix_time` on a full chip -/
theorem stuck_unix {crc : Bytes → UInt32} {c : Cfg TS TD D DD} {id : Nat} {s s' : St TS D} {ks : List Known} (h : Stuck crc id s ks) (hl : 8 ≤ s.l.w.len)
    {rng : Nat → Nat × Nat} {u : Unix} {r : Except Err Unit} (hr : s.logUnix crc rng u = (r, s')) (hp : r ≠ .error .panic) :
    s'.w = s.w ∧ s'.fs = s.fs ∧ ((r = .ok () ∧ s'.l.w = s.l.w ∧ s'.l.sink = s.l.sink ∧ s.l.lastUnix = true) ∨ (r = .error .deviceFull ∧ Grown c s.l s'.l 130)) := by
  unfold St.logUnix at hr
  split at hr
  · next hlu => injection hr with h1 h2; subst h1 h2; exact ⟨rfl, rfl, .inl ⟨rfl, rfl, rfl, hlu⟩⟩
  · split at hr
    · next w1 e1 =>
      split at hr
      · next w2 e2 =>
        obtain ⟨a1, a2, _⟩ := write_strict (strict_hdr 2) e1
        obtain ⟨b1, b2, b3⟩ := write_strict strict_unix e2
        have e3 : (Prim.bool.arr 2).len = 2 := rfl
        have e4 : unixPrim.len = 128 := rfl
        rw [(h.congr { s.l with w := w2 }).drain rng (by show 8 ≤ w2.len; omega)] at hr
        injection hr with h1 h2; subst h1 h2
        exact ⟨rfl, rfl, .inr ⟨rfl, by show s.l.w.len + 130 ≤ w2.len; omega, by show w2.data.length = _; omega, b3, rfl⟩⟩
      · injection hr with h1 h2; exact absurd h1.symm hp
    · injection hr with h1 h2; exact absurd h1.symm hp

/-- `log` on a full chip -/
theorem stuck_log {crc : Bytes → UInt32} {c : Cfg TS TD D DD} (hs : StrictCfg c) {id : Nat} {s s' : St TS D} {ks : List Known} (h : Stuck crc id s ks) (hl : 8 ≤ s.l.w.len)
    {rng1 rng2 : Nat → Nat × Nat} {t : TS} {v : D} {r : Except Err Bool} (hr : s.log crc c rng1 rng2 t v = (r, s')) (hp : r ≠ .error .panic) :
    s'.w = s.w ∧ s'.fs = s.fs ∧ ((r = .ok false ∧ s' = s) ∨ (r = .error .deviceFull ∧ Grown c s.l s'.l (leastEntry c))) := by
  unfold St.log at hr
  split at hr
  · injection hr with h1 h2; subst h1 h2; exact ⟨rfl, rfl, .inl ⟨rfl, rfl⟩⟩
  · -- the reading itself
    have rd : ∀ s0 : St TS D, s0.w = s.w → s0.fs = s.fs → s0.l.w = s.l.w → s0.l.sink = s.l.sink →
        (match s0.l.writeReading c t v with
          | some l =>
            match St.drain crc rng2 { s0 with l := l } with
            | (.ok (), s) => ((.ok true, { s with l := { s.l with lastUnix := false } }) : Except Err Bool × St TS D)
            | (.error e, s) => (.error e, s)
          | none => (.error .panic, s0)) = (r, s') →
        s'.w = s.w ∧ s'.fs = s.fs ∧ ((r = .ok false ∧ s' = s) ∨ (r = .error .deviceFull ∧ Grown c s.l s'.l (leastEntry c))) := by
      intro s0 k1 k2 k3 k4 hq
      split at hq
      · next l hw =>
        have g := writeReading_grown hs hw
        have hst : Stuck crc id ({ s0 with l := l } : St TS D) ks := ⟨by rw [show ({ s0 with l := l } : St TS D).fs = s.fs from k2]; exact h.hist,
          by rw [show ({ s0 with l := l } : St TS D).w = s.w from k1]; exact h.file, by rw [show ({ s0 with l := l } : St TS D).w = s.w from k1]; exact h.filled,
          by rw [show ({ s0 with l := l } : St TS D).fs = s.fs from k2]; exact h.full⟩
        have g1 := g.len
        rw [k3] at g1
        rw [hst.drain rng2 (by show 8 ≤ l.w.len; omega)] at hq
        injection hq with h1 h2; subst h1 h2
        exact ⟨k1, k2, .inr ⟨rfl, g1, by rw [← k3]; exact g.data, g.fits, g.sink.trans k4⟩⟩
      · injection hq with h1 h2; exact absurd h1.symm hp
    obtain ⟨re, hre⟩ : ∃ re, s.emitBuffered crc rng1 = re := ⟨_, rfl⟩
    have hre' := hre
    unfold St.emitBuffered at hre
    split at hre
    · next u hu =>
      obtain ⟨r0, s0⟩ := re
      by_cases hpa : r0 = .error .panic
      · rw [hre', hpa] at hr; simp only at hr; injection hr with h1 h2; exact absurd h1.symm hp
      · obtain ⟨k1, k2, k3⟩ := stuck_unix (c := c) (h.congr { s.l with unixBuf := none }) hl hre hpa
        rcases k3 with ⟨k3, k4, k5, _⟩ | ⟨k3, g⟩
        · rw [hre', k3] at hr
          exact rd s0 k1 k2 k4 k5 hr
        · rw [hre', k3] at hr
          simp only at hr
          injection hr with h1 h2; subst h1 h2
          refine ⟨k1, k2, .inr ⟨rfl, ?_, g.data, g.fits, g.sink⟩⟩
          have := g.len
          have e : leastEntry c ≤ 130 := by unfold leastEntry; omega
          have e' : s.l.w.len + 130 ≤ s0.l.w.len := this
          omega
    · rw [hre', ← hre] at hr
      exact rd s rfl rfl rfl rfl hr

/-- `flush` on a full chip -/
theorem stuck_flush {crc : Bytes → UInt32} {c : Cfg TS TD D DD} {id : Nat} {s s' : St TS D} {ks : List Known} (h : Stuck crc id s ks)
    {rng : Nat → Nat × Nat} {r1 r2 : Nat} {r : Except Err Unit} (hr : s.flush crc rng r1 r2 = (r, s')) (hp : r ≠ .error .panic) :
    s'.w = s.w ∧ s'.fs = s.fs ∧ r = .error .deviceFull ∧ Grown c s.l s'.l 3 := by
  unfold St.flush at hr
  split at hr
  · next w1 e1 =>
    obtain ⟨a1, a2, a3⟩ := write_strict (strict_hdr 3) e1
    have e3 : (Prim.bool.arr 3).len = 3 := rfl
    rw [(h.congr { s.l with w := w1 }).writeAll rng (allBytes_ne (by omega))] at hr
    injection hr with h1 h2; subst h1 h2
    exact ⟨rfl, rfl, rfl, by show s.l.w.len + 3 ≤ w1.len; omega, a2, a3, rfl⟩
  · injection hr with h1 h2; exact absurd h1.symm hp

/-! ### the first failure -/

/-- a writer whose calls have all succeeded -/
structure Sound (crc : Bytes → UInt32) (id : Nat) (s : St TS D) (ks : List Known) : Prop where
  hist : Hist crc s.fs ks
  file : ∃ k ∈ ks, k.id = id ∧ k.writer = some s.w ∧ k.maybe = [] ∧ k.data = s.l.sink

theorem Sound.bound {crc : Bytes → UInt32} {id : Nat} {s : St TS D} {ks : List Known} (h : Sound crc id s ks) : s.l.sink.length ≤ 4016 * 16384 := by
  obtain ⟨k, hk, _, hw, _, hd⟩ := h.file
  rw [← hd]; exact (hist_inv h.hist).capacity hk hw

theorem Sound.writeAll {crc : Bytes → UInt32} {id : Nat} {s s' : St TS D} {ks : List Known} (h : Sound crc id s ks) {rng : Nat → Nat × Nat} {d : Bytes} {r : Except Err Unit}
    (hr : s.writeAll crc rng d = (r, s')) :
    (r = .ok () ∧ s'.l.w = s.l.w ∧ ∃ ks', Sound crc id s' ks') ∨ (r = .error .deviceFull ∧ s'.l = s.l ∧ d ≠ [] ∧ ∃ ks', Stuck crc id s' ks') := by
  unfold St.writeAll at hr
  split at hr
  · injection hr with h1 h2; subst h1 h2; exact .inl ⟨rfl, rfl, ks, h⟩
  · next hne =>
    obtain ⟨k, hk, hid, hw, hm, hdat⟩ := h.file
    obtain ⟨a, b, hab⟩ := List.append_of_mem hk
    obtain ⟨⟨r0, w', fs'⟩, he⟩ : ∃ q, s.fs.extendWriter crc s.w rng d = q := ⟨_, rfl⟩
    rw [he] at hr
    rcases step_extend (hist_inv h.hist) hab hw hm rng d with ⟨g, _⟩ | ⟨g1, g2, _⟩
    · rw [he] at g
      simp only at g
      rw [g] at hr he
      simp only at hr
      injection hr with h1 h2; subst h1 h2
      exact .inl ⟨rfl, rfl, _, h.hist.step (.extend rng d s.w w' fs' a b k hab hw hm he), _, List.mem_append_right _ (List.mem_cons_self ..), hid, rfl, hm, by show k.data ++ d = s.l.sink ++ d; rw [hdat]⟩
    · rw [he] at g1 g2
      simp only at g1 g2
      rw [g1] at hr he
      simp only at hr
      injection hr with h1 h2; subst h1 h2
      refine .inr ⟨rfl, rfl, hne, _, h.hist.step (.extendErr rng d _ s.w w' fs' a b k hab hw hm he), ⟨_, List.mem_append_right _ (List.mem_cons_self ..), hid, rfl⟩, ?_, g2⟩
      unfold FS.extendWriter at he
      injection he with e1 e2
      injection e2 with e2 e3
      have hx : FileWriter.extendLoop crc rng (d.length + 2) s.w s.fs.mng s.fs.dev d =
          (.error .deviceFull, w', (s.w.extend crc s.fs.mng s.fs.dev rng d).2.2.1, (s.w.extend crc s.fs.mng s.fs.dev rng d).2.2.2) := by
        show s.w.extend crc s.fs.mng s.fs.dev rng d = _
        rw [← e1, ← e2]
      exact extendLoop_filled crc rng _ _ _ _ _ hx

theorem Sound.congr {crc : Bytes → UInt32} {id : Nat} {s : St TS D} {ks : List Known} (h : Sound crc id s ks) (l : Logger TS D) (hl : l.sink = s.l.sink) :
    Sound crc id { s with l := l } ks := by
  obtain ⟨k, h1, h2, h3, h4, h5⟩ := h.file
  exact ⟨h.hist, k, h1, h2, h3, h4, h5.trans hl.symm⟩

theorem bytes_ne {w : Writer} (h : w.fullBytes ≠ []) : 8 ≤ w.len := by
  by_contra hlt
  apply h
  unfold Writer.fullBytes
  rw [show w.len / 8 = 0 by omega]; rfl

theorem Sound.drain {crc : Bytes → UInt32} {id : Nat} {s s' : St TS D} {ks : List Known} (h : Sound crc id s ks) {rng : Nat → Nat × Nat} {r : Except Err Unit}
    (hr : s.drain crc rng = (r, s')) (hp : r ≠ .error .panic) :
    (r = .ok () ∧ ∃ ks', Sound crc id s' ks') ∨ (r = .error .deviceFull ∧ s'.l = s.l ∧ 8 ≤ s'.l.w.len ∧ ∃ ks', Stuck crc id s' ks') := by
  unfold St.drain at hr
  obtain ⟨⟨r0, s0⟩, he⟩ : ∃ q, s.writeAll crc rng s.l.w.fullBytes = q := ⟨_, rfl⟩
  rw [he] at hr
  rcases h.writeAll he with ⟨g1, g2, ks', g3⟩ | ⟨g1, g2, g3, g4⟩
  · rw [g1] at hr
    simp only at hr
    split at hr
    · injection hr with h1 h2; subst h1 h2; exact .inl ⟨rfl, ks', g3.congr _ rfl⟩
    · injection hr with h1 h2; exact absurd h1.symm hp
  · rw [g1] at hr
    simp only at hr
    injection hr with h1 h2; subst h1 h2
    exact .inr ⟨rfl, g2, by rw [g2]; exact bytes_ne g3, g4⟩

theorem clearFull_length {w w' : Writer} (h : w.clearFull = some w') : w'.data.length = w.data.length := by
  unfold Writer.clearFull at h
  simp only at h
  split at h
  · exact absurd h (by simp)
  · injection h with h; subst h
    simp only [List.length_append, List.length_take, List.length_drop]
    omega

theorem drain_length {crc : Bytes → UInt32} {s s' : St TS D} {rng : Nat → Nat × Nat} (h : s.drain crc rng = (.ok (), s')) : s'.l.w.data.length = s.l.w.data.length := by
  unfold St.drain at h
  split at h
  · next s0 he =>
    have hw : s0.l.w = s.l.w := by
      unfold St.writeAll at he
      split at he
      · injection he with _ h2; rw [← h2]
      · split at he
        · injection he with _ h2; rw [← h2]
        · injection he with h1 _; exact absurd h1 (by simp)
    split at h
    · next w hc =>
      injection h with _ h2; subst h2
      rw [← hw]; exact clearFull_length hc
    · injection h with h1 _; exact absurd h1 (by simp)
  · injection h with h1 _; exact absurd h1 (by simp)

/-- the state after the first failed call -/
structure FirstFail (crc : Bytes → UInt32) (c : Cfg TS TD D DD) (id : Nat) (s : St TS D) : Prop where
  stuck : ∃ ks, Stuck crc id s ks
  bits : 8 ≤ s.l.w.len
  fits : s.l.w.len ≤ s.l.w.data.length
  data : s.l.w.data.length = 8 * c.bytes
  sink : s.l.sink.length ≤ 4016 * 16384

theorem first_unix {crc : Bytes → UInt32} {c : Cfg TS TD D DD} {id : Nat} {s s' : St TS D} {ks : List Known} (h : Sound crc id s ks) (hd : s.l.w.data.length = 8 * c.bytes)
    {rng : Nat → Nat × Nat} {u : Unix} {r : Except Err Unit} (hr : s.logUnix crc rng u = (r, s')) (hp : r ≠ .error .panic) :
    (r = .ok () ∧ s'.l.w.data.length = 8 * c.bytes ∧ ∃ ks', Sound crc id s' ks') ∨ (r = .error .deviceFull ∧ FirstFail crc c id s') := by
  unfold St.logUnix at hr
  split at hr
  · injection hr with h1 h2; subst h1 h2; exact .inl ⟨rfl, hd, ks, h.congr _ rfl⟩
  · split at hr
    · next w1 e1 =>
      split at hr
      · next w2 e2 =>
        obtain ⟨a1, a2, _⟩ := write_strict (strict_hdr 2) e1
        obtain ⟨b1, b2, b3⟩ := write_strict strict_unix e2
        obtain ⟨⟨r0, s0⟩, he⟩ : ∃ q, St.drain crc rng { s with l := { s.l with w := w2 } } = q := ⟨_, rfl⟩
        rw [he] at hr
        by_cases hpa : r0 = .error .panic
        · rw [hpa] at hr; simp only at hr; injection hr with h1 _; exact absurd h1.symm hp
        · rcases (h.congr { s.l with w := w2 } rfl).drain he hpa with ⟨g1, ks', g2⟩ | ⟨g1, g2, g3, g4⟩
          · rw [g1] at hr he
            simp only at hr
            injection hr with h1 h2; subst h1 h2
            have := drain_length he
            refine .inl ⟨rfl, ?_, ks', g2.congr _ rfl⟩
            show s0.l.w.data.length = _
            rw [this]; show w2.data.length = _; omega
          · rw [g1] at hr
            simp only at hr
            injection hr with h1 h2; subst h1 h2
            exact .inr ⟨rfl, g4, g3, by rw [g2]; exact b3, by rw [g2]; show w2.data.length = _; omega, by rw [g2]; exact h.bound⟩
      · injection hr with h1 _; exact absurd h1.symm hp
    · injection hr with h1 _; exact absurd h1.symm hp

theorem first_log {crc : Bytes → UInt32} {c : Cfg TS TD D DD} (hs : StrictCfg c) {id : Nat} {s s' : St TS D} {ks : List Known} (h : Sound crc id s ks)
    (hd : s.l.w.data.length = 8 * c.bytes) {rng1 rng2 : Nat → Nat × Nat} {t : TS} {v : D} {e : Err} (hr : s.log crc c rng1 rng2 t v = (.error e, s')) (hp : e ≠ .panic) :
    e = .deviceFull ∧ FirstFail crc c id s' := by
  unfold St.log at hr
  split at hr
  · injection hr with h1 _; exact absurd h1 (by simp)
  · have rd : ∀ s0 : St TS D, (∃ ks', Sound crc id s0 ks') → s0.l.w.data.length = 8 * c.bytes →
        (match s0.l.writeReading c t v with
          | some l =>
            match St.drain crc rng2 { s0 with l := l } with
            | (.ok (), s) => ((.ok true, { s with l := { s.l with lastUnix := false } }) : Except Err Bool × St TS D)
            | (.error e, s) => (.error e, s)
          | none => (.error .panic, s0)) = (.error e, s') → e = .deviceFull ∧ FirstFail crc c id s' := by
      rintro s0 ⟨ks', k1⟩ k2 hq
      split at hq
      · next l hw =>
        have g := writeReading_grown hs hw
        obtain ⟨⟨r0, s1⟩, he⟩ : ∃ q, St.drain crc rng2 { s0 with l := l } = q := ⟨_, rfl⟩
        rw [he] at hq
        by_cases hpa : r0 = .error .panic
        · rw [hpa] at hq; simp only at hq; injection hq with h1 _; injection h1 with h1; exact absurd h1.symm hp
        · rcases (k1.congr l g.sink).drain he hpa with ⟨g1, _⟩ | ⟨g1, g2, g3, g4⟩
          · rw [g1] at hq; simp only at hq; injection hq with h1 _; exact absurd h1 (by simp)
          · rw [g1] at hq
            simp only at hq
            injection hq with h1 h2; injection h1 with h1; subst h1 h2
            exact ⟨rfl, g4, g3, by rw [g2]; exact g.fits, by rw [g2]; exact g.data.trans k2, by rw [g2, g.sink]; exact k1.bound⟩
      · injection hq with h1 _; injection h1 with h1; exact absurd h1.symm hp
    obtain ⟨re, hre⟩ : ∃ re, s.emitBuffered crc rng1 = re := ⟨_, rfl⟩
    have hre' := hre
    unfold St.emitBuffered at hre
    split at hre
    · next u hu =>
      obtain ⟨r0, s0⟩ := re
      by_cases hpa : r0 = .error .panic
      · rw [hre', hpa] at hr; simp only at hr; injection hr with h1 _; injection h1 with h1; exact absurd h1.symm hp
      · rcases first_unix (c := c) (h.congr { s.l with unixBuf := none } rfl) hd hre hpa with ⟨k1, k2, k3⟩ | ⟨k1, k2⟩
        · rw [hre', k1] at hr
          exact rd s0 k3 k2 hr
        · rw [hre', k1] at hr
          simp only at hr
          injection hr with h1 h2; injection h1 with h1; subst h1 h2
          exact ⟨rfl, k2⟩
    · rw [hre', ← hre] at hr
      exact rd s ⟨ks, h⟩ hd hr

/-- all the calls that follow -/
theorem tries_inv {crc : Bytes → UInt32} {c : Cfg TS TD D DD} (hs : StrictCfg c) {id : Nat} {s s' : St TS D} {ks ks' : List Known} {n : Nat} (h : Tries crc c id s ks n s' ks')
    (h0 : Stuck crc id s ks) (hb : 8 ≤ s.l.w.len) (hf : s.l.w.len ≤ s.l.w.data.length) :
    Stuck crc id s' ks' ∧ s.l.w.len + n * leastEntry c ≤ s'.l.w.len ∧ s'.l.w.len ≤ s'.l.w.data.length ∧ s'.l.w.data.length = s.l.w.data.length ∧ s'.w = s.w ∧
      s'.l.sink = s.l.sink := by
  induction h with
  | nil => exact ⟨h0, by omega, hf, rfl, rfl, rfl⟩
  | log rng1 rng2 t v h hl hp hr ih =>
    obtain ⟨i1, i2, i3, i4, i5, i6⟩ := ih
    obtain ⟨a1, a2, a3⟩ := stuck_log hs i1 (by omega) hl hp
    rcases a3 with ⟨a3, _⟩ | ⟨_, g⟩
    · exact absurd a3 hr
    · refine ⟨⟨by rw [a2]; exact i1.hist, by rw [a1]; exact i1.file, by rw [a1]; exact i1.filled, by rw [a2]; exact i1.full⟩, ?_, g.fits, g.data.trans i4, a1.trans i5, g.sink.trans i6⟩
      have := g.len
      rw [Nat.succ_mul]; omega
  | early rng1 rng2 t v h hl ih =>
    obtain ⟨i1, i2, i3, i4, i5, i6⟩ := ih
    obtain ⟨a1, a2, a3⟩ := stuck_log hs i1 (by omega) hl (by simp)
    rcases a3 with ⟨_, a3⟩ | ⟨a3, _⟩
    · subst a3; exact ⟨i1, i2, i3, i4, i5, i6⟩
    · exact absurd a3 (by simp)
  | unix rng u h hl hp ih =>
    obtain ⟨i1, i2, i3, i4, i5, i6⟩ := ih
    obtain ⟨a1, a2, a3⟩ := stuck_unix (c := c) i1 (by omega) hl hp
    refine ⟨⟨by rw [a2]; exact i1.hist, by rw [a1]; exact i1.file, by rw [a1]; exact i1.filled, by rw [a2]; exact i1.full⟩, ?_⟩
    rcases a3 with ⟨_, a3, a4, _⟩ | ⟨_, g⟩
    · rw [a3]; exact ⟨i2, i3, i4, a1.trans i5, a4.trans i6⟩
    · have := g.len
      exact ⟨by omega, g.fits, g.data.trans i4, a1.trans i5, g.sink.trans i6⟩
  | flush rng r1 r2 h hl hp ih =>
    obtain ⟨i1, i2, i3, i4, i5, i6⟩ := ih
    obtain ⟨a1, a2, a3, g⟩ := stuck_flush (c := c) i1 hl hp
    have := g.len
    exact ⟨⟨by rw [a2]; exact i1.hist, by rw [a1]; exact i1.file, by rw [a1]; exact i1.filled, by rw [a2]; exact i1.full⟩, by omega, g.fits, g.data.trans i4, a1.trans i5,
      g.sink.trans i6⟩
  | other h hst hkeep hfull ih =>
    obtain ⟨i1, i2, i3, i4, i5, i6⟩ := ih
    obtain ⟨k, hk, hid, hw⟩ := i1.file
    exact ⟨⟨i1.hist.step hst, ⟨k, hkeep k hk hid, hid, hw⟩, i1.filled, hfull⟩, i2, i3, i4, i5, i6⟩

/-! ### how much has been produced -/

/-- all the bits a logger has produced -/
def produced (l : Logger TS D) : Nat := 8 * l.sink.length + l.w.len

theorem writeAll_l {crc : Bytes → UInt32} {s s' : St TS D} {rng : Nat → Nat × Nat} {d : Bytes} {r : Except Err Unit} (h : s.writeAll crc rng d = (r, s')) :
    (r = .ok () ∧ s'.l = { s.l with sink := s.l.sink ++ d }) ∨ (r ≠ .ok () ∧ s'.l = s.l) := by
  unfold St.writeAll at h
  split at h
  · next hd => injection h with h1 h2; subst h1 h2 hd; exact .inl ⟨rfl, by simp⟩
  · split at h
    · injection h with h1 h2; subst h1 h2; exact .inl ⟨rfl, rfl⟩
    · injection h with h1 h2; subst h1 h2; exact .inr ⟨by simp, rfl⟩

theorem drain_produced {crc : Bytes → UInt32} {s s' : St TS D} {rng : Nat → Nat × Nat} {r : Except Err Unit} (h : s.drain crc rng = (r, s')) (hp : r ≠ .error .panic) :
    produced s'.l = produced s.l := by
  unfold St.drain at h
  obtain ⟨⟨r0, s0⟩, he⟩ : ∃ q, s.writeAll crc rng s.l.w.fullBytes = q := ⟨_, rfl⟩
  rw [he] at h
  rcases writeAll_l he with ⟨g1, g2⟩ | ⟨g1, g2⟩
  · rw [g1] at h
    simp only at h
    split at h
    · next w hc =>
      injection h with h1 h2; subst h2
      have hl : w.len = s.l.w.len % 8 := by
        rw [g2] at hc
        unfold Writer.clearFull at hc
        simp only at hc
        split at hc
        · exact absurd hc (by simp)
        · injection hc with hc; rw [← hc]
      have hs : s0.l.sink.length = s.l.sink.length + s.l.w.len / 8 := by
        rw [g2]; simp only [List.length_append]
        have : ∀ n (b : List Bool), (bitsBytes n b).length = n := by
          intro n
          induction n with
          | zero => intro b; rfl
          | succ n ih => intro b; rw [bitsBytes, List.length_cons, ih]
        rw [Writer.fullBytes, this]
      show 8 * s0.l.sink.length + w.len = 8 * s.l.sink.length + s.l.w.len
      omega
    · injection h with h1 _; exact absurd h1.symm hp
  · cases r0 with
    | ok x => exact absurd rfl g1
    | error e => simp only at h; injection h with h1 h2; subst h2; rw [g2]

theorem logUnix_produced {crc : Bytes → UInt32} {s s' : St TS D} {rng : Nat → Nat × Nat} {u : Unix} {r : Except Err Unit} (h : s.logUnix crc rng u = (r, s')) (hp : r ≠ .error .panic) :
    produced s.l ≤ produced s'.l ∧ (r ≠ .ok () → produced s.l + 130 ≤ produced s'.l) := by
  unfold St.logUnix at h
  split at h
  · injection h with h1 h2; subst h1 h2; exact ⟨Nat.le_refl _, fun x => absurd rfl x⟩
  · split at h
    · next w1 e1 =>
      split at h
      · next w2 e2 =>
        obtain ⟨a1, _⟩ := write_strict (strict_hdr 2) e1
        obtain ⟨b1, _⟩ := write_strict strict_unix e2
        have e3 : (Prim.bool.arr 2).len = 2 := rfl
        have e4 : unixPrim.len = 128 := rfl
        obtain ⟨⟨r0, s0⟩, he⟩ : ∃ q, St.drain crc rng { s with l := { s.l with w := w2 } } = q := ⟨_, rfl⟩
        rw [he] at h
        have key : r0 ≠ .error .panic → produced s0.l = produced s.l + 130 := by
          intro hne
          rw [drain_produced he hne]
          show 8 * s.l.sink.length + w2.len = 8 * s.l.sink.length + s.l.w.len + 130
          omega
        cases r0 with
        | ok x =>
          cases x
          simp only at h
          injection h with h1 h2; subst h1 h2
          have := key (by simp)
          exact ⟨by show produced s.l ≤ produced s0.l; omega, fun x => absurd rfl x⟩
        | error e =>
          simp only at h
          injection h with h1 h2; subst h1 h2
          have := key hp
          exact ⟨by omega, fun _ => by omega⟩
      · injection h with h1 _; exact absurd h1.symm hp
    · injection h with h1 _; exact absurd h1.symm hp

/-- every call of `log` that is not refused adds at least the shortest entry -/
theorem log_produced {crc : Bytes → UInt32} {c : Cfg TS TD D DD} (hs : StrictCfg c) {s s' : St TS D} {rng1 rng2 : Nat → Nat × Nat} {t : TS} {v : D} {r : Except Err Bool}
    (h : s.log crc c rng1 rng2 t v = (r, s')) (hp : r ≠ .error .panic) (hr : r ≠ .ok false) : produced s.l + leastEntry c ≤ produced s'.l := by
  unfold St.log at h
  split at h
  · injection h with h1 _; exact absurd h1.symm hr
  · have rd : ∀ s0 : St TS D, produced s.l ≤ produced s0.l →
        (match s0.l.writeReading c t v with
          | some l =>
            match St.drain crc rng2 { s0 with l := l } with
            | (.ok (), s) => ((.ok true, { s with l := { s.l with lastUnix := false } }) : Except Err Bool × St TS D)
            | (.error e, s) => (.error e, s)
          | none => (.error .panic, s0)) = (r, s') → produced s.l + leastEntry c ≤ produced s'.l := by
      intro s0 k1 hq
      split at hq
      · next l hw =>
        have g := writeReading_grown hs hw
        have hg : produced s0.l + leastEntry c ≤ produced l := by
          have := g.len
          unfold produced; rw [g.sink]; omega
        obtain ⟨⟨r0, s1⟩, he⟩ : ∃ q, St.drain crc rng2 { s0 with l := l } = q := ⟨_, rfl⟩
        rw [he] at hq
        cases r0 with
        | ok x =>
          cases x
          simp only at hq
          injection hq with h1 h2; subst h1 h2
          have := drain_produced he (by simp)
          show produced s.l + _ ≤ produced s1.l
          rw [this]; show _ ≤ produced l; omega
        | error e =>
          simp only at hq
          injection hq with h1 h2; subst h1 h2
          have := drain_produced he (fun hx => hp (by injection hx with hx; rw [hx]))
          rw [this]; show _ ≤ produced l; omega
      · injection hq with h1 _; exact absurd h1.symm hp
    obtain ⟨re, hre⟩ : ∃ re, s.emitBuffered crc rng1 = re := ⟨_, rfl⟩
    have hre' := hre
    unfold St.emitBuffered at hre
    split at hre
    · next u hu =>
      obtain ⟨r0, s0⟩ := re
      rw [hre'] at h
      cases r0 with
      | ok x =>
        cases x
        exact rd s0 (logUnix_produced hre (by simp)).1 h
      | error e =>
        simp only at h
        injection h with h1 h2; subst h1 h2
        have := (logUnix_produced hre (fun hx => hp (by injection hx with hx; rw [hx]))).2 (by simp)
        have e : leastEntry c ≤ 130 := by unfold leastEntry; omega
        have e' : produced s.l + 130 ≤ produced s0.l := this
        omega
    · rw [hre', ← hre] at h
      exact rd s (Nat.le_refl _) h

end Verif.Spec
