import Verif.Lemmas.FlashFaultSys
import Verif.Lemmas.WitnessFull
import Mathlib.Tactic.IntervalCases
/-
C121: page programs that the chip refuses while a file is written.
-/
namespace Verif.Props
open Verif Verif.Vlfs Verif.Spec

/-- **C121** On a chip that refuses nothing, writing, flushing and closing are what they are in the rest of the model, in every reachable state. -/
theorem C121_accepting {crc : Bytes → UInt32} {fs : FS} {a b : List Known} {k : Known} (hr : Hist crc fs (a ++ k :: b)) {w : FileWriter} (hw : k.writer = some w)
    (ok : Nat → Bool) (hok : ∀ i, ok i = true) :
    (∀ rng slice, fs.extendWriterF crc w rng ok slice = ((fs.extendWriter crc w rng slice).1.mapError FErr.fs, (fs.extendWriter crc w rng slice).2)) ∧
    (∀ r1 r2, fs.flushWriterF crc w r1 r2 ok = ((fs.flushWriter crc w r1 r2).1.mapError FErr.fs, (fs.flushWriter crc w r1 r2).2)) ∧
    fs.closeWriterF crc w ok = .closed (fs.closeWriter crc w) := by
  obtain ⟨files, leak, hf, hs⟩ := hist_inv hr
  obtain ⟨as, f, bs, rfl, ha, rfl, hb⟩ := split_files hf
  obtain ⟨first, hfirst, hwst⟩ := hs.wst hw
  refine ⟨fun rng slice => ?_, fun r1 r2 => ?_, ?_⟩
  · unfold FS.extendWriterF
    rw [extendF_ok hwst rng ok hok (slice.length + 2) slice (by split <;> omega)]
    rfl
  · unfold FS.flushWriterF
    rw [flushF_ok _ _ _ _ _ _ _ hok]
    rfl
  · unfold FS.closeWriterF
    rw [flushToF_ok _ _ _ _ _ hok]
    rfl

/-- a new file whose writer is open: reachable -/
example (crc : Bytes → UInt32) : ∃ (fs : FS) (w : FileWriter), fs.closeWriterF crc w (fun _ => true) = .closed (fs.closeWriter crc w) := by
  obtain ⟨fs, w, hr, _⟩ := demo_open crc
  exact ⟨fs, w, (C121_accepting (a := []) (b := []) hr rfl (fun _ => true) (fun _ => rfl)).2.2⟩

/-- the file `k` with content `c` and the other files, after its writer was closed: what can be read -/
def ReadBack (crc : Bytes → UInt32) (fs' : FS) (a b : List Known) (k : Known) (c : Bytes) : Prop :=
  fs'.at'.opened.length < 32 → (k.id ∉ fs'.at'.opened → ReadsAs crc fs' k.id c) ∧
    ∀ k' ∈ a ++ b, k'.writer = none → k'.damaged = false → k'.maybe = [] → k'.id ∉ fs'.at'.opened → ReadsAs crc fs' k'.id k'.data

theorem readBack_of {crc : Bytes → UInt32} {fs' : FS} {a b : List Known} {k k2 : Known} {c : Bytes} (h : SysInv crc fs' (a ++ k2 :: b)) (hid : k2.id = k.id) (hd : k2.data = c) (hw : k2.writer = none)
    (hdm : k2.damaged = false) (hm : k2.maybe = []) : ReadBack crc fs' a b k c := by
  intro hlen
  have one : ∀ k' ∈ a ++ k2 :: b, k'.writer = none → k'.damaged = false → k'.maybe = [] → k'.id ∉ fs'.at'.opened → ReadsAs crc fs' k'.id k'.data := by
    intro k' hk' h1 h2 h3 h4
    obtain ⟨pre, p1, _, p2⟩ := h.closed hk' h1 h2
    rw [h3, List.prefix_nil] at p1
    subst p1
    rw [List.append_nil] at p2
    exact p2 h4 hlen
  refine ⟨fun hno => ?_, fun k' hk' => one k' ?_⟩
  · have := one k2 (by simp) hw hdm hm (by rw [hid]; exact hno)
    rwa [hid, hd] at this
  · rcases List.mem_append.mp hk' with h | h
    · exact List.mem_append_left _ h
    · exact List.mem_append_right _ (List.mem_cons_of_mem _ h)

theorem close_accepted (crc : Bytes → UInt32) (fs : FS) (w : FileWriter) : fs.closeWriterF crc w (fun _ => true) = .closed (fs.closeWriter crc w) := by
  unfold FS.closeWriterF
  rw [flushToF_ok _ _ _ _ _ (fun _ => rfl)]
  rfl

theorem close_virtual {crc : Bytes → UInt32} {fsF fs2 : FS} {wF w2 : FileWriter} (h1 : fs2.at' = fsF.at') (h2 : fs2.mng = fsF.mng) (h3 : wF.id = w2.id)
    (h4 : ∀ next, wF.flushTo crc next fsF.dev = w2.flushTo crc next fs2.dev) : fsF.closeWriter crc wF = fs2.closeWriter crc w2 := by
  unfold FS.closeWriter FileWriter.close
  rw [h4, h3, ← h1, ← h2]

/-- **C121** In every reachable state: a write fails because the chip refused a page program; then the writer is closed, with a chip that accepts. The file reads as what it was before, followed by some first
part of the bytes of the failed write: nothing that was written before is lost, nothing is out of order. Other files are as before. -/
theorem C121_write_refused_close {crc : Bytes → UInt32} {fs fsF : FS} {a b : List Known} {k : Known} (hr : Hist crc fs (a ++ k :: b)) {w wF : FileWriter} (hw : k.writer = some w)
    (hm : k.maybe = []) {rng : Nat → Nat × Nat} {ok : Nat → Bool} {slice : Bytes} (hx : fs.extendWriterF crc w rng ok slice = (.error .flash, wF, fsF)) :
    ∃ p fs', p <+: slice ∧ fsF.closeWriterF crc wF (fun _ => true) = .closed fs' ∧ ReadBack crc fs' a b k (k.data ++ p) := by
  have hinv := hist_inv hr
  have hdm := hinv.whole (k := k) (by simp) hw
  obtain ⟨p, w2, fs2, h1, h0, h2, h3⟩ := refused_write hinv hw hm hx
  refine ⟨p, fs2.closeWriter crc w2, h1, ?_, ?_⟩
  · rw [close_accepted, close_virtual h3.dir h3.mng h3.id h3.ends]
  · exact readBack_of (step_close h3.sys rfl rfl) rfl rfl rfl hdm hm

/-- 252 bytes: one page -/
def onePage : Bytes := List.replicate 252 7

/-- a new file, 252 bytes written, and the chip refuses the page: reachable -/
theorem demo_refused (crc : Bytes → UInt32) : ∃ fs w, Hist crc fs [⟨1, 5, [], [], [], some w, true, false⟩] ∧ w.len = 0 ∧
    ∃ wF fsF, fs.extendWriterF crc w (fun _ => (0, 0)) (fun _ => false) onePage = (.error .flash, wF, fsF) ∧ wF.len = 252 := by
  obtain ⟨fs, new, hr, hop, hs, _⟩ := demo_fresh crc
  obtain ⟨first, hfirst, hwst⟩ := Sys.wst (as := []) (bs := []) hs rfl
  have hrd : Ready (FileWriter.new new 1) := hwst.ready
  have hl : onePage.length = 252 := List.length_replicate
  refine ⟨fs, FileWriter.new new 1, hr, rfl, ((FileWriter.new new 1).fill (onePage.take 252)).withCrc crc (some 252), fs, ?_, ?_⟩
  · unfold FS.extendWriterF
    have e := (loop_page crc (fun _ => (0, 0)) (fun _ => false) (onePage.length + 1) fs.mng fs.dev (slice := onePage) (n := 252) hrd (by show 0 < 3780; decide) rfl (by omega)).2
    rw [e]
    rfl
  · show 0 + (onePage.take 252).length = 252
    rw [List.length_take, hl]
    rfl

example (crc : Bytes → UInt32) : ∃ (fs fsF : FS) (wF w : FileWriter), Hist crc fs ([] ++ ⟨1, 5, [], [], [], some w, true, false⟩ :: []) ∧
    ∃ p fs', p <+: onePage ∧ fsF.closeWriterF crc wF (fun _ => true) = .closed fs' ∧ ReadBack crc fs' [] [] ⟨1, 5, [], [], [], some w, true, false⟩ ([] ++ p) := by
  obtain ⟨fs, w, hr, _, wF, fsF, h, _⟩ := demo_refused crc
  exact ⟨fs, fsF, wF, w, hr, C121_write_refused_close (a := []) (b := []) hr rfl rfl h⟩

/-- **C121 (finding)** In every reachable state: after a write that failed because the chip refused a page program, the next write (of at least one byte, with a chip that accepts) panics – only when the
refused page was the fifteenth of its sector –, or returns that the device is full, or succeeds; when it succeeds and the writer is closed, the file reads as what it was before, followed by a first part `p`
of the bytes of the failed write, followed by the bytes of the second write. So repeating the failed write stores `p` twice; and `p` is not empty, unless the writer was on the last page of its sector. -/
theorem C121_write_again {crc : Bytes → UInt32} {fs fsF : FS} {a b : List Known} {k : Known} (hr : Hist crc fs (a ++ k :: b)) {w wF : FileWriter} (hw : k.writer = some w)
    (hm : k.maybe = []) {rng : Nat → Nat × Nat} {ok : Nat → Bool} {slice : Bytes} (hx : fs.extendWriterF crc w rng ok slice = (.error .flash, wF, fsF)) :
    ∃ p, p <+: slice ∧ (p = [] → 15 * 252 ≤ w.len) ∧ ∀ rng2 slice2, 0 < slice2.length →
      (wF.len = 15 * 252 ∧ (fsF.extendWriterF crc wF rng2 (fun _ => true) slice2).1 = .error (.fs .panic)) ∨
      (fsF.extendWriterF crc wF rng2 (fun _ => true) slice2).1 = .error (.fs .deviceFull) ∨
      ∃ w3 fs3 fs', fsF.extendWriterF crc wF rng2 (fun _ => true) slice2 = (.ok (), w3, fs3) ∧ fs3.closeWriterF crc w3 (fun _ => true) = .closed fs' ∧
        ReadBack crc fs' a b k (k.data ++ p ++ slice2) := by
  have hinv := hist_inv hr
  have hdm := hinv.whole (k := k) (by simp) hw
  obtain ⟨p, w2, fs2, h1, h0, h2, h3⟩ := refused_write hinv hw hm hx
  refine ⟨p, h1, h0, fun rng2 slice2 h4 => ?_⟩
  rcases h3.again rng2 slice2 h4 with ⟨g1, g2⟩ | g | ⟨w3, fs3, g1, g2, g3⟩
  · exact .inl ⟨g1, by rw [g2]⟩
  · exact .inr (.inl g)
  · exact .inr (.inr ⟨w3, fs3, _, g1, close_accepted .., readBack_of (step_close g2 rfl rfl) rfl rfl rfl hdm hm⟩)

/-- the same write again: the first part of the page is there twice, or the device is full -/
example (crc : Bytes → UInt32) : ∃ fs w wF fsF, Hist crc fs ([] ++ ⟨1, 5, [], [], [], some w, true, false⟩ :: []) ∧
    fs.extendWriterF crc w (fun _ => (0, 0)) (fun _ => false) onePage = (.error .flash, wF, fsF) ∧ ∃ p, p <+: onePage ∧ p ≠ [] ∧
      ((fsF.extendWriterF crc wF (fun _ => (0, 0)) (fun _ => true) onePage).1 = .error (.fs .deviceFull) ∨
      ∃ w3 fs3 fs', fsF.extendWriterF crc wF (fun _ => (0, 0)) (fun _ => true) onePage = (.ok (), w3, fs3) ∧ fs3.closeWriterF crc w3 (fun _ => true) = .closed fs' ∧
        ReadBack crc fs' [] [] ⟨1, 5, [], [], [], some w, true, false⟩ ([] ++ p ++ onePage)) := by
  obtain ⟨fs, w, hr, h0, wF, fsF, h, hl⟩ := demo_refused crc
  obtain ⟨p, h1, h2, h3⟩ := C121_write_again (a := []) (b := []) hr rfl rfl h
  have hp : onePage.length = 252 := List.length_replicate
  refine ⟨fs, w, wF, fsF, hr, h, p, h1, fun e => by have := h2 e; omega, ?_⟩
  rcases h3 (fun _ => (0, 0)) onePage (by omega) with ⟨g, _⟩ | g
  · omega
  · exact g

/-- **C121** In every reachable state: a flush fails because the chip refused one of its page programs; then the writer is closed, with a chip that accepts. The file reads as what was written to it. -/
theorem C121_flush_refused_close {crc : Bytes → UInt32} {fs fsF : FS} {a b : List Known} {k : Known} (hr : Hist crc fs (a ++ k :: b)) {w wF : FileWriter} (hw : k.writer = some w)
    (hm : k.maybe = []) {r1 r2 : Nat} {ok : Nat → Bool} (hx : fs.flushWriterF crc w r1 r2 ok = (.error .flash, wF, fsF)) :
    ∃ fs', fsF.closeWriterF crc wF (fun _ => true) = .closed fs' ∧ ReadBack crc fs' a b k k.data := by
  have hinv := hist_inv hr
  have hdm := hinv.whole (k := k) (by simp) hw
  obtain ⟨files, leak, hf, hs⟩ := hinv
  obtain ⟨as, f, bs, rfl, ha, rfl, hb⟩ := split_files hf
  obtain ⟨first, hfirst, hwst⟩ := hs.wst hw
  have hq : w.flushF crc fs.mng fs.dev r1 r2 ok = (.error .flash, wF, fsF.mng, fsF.dev) := by
    have e1 := congrArg (fun r => r.1) hx
    have e2 := congrArg (fun r => r.2.1) hx
    have e3 := congrArg (fun r => r.2.2.mng) hx
    have e4 := congrArg (fun r => r.2.2.dev) hx
    exact Prod.ext e1 (Prod.ext e2 (Prod.ext e3 e4))
  have hat : fsF.at' = fs.at' := (congrArg (fun r => r.2.2.at') hx).symm
  obtain ⟨x, dev1, h1, h2, h3⟩ := flushF_refused hwst.ready hq
  rcases hs.claim r1 r2 with ⟨x', c1, c2, _⟩ | ⟨c1, _⟩
  · rw [h1] at c2
    refine ⟨_, close_accepted .., ?_⟩
    rw [close_virtual (fs2 := { fs with mng := fsF.mng, dev := dev1 }) (w2 := w) hat.symm rfl h2 h3]
    exact readBack_of (step_close (k := f.k) ⟨_, _, map_split ha hb, c2⟩ rfl hw) rfl rfl rfl hdm hm
  · rw [h1] at c1
    injection c1 with c1 _
    exact absurd c1 (by simp)

/-- a file of three bytes, flushed; the chip refuses the page -/
example (crc : Bytes → UInt32) : ∃ fs w wF fsF, Hist crc fs ([] ++ ⟨1, 5, [1, 2, 3], [], [], some w, true, false⟩ :: []) ∧ fs.flushWriterF crc w 0 0 (fun _ => false) = (.error .flash, wF, fsF) ∧
    ∃ fs', fsF.closeWriterF crc wF (fun _ => true) = .closed fs' ∧ ReadBack crc fs' [] [] ⟨1, 5, [1, 2, 3], [], [], some w, true, false⟩ [1, 2, 3] := by
  obtain ⟨fs, w, hr, _, _, hs, _⟩ := demo_open crc
  obtain ⟨first, hfirst, hwst⟩ := Sys.wst (as := []) (bs := []) hs rfl
  have hlen := hwst.winv.len
  have hl : w.len = 3 := hlen
  have ho := hwst.ready.offset
  rcases hs.claim 0 0 with ⟨x, c1, _⟩ | ⟨_, c⟩
  case inr => exact absurd c (by simp [FileSt.own])
  obtain ⟨r0, m1, dev1, hc⟩ : ∃ r m1 dev1, fs.mng.claim 0 0 fs.dev = (r, m1, dev1) := ⟨_, _, _, rfl⟩
  rw [hc] at c1
  dsimp only at c1
  subst c1
  have hx : ∃ wF fsF, fs.flushWriterF crc w 0 0 (fun _ => false) = (.error .flash, wF, fsF) := by
    unfold FS.flushWriterF FileWriter.flushF
    rw [if_neg (by omega), hc]
    dsimp only
    unfold FileWriter.flushToF
    have n5 : w.isLastDataPage = false := by show decide (w.len > 252 * 15) = false; rw [hl]; decide
    rw [if_neg (by omega), n5, if_neg (by decide), if_pos (by omega), writePageF_refused]
    exact ⟨_, _, rfl⟩
  obtain ⟨wF, fsF, hx⟩ := hx
  exact ⟨fs, w, wF, fsF, hr, hx, C121_flush_refused_close (a := []) (b := []) hr rfl rfl hx⟩

/-- **C121 (finding)** Closing a writer does not return the error: when the chip refuses the pages, it panics. It panics only then. -/
theorem C121_close_panics (crc : Bytes → UInt32) (fs : FS) (w : FileWriter) (ok : Nat → Bool) :
    ((∀ i, ok i = false) → fs.closeWriterF crc w ok = .panics) ∧ (fs.closeWriterF crc w ok = .panics → ∃ i, ok i = false) := by
  constructor
  · intro h
    unfold FS.closeWriterF FileWriter.flushToF
    rw [h 0, h 1]
    by_cases h0 : w.len = 0
    · rw [if_pos h0, writePageF_refused]
    · rw [if_neg h0]
      by_cases h1 : w.isLastDataPage = true
      · rw [if_pos h1, writePageF_refused]
      · rw [if_neg h1]
        by_cases h2 : w.offset > 0
        · rw [if_pos h2, writePageF_refused]
        · rw [if_neg h2]
          dsimp only
          rw [writePageF_refused]
  · intro h
    apply Classical.byContradiction
    intro hn
    have hok : ∀ i, ok i = true := fun i => by
      cases hi : ok i
      · exact absurd ⟨i, hi⟩ hn
      · rfl
    unfold FS.closeWriterF at h
    rw [flushToF_ok _ _ _ _ _ hok] at h
    exact absurd h (by simp)

example (crc : Bytes → UInt32) : ∃ fs w, Hist crc fs [⟨1, 5, [1, 2, 3], [], [], some w, true, false⟩] ∧ fs.closeWriterF crc w (fun _ => false) = .panics := by
  obtain ⟨fs, w, hr, _⟩ := demo_open crc
  exact ⟨fs, w, hr, (C121_close_panics crc fs w _).1 (fun _ => rfl)⟩

/-! ### the panic -/

/-- the length a writer counts, as long as the sector is not on its last page -/
theorem extendLoop_len (crc : Bytes → UInt32) (rng : Nat → Nat × Nat) : ∀ (fuel : Nat) (w : FileWriter) (m : SectorsMng) (dev : Dev) (slice : Bytes), Ready w → w.len + slice.length < 3780 →
    slice.length + 1 ≤ fuel → (w.extendLoop crc rng fuel m dev slice).1 = .ok () ∧ (w.extendLoop crc rng fuel m dev slice).2.1.len = w.len + slice.length ∧
      Ready (w.extendLoop crc rng fuel m dev slice).2.1 := by
  intro fuel
  induction fuel with
  | zero => intro _ _ _ _ _ _ h; omega
  | succ fuel ih =>
    intro w m dev slice hw hl hf
    have ho := hw.offset
    by_cases h0 : 0 < slice.length
    · by_cases hfit : slice.length < 252 - w.len % 252
      · obtain ⟨e, _⟩ := loop_fit crc rng (fun _ => true) fuel m dev hw h0 (by rw [if_neg (by omega)]; exact hfit)
        rw [e]
        refine ⟨rfl, rfl, ?_, ?_, fill_length hw (by omega)⟩
        · show w.len + slice.length ≤ 4016; omega
        · show w.offset + slice.length = (w.len + slice.length) % 252; omega
      · generalize hn : 252 - w.len % 252 = n at hfit
        obtain ⟨e, _⟩ := loop_page crc rng (fun _ => true) fuel m dev (slice := slice) hw (by omega) hn.symm (by omega)
        have htl : (slice.take n).length = n := by rw [List.length_take]; omega
        rw [e]
        have hl1 : ({ w.fill (slice.take n) with buffer := blankPage, offset := 0 } : FileWriter).len = w.len + n := by show w.len + (slice.take n).length = _; omega
        obtain ⟨g0, g1, g2⟩ := ih { w.fill (slice.take n) with buffer := blankPage, offset := 0 } m (dev.ops [pageOp crc (w.fill (slice.take n))]) (slice.drop n)
          ⟨by rw [hl1]; omega, by show 0 = _; rw [hl1]; omega, List.length_replicate⟩ (by rw [hl1, List.length_drop]; omega) (by rw [List.length_drop]; omega)
        refine ⟨g0, ?_, g2⟩
        rw [g1, hl1, List.length_drop]; omega
    · have : slice = [] := List.eq_nil_of_length_eq_zero (by omega)
      subst this
      rw [extendLoop_zero]
      exact ⟨rfl, rfl, hw⟩

/-- **C121 (finding)** A file that was just created, or just flushed (the writer has nothing in its current sector): 3779 bytes are written, and then one more byte, which completes the fifteenth page; the chip
refuses that page. Every further write of at least one byte panics, even though the chip accepts everything from now on. -/
theorem C121_next_write_panics {crc : Bytes → UInt32} {fs : FS} {a b : List Known} {k : Known} (hr : Hist crc fs (a ++ k :: b)) {w : FileWriter} (hw : k.writer = some w) (hl : w.len = 0)
    (rng rng2 rng3 : Nat → Nat × Nat) (slice : Bytes) (hs : slice.length = 3779) (c : UInt8) :
    ∃ w1 fs1, fs.extendWriterF crc w rng (fun _ => true) slice = (.ok (), w1, fs1) ∧ ∃ w2 fs2, fs1.extendWriterF crc w1 rng2 (fun _ => false) [c] = (.error .flash, w2, fs2) ∧
      ∀ slice3, 0 < slice3.length → (fs2.extendWriterF crc w2 rng3 (fun _ => true) slice3).1 = .error (.fs .panic) := by
  obtain ⟨files, leak, hf, hsys⟩ := hist_inv hr
  obtain ⟨as, f, bs, rfl, ha, rfl, hb⟩ := split_files hf
  obtain ⟨first, hfirst, hwst⟩ := hsys.wst hw
  have hrd := hwst.ready
  obtain ⟨l0, l1, l2⟩ := extendLoop_len crc rng (slice.length + 2) w fs.mng fs.dev slice hrd (by omega) (by omega)
  have e1 := extendF_ok hwst rng (fun _ => true) (fun _ => rfl) (slice.length + 2) slice (by split <;> omega)
  generalize w.extendLoop crc rng (slice.length + 2) fs.mng fs.dev slice = r at l0 l1 l2 e1
  obtain ⟨r0, w1, m1, dev1⟩ := r
  dsimp only at l0 l1 l2 e1
  subst l0
  refine ⟨w1, { fs with mng := m1, dev := dev1 }, ?_, ?_⟩
  · unfold FS.extendWriterF
    rw [e1]; rfl
  · have hl1 : w1.len = 3779 := by omega
    obtain ⟨q0, e2⟩ := loop_page crc rng2 (fun _ => false) 2 m1 dev1 (slice := [c]) (n := 1) l2 (by omega) (by omega) (by simp)
    refine ⟨(w1.fill [c]).withCrc crc (some 252), { fs with mng := m1, dev := dev1 }, ?_, ?_⟩
    · unfold FS.extendWriterF
      show (let r := w1.extendLoopF crc rng2 (fun _ => false) (2 + 1) m1 dev1 [c]; (r.1, r.2.1, ({ fs with mng := r.2.2.1, dev := r.2.2.2 } : FS))) = _
      rw [e2]; rfl
    · intro slice3 h3
      have ho := l2.offset
      have hst : StuckPage crc ((w1.fill [c]).withCrc crc (some 252)) dev1 { w1.fill [c] with buffer := blankPage, offset := 0 } (dev1.ops [pageOp crc (w1.fill [c])]) :=
        ⟨w1.fill [c], fill_length l2 (by simp; omega), by show w1.offset + 1 = 252; omega, by show 0 < w1.len + 1; omega, by show w1.len + 1 ≤ _; omega, rfl, rfl, rfl⟩
      obtain ⟨_, p, _⟩ := hst.again rng3 (slice3.length + 1) m1 h3
      unfold FS.extendWriterF
      show (((w1.fill [c]).withCrc crc (some 252)).extendLoopF crc rng3 (fun _ => true) (slice3.length + 1 + 1) m1 dev1 slice3).1 = _
      rw [p _ (by show w1.len + 1 = 3780; omega)]

/-- 3779 bytes: one less than fifteen pages -/
def nearlyFifteen : Bytes := List.replicate 3779 7

example (crc : Bytes → UInt32) : ∃ fs w w1 fs1 w2 fs2, Hist crc fs [⟨1, 5, [], [], [], some w, true, false⟩] ∧ fs.extendWriterF crc w (fun _ => (0, 0)) (fun _ => true) nearlyFifteen = (.ok (), w1, fs1) ∧
    fs1.extendWriterF crc w1 (fun _ => (0, 0)) (fun _ => false) [8] = (.error .flash, w2, fs2) ∧
    (fs2.extendWriterF crc w2 (fun _ => (0, 0)) (fun _ => true) [9]).1 = .error (.fs .panic) := by
  obtain ⟨fs, new, hr, _⟩ := demo_fresh crc
  obtain ⟨w1, fs1, h1, w2, fs2, h2, h3⟩ := C121_next_write_panics (a := []) (b := []) hr rfl rfl (fun _ => (0, 0)) (fun _ => (0, 0)) (fun _ => (0, 0)) nearlyFifteen List.length_replicate 8
  exact ⟨fs, _, w1, fs1, w2, fs2, hr, h1, h2, h3 [9] (by simp)⟩

/-! ### a page programmed twice -/

theorem page_getD (a : Nat) (d : Bytes) (fl : Flash) (i : Nat) (h : i < 256) : FlashOp.apply fl (.page a d) (a + i) = fl (a + i) &&& d.getD i 0xFF := by
  show (if a ≤ a + i ∧ a + i < a + 256 then _ else _) = _
  rw [if_pos ⟨by omega, by omega⟩, show a + i - a = i by omega]

theorem page_other (a x : Nat) (d : Bytes) (fl : Flash) (h : x < a ∨ a + 256 ≤ x) : FlashOp.apply fl (.page a d) x = fl x := by
  show (if a ≤ x ∧ x < a + 256 then _ else _) = _
  rw [if_neg (by omega)]

theorem read_cons (fl : Flash) (a i : Nat) : fl.read a (i + 1) = fl a :: (List.range i).map (fun x => fl (a + (x + 1))) := by
  unfold Flash.read
  rw [List.range_succ_eq_map, List.map_cons, List.map_map, Nat.add_zero]
  rfl

/-- what a file starts with, when its first sector starts with `c`: not with another byte -/
theorem not_reads_first {crc : Bytes → UInt32} {fl : Flash} {s id : Nat} (hm : mostCommonU16 (fl.read (s * 4096 + 4088) 8) = some 0xFFFF) (c : UInt8) (t : Bytes) (hc : fl (s * 4096) ≠ c) :
    ¬ ∀ ns, reads crc fl (FileReader.new (some s) id) ns = (consumes ((c :: t).map .byte) ns).map .ok := by
  intro h
  have hch : Chain fl (some s) [s] := .cons s 0xFFFF [] (by rw [show s * 4096 + 4096 - 8 = s * 4096 + 4088 by omega]; exact hm) (by rw [if_pos rfl]; exact .nil)
  have h1 := h [1]
  rw [reads_deliver_stream crc fl (some s) [s] hch (by simp) id [1]] at h1
  have h1 : consume (fileItems crc fl [s]) 1 = consume (fileItems crc fl [s]) 1 ∧ ((consume (fileItems crc fl [s]) 1).1, (consume (fileItems crc fl [s]) 1).2.1) = ([c], ReadStatus.ok) := by
    refine ⟨rfl, ?_⟩
    simp only [consumes, List.map_cons, List.map_nil] at h1
    injection h1 with h1 _
    injection h1 with h1
    rw [h1]
    simp [consume]
  have h1 := h1.2
  have hi : fileItems crc fl [s] = sectorItems crc fl s := by simp [fileItems]
  rw [hi] at h1
  unfold sectorItems at h1
  generalize sectorLength fl s = n at h1
  by_cases hn : n = 0
  · subst hn
    simp [consume] at h1
  · obtain ⟨j, hj⟩ : ∃ j, (n + 251) / 252 = j + 1 := ⟨(n + 251) / 252 - 1, by omega⟩
    rw [hj, List.range_succ_eq_map, List.flatMap_cons] at h1
    unfold pageItems at h1
    simp only at h1
    split at h1
    · obtain ⟨i, hi⟩ : ∃ i, min (n - 252 * 0) 252 = i + 1 := ⟨min (n - 252 * 0) 252 - 1, by omega⟩
      rw [hi] at h1
      rw [Nat.mul_zero, Nat.add_zero, read_cons, List.map_cons, List.cons_append] at h1
      simp only [consume, Prod.mk.injEq, List.cons.injEq] at h1
      exact hc h1.1.1
    · rw [List.cons_append, List.nil_append] at h1
      simp [consume] at h1

theorem put_head (b d : Bytes) (o : Nat) (ho : 0 < o) (h : o + d.length ≤ b.length) : (put b o d).getD 0 0xFF = b.getD 0 0xFF := by
  rw [put_getD _ _ _ h, if_neg (by omega)]

theorem put_first (b : Bytes) (c : UInt8) (h : 1 ≤ b.length) : (put b 0 [c]).getD 0 0xFF = c := by
  rw [put_getD _ _ _ (by simpa using h), if_pos (by simp)]
  rfl

/-- **C121 (finding)** A new file: the byte 0x0F is written and flushed; the chip accepts the first page of the flush and refuses the second. Then the byte 0xF0 is written, with a chip that accepts, and the file is
closed. All calls but the flush succeed, and the file does not read as the two bytes: the first page was programmed twice. -/
theorem C121_flush_refused_write_corrupts (crc : Bytes → UInt32) :
    ∃ fs w, Hist crc fs [⟨1, 5, [], [], [], some w, true, false⟩] ∧
      ∃ w1 fs1, fs.extendWriterF crc w (fun _ => (0, 0)) (fun _ => true) [0x0F] = (.ok (), w1, fs1) ∧
      ∃ w2 fs2, fs1.flushWriterF crc w1 0 0 (fun i => i == 0) = (.error .flash, w2, fs2) ∧
      ∃ w3 fs3, fs2.extendWriterF crc w2 (fun _ => (0, 0)) (fun _ => true) [0xF0] = (.ok (), w3, fs3) ∧
      ∃ fs', fs3.closeWriterF crc w3 (fun _ => true) = .closed fs' ∧ (∃ r fs'', fs'.openForRead 1 = (.ok r, fs'')) ∧ ¬ ReadsAs crc fs' 1 [0x0F, 0xF0] := by
  obtain ⟨fs, new, hr, hop, hs, _⟩ := demo_fresh crc
  obtain ⟨first, hfirst, hwst⟩ := Sys.wst (as := []) (bs := []) hs rfl
  have hblank : ∀ j, j < 4096 → fs.dev.flash (new * 4096 + j) = 0xFF := fun j hj => hwst.winv.blank j (by simp) hj
  have hrd : Ready (FileWriter.new new 1) := hwst.ready
  refine ⟨fs, FileWriter.new new 1, hr, (FileWriter.new new 1).fill [0x0F], fs, ?_, ?_⟩
  · unfold FS.extendWriterF
    show (let r := (FileWriter.new new 1).extendLoopF crc (fun _ => (0, 0)) (fun _ => true) (2 + 1) fs.mng fs.dev [0x0F]; (r.1, r.2.1, ({ fs with mng := r.2.2.1, dev := r.2.2.2 } : FS))) = _
    rw [(loop_fit crc (fun _ => (0, 0)) (fun _ => true) 2 fs.mng fs.dev (slice := [0x0F]) hrd (by simp) (by rw [if_neg (by simp [FileWriter.new])]; simp [FileWriter.new])).2]
  rcases hs.claim 0 0 with ⟨x, c1, c2, c3, c4, c5, os, c6⟩ | ⟨_, c⟩
  case inr => exact absurd c (by simp [FileSt.own])
  obtain ⟨r0, m1, dev1, hc⟩ : ∃ r m1 dev1, fs.mng.claim 0 0 fs.dev = (r, m1, dev1) := ⟨_, _, _, rfl⟩
  rw [hc] at c1 c2 c5
  dsimp only at c1 c2 c5
  subst c1
  have hnew : InData new := by
    have := hwst.inv.range new (by simp [FileWriter.new])
    exact this
  have hb1 : ∀ j, j < 4096 → dev1.flash (new * 4096 + j) = 0xFF := by
    intro j hj
    rw [c5 (new * 4096 + j) (.inl (by
      have e : (new * 4096 + j) / SECTOR_SIZE = new := by show (new * 4096 + j) / 4096 = new; omega
      rw [e]; simp [FileSt.own, FileWriter.new]))]
    exact hblank j hj
  -- the first page
  obtain ⟨B1, hB1⟩ : ∃ B1, B1 = (((FileWriter.new new 1).fill [0x0F]).withCrc crc (some 4)).buffer := ⟨_, rfl⟩
  have hfl : ((FileWriter.new new 1).fill [0x0F]).buffer.length = 256 := fill_length hrd (by simp [FileWriter.new])
  have hB1h : B1.getD 0 0xFF = 0x0F := by
    rw [hB1]
    show (put ((FileWriter.new new 1).fill [0x0F]).buffer 4 _).getD 0 0xFF = 0x0F
    rw [put_head _ _ _ (by decide) (by rw [beBytes_length, hfl]; decide)]
    exact put_first _ _ (by show 1 ≤ blankPage.length; rw [show blankPage.length = 256 from List.length_replicate]; decide)
  obtain ⟨w2, hw2⟩ : ∃ w2 : FileWriter, w2 = (⟨blankPage, 0, 1, new, 1⟩ : FileWriter).writeMeta x := ⟨_, rfl⟩
  refine ⟨w2, { fs with mng := m1, dev := dev1.op (.page (new * 4096) B1) }, ?_, ?_⟩
  · unfold FS.flushWriterF FileWriter.flushF
    generalize hw1 : (FileWriter.new new 1).fill [0x0F] = w1 at hB1
    have n1 : w1.len = 1 := by rw [← hw1]; rfl
    have n2 : w1.offset = 1 := by rw [← hw1]; rfl
    have n3 : w1.sector = new := by rw [← hw1]; rfl
    have n4 : w1.id = 1 := by rw [← hw1]; rfl
    have n5 : w1.isLastDataPage = false := by show decide (w1.len > 252 * 15) = false; rw [n1]; decide
    have n6 : w1.pageAddress = new * 4096 := by
      unfold FileWriter.pageAddress
      rw [n1, n3, if_neg (by decide)]
      show new * 4096 + (1 - 1) / 252 * 256 = new * 4096
      omega
    have n7 : w1.writePage crc (new * 4096) (some 4) dev1 = (⟨blankPage, 0, 1, new, 1⟩, dev1.op (.page (new * 4096) B1)) := by
      have hw : ({ w1 with buffer := blankPage, offset := 0 } : FileWriter) = ⟨blankPage, 0, 1, new, 1⟩ := by rw [← hw1]; rfl
      rw [hB1, ← hw]; rfl
    rw [if_neg (by omega), hc]
    dsimp only
    unfold FileWriter.flushToF
    rw [if_neg (by omega), n5, if_neg (by decide), n6, n2, if_pos (by decide)]
    have o0 : ((fun i : Nat => i == 0) 0) = true := rfl
    have o1 : ((fun i : Nat => i == 0) 1) = false := rfl
    rw [o0, o1, writePageF_ok, show (1 + 3) / 4 * 4 = 4 from rfl, n7]
    dsimp only
    rw [writePageF_refused, hw2]
    rfl
  have hw2b : w2.buffer.length = 256 := by rw [hw2]; exact writeMeta_length _ x List.length_replicate
  have hw2o : w2.offset = 0 := by rw [hw2]; rfl
  have hw2l : w2.len = 1 := by rw [hw2]; rfl
  have hw2s : w2.sector = new := by rw [hw2]; rfl
  have hw2i : w2.id = 1 := by rw [hw2]; rfl
  refine ⟨w2.fill [0xF0], { fs with mng := m1, dev := dev1.op (.page (new * 4096) B1) }, ?_, ?_⟩
  · unfold FS.extendWriterF
    show (let r := w2.extendLoopF crc (fun _ => (0, 0)) (fun _ => true) (2 + 1) m1 (dev1.op (.page (new * 4096) B1)) [0xF0]; (r.1, r.2.1, ({ fs with mng := r.2.2.1, dev := r.2.2.2 } : FS))) = _
    rw [FileWriter.extendLoopF, if_pos (by simp)]
    simp only [willBeLast_false (w := w2) (by omega), hw2o, Bool.false_eq_true, if_false]
    rw [if_neg (by decide), if_pos (by simp)]
    unfold FileWriter.fill
    rw [hw2o]
  refine ⟨_, close_accepted .., ?_⟩
  -- the second time
  generalize hw3 : w2.fill [0xF0] = w3
  have k1 : w3.len = 2 := by rw [← hw3]; show w2.len + 1 = 2; omega
  have k2 : w3.offset = 1 := by rw [← hw3]; show w2.offset + 1 = 1; omega
  have k3 : w3.sector = new := by rw [← hw3]; exact hw2s
  have k4 : w3.buffer.length = 256 := by rw [← hw3]; show (put w2.buffer w2.offset [0xF0]).length = 256; rw [hw2o, put_length _ _ _ (by simp; omega), hw2b]
  have k5 : w3.buffer.getD 0 0xFF = 0xF0 := by rw [← hw3]; show (put w2.buffer w2.offset [0xF0]).getD 0 0xFF = 0xF0; rw [hw2o]; exact put_first _ _ (by omega)
  have k6 : w3.id = 1 := by rw [← hw3]; exact hw2i
  obtain ⟨B2, hB2⟩ : ∃ B2, B2 = (w3.withCrc crc (some 4)).buffer := ⟨_, rfl⟩
  have hB2h : B2.getD 0 0xFF = 0xF0 := by
    rw [hB2]
    show (put w3.buffer 4 _).getD 0 0xFF = _
    rw [put_head _ _ _ (by decide) (by rw [beBytes_length, k4]; decide), k5]
  obtain ⟨B3, hB3⟩ : ∃ B3, B3 = ((⟨blankPage, 0, 2, new, w3.id⟩ : FileWriter).writeMeta 0xFFFF).buffer := ⟨_, rfl⟩
  have hB3n : ∀ i, i < 8 → B3.getD (248 + i) 0xFF = 0xFF := by
    intro i hi
    rw [hB3]
    show (put (put blankPage 240 (u16x4 2)) 248 (u16x4 0xFFFF)).getD (248 + i) 0xFF = 0xFF
    have hl : (put blankPage 240 (u16x4 2)).length = 256 := by
      have hbp : blankPage.length = 256 := List.length_replicate
      rw [put_length _ _ _ (by rw [u16x4_length, hbp]; decide), hbp]
    rw [put_getD _ _ _ (by rw [u16x4_length, hl]), if_pos (by rw [u16x4_length]; omega), Nat.add_sub_cancel_left]
    interval_cases i <;> rfl
  have hclose : (w3.close crc (dev1.op (.page (new * 4096) B1))) = ((dev1.op (.page (new * 4096) B1)).op (.page (new * 4096) B2)).op (.page (new * 4096 + 3840) B3) := by
    unfold FileWriter.close FileWriter.flushTo
    have q : w3.isLastDataPage = false := by show decide (w3.len > 252 * 15) = false; rw [k1]; decide
    have qa : w3.pageAddress = new * 4096 := by
      unfold FileWriter.pageAddress
      rw [k1, k3, if_neg (by decide)]
      show new * 4096 + (2 - 1) / 252 * 256 = new * 4096
      omega
    rw [if_neg (by omega)]
    simp only [q, k2, Bool.false_eq_true, if_false]
    rw [if_pos (by decide), qa, k3, hB2, hB3, ← k1, ← k3]
    rfl
  have hfs' : FS.closeWriter crc { fs with mng := m1, dev := dev1.op (.page (new * 4096) B1) } w3 =
      FS.markClosed { fs with mng := m1, dev := ((dev1.op (.page (new * 4096) B1)).op (.page (new * 4096) B2)).op (.page (new * 4096 + 3840) B3) } 1 := by
    unfold FS.closeWriter
    rw [hclose, k6]
  rw [hfs']
  generalize hdv : ((dev1.op (.page (new * 4096) B1)).op (.page (new * 4096) B2)).op (.page (new * 4096 + 3840) B3) = dev4
  have hfl4 : dev4.flash = FlashOp.apply (FlashOp.apply (FlashOp.apply dev1.flash (.page (new * 4096) B1)) (.page (new * 4096) B2)) (.page (new * 4096 + 3840) B3) := by rw [← hdv]; rfl
  have hfirst0 : dev4.flash (new * 4096) = 0 := by
    have e0 := hb1 0 (by decide)
    rw [Nat.add_zero] at e0
    have g1 := page_getD (new * 4096) B1 dev1.flash 0 (by decide)
    have g2 := page_getD (new * 4096) B2 (FlashOp.apply dev1.flash (.page (new * 4096) B1)) 0 (by decide)
    rw [Nat.add_zero] at g1 g2
    rw [hfl4, page_other _ _ _ _ (.inl (by omega)), g2, g1, e0, hB1h, hB2h]
    rfl
  have hnext : ∀ i, i < 8 → dev4.flash (new * 4096 + 4088 + i) = 0xFF := by
    intro i hi
    rw [hfl4, show new * 4096 + 4088 + i = (new * 4096 + 3840) + (248 + i) by omega, page_getD _ _ _ _ (by omega), page_other _ _ _ _ (.inr (by omega)), page_other _ _ _ _ (.inr (by omega)), hB3n i hi,
      show new * 4096 + 3840 + (248 + i) = new * 4096 + (4088 + i) by omega, hb1 _ (by omega)]
    rfl
  -- the directory
  obtain ⟨f1, f2, f3, f4, f5, f6⟩ := markClosed_fields { fs with mng := m1, dev := dev4 } 1
  have hnew32 : 32 ≤ new := hnew.1
  have hlow : LowEq dev1.flash dev4.flash := by
    intro a ha
    rw [hfl4, page_other _ _ _ _ (.inl (by omega)), page_other _ _ _ _ (.inl (by omega)), page_other _ _ _ _ (.inl (by omega))]
  have hreach : ReachInv (FS.markClosed { fs with mng := m1, dev := dev4 } 1) [⟨1, 5, some new⟩] [] :=
    c2.reach.data (by rw [f1]; exact hlow) f3 f4 f5 f6 (by rw [f2]; exact inv_range c2.inv)
  have hopen : (FS.markClosed { fs with mng := m1, dev := dev4 } 1).at'.opened = [] := markClosed_last (l := []) hop (by simp)
  have hread : ∃ fs'', (FS.markClosed { fs with mng := m1, dev := dev4 } 1).openForRead 1 = (.ok (FileReader.new (some new) 1), fs'') := by
    rcases findFileEntry_spec hreach.dir.holds hreach.dir.sorted hreach.dir.count 1 with ⟨j, hj, he, h1⟩ | ⟨hne, _⟩
    · have hj0 : j = 0 := by simp at hj; exact hj
      subst hj0
      unfold FS.openForRead
      rw [h1]
      simp only [List.getElem_cons_zero]
      rw [if_neg (fun hx => by have := (isOpened_iff _ _).mp hx; rw [hopen] at this; exact List.not_mem_nil this), markOpened_ok (by rw [hopen]; decide)]
      exact ⟨_, rfl⟩
    · exact absurd rfl (hne ⟨1, 5, some new⟩ (by simp))
  obtain ⟨fs'', hread⟩ := hread
  refine ⟨⟨_, fs'', hread⟩, ?_⟩
  rintro ⟨r, fs5, g1, g2⟩
  rw [hread] at g1
  injection g1 with g1 _
  injection g1 with g1
  subst g1
  rw [f1] at g2
  exact not_reads_first (mostCommon_blank hnext) 0x0F [0xF0] (by rw [hfirst0]; decide) g2

end Verif.Props
