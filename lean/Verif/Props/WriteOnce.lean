import Verif.Lemmas.WriteOnceSteps
import Verif.Lemmas.Witness
/-
C97: the file system programs a page only while it is erased, and erases only aligned blocks of the sizes the chip knows.
-/
namespace Verif.Props
open Verif Verif.Vlfs Verif.Spec

/-- operations that only program erased pages have the same effect on a chip that clears bits and on a simulation that replaces pages -/
theorem writeOnce_replace : ∀ (ops : List FlashOp) (fl : Flash), OpsOk fl ops → replaceOps fl ops = applyOps fl ops := by
  intro ops
  induction ops with
  | nil => intro fl _; rfl
  | cons o os ih =>
    intro fl ⟨h1, h2⟩
    have : replaceOp fl o = o.apply fl := by
      cases o with
      | erase a len => rfl
      | page a d =>
        obtain ⟨_, _, _, h⟩ := h1
        funext x
        show (if a ≤ x ∧ x < a + 256 then d.getD (x - a) 0xFF else fl x) = (if a ≤ x ∧ x < a + 256 then fl x &&& d.getD (x - a) 0xFF else fl x)
        split
        · rename_i hx
          have := h (x - a) (by omega)
          rw [show a + (x - a) = x by omega] at this
          rw [this, ff_and]
        · rfl
    show replaceOps (replaceOp fl o) os = applyOps (o.apply fl) os
    rw [this]
    exact ih _ h2

/-- **C97** In every reachable state, whatever call comes next (creating, removing, opening, writing, flushing, closing, rotating; successful or not): all flash operations the call issues are such that the chip
carries them out exactly – every programmed page is inside the chip, starts at a multiple of 256 and is completely erased at that moment; every erase is an aligned block of 4, 32 or 64 KiB inside the chip. The
content afterwards is what these operations leave, and a simulation that replaces pages instead of clearing bits gives the same content. -/
theorem C97_calls {crc : Bytes → UInt32} {fs fs' : FS} {ks ks' : List Known} {ops : List FlashOp} (hr : Hist crc fs ks) (hs : Step crc fs ks fs' ks') (hi : issued fs fs' ops) :
    OpsOk fs.dev.flash ops ∧ fs'.dev.flash = applyOps fs.dev.flash ops ∧ fs'.dev.flash = replaceOps fs.dev.flash ops := by
  obtain ⟨h1, h2⟩ := (step_good (hist_inv hr) hs).issued hi
  exact ⟨h1, h2, by rw [h2, writeOnce_replace _ _ h1]⟩

/-- **C97** starting on any content of the chip (also one left by a power loss) obeys the same rules -/
theorem C97_start (fl : Flash) : OpsOk fl (FS.mount fl).2.dev.log ∧ (FS.mount fl).2.dev.flash = applyOps fl (FS.mount fl).2.dev.log ∧
    (FS.mount fl).2.dev.flash = replaceOps fl (FS.mount fl).2.dev.log := by
  obtain ⟨h1, h2⟩ := (mount_good fl).issued (ops := (FS.mount fl).2.dev.log) rfl
  exact ⟨h1, h2, by rw [h2, writeOnce_replace _ _ h1]⟩

theorem writeOnce_mount {fl : Flash} {fs : FS} {r : Except Err Unit} (h : FS.mount fl = (r, fs)) : Good ⟨fl, []⟩ fs.dev := by
  have := mount_good fl
  rw [h] at this
  exact this

/-- **C97** over whole histories: in every reachable state, all flash operations issued since the last start, taken together, obey the rules, and any prefix of them (power loss between two operations) does -/
theorem C97_since_start {crc : Bytes → UInt32} {fs : FS} {ks : List Known} (hr : Hist crc fs ks) :
    ∃ fl0, OpsOk fl0 fs.dev.log ∧ fs.dev.flash = applyOps fl0 fs.dev.log ∧ fs.dev.flash = replaceOps fl0 fs.dev.log ∧ ∀ n, OpsOk fl0 (fs.dev.log.take n) := by
  have key : ∃ fl0, Good ⟨fl0, []⟩ fs.dev := by
    induction hr with
    | format fl h => exact ⟨fl, mount_good fl⟩
    | step hr hs ih => obtain ⟨fl0, g⟩ := ih; exact ⟨fl0, g.trans (step_good (hist_inv hr) hs)⟩
    | restart _ hm => exact ⟨_, writeOnce_mount hm⟩
    | loss _ _ hm => exact ⟨_, writeOnce_mount hm⟩
    | lossDir _ _ _ _ _ _ hm => exact ⟨_, writeOnce_mount hm⟩
    | lossAlloc _ _ _ _ _ _ hm => exact ⟨_, writeOnce_mount hm⟩
    | lossRotate _ _ _ _ _ _ _ _ _ _ _ _ _ _ _ hm => exact ⟨_, writeOnce_mount hm⟩
  obtain ⟨fl0, g⟩ := key
  obtain ⟨h1, h2⟩ := g.issued (ops := fs.dev.log) rfl
  refine ⟨fl0, h1, h2, by rw [h2, writeOnce_replace _ _ h1], fun n => ?_⟩
  exact (opsOk_split (b := fs.dev.log.drop n) (by rw [List.take_append_drop]; exact h1)).1

/-! ### The hypotheses can be met -/

/-- closing a writer that holds unflushed bytes programs a page -/
example (crc : Bytes → UInt32) : ∃ fs fs' ks ks' ops, Hist crc fs ks ∧ Step crc fs ks fs' ks' ∧ issued fs fs' ops ∧ ops ≠ [] := by
  obtain ⟨fs, w, h1, h2, h3, h4, h5⟩ := demo_open crc
  refine ⟨fs, fs.closeWriter crc w, _, _, (fs.closeWriter crc w).dev.log.drop fs.dev.log.length, h1, .close w [] [] _ rfl rfl, ?_, ?_⟩
  · obtain ⟨os, c, _⟩ := step_good (hist_inv h1) (.close w [] [] _ rfl rfl)
    show (fs.closeWriter crc w).dev.log = _
    rw [c]; simp [Dev.ops]
  · rw [show (fs.closeWriter crc w).dev = w.close crc fs.dev from (markClosed_fields _ _).1]
    unfold FileWriter.close FileWriter.flushTo FileWriter.writePage
    split
    · simp [Dev.op]
    · simp only
      split
      · simp [Dev.op]
      · split <;> simp [Dev.op]

/-- formatting a blank chip erases and programs -/
example : (FS.mount fun _ => 0xFF).2.dev.log ≠ [] := by
  unfold FS.mount
  simp only
  split
  · rename_i h
    exact absurd h (by decide +kernel)
  · show (writeEmptyTable (readLatest (fun _ => 0xFF) AT.default).1 ⟨_, []⟩).log ≠ []
    rw [readLatest_false _ _ (by decide +kernel)]
    decide +kernel

end Verif.Props
