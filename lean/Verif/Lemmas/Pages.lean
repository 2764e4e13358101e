import Verif.Model.Directory
/-
The page buffer: a stream of bytes pushed through a `PageWriter` ends up, 256 bytes per page, on the chip.
-/
namespace Verif.Vlfs
open Verif

/-- the first `n` page programs for the byte stream `S` written from address `A` -/
def pages (A : Nat) (S : Bytes) (n : Nat) : List FlashOp :=
  (List.range n).map fun i => .page (A + 256 * i) ((S.drop (256 * i)).take 256)

/-- the writer has taken in stream `S` starting at `A` -/
structure PageWriter.Inv (w : PageWriter) (A : Nat) (S : Bytes) : Prop where
  addr : w.addr = A + 256 * (S.length / 256)
  buf : w.buf = S.drop (256 * (S.length / 256))

theorem pages_succ (A : Nat) (S : Bytes) (n : Nat) :
    pages A S (n + 1) = pages A S n ++ [.page (A + 256 * n) ((S.drop (256 * n)).take 256)] := by
  simp [pages, List.range_succ]

theorem pages_length (A : Nat) (S : Bytes) (n : Nat) : (pages A S n).length = n := by simp [pages]

theorem pages_append (A : Nat) (S T : Bytes) (n : Nat) (h : 256 * n ≤ S.length) :
    pages A (S ++ T) n = pages A S n := by
  apply List.map_congr_left
  intro i hi
  rw [List.mem_range] at hi
  rw [List.drop_append_of_le_length (by omega), List.take_append_of_le_length (by rw [List.length_drop]; omega)]

theorem extendLoop_spec (fuel : Nat) : ∀ (w : PageWriter) (A : Nat) (S slice : Bytes) (dev : Dev),
    w.Inv A S → slice.length < fuel →
    (PageWriter.extendLoop fuel w dev slice).1.Inv A (S ++ slice) ∧
    ∃ os, (PageWriter.extendLoop fuel w dev slice).2 = dev.ops os ∧
      pages A S (S.length / 256) ++ os = pages A (S ++ slice) ((S ++ slice).length / 256) := by
  induction fuel with
  | zero => intro w A S slice dev h hf; omega
  | succ fuel ih =>
    intro w A S slice dev h hf
    have hbl : w.buf.length = S.length % 256 := by rw [h.buf, List.length_drop]; omega
    unfold PageWriter.extendLoop
    by_cases h0 : slice.length > 0
    · rw [if_pos h0]
      by_cases h1 : slice.length < 256 - w.buf.length
      · simp only [if_pos h1]
        have hdiv : (S ++ slice).length / 256 = S.length / 256 := by rw [List.length_append]; omega
        refine ⟨⟨?_, ?_⟩, [], (Dev.ops_nil _).symm, ?_⟩
        · rw [hdiv]; exact h.addr
        · rw [hdiv, List.drop_append_of_le_length (by omega), h.buf]
        · rw [hdiv, List.append_nil, pages_append _ _ _ _ (by omega)]
      · simp only [if_neg h1]
        have hlen : (S ++ slice.take (256 - w.buf.length)).length = 256 * (S.length / 256 + 1) := by
          rw [List.length_append, List.length_take]; omega
        have hinv : PageWriter.Inv ⟨w.addr + 256, []⟩ A (S ++ slice.take (256 - w.buf.length)) := by
          constructor
          · show w.addr + 256 = _
            rw [hlen, h.addr]; omega
          · show [] = _
            rw [List.drop_eq_nil_of_le]; omega
        have := ih ⟨w.addr + 256, []⟩ A (S ++ slice.take (256 - w.buf.length)) (slice.drop (256 - w.buf.length))
          (dev.op (.page w.addr (w.buf ++ slice.take (256 - w.buf.length)))) hinv
          (by rw [List.length_drop]; omega)
        rw [List.append_assoc, List.take_append_drop] at this
        refine ⟨this.1, ?_⟩
        obtain ⟨os, h2, h3⟩ := this.2
        refine ⟨.page w.addr (w.buf ++ slice.take (256 - w.buf.length)) :: os, ?_, ?_⟩
        · simp only [PageWriter.flush]
          rw [h2, Dev.op_eq_ops, Dev.ops_ops]; rfl
        · rw [← h3, hlen, Nat.mul_div_cancel_left _ (by decide), pages_succ, pages_append _ _ _ _ (by omega)]
          have e : ((S ++ slice.take (256 - w.buf.length)).drop (256 * (S.length / 256))).take 256
              = w.buf ++ slice.take (256 - w.buf.length) := by
            rw [List.drop_append_of_le_length (by omega), ← h.buf, List.take_of_length_le]
            rw [List.length_append, List.length_take]; omega
          rw [e, ← h.addr, List.append_assoc]; rfl
    · rw [if_neg h0]
      have : slice = [] := List.eq_nil_of_length_eq_zero (by omega)
      subst this
      rw [List.append_nil]
      exact ⟨h, [], (Dev.ops_nil _).symm, List.append_nil _⟩

theorem extend_spec {w : PageWriter} {A : Nat} {S : Bytes} (h : w.Inv A S) (dev : Dev) (slice : Bytes) :
    (w.extend dev slice).1.Inv A (S ++ slice) ∧
    ∃ os, (w.extend dev slice).2 = dev.ops os ∧
      pages A S (S.length / 256) ++ os = pages A (S ++ slice) ((S ++ slice).length / 256) :=
  extendLoop_spec _ w A S slice dev h (by omega)

theorem flush_spec {w : PageWriter} {A : Nat} {S : Bytes} (h : w.Inv A S) (dev : Dev) :
    ∃ os, (w.flush dev).2 = dev.ops os ∧
      pages A S (S.length / 256) ++ os = pages A S (S.length / 256 + 1) := by
  refine ⟨[.page w.addr w.buf], rfl, ?_⟩
  rw [pages_succ, h.addr, h.buf, List.take_of_length_le]
  rw [List.length_drop]; omega

/-- content after programming pages -/
theorem applyOps_pages (fl : Flash) (A : Nat) (S : Bytes) (n a : Nat) :
    applyOps fl (pages A S n) a =
      if A ≤ a ∧ a < A + 256 * n then fl a &&& S.getD (a - A) 0xFF else fl a := by
  induction n with
  | zero =>
    rw [if_neg (by omega)]; rfl
  | succ n ih =>
    rw [pages_succ, applyOps_append]
    show (if A + 256 * n ≤ a ∧ a < A + 256 * n + 256 then
      applyOps fl (pages A S n) a &&& ((S.drop (256 * n)).take 256).getD (a - (A + 256 * n)) 0xFF
      else applyOps fl (pages A S n) a) = _
    rw [ih]
    by_cases h1 : A + 256 * n ≤ a ∧ a < A + 256 * n + 256
    · rw [if_pos h1, if_neg (by omega), if_pos (by omega)]
      congr 1
      rw [List.getD_eq_getElem?_getD, List.getElem?_take_of_lt (by omega), List.getElem?_drop,
        List.getD_eq_getElem?_getD]
      congr 2; omega
    · rw [if_neg h1]
      by_cases h2 : A ≤ a ∧ a < A + 256 * n
      · rw [if_pos h2, if_pos (by omega)]
      · rw [if_neg h2, if_neg (by omega)]

end Verif.Vlfs
