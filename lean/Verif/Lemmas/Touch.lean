import Verif.Lemmas.Stored
/-
Which bytes a list of flash operations can change, also when it is interrupted.
-/
namespace Verif.Vlfs
open Verif Verif.Spec

/-- the operation may change the byte at `a` -/
def _root_.Verif.FlashOp.touches (a : Nat) : FlashOp → Prop
  | .erase addr len => addr ≤ a ∧ a < addr + len
  | .page addr _ => addr ≤ a ∧ a < addr + 256

theorem apply_untouched {fl : Flash} {o : FlashOp} {a : Nat} (h : ¬ o.touches a) : o.apply fl a = fl a := by
  cases o with
  | erase addr len => simp only [FlashOp.apply]; exact if_neg h
  | page addr d => simp only [FlashOp.apply]; exact if_neg h

theorem applyOps_untouched {os : List FlashOp} {a : Nat} : ∀ {fl : Flash}, (∀ o ∈ os, ¬ o.touches a) → applyOps fl os a = fl a := by
  induction os with
  | nil => intro fl _; rfl
  | cons o os ih =>
    intro fl h
    rw [applyOps_cons, ih fun x hx => h x (List.mem_cons_of_mem _ hx), apply_untouched (h o (List.mem_cons_self ..))]

theorem torn_untouched {fl fl' : Flash} {o : FlashOp} {a : Nat} (ht : Torn fl o fl') (h : ¬ o.touches a) : fl' a = fl a := by
  cases ht with
  | page addr d t => exact apply_untouched (o := .page addr (d.take t)) h
  | erase addr len P =>
    show (if (addr ≤ a ∧ a < addr + len) ∧ P (a / 256) = true then (0xFF : UInt8) else fl a) = fl a
    rw [if_neg fun hx => h hx.1]

theorem crash_untouched {fl fl' : Flash} {os : List FlashOp} {a : Nat} (hc : CrashImage fl os fl') (h : ∀ o ∈ os, ¬ o.touches a) :
    fl' a = fl a := by
  cases hc with
  | between pre post e =>
    exact applyOps_untouched fun o ho => h o (by rw [e]; exact List.mem_append_left _ ho)
  | during pre post o fl' e ht =>
    rw [torn_untouched ht (h o (by rw [e]; exact List.mem_append_right _ (List.mem_cons_self ..)))]
    exact applyOps_untouched fun o ho => h o (by rw [e]; exact List.mem_append_left _ ho)

theorem crash_append {fl fl' : Flash} {a b : List FlashOp} (hc : CrashImage fl (a ++ b) fl') :
    CrashImage fl a fl' ∨ CrashImage (applyOps fl a) b fl' := by
  cases hc with
  | between pre post e =>
    rcases List.append_eq_append_iff.mp e with ⟨x, h1, h2⟩ | ⟨x, h1, h2⟩
    · right; rw [h1, applyOps_append]; exact .between x post h2
    · left; exact .between pre x h1
  | during pre post o fl' e ht =>
    rcases List.append_eq_append_iff.mp e with ⟨x, h1, h2⟩ | ⟨x, h1, h2⟩
    · right
      rw [h1, applyOps_append] at ht
      exact .during x post o fl' h2 ht
    · cases x with
      | nil =>
        right
        rw [List.append_nil] at h1
        rw [← h1] at ht
        exact .during [] post o fl' (by simpa using h2.symm) ht
      | cons y x =>
        left
        rw [List.cons_append] at h2
        injection h2 with h2 h3
        subst h2
        exact .during pre x o fl' h1 ht

theorem crash_nil {fl fl' : Flash} (hc : CrashImage fl [] fl') : fl' = fl := by
  funext a; exact crash_untouched hc (by simp)

theorem crash_done (fl : Flash) (os : List FlashOp) : CrashImage fl os (applyOps fl os) := .between os [] (by simp)

/-- a single page program, cut off somewhere -/
theorem crash_page {fl fl' : Flash} {a : Nat} {d : Bytes} (hc : CrashImage fl [.page a d] fl') :
    ∃ t, fl' = (FlashOp.page a (d.take t)).apply fl := by
  have empty : fl = (FlashOp.page a (d.take 0)).apply fl := by
    funext x
    simp only [FlashOp.apply, List.take_zero]
    split
    · show fl x = fl x &&& 0xFF
      rw [UInt8.and_comm, ff_and]
    · rfl
  cases hc with
  | between pre post e =>
    cases pre with
    | nil => exact ⟨0, empty⟩
    | cons o pre =>
      injection e with e1 e2
      subst e1
      have : pre = [] := by cases pre with | nil => rfl | cons _ _ => simp at e2
      subst this
      exact ⟨d.length, by rw [List.take_length]; rfl⟩
  | during pre post o fl' e ht =>
    cases pre with
    | nil =>
      injection e with e1 e2
      subst e1
      cases ht with
      | page a d t => exact ⟨t, rfl⟩
    | cons o pre =>
      injection e with e1 e2
      cases pre <;> simp at e2

theorem getD_take (d : Bytes) (t i : Nat) : (d.take t).getD i 0xFF = if i < t then d.getD i 0xFF else 0xFF := by
  simp only [List.getD_eq_getElem?_getD]
  by_cases h : i < t
  · rw [if_pos h, List.getElem?_take_of_lt h]
  · rw [if_neg h, List.getElem?_eq_none (by rw [List.length_take]; omega)]; rfl

/-- programming a blank page -/
theorem apply_page_blank {fl : Flash} {a : Nat} {d : Bytes} (hb : ∀ i, i < 256 → fl (a + i) = 0xFF) (i : Nat) (hi : i < 256) :
    (FlashOp.page a d).apply fl (a + i) = d.getD i 0xFF := by
  simp only [FlashOp.apply]
  rw [if_pos (by omega), hb i hi, Nat.add_sub_cancel_left, ff_and]

end Verif.Vlfs
