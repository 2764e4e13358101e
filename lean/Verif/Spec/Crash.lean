import Verif.Model.Flash
/-
What can be on the chip when power is lost while a list of flash operations is being carried out.
-/
namespace Verif.Spec
open Verif

/-- Content after power was lost during one operation: a page program has written the first `t` of its bytes;
an erase has erased any set of 256-byte pages of its range. -/
inductive Torn (fl : Flash) : FlashOp → Flash → Prop
  | page (a : Nat) (data : Bytes) (t : Nat) : Torn fl (.page a data) ((FlashOp.page a (data.take t)).apply fl)
  | erase (a len : Nat) (P : Nat → Bool) :
      Torn fl (.erase a len) (fun x => if (a ≤ x ∧ x < a + len) ∧ P (x / 256) then 0xFF else fl x)

/-- Content after power was lost somewhere in `ops`: between two operations or in the middle of one. -/
inductive CrashImage (fl : Flash) (ops : List FlashOp) : Flash → Prop
  | between (pre post : List FlashOp) (h : ops = pre ++ post) : CrashImage fl ops (applyOps fl pre)
  | during (pre post : List FlashOp) (o : FlashOp) (fl' : Flash) (h : ops = pre ++ o :: post)
      (ht : Torn (applyOps fl pre) o fl') : CrashImage fl ops fl'

/-- As `CrashImage`, but a page program happens completely or not at all. -/
inductive PageCrash (fl : Flash) (ops : List FlashOp) : Flash → Prop
  | between (pre post : List FlashOp) (h : ops = pre ++ post) : PageCrash fl ops (applyOps fl pre)
  | erasing (pre post : List FlashOp) (a len : Nat) (fl' : Flash) (h : ops = pre ++ .erase a len :: post)
      (ht : Torn (applyOps fl pre) (.erase a len) fl') : PageCrash fl ops fl'

theorem PageCrash.crashImage {fl : Flash} {ops : List FlashOp} {fl' : Flash} (h : PageCrash fl ops fl') :
    CrashImage fl ops fl' := by
  cases h with
  | between pre post h => exact .between pre post h
  | erasing pre post a len fl' h ht => exact .during pre post _ fl' h ht

end Verif.Spec
