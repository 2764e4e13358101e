import Verif.Model.Flash
/-
What the data sheet of the chip (W25Q512, 64 MiB) demands of the flash operations: a page is programmed only while all its
256 bytes are erased, programs stay inside one page, and erases are aligned blocks of 4, 32 or 64 KiB.
-/
namespace Verif.Spec
open Verif

/-- the size of the chip -/
def chipBytes : Nat := 64 * 1024 * 1024

/-- the operation is one the chip can carry out exactly, given its content -/
def OpOk (fl : Flash) : FlashOp → Prop
  | .erase addr len => (len = 4096 ∨ len = 32768 ∨ len = 65536) ∧ len ∣ addr ∧ addr + len ≤ chipBytes
  | .page addr data => 256 ∣ addr ∧ addr + 256 ≤ chipBytes ∧ data.length ≤ 256 ∧ ∀ i, i < 256 → fl (addr + i) = 0xFF

/-- all operations of a sequence are, each on the content the earlier ones leave -/
def OpsOk : Flash → List FlashOp → Prop
  | _, [] => True
  | fl, o :: os => OpOk fl o ∧ OpsOk (o.apply fl) os

/-- A flash simulation that replaces the content of a page, as memory_flash.rs:74-84 and file_flash.rs do, instead of clearing
bits. -/
def replaceOp (fl : Flash) : FlashOp → Flash
  | .erase addr len => fun a => if addr ≤ a ∧ a < addr + len then 0xFF else fl a
  | .page addr data => fun a => if addr ≤ a ∧ a < addr + 256 then data.getD (a - addr) 0xFF else fl a

/-- the same for a sequence of operations -/
def replaceOps (fl : Flash) (ops : List FlashOp) : Flash := ops.foldl replaceOp fl

end Verif.Spec
