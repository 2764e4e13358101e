import Verif.Basic
/-
Flash memory model: the content is a function from byte address to byte.
models the `Flash` trait of vlfs/src/driver/flash.rs and vlfs/src/flash/memory_flash.rs:45-84.
A page program can only clear bits (NOR flash, the W25Q512 chip the constants of fs/mod.rs name), so
programming a page that was not erased gives the bitwise AND; memory_flash.rs replaces the content, which
is the same thing on an erased page.
Simplifications: no I/O errors; the 5-byte SPI prefix of every buffer is left out; addresses are
unbounded naturals.
-/
namespace Verif

/-- content of the flash chip -/
abbrev Flash := Nat → UInt8

/-- `flash.read(addr, len, buf)`. models vlfs/src/flash/memory_flash.rs:63-72 -/
def Flash.read (fl : Flash) (addr len : Nat) : Bytes :=
  (List.range len).map fun i => fl (addr + i)

/-- the flash operations that change content; power may be lost between any two of them -/
inductive FlashOp where
  /-- erase of `len` bytes (4096, 32768 or 65536) at `addr`. models memory_flash.rs:45-61 -/
  | erase (addr len : Nat)
  /-- `write_256b`: program the page at `addr`. models memory_flash.rs:74-84 -/
  | page (addr : Nat) (data : Bytes)
deriving Repr, DecidableEq

/-- effect of one flash operation. Page bytes missing from `data` stay 0xFF, as the page buffers of
the code are pre-filled with 0xFF; programming ANDs (NOR flash). models memory_flash.rs:45-84 -/
def FlashOp.apply (fl : Flash) : FlashOp → Flash
  | .erase addr len => fun a => if addr ≤ a ∧ a < addr + len then 0xFF else fl a
  | .page addr data => fun a =>
      if addr ≤ a ∧ a < addr + 256 then fl a &&& data.getD (a - addr) 0xFF else fl a

/-- effect of a sequence of flash operations -/
def applyOps (fl : Flash) (ops : List FlashOp) : Flash := ops.foldl FlashOp.apply fl

/-- The chip together with the log of all content-changing operations issued since power-up
(oldest first); every prefix of the log is a possible crash point. -/
structure Dev where
  flash : Flash
  log : List FlashOp

/-- issue one flash operation -/
def Dev.op (d : Dev) (o : FlashOp) : Dev := ⟨o.apply d.flash, d.log ++ [o]⟩

/-- issue several flash operations -/
def Dev.ops (d : Dev) (os : List FlashOp) : Dev := ⟨applyOps d.flash os, d.log ++ os⟩

theorem Dev.op_eq_ops (d : Dev) (o : FlashOp) : d.op o = d.ops [o] := rfl
theorem Dev.ops_nil (d : Dev) : d.ops [] = d := by simp [Dev.ops, applyOps]

theorem Flash.read_length (fl : Flash) (addr len : Nat) : (fl.read addr len).length = len := by
  simp [Flash.read]

theorem Flash.read_getElem? (fl : Flash) (addr len i : Nat) (h : i < len) :
    (fl.read addr len)[i]? = some (fl (addr + i)) := by
  simp [Flash.read, h]

theorem Flash.read_congr (f g : Flash) (addr len : Nat) (h : ∀ i, i < len → f (addr + i) = g (addr + i)) :
    f.read addr len = g.read addr len := by
  apply List.map_congr_left
  intro i hi
  exact h i (List.mem_range.mp hi)

theorem applyOps_nil (fl : Flash) : applyOps fl [] = fl := rfl

theorem applyOps_cons (fl : Flash) (op : FlashOp) (ops : List FlashOp) :
    applyOps fl (op :: ops) = applyOps (op.apply fl) ops := rfl

theorem applyOps_append (fl : Flash) (a b : List FlashOp) :
    applyOps fl (a ++ b) = applyOps (applyOps fl a) b := by
  simp [applyOps, List.foldl_append]

theorem Dev.ops_ops (d : Dev) (a b : List FlashOp) : (d.ops a).ops b = d.ops (a ++ b) := by
  simp [Dev.ops, applyOps_append]

theorem Flash.read_add (fl : Flash) (addr m n : Nat) :
    fl.read addr (m + n) = fl.read addr m ++ fl.read (addr + m) n := by
  apply List.ext_getElem?
  intro i
  by_cases h1 : i < m
  · rw [List.getElem?_append_left (by simpa [Flash.read_length]), Flash.read_getElem? _ _ _ _ h1,
      Flash.read_getElem? _ _ _ _ (by omega)]
  · rw [List.getElem?_append_right (by simp [Flash.read_length]; omega), Flash.read_length]
    by_cases h2 : i < m + n
    · rw [Flash.read_getElem? _ _ _ _ h2, Flash.read_getElem? _ _ _ _ (by omega)]
      congr 2; omega
    · rw [List.getElem?_eq_none (by simp [Flash.read_length]; omega),
        List.getElem?_eq_none (by simp [Flash.read_length]; omega)]

theorem Flash.read_eq_of (fl : Flash) (addr : Nat) (l : Bytes)
    (h : ∀ i, i < l.length → fl (addr + i) = l.getD i 0xFF) : fl.read addr l.length = l := by
  apply List.ext_getElem?
  intro i
  by_cases h1 : i < l.length
  · rw [Flash.read_getElem? _ _ _ _ h1, h i h1, List.getD_eq_getElem?_getD]
    rw [List.getElem?_eq_getElem h1]; rfl
  · rw [List.getElem?_eq_none (by simp [Flash.read_length]; omega), List.getElem?_eq_none (by omega)]

end Verif
