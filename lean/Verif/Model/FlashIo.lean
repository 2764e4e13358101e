import Verif.Model.Flash
/-
Transfers of any length over the flash driver (`read` and `write` of the trait `Flash`, vlfs/src/driver/flash.rs:72-148). The first five bytes of every buffer are scratch space of the
driver for the SPI command ("The first 5 bytes are skipped because they are used for the spi command", driver/flash.rs:107-108); the driver of the real chip is not part of the repository,
the drivers for simulations (memory_flash.rs, file_flash.rs) leave them alone. Both are instances of `Driver`. No I/O errors. Panics are `none`. Addresses are unbounded.
-/
namespace Verif.FlashIo
open Verif

/-- what a driver does with the five scratch bytes of a transfer at an address: `none` leaves them alone, `some c` puts the five bytes `c addr` there. models driver/flash.rs:107-108 -/
structure Driver where
  command : Option (Nat → Vector UInt8 5)

/-- the first five bytes of a buffer after a transfer. models driver/flash.rs:107-108 -/
def Driver.scratch (d : Driver) (addr : Nat) (old : Bytes) : Bytes :=
  match d.command with
  | none => old
  | some c => (c addr).toList

/-- `read_4kib(address, read_length, &mut read_buffer[off..])`: the buffer afterwards. models driver/flash.rs:24-47, memory_flash.rs:63-72, file_flash.rs:68-76 -/
def read4k (fl : Flash) (d : Driver) (addr len off : Nat) (buf : Bytes) : Option Bytes :=
  if off + 5 + len ≤ buf.length then
    some (buf.take off ++ d.scratch addr ((buf.drop off).take 5) ++ fl.read addr len ++ buf.drop (off + 5 + len))
  else none

/-- the loop of `read`; `done` bytes are read. models driver/flash.rs:86-104 -/
def readLoop (fl : Flash) (d : Driver) (addr len : Nat) (done : Nat) (buf : Bytes) : Option Bytes :=
  if h : done < len then
    let length := if len - done > 4096 then 4096 else len - done
    have : 0 < length := by simp only [length]; split <;> omega
    match read4k fl d (addr + done) length done buf with
    | none => none
    | some buf => readLoop fl d addr len (done + length) buf
  else some buf
termination_by len - done
decreasing_by omega

/-- `read`: what the caller gets. models driver/flash.rs:73-110 -/
def read (fl : Flash) (d : Driver) (addr len : Nat) (buf : Bytes) : Option Bytes :=
  match readLoop fl d addr len 0 buf with
  | none => none
  | some buf => some ((buf.drop 5).take len)

/-- `write_256b(address, &mut write_buffer[off..])`: the operation, and the buffer afterwards. models driver/flash.rs:49-66, memory_flash.rs:74-84 -/
def write256 (d : Driver) (addr off : Nat) (buf : Bytes) : Option (FlashOp × Bytes) :=
  if off + 261 ≤ buf.length then
    some (.page addr ((buf.drop (off + 5)).take 256), buf.take off ++ d.scratch addr ((buf.drop off).take 5) ++ buf.drop (off + 5))
  else none

/-- the loop of `write`: the flash operations. models driver/flash.rs:130-146 -/
def writeLoop (d : Driver) (addr len : Nat) (done : Nat) (buf : Bytes) : Option (List FlashOp) :=
  if h : done < len then
    let length := if len - done > 256 then 256 else len - done
    have : 0 < length := by simp only [length]; split <;> omega
    match write256 d (addr + done) done buf with
    | none => none
    | some (op, buf) =>
      match writeLoop d addr len (done + length) buf with
      | none => none
      | some ops => some (op :: ops)
  else some []
termination_by len - done
decreasing_by omega

/-- `write`. models driver/flash.rs:116-147 -/
def write (d : Driver) (addr len : Nat) (buf : Bytes) : Option (List FlashOp) := writeLoop d addr len 0 buf

end Verif.FlashIo
