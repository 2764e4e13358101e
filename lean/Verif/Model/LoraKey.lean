import Verif.Basic
/-
The key of the radio link as text, as printed by `gen-lora-key` for the configuration files of the two devices.
-/
namespace Verif.LoraKey
open Verif

/-- `format!("{}", byte)`: decimal digits (standard library) -/
def decimal (b : UInt8) : List Char := Nat.toDigits 10 b.toNat

/-- the loop over the bytes: `i` is the index of the next byte and `n` the number of bytes. models vl-host-lib/src/vl/lora_key.rs:13-19 -/
def formatLoop (n : Nat) : Nat → Bytes → List Char → List Char
  | _, [], acc => acc
  | i, b :: rest, acc => formatLoop n (i + 1) rest (if i < n - 1 then acc ++ decimal b ++ [','] ++ [' '] else acc ++ decimal b)

/-- `format_lora_key`. models vl-host-lib/src/vl/lora_key.rs:10-22 -/
def format (key : Bytes) : List Char := formatLoop key.length 0 key ['['] ++ [']']

end Verif.LoraKey
