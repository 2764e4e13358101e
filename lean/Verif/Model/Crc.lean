import Verif.Model.Utils
/-
The byte-wise front end of the checksum unit (vlfs/src/utils/u8_crc.rs) and `Crc::calculate` (vlfs/src/driver/crc.rs). The checksum unit
itself is abstract: a state that is reset, fed 32-bit words and read.
-/
namespace Verif.Crc

/-- the `Crc` trait: any implementation. models vlfs/src/driver/crc.rs:5-10 -/
structure Unit (σ : Type) where
  reset : σ
  feed : σ → Nat → σ
  read : σ → Nat

/-- `u32::from_be_bytes` of the four bytes in the list (Rust standard library) -/
def beWord (l : List UInt8) : Nat := l.foldl (fun n b => n * 256 + b.toNat) 0

/-- `U8Crc`: unit state, the four-byte buffer and the number of bytes in it. models vlfs/src/utils/u8_crc.rs:3-10 -/
structure U8Crc (σ : Type) where
  state : σ
  buffer : List UInt8
  index : Nat

/-- `U8Crc::new`. models u8_crc.rs:16-23 -/
def U8Crc.new {σ : Type} (u : Unit σ) : U8Crc σ := ⟨u.reset, [0, 0, 0, 0], 0⟩

/-- `read_crc`. models u8_crc.rs:25-27 -/
def U8Crc.readCrc {σ : Type} (u : Unit σ) (c : U8Crc σ) : Nat := u.read c.state

/-- `copy_from_slice` into `buf[i..i + data.len()]` (Rust standard library) -/
def copyInto (buf : List UInt8) (i : Nat) (data : List UInt8) : List UInt8 := buf.take i ++ data ++ buf.drop (i + data.length)

/-- the `while` loop over whole words and the copy of the rest; `data` is what is left of the slice.
models u8_crc.rs:50-64 -/
def U8Crc.whole {σ : Type} (u : Unit σ) (c : U8Crc σ) (data : List UInt8) : U8Crc σ :=
  if h : data.length ≥ 4 then U8Crc.whole u { c with state := u.feed c.state (beWord (data.take 4)) } (data.drop 4)
  else if data.length > 0 then { c with buffer := copyInto c.buffer 0 data, index := data.length }
  else c
termination_by data.length
decreasing_by rw [List.length_drop]; omega

/-- `process`. models u8_crc.rs:29-64 -/
def U8Crc.process {σ : Type} (u : Unit σ) (c : U8Crc σ) (data : List UInt8) : U8Crc σ :=
  let off := if c.index ≠ 0 then 4 - c.index else 0
  if data.length < off then { c with buffer := copyInto c.buffer c.index data, index := c.index + data.length }
  else if off ≠ 0 then
    let buffer := copyInto c.buffer c.index (data.take off)
    U8Crc.whole u ⟨u.feed c.state (beWord buffer), buffer, 0⟩ (data.drop off)
  else U8Crc.whole u c data

/-- feeding the whole words of `data`, then the last incomplete one filled up with 0xFF.
models vlfs/src/driver/crc.rs:23-36 -/
def feedPadded {σ : Type} (u : Unit σ) (s : σ) (data : List UInt8) : σ :=
  if h : data.length ≥ 4 then feedPadded u (u.feed s (beWord (data.take 4))) (data.drop 4)
  else if data.length > 0 then u.feed s (beWord (copyInto [0xFF, 0xFF, 0xFF, 0xFF] 0 data))
  else s
termination_by data.length
decreasing_by rw [List.length_drop]; omega

/-- `Crc::calculate`. models driver/crc.rs:21-40 -/
def calculate {σ : Type} (u : Unit σ) (data : List UInt8) : Nat := u.read (feedPadded u u.reset data)

end Verif.Crc
