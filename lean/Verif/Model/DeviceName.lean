import Verif.Basic
/-
The name of a device: from the configuration file of the host tool (JSON, a string) over the fixed-size string that is stored on the device to the line printed by `detect`.
-/
namespace Verif.DevName
open Verif

/-- `RkyvVec<N, T>`: an array of `N` elements, and the number of elements in use. models firmware-common/src/common/rkyv_structs.rs:5-9 -/
structure RkyvVec (α : Type) where
  data : List α
  len : Nat

/-- `RkyvVec::from_slice`: what does not fit is dropped; the rest of the array has the default value. models rkyv_structs.rs:12-17 -/
def RkyvVec.fromSlice {α : Type} (dflt : α) (n : Nat) (slice : List α) : RkyvVec α :=
  let len := min slice.length n
  { data := slice.take len ++ List.replicate (n - len) dflt, len := len }

/-- `RkyvVec::as_slice`. models rkyv_structs.rs:23-25 -/
def RkyvVec.asSlice {α : Type} (v : RkyvVec α) : List α := v.data.take v.len

/-- `Index::index`: `none` is a panic. models rkyv_structs.rs:41-47 -/
def RkyvVec.index {α : Type} (v : RkyvVec α) (i : Nat) : Option α := v.data[i]?

/-- `IndexMut::index_mut` and an assignment to it: `none` is a panic. models rkyv_structs.rs:49-53 -/
def RkyvVec.assign {α : Type} (v : RkyvVec α) (i : Nat) (x : α) : Option (RkyvVec α) :=
  if i < v.data.length then some { v with data := v.data.set i x } else none

/-- `RkyvVec::default`. models rkyv_structs.rs:32-39 -/
def RkyvVec.default {α : Type} (dflt : α) (n : Nat) : RkyvVec α := { data := List.replicate n dflt, len := 0 }

/-- `str::as_bytes`: the UTF-8 encoding (Lean's `String` has it, too) -/
def asBytes (s : String) : Bytes := s.toByteArray.data.toList

/-- `core::str::from_utf8(bytes).unwrap()`: `none` is a panic -/
def fromUtf8 (b : Bytes) : Option String := String.fromUTF8? b.toByteArray

/-- the name in `DeviceConfig::from(DeviceConfigSerde)`. models vl-host-lib/src/vl/device_config.rs:18-25 (`RkyvString<64>`: device_config.rs:9 of firmware-common) -/
def toDevice (name : String) : RkyvVec UInt8 :=
  let b := asBytes name
  RkyvVec.fromSlice 0 64 (if b.length > 64 then b.take 64 else b)

/-- `RkyvString::as_str`. models rkyv_structs.rs:77-79 -/
def asStr (v : RkyvVec UInt8) : Option String := fromUtf8 v.asSlice

/-- the name in the line printed for a device: none configured, or the string; the outer `none` is a panic of the tool. models vl-host-lib/src/common/probe_device_type.rs:38-44,
firmware-common/src/common/console/vl_rpc.rs:60-65 (the configuration read at boot is the one that was set: C20) -/
def shown (configured : Option (RkyvVec UInt8)) : Option String :=
  match configured with
  | none => some ""
  | some v => asStr v

end Verif.DevName
