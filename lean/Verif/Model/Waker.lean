/-
Waker registration (firmware-common/src/common/multi_waker.rs). A waker is identified with the task it wakes: `will_wake` is equality.
-/
namespace Verif.Wk

/-- `WakerRegistration`. models common/multi_waker.rs:7-9 -/
abbrev Slot := Option Nat

/-- `WakerRegistration::register`: the slot and the tasks woken. models common/multi_waker.rs:18-40 -/
def Slot.register (s : Slot) (w : Nat) : Slot × List Nat := match s with
  | some w2 => if w2 = w then (some w2, []) else (some w, [w2])
  | none => (some w, [])

/-- `WakerRegistration::wake`. models common/multi_waker.rs:43-47 -/
def Slot.wake (s : Slot) : Slot × List Nat := match s with
  | some w => (none, [w])
  | none => (none, [])

/-- `occupied`. models common/multi_waker.rs:50-52 -/
def Slot.occupied (s : Slot) : Bool := s.isSome

/-- `MultiWakerRegistration`: the slots. models common/multi_waker.rs:56-58 -/
abbrev Multi := List Slot

/-- `new`. models common/multi_waker.rs:68-71 -/
def Multi.new (n : Nat) : Multi := List.replicate n none

/-- registering in the first free slot; `none` = there is none. models common/multi_waker.rs:87-96 -/
def Multi.place : Multi → Nat → Option (Multi × List Nat)
  | [], _ => none
  | s :: l, w =>
    if s.occupied = false then some ((Slot.register s w).1 :: l, (Slot.register s w).2)
    else (Multi.place l w).map fun p => (s :: p.1, p.2)

/-- `register`: the slots and the tasks woken; `none` = the buffer is full. models common/multi_waker.rs:74-99 -/
def Multi.register (m : Multi) (w : Nat) : Option (Multi × List Nat) :=
  if m.any (fun s => s = some w) then some (m, []) else m.place w

/-- `wake`: the slots and the tasks woken. models common/multi_waker.rs:102-106 -/
def Multi.wake (m : Multi) : Multi × List Nat := (m.map fun s => (Slot.wake s).1, m.flatMap fun s => (Slot.wake s).2)

end Verif.Wk
