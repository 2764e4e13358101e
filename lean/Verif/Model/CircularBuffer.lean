import Verif.Basic
/-
The circular buffer of the OZYS app (ozys-app/src/utils/CircularBuffer.ts). `undefined` is `none`; numbers are unbounded integers; capacities, counts and indices are integers.
-/
namespace Verif.Ozys

/-- `CircularBuffer`. models CircularBuffer.ts:3-8 -/
structure CBuf (α : Type) where
  buffer : List (Option α)
  capacity : Nat
  head : Nat
  tail : Nat
  size : Nat

/-- the constructor; `none` = throws. models CircularBuffer.ts:14-20 -/
def CBuf.new {α : Type} (capacity : Int) : Option (CBuf α) :=
  if capacity ≤ 0 then none else some ⟨List.replicate capacity.toNat none, capacity.toNat, 0, 0, 0⟩

/-- reading a cell of the array. models CircularBuffer.ts:48, 58 -/
def CBuf.cell {α : Type} (b : CBuf α) (i : Nat) : Option α := (b.buffer[i]?).getD none

/-- `peek`; `%` of JavaScript has the sign of the dividend. models CircularBuffer.ts:36-49 -/
def CBuf.peek {α : Type} (b : CBuf α) (i : Int) : Option α :=
  if i ≥ b.size ∨ i < -(b.size : Int) then none
  else
    let index : Int :=
      if i ≥ 0 then ((b.head : Int) + i).tmod b.capacity
      else
        let index := ((b.tail : Int) + i).tmod b.capacity
        if index < 0 then index + b.capacity else index
    b.cell index.toNat

/-- `addStart`. models CircularBuffer.ts:68-79 -/
def CBuf.addStart {α : Type} (b : CBuf α) (v : α) : CBuf α :=
  let h := (b.head + b.capacity - 1) % b.capacity
  if b.size = b.capacity then { b with head := h, buffer := b.buffer.set h (some v), tail := h }
  else { b with head := h, buffer := b.buffer.set h (some v), size := b.size + 1 }

/-- `addLast`. models CircularBuffer.ts:86-97 -/
def CBuf.addLast {α : Type} (b : CBuf α) (v : α) : CBuf α :=
  if b.size = b.capacity then { b with buffer := b.buffer.set b.tail (some v), head := (b.head + 1) % b.capacity, tail := (b.tail + 1) % b.capacity }
  else { b with buffer := b.buffer.set b.tail (some v), tail := (b.tail + 1) % b.capacity, size := b.size + 1 }

/-- items `from` up to before `to`, as the loops of `toArray`, `forEach`, `firstN`, `lastN` read them. models CircularBuffer.ts:56-59, 105-109, 123-127, 177-181 -/
def CBuf.slice {α : Type} (b : CBuf α) (start stop : Nat) : List (Option α) :=
  (List.range (stop - start)).map fun i => b.cell ((b.head + (start + i)) % b.capacity)

/-- `toArray`, and what `forEach` goes through. models CircularBuffer.ts:55-61, 103-111 -/
def CBuf.toArray {α : Type} (b : CBuf α) : List (Option α) := b.slice 0 b.size

/-- `firstN`. models CircularBuffer.ts:119-129 -/
def CBuf.firstN {α : Type} (b : CBuf α) (n : Int) : List (Option α) := if n ≤ 0 then [] else b.slice 0 (min n.toNat b.size)

/-- `lastN`. models CircularBuffer.ts:169-179 -/
def CBuf.lastN {α : Type} (b : CBuf α) (n : Int) : List (Option α) := if n ≤ 0 then [] else b.slice (b.size - min n.toNat b.size) b.size

/-- `removeFirst`. models CircularBuffer.ts:136-145 -/
def CBuf.removeFirst {α : Type} (b : CBuf α) : Option α × CBuf α :=
  if b.size = 0 then (none, b)
  else (b.cell b.head, { b with buffer := b.buffer.set b.head none, head := (b.head + 1) % b.capacity, size := b.size - 1 })

/-- `removeLast`. models CircularBuffer.ts:152-161 -/
def CBuf.removeLast {α : Type} (b : CBuf α) : Option α × CBuf α :=
  if b.size = 0 then (none, b)
  else
    let t := (b.tail + b.capacity - 1) % b.capacity
    (b.cell t, { b with tail := t, buffer := b.buffer.set t none, size := b.size - 1 })

/-- `clear`. models CircularBuffer.ts:192-197 -/
def CBuf.clear {α : Type} (b : CBuf α) : CBuf α := ⟨List.replicate b.capacity none, b.capacity, 0, 0, 0⟩

/-- the methods -/
inductive COp (α : Type)
  | addStart (v : α)
  | addLast (v : α)
  | removeFirst
  | removeLast
  | clear
  | peek (i : Int)
  | toArray
  | firstN (n : Int)
  | lastN (n : Int)
  | length
  | isEmpty

/-- what a method returns -/
inductive CRes (α : Type)
  | unit
  | item (x : Option α)
  | items (l : List (Option α))
  | count (n : Nat)
  | flag (b : Bool)

/-- one call. `length` and `isEmpty`: models CircularBuffer.ts:26-28, 189-191 -/
def CBuf.call {α : Type} (b : CBuf α) : COp α → CRes α × CBuf α
  | .addStart v => (.unit, b.addStart v)
  | .addLast v => (.unit, b.addLast v)
  | .removeFirst => (.item b.removeFirst.1, b.removeFirst.2)
  | .removeLast => (.item b.removeLast.1, b.removeLast.2)
  | .clear => (.unit, b.clear)
  | .peek i => (.item (b.peek i), b)
  | .toArray => (.items b.toArray, b)
  | .firstN n => (.items (b.firstN n), b)
  | .lastN n => (.items (b.lastN n), b)
  | .length => (.count b.size, b)
  | .isEmpty => (.flag (b.size = 0), b)

/-- the results of a list of calls -/
def CBuf.calls {α : Type} (b : CBuf α) : List (COp α) → List (CRes α)
  | [] => []
  | o :: l => (b.call o).1 :: (b.call o).2.calls l

/-- the buffer after a list of calls -/
def CBuf.after {α : Type} (b : CBuf α) (l : List (COp α)) : CBuf α := l.foldl (fun b o => (b.call o).2) b

end Verif.Ozys
