import Verif.Model.Can
/-
CAN arbitration and the history of received frames, used to state properties of the CAN bus code.
-/
namespace Verif.Can

/-- CAN arbitration: the nodes send their identifiers bit by bit, most significant first, `n` bits to go. If somebody sends a dominant 0, those that
sent a recessive 1 drop out. What remains at the end may send. -/
def arbitrate : Nat → List Nat → List Nat
  | 0, ids => ids
  | n + 1, ids => if ids.any (fun i => !i.testBit n) then arbitrate n (ids.filter fun i => !i.testBit n) else arbitrate n ids

/-- fields in range -/
structure Id.Valid (i : Id) : Prop where
  priority : i.priority < 2 ^ 3
  messageType : i.messageType < 2 ^ 8
  nodeType : i.nodeType < 2 ^ 6
  nodeId : i.nodeId < 2 ^ 12

/-- a frame with data of message type `t` -/
def Frame.IsData (f : Frame) (t : Nat) : Prop := f.rtr = false ∧ (Id.fromRaw f.id).messageType = t

/-- the last element of the list for which `f` gives something -/
def lastOf {α β : Type} (f : α → Option β) (l : List α) : Option β := l.reverse.findSome? f

/-- what the avionics status in a frame says: armed -/
def Frame.status (f : Frame) : Option Bool :=
  if f.rtr = false ∧ (Id.fromRaw f.id).messageType = 1 then some (decide ((f.data.getD 0 0).toNat / 64 % 2 = 1)) else none

/-- whether the flight event in a frame is the landing -/
def Frame.landing (f : Frame) : Option Bool :=
  if f.rtr = false ∧ (Id.fromRaw f.id).messageType = 2 then some (decide ((f.data.getD 6 0).toNat / 32 = 3)) else none

/-- time of reception and the time in a time message -/
def Frame.time (f : Frame) : Option (Nat × Nat) :=
  if f.rtr = false ∧ (Id.fromRaw f.id).messageType = 0 then some (f.timestamp, beNat f.data) else none

/-- frames the board cannot take: a time, status or event of the wrong length, or an event that does not exist -/
def Frame.Bad (f : Frame) : Prop :=
  f.rtr = false ∧
    ((Id.fromRaw f.id).messageType = 0 ∧ f.data.length ≠ 6 ∨ (Id.fromRaw f.id).messageType = 1 ∧ f.data.length ≠ 1 ∨
      (Id.fromRaw f.id).messageType = 2 ∧ (f.data.length ≠ 7 ∨ 4 ≤ (f.data.getD 6 0).toNat / 32))

end Verif.Can
