import Verif.Model.CircularBuffer
/-
A bounded deque: a plain list. What the circular buffer should do.
-/
namespace Verif.Ozys

/-- adding at the end drops from the front when there is no room -/
def dqAddLast {α : Type} (cap : Nat) (l : List α) (v : α) : List α := if l.length = cap then l.tail ++ [v] else l ++ [v]

/-- adding at the start drops from the end when there is no room -/
def dqAddStart {α : Type} (cap : Nat) (l : List α) (v : α) : List α := if l.length = cap then v :: l.dropLast else v :: l

/-- item `i`, from the end if negative -/
def dqPeek {α : Type} (l : List α) (i : Int) : Option α := if 0 ≤ i then l[i.toNat]? else l.reverse[(-i).toNat - 1]?

/-- one call on the list -/
def dqCall {α : Type} (cap : Nat) (l : List α) : COp α → CRes α × List α
  | .addStart v => (.unit, dqAddStart cap l v)
  | .addLast v => (.unit, dqAddLast cap l v)
  | .removeFirst => (.item l.head?, l.tail)
  | .removeLast => (.item l.getLast?, l.dropLast)
  | .clear => (.unit, [])
  | .peek i => (.item (dqPeek l i), l)
  | .toArray => (.items (l.map some), l)
  | .firstN n => (.items ((l.take n.toNat).map some), l)
  | .lastN n => (.items ((l.drop (l.length - n.toNat)).map some), l)
  | .length => (.count l.length, l)
  | .isEmpty => (.flag l.isEmpty, l)

/-- the results of a list of calls -/
def dqCalls {α : Type} (cap : Nat) (l : List α) : List (COp α) → List (CRes α)
  | [] => []
  | o :: os => (dqCall cap l o).1 :: dqCalls cap (dqCall cap l o).2 os

/-- the list after a list of calls -/
def dqAfter {α : Type} (cap : Nat) (l : List α) (os : List (COp α)) : List α := os.foldl (fun l o => (dqCall cap l o).2) l

end Verif.Ozys
