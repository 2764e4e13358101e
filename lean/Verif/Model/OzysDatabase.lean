import Verif.Model.CircularBuffer
/-
The database worker of the OZYS app (ozys-app/src/database/DatabaseWorker.ts): readings of the channels go to the players that show them, to a cache and, ten packets at a time, to the database; a new player is
filled from both. Simplifications: timestamps are integers of milliseconds, a sample is any `α`; a player is the list of the packets it was given (C105 takes it from there); IndexedDB from its documentation:
an `add` takes effect some time after it was issued, in the order issued, and fails if the key is there; a query sees the rows there at one moment; a range query returns rows in the order of their keys.
The cache of a channel is there from the start (in the code: from its first packet), which cannot be told apart.
-/
namespace Verif.Ozys

/-- `OzysChannelRealtimeReadings`: 10 ms of readings. models OzysDevice.ts:25-38 -/
structure RPacket (α : Type) where
  timestamp : Int
  readings : List α
  noises : List α
deriving DecidableEq

/-- `DBReadingsRow`. models DatabaseWorker.ts:17-22 -/
structure Row (α : Type) where
  timestamp : Int
  readings : List α
  noises : List α
deriving DecidableEq

/-- `Float32Array.set(values, offset)`; `none` = throws. -/
def setAt {α : Type} (buf l : List α) (off : Nat) : Option (List α) :=
  if off + l.length ≤ buf.length then some (buf.take off ++ l ++ buf.drop (off + l.length)) else none

/-- the loop that fills one of the arrays. models DatabaseWorker.ts:29-32 -/
def fillFrom {α : Type} : Nat → List (List α) → List α → Option (List α)
  | _, [], buf => some buf
  | i, x :: xs, buf => (setAt buf x (i * 20)).bind (fillFrom (i + 1) xs)

/-- the constructor of a row, from ten packets; `none` = throws. models DatabaseWorker.ts:24-33 -/
def Row.new {α : Type} (zero : α) (ps : List (RPacket α)) : Option (Row α) :=
  match ps with
  | [] => none
  | p :: _ =>
    (fillFrom 0 ((ps.take 10).map (·.readings)) (List.replicate 200 zero)).bind fun r =>
      (fillFrom 0 ((ps.take 10).map (·.noises)) (List.replicate 200 zero)).map fun n => ⟨p.timestamp, r, n⟩

/-- `splitInto10msIntervals`. models DatabaseWorker.ts:35-45 -/
def Row.split {α : Type} (r : Row α) : List (RPacket α) :=
  (List.range 10).map fun i : Nat => ⟨r.timestamp + (i : Int) * 10, (r.readings.take ((i + 1) * 20)).drop (i * 20), (r.noises.take ((i + 1) * 20)).drop (i * 20)⟩

/-- a player and what it was given -/
structure Fed (α : Type) where
  id : Nat
  channel : String
  packets : List (RPacket α)

/-- a player that waits for the database -/
structure Opening (α : Type) where
  id : Nat
  channel : String
  rows : List (Row α)

/-- the worker and its database. models DatabaseWorker.ts:60-80 -/
structure Worker (α : Type) where
  cache : String → CBuf (RPacket α)
  rows : String → List (Row α)
  /-- `add`s issued and not done -/
  pending : List (String × Row α)
  players : List (Fed α)
  opening : List (Opening α)

/-- an empty cache. models DatabaseWorker.ts:94 -/
def emptyCache {α : Type} : CBuf (RPacket α) := ⟨List.replicate 50 none, 50, 0, 0, 0⟩

/-- the worker at first -/
def Worker.init {α : Type} : Worker α := ⟨fun _ => emptyCache, fun _ => [], [], [], []⟩

/-- setting the value of one channel -/
def setChannel {β : Type} (f : String → β) (c : String) (v : β) : String → β := fun c' => if c' = c then v else f c'

/-- the row to be stored after the packet `d` has gone to the cache, if any. models DatabaseWorker.ts:99-109 -/
def dueRow {α : Type} (zero : α) (cache : CBuf (RPacket α)) (d : RPacket α) : Option (Row α) :=
  if (d.timestamp - 90) % 100 = 0 then
    let last10 := (cache.lastN 10).filterMap id
    if last10.length = 10 ∧ last10.head?.map (·.timestamp) = some (d.timestamp - 90) then Row.new zero last10 else none
  else none

/-- `onRealtimeReadings`; an exception of the row's constructor is caught. models DatabaseWorker.ts:84-115 -/
def Worker.packet {α : Type} (zero : α) (w : Worker α) (c : String) (d : RPacket α) : Worker α :=
  let cache := (w.cache c).addLast d
  { w with
    players := w.players.map fun p => if p.channel = c then { p with packets := p.packets ++ [d] } else p,
    cache := setChannel w.cache c cache,
    pending := w.pending ++ ((dueRow zero cache d).map fun r => (c, r)).toList }

/-- `add` of the database takes effect: not if the key is there. models DatabaseWorker.ts:105-112 -/
def addRow {α : Type} (l : List (Row α)) (r : Row α) : List (Row α) :=
  if l.any (·.timestamp = r.timestamp) then l else (l.takeWhile (·.timestamp < r.timestamp)) ++ r :: (l.dropWhile (·.timestamp < r.timestamp))

/-- the oldest `add` takes effect -/
def Worker.commit {α : Type} (w : Worker α) : Worker α :=
  match w.pending with
  | [] => w
  | (c, r) :: rest => { w with rows := setChannel w.rows c (addRow (w.rows c) r), pending := rest }

/-- the rows the query of a new player returns: the lower bound is included, the upper one is not. models DatabaseWorker.ts:151-160 -/
def Worker.query {α : Type} (w : Worker α) (c : String) (start duration : Int) : List (Row α) :=
  (w.rows c).filter fun r => start - 100 ≤ r.timestamp ∧ r.timestamp < start + duration

/-- filling the player from the rows and then from the cache. models DatabaseWorker.ts:162-175 -/
def fillPlayer {α : Type} (rows : List (Row α)) (cached : List (RPacket α)) : List (RPacket α) :=
  let old := rows.flatMap (·.split)
  let last := (old.getLast?.map (·.timestamp)).getD (-1)
  old ++ cached.filter fun d => last < d.timestamp

/-- the rest of `createRealtimeStrainGraphPlayer`, when the database has answered. models DatabaseWorker.ts:162-182 -/
def Worker.ready {α : Type} (w : Worker α) (id : Nat) : Worker α :=
  match w.opening.find? (·.id = id) with
  | none => w
  | some o => { w with
      players := w.players ++ [⟨id, o.channel, fillPlayer o.rows ((w.cache o.channel).toArray.filterMap (fun x => x))⟩],
      opening := w.opening.filter (·.id ≠ id) }

/-- what can happen -/
inductive WOp (α : Type)
  | packet (c : String) (d : RPacket α)
  | commit
  | query (id : Nat) (c : String) (start duration : Int)
  | ready (id : Nat)
  | dispose (id : Nat)
  /-- the page is left and loaded again: only the database stays -/
  | restart

/-- one step. models DatabaseWorker.ts:84-115, 140-182 -/
def Worker.step {α : Type} (zero : α) (w : Worker α) : WOp α → Worker α
  | .packet c d => w.packet zero c d
  | .commit => w.commit
  | .query id c start duration => { w with opening := w.opening ++ [⟨id, c, w.query c start duration⟩] }
  | .ready id => w.ready id
  | .dispose id => { w with players := w.players.filter (·.id ≠ id) }
  | .restart => { w with cache := fun _ => emptyCache, pending := [], players := [], opening := [] }

/-- a history -/
def Worker.run {α : Type} (zero : α) (w : Worker α) (ops : List (WOp α)) : Worker α := ops.foldl (fun w o => w.step zero o) w

end Verif.Ozys
