import Verif.Model.OzysDevices
/-
The spectra in the database worker of the OZYS app (ozys-app/src/database/DatabaseWorker.ts): a spectrum of a channel goes to the players that show it, to a cache of five and to the database; a new player is
filled from both. Simplifications as in Model/OzysDatabase.lean. A database row is the spectrum itself (the channel is its other column).
-/
namespace Verif.Ozys

/-- a player and what it was given -/
structure FFed (α : Type) where
  id : Nat
  channel : String
  packets : List (FPacket α)

/-- a player that waits for the database -/
structure FOpening (α : Type) where
  id : Nat
  channel : String
  rows : List (FPacket α)

/-- the worker and its database, as far as spectra are concerned. models DatabaseWorker.ts:48-82 -/
structure FWorker (α : Type) where
  cache : String → CBuf (FPacket α)
  rows : String → List (FPacket α)
  /-- `add`s issued and not done -/
  pending : List (String × FPacket α)
  players : List (FFed α)
  opening : List (FOpening α)

/-- an empty cache. models DatabaseWorker.ts:124 -/
def emptyFCache {α : Type} : CBuf (FPacket α) := ⟨List.replicate 5 none, 5, 0, 0, 0⟩

/-- the worker at first -/
def FWorker.init {α : Type} : FWorker α := ⟨fun _ => emptyFCache, fun _ => [], [], [], []⟩

/-- `onRealtimeFft`. models DatabaseWorker.ts:117-139 -/
def FWorker.packet {α : Type} (w : FWorker α) (c : String) (d : FPacket α) : FWorker α :=
  { w with
    players := w.players.map fun p => if p.channel = c then { p with packets := p.packets ++ [d] } else p,
    cache := setChannel w.cache c ((w.cache c).addLast d),
    pending := w.pending ++ [(c, d)] }

/-- `add` of the database takes effect: not if the key is there. models DatabaseWorker.ts:129-138 -/
def addFft {α : Type} (l : List (FPacket α)) (r : FPacket α) : List (FPacket α) :=
  if l.any (·.timestamp = r.timestamp) then l else (l.takeWhile (·.timestamp < r.timestamp)) ++ r :: (l.dropWhile (·.timestamp < r.timestamp))

/-- the oldest `add` takes effect -/
def FWorker.commit {α : Type} (w : FWorker α) : FWorker α :=
  match w.pending with
  | [] => w
  | (c, r) :: rest => { w with rows := setChannel w.rows c (addFft (w.rows c) r), pending := rest }

/-- the rows the query of a new player returns: the lower bound is included, the upper one is not. models DatabaseWorker.ts:195-204 -/
def FWorker.query {α : Type} (w : FWorker α) (c : String) (start duration : Int) : List (FPacket α) :=
  (w.rows c).filter fun r => start - 100 ≤ r.timestamp ∧ r.timestamp < start + duration

/-- filling the player from the rows and then from the cache. models DatabaseWorker.ts:206-217 -/
def fillFftPlayer {α : Type} (rows cached : List (FPacket α)) : List (FPacket α) :=
  let last := (rows.getLast?.map (·.timestamp)).getD (-1)
  rows ++ cached.filter fun d => last < d.timestamp

/-- the rest of `createRealtimeSpectrogramPlayer`, when the database has answered. models DatabaseWorker.ts:206-225 -/
def FWorker.ready {α : Type} (w : FWorker α) (id : Nat) : FWorker α :=
  match w.opening.find? (·.id = id) with
  | none => w
  | some o => { w with
      players := w.players ++ [⟨id, o.channel, fillFftPlayer o.rows ((w.cache o.channel).toArray.filterMap (fun x => x))⟩],
      opening := w.opening.filter (·.id ≠ id) }

/-- what can happen -/
inductive FOp (α : Type)
  | packet (c : String) (d : FPacket α)
  | commit
  | query (id : Nat) (c : String) (start duration : Int)
  | ready (id : Nat)
  | dispose (id : Nat)
  /-- the page is left and loaded again: only the database stays -/
  | restart

/-- one step. models DatabaseWorker.ts:117-139, 184-225 -/
def FWorker.step {α : Type} (w : FWorker α) : FOp α → FWorker α
  | .packet c d => w.packet c d
  | .commit => w.commit
  | .query id c start duration => { w with opening := w.opening ++ [⟨id, c, w.query c start duration⟩] }
  | .ready id => w.ready id
  | .dispose id => { w with players := w.players.filter (·.id ≠ id) }
  | .restart => { w with cache := fun _ => emptyFCache, pending := [], players := [], opening := [] }

/-- a history -/
def FWorker.run {α : Type} (w : FWorker α) (ops : List (FOp α)) : FWorker α := ops.foldl (fun w o => w.step o) w

end Verif.Ozys
