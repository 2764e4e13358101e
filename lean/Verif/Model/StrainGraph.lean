import Mathlib.Data.Rat.Floor
import Mathlib.Algebra.Order.Field.Rat
import Verif.Model.CircularBuffer
/-
The strain graph of the OZYS app (ozys-app/src/components/straingraph/StrainGraphCanvas.ts): which players (Model/StrainPlayer.lean, C105) it creates and disposes of, and the lines it draws. Simplifications:
numbers are exact; colours are left out; a player is a number, new ones get new numbers; a frame that is skipped because the last one is still being drawn is no event. The tasks of `playersMutex` run one after
the other in the order of their `runExclusive` calls (library async-mutex); a task gives way to other code at each `await createPlayer`, which succeeds or throws.
-/
namespace Verif.Graph

/-- a task of the mutex with what it still has to do. models StrainGraphCanvas.ts:78-86, 154-157, 214-224 -/
inductive Task
  | update (added removed : List Nat)
  | recreate
  /-- started: the channels still to do, and the players made -/
  | recreating (todo : List Nat) (made : List (Nat × Nat))
  | disposeAll

/-- the graph: the channels selected last, the players (`Map`: channel and player), the tasks, whether it is disposed of; and the players created and the calls of `dispose` so far.
models StrainGraphCanvas.ts:24-36 -/
structure G where
  selected : List Nat
  players : List (Nat × Nat)
  tasks : List Task
  disposed : Bool
  created : List Nat
  disposals : List Nat

/-- the constructor. models StrainGraphCanvas.ts:24-30 -/
def G.new : G := ⟨[], [], [], false, [], []⟩

/-- the channels that have a player -/
def G.keys (g : G) : List Nat := g.players.map (·.1)

/-- `Map.set`. -/
def mapSet (m : List (Nat × Nat)) (c p : Nat) : List (Nat × Nat) :=
  if m.any (·.1 == c) then m.map fun x => if x.1 = c then (c, p) else x else m ++ [(c, p)]

/-- `diffSelectedChannels`: removed and added. models StrainGraphCanvas.ts:167-184 -/
def diff (old new : List Nat) : List Nat × List Nat := (old.filter fun c => !new.contains c, new.filter fun c => !old.contains c)

/-- the next player -/
def G.fresh (g : G) : Nat := g.created.length

/-- removing the channels: their players are disposed of, one after the other. models StrainGraphCanvas.ts:82-85 -/
def G.remove (g : G) : List Nat → G
  | [] => g
  | c :: cs => G.remove { g with disposals := g.disposals ++ ((g.players.filter fun x => x.1 == c).map (·.2)), players := g.players.filter fun x => !(x.1 == c) } cs

/-- the task at the front goes on up to its next `await` or to its end; `ok` = the call of `createPlayer` it waited for succeeds, otherwise it throws and the task ends.
models StrainGraphCanvas.ts:78-86, 153-157, 213-226 -/
def G.go (g : G) (ok : Bool) : G :=
  match g.tasks with
  | [] => g
  | .update (c :: cs) removed :: ts =>
    if ok then { g with players := mapSet g.players c g.fresh, created := g.created ++ [g.fresh], tasks := .update cs removed :: ts } else { g with tasks := ts }
  | .update [] removed :: ts => { g.remove removed with tasks := ts }
  | .recreate :: ts => { g with tasks := .recreating g.keys [] :: ts }
  | .recreating (c :: cs) made :: ts =>
    if ok then { g with created := g.created ++ [g.fresh], tasks := .recreating cs (mapSet made c g.fresh) :: ts } else { g with tasks := ts }
  | .recreating [] made :: ts => { g with players := made, disposals := g.disposals ++ g.players.map (·.2), tasks := ts }
  | .disposeAll :: ts => { g with disposals := g.disposals ++ g.players.map (·.2), tasks := ts }

/-- what happens to a graph -/
inductive GOp
  | draw (selected : List Nat)
  | setMsPerPixel
  | resize
  | dispose
  | go (ok : Bool)

/-- one event: the part of `draw` before its first `await`; `setMsPerPixel` with a new value; `resize` with a new size; `dispose`; the tasks go on.
models StrainGraphCanvas.ts:55-88, 160-165, 186-205, 148-158 -/
def G.step (g : G) : GOp → G
  | .draw sel =>
    if g.disposed then g
    else
      let d := diff g.selected sel
      if d.1.length + d.2.length ≠ 0 then { g with selected := sel, tasks := g.tasks ++ [.update d.2 d.1] } else { g with selected := sel }
  | .setMsPerPixel => { g with tasks := g.tasks ++ [.recreate] }
  | .resize => if g.disposed then g else { g with tasks := g.tasks ++ [.recreate] }
  | .dispose => if g.disposed then g else { g with disposed := true, tasks := g.tasks ++ [.disposeAll] }
  | .go ok => g.go ok

/-- a history -/
def G.run (g : G) (ops : List GOp) : G := ops.foldl G.step g

/-- the commands given to the canvas -/
inductive Cmd
  | beginPath
  | moveTo (x y : Rat)
  | lineTo (x y : Rat)
  | stroke

/-- `Math.round`: halves are rounded up -/
def jsRound (x : Rat) : Int := ⌊x + 1 / 2⌋

/-- the size of the canvas and the time it shows. models StrainGraphCanvas.ts:207-211 -/
structure View where
  width : Nat
  height : Rat
  msPerPixel : Rat

/-- `windowDuration`. models StrainGraphCanvas.ts:208 -/
def View.windowDuration (v : View) : Rat := v.width * v.msPerPixel

/-- `sampleDuration`. models StrainGraphCanvas.ts:210 -/
def View.sampleDuration (v : View) : Rat := v.windowDuration / v.width

/-- `alignToSampleDuration` of a positive time. models StrainGraphCanvas.ts:251-253 -/
def View.align (v : View) (t : Rat) : Rat := t - (t - v.sampleDuration * ⌊t / v.sampleDuration⌋)

/-- the first time shown. models StrainGraphCanvas.ts:65-67 -/
def View.start (v : View) (now : Rat) : Rat := v.align (now - v.windowDuration + v.sampleDuration - 200)

/-- the last time shown. models StrainGraphCanvas.ts:70 -/
def View.stop (v : View) (now : Rat) : Rat := v.start now + v.windowDuration - v.sampleDuration

/-- the column of a time. models StrainGraphCanvas.ts:129-131 -/
def View.x (v : View) (start t : Rat) : Int := jsRound ((t - start) / v.sampleDuration)

/-- the row of a reading. models StrainGraphCanvas.ts:132 -/
def View.y (v : View) (reading : Rat) : Rat := reading * 20 + v.height / 2

/-- the callback of `forEach`, with `firstPoint`. models StrainGraphCanvas.ts:122-140 -/
def View.path (v : View) (start : Rat) : List (Option (Rat × Rat)) → Bool → List Cmd
  | [], _ => []
  | none :: l, _ => .stroke :: .beginPath :: v.path start l true
  | some (t, r) :: l, true => .moveTo (v.x start t) (v.y r) :: v.path start l false
  | some (t, r) :: l, false => .lineTo (v.x start t) (v.y r) :: v.path start l false

/-- what is drawn for one channel. models StrainGraphCanvas.ts:118-143 -/
def View.draw (v : View) (start : Rat) (readings : List (Option (Rat × Rat))) : List Cmd := .beginPath :: v.path start readings true ++ [.stroke]

/-- the settings of the player of a channel: duration and number of samples. models StrainGraphCanvas.ts:228-240 -/
def View.playerOptions (v : View) : Rat × Nat := (v.windowDuration + 400, v.width)

end Verif.Graph
