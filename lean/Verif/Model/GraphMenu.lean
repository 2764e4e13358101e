import Mathlib.Algebra.Order.Field.Rat
/-
The menu and the mouse wheel of the strain graph of the OZYS app (ozys-app/src/components/straingraph/StrainGraph.tsx). Numbers are exact in place of double precision; a colour is a number, 0 is
black. What the canvas does with the channels and the zoom is in Model/StrainGraph.lean.
-/
namespace Verif.GraphMenu

/-- `selectedChannels` (the id of a channel and its colour, as `SelectedChannel` in StrainGraphCanvas.ts) and `msPerPixel`. models StrainGraph.tsx:11-15 -/
structure Menu where
  selected : List (Nat × Nat)
  msPerPixel : ℚ

/-- models StrainGraph.tsx:11-15 (the defaults) -/
def Menu.new : Menu := ⟨[], 10⟩

/-- what the user does: clicks the check box of a channel, picks a colour for a channel, turns the wheel by `deltaY` -/
inductive Ev
  | toggle (channel : Nat)
  | colour (channel c : Nat)
  | wheel (deltaY : ℚ)

/-- whether the check box is checked. models StrainGraph.tsx:194-201 -/
def Menu.isSelected (m : Menu) (channel : Nat) : Bool := (m.selected.find? (·.1 == channel)).isSome

/-- `draft.find(…)!.color = …`: the first entry of the channel gets the colour; `none`: there is none, and the assignment throws. models StrainGraph.tsx:221-228 -/
def recolour (channel c : Nat) : List (Nat × Nat) → Option (List (Nat × Nat))
  | [] => none
  | x :: xs =>
    if x.1 == channel then some ((x.1, c) :: xs)
    else match recolour channel c xs with
      | none => none
      | some xs => some (x :: xs)

/-- one event; `none`: the handler throws. models StrainGraph.tsx:202-213 (`toggle`), 221-228 (`colour`), 245-250 (`wheel`) -/
def Menu.step (m : Menu) : Ev → Option Menu
  | .toggle ch =>
    if m.isSelected ch then some { m with selected := m.selected.filter fun x => x.1 != ch }
    else some { m with selected := m.selected ++ [(ch, 0)] }
  | .colour ch c =>
    match recolour ch c m.selected with
    | none => none
    | some l => some { m with selected := l }
  | .wheel d => some { m with msPerPixel := m.msPerPixel * (1 + d / 1000) }

/-- a sequence of events. models StrainGraph.tsx:9-254 (the component) -/
def Menu.run (m : Menu) : List Ev → Option Menu
  | [] => some m
  | e :: es =>
    match m.step e with
    | none => none
    | some m => m.run es

end Verif.GraphMenu
