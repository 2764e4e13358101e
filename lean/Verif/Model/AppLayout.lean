/-
The window layout of the Ozys app (ozys-app/src/components/FlexLayout.tsx, workspace/onAllowDrop.ts, defaultLayout.ts). Of a layout its tabs are modelled, in some order, each with its name and whether it is in
the border; sizes and splits are not. The layout library asks `onAllowDrop` before it moves a tab, does not close tabs with `enableClose: false`, and calls `onModelChange` after each change. Times are ms; a
debounced call happens when its time has come.
-/
namespace Verif.AppLayout

/-- a tab -/
structure Tab where
  name : String
  border : Bool
deriving DecidableEq, Repr

/-- the layout at the first start. models workspace/defaultLayout.ts:3-61 -/
def defaultLayout : List Tab := [⟨"Devices", true⟩, ⟨"Strain Graph", false⟩, ⟨"Spectrogram", false⟩]

/-- what is in the local storage under "model": nothing, something that is not a layout, or a layout -/
inductive Stored
  | nothing
  | junk
  | layout (l : List Tab)
deriving DecidableEq, Repr

/-- the types of tabs in the menu. models FlexLayout.tsx:22, 137-155 -/
inductive TabType
  | strainGraph
  | spectrogram
  | webUsb
deriving DecidableEq, Repr

/-- the names. models FlexLayout.tsx:22 -/
def TabType.name : TabType → String
  | .strainGraph => "Strain Graph"
  | .spectrogram => "Spectrogram"
  | .webUsb => "WebUSB Debug"

/-- the layout, what is stored, and when the debounced save is due. models FlexLayout.tsx:30-48 -/
structure App where
  layout : List Tab
  stored : Stored
  due : Option Nat
deriving DecidableEq, Repr

/-- `initModel`. models FlexLayout.tsx:36-44 -/
def load : Stored → List Tab
  | .layout l => l
  | _ => defaultLayout

/-- the page is opened. models FlexLayout.tsx:28-48 -/
def App.opened (s : Stored) : App := ⟨load s, s, none⟩

/-- `onAllowDrop`: a tab that is in the border, in the main part, or (`none`) nowhere yet, onto the border or not. models onAllowDrop.ts:3-24 -/
def allowDrop (tab : Option Bool) (ontoBorder : Bool) : Bool :=
  if ontoBorder && (tab = none || tab != some true) then false
  else if !ontoBorder && tab != none && tab = some true then false
  else true

/-- what the user does: moves tab `i` onto the border or not; closes it; adds one from the menu; or opens the page anew -/
inductive Ev
  | move (i : Nat) (ontoBorder : Bool)
  | close (i : Nat)
  | add (t : TabType)
  | reload
deriving DecidableEq, Repr

/-- the debounced save: 500 ms after the last change. models FlexLayout.tsx:46-48 -/
def App.changed (a : App) (now : Nat) (l : List Tab) : App := { a with layout := l, due := some (now + 500) }

/-- the time passes until `now`. models FlexLayout.tsx:46-48 -/
def App.tick (a : App) (now : Nat) : App :=
  match a.due with
  | some d => if d ≤ now then { a with stored := .layout a.layout, due := none } else a
  | none => a

/-- the user does something at time `now`. models onAllowDrop.ts:3-24 (`move`), defaultLayout.ts:22-25 (`close`: Devices cannot be closed), FlexLayout.tsx:77-85 (`add`), 36-44 (`reload`) -/
def App.user (a : App) (now : Nat) : Ev → App
  | .move i b =>
    match a.layout[i]? with
    | some t => if allowDrop (some t.border) b then a.changed now (a.layout.eraseIdx i ++ [{ t with border := b }]) else a
    | none => a
  | .close i =>
    match a.layout[i]? with
    | some t => if t.name = "Devices" then a else a.changed now (a.layout.eraseIdx i)
    | none => a
  | .add t => a.changed now (a.layout ++ [⟨t.name, false⟩])
  | .reload => .opened a.stored

/-- a step: time passes, then the user does something -/
def App.step (a : App) (x : Nat × Ev) : App := (a.tick x.1).user x.1 x.2

/-- any history -/
def App.run (a : App) (l : List (Nat × Ev)) : App := l.foldl App.step a

end Verif.AppLayout
