import Verif.Model.Vlp
/-
Pyro selection (common/pyro_macro.rs), the continuity tasks and the firing task of the ground test (ground_test_avionics/mod.rs).
-/
namespace Verif.Gt

open Verif Vlp

/-- the six devices behind the pyro macro -/
inductive Dev
  | ctrl1
  | ctrl2
  | ctrl3
  | cont1
  | cont2
  | cont3
  deriving DecidableEq

/-- `pyro!(.., pyro_ctrl..)`. models common/pyro_macro.rs:19-33 -/
def ctrlDev : Pyro → Dev
  | .pyro1 => .ctrl1
  | .pyro2 => .ctrl2
  | .pyro3 => .ctrl3

/-- `pyro!(.., pyro_cont..)`. models common/pyro_macro.rs:3-17 -/
def contDev : Pyro → Dev
  | .pyro1 => .cont1
  | .pyro2 => .cont2
  | .pyro3 => .cont2

/-- the two continuity tasks -/
inductive ContTask
  | main
  | drogue
  deriving DecidableEq

/-- who holds the mutex of which continuity device (while waiting for a change), what each task has reported, and whether a claim failed. models avionics/mod.rs:482-518, ground_test_avionics/mod.rs:213-247 -/
structure Cont where
  holder : Dev → Option ContTask
  mainReports : List Bool
  drogueReports : List Bool
  /-- a claim failed: the firmware panicked -/
  panicked : Bool

/-- at the start no mutex is held -/
def Cont.init : Cont := ⟨fun _ => none, [], [], false⟩

/-- one report -/
def Cont.report (c : Cont) (k : ContTask) (v : Bool) : Cont :=
  match k with
  | .main => { c with mainReports := c.mainReports ++ [v] }
  | .drogue => { c with drogueReports := c.drogueReports ++ [v] }

/-- a poll of a continuity task whose pin has value `v`; `changed` says whether it changed since the last poll. While the mutex is free the task claims it, reads, reports, and claims it
again for the wait, all in one poll. Claiming a device is `try_lock().unwrap()` (vl_device_manager.rs:247-254): it panics if the mutex is held. Reading the pin does not block.
models avionics/mod.rs:482-518 -/
def Cont.poll (c : Cont) (sel : ContTask → Pyro) (k : ContTask) (v changed : Bool) : Cont :=
  let d := contDev (sel k)
  if c.panicked then c
  else
    match c.holder d with
    | none => { c.report k v with holder := fun e => if e = d then some k else c.holder e }
    | some j => if j = k then (if changed = true then c.report k v else c) else { c with panicked := true }

/-- a history of polls -/
def Cont.run (sel : ContTask → Pyro) (l : List (ContTask × Bool × Bool)) : Cont := l.foldl (fun c x => c.poll sel x.1 x.2.1 x.2.2) .init

/-- where the firing task is. models ground_test_avionics/mod.rs:136-207 -/
inductive Fire
  | waiting
  | count (sel : Pyro) (left : Nat) (since : Nat)
  | firing (sel : Pyro) (since : Nat)
  | cooldown (since : Nat)
  | done
  deriving DecidableEq

/-- the firing task, arming as the other tasks see it, what was done to the pyro channels, and the logged fire times. models ground_test_avionics/mod.rs:78-80, 136-207 -/
structure Gt where
  fire : Fire
  hardwareArmed : Bool
  acts : List (Dev × Bool × Nat)
  log : List Nat
  fireTime : Nat

/-- after boot; software arming is set at once. models ground_test_avionics/mod.rs:78-80 -/
def Gt.init : Gt := ⟨.waiting, false, [], [], 0⟩

/-- what can happen: a packet, the arming switch, the firing task is polled at a time -/
inductive Op
  | packet (p : Uplink) (now : Nat)
  | switch (armed : Bool)
  | poll (now : Nat)

/-- one step; delays end at the first poll at or after their end. Storage errors and driver errors (`unwrap`) are not modelled. models ground_test_avionics/mod.rs:136-207 -/
def Gt.step (g : Gt) : Op → Gt
  | .packet p now =>
    match g.fire with
    | .waiting =>
      match p with
      | .groundTestDeploy _ sel => { g with fire := .count sel 2 now }
      | _ => { g with fire := .done }
    | _ => g
  | .switch armed => { g with hardwareArmed := armed }
  | .poll now =>
    match g.fire with
    | .count sel left since =>
      if since + 1000 ≤ now then
        match left with
        | 0 => { g with fire := .firing sel now, fireTime := now, acts := g.acts ++ [(ctrlDev sel, true, now)] }
        | left + 1 => { g with fire := .count sel left now }
      else g
    | .firing sel since => if since + 3000 ≤ now then { g with fire := .cooldown now, acts := g.acts ++ [(ctrlDev sel, false, now)], log := g.log ++ [g.fireTime] } else g
    | .cooldown since => if since + 10000 ≤ now then { g with fire := .done } else g
    | _ => g

/-- a history -/
def Gt.run (l : List Op) : Gt := l.foldl Gt.step .init

end Verif.Gt
