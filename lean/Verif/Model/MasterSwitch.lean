/-
The arming switch of a module as the flight computer sees it (vl8-ctrl-protocol/src/master_drivers.rs; the continuity of a pyro works alike): the module queues an event for each change, the master polls it into a
slot of one event, the driver takes its events from there. The bus itself is the subject of Model/ModuleBus.lean; here a poll that is answered brings the oldest event, and an answer that is lost on the line takes its event with it (C82).
-/
namespace Verif.MasterSwitch

/-- an event: the switch has a new position, or an event for another driver. models packages/event.rs:14-20 -/
inductive Event
  | switch (position : Bool)
  | other
deriving DecidableEq, Repr

/-- the position of the switch and the module's queue; the master's slot; the driver: the result of its first request (`none`: not yet started), the value kept and the signal; and what the application was told.
models slave.rs:16-41, master.rs:21-26, master_drivers.rs:98-113 -/
structure Sys where
  real : Bool
  queue : List Event
  slot : Option Event
  started : Option Bool
  kept : Bool
  signal : Option Bool
  told : List Bool

/-- before anything happened. models master_drivers.rs:104-113 (`new`: false) -/
def Sys.new (real : Bool) : Sys := ⟨real, [], none, none, false, none, []⟩

/-- what can happen: the switch is moved; the module has another event; a poll, answered or lost; the driver starts, its request is answered or not; the driver's task runs; another driver's task runs; the application
waits for a change (`wait_arming_change`), if there is a signal -/
inductive Step
  | change (position : Bool)
  | otherEvent
  | poll (answered : Bool)
  | start (answered : Bool)
  | run
  | runOther
  | wait
deriving DecidableEq, Repr

/-- `push_event`: of five events the oldest makes room. models slave.rs:31-41 -/
def push (q : List Event) (e : Event) : List Event := (if q.length = 5 then q.drop 1 else q) ++ [e]

/-- one step. models slave.rs:31-41 (`change`, `otherEvent`), master.rs:85-102 (`poll`), master_drivers.rs:115-125 (`start`), 126-143 (`run`), 60-85, 170-200 (`runOther`), 146-157 (`wait`) -/
def Sys.step (s : Sys) : Step → Sys
  | .change p => { s with real := p, queue := push s.queue (.switch p) }
  | .otherEvent => { s with queue := push s.queue .other }
  | .poll true =>
    match s.queue with
    | [] => s
    | e :: q => { s with queue := q, slot := some e }
  | .poll false => { s with queue := s.queue.drop 1 }
  | .start ok =>
    match s.started with
    | some _ => s
    | none => if ok then { s with started := some true, kept := s.real, signal := some s.real } else { s with started := some false }
  | .run =>
    match s.started, s.slot with
    | some _, some (.switch p) => { s with slot := none, kept := p, signal := some p }
    | _, _ => s
  | .runOther => if s.slot = some .other then { s with slot := none } else s
  | .wait =>
    match s.signal with
    | some p => { s with signal := none, told := s.told ++ [p] }
    | none => s

/-- any schedule -/
def Sys.exec (s : Sys) (l : List Step) : Sys := l.foldl Sys.step s

/-- `read_arming`. models master_drivers.rs:153-156 -/
def Sys.read (s : Sys) : Bool := s.kept

end Verif.MasterSwitch
