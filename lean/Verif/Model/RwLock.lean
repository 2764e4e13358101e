/-
The asynchronous reader/writer lock (vlfs/src/utils/rwlock.rs). Each `poll`, the start of `write()` and each guard drop runs inside
a blocking mutex and is one atomic step. A task is a natural number; a waker is the task it wakes.
-/
namespace Verif.RwLock

/-- `LockedState`. models vlfs/src/utils/rwlock.rs:11-16 -/
inductive Locked
  | unlocked
  | read (n : Nat)
  | write
deriving DecidableEq, Repr

/-- `State`. `wakers` is `embassy_sync::MultiWakerRegistration<N>` (external crate): the registered tasks.
models rwlock.rs:18-22 -/
structure Lock where
  locked : Locked
  pending : Nat
  wakers : List Nat
deriving DecidableEq, Repr

/-- `RwLock::new`. models rwlock.rs:37-46 -/
def Lock.new : Lock := ⟨.unlocked, 0, []⟩

/-- `MultiWakerRegistration::register` of embassy-sync: a task already registered is kept; when the `N` slots are full everyone is
woken first. Returns the tasks woken. (external crate, modelled from its documentation) -/
def Lock.register (n : Nat) (l : Lock) (t : Nat) : Lock × List Nat :=
  if t ∈ l.wakers then (l, [])
  else if l.wakers.length ≥ n then ({ l with wakers := [t] }, l.wakers)
  else ({ l with wakers := l.wakers ++ [t] }, [])

/-- `MultiWakerRegistration::wake` of embassy-sync: wakes and forgets all. Returns the tasks woken. (external crate) -/
def Lock.wake (l : Lock) : Lock × List Nat := ({ l with wakers := [] }, l.wakers)

/-- one poll of the future of `read()` by task `t`: ready?, lock, woken tasks. models rwlock.rs:53-83 -/
def Lock.pollRead (n : Nat) (l : Lock) (t : Nat) : Bool × Lock × List Nat :=
  if l.pending > 0 then (false, l, [])
  else
    match l.locked with
    | .unlocked => (true, { l with locked := .read 1 }, [])
    | .read k => (true, { l with locked := .read (k + 1) }, [])
    | .write => (false, l.register n t)

/-- the first statement of `write()`, executed at the first poll of its future. models rwlock.rs:85-89 -/
def Lock.startWrite (l : Lock) : Lock := { l with pending := l.pending + 1 }

/-- one poll of the inner future of `write()` by task `t`. models rwlock.rs:85-113 -/
def Lock.pollWrite (n : Nat) (l : Lock) (t : Nat) : Bool × Lock × List Nat :=
  match l.locked with
  | .unlocked => (true, { l with pending := l.pending - 1, locked := .write }, [])
  | _ => (false, l.register n t)

/-- drop of a read guard; `none` = panic. models rwlock.rs:128-147 -/
def Lock.dropRead (l : Lock) : Option (Lock × List Nat) :=
  match l.locked with
  | .read k => some (Lock.wake { l with locked := if k = 1 then .unlocked else .read (k - 1) })
  | _ => none

/-- drop of a write guard; `none` = panic. models rwlock.rs:168-185 -/
def Lock.dropWrite (l : Lock) : Option (Lock × List Nat) :=
  match l.locked with
  | .write => some (Lock.wake { l with locked := .unlocked })
  | _ => none

end Verif.RwLock
