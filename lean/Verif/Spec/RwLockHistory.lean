import Verif.Model.RwLock
/-
All schedules of a reader/writer lock: any number of tasks, any interleaving of polls, guard drops and cancellations.
-/
namespace Verif.RwLock

/-- the lock together with what the tasks around it hold and wait for -/
structure World where
  lock : Lock
  /-- tasks holding a read guard (a task may hold several) -/
  readers : List Nat
  /-- tasks holding a write guard -/
  writers : List Nat
  /-- tasks with a pending `read()` -/
  waitR : List Nat
  /-- tasks with a pending `write()` -/
  waitW : List Nat
  /-- number of `write()` futures dropped while pending -/
  cancelled : Nat
  /-- tasks woken and not polled since: the ones the executor will poll -/
  woken : List Nat

/-- the initial world -/
def World.new : World := ⟨Lock.new, [], [], [], [], 0, []⟩

/-- one step of any task; the registration has `n` slots. A task waits for at most one guard of this lock at a time. -/
inductive Step (n : Nat) : World → World → Prop
  /-- a `read()` future is polled (first poll, a poll after a wake-up, or a spurious one) and gets the guard -/
  | readReady (w : World) (t : Nat) (l : Lock) (wk : List Nat) (hn : t ∉ w.waitW) (h : w.lock.pollRead n t = (true, l, wk)) :
      Step n w { w with lock := l, readers := t :: w.readers, waitR := w.waitR.erase t, woken := w.woken.filter (· ≠ t) ++ wk }
  /-- ... or has to wait -/
  | readPending (w : World) (t : Nat) (l : Lock) (wk : List Nat) (hn : t ∉ w.waitW) (h : w.lock.pollRead n t = (false, l, wk)) :
      Step n w { w with lock := l, waitR := t :: w.waitR.erase t, woken := w.woken.filter (· ≠ t) ++ wk }
  /-- the pending `read()` is dropped -/
  | readCancel (w : World) (t : Nat) (h : t ∈ w.waitR) : Step n w { w with waitR := w.waitR.erase t }
  /-- `write()` is polled for the first time and gets the guard -/
  | writeStartReady (w : World) (t : Nat) (l : Lock) (wk : List Nat) (hn : t ∉ w.waitW) (hr : t ∉ w.waitR)
      (h : w.lock.startWrite.pollWrite n t = (true, l, wk)) :
      Step n w { w with lock := l, writers := t :: w.writers, woken := w.woken.filter (· ≠ t) ++ wk }
  /-- ... or has to wait -/
  | writeStartPending (w : World) (t : Nat) (l : Lock) (wk : List Nat) (hn : t ∉ w.waitW) (hr : t ∉ w.waitR)
      (h : w.lock.startWrite.pollWrite n t = (false, l, wk)) :
      Step n w { w with lock := l, waitW := t :: w.waitW, woken := w.woken.filter (· ≠ t) ++ wk }
  /-- a pending `write()` is polled again and gets the guard -/
  | writeReady (w : World) (t : Nat) (l : Lock) (wk : List Nat) (hw : t ∈ w.waitW) (h : w.lock.pollWrite n t = (true, l, wk)) :
      Step n w { w with lock := l, writers := t :: w.writers, waitW := w.waitW.erase t, woken := w.woken.filter (· ≠ t) ++ wk }
  /-- ... or has to wait on -/
  | writePending (w : World) (t : Nat) (l : Lock) (wk : List Nat) (hw : t ∈ w.waitW) (h : w.lock.pollWrite n t = (false, l, wk)) :
      Step n w { w with lock := l, woken := w.woken.filter (· ≠ t) ++ wk }
  /-- the pending `write()` is dropped -/
  | writeCancel (w : World) (t : Nat) (h : t ∈ w.waitW) :
      Step n w { w with waitW := w.waitW.erase t, cancelled := w.cancelled + 1 }
  /-- a read guard is dropped -/
  | readDrop (w : World) (t : Nat) (l : Lock) (wk : List Nat) (hr : t ∈ w.readers) (h : w.lock.dropRead = some (l, wk)) :
      Step n w { w with lock := l, readers := w.readers.erase t, woken := w.woken ++ wk }
  /-- a write guard is dropped -/
  | writeDrop (w : World) (t : Nat) (l : Lock) (wk : List Nat) (hr : t ∈ w.writers) (h : w.lock.dropWrite = some (l, wk)) :
      Step n w { w with lock := l, writers := w.writers.erase t, woken := w.woken ++ wk }

/-- all reachable worlds -/
inductive Reach (n : Nat) : World → Prop
  | start : Reach n World.new
  | step {w w' : World} (h : Reach n w) (hs : Step n w w') : Reach n w'

/-- continuing from a world -/
inductive Steps (n : Nat) (w : World) : World → Prop
  | refl : Steps n w w
  | step {w' w'' : World} (h : Steps n w w') (hs : Step n w' w'') : Steps n w w''

end Verif.RwLock
