import Verif.Model.FairMutex
/-
All schedules of tasks that use a `FairMutex`.
-/
namespace Verif.FairMutex

/-- the mutex and the tasks around it -/
structure World where
  lock : Lock
  /-- tasks that hold a guard -/
  holders : List Nat
  /-- tasks with a `lock()` that has been polled and is pending, the longest waiting first -/
  waiting : List Nat
  /-- tasks woken and not polled since: the ones the executor will poll -/
  woken : List Nat
  /-- record: the tasks that got the guard, in order -/
  grants : List Nat

def World.new : World := ⟨Lock.new, [], [], [], []⟩

/-- One step of any task; the queue has `n` places. With `calm`, a pending `lock()` is only polled again after a wake-up and never dropped, and the tasks are the numbers below `n`. A task waits for at most one guard of this mutex at a time. -/
inductive Step (n : Nat) (calm : Prop) : World → World → Prop
  /-- `lock()` is polled and gets the guard -/
  | ready (w : World) (t : Nat) (l : Lock) (hc : calm → t < n ∧ (t ∈ w.waiting → t ∈ w.woken)) (h : w.lock.poll n t = (true, l)) :
      Step n calm w { w with lock := l, holders := t :: w.holders, waiting := w.waiting.erase t, woken := w.woken.filter (· ≠ t), grants := w.grants ++ [t] }
  /-- … or has to wait -/
  | pending (w : World) (t : Nat) (l : Lock) (hc : calm → t < n ∧ (t ∈ w.waiting → t ∈ w.woken)) (h : w.lock.poll n t = (false, l)) :
      Step n calm w { w with lock := l, waiting := if t ∈ w.waiting then w.waiting else w.waiting ++ [t], woken := w.woken.filter (· ≠ t) }
  /-- a pending `lock()` is dropped -/
  | cancel (w : World) (t : Nat) (hc : ¬ calm) (h : t ∈ w.waiting) : Step n calm w { w with waiting := w.waiting.erase t, woken := w.woken.filter (· ≠ t) }
  /-- a guard is dropped -/
  | drop (w : World) (t : Nat) (l : Lock) (wk : List Nat) (hm : t ∈ w.holders) (h : w.lock.release = (l, wk)) : Step n calm w { w with lock := l, holders := w.holders.erase t, woken := w.woken ++ wk }

/-- all reachable worlds -/
inductive Reach (n : Nat) (calm : Prop) : World → Prop
  | start : Reach n calm World.new
  | step {w w' : World} (h : Reach n calm w) (hs : Step n calm w w') : Reach n calm w'

/-- continuing from a world, through worlds with the property `P` only -/
inductive Steps (n : Nat) (calm : Prop) (P : World → Prop) (w : World) : World → Prop
  | refl (h : P w) : Steps n calm P w w
  | step {w' w'' : World} (h : Steps n calm P w w') (hs : Step n calm w' w'') (hp : P w'') : Steps n calm P w w''

end Verif.FairMutex
