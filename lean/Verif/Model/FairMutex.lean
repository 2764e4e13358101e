/-
The mutex of vlfs/src/utils/fair_mutex.rs. Each poll of `lock()` and each guard drop runs inside a blocking mutex and is one atomic step. A task is a natural number; a waker is the task it wakes.
-/
namespace Verif.FairMutex

/-- `State`: whether the mutex is taken, and the queue of wakers (`heapless::Deque` of capacity `N`). models vlfs/src/utils/fair_mutex.rs:11-14 -/
structure Lock where
  locked : Bool
  queue : List Nat
deriving DecidableEq, Repr

/-- `FairMutex::new`. models fair_mutex.rs:28-36 -/
def Lock.new : Lock := ⟨false, []⟩

/-- one poll of the future of `lock()` by task `t`: does it get the guard? The waker is dropped when the queue is full (`push_back(..).ok()`). models fair_mutex.rs:43-61 -/
def Lock.poll (n : Nat) (l : Lock) (t : Nat) : Bool × Lock :=
  if l.locked then (false, if l.queue.length < n then { l with queue := l.queue ++ [t] } else l)
  else (true, { l with locked := true })

/-- a guard is dropped: the lock and the tasks woken. models fair_mutex.rs:71-84 -/
def Lock.release (l : Lock) : Lock × List Nat := (⟨false, l.queue.tail⟩, l.queue.head?.toList)

end Verif.FairMutex
