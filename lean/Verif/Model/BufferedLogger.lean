import Verif.Basic
/-
The buffered logger (firmware-common/src/common/delta_logger/buffered_logger.rs): readings are queued by the caller and written by a task of its own.
An event is one poll of a task up to its next await; tasks are interleaved in any order. The queue is an embassy `PubSubChannel` with one subscriber, taken
from the documentation of the crate: `publish_immediate` drops the oldest message when the queue is full, and drops the new one when nobody has subscribed.
-/
namespace Verif.Buffered

/-- calls of the logger behind the buffer; models delta_logger_trait.rs, `log` and `log_unix_time` are one kind of entry
(`either::Either`), buffered_logger.rs:25-31,137-146 -/
inductive Call (α : Type) where
  | log (x : α)
  | flush
  deriving DecidableEq, Repr

/-- where the task of the runner is; models buffered_logger.rs:148-180 -/
inductive Runner where
  | notStarted | select | drainFlush | drainStop | stopped | panicked
  deriving DecidableEq, Repr

/-- where the owner of the logger is: free to call, in `flush`, in `into_inner`, or holding the inner logger;
models buffered_logger.rs:76-122 -/
inductive Client where
  | ready | flushing | stopping | done
  deriving DecidableEq, Repr

/-- the shared state and both tasks; `published` is a record of what was given to `log`. models buffered_logger.rs:20-36 -/
structure St (α : Type) where
  cap : Nat
  queue : List α
  request : Bool
  response : Bool
  stop : Bool
  present : Bool
  calls : List (Call α)
  runner : Runner
  client : Client
  published : List α
  deriving Repr

/-- models buffered_logger.rs:44-64 -/
def St.new {α : Type} (cap : Nat) : St α := ⟨cap, [], false, false, false, true, [], .notStarted, .ready, []⟩

/-- the subscriber exists; models buffered_logger.rs:154 -/
def Runner.started : Runner → Bool
  | .notStarted => false
  | .panicked => false
  | _ => true

/-- the runner holds the mutex around the logger; models buffered_logger.rs:149, released when `run` returns -/
def Runner.holds : Runner → Bool
  | .select | .drainFlush | .drainStop => true
  | _ => false

/-- `publish_immediate`; models buffered_logger.rs:77-87 -/
def push {α : Type} (cap : Nat) (q : List α) (x : α) : List α := (if q.length < cap then q else q.drop 1) ++ [x]

/-- `log` of the caller, which returns at once; models buffered_logger.rs:102-105 -/
def St.publish {α : Type} (s : St α) (x : α) : St α :=
  { s with queue := if s.runner.started then push s.cap s.queue x else s.queue, published := s.published ++ [x] }

/-- one poll of the runner: it takes one message, or starts or finishes a flush; models buffered_logger.rs:148-180. There is no
`send_response` for a flush request. -/
def St.poll {α : Type} (s : St α) : St α :=
  match s.runner with
  | .notStarted => if s.present then { s with runner := .select } else { s with runner := .panicked }
  | .select =>
    match s.queue with
    | x :: q => { s with queue := q, calls := s.calls ++ [.log x] }
    | [] =>
      if s.request then { s with request := false, runner := .drainFlush }
      else if s.stop then { s with stop := false, runner := .drainStop }
      else s
  | .drainFlush =>
    match s.queue with
    | x :: q => { s with queue := q, calls := s.calls ++ [.log x] }
    | [] => { s with calls := s.calls ++ [.flush], runner := .select }
  | .drainStop =>
    match s.queue with
    | x :: q => { s with queue := q, calls := s.calls ++ [.log x] }
    | [] => { s with calls := s.calls ++ [.flush], runner := .stopped }
  | .stopped => s
  | .panicked => s

/-- what can happen -/
inductive Ev (α : Type) where
  | log (x : α)
  | flush
  | dropFlush
  | intoInner
  | pollClient
  | pollRunner

/-- one event. `log`, `flush` and `into_inner` borrow or consume the logger, so they are calls of a client that is in no other call. `flush` sends its request at
once (the request channel has one slot; with a request of a dropped `flush` still in it the new one waits, as the state is the same to the runner).
models buffered_logger.rs:90-122, rpc_channel.rs:30-34 -/
def St.step {α : Type} (s : St α) : Ev α → St α
  | .log x => if s.client = .ready then s.publish x else s
  | .flush => if s.client = .ready then { s with request := true, client := .flushing } else s
  | .dropFlush => if s.client = .flushing then { s with client := .ready } else s
  | .intoInner => if s.client = .ready then { s with stop := true, client := .stopping } else s
  | .pollClient =>
    match s.client with
    | .flushing => if s.response then { s with response := false, client := .ready } else s
    | .stopping => if s.runner.holds then s else if s.present then { s with present := false, client := .done } else s
    | _ => s
  | .pollRunner => s.poll

def St.run {α : Type} (s : St α) (evs : List (Ev α)) : St α := evs.foldl St.step s

end Verif.Buffered
