/-
`ZeroCopyChannel` (firmware-common/src/common/zerocopy_channel.rs): one sender, one receiver that holds at most one guard, on any interleaving of their steps.
The index channel (embassy `PubSubChannel` with one subscriber) keeps the last `n` unread indices, as documented.
-/
namespace Verif.Zc

/-- what the receiver is doing: nothing, waiting for the lock of a slot, or holding a slot -/
inductive Recv
  | idle
  | wants (i : Nat)
  | holds (i : Nat)
  deriving DecidableEq

/-- something visible: a value was sent, a value was received -/
inductive Ev (T : Type)
  | sent (v : T)
  | got (v : T)
  deriving DecidableEq

/-- `ZeroCopyChannel` with its sender and receiver. models common/zerocopy_channel.rs:12-15, 41-44, 99-102 -/
structure Chan (T : Type) where
  n : Nat
  values : Nat → T
  /-- published and unread indices, oldest first -/
  ready : List Nat
  /-- `curr_ready_value` -/
  curr : Nat
  /-- the sender holds the guard of slot `curr` -/
  sending : Bool
  recv : Recv
  trace : List (Ev T)

/-- `new`, `sender`, `receiver`. models common/zerocopy_channel.rs:26-31 -/
def Chan.new {T : Type} (n : Nat) (default : T) : Chan T := ⟨n, fun _ => default, [], 0, false, .idle, []⟩

/-- `try_start_send`, or one poll of `start_send`. models common/zerocopy_channel.rs:47-57 -/
def Chan.startSend {T : Type} (c : Chan T) : Chan T := if c.sending = false ∧ c.recv ≠ .holds c.curr then { c with sending := true } else c

/-- the guard is dropped after `v` was stored through it: unlock, publish the index, go on to the next slot. models common/zerocopy_channel.rs:85-98 -/
def Chan.finish {T : Type} (c : Chan T) (v : T) : Chan T :=
  if c.sending then
    let ready := c.ready ++ [c.curr]
    { c with
      values := fun i => if i = c.curr then v else c.values i
      sending := false
      ready := ready.drop (ready.length - c.n)
      curr := if c.n ≤ c.curr + 1 then 0 else c.curr + 1
      trace := c.trace ++ [.sent v] }
  else c

/-- taking the lock of slot `i`, if the sender does not have it -/
def Chan.lock {T : Type} (c : Chan T) (i : Nat) : Chan T :=
  if c.sending = true ∧ c.curr = i then { c with recv := .wants i } else { c with recv := .holds i, trace := c.trace ++ [.got (c.values i)] }

/-- one poll of `receive`. models common/zerocopy_channel.rs:113-118 -/
def Chan.receive {T : Type} (c : Chan T) : Chan T := match c.recv with
  | .holds _ => c
  | .wants i => c.lock i
  | .idle => match c.ready with
    | [] => c
    | i :: rest => Chan.lock { c with ready := rest } i

/-- the receiver drops its guard -/
def Chan.release {T : Type} (c : Chan T) : Chan T := match c.recv with
  | .holds _ => { c with recv := .idle }
  | _ => c

/-- the steps -/
inductive Op (T : Type)
  | startSend
  | finish (v : T)
  | receive
  | release

/-- one step -/
def Chan.step {T : Type} (c : Chan T) : Op T → Chan T
  | .startSend => c.startSend
  | .finish v => c.finish v
  | .receive => c.receive
  | .release => c.release

/-- a schedule -/
def Chan.run {T : Type} (n : Nat) (default : T) (l : List (Op T)) : Chan T := l.foldl Chan.step (.new n default)

end Verif.Zc
