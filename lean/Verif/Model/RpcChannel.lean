/-
Calls between tasks through two channels of one element (firmware-common/src/common/rpc_channel.rs), and the mailbox of received downlink packets
(firmware-common/src/gcm/mod.rs). `embassy_sync::channel::Channel` of capacity 1 is an external crate, taken from its documentation: `send` waits while there is an element,
`receive` waits while there is none, `try_send` fails when there is one.
-/
namespace Verif.RpcChan

/-- `RpcChannel`. models firmware-common/src/common/rpc_channel.rs:3-6 -/
structure Chan (Q P : Type) where
  req : Option Q
  resp : Option P
deriving DecidableEq

/-- `RpcChannel::new`. models rpc_channel.rs:9-14 -/
def Chan.new {Q P : Type} : Chan Q P := ⟨none, none⟩

/-- what a poll of the future of `call` yields: it still waits to send, it waits for the answer, or it returns the answer -/
inductive Polled (P : Type) where
  | sending
  | waiting
  | ready (p : P)

/-- a poll of the second line of `call`. models rpc_channel.rs:30-33 -/
def Chan.pollReceive {Q P : Type} (c : Chan Q P) : Chan Q P × Polled P :=
  match c.resp with
  | some p => ({ c with resp := none }, .ready p)
  | none => (c, .waiting)

/-- a poll of the future of `call(q)` that has not sent its request yet: if it can send, it goes on to the second line at once. models rpc_channel.rs:30-33 -/
def Chan.pollSend {Q P : Type} (c : Chan Q P) (q : Q) : Chan Q P × Polled P :=
  match c.req with
  | some _ => (c, .sending)
  | none => Chan.pollReceive { c with req := some q }

/-- `get_request` of the server, if there is a request. models rpc_channel.rs:41-43 -/
def Chan.takeRequest {Q P : Type} (c : Chan Q P) : Option (Q × Chan Q P) := c.req.map fun q => (q, { c with req := none })

/-- `send_response` of the server, if the slot is free. models rpc_channel.rs:45-47 -/
def Chan.putResponse {Q P : Type} (c : Chan Q P) (p : P) : Option (Chan Q P) :=
  match c.resp with
  | none => some { c with resp := some p }
  | some _ => none

/-- where the loop of the server is: at `get_request`, handling a request, at `send_response`. models gcm/mod.rs:48-54 -/
inductive Server (Q P : Type) where
  | get
  | busy (q : Q)
  | answer (p : P)
deriving DecidableEq

/-- a received packet is put into the mailbox, if that is empty (`try_send(..).ok()`). models gcm/mod.rs:56-61 -/
def mailboxPut {α : Type} (m : Option α) (x : α) : Option α :=
  match m with
  | none => some x
  | some y => some y

/-- the console asks for a packet (`try_receive().ok()`): the packet and the mailbox afterwards. models common/console/vl_rpc.rs:138-142 -/
def mailboxPoll {α : Type} (m : Option α) : Option α × Option α := (m, none)

end Verif.RpcChan
