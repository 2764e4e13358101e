/-
The virtual serial links of the Simulink bridge (vl-simulink-bridge/src/virtual_serial.rs) and of the launch simulator (launch-simulator/src/virt_drivers/serial.rs), and the mock radio of the launch simulator
(virt_drivers/vlp_phy.rs). An unbounded channel of tokio is a list of messages; `watch` keeps the last value and its version. A poll that has to wait leaves everything as it is. Left out: what happens when the
other end of the bridge link is gone (both ends belong to one program), signal strength (constant), the half second of `tx` (only when `tx` happens counts).
-/
namespace Verif.Virt

/-! ### The link of the Simulink bridge -/

/-- one direction: messages in the channel, and `buffer` of the receiving half. models virtual_serial.rs:9-12, 61-64 -/
structure Pipe where
  queue : List (List UInt8)
  buffer : List UInt8
deriving DecidableEq

/-- `write`. models virtual_serial.rs:55-58 -/
def Pipe.write (p : Pipe) (data : List UInt8) : Pipe := { p with queue := p.queue ++ [data] }

/-- a poll of `read` with a buffer of `n` bytes; none: it has to wait. models virtual_serial.rs:71-85 -/
def Pipe.read (p : Pipe) (n : Nat) : Option (List UInt8) × Pipe :=
  if p.buffer.length > 0 then (some (p.buffer.take n), { p with buffer := p.buffer.drop n })
  else match p.queue with
    | [] => (none, p)
    | data :: queue => (some (data.take n), ⟨queue, data.drop n⟩)

/-- `split` once more (after the halves were dropped): a new receiving half with an empty buffer. models virtual_serial.rs:34-47 -/
def Pipe.resplit (p : Pipe) : Pipe := { p with buffer := [] }

/-- the two ends -/
inductive Side
  | a
  | b
deriving DecidableEq

/-- the other end -/
def Side.other : Side → Side
  | .a => .b
  | .b => .a

/-- both directions: `pipe s` is what end `s` reads from. models virtual_serial.rs:15-28 -/
structure Link where
  pipe : Side → Pipe

/-- `new`. models virtual_serial.rs:15-28 -/
def Link.new : Link := ⟨fun _ => ⟨[], []⟩⟩

/-- what can happen at an end -/
inductive LinkOp
  | write (data : List UInt8)
  | read (n : Nat)
  | resplit
deriving DecidableEq

/-- one direction changed -/
def Link.setPipe (l : Link) (s : Side) (p : Pipe) : Link := ⟨fun s' => if s' = s then p else l.pipe s'⟩

/-- one step at end `s`: the bytes a read returns. models virtual_serial.rs:34-85 -/
def Link.step (l : Link) (s : Side) : LinkOp → Option (List UInt8) × Link
  | .write data => (none, l.setPipe s.other ((l.pipe s.other).write data))
  | .read n => (((l.pipe s).read n).1, l.setPipe s ((l.pipe s).read n).2)
  | .resplit => (none, l.setPipe s (l.pipe s).resplit)

/-- a history: for each end, the results of its reads that returned, in order, and the state -/
def Link.run (l : Link) : List (Side × LinkOp) → List (Side × List UInt8) × Link
  | [] => ([], l)
  | (s, o) :: os =>
    (((l.step s o).1.toList.map fun d => (s, d)) ++ ((l.step s o).2.run os).1, ((l.step s o).2.run os).2)

/-! ### The link of the launch simulator -/

/-- result of a read -/
inductive ReadRes
  /-- it has to wait -/
  | pending
  | data (d : List UInt8)
  /-- the message does not fit into the buffer: index out of range -/
  | panic
  /-- the other end is gone -/
  | err
deriving DecidableEq

/-- one direction: messages in the channel, and whether the sending end is still there. models launch-simulator/src/virt_drivers/serial.rs:7-19 -/
structure MsgPipe where
  queue : List (List UInt8)
  open' : Bool

/-- `write`, `blocking_write`. models serial.rs:22-24, 34-37 -/
def MsgPipe.write (p : MsgPipe) (data : List UInt8) : MsgPipe := { p with queue := p.queue ++ [data] }

/-- a poll of `read` with a buffer of `n` bytes. models serial.rs:39-48 -/
def MsgPipe.read (p : MsgPipe) (n : Nat) : ReadRes × MsgPipe :=
  match p.queue with
  | data :: queue => (if data.length ≤ n then .data data else .panic, { p with queue := queue })
  | [] => (if p.open' then .pending else .err, p)

/-- `try_read`. models serial.rs:26-28 -/
def MsgPipe.tryRead (p : MsgPipe) : Option (List UInt8) × MsgPipe :=
  match p.queue with
  | data :: queue => (some data, { p with queue := queue })
  | [] => (none, p)

/-- what can happen -/
inductive MsgOp
  | write (data : List UInt8)
  | read (n : Nat)
  | tryRead
  /-- the sending end is dropped -/
  | close

/-- one step. models serial.rs:21-48 -/
def MsgPipe.step (p : MsgPipe) : MsgOp → List ReadRes × MsgPipe
  | .write data => ([], if p.open' then p.write data else p)
  | .read n => ([(p.read n).1], (p.read n).2)
  | .tryRead => (match p.tryRead.1 with | some d => [.data d] | none => [], p.tryRead.2)
  | .close => ([], { p with open' := false })

/-- a history -/
def MsgPipe.run (p : MsgPipe) : List MsgOp → List ReadRes × MsgPipe
  | [] => ([], p)
  | o :: os => ((p.step o).1 ++ ((p.step o).2.run os).1, ((p.step o).2.run os).2)

/-! ### The mock radio -/

/-- one direction of the mock radio: value and version of the `watch` channel, the version the receiver has seen, whether the sender is there, and whether a receive is between `changed` and `borrow`.
models launch-simulator/src/virt_drivers/vlp_phy.rs:27-40, 48-56 -/
structure Air where
  value : List UInt8
  version : Nat
  seen : Nat
  alive : Bool
  taking : Bool
deriving DecidableEq

/-- at first: the empty package, seen. models vlp_phy.rs:27-35 -/
def Air.new : Air := ⟨[], 0, 0, true, false⟩

/-- what can happen; sender and receiver run in threads of their own, so that a send can come between the two halves of a receive -/
inductive AirOp
  /-- the sender sends (after its half second) -/
  | tx (payload : List UInt8)
  /-- a poll of `changed` -/
  | poll
  /-- the rest of `rx`, after `changed` returned: `borrow` -/
  | take
  /-- a poll of `rx_with_timeout` when the time is up -/
  | expired
  /-- the sender is gone -/
  | gone
deriving DecidableEq

/-- what the receiver gets -/
inductive AirRes
  | package (d : List UInt8)
  | timeout
deriving DecidableEq

/-- `tx`: more than 222 bytes panic (nothing is sent). models vlp_phy.rs:43-46 -/
def Air.tx (a : Air) (payload : List UInt8) : Air := if payload.length ≤ 222 then { a with value := payload, version := a.version + 1 } else a

/-- one step: `rx` goes on after `changed` if there is a new version or the sender is gone (the error is ignored); with the time up, `select` looks at the timer first. models vlp_phy.rs:43-68 -/
def Air.step (a : Air) : AirOp → List AirRes × Air
  | .tx payload => ([], if a.alive then a.tx payload else a)
  | .poll => ([], if a.taking then a else if a.version ≠ a.seen then { a with seen := a.version, taking := true } else if a.alive then a else { a with taking := true })
  | .take => if a.taking then ([.package a.value], { a with taking := false }) else ([], a)
  | .expired => if a.taking then ([], a) else ([.timeout], a)
  | .gone => ([], { a with alive := false })

/-- a history -/
def Air.run (a : Air) : List AirOp → List AirRes × Air
  | [] => ([], a)
  | o :: os => ((a.step o).1 ++ ((a.step o).2.run os).1, ((a.step o).2.run os).2)

end Verif.Virt
