/-
RPC over a serial line (firmware-common/src/common/console/create_rpc.rs): the server loop fed byte by byte, and the client's calls.
The rkyv encodings of requests and responses are bytes here; the handlers are parameters.
-/
namespace Verif.Rpc

abbrev Byte := BitVec 8

/-- one bit of CRC-8/SMBUS (polynomial 7) -/
def crcBit (c : Byte) : Byte := if c.msb then (c <<< 1) ^^^ 7#8 else c <<< 1

/-- one byte of CRC-8/SMBUS -/
def crcByte (c b : Byte) : Byte := crcBit (crcBit (crcBit (crcBit (crcBit (crcBit (crcBit (crcBit (c ^^^ b))))))))

/-- `Crc::<u8>::new(&CRC_8_SMBUS).checksum`: initial value 0, no reflection, no final exclusive-or (crate `crc`) -/
def crc8 (l : List Byte) : Byte := l.foldl crcByte 0

/-- what `create_rpc!` is given: the request size of each command, and the handlers: the state of the handlers, the command and the request give the new state and the response.
models create_rpc.rs:34-37; no command has the number 255 -/
structure Api (σ : Type) where
  size : Byte → Option Nat
  handler : σ → Byte → List Byte → σ × List Byte

/-- where the server loop is: waiting for a command, or reading the rest of a request of `size` bytes. models create_rpc.rs:117-141 -/
inductive Pos
  | command
  | request (id : Byte) (size : Nat) (got : List Byte)
  deriving DecidableEq

/-- the server: position, state of the handlers, requests handled so far, bytes written so far -/
structure Server (σ : Type) where
  pos : Pos
  app : σ
  ran : List (Byte × List Byte)
  out : List Byte

/-- a request is complete: check, handle, answer. models create_rpc.rs:143-168 -/
def Server.complete {σ : Type} (api : Api σ) (s : Server σ) (id : Byte) (size : Nat) (got : List Byte) : Server σ :=
  if crc8 (id :: got.take size) ≠ got.getD size 0 then { s with pos := .command }
  else
    let r := api.handler s.app id (got.take size)
    { pos := .command, app := r.1, ran := s.ran ++ [(id, got.take size)], out := s.out ++ r.2 ++ [crc8 r.2] }

/-- one received byte. models create_rpc.rs:117-178 -/
def Server.feed {σ : Type} (api : Api σ) (s : Server σ) (b : Byte) : Server σ := match s.pos with
  | .command => match api.size b with
    | some n => { s with pos := .request b n [] }
    | none => if b = 255#8 then { s with out := s.out ++ [255#8, 0x69#8] } else s
  | .request id n got =>
    if (got ++ [b]).length = n + 1 then s.complete api id n (got ++ [b]) else { s with pos := .request id n (got ++ [b]) }

/-- the line ends (`UnexpectedEof`): whatever was read of a request is dropped. models create_rpc.rs:120-123, 135-137 -/
def Server.eof {σ : Type} (s : Server σ) : Server σ := { s with pos := .command }

/-- many received bytes -/
def Server.feeds {σ : Type} (api : Api σ) (s : Server σ) (l : List Byte) : Server σ := l.foldl (Server.feed api) s

/-- the start. models create_rpc.rs:110-117 -/
def Server.new {σ : Type} (app : σ) : Server σ := ⟨.command, app, [], []⟩

/-- what the client writes for a call. models create_rpc.rs:252-266 -/
def request (id : Byte) (payload : List Byte) : List Byte := id :: payload ++ [crc8 (id :: payload)]

/-- what a call returns. models create_rpc.rs:7-13 -/
inductive Result
  | ok (response : List Byte)
  | eccMismatch
  | timeout
  deriving DecidableEq

/-- what a call makes of the bytes it read; `size` is the size of the response. models create_rpc.rs:287-298 -/
def check (size : Nat) (bytes : List Byte) : Result := if crc8 (bytes.take size) ≠ bytes.getD size 0 then .eccMismatch else .ok (bytes.take size)

/-- the bytes `reset` writes to flush the server; `max` is the size of the largest request. models create_rpc.rs:220 -/
def flush (max : Nat) : List Byte := List.replicate (max + 1) 255#8

/-- a client and a server on a line: the server, and the bytes on their way to the client -/
structure Link (σ : Type) where
  server : Server σ
  rx : List Byte

/-- what the server wrote goes to the client -/
def Link.deliver {σ : Type} (l : Link σ) : Link σ := { server := { l.server with out := [] }, rx := l.rx ++ l.server.out }

/-- a call; `inTime` = the server answers before the timeout of 5 s. A late answer arrives after the call has returned.
Simplification: an answer is late as a whole. models create_rpc.rs:236-308 -/
def Link.call {σ : Type} (api : Api σ) (l : Link σ) (id : Byte) (payload : List Byte) (size : Nat) (inTime : Bool) : Link σ × Result :=
  let l' := Link.deliver { l with server := l.server.feeds api (request id payload) }
  if l.rx.length ≥ size + 1 ∨ (inTime = true ∧ l'.rx.length ≥ size + 1) then ({ l' with rx := l'.rx.drop (size + 1) }, check size (l'.rx.take (size + 1)))
  else if inTime then ({ l' with rx := [] }, .timeout)
  else ({ l' with rx := l'.rx.drop l.rx.length }, .timeout)

/-- `reset`: flush the server, drop everything received, send 255, and expect the answer. models create_rpc.rs:211-233 -/
def Link.reset {σ : Type} (api : Api σ) (l : Link σ) (max : Nat) : Link σ × Bool :=
  let l := Link.deliver { l with server := l.server.feeds api (flush max) }
  let l := Link.deliver { server := l.server.feeds api [255#8], rx := [] }
  ({ l with rx := l.rx.drop 2 }, l.rx.take 2 = [255#8, 0x69#8])

end Verif.Rpc
