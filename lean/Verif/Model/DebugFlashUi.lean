import Mathlib.Tactic.Common
import Mathlib.Logic.Function.Iterate

/-!
# Model of the debug flash page (vlfs/debug-flash-ui)

`vlfs/debug-flash-ui` is a web page standing in for a NOR flash chip: the file system under test sends
erase / read / write requests over a web socket, the page shows the pending request with the bytes it
*would* produce (`getCurrentByte`), and a click on *resume* executes it on the in-memory chip.
-/

namespace Verif.DebugFlashUi

/-! ## Model -/

/-- `FLASH_SIZE` (vlfs/debug-flash-ui/src/Flash.ts 1). -/
def flashSize : Nat := 262144 * 256

/-- `Flash.data : Uint8Array` (Flash.ts 4): the contents by address; only the addresses below
`flashSize` are elements of the array. -/
abbrev Mem := Nat → Nat

/-- `new Uint8Array(FLASH_SIZE)` (Flash.ts 4): all zero. -/
def newFlash : Mem := fun _ => 0

/-- `this.data[a] = v` (Flash.ts 13, 19, 25): a typed array ignores a store past its end and keeps
the value modulo 256. -/
def storeByte (m : Mem) (a v : Nat) : Mem :=
  if a < flashSize then fun x => if x = a then v % 256 else m x else m

/-- The three erase loops (Flash.ts 11–27): `for i in 0..n { data[address + i] = 0xff }`, the
iterations `i, i+1, …` with `k` left. -/
def eraseFrom (m : Mem) (address i : Nat) : Nat → Mem
  | 0 => m
  | k + 1 => eraseFrom (storeByte m (address + i) 0xff) address (i + 1) k

/-- `this.data.set(data, address)` (Flash.ts 33–35), with `new Uint8Array(data)` of
useHandleWebsocket.ts 128: `none` is the `RangeError` thrown when the bytes do not fit. -/
def setBytes (m : Mem) (address : Nat) (data : List Nat) : Option Mem :=
  if address + data.length ≤ flashSize then
    some fun x =>
      if address ≤ x then
        match data[x - address]? with
        | some v => v % 256
        | none => m x
      else m x
  else none

/-- `this.data.slice(address, address + length)` (Flash.ts 29–31): both ends clamped to the array. -/
def readBytes (m : Mem) (address length : Nat) : List Nat :=
  (List.range (min (address + length) flashSize - min address flashSize)).map
    fun i => m (address + i)

/-- `WsRequest` (useHandleWebsocket.ts 6–31). Addresses, lengths and bytes are natural numbers here;
the zod schema would admit any JSON number. -/
inductive Req
  | erase4 (address : Nat)
  | erase32 (address : Nat)
  | erase64 (address : Nat)
  | read (address length : Nat)
  | write (address : Nat) (data : List Nat)

/-- `getRequestRange` (useHandleWebsocket.ts 33–46). -/
def requestRange : Req → Nat × Nat
  | .erase4 a => (a, a + 4096)
  | .erase32 a => (a, a + 32768)
  | .erase64 a => (a, a + 65536)
  | .read a n => (a, a + n)
  | .write a _ => (a, a + 256)

/-- What the page sends back (useHandleWebsocket.ts 114–131). -/
inductive Reply
  | ok
  | bytes (data : List Nat)
  deriving DecidableEq

/-- The page: `flashRef.current` and `pendingRequest` (useHandleWebsocket.ts 49, 62). -/
structure Page where
  flash : Mem
  pending : Option Req

/-- The page just (dis)connected: a new chip and nothing pending (useHandleWebsocket.ts 64–67). -/
def Page.fresh : Page := ⟨newFlash, none⟩

/-- `getPrevByte` (useHandleWebsocket.ts 88–90): `data[address] ?? 0`. -/
def Page.prevByte (p : Page) (x : Nat) : Nat := if x < flashSize then p.flash x else 0

/-- `getCurrentByte` (useHandleWebsocket.ts 92–111); `none` is `undefined`. -/
def Page.currentByte (p : Page) (x : Nat) : Option Nat :=
  match p.pending with
  | none => some (p.prevByte x)
  | some r =>
    if (requestRange r).1 ≤ x ∧ x < (requestRange r).2 then
      match r with
      | .erase4 _ => some 0xff
      | .erase32 _ => some 0xff
      | .erase64 _ => some 0xff
      | .write a d => d[x - a]?
      | .read _ _ => some (p.prevByte x)
    else some (p.prevByte x)

/-- A request arrives (useHandleWebsocket.ts 69–86): it becomes the pending one, whatever was. -/
def Page.receive (p : Page) (r : Req) : Page := { p with pending := some r }

/-- `resume` (useHandleWebsocket.ts 113–136). A thrown `RangeError` leaves everything as it was. -/
def Page.resume (p : Page) : Page × Option Reply :=
  match p.pending with
  | none => (p, none)
  | some (.erase4 a) => (⟨eraseFrom p.flash a 0 4096, none⟩, some .ok)
  | some (.erase32 a) => (⟨eraseFrom p.flash a 0 32768, none⟩, some .ok)
  | some (.erase64 a) => (⟨eraseFrom p.flash a 0 65536, none⟩, some .ok)
  | some (.read a n) => (⟨p.flash, none⟩, some (.bytes (readBytes p.flash a n)))
  | some (.write a d) =>
    match setBytes p.flash a d with
    | some m => (⟨m, none⟩, some .ok)
    | none => (p, none)

/-- One request served: it arrives and is resumed. -/
def Page.serve (p : Page) (r : Req) : Page × Option Reply := (p.receive r).resume

/-- A history of requests, each served before the next arrives. -/
def Page.serveAll (p : Page) : List Req → Page
  | [] => p
  | r :: rs => ((p.serve r).1).serveAll rs

end Verif.DebugFlashUi
