import Verif.Model.OzysDevices
/-
What the devices of the OZYS app should send.
-/
namespace Verif.Ozys

/-- times at which the timer of a stream fires in a history -/
def firings (s : Stream) : List DevOp → List Nat
  | [] => []
  | .tick s' now :: os => if s' = s then now :: firings s os else firings s os
  | _ :: os => firings s os

/-- the packets of readings of a channel -/
def readingsOf (c : String) : List Call → List (RPacket Rat)
  | [] => []
  | (c', .readings d) :: l => if c' = c then d :: readingsOf c l else readingsOf c l
  | (_, .fft _) :: l => readingsOf c l

/-- the spectra of a channel -/
def fftsOf (c : String) : List Call → List (FPacket Rat)
  | [] => []
  | (c', .fft d) :: l => if c' = c then d :: fftsOf c l else fftsOf c l
  | (_, .readings _) :: l => fftsOf c l

/-- the i-th mock device, in the hands of the manager -/
def mockDevice (i : Nat) : Dev := { newMock i with subs := 1 }

/-- the i-th microphone, in the hands of the manager -/
def micDevice (i : Nat) : Dev := { newMic i with subs := 1 }

/-- id of the k-th channel of a device -/
def channelId (dev : String) (k : Nat) : String := dev ++ "-channel-" ++ toString k

/-- a channel is not switched off in a history -/
def StaysOn (c : String) (ops : List DevOp) : Prop := ∀ e, DevOp.control c e ∈ ops → e = true

/-- the nearest multiple of ten: ties go up -/
def IsNearest (step x y : Nat) : Prop := step ∣ y ∧ 2 * y ≤ 2 * x + step ∧ 2 * x < 2 * y + step

/-- what the sound system delivered in a history: time, sound, spectrum -/
def audios : List DevOp → List (Nat × (Nat → Rat) × (Nat → Rat))
  | [] => []
  | .audio now a b :: os => (now, a, b) :: audios os
  | _ :: os => audios os

/-- of these, what a microphone passes on, with the time in whole tenths of a second: not what falls into the same tenth as what was passed on before -/
def heard : Option Nat → List (Nat × (Nat → Rat) × (Nat → Rat)) → List (Nat × (Nat → Rat) × (Nat → Rat))
  | _, [] => []
  | last, (now, a, b) :: l => if last = some ((now + 50) / 100) then heard last l else ((now + 50) / 100, a, b) :: heard (some ((now + 50) / 100)) l

/-- number of devices added in a history -/
def added : List MgrOp → Nat
  | [] => 0
  | .addMock :: os => added os + 1
  | .addMic :: os => added os + 1
  | _ :: os => added os

/-- number of mock devices added in a history -/
def addedMocks : List MgrOp → Nat
  | [] => 0
  | .addMock :: os => addedMocks os + 1
  | _ :: os => addedMocks os

/-- number of microphones added in a history -/
def addedMics : List MgrOp → Nat
  | [] => 0
  | .addMic :: os => addedMics os + 1
  | _ :: os => addedMics os

/-- what happens to the device number `r` with this id in a history of the manager: it is disconnected when that is first asked for, then it is off the list -/
def devOps (id : String) (r : Nat) : Bool → List MgrOp → List DevOp
  | _, [] => []
  | listed, .dev r' o :: os => if r' = r then o :: devOps id r listed os else devOps id r listed os
  | listed, .disconnect id' :: os => if id' = id ∧ listed = true then .disconnect :: devOps id r false os else devOps id r listed os
  | listed, _ :: os => devOps id r listed os

end Verif.Ozys
