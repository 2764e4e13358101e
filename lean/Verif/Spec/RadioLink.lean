import Verif.Model.VlpClient
import Verif.Spec.Radio
/-
What one attempt to send a command amounts to, and a link that loses packets between a ground station and a rocket.
-/
namespace Verif.Vlp

/-- what a freshly started client with the key `key` makes of a received packet -/
def decodeDown (x : Ext) (key buf : Bytes) : Out Downlink := (Builder.new x key).deserializeDownlink x 0 0 buf

/-- what one attempt amounts to: an acknowledgement came; nothing usable came; the radio failed; the client crashed on a malformed packet -/
def Attempt.kind (x : Ext) (key : Bytes) (a : Attempt) : Reply :=
  if a.txOk = false then .radioError
  else
    match a.rx with
    | .timeout => .other
    | .error => .radioError
    | .packet buf st =>
      match decodeDown x key buf with
      | .ok (.ack _) => .ack st
      | .ok (.telemetry _) => .other
      | .err => .other
      | .panic => .panic

/-- the receive buffer holds 49 bytes -/
def RxRes.Fits : RxRes → Prop
  | .packet buf _ => buf.length ≤ maxSize
  | _ => True

/-- what the result of sending is when the attempt that decides it ends so -/
def Reply.sendEnd : Reply → SendEnd
  | .ack st => .acked st
  | .other => .notAcked
  | .radioError => .radioError
  | .panic => .panic

/-- one exchange over a link that may lose packets in both directions: the ground station transmits `frame`, the rocket goes from `r` to `r'`, the
ground station receives `rx`. `heard`: the rocket received the frame; `acked`: the ground station received the rocket's answer -/
inductive LinkStep (x : Ext) (frame : Bytes) (r r' : Rocket) : RxRes → Bool → Bool → Prop
  | lost : LinkStep x frame r r' .timeout false false
  | answerLost (w : RPass) (st : Status) (fs : List Bytes) : w.rx = .packet frame st → w.txOk = true → w.ackOk = true → r.pass x w = .done r' fs →
      LinkStep x frame r r' .timeout true false
  | answered (w : RPass) (st st' : Status) (fs : List Bytes) (answer : Bytes) : w.rx = .packet frame st → w.txOk = true → w.ackOk = true →
      r.pass x w = .done r' (fs ++ [answer]) → LinkStep x frame r r' (.packet answer st') true true

end Verif.Vlp
