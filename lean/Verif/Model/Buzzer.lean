import Verif.Model.PubSub
/-
The queue of beeps (firmware-common/src/common/buzzer_queue.rs) and the task that asks for beeps when the arming switch moves (avionics/mod.rs:461-481, ground_test_avionics/mod.rs:269-289).
The buzzer driver plays a tone for its duration and the delay driver waits for the silence: each ends at the first poll at or after its end. Times are ms.
-/
namespace Verif.Buzz
open Verif

/-- `BuzzerTone`. models buzzer_queue.rs:10-15 -/
structure Tone where
  frequency : Nat
  duration : Nat
  silence : Nat
  deriving DecidableEq

/-- where `run` is: before its first poll, waiting for a tone, playing one, silent after one. models buzzer_queue.rs:34-41 -/
inductive Phase
  | notStarted
  | idle
  | playing (t : Tone) (since : Nat)
  | silent (t : Tone) (since : Nat)
  deriving DecidableEq

/-- the channel (everything published since the subscriber exists, and the subscriber's position), the runner, and what the buzzer did (number of the message, tone, start). models buzzer_queue.rs:17-19, 34-41 -/
structure St where
  sent : List Tone
  pos : Nat
  phase : Phase
  played : List (Nat × Tone × Nat)

/-- `BuzzerQueueRunner::new`. models buzzer_queue.rs:22-26 -/
def St.new : St := ⟨[], 0, .notStarted, []⟩

/-- `publish`: without a subscriber the message is dropped (embassy `PubSubChannel`). models buzzer_queue.rs:49-52 -/
def St.publish (s : St) (t : Tone) : St :=
  if s.phase = .notStarted then s else { s with sent := s.sent ++ [t] }

/-- one step of a poll of `run`: a real poll goes on until nothing changes. models buzzer_queue.rs:34-41 -/
def St.poll (s : St) (now : Nat) : St :=
  match s.phase with
  | .notStarted => { s with phase := .idle }
  | .idle =>
    match (PubSub.unread 10 s.sent s.pos).head? with
    | none => s
    | some t => { s with pos := PubSub.next 10 s.sent s.pos + 1, phase := .playing t now, played := s.played ++ [(PubSub.next 10 s.sent s.pos, t, now)] }
  | .playing t since => if since + t.duration ≤ now then { s with phase := .silent t now } else s
  | .silent t since => if since + t.silence ≤ now then { s with phase := .idle } else s

/-- what can happen -/
inductive Op
  | publish (t : Tone)
  | poll (now : Nat)

/-- one step -/
def St.step (s : St) : Op → St
  | .publish t => s.publish t
  | .poll now => s.poll now

/-- a history -/
def St.run (s : St) (ops : List Op) : St := ops.foldl St.step s

/-- the beeps for switching on. models avionics/mod.rs:465-466, 472-473 -/
def up : List Tone := [⟨2000, 700, 300⟩, ⟨3000, 700, 300⟩]

/-- the beeps for switching off. models avionics/mod.rs:475-476 -/
def down : List Tone := [⟨3000, 700, 300⟩, ⟨2000, 700, 300⟩]

/-- `hardware_arming_beep_fut` up to its loop: `armed` is `is_armed()`. models avionics/mod.rs:463-467 -/
def beepStart (armed : Bool) : List Tone := if armed then up else []

/-- one turn of its loop: the variable, and what is published. models avionics/mod.rs:469-480 -/
def beepTurn (old new : Bool) : List Tone :=
  if !old && new then up else if old && !new then down else []

/-- the loop over the `hardware_armed` of the messages it receives. models avionics/mod.rs:469-480 -/
def beepLoop (old : Bool) : List Bool → List (List Tone)
  | [] => []
  | new :: rest => beepTurn old new :: beepLoop new rest

/-- the whole task: what it publishes, by turn. models avionics/mod.rs:461-481 -/
def beeps (armed : Bool) (msgs : List Bool) : List (List Tone) := beepStart armed :: beepLoop armed msgs

end Verif.Buzz
