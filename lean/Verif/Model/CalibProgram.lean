import Verif.Model.Calibrator
/-
The console program that calibrates the IMU (firmware-common/src/common/console/programs/calibrate.rs): it reads the sensor, announces each new state by sounds, answers and stores the parameters. Readings, the
buzzer and the serial line do not fail. No reading is taken while a sound is played. What is done with the parameters is the subject of Model/CalibrationFile.lean.
-/
namespace Verif.Cal

/-- a tone with its frequency (Hz) and duration, or silence (ms). models firmware-common/src/driver/buzzer.rs (`play`) and `delay_ms` -/
inductive Sound
  | tone (frequency duration : Nat)
  | silence (duration : Nat)
deriving DecidableEq

/-- `waiting_still_sound`. models calibrate.rs:29-37 -/
def waitingStillSound : List Sound := [.tone 1000 50, .silence 150, .tone 1250 50, .silence 150, .tone 1000 50, .silence 150, .tone 1250 50, .silence 150]

/-- the number of beeps of `axis_sound`. models calibrate.rs:41-45 -/
def beepCount : Axis → Nat
  | .x => 1
  | .y => 2
  | .z => 3

/-- `axis_sound`. models calibrate.rs:39-52 -/
def axisSound (a : Axis) : List Sound := (List.replicate (beepCount a) [Sound.tone 2700 50, .silence 150]).flatten ++ [.silence 250]

/-- `direction_sound`. models calibrate.rs:54-74 -/
def directionSound : Dir → List Sound
  | .plus => [.tone 2000 50, .silence 150, .tone 3500 50, .silence 400]
  | .minus => [.tone 3500 50, .silence 150, .tone 2000 50, .silence 400]
  | .rotation => (List.range 15).map (fun i => .tone (2000 + i * 100) 4) ++ [.silence 400]

/-- `event_sound`. models calibrate.rs:76-89 -/
def eventSound : Event → List Sound
  | .start => [.tone 1500 25, .silence 75, .tone 1500 25]
  | .finish => [.tone 1500 250]
  | .variance => []

/-- `success_sound`. models calibrate.rs:91-97 -/
def successSound : List Sound := (List.range 4).flatMap fun i => [.tone (1000 + i * 250) 50, .silence 150]

/-- `failure_sound`. models calibrate.rs:99-105 -/
def failureSound : List Sound := (List.range 4).reverse.flatMap fun i => [.tone (1000 + i * 250) 50, .silence 150]

/-- what is played for a state. models calibrate.rs:127-144 -/
def announce : State → List Sound
  | .waitingStill => waitingStillSound
  | .at a d e => if e ≠ .variance then axisSound a ++ directionSound d ++ eventSound e else []
  | .success => successSound
  | .failure => failureSound
  | .idle => []

/-- what the program has done: the number of readings taken, the sounds, the byte answered and the parameters stored -/
structure Done where
  readings : Nat
  sounds : List Sound
  answer : Option Nat
  stored : Option Info

/-- the loop; `none`: panic. It is still running when there is no answer. models calibrate.rs:122-170 -/
noncomputable def calLoop (c : Calib) : List Reading → Option Done
  | [] => some ⟨0, [], none, none⟩
  | r :: rs =>
    match c.process r with
    | none => none
    | some (c, none) => (calLoop c rs).map fun d => { d with readings := d.readings + 1 }
    | some (c, some s) =>
      if s = .success then
        match c.info with
        | none => none
        | some i => some ⟨1, announce s, some 1, some i⟩
      else if s = .failure then some ⟨1, announce s, some 0, none⟩
      else (calLoop c rs).map fun d => { d with readings := d.readings + 1, sounds := announce s ++ d.sounds }

/-- `run`: with a threshold of 0.05 for stillness. models calibrate.rs:113-172 -/
noncomputable def calProgram (rs : List Reading) : Option Done := calLoop (.new (some (5 / 100)) none none) rs

end Verif.Cal
