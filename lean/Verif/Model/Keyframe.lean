/-
Key frame animations of the simulator (launch-simulator/src/keyframe.rs). Numbers are elements of an ordered field in place of f32 (so
division by a duration of zero gives zero, where the code gets NaN; the theorems ask for positive durations). A kind of key frame is a type
with a `lerp`.
-/
import Mathlib.Algebra.Order.Field.Basic

namespace Verif.Keyframe

variable {K F : Type} [Field F] [LinearOrder F]

/-- `trait KeyFrame`. models launch-simulator/src/keyframe.rs:4-6 -/
abbrev Lerp (K F : Type) := K → K → F → K

/-- `lerp` of f32. models keyframe.rs:8-12 -/
def lerpNum : Lerp F F := fun a b r => a + (b - a) * r

/-- `Animation`, and `AnimationBuilder` with the same fields. models keyframe.rs:38-46 -/
structure Animation (K F : Type) where
  durations : List F
  keyframes : List K

/-- `AnimationBuilder::new`. models keyframe.rs:49-54 -/
def new : Animation K F := ⟨[], []⟩

/-- `add_keyframe`. models keyframe.rs:56-60 -/
def Animation.addKeyframe (b : Animation K F) (k : K) (d : F) : Animation K F := ⟨b.durations ++ [d], b.keyframes ++ [k]⟩

/-- `add_keyframe_absolute`. models keyframe.rs:61-66 -/
def Animation.addAbsolute (b : Animation K F) (k : K) (t : F) : Animation K F := ⟨b.durations ++ [t - b.durations.sum], b.keyframes ++ [k]⟩

/-- `finish`. models keyframe.rs:68-74 -/
def Animation.finish (b : Animation K F) (k : K) : Animation K F := ⟨b.durations, b.keyframes ++ [k]⟩

/-- what `update` does -/
inductive Out (K : Type)
  | frame (k : K)
  | finished
  | panic

/-- the loop of `update`: the segment the time is in, the time since its start and its duration; `none`: all segments are over (the first
check of the loop condition, before any segment is over, indexes `durations[0]`: see `update`). models keyframe.rs:96-103 -/
def walk : List F → Nat → F → Option (Nat × F × F)
  | [], _, _ => none
  | d :: ds, i, t => if t > d then walk ds (i + 1) (t - d) else some (i, t, d)

/-- what is shown when the player's time is `t`. models keyframe.rs:94-108 -/
def show_ (lerp : Lerp K F) (a : Animation K F) (t : F) : Out K := match a.durations with
  | [] => .panic
  | ds => match walk ds 0 t with
    | none => .finished
    | some (i, r, d) => match a.keyframes[i]?, a.keyframes[i + 1]? with
      | some k, some k' => .frame (lerp k k' (r / d))
      | _, _ => .panic

/-- `AnimationPlayer`; the flag for despawning the entity is used by `animation_system`. models keyframe.rs:78-91 -/
structure Player (K F : Type) where
  animation : Animation K F
  time : F

/-- `AnimationPlayer::new`. models keyframe.rs:85-91 -/
def Player.new (a : Animation K F) : Player K F := ⟨a, 0⟩

/-- `update`. models keyframe.rs:93-109 -/
def Player.update (lerp : Lerp K F) (p : Player K F) (delta : F) : Player K F × Out K :=
  (⟨p.animation, p.time + delta⟩, show_ lerp p.animation (p.time + delta))

/-- the frames of the simulation, with the time passed since the previous one: what each shows. models keyframe.rs:112-132 -/
def Player.run (lerp : Lerp K F) (p : Player K F) : List F → List (Out K)
  | [] => []
  | d :: ds => (p.update lerp d).2 :: Player.run lerp (p.update lerp d).1 ds

end Verif.Keyframe
