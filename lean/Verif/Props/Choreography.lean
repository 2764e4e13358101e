import Verif.Model.Choreography
import Verif.Spec.Calibration
import Verif.Props.Keyframe
import Mathlib.Tactic.NormNum
/-
C126: the simulated calibration movements are the ones the calibrator asks for.
-/
namespace Verif.Props

open Verif Cal Choreo

/-- the device's axis -/
def axisVec : Axis → V
  | .x => ⟨1, 0, 0⟩
  | .y => ⟨0, 1, 0⟩
  | .z => ⟨0, 0, 1⟩

def negVec (v : V) : V := ⟨-v.x, -v.y, -v.z⟩

/-- a vector of the device points up -/
def PointsUp (m : M) (v : V) : Prop := m.apply v = ⟨0, 1, 0⟩

/-- turned by a quarter about the device's own axis `a`, in the negative sense -/
def QuarterBack (a : Axis) (m n : M) : Prop :=
  n = m.mul (match a with | .x => rx (-1) | .y => ry (-1) | .z => rz (-1))

/-- how far apart two orientations are: the trace of the rotation between them is 3 for none, 1 for a quarter turn, -1 for a half turn -/
def traceBetween (m n : M) : Int :=
  m.x.x * n.x.x + m.x.y * n.x.y + m.x.z * n.x.z + (m.y.x * n.y.x + m.y.y * n.y.y + m.y.z * n.y.z) + (m.z.x * n.z.x + m.z.y * n.z.y + m.z.z * n.z.z)

/-- the announcements in their order, with the end -/
def announced : List State := order ++ [.success]

/-- the movements of a calibration, one after the other; `heres` are the places where the device is when they start -/
def moves (heres : State → V) : List (List Pose) := announced.filterMap fun s => frames (heres s) s

instance (m : M) (v : V) : Decidable (PointsUp m v) := by unfold PointsUp; infer_instance
instance (a : Axis) (m n : M) : Decidable (QuarterBack a m n) := by unfold QuarterBack; infer_instance

/-- the orientations of the movements do not depend on where the device is -/
theorem moves_turns (h h' : State → V) : (moves h).map (fun l => l.map Pose.turn) = (moves h').map (fun l => l.map Pose.turn) := rfl

/-- every movement begins with the orientation the one before ended with; the first begins and the last ends upright -/
theorem C126_joined (h : State → V) :
    ((moves h).map (fun l => l.map Pose.turn)).IsChain (fun a b => a.getLast? = b.head? ∧ a ≠ []) ∧
      ((moves h).map (fun l => l.map Pose.turn)).head?.bind List.head? = some (rz 0) ∧
      ((moves h).map (fun l => l.map Pose.turn)).getLast?.bind List.getLast? = some (rz 0) := by
  rw [moves_turns h (fun _ => ⟨0, 0, 0⟩)]
  decide +kernel

/-- two key frames in a row are never half a turn apart: the way between them is unambiguous (it is not for half a turn: panic). All are at most a
quarter turn apart, except one step of the last movement: a third of a turn. -/
theorem C126_unambiguous (h : State → V) : (∀ l ∈ (moves h).map (fun l => l.map Pose.turn), l.IsChain (fun m n => 0 ≤ traceBetween m n)) ∧
    ∀ l ∈ ((moves h).map (fun l => l.map Pose.turn)).dropLast, l.IsChain (fun m n => 1 ≤ traceBetween m n) := by
  rw [moves_turns h (fun _ => ⟨0, 0, 0⟩)]
  decide +kernel

/-- the last pose of the movements started before `s` is announced -/
def poseBefore (h : State → V) (s : State) : Option Pose :=
  ((announced.takeWhile (· ≠ s)).filterMap fun s => frames (h s) s).getLast?.bind List.getLast?

/-- when the calibrator wants the device at rest with an axis up or down, the device has been put down that way, on the table -/
theorem C126_rest (h : State → V) (a : Axis) :
    (∃ p, poseBefore h (.at a .plus .start) = some p ∧ PointsUp p.turn (axisVec a) ∧ 2 * p.place.y = extent a) ∧
    (∃ p, poseBefore h (.at a .minus .start) = some p ∧ PointsUp p.turn (negVec (axisVec a)) ∧ 2 * p.place.y = extent a) := by
  cases a <;> exact ⟨⟨_, rfl, rfl, rfl⟩, ⟨_, rfl, rfl, rfl⟩⟩

/-- when the calibrator wants a rotation about an axis, the device stands on the table with that axis up, and is turned about it by four quarters in
the negative sense: the -360 degrees that the calibrator expects -/
theorem C126_spin (h : State → V) (a : Axis) (here : V) :
    (∃ p, poseBefore h (.at a .rotation .start) = some p ∧ PointsUp p.turn (axisVec a) ∧ 2 * p.place.y = extent a) ∧
    (∃ l, frames here (.at a .rotation .start) = some l ∧ l.length = 5 ∧ (∀ p ∈ l, PointsUp p.turn (axisVec a) ∧ p.place = here) ∧
      (l.map Pose.turn).IsChain (QuarterBack a)) ∧ (Inner.new none none).expectedAngle = 4 * (-90) := by
  refine ⟨?_, ?_, by norm_num [Inner.new]⟩
  · cases a <;> exact ⟨_, rfl, rfl, rfl⟩
  · cases a <;> refine ⟨_, rfl, rfl, ?_, ?_⟩
    all_goals first
      | (intro p hp
         simp only [spin, List.map_cons, List.map_nil, List.mem_cons, List.not_mem_nil, or_false] at hp
         rcases hp with rfl | rfl | rfl | rfl | rfl <;> exact ⟨rfl, rfl⟩)
      | (simp only [spin, List.map_cons, List.map_nil]; decide +kernel)

/-- the states that are not in the list start no movement, and neither do the states that measure at rest: the device is not moved while it is measured -/
theorem C126_measured (here : V) (q : State) (h : Sampling q) : frames here q = none := by
  obtain ⟨a, s, h | h⟩ := h <;> subst h <;> cases a <;> cases s <;> rfl

/-- every movement passes through its key frames at whole seconds, in whatever way the simulation's frames fall -/
theorem C126_seconds (lerp : Keyframe.Lerp Pose ℚ) (hl : Ends lerp) (here : V) (s : State) (l : List Pose) (hf : frames here s = some l) (n : Nat) (p : Pose)
    (hp : l[n]? = some p) : Keyframe.show_ lerp (animation l) n = .frame p := by
  have hlen : 2 ≤ l.length := by
    unfold frames at hf
    split at hf <;> (first | (cases hf; simp [lift, spin]) | (cases hf))
  have hpl : Playable (animation l) :=
    ⟨by intro hc; have := congrArg List.length hc; simp [animation] at this; omega, by simp [animation]; omega,
      by intro d hd; simp [animation] at hd; rw [hd.2]; norm_num⟩
  have hn : n < l.length := (List.getElem?_eq_some_iff.mp hp).1
  have := C125_keyframe lerp hl (animation l) hpl n p hp
  have hd : due (animation l) n = n := by
    unfold due animation
    simp [List.take_replicate]
    omega
  rwa [hd] at this

/-- interpolations that are exact at their ends exist -/
example : Ends (fun (a b : Pose) (r : ℚ) => if r < 1 then a else b) := fun a b => by norm_num

end Verif.Props
