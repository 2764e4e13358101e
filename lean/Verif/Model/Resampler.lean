import Mathlib.Data.Rat.Floor
import Mathlib.Algebra.Order.Field.Rat
import Mathlib.Tactic.Linarith
import Mathlib.Tactic.FieldSimp
import Verif.Model.CircularBuffer
/-
The resampler of the OZYS app (ozys-app/src/database/Resampler.ts) and the player behind the strain graph (RealtimeStrainGraphPlayer.ts). Simplifications: numbers are exact (rational), so rounding is not
covered; the low-pass filter is a parameter (any function of its state and its input); the loop that lets the filter settle has fuel, `none` = it has not ended by then.
-/
namespace Verif.Ozys

/-- a filter: `process`. models Filter.ts:2-5 -/
structure Filter (σ : Type) where
  process : σ → Rat → Rat × σ

/-- `NoopFilter`. models Filter.ts:5-9 -/
def noop : Filter Unit := ⟨fun s x => (x, s)⟩

/-- the resampler; `nextSampleTimestamp` is always `sampleI * targetSampleDuration + targetSampleOffset` and is not kept. models Resampler.ts:3-10 -/
structure Resampler (σ : Type) where
  filter : σ
  start : Rat
  source : Rat
  target : Rat
  offset : Rat
  sourceI : Nat
  sampleI : Nat
  last : Option Rat

/-- the constructor, with the filter it chose. models Resampler.ts:12-44 -/
def Resampler.new {σ : Type} (f0 : σ) (start sourceRate targetRate offset : Rat) : Resampler σ :=
  ⟨f0, start, 1000 / sourceRate, 1000 / targetRate, offset, 0, if offset < 0 then 1 else 0, none⟩

/-- `nextSampleTimestamp`. models Resampler.ts:37-41, 82-83 -/
def sampleTime (target offset : Rat) (i : Nat) : Rat := i * target + offset

/-- `Math.abs(filteredReading - reading) / reading > 0.01`; in JavaScript x/0 is infinite and 0/0 is not a number. models Resampler.ts:53 -/
def unsettled (f reading : Rat) : Bool := if reading = 0 then decide (f ≠ 0) else decide (|f - reading| / reading > 1 / 100)

/-- letting the filter reach steady state. models Resampler.ts:52-55 -/
def settle {σ : Type} (p : Filter σ) (reading : Rat) : Nat → Rat → σ → Option (Rat × σ)
  | 0, f, s => if unsettled f reading then none else some (f, s)
  | n + 1, f, s => if unsettled f reading then settle p reading n (p.process s reading).1 (p.process s reading).2 else some (f, s)

/-- `lerp`. models Resampler.ts:86-88 -/
def lerp (a b t : Rat) : Rat := a + t * (b - a)

/-- the loop that emits samples between `lo` and `hi`: what it emits, and `sampleI` after it. A target duration that is not positive is an endless loop, not modelled. models Resampler.ts:66-85 -/
def emit (start source target offset lo hi a b : Rat) (i : Nat) : List (Rat × Rat) × Nat :=
  if h : 0 < target ∧ lo ≤ sampleTime target offset i ∧ sampleTime target offset i ≤ hi then
    let r := emit start source target offset lo hi a b (i + 1)
    ((start + sampleTime target offset i, lerp a b ((sampleTime target offset i - lo) / source)) :: r.1, r.2)
  else ([], i)
termination_by (⌊(hi - offset) / target⌋ + 1 - i).toNat
decreasing_by
  obtain ⟨h0, _, h2⟩ := h
  have h3 : (i : Rat) ≤ (hi - offset) / target := by
    rw [le_div_iff₀ h0]; unfold sampleTime at h2; linarith
  have : ((i : Int) : Rat) ≤ (hi - offset) / target := by exact_mod_cast h3
  have := Int.le_floor.mpr this
  omega

/-- `next`. models Resampler.ts:44-84 -/
def Resampler.next {σ : Type} (p : Filter σ) (fuel : Nat) (r : Resampler σ) (reading : Rat) : Option (List (Rat × Rat) × Resampler σ) :=
  let f := p.process r.filter reading
  match r.last with
  | none => (settle p reading fuel f.1 f.2).map fun s => ([], { r with filter := s.2, last := some s.1 })
  | some l =>
    let lo := ((r.sourceI : Rat) - 1) * r.source
    let e := emit r.start r.source r.target r.offset lo (lo + r.source) l f.1 r.sampleI
    some (e.1, { r with filter := f.2, sourceI := r.sourceI + 1, sampleI := e.2, last := some f.1 })

/-- feeding it a list of readings: all it returns. models RealtimeStrainGraphPlayer.ts:51-56 -/
def Resampler.feed {σ : Type} (p : Filter σ) (fuel : Nat) (r : Resampler σ) : List Rat → Option (List (Rat × Rat) × Resampler σ)
  | [] => some ([], r)
  | x :: xs => (r.next p fuel x).bind fun a => (a.2.feed p fuel xs).map fun b => (a.1 ++ b.1, b.2)

end Verif.Ozys
