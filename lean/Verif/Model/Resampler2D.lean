import Verif.Model.Resampler
/-
The resampler of the time axis of the spectrogram of the OZYS app (ozys-app/src/database/Resampler2D.ts). Simplifications as in Model/Resampler.lean: exact numbers (a cell that is not a number, C111, is not
covered), the filter is a parameter, the loop that lets a filter settle has fuel.
-/
namespace Verif.Ozys

/-- the resampler; `nextSampleTimestamp` is always `sampleI * targetSampleDuration + targetSampleOffset` and is not kept; `linear` tells the two interpolators apart. models Resampler2D.ts:3-11 -/
structure Resampler2 (σ : Type) where
  filters : List σ
  linear : Bool
  start : Rat
  source : Rat
  target : Rat
  offset : Rat
  sourceI : Nat
  sampleI : Nat
  last : Option (List Rat)

/-- the constructor, with the initial state of the filters it makes. models Resampler2D.ts:13-51 -/
def Resampler2.new {σ : Type} (f0 : σ) (width : Nat) (start sourceRate targetRate offset : Rat) : Resampler2 σ :=
  { filters := List.replicate width f0, linear := decide (sourceRate > targetRate), start := start, source := 1000 / sourceRate, target := 1000 / targetRate, offset := offset,
    sourceI := 0, sampleI := if offset < 0 then 1 else 0, last := none }

/-- the two interpolators. models Resampler2D.ts:114-128 -/
def interpolate (linear : Bool) (a b : List Rat) (t : Rat) : List Rat :=
  if linear then List.zipWith (fun x y => lerp x y t) a b else if t < 1 / 2 then a else b

/-- the loop that emits samples between `lo` and `hi`: what it emits, and `sampleI` after it; `g` interpolates. models Resampler2D.ts:83-103 -/
def emitRows {α : Type} (start source target offset lo hi : Rat) (g : Rat → α) (i : Nat) : List (Rat × α) × Nat :=
  if h : 0 < target ∧ lo ≤ sampleTime target offset i ∧ sampleTime target offset i ≤ hi then
    let r := emitRows start source target offset lo hi g (i + 1)
    ((start + sampleTime target offset i, g ((sampleTime target offset i - lo) / source)) :: r.1, r.2)
  else ([], i)
termination_by (⌊(hi - offset) / target⌋ + 1 - i).toNat
decreasing_by
  obtain ⟨h0, _, h2⟩ := h
  have h3 : (i : Rat) ≤ (hi - offset) / target := by
    rw [le_div_iff₀ h0]; unfold sampleTime at h2; linarith
  have : ((i : Int) : Rat) ≤ (hi - offset) / target := by exact_mod_cast h3
  have := Int.le_floor.mpr this
  omega

/-- all filters take one step. models Resampler2D.ts:57-61 -/
def processRow {σ : Type} (p : Filter σ) : List σ → List Rat → List (Rat × σ)
  | f :: fs, x :: xs => p.process f x :: processRow p fs xs
  | _, _ => []

/-- the filters settle, one after the other. models Resampler2D.ts:64-72 -/
def settleRow {σ : Type} (p : Filter σ) (fuel : Nat) : List (Rat × σ) → List Rat → Option (List (Rat × σ))
  | f :: fs, x :: xs => (settle p x fuel f.1 f.2).bind fun a => (settleRow p fuel fs xs).map fun r => a :: r
  | _, _ => some []

/-- `next`; `none` = a filter does not settle. models Resampler2D.ts:53-107 -/
def Resampler2.next {σ : Type} (p : Filter σ) (fuel : Nat) (r : Resampler2 σ) (row : List Rat) : Option (List (Rat × List Rat) × Resampler2 σ) :=
  let f := processRow p r.filters row
  match r.last with
  | none => (settleRow p fuel f row).map fun s => ([], { r with filters := s.map (·.2), last := some (s.map (·.1)) })
  | some l =>
    let lo := ((r.sourceI : Rat) - 1) * r.source
    let e := emitRows r.start r.source r.target r.offset lo (lo + r.source) (interpolate r.linear l (f.map (·.1))) r.sampleI
    some (e.1, { r with filters := f.map (·.2), sourceI := r.sourceI + 1, sampleI := e.2, last := some (f.map (·.1)) })

/-- feeding it rows: all it returns. models RealtimeSpectrogramPlayer.ts:73-83 -/
def Resampler2.feed {σ : Type} (p : Filter σ) (fuel : Nat) (r : Resampler2 σ) : List (List Rat) → Option (List (Rat × List Rat) × Resampler2 σ)
  | [] => some ([], r)
  | x :: xs => (r.next p fuel x).bind fun a => (a.2.feed p fuel xs).map fun b => (a.1 ++ b.1, b.2)

end Verif.Ozys
