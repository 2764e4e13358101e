import Verif.Model.Resampler
/-
The frequency axis of the spectrogram of the OZYS app (ozys-app/src/database/RealtimeSpectrogramPlayer.ts). Simplifications as in Model/Resampler.lean: exact numbers, and the filter is a parameter (its
coefficients, which differ for the two halves, are part of its state).
-/
namespace Verif.Ozys

/-- the buffer of the frequency axis, a `Float32Array`; `none` = not a number. models RealtimeSpectrogramPlayer.ts:33, 48-50 -/
abbrev FBuf := List (Option Rat)

/-- the constructor. models RealtimeSpectrogramPlayer.ts:48-50 -/
def FBuf.new (count : Nat) : FBuf := List.replicate count (some 0)

/-- assignment to an element of a `Float32Array`: ignored outside of it -/
def FBuf.put (b : FBuf) (i : Int) (v : Option Rat) : FBuf := if 0 ≤ i then b.set i.toNat v else b

/-- reading an element of a `Float32Array` and storing it in one: `undefined` becomes not a number -/
def FBuf.at' (b : FBuf) (i : Int) : Option Rat := if 0 ≤ i then (b[i.toNat]?).join else none

/-- the settings: lowest frequency (Hz) and samples per Hz. models RealtimeSpectrogramPlayer.ts:26-31, 44-47 -/
structure FAxis where
  min : Rat
  rate : Rat

/-- from the options. models RealtimeSpectrogramPlayer.ts:44-47 -/
def FAxis.new (minFrequency maxFrequency : Rat) (count : Nat) : FAxis := ⟨minFrequency, count / (maxFrequency - minFrequency)⟩

/-- `hzToBufferI`. models RealtimeSpectrogramPlayer.ts:89-93 -/
def FAxis.index (a : FAxis) (hz : Rat) : Int := ⌊(hz - a.min) * a.rate⌋

/-- the inner loops: storing the resampled frequencies (mHz, amplitude); the flag says that the function returned. The samples of all bins are computed first and then stored, which cannot be told apart.
models RealtimeSpectrogramPlayer.ts:106-123, 140-159 -/
def FAxis.store (a : FAxis) : List (Rat × Rat) → FBuf → Int → Bool × FBuf × Int
  | [], b, last => (false, b, last)
  | (f, amplitude) :: l, b, last =>
    if (b.length : Int) ≤ a.index (f / 1000) then (true, b, last)
    else if a.index (f / 1000) < 0 then a.store l b last
    else a.store l (b.put (a.index (f / 1000)) (some amplitude)) (a.index (f / 1000))

/-- the loop that repeats the last value up to `top`. models RealtimeSpectrogramPlayer.ts:124-129, 161-166 -/
def fillUp (top : Int) (b : FBuf) (last : Int) : FBuf × Int :=
  if 0 < top - last then fillUp top (b.put (last + 1) (b.at' last)) (last + 1) else (b, last)
termination_by (top - last).toNat

/-- `resampleFrequencyAxis`; `none` = a filter does not settle. models RealtimeSpectrogramPlayer.ts:95-169 -/
def FAxis.resample {σ : Type} (a : FAxis) (p : Filter σ) (fuel : Nat) (fa fb : σ) (low high : List Rat) (b : FBuf) : Option FBuf :=
  ((Resampler.new fa 0 (1 / 10) a.rate 0).feed p fuel low).bind fun r =>
    let s := a.store r.1 b (-1)
    if s.1 then some s.2.1
    else
      let s := fillUp (a.index 2000) s.2.1 s.2.2
      ((Resampler.new fb (2000 * 1000) (1 / 50) a.rate 0).feed p fuel high).bind fun r =>
        let s := a.store r.1 s.1 s.2
        if s.1 then some s.2.1 else some (fillUp (a.index 20000) s.2.1 s.2.2).1

end Verif.Ozys
