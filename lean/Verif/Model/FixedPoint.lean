import Mathlib.Algebra.Order.Floor.Ring
import Mathlib.Data.Nat.Log
import Mathlib.Data.Rat.Floor
/-
Fixed-point quantisation (firmware-common/src/common/fixed_point.rs, calculate-required-bits/src/lib.rs).
Floating point numbers are rationals, infinities and NaN. Every float operation is the exact operation followed by a rounding
`rnd : ℚ → ℚ`, which is a parameter (`id` = exact arithmetic); exponent overflow and underflow are not modelled.
The macros compute the bounds and the number of bits at compile time in f32: here they are exact.
-/
namespace Verif.Fix

/-- an f32 or f64 value -/
inductive Flt
  | nan
  | inf (neg : Bool)
  | fin (q : ℚ)
  deriving DecidableEq

/-- the arguments of `fixed_point_factory!`, with `calculate_min` and `calculate_max` evaluated.
models calculate-required-bits/src/lib.rs:6-11 and firmware-common/src/common/fixed_point.rs:23-26 -/
structure Factory where
  min : ℚ
  max : ℚ
  maxError : ℚ

/-- mode `minmax`. models calculate-required-bits/src/lib.rs:63-119 (minmax branches) -/
def minmax (min max maxError : ℚ) : Factory := ⟨min, max, maxError⟩

/-- mode `slope`. models calculate-required-bits/src/lib.rs:63-119 (slope branches) and fixed_point.rs:121-134 -/
def slope (thresholdSlope sampleTimeMs maxError : ℚ) : Factory :=
  ⟨-thresholdSlope * sampleTimeMs / 1000, thresholdSlope * sampleTimeMs / 1000, maxError⟩

/-- `(range / max_error).log2().ceil() as usize`. models calculate-required-bits/src/lib.rs:32-61 -/
def Factory.bits (f : Factory) : ℕ := Nat.clog 2 ⌈(f.max - f.min) / f.maxError⌉₊

/-- width of the base type of `VariableInt<bits>`. models firmware-common/src/common/variable_int.rs:88-119 -/
def baseWidth (bits : ℕ) : ℕ := if bits ≤ 8 then 8 else if bits ≤ 16 then 16 else 32

/-- `1.checked_shl(bits).unwrap_or(0).wrapping_sub(1)` in the base type. models fixed_point.rs:107-117 -/
def Factory.targetMax (f : Factory) : ℕ :=
  let w := baseWidth f.bits
  ((if f.bits < w then 2 ^ f.bits else 0) + (2 ^ w - 1)) % 2 ^ w

/-- `libm::round`: to the nearest integer, halves away from zero -/
def roundHalfAway (x : ℚ) : ℤ := if 0 ≤ x then ⌊x + 1 / 2⌋ else ⌈x - 1 / 2⌉

/-- `num_traits::cast` of a float with an integer value to the unsigned base type: `none` when it does not fit -/
def castBase (w : ℕ) (z : ℤ) : Option ℕ := if 0 ≤ z ∧ z < 2 ^ w then some z.toNat else none

/-- the arithmetic of `to_fixed_point` for a finite value that passed the range check; `none` = `unwrap` panics.
models fixed_point.rs:62-70 -/
def Factory.quantize (f : Factory) (rnd : ℚ → ℚ) (q : ℚ) : Option ℕ :=
  let a := rnd (q - f.min)
  let b := rnd (a / rnd (f.max - f.min))
  let c := rnd (b * f.targetMax)
  castBase (baseWidth f.bits) (roundHalfAway c)

/-- `to_fixed_point`: outer `none` = panic, inner `none` = refused. Comparisons with NaN are false, so NaN reaches the cast, which fails.
models fixed_point.rs:58-71 -/
def Factory.toFixed (f : Factory) (rnd : ℚ → ℚ) : Flt → Option (Option ℕ)
  | .nan => none
  | .inf _ => some none
  | .fin q =>
    if q < f.min ∨ f.max < q then some none
    else
      match f.quantize rnd q with
      | some k => some (some k)
      | none => none

/-- `to_fixed_point_capped`: `none` = panic. models fixed_point.rs:73-82 -/
def Factory.toFixedCapped (f : Factory) (rnd : ℚ → ℚ) (v : Flt) : Option ℕ :=
  let v :=
    match v with
    | .nan => Flt.nan
    | .inf neg => if neg then .fin f.min else .fin f.max
    | .fin q => if q < f.min then .fin f.min else if f.max < q then .fin f.max else .fin q
  match f.toFixed rnd v with
  | some (some k) => some k
  | _ => none

/-- `to_float`. models fixed_point.rs:84-90 -/
def Factory.toFloat (f : Factory) (rnd : ℚ → ℚ) (k : ℕ) : ℚ :=
  let v := rnd (k / f.targetMax)
  let v := rnd (v * rnd (f.max - f.min))
  rnd (v + f.min)

/-- every factory of the firmware whose values are f32: mag, imu (2), adc, barometer (2), gps (3), telemetry (5).
models driver/mag.rs:37, driver/imu.rs:41-42, driver/adc.rs:53, driver/barometer.rs:38-39, driver/gps.rs:92-94, common/vlp/telemetry_packet.rs:13-17 -/
def f32Factories : List Factory :=
  [slope 0.5 5 0.0001, slope 100 5 0.01, slope 100 5 0.01, slope 0.2 500 0.002, slope 20 5 0.05, slope 4000 5 1,
   slope 0.01 100 0.000005, slope 400 100 0.5, minmax 0 1 0.1,
   minmax 6 9 0.001, minmax (-30) 85 0.1, minmax 0 67108864 40960, minmax (-100) 5000 5, minmax (-400) 400 2]

/-- every factory of the firmware whose values are f64 (the timestamp factories).
models vacuum_test/mod.rs:35, strain_gauges/mid_prio.rs:48, ground_test_avionics/mod.rs:61, avionics/mod.rs:130-131, 183-184 -/
def f64Factories : List Factory :=
  [minmax 4 7 0.05, minmax 4999 5010 0.5, minmax 4.9 7 0.05, minmax 4.9 7 0.05, minmax 199 210 0.5, minmax 99 110 0.5, minmax 4999 5010 0.5]

end Verif.Fix
