import Verif.Model.FlightCore
/-
`SingleSumSMA` (ferraris-calibration/src/moving_average.rs) and the remaining functions of `NoSumSMA` (firmware-common/src/common/moving_average.rs; `Sma` is in Model/FlightCore).
-/
namespace Verif.Fc

/-- `NoSumSMA::new`. models common/moving_average.rs:25-31 -/
def Sma.new {F : Type} (n : Nat) (zero : F) : Sma F := ⟨n, [], zero⟩

/-- `clear`. models common/moving_average.rs:64-66 -/
def Sma.clear {F : Type} (m : Sma F) : Sma F := { m with samples := [] }

/-- `SingleSumSMA` with window `n`: the samples, newest first. models ferraris-calibration/src/moving_average.rs:6-10 -/
structure SumSma (F : Type) where
  n : Nat
  samples : List F
  sum : F
  zero : F

/-- `new`. models ferraris-calibration/src/moving_average.rs:16-22 -/
def SumSma.new {F : Type} (n : Nat) (zero : F) : SumSma F := ⟨n, [], zero, zero⟩

/-- `add_sample`: the new sample is added to the sum, then the sample that leaves the window is subtracted. models ferraris-calibration/src/moving_average.rs:24-35 -/
def SumSma.add {F : Type} (o : Ops F) (m : SumSma F) (x : F) : SumSma F :=
  if m.n = 0 then m
  else
    let sum := o.add m.sum x
    if m.samples.length = m.n then { m with sum := o.sub sum (m.samples.getLast?.getD m.zero), samples := x :: m.samples.dropLast }
    else { m with sum := sum, samples := x :: m.samples }

/-- `get_average`. models ferraris-calibration/src/moving_average.rs:37-45 -/
def SumSma.average {F : Type} (o : Ops F) (m : SumSma F) : F := if m.samples.length = 0 then m.sum else o.div m.sum (o.lit m.samples.length)

/-- `is_full`. models ferraris-calibration/src/moving_average.rs:47-49 -/
def SumSma.isFull {F : Type} (m : SumSma F) : Bool := m.samples.length = m.n

/-- `clear`. models ferraris-calibration/src/moving_average.rs:51-54 -/
def SumSma.clear {F : Type} (m : SumSma F) : SumSma F := { m with samples := [], sum := m.zero }

/-- what a user can do with a moving average -/
inductive SmaOp (F : Type)
  | add (x : F)
  | clear

/-- a history on a `NoSumSMA` -/
def Sma.run {F : Type} (n : Nat) (zero : F) (l : List (SmaOp F)) : Sma F := l.foldl (fun m o => match o with | .add x => m.add x | .clear => m.clear) (.new n zero)

/-- a history on a `SingleSumSMA` -/
def SumSma.run {F : Type} (o : Ops F) (n : Nat) (zero : F) (l : List (SmaOp F)) : SumSma F :=
  l.foldl (fun m op => match op with | .add x => m.add o x | .clear => m.clear) (.new n zero)

end Verif.Fc
