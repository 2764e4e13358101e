/-
Converting boot timestamps to unix time on the host: vl-host-lib/src/common/unix_timestamp_lut.rs. Numbers are exact rationals here (simplification of f64, no NaN).
-/
namespace Verif.Lut

/-- a sync point: boot timestamp, unix timestamp. models unix_timestamp_lut.rs:5-6 -/
abbrev Point := Rat × Rat

/-- `sort_timestamps`: a stable sort by boot timestamp. models unix_timestamp_lut.rs:18-20 -/
def sort (l : List Point) : List Point := l.mergeSort fun a b => a.1 ≤ b.1

/-- `map_range` of crate map_range: linear map between two ranges; `none` if the source range is empty (then the division gives an infinity or NaN).
models unix_timestamp_lut.rs:40-41 -/
def mapRange (x a b c d : Rat) : Option Rat := if b - a = 0 then none else some ((x - a) * (d - c) / (b - a) + c)

/-- what a search for a boot timestamp finds: `.ok i` at index `i`, or `.error i`, to be inserted at `i` -/
abbrev Found := Except Nat Nat

/-- what `binary_search_by` may return on a sorted list, from the documentation of the standard library: an index with an equal element, or the place to insert. models unix_timestamp_lut.rs:27-29 -/
def IsSearch (pts : List Point) (t : Rat) : Found → Prop
  | .ok i => ∃ p, pts[i]? = some p ∧ p.1 = t
  | .error i => i ≤ pts.length ∧ (∀ j p, pts[j]? = some p → (j < i → p.1 < t) ∧ (i ≤ j → t < p.1))

/-- the outcome: no timestamp, a number, or a number that is not finite -/
inductive Result
  | none
  | value (u : Rat)
  | notFinite
  deriving DecidableEq

/-- the two points to interpolate between. models unix_timestamp_lut.rs:36 -/
def segment (n i : Nat) : Nat := min (max i 1) (n - 1)

/-- `get_unix_timestamp` with the result `r` of the search. models unix_timestamp_lut.rs:22-45 -/
def convert (pts : List Point) (t : Rat) (r : Found) : Result :=
  if pts.length < 2 then .none
  else match r with
    | .ok i => .value (pts.getD i (0, 0)).2
    | .error i =>
      let p := pts.getD (segment pts.length i - 1) (0, 0)
      let q := pts.getD (segment pts.length i) (0, 0)
      match mapRange t p.1 q.1 p.2 q.2 with
      | some u => .value u
      | none => .notFinite

end Verif.Lut
