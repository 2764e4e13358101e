import Verif.Basic
/-
`DebouncedSignal` (firmware-common/src/common/debounced_signal.rs). The input is an embassy `Signal`, which keeps the latest unread value.
A poll of `run_debounce` happens at some time (in ms) and finds at most one unread value.
-/
namespace Verif.Deb

/-- where `run_debounce` is suspended: at the first `wait`, at the second, or in the `select` with the current and the new value and the end of the delay.
models common/debounced_signal.rs:40-61 -/
inductive Deb (V : Type)
  | first
  | second (state : V)
  | loop (state new : V) (deadline : Nat)
  deriving DecidableEq

/-- one poll of `run_debounce` with debounce time `T` (positive): the value it signals, if any. `select` polls the delay first; when the delay is over, the next round of the loop
reads a pending value at once. models common/debounced_signal.rs:40-61 -/
def Deb.poll {V : Type} [DecidableEq V] (T now : Nat) (changed : Option V) : Deb V → Deb V × Option V
  | .first =>
    match changed with
    | none => (.first, none)
    | some v => (.second v, some v)
  | .second s =>
    match changed with
    | none => (.second s, none)
    | some v => (.loop s v (now + T), none)
  | .loop s n deadline =>
    if deadline ≤ now then
      let s' := if n ≠ s then n else s
      let out := if n ≠ s then some n else none
      match changed with
      | none => (.loop s' n (now + T), out)
      | some v => (.loop s' v (now + T), out)
    else
      match changed with
      | none => (.loop s n deadline, none)
      | some v => (.loop s v (now + T), none)

end Verif.Deb
