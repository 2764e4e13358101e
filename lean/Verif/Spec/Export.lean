import Verif.Model.Export
import Verif.Spec.RingLog
/-
What a table of sensor readings should contain.
-/
namespace Verif.Spec
open Verif Verif.Vlfs Verif.Log Verif.Lut Verif.Export

/-- the readings among the entries of a log, in order -/
def readingsOf {TS D : Type} : List (Out TS D) → List (TS × D)
  | [] => []
  | .reading t v :: es => (t, v) :: readingsOf es
  | .unix _ :: es => readingsOf es

/-- the time-sync records among the entries of a log, as pairs of boot and unix time -/
def syncsOf {TS D : Type} (env : Env TS) : List (Out TS D) → List Point
  | [] => []
  | .reading _ _ :: es => syncsOf env es
  | .unix u :: es => (env.num u.1, env.num u.2) :: syncsOf env es

/-- `binary_search_by` works as documented -/
def SearchWorks {TS : Type} (env : Env TS) : Prop := ∀ l t, IsSearch (sort l) t (env.search (sort l) t)

/-- a table shows the readings in order, each with the unix time the sync points give for its boot time (C60) -/
structure Shows {TS D : Type} (env : Env TS) (syncs : List Point) (readings : List (TS × D)) (rows : List (Row TS D)) : Prop where
  readings : rows.map (fun r => (r.boot, r.data)) = readings
  times : ∀ r ∈ rows, ∃ f, IsSearch (sort syncs) (env.time r.boot) f ∧ r.unix = convert (sort syncs) (env.time r.boot) f

end Verif.Spec
