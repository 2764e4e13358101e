import Verif.Model.FlightCore
/-
Flights as unbounded streams of readings, and the order of things in a flight.
-/
namespace Verif.Fc

/-- the state announcements in a numbered list of events -/
def announced {S : Type} : List (Nat × Event S) → List (Nat × FcState)
  | [] => []
  | (i, .changeState s) :: l => (i, s) :: announced l
  | _ :: l => announced l

/-- `P` first holds at `b`, counting from `a` -/
def First (P : Nat → Prop) (a b : Nat) : Prop := a ≤ b ∧ P b ∧ ∀ i, a ≤ i → i < b → ¬ P i

/-- `P` holds nowhere from `a` up to before `n` -/
def Never (P : Nat → Prop) (a n : Nat) : Prop := ∀ i, a ≤ i → i < n → ¬ P i

/-- the backup flight computer after `n` readings, and what it published, with the number of the reading; `none` = it crashed -/
def Backup.after {fl : Floats} (b : Backup fl) (r : Nat → Reading fl) : Nat → Option (Backup fl × List (Nat × Event fl.S))
  | 0 => some (b, [])
  | n + 1 => (Backup.after b r n).bind fun p => (p.1.tick (r n)).map fun q => (q.1, p.2 ++ q.2.map fun e => (n, e))

/-- the filter before reading `n` -/
def filterAt {fl : Floats} (q : Biquad fl) (r : Nat → Reading fl) : Nat → VsFilter fl
  | 0 => .new q
  | n + 1 => ((filterAt q r n).feed (r n)).2

/-- the estimated vertical speed at reading `n` -/
def speed {fl : Floats} (q : Biquad fl) (r : Nat → Reading fl) (n : Nat) : fl.S := ((filterAt q r n).feed (r n)).1

/-- a flight: profile, filter coefficients, readings -/
structure Flight (fl : Floats) where
  p : Profile fl
  q : Biquad fl
  r : Nat → Reading fl

/-- descending faster than 20 m/s -/
def Flight.Descending {fl : Floats} (f : Flight fl) (i : Nat) : Prop := fl.s.lt (speed f.q f.r i) (fl.s.neg (fl.s.lit 20)) = true

/-- later than reading `a` by more than the delay `d` -/
def Flight.Later {fl : Floats} (f : Flight fl) (a : Nat) (d : fl.D) (i : Nat) : Prop := fl.d.lt (fl.d.add (f.r a).timestamp d) (f.r i).timestamp = true

/-- lower than the main chute altitude above the altitude of the first reading -/
def Flight.Low {fl : Floats} (f : Flight fl) (i : Nat) : Prop := fl.s.lt (f.r i).altitude (fl.s.add f.p.mainAltitude (f.r 0).altitude) = true

/-- vertical speed under 1 m/s -/
def Flight.Still {fl : Floats} (f : Flight fl) (i : Nat) : Prop := fl.s.lt (fl.s.abs (speed f.q f.r i)) (fl.s.lit 1) = true

/-- what must have been announced, and when, in the first `n` readings -/
inductive Timeline {fl : Floats} (f : Flight fl) (n : Nat) : List (Nat × FcState) → Prop
  | start : n = 0 → Timeline f n []
  | ascending : 0 < n → Never f.Descending 0 n → Timeline f n [(0, .armed)]
  | waitDrogue (a : Nat) : First f.Descending 0 a → a < n → Never (f.Later a f.p.drogueDelay) (a + 1) n → Timeline f n [(0, .armed)]
  | drogue (a b : Nat) : First f.Descending 0 a → First (f.Later a f.p.drogueDelay) (a + 1) b → b < n → Never f.Low (b + 1) n →
      Timeline f n [(0, .armed), (b, .drogueChuteDeployed)]
  | waitMain (a b c : Nat) : First f.Descending 0 a → First (f.Later a f.p.drogueDelay) (a + 1) b → First f.Low (b + 1) c → c < n →
      Never (f.Later c f.p.mainDelay) (c + 1) n → Timeline f n [(0, .armed), (b, .drogueChuteDeployed)]
  | main (a b c d : Nat) : First f.Descending 0 a → First (f.Later a f.p.drogueDelay) (a + 1) b → First f.Low (b + 1) c →
      First (f.Later c f.p.mainDelay) (c + 1) d → d < n → Never f.Still (d + 1) n →
      Timeline f n [(0, .armed), (b, .drogueChuteDeployed), (d, .mainChuteDeployed)]
  | landed (a b c d e : Nat) : First f.Descending 0 a → First (f.Later a f.p.drogueDelay) (a + 1) b → First f.Low (b + 1) c →
      First (f.Later c f.p.mainDelay) (c + 1) d → First f.Still (d + 1) e → e < n →
      Timeline f n [(0, .armed), (b, .drogueChuteDeployed), (d, .mainChuteDeployed), (e, .landed)]

/-- what happens to the timer-based flight computer -/
inductive MOp (fl : Floats)
  | trigger (t : fl.D)
  | tick (t : fl.D)

/-- one such event -/
def Manual.step {fl : Floats} (m : Manual fl) : MOp fl → Manual fl × List (Event fl.S)
  | .trigger t => m.trigger t
  | .tick t => m.tick t

/-- the timer-based flight computer after `n` events, and what it published -/
def Manual.after {fl : Floats} (m : Manual fl) (o : Nat → MOp fl) : Nat → Manual fl × List (Nat × Event fl.S)
  | 0 => (m, [])
  | n + 1 => (((Manual.after m o n).1.step (o n)).1, (Manual.after m o n).2 ++ ((Manual.after m o n).1.step (o n)).2.map fun e => (n, e))

/-- event `i` is a trigger at time `t` -/
def IsTrigger {fl : Floats} (o : Nat → MOp fl) (i : Nat) (t : fl.D) : Prop := o i = .trigger t

/-- event `i` is a tick at or after `due` -/
def Due {fl : Floats} (o : Nat → MOp fl) (due : fl.D) (i : Nat) : Prop := ∃ t, o i = .tick t ∧ fl.d.le due t = true

/-- what the timer-based flight computer must have announced -/
inductive MTimeline {fl : Floats} (p : Profile fl) (o : Nat → MOp fl) (n : Nat) : List (Nat × FcState) → Prop
  | idle : Never (fun i => ∃ t, o i = .trigger t) 0 n → MTimeline p o n []
  | drogue (a : Nat) (t : fl.D) : First (fun i => ∃ t, o i = .trigger t) 0 a → o a = .trigger t → a < n → Never (Due o (fl.d.add t p.drogueToMain)) (a + 1) n →
      MTimeline p o n [(a, .drogueChuteDeployed)]
  | main (a b : Nat) (t u : fl.D) : First (fun i => ∃ t, o i = .trigger t) 0 a → o a = .trigger t → First (Due o (fl.d.add t p.drogueToMain)) (a + 1) b →
      o b = .tick u → b < n → Never (Due o (fl.d.add u p.mainToLanded)) (b + 1) n →
      MTimeline p o n [(a, .drogueChuteDeployed), (b, .mainChuteDeployed)]
  | landed (a b c : Nat) (t u : fl.D) : First (fun i => ∃ t, o i = .trigger t) 0 a → o a = .trigger t → First (Due o (fl.d.add t p.drogueToMain)) (a + 1) b →
      o b = .tick u → First (Due o (fl.d.add u p.mainToLanded)) (b + 1) c → c < n →
      MTimeline p o n [(a, .drogueChuteDeployed), (b, .mainChuteDeployed), (c, .landed)]

/-- the primary flight computer after `n` snapshots; `none` = it crashed -/
def Primary.after {fl : Floats} {es : Est fl} (c : Primary fl es) (s : Nat → Snapshot fl es) : Nat → Option (Primary fl es × List (Nat × Event fl.S))
  | 0 => some (c, [])
  | n + 1 => (Primary.after c s n).bind fun p => (p.1.tick (s n)).map fun q => (q.1, p.2 ++ q.2.map fun e => (n, e))

/-- a flight of the primary flight computer: profile and snapshots -/
structure Mission (fl : Floats) (es : Est fl) where
  p : Profile fl
  s : Nat → Snapshot fl es

/-- the flight computer and what it published after `n` snapshots -/
def Mission.run {fl : Floats} {es : Est fl} (m : Mission fl es) (n : Nat) : Option (Primary fl es × List (Nat × Event fl.S)) := (Primary.new (es := es) m.p).after m.s n

/-- what it published at snapshot `i` -/
def Mission.events {fl : Floats} {es : Est fl} (m : Mission fl es) (i : Nat) : List (Event fl.S) :=
  match m.run i with
  | none => []
  | some c =>
    match c.1.tick (m.s i) with
    | none => []
    | some q => q.2

/-- mean of four consecutive samples, newest first -/
def mean4 {F : Type} (o : Ops F) (f : Nat → F) (i : Nat) : F :=
  o.div (o.add (o.add (o.add (o.add (o.lit 0) (f i)) (f (i - 1))) (f (i - 2))) (f (i - 3))) (o.lit 4)

/-- acceleration along the rocket at snapshot `i`, after mounting compensation -/
def Mission.accUp {fl : Floats} {es : Est fl} (m : Mission fl es) (i : Nat) : fl.S := es.z (es.mount (m.s i).acc)

/-- magnitude of the acceleration at snapshot `i`, after mounting compensation -/
def Mission.accMag {fl : Floats} {es : Est fl} (m : Mission fl es) (i : Nat) : fl.S := es.mag (es.mount (m.s i).acc)

/-- the mean acceleration exceeds 50 -/
def Mission.Boost {fl : Floats} {es : Est fl} (m : Mission fl es) (i : Nat) : Prop := fl.s.lt (fl.s.lit 50) (mean4 fl.s m.accUp i) = true

/-- the mean magnitude of the acceleration is under 10 -/
def Mission.BurnOut {fl : Floats} {es : Est fl} (m : Mission fl es) (i : Nat) : Prop := fl.s.lt (mean4 fl.s m.accMag i) (fl.s.lit 10) = true

/-- the vertical speed published at `i` is not positive -/
def Mission.Apogee {fl : Floats} {es : Est fl} (m : Mission fl es) (i : Nat) : Prop := ∃ v, Event.changeAirSpeed v ∈ m.events i ∧ fl.s.le v (fl.s.lit 0) = true

/-- the altitude at launch: the first barometer reading among the hundred snapshots up to the launch -/
def Mission.pad {fl : Floats} {es : Est fl} (m : Mission fl es) (launch : Nat) : fl.S :=
  match ((List.range' (launch - 99) 100).map fun i => (m.s i).baro).findSome? id with
  | some r => r.altitude
  | none => fl.s.lit 0

/-- the altitude published at `i` is too low for the drogue -/
def Mission.TooLow {fl : Floats} {es : Est fl} (m : Mission fl es) (launch i : Nat) : Prop :=
  ∃ a, Event.changeAltitude a ∈ m.events i ∧ fl.s.lt (fl.s.sub a (m.pad launch)) m.p.drogueMinAltitude = true

/-- it is time for the drogue: the delay after apogee is over, and the minimum time after launch -/
def Mission.DrogueTime {fl : Floats} {es : Est fl} (m : Mission fl es) (launch apogee i : Nat) : Prop :=
  fl.d.le (fl.d.add (m.s apogee).timestamp m.p.drogueDelay) (m.s i).timestamp = true ∧ fl.d.le m.p.drogueMinTime (fl.d.sub (m.s i).timestamp (m.s launch).timestamp) = true

/-- the altitude published at `i` is low enough for the main chute -/
def Mission.MainLow {fl : Floats} {es : Est fl} (m : Mission fl es) (launch i : Nat) : Prop :=
  ∃ a, Event.changeAltitude a ∈ m.events i ∧ fl.s.le (fl.s.sub a (m.pad launch)) m.p.mainAltitude = true

/-- the main chute delay is over -/
def Mission.MainTime {fl : Floats} {es : Est fl} (m : Mission fl es) (low i : Nat) : Prop :=
  fl.d.le (fl.d.add (m.s low).timestamp m.p.mainDelay) (m.s i).timestamp = true

/-- the vertical speed published at `i` is under 0.5 m/s -/
def Mission.AtRest {fl : Floats} {es : Est fl} (m : Mission fl es) (i : Nat) : Prop :=
  ∃ v, Event.changeAirSpeed v ∈ m.events i ∧ fl.s.lt (fl.s.abs v) (fl.s.div (fl.s.lit 1) (fl.s.lit 2)) = true

/-- state announcements (`some`) and the announcement that the minimum apogee was not reached (`none`), numbered -/
def milestones {S : Type} : List (Nat × Event S) → List (Nat × Option FcState)
  | [] => []
  | (i, .changeState s) :: l => (i, some s) :: milestones l
  | (i, .didNotReachMinApogee) :: l => (i, none) :: milestones l
  | _ :: l => milestones l

/-- launch at `a` -/
def Mission.Up {fl : Floats} {es : Est fl} (m : Mission fl es) (a : Nat) : Prop := First m.Boost 100 a

/-- launch at `a`, burn-out at `b` -/
def Mission.Coasting {fl : Floats} {es : Est fl} (m : Mission fl es) (a b : Nat) : Prop := m.Up a ∧ First m.BurnOut (a + 4) b

/-- and apogee at `c` -/
def Mission.Over {fl : Floats} {es : Est fl} (m : Mission fl es) (a b c : Nat) : Prop := m.Coasting a b ∧ First m.Apogee (b + 1) c

/-- and the drogue stage, entered at a sufficient altitude, over at `d` -/
def Mission.Drogue {fl : Floats} {es : Est fl} (m : Mission fl es) (a b c d : Nat) : Prop :=
  m.Over a b c ∧ First (m.DrogueTime a c) (c + 1) d ∧ Never (m.TooLow a) (c + 1) (d + 1)

/-- and low enough at `e`, and the main chute delay over at `f` -/
def Mission.Main {fl : Floats} {es : Est fl} (m : Mission fl es) (a b c d e f : Nat) : Prop :=
  m.Drogue a b c d ∧ First (m.MainLow a) (d + 1) e ∧ First (m.MainTime e) (e + 1) f

/-- what the primary flight computer must have announced in the first `n` snapshots -/
inductive PTimeline {fl : Floats} {es : Est fl} (m : Mission fl es) (n : Nat) : List (Nat × Option FcState) → Prop
  | start : n ≤ 1 → PTimeline m n []
  | armed : 1 < n → Never m.Boost 100 n → PTimeline m n [(1, some .armed)]
  | launched (a : Nat) : m.Up a → a < n → Never m.BurnOut (a + 4) n → PTimeline m n [(1, some .armed), (a, some .powerAscend)]
  | coasting (a b : Nat) : m.Coasting a b → b < n → Never m.Apogee (b + 1) n →
      PTimeline m n [(1, some .armed), (a, some .powerAscend), (b, some .coast)]
  | waitDrogue (a b c : Nat) : m.Over a b c → c < n → Never (m.TooLow a) (c + 1) n → Never (m.DrogueTime a c) (c + 1) n →
      PTimeline m n [(1, some .armed), (a, some .powerAscend), (b, some .coast), (c, some .descent)]
  | failed (a b c d : Nat) : m.Over a b c → First (m.TooLow a) (c + 1) d → Never (m.DrogueTime a c) (c + 1) d → d < n →
      PTimeline m n [(1, some .armed), (a, some .powerAscend), (b, some .coast), (c, some .descent), (d, none)]
  | waitLow (a b c d : Nat) : m.Drogue a b c d → d < n → Never (m.MainLow a) (d + 1) n →
      PTimeline m n [(1, some .armed), (a, some .powerAscend), (b, some .coast), (c, some .descent)]
  | waitMain (a b c d e : Nat) : m.Drogue a b c d → First (m.MainLow a) (d + 1) e → e < n → Never (m.MainTime e) (e + 1) n →
      PTimeline m n [(1, some .armed), (a, some .powerAscend), (b, some .coast), (c, some .descent)]
  | waitLanding (a b c d e f : Nat) : m.Main a b c d e f → f < n → Never m.AtRest (f + 1) n →
      PTimeline m n [(1, some .armed), (a, some .powerAscend), (b, some .coast), (c, some .descent)]
  | landed (a b c d e f g : Nat) : m.Main a b c d e f → First m.AtRest (f + 1) g → g < n →
      PTimeline m n [(1, some .armed), (a, some .powerAscend), (b, some .coast), (c, some .descent), (g, some .landed)]

end Verif.Fc
