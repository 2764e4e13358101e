import Verif.Model.RingLog
/-
The two logs the avionics keep of every sensor: a fast one and a slow one, each a ring of files of its own type, behind a `MergedLogger`
(firmware-common/src/common/delta_logger/merged_logger.rs, firmware-common/src/avionics/mod.rs:82-131).
-/
namespace Verif.Tiered
open Verif Verif.Vlfs Verif.Bit Verif.Delta Verif.Log

/-- `MergedLoggerError`. models merged_logger.rs:40-45 -/
inductive MErr where
  | logger1 (e : Err)
  | logger2 (e : Err)
  | both (e1 e2 : Err)

/-- `from_results`. models merged_logger.rs:48-58 -/
def fromResults {α β : Type} : Except Err α → Except Err β → Except MErr (α × β)
  | .ok a, .ok b => .ok (a, b)
  | .error e, .ok _ => .error (.logger1 e)
  | .ok _, .error e => .error (.logger2 e)
  | .error e1, .error e2 => .error (.both e1 e2)

/-- `MergedLogger` on two ring loggers. Both use the same file system, which is the field `fs` of each of them. models merged_logger.rs:10-21 -/
structure St (TS D : Type) where
  a : RingLog.St TS D
  b : RingLog.St TS D

/-- what the first logger left behind is what the second one finds -/
def St.withA {TS D : Type} (s : St TS D) (a : RingLog.St TS D) : St TS D := ⟨a, { s.b with fs := a.fs }⟩
/-- … and the other way round -/
def St.withB {TS D : Type} (s : St TS D) (b : RingLog.St TS D) : St TS D := ⟨{ s.a with fs := b.fs }, b⟩

/-- `log`: both loggers are called, whatever the first one answers. models merged_logger.rs:69-74 -/
def St.log {TS TD1 TD2 D DD1 DD2 : Type} (crc : Bytes → UInt32) (c1 : Cfg TS TD1 D DD1) (c2 : Cfg TS TD2 D DD2) (g1 g2 g3 g4 : Nat → Nat × Nat) (s : St TS D) (t : TS) (v : D) :
    Except MErr Bool × St TS D :=
  match s.a.log crc c1 g1 g2 t v with
  | (ra, a) =>
    match (s.withA a).b.log crc c2 g3 g4 t v with
    | (rb, b) => ((fromResults ra rb).map fun r => r.1 || r.2, (s.withA a).withB b)

/-- `log_unix_time`. models merged_logger.rs:76-84 -/
def St.logUnix {TS D : Type} (crc : Bytes → UInt32) (g1 g2 : Nat → Nat × Nat) (s : St TS D) (u : Unix) : Except MErr Unit × St TS D :=
  match s.a.logUnix crc g1 u with
  | (ra, a) =>
    match (s.withA a).b.logUnix crc g2 u with
    | (rb, b) => ((fromResults ra rb).map fun _ => (), (s.withA a).withB b)

/-- `flush`. models merged_logger.rs:86-91 -/
def St.flush {TS D : Type} (crc : Bytes → UInt32) (g1 g2 : Nat → Nat × Nat) (r1 r2 r3 r4 : Nat) (s : St TS D) : Except MErr Unit × St TS D :=
  match s.a.flush crc g1 r1 r2 with
  | (ra, a) =>
    match (s.withA a).b.flush crc g2 r3 r4 with
    | (rb, b) => ((fromResults ra rb).map fun _ => (), (s.withA a).withB b)

/-- the two rings are set up one after the other, then merged. models firmware-common/src/avionics/mod.rs:89-120 -/
def St.new {TS TD1 TD2 D DD1 DD2 : Type} (c1 : Cfg TS TD1 D DD1) (c2 : Cfg TS TD2 D DD2) (fs : FS) (typ1 cap1 typ2 cap2 r1 r2 r3 r4 : Nat) : Except Err (St TS D) × FS :=
  match RingLog.St.new c1 fs typ1 cap1 r1 r2 with
  | (.error e, fs) => (.error e, fs)
  | (.ok a, fs) =>
    match RingLog.St.new c2 fs typ2 cap2 r3 r4 with
    | (.error e, fs) => (.error e, fs)
    | (.ok b, fs) => (.ok ⟨{ a with fs := fs }, b⟩, fs)

end Verif.Tiered
