import Verif.Model.ConsoleFiles
import Verif.Model.DeltaLogger
import Verif.Model.Lut
import Verif.Model.FileTypes
/-
Downloading sensor logs and writing them as tables (vl-host-lib/src/common/pull_file.rs pull_files, parse_delta_readings.rs, sensor_reading_csv_writer.rs,
vl-host-lib/src/vl/pull_flight_data.rs). A row of a table is modelled as its boot timestamp, the result of the timestamp conversion and the reading; how
numbers are printed, and the files of the host, are not modelled. Timestamps are rationals for the conversion (simplification of f64, no NaN).
-/
namespace Verif.Export
open Verif Verif.Vlfs Verif.Console Verif.Log Verif.Lut

/-- pull the files with these ids, one after the other; fails at the first that cannot be pulled. models pull_file.rs:72-81 -/
def pullAll (crc : Bytes → UInt32) (fuel : Nat) : List Nat → Session → FS → List Bytes → Option (List Bytes) × Session × FS
  | [], s, fs, got => (some got, s, fs)
  | id :: ids, s, fs, got =>
    match pullFile crc fuel s fs id with
    | (some d, s, fs) => pullAll crc fuel ids s fs (got ++ [d])
    | (none, s, fs) => (none, s, fs)

/-- `pull_files`: list the files of a type, then pull each. models pull_file.rs:62-83 -/
def pullFiles (crc : Bytes → UInt32) (fuel : Nat) (s : Session) (fs : FS) (typ : Nat) : Option (List Bytes) × Session × FS :=
  match listFiles fuel s fs (some typ) with
  | (none, s) => (none, s, fs)
  | (some ids, s) => pullAll crc fuel ids s fs []

/-- `while let Some(reading) = reader.read().await.unwrap()`: everything the reader gives, until it reports the end; `none`: the reader panics, or more than
`fuel` calls. models parse_delta_readings.rs:32-36, 44-50 -/
def readAll {TS TD D DD : Type} (c : Cfg TS TD D DD) (sched : Nat → Nat) : Nat → LogReader TS D → List (Out TS D) → Option (List (Out TS D))
  | 0, _, _ => none
  | fuel + 1, r, got =>
    match r.read c sched with
    | none => none
    | some (none, _) => some got
    | some (some o, r) => readAll c sched fuel r (got ++ [o])

/-- the parts the model leaves open: the number a f64 stands for, the boot time of a timestamp, and `binary_search_by` -/
structure Env (TS : Type) where
  num : BitVec 64 → Rat
  time : TS → Rat
  search : List Point → Rat → Found

/-- the time-sync records. models parse_delta_readings.rs:33-35 -/
def syncPoints {TS D : Type} (env : Env TS) (outs : List (Out TS D)) : List Point :=
  outs.filterMap fun o => match o with
    | .unix u => some (env.num u.1, env.num u.2)
    | .reading _ _ => none

/-- a row of a table: boot timestamp, unix timestamp, reading. models sensor_reading_csv_writer.rs:33-46 -/
structure Row (TS D : Type) where
  boot : TS
  unix : Result
  data : D

/-- the readings with their converted timestamps. models parse_delta_readings.rs:44-50 -/
def toRows {TS D : Type} (env : Env TS) (lut : List Point) (outs : List (Out TS D)) : List (Row TS D) :=
  outs.filterMap fun o => match o with
    | .reading t v => some ⟨t, convert lut (env.time t) (env.search lut (env.time t)), v⟩
    | .unix _ => none

/-- `parse_delta_readings` and reading the stream to its end: two passes over the file. models parse_delta_readings.rs:19-52 -/
def parse {TS TD D DD : Type} (c : Cfg TS TD D DD) (env : Env TS) (sched1 sched2 : Nat → Nat) (fuel : Nat) (content : Bytes) : Option (List (Row TS D)) :=
  match readAll c sched1 fuel (LogReader.new c content) [] with
  | none => none
  | some first =>
    match readAll c sched2 fuel (LogReader.new c content) [] with
    | none => none
    | some second => some (toRows env (sort (syncPoints env first)) second)

/-- the rows of all files, file by file. models pull_flight_data.rs:46-49, sensor_reading_csv_writer.rs:48-57 -/
def table {TS TD D DD : Type} (c : Cfg TS TD D DD) (env : Env TS) (sched1 sched2 : Nat → Nat) (fuel : Nat) : List Bytes → Option (List (Row TS D))
  | [] => some []
  | b :: bs =>
    match parse c env sched1 sched2 fuel b with
    | none => none
    | some rows =>
      match table c env sched1 sched2 fuel bs with
      | none => none
      | some rest => some (rows ++ rest)

/-- one table: pull the files of a type, convert them. models pull_flight_data.rs:24-50 -/
def exportType {TS TD D DD : Type} (crc : Bytes → UInt32) (c : Cfg TS TD D DD) (env : Env TS) (sched1 sched2 : Nat → Nat) (fuel : Nat) (s : Session) (fs : FS) (typ : Nat) :
    Option (List (Row TS D)) × Session × FS :=
  match pullFiles crc fuel s fs typ with
  | (none, s, fs) => (none, s, fs)
  | (some bs, s, fs) => (table c env sched1 sched2 fuel bs, s, fs)

/-- `AVIONICS_BARO_LOGGER_TIER_1`. models firmware-common/src/common/file_types.rs:18 -/
def baroTier1 : Nat := 13

/-- `AVIONICS_BARO_LOGGER_TIER_2`. models firmware-common/src/common/file_types.rs:19 -/
def baroTier2 : Nat := 14

/-- the three tables `pull_flight_data` writes: baro_tier_1.csv, baro_tier_2.csv, low_g_imu.csv. models pull_flight_data.rs:16-108 -/
structure Flight (TS B I : Type) where
  baro1 : List (Row TS B)
  baro2 : List (Row TS B)
  imu : List (Row TS I)

/-- `pull_flight_data`: each table in turn, ends at the first failure. The types asked for are the ones in the code: the second table also pulls
`AVIONICS_BARO_LOGGER_TIER_1` (line 54). models pull_flight_data.rs:16-108 -/
def pullFlightData {TS TD1 TD2 B DB1 DB2 I DI : Type} (crc : Bytes → UInt32) (c1 : Cfg TS TD1 B DB1) (c2 : Cfg TS TD2 B DB2) (c3 : Cfg TS TD1 I DI) (env : Env TS)
    (sched1 sched2 : Nat → Nat) (fuel : Nat) (s : Session) (fs : FS) : Option (Flight TS B I) :=
  match exportType crc c1 env sched1 sched2 fuel s fs baroTier1 with
  | (none, _, _) => none
  | (some t1, s, fs) =>
    match exportType crc c2 env sched1 sched2 fuel s fs baroTier1 with
    | (none, _, _) => none
    | (some t2, s, fs) =>
      match exportType crc c3 env sched1 sched2 fuel s fs FileTypes.lowGImuTier1 with
      | (none, _, _) => none
      | (some t3, _, _) => some ⟨t1, t2, t3⟩

end Verif.Export
