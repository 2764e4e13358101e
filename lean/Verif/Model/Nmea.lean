/-
NMEA sentences: the parser of crate tiny-nmea, and the assembly of sentences from serial reads in firmware-common/src/driver/uart_gps.rs.
-/
namespace Verif.Nmea

abbrev Byte := BitVec 8

/-- the bytes of a text, to write sentences down -/
def txt (s : String) : List Byte := s.toList.map fun c => BitVec.ofNat 8 c.toNat

/-- what a call does: a value, an error, or a panic -/
inductive Out (α : Type)
  | ok (a : α)
  | err
  | panic
  deriving DecidableEq

/-- sequencing -/
def Out.bind {α β : Type} (x : Out α) (f : α → Out β) : Out β := match x with
  | .ok a => f a
  | .err => .err
  | .panic => .panic

/-- an error for nothing -/
def orErr {α : Type} : Option α → Out α
  | some a => .ok a
  | none => .err

/-- a hexadecimal digit -/
def hexDigit (b : Byte) : Option Nat :=
  if 48 ≤ b.toNat ∧ b.toNat ≤ 57 then some (b.toNat - 48)
  else if 65 ≤ b.toNat ∧ b.toNat ≤ 70 then some (b.toNat - 55)
  else if 97 ≤ b.toNat ∧ b.toNat ≤ 102 then some (b.toNat - 87)
  else none

/-- `u8::from_str_radix(_, 16)` on a text of two characters: two digits, or a plus sign and a digit (core library) -/
def hex2 (a b : Byte) : Option Byte :=
  if a = 43#8 then (hexDigit b).map fun d => BitVec.ofNat 8 d
  else match hexDigit a, hexDigit b with
    | some x, some y => some (BitVec.ofNat 8 (16 * x + y))
    | _, _ => none

/-- exclusive or of bytes -/
def xorAll (l : List Byte) : Byte := l.foldl (· ^^^ ·) 0#8

/-- `validate`: the sentence is a text of ASCII characters here (simplification), so characters and bytes are counted alike. models lib.rs:13-32 -/
def validate (s : List Byte) : Bool :=
  if s.length < 6 then false
  else match hex2 (s.getD (s.length - 4) 0#8) (s.getD (s.length - 3) 0#8) with
    | some c => xorAll ((s.drop 1).take (s.length - 6)) == c
    | none => false

/-- is it one of the characters that separate fields? models lib.rs:37 -/
def isSep (b : Byte) : Bool := b == 36#8 || b == 44#8 || b == 42#8

/-- `split`: the fields between separators; `cur` is the field being read. models lib.rs:36-38 -/
def split (cur : List Byte) : List Byte → List (List Byte)
  | [] => [cur]
  | b :: r => if isSep b then cur :: split [] r else split (cur ++ [b]) r

/-- `parse::<u8>()`: an optional plus sign and decimal digits, at most 255 (core library) -/
def decimal : Nat → List Byte → Option Nat
  | acc, [] => some acc
  | acc, b :: r => if 48 ≤ b.toNat ∧ b.toNat ≤ 57 then
      (if 10 * acc + (b.toNat - 48) ≤ 255 then decimal (10 * acc + (b.toNat - 48)) r else none)
    else none

/-- `parse::<u8>()` -/
def parseU8 : List Byte → Option Nat
  | [] => none
  | b :: r => if b = 43#8 then (if r = [] then none else decimal 0 r) else decimal 0 (b :: r)

/-- the f32 operations used: parsing, degrees and minutes to degrees, negation -/
structure Floats (F : Type) where
  parse : List Byte → Option F
  degrees : F → F → F
  neg : F → F

/-- message.rs:4-9 -/
structure Time where
  hour : Nat
  minute : Nat
  second : Nat
  millisecond : Nat
  deriving DecidableEq

/-- message.rs:11-23 -/
inductive Message (F : Type)
  | gll (talker : List Byte) (latitude longitude : F) (utc : Time)
  | gsv (talker : List Byte) (satellites : Nat)
  deriving DecidableEq

/-- `substring!`. models common.rs:4-20 -/
def substring (s : List Byte) (start len : Nat) : List Byte := (s.drop start).take len

/-- `parse_time`. models common.rs:22-33 -/
def parseTime (s : List Byte) : Option Time :=
  match parseU8 (substring s 0 2), parseU8 (substring s 2 2), parseU8 (substring s 4 2), parseU8 (substring s 7 2) with
  | some h, some m, some sec, some ms => some ⟨h, m, sec, ms⟩
  | _, _, _, _ => none

/-- indexing a vector of fields: panics if there is no such field -/
def field (fields : List (List Byte)) (i : Nat) : Out (List Byte) := match fields[i]? with
  | some f => .ok f
  | none => .panic

/-- `parse_gll`. models gll.rs:8-36 -/
def parseGll {F : Type} (fl : Floats F) (fields : List (List Byte)) : Out (Message F) :=
  (field fields 1).bind fun f1 =>
  (field fields 2).bind fun f2 =>
  (orErr (fl.parse (substring f2 0 2))).bind fun latD =>
  (orErr (fl.parse (substring f2 2 10))).bind fun latM =>
  (field fields 3).bind fun f3 =>
  (field fields 4).bind fun f4 =>
  (orErr (fl.parse (substring f4 0 3))).bind fun lonD =>
  (orErr (fl.parse (substring f4 3 10))).bind fun lonM =>
  (field fields 5).bind fun f5 =>
  (field fields 6).bind fun f6 =>
  (orErr (parseTime f6)).bind fun utc =>
  .ok (.gll (substring f1 0 2)
    (if f3 = [83#8] then fl.neg (fl.degrees latD latM) else fl.degrees latD latM)
    (if f5 = [87#8] then fl.neg (fl.degrees lonD lonM) else fl.degrees lonD lonM) utc)

/-- `parse_gsv`. models gsv.rs:7-14 -/
def parseGsv {F : Type} (fields : List (List Byte)) : Out (Message F) :=
  (field fields 1).bind fun f1 =>
  (field fields 4).bind fun f4 =>
  (orErr (parseU8 f4)).bind fun n =>
  .ok (.gsv (substring f1 0 2) n)

/-- the fields have to fit a vector of 41: `collect` panics otherwise. models lib.rs:36-38 -/
def collect (fields : List (List Byte)) : Out (List (List Byte)) := if fields.length ≤ 41 then .ok fields else .panic

/-- `parse` after `validate`. models lib.rs:36-48 -/
def dispatch {F : Type} (fl : Floats F) (s : List Byte) : Out (Message F) :=
  (collect (split [] s)).bind fun fields =>
  (field fields 1).bind fun f1 =>
  if f1.length < 5 then .err
  else if substring f1 2 3 = txt "GLL" then parseGll fl fields
  else if substring f1 2 3 = txt "GSV" then parseGsv fields
  else .err

/-- `parse`. models lib.rs:34-49 -/
def parse {F : Type} (fl : Floats F) (s : List Byte) : Out (Message F) := if validate s then dispatch fl s else .err

/-- the state of the receiver. models lib.rs:51-57 -/
structure State (F : Type) where
  latitude : Option F
  longitude : Option F
  utc : Option Time
  satellites : Option Nat
  deriving DecidableEq

/-- lib.rs:70-77 -/
def State.new {F : Type} : State F := ⟨none, none, none, none⟩

/-- `update`: the new state and what it returns. models lib.rs:79-100 -/
def State.update {F : Type} (fl : Floats F) (st : State F) (s : List Byte) : State F × Out Unit := match parse fl s with
  | .ok (.gll _ la lo t) => ({ st with latitude := some la, longitude := some lo, utc := some t }, .ok ())
  | .ok (.gsv _ n) => ({ st with satellites := some n }, .ok ())
  | .err => (st, .err)
  | .panic => (st, .panic)

/-! ### assembling sentences from reads -/

/-- how many bytes a received byte takes as a character of a `String` (UTF-8) -/
def width (b : Byte) : Nat := if b.toNat < 128 then 1 else 2

/-- the length of the sentence buffer in bytes -/
def len (s : List Byte) : Nat := (s.map width).sum

/-- `sentence.push(c).ok()` on a `String<84>`: without effect if it does not fit. models uart_gps.rs:36, 47 -/
def push (s : List Byte) (b : Byte) : List Byte := if len s + width b ≤ 84 then s ++ [b] else s

/-- one byte of a read, `rest` is what follows it in the same read; the sentences given to the parser are appended to `out`. models uart_gps.rs:33-49 -/
def gpsByte (st : List Byte × List (List Byte)) (b : Byte) (rest : List Byte) : List Byte × List (List Byte) :=
  let s := push (if b = 36#8 then [] else st.1) b
  if b = 10#8 ∨ len s = 84 then (rest.foldl push [], st.2 ++ [s]) else (s, st.2)

/-- one read of at most 84 bytes. models uart_gps.rs:31-51 -/
def gpsRead (st : List Byte × List (List Byte)) : List Byte → List Byte × List (List Byte)
  | [] => st
  | b :: r => gpsRead (gpsByte st b r) r

/-- a sequence of reads. models uart_gps.rs:29-57 (read errors change nothing) -/
def gpsRun (st : List Byte × List (List Byte)) (reads : List (List Byte)) : List Byte × List (List Byte) := reads.foldl gpsRead st

/-- the locations published for the sentences: the parser of crate `nmea` is a parameter, giving the new state of the receiver; a location is published after every
sentence, also after one that the parser refuses. models uart_gps.rs:40-43 -/
def published {N D : Type} (parser : N → List Byte → N) (data : N → D) (n : N) : List (List Byte) → List D
  | [] => []
  | s :: r => data (parser n s) :: published parser data (parser n s) r

end Verif.Nmea
