import Verif.Model.Flash
/-
The flash driver with statistics (vlfs/src/flash/stat_flash.rs), which sits between the file system and the chip in the firmware (firmware-common/src/vl_main.rs:51-52). The driver below it is any
function on a state `ω` of the world, which includes the chip and the clock: reading the clock (`now_ms`) does not change the world, a driver call takes some time. The arithmetic of the times
(f64 in the code) is left abstract. Counters (usize) are unbounded. A call whose future is dropped before it finishes is not modelled.
-/
namespace Verif.StatFlash
open Verif

/-- the calls of a flash driver; a read and a write pass the buffer. models vlfs/src/driver/flash.rs:9-66 -/
inductive Call where
  | size
  | reset
  | erase4 (addr : Nat)
  | erase32 (addr : Nat)
  | erase64 (addr : Nat)
  | read4k (addr len : Nat) (buf : Bytes)
  | write256 (addr : Nat) (buf : Bytes)

/-- a driver: what a call returns (of a read: the bytes and the buffer afterwards, of a write: the buffer afterwards, all as `ρ`), and what it does to the world; the timer. models driver/flash.rs:9-66,
vlfs/src/driver/timer.rs -/
structure Driver (ω ρ τ : Type) where
  call : Call → ω → ρ × ω
  now : ω → τ

/-- zero, sum and difference of times. models f64 -/
structure Times (τ : Type) where
  zero : τ
  add : τ → τ → τ
  sub : τ → τ → τ

/-- `Stat`. models stat_flash.rs:8-20 -/
structure Stat (τ : Type) where
  erase4Time : τ
  erase4Count : Nat
  erase32Time : τ
  erase32Count : Nat
  erase64Time : τ
  erase64Count : Nat
  read4kTime : τ
  read4kCount : Nat
  write256Time : τ
  write256Count : Nat

variable {ω ρ τ : Type}

/-- `Stat::default()`, `StatFlash::new`, `reset_stat`. models stat_flash.rs:8, 26-38 -/
def Stat.fresh (t : Times τ) : Stat τ := ⟨t.zero, 0, t.zero, 0, t.zero, 0, t.zero, 0, t.zero, 0⟩

/-- the update inside `run_with_stat!` for `erase_sector_4kib`. models stat_flash.rs:77-83, 102 -/
def Stat.addErase4 (t : Times τ) (s : Stat τ) (start stop : τ) : Stat τ :=
  { s with erase4Time := t.add s.erase4Time (t.sub stop start), erase4Count := s.erase4Count + 1 }

/-- the same for `erase_block_32kib`. models stat_flash.rs:77-83, 106 -/
def Stat.addErase32 (t : Times τ) (s : Stat τ) (start stop : τ) : Stat τ :=
  { s with erase32Time := t.add s.erase32Time (t.sub stop start), erase32Count := s.erase32Count + 1 }

/-- the same for `erase_block_64kib`. models stat_flash.rs:77-83, 110 -/
def Stat.addErase64 (t : Times τ) (s : Stat τ) (start stop : τ) : Stat τ :=
  { s with erase64Time := t.add s.erase64Time (t.sub stop start), erase64Count := s.erase64Count + 1 }

/-- the same for `read_4kib`. models stat_flash.rs:77-83, 119 -/
def Stat.addRead4k (t : Times τ) (s : Stat τ) (start stop : τ) : Stat τ :=
  { s with read4kTime := t.add s.read4kTime (t.sub stop start), read4kCount := s.read4kCount + 1 }

/-- the same for `write_256b`. models stat_flash.rs:77-83, 127 -/
def Stat.addWrite256 (t : Times τ) (s : Stat τ) (start stop : τ) : Stat τ :=
  { s with write256Time := t.add s.write256Time (t.sub stop start), write256Count := s.write256Count + 1 }

/-- `run_with_stat!`: the call between two looks at the clock; the statistics are updated whether it succeeds or not. models stat_flash.rs:72-86 -/
def runWithStat (d : Driver ω ρ τ) (c : Call) (update : τ → τ → Stat τ) (w : ω) : ρ × Stat τ × ω :=
  let start := d.now w
  let (r, w) := d.call c w
  let stop := d.now w
  (r, update start stop, w)

/-- a call of the driver with statistics: the result, the statistics and the world afterwards. models stat_flash.rs:88-129 -/
def statCall (t : Times τ) (d : Driver ω ρ τ) (s : Stat τ) (c : Call) (w : ω) : ρ × Stat τ × ω :=
  match c with
  | .size => let (r, w) := d.call .size w; (r, s, w)
  | .reset => let (r, w) := d.call .reset w; (r, s, w)
  | .erase4 addr => runWithStat d (.erase4 addr) (s.addErase4 t) w
  | .erase32 addr => runWithStat d (.erase32 addr) (s.addErase32 t) w
  | .erase64 addr => runWithStat d (.erase64 addr) (s.addErase64 t) w
  | .read4k addr len buf => runWithStat d (.read4k addr len buf) (s.addRead4k t) w
  | .write256 addr buf => runWithStat d (.write256 addr buf) (s.addWrite256 t) w

/-- a program that uses a driver: it may look at every result before it goes on -/
inductive Prog (ρ α : Type) where
  | done (a : α)
  | call (c : Call) (k : ρ → Prog ρ α)

/-- the program on the driver itself -/
def Prog.run {α : Type} (d : Driver ω ρ τ) : Prog ρ α → ω → α × ω
  | .done a, w => (a, w)
  | .call c k, w =>
    let (r, w) := d.call c w
    (k r).run d w

/-- the program on the driver with statistics -/
def Prog.runStat {α : Type} (t : Times τ) (d : Driver ω ρ τ) : Prog ρ α → Stat τ → ω → α × Stat τ × ω
  | .done a, s, w => (a, s, w)
  | .call c k, s, w =>
    let (r, s, w) := statCall t d s c w
    (k r).runStat t d s w

/-- the default method `read` (the driver with statistics has no `read` of its own); a result of `read_4kib` is an error or the buffer afterwards. models driver/flash.rs:73-110 -/
def readProg {ε : Type} (addr len done : Nat) (buf : Bytes) : Prog (Except ε Bytes) (Except ε Bytes) :=
  if h : done < len then
    let length := if len - done > 4096 then 4096 else len - done
    have : 0 < length := by simp only [length]; split <;> omega
    .call (.read4k (addr + done) length (buf.drop done)) fun r =>
      match r with
      | .error e => .done (.error e)
      | .ok b => readProg addr len (done + length) (buf.take done ++ b)
  else .done (.ok buf)
termination_by len - done
decreasing_by omega

/-- the default method `write`; a result of `write_256b` is an error or the buffer afterwards. models driver/flash.rs:116-147 -/
def writeProg {ε : Type} (addr len done : Nat) (buf : Bytes) : Prog (Except ε Bytes) (Except ε Unit) :=
  if h : done < len then
    let length := if len - done > 256 then 256 else len - done
    have : 0 < length := by simp only [length]; split <;> omega
    .call (.write256 (addr + done) (buf.drop done)) fun r =>
      match r with
      | .error e => .done (.error e)
      | .ok b => writeProg addr len (done + length) (buf.take done ++ b)
  else .done (.ok ())
termination_by len - done
decreasing_by omega

end Verif.StatFlash
