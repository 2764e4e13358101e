import Verif.Model.Flash
/-
`ManagedEraseFlash` (vlfs/src/flash/managed_erase_flash.rs): erases run in the background, reads and programs suspend them.
The chip below it (`AsyncEraseFlash`, hardware) is modelled with a running erase that may finish before any command, and with a flag that
records a command the chip does not accept: a read, program or erase while an erase runs, a program into a range whose
erase is suspended, a second erase, or waiting for a suspended erase. No I/O errors. `reset` is not modelled.
-/
namespace Verif.Managed

/-- what the environment decides: whether a running erase finishes before the n-th command, and what a read inside a range under a
suspended erase returns -/
structure Env where
  finishes : Nat → Bool
  garbage : Nat → Flash

/-- the chip: content, erase in progress (address, length, suspended), number of commands so far, illegal command seen.
(hardware behind vlfs/src/flash/async_erase_flash.rs) -/
structure Chip where
  mem : Flash
  era : Option (Nat × Nat × Bool)
  clock : Nat
  illegal : Bool

/-- a running erase is completed -/
def Chip.finish (c : Chip) : Chip :=
  match c.era with
  | some (a, n, false) => { c with mem := FlashOp.apply c.mem (.erase a n), era := none }
  | _ => c

/-- time passes before a command -/
def Chip.tick (env : Env) (c : Chip) : Chip :=
  let c' := if env.finishes c.clock then c.finish else c
  { c' with clock := c.clock + 1 }

/-- `erase_*_nb`. (hardware; async_erase_flash.rs:16-27) -/
def Chip.eraseNb (env : Env) (c : Chip) (a n : Nat) : Chip :=
  let c := c.tick env
  match c.era with
  | none => { c with era := some (a, n, false) }
  | some _ => { c with illegal := true }

/-- `suspend_erase`: ignored when nothing runs. (hardware; async_erase_flash.rs:29) -/
def Chip.suspend (env : Env) (c : Chip) : Chip :=
  let c := c.tick env
  match c.era with
  | some (a, n, _) => { c with era := some (a, n, true) }
  | none => c

/-- `resume_erase`: ignored when nothing is suspended. (hardware; async_erase_flash.rs:30) -/
def Chip.resume (env : Env) (c : Chip) : Chip :=
  let c := c.tick env
  match c.era with
  | some (a, n, _) => { c with era := some (a, n, false) }
  | none => c

/-- `is_busy`. (hardware; async_erase_flash.rs:31) -/
def Chip.isBusy (env : Env) (c : Chip) : Bool × Chip :=
  let c := c.tick env
  (match c.era with | some (_, _, false) => true | _ => false, c)

/-- `wait_erase_finish`. (hardware; async_erase_flash.rs:32) -/
def Chip.waitFinish (env : Env) (c : Chip) : Chip :=
  let c := c.tick env
  match c.era with
  | some (_, _, true) => { c with illegal := true }
  | _ => c.finish

/-- `read_4kib`. (hardware; async_erase_flash.rs:51-56) -/
def Chip.read (env : Env) (c : Chip) (a n : Nat) : Bytes × Chip :=
  let c := c.tick env
  match c.era with
  | none => (c.mem.read a n, c)
  | some (ea, en, true) => (Flash.read (fun x => if ea ≤ x ∧ x < ea + en then env.garbage c.clock x else c.mem x) a n, c)
  | some (_, _, false) => ((env.garbage c.clock).read a n, { c with illegal := true })

/-- `write_256b`. (hardware; async_erase_flash.rs:73-77) -/
def Chip.write (env : Env) (c : Chip) (a : Nat) (data : Bytes) : Chip :=
  let c := c.tick env
  match c.era with
  | none => { c with mem := FlashOp.apply c.mem (.page a data) }
  | some (ea, en, true) =>
    if ea < a + 256 ∧ a < ea + en then { c with illegal := true } else { c with mem := FlashOp.apply c.mem (.page a data) }
  | some (_, _, false) => { c with illegal := true }

/-- `EraseState`: `none` = `Idle`, otherwise the range start, length and the suspended flag.
models vlfs/src/flash/managed_erase_flash.rs:13-16, 18-23 -/
structure Managed where
  chip : Chip
  st : Option (Nat × Nat × Bool)

/-- `wait_prev_erase`. models managed_erase_flash.rs:35-50 -/
def Managed.waitPrev (env : Env) (m : Managed) : Managed :=
  match m.st with
  | none => m
  | some (_, _, suspended) =>
    let chip := if suspended then m.chip.resume env else m.chip
    ⟨chip.waitFinish env, none⟩

/-- `suspend_erase`. models managed_erase_flash.rs:52-65 -/
def Managed.suspend (env : Env) (m : Managed) : Managed :=
  match m.st with
  | some (a, n, false) => ⟨m.chip.suspend env, some (a, n, true)⟩
  | _ => m

/-- `resume_erase`. models managed_erase_flash.rs:67-80 -/
def Managed.resume (env : Env) (m : Managed) : Managed :=
  match m.st with
  | some (a, n, true) => ⟨m.chip.resume env, some (a, n, false)⟩
  | _ => m

/-- `erase_sector_4kib`, `erase_block_32kib`, `erase_block_64kib` (`n` = 4096, 32768, 65536). models managed_erase_flash.rs:94-119 -/
def Managed.erase (env : Env) (m : Managed) (a n : Nat) : Managed :=
  let m := m.waitPrev env
  ⟨m.chip.eraseNb env a n, some (a, n, false)⟩

/-- what `read_4kib` does to the erase before it reads. models managed_erase_flash.rs:121-135 -/
def Managed.prepareRead (env : Env) (m : Managed) (a : Nat) : Managed :=
  match m.st with
  | some (ea, en, suspended) =>
    if ea ≤ a ∧ a < ea + en then m.waitPrev env
    else if !suspended then m.suspend env
    else m
  | none => m

/-- `read_4kib`. models managed_erase_flash.rs:121-140 -/
def Managed.read (env : Env) (m : Managed) (a n : Nat) : Bytes × Managed :=
  let m := m.prepareRead env a
  let r := m.chip.read env a n
  (r.1, { m with chip := r.2 })

/-- what `write_256b` does to the erase before it programs. models managed_erase_flash.rs:142-157 -/
def Managed.prepareWrite (env : Env) (m : Managed) (a : Nat) : Managed :=
  match m.st with
  | some (ea, en, _) => if ea ≤ a ∧ a < ea + en then m.waitPrev env else m.suspend env
  | none => m

/-- what `write_256b` does to the erase after it programmed; the delay lets time pass. models managed_erase_flash.rs:161-175 -/
def Managed.afterWrite (env : Env) (m : Managed) : Managed :=
  match m.st with
  | some (_, _, true) =>
    let m := m.resume env
    let r := (m.chip.tick env).isBusy env
    if !r.1 then ⟨r.2, none⟩ else { m with chip := r.2 }
  | _ => m

/-- `write_256b`. models managed_erase_flash.rs:142-177 -/
def Managed.write (env : Env) (m : Managed) (a : Nat) (data : Bytes) : Managed :=
  let m := m.prepareWrite env a
  Managed.afterWrite env { m with chip := m.chip.write env a data }

/-- a flash command as its user issues it -/
inductive Op
  | erase (a n : Nat)
  | read (a n : Nat)
  | write (a : Nat) (data : Bytes)

/-- running a command on the managed flash: what was read, new state -/
def Managed.run (env : Env) (m : Managed) : Op → Bytes × Managed
  | .erase a n => ([], m.erase env a n)
  | .read a n => m.read env a n
  | .write a data => ([], m.write env a data)

/-- running several commands -/
def Managed.runAll (env : Env) (m : Managed) : List Op → List Bytes × Managed
  | [] => ([], m)
  | o :: os =>
    let r := m.run env o
    let rs := Managed.runAll env r.2 os
    (r.1 :: rs.1, rs.2)

end Verif.Managed
