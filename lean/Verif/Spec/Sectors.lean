import Verif.Model.Sectors
/-
Vocabulary for C18-C20: histories of the sector map and of the sector manager.
-/
namespace Verif.Spec
open Verif Verif.Vlfs

/-- one call on the sector map -/
inductive MapOp where
  | used (sector : Nat)
  | unused (sector : Nat)

/-- the sector a call is about -/
def MapOp.sector : MapOp → Nat
  | .used s => s
  | .unused s => s

/-- run a history of calls on a new map -/
def runMap (ops : List MapOp) : SectorMap :=
  ops.foldl (fun m op => match op with | .used s => m.setUsed s | .unused s => m.setUnused s) SectorMap.new

/-- what the history says about sector `x`: it is in use iff the last call about it was `used` -/
def inUse (ops : List MapOp) (x : Nat) : Bool :=
  ops.foldl (fun b op => match op with
    | .used s => if s = x then true else b
    | .unused s => if s = x then false else b) false

/-- the sectors of the data region -/
def dataSectors : List Nat := (List.range 16352).map (· + 32)

/-- A history of the sector manager. `claim` is `claim_avaliable_sector_and_erase` with the two random
values it may draw; `release` gives a sector back; `program`/`wipe` are the page programs and sector erases
the owner of a sector issues. -/
inductive MngOp where
  | claim (rng1 rng2 : Nat)
  | release (sector : Nat)
  | program (sector page : Nat) (data : Bytes)
  | wipe (sector : Nat)

/-- The sector manager, the sectors currently handed out (ghost), and the chip. -/
structure MngState where
  mng : SectorsMng
  out : List Nat
  dev : Dev

/-- One step of a history. Callers only release, program or wipe sectors they own (others are skipped). -/
def MngState.step (st : MngState) : MngOp → MngState
  | .claim r1 r2 =>
    let res := st.mng.claim r1 r2 st.dev
    match res.1 with
    | .ok x => ⟨res.2.1, x :: st.out, res.2.2⟩
    | .error _ => ⟨res.2.1, st.out, res.2.2⟩
  | .release x => if x ∈ st.out then ⟨st.mng.returnSector x, st.out.erase x, st.dev⟩ else st
  | .program x p data =>
    if x ∈ st.out ∧ p < 16 then { st with dev := st.dev.op (.page (x * 4096 + p * 256) data) } else st
  | .wipe x => if x ∈ st.out then { st with dev := st.dev.op (.erase (x * 4096) 4096) } else st

/-- the state after start-up with the sectors `used` found in files (`read_free_sectors`, init.rs:63-92),
on a chip with any content -/
def MngState.boot (used : List Nat) (fl : Flash) : MngState :=
  ⟨used.foldl SectorsMng.claimSector SectorsMng.new, used, ⟨fl, []⟩⟩

/-- the state after a history -/
def MngState.run (used : List Nat) (fl : Flash) (ops : List MngOp) : MngState :=
  ops.foldl MngState.step (MngState.boot used fl)

end Verif.Spec
