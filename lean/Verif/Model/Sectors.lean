import Verif.Model.Utils
/-
Model of vlfs/src/fs/sector_management.rs. A `BitArray` is modelled by the function from index to bit, a
heapless `Vec` by a list whose last element is the one `pop` returns. The value of the random generator is
a parameter `rng` (result of `next_u32() / 2`).
-/
namespace Verif.Vlfs

/-- `SectorMap`. models vlfs/src/fs/sector_management.rs:10-15 -/
structure SectorMap where
  map4k : Nat → Bool
  map32k : Nat → Bool
  map64k : Nat → Bool
  free : Nat

/-- models sector_management.rs:18-25 -/
def SectorMap.new : SectorMap := ⟨fun _ => false, fun _ => false, fun _ => false, DATA_REGION_SECTORS⟩

/-- `BitArray::set` -/
def setAt (f : Nat → Bool) (k : Nat) (v : Bool) : Nat → Bool := fun i => if i = k then v else f i

/-- `map[start..start+n].any()` -/
def anyIn (f : Nat → Bool) (start n : Nat) : Bool := (List.range n).any fun i => f (start + i)

/-- `set_sector_used` (argument: absolute sector index). models sector_management.rs:27-36 -/
def SectorMap.setUsed (m : SectorMap) (sector : Nat) : SectorMap :=
  let i := sector - ALLOC_TABLES_SECTORS_USED
  if m.map4k i then m
  else
    { map4k := setAt m.map4k i true
      map32k := setAt m.map32k (i / 8) true
      map64k := setAt m.map64k (i / 16) true
      free := m.free - 1 }

/-- `set_sector_unused`. `i & !0b111` is `i / 8 * 8`. models sector_management.rs:38-56 -/
def SectorMap.setUnused (m : SectorMap) (sector : Nat) : SectorMap :=
  let i := sector - ALLOC_TABLES_SECTORS_USED
  if !m.map4k i then m
  else
    let map4k := setAt m.map4k i false
    let i := i / 8 * 8
    let map32k := setAt m.map32k (i / 8) (anyIn map4k i 8)
    let i := i / 16 * 16
    let map64k := setAt m.map64k (i / 16) (anyIn map32k (i / 8) 2)
    { map4k, map32k, map64k, free := m.free + 1 }

/-- an erase region: first sector relative to the data region, and length in sectors (16, 8 or 1).
models sector_management.rs:233-256 -/
structure EraseRegion where
  first : Nat
  len : Nat
deriving Repr, DecidableEq

/-- `get_unoffseted_address`. models sector_management.rs:258-260 -/
def EraseRegion.address (r : EraseRegion) : Nat := (r.first + ALLOC_TABLES_SECTORS_USED) * SECTOR_SIZE

/-- the search loops: first index of `(0..n).map (fun i => (i + rng) % n)` whose bit is clear.
models sector_management.rs:85-94, 99-108, 113-122 -/
def findClear (f : Nat → Bool) (n rng : Nat) : Option Nat :=
  ((List.range n).map fun i => (i + rng) % n).find? fun i => !f i

/-- `SectorsMng`; the random generator is left out (parameter of the operations).
models sector_management.rs:59-64 -/
structure SectorsMng where
  map : SectorMap
  ahead : List Nat
  asyncAhead : List Nat

/-- models sector_management.rs:67-74 -/
def SectorsMng.new : SectorsMng := ⟨SectorMap.new, [], []⟩

/-- `claim_erase_region`: `none` is `Err(())`, `some (.error .panic)` the `log_unreachable!()` at its end.
models sector_management.rs:76-126 -/
def SectorsMng.claimEraseRegion (s : SectorsMng) (rng : Nat) : Option (Except Err EraseRegion) :=
  if s.map.free = 0 then none
  else
    match findClear s.map.map64k (DATA_REGION_SECTORS / 16) rng with
    | some i => some (.ok ⟨i * 16, 16⟩)
    | none =>
      match findClear s.map.map32k (DATA_REGION_SECTORS / 8) rng with
      | some i => some (.ok ⟨i * 8, 8⟩)
      | none =>
        match findClear s.map.map4k DATA_REGION_SECTORS rng with
        | some i => some (.ok ⟨i, 1⟩)
        | none => some (.error .panic)

/-- absolute indices of the sectors of a region, in the order of the loop at 161-169 -/
def EraseRegion.sectors (r : EraseRegion) : List Nat :=
  (List.range r.len).map fun i => r.first + i + ALLOC_TABLES_SECTORS_USED

/-- `erase`: erase the region, mark its sectors used and push them on the chosen list; `none` is the
panic of `push(..).unwrap()` on a full `Vec<u16, 16>`. models sector_management.rs:128-171 -/
def SectorsMng.erase (s : SectorsMng) (r : EraseRegion) (useAsync : Bool) (dev : Dev) :
    Option (SectorsMng × Dev) :=
  let dev := dev.op (.erase r.address (r.len * SECTOR_SIZE))
  let map := r.sectors.foldl SectorMap.setUsed s.map
  let l := (if useAsync then s.asyncAhead else s.ahead) ++ r.sectors
  if l.length > 16 then none
  else some (if useAsync then { s with map, asyncAhead := l } else { s with map, ahead := l }, dev)

/-- `if let Ok(region) = self.claim_erase_region() { self.erase(region, use_async, flash).await? }`.
models sector_management.rs:190-195, 198-211 -/
def SectorsMng.claimAndErase (s : SectorsMng) (rng : Nat) (useAsync : Bool) (dev : Dev) :
    Option (SectorsMng × Dev) :=
  match s.claimEraseRegion rng with
  | none => some (s, dev)
  | some (.error _) => none
  | some (.ok r) => s.erase r useAsync dev

/-- `self.erase_ahead_sectors.pop()` -/
def SectorsMng.pop (s : SectorsMng) : Option (Nat × SectorsMng) :=
  match s.ahead.getLast? with
  | none => none
  | some x => some (x, { s with ahead := s.ahead.dropLast })

/-- `claim_avaliable_sector_and_erase`; `rng1`, `rng2` are the values drawn from the random generator.
models sector_management.rs:173-218 -/
def SectorsMng.claim (s : SectorsMng) (rng1 rng2 : Nat) (dev : Dev) : Except Err Nat × SectorsMng × Dev :=
  match s.pop with
  | some (x, s) => (.ok x, s, dev)
  | none =>
    let r : Option (SectorsMng × Dev) :=
      if s.asyncAhead ≠ [] then
        SectorsMng.claimAndErase { s with ahead := s.asyncAhead, asyncAhead := s.ahead } rng1 true dev
      else
        match s.claimEraseRegion rng1 with
        | none => some (s, dev)
        | some (.error _) => none
        | some (.ok r) =>
          match s.erase r false dev with
          | none => none
          | some (s, dev) => s.claimAndErase rng2 true dev
    match r with
    | none => (.error .panic, s, dev)
    | some (s, dev) =>
      match s.pop with
      | some (x, s) => (.ok x, s, dev)
      | none => (.error .deviceFull, s, dev)

/-- `claim_sector`. models sector_management.rs:220-224 -/
def SectorsMng.claimSector (s : SectorsMng) (sector : Nat) : SectorsMng := { s with map := s.map.setUsed sector }

/-- `return_sector` and the release in `release_file_sectors`. models sector_management.rs:226-230,
at_builder.rs:237 -/
def SectorsMng.returnSector (s : SectorsMng) (sector : Nat) : SectorsMng := { s with map := s.map.setUnused sector }

/-- `free()` in bytes. models vlfs/src/fs/mod.rs:192-199 -/
def SectorsMng.freeBytes (s : SectorsMng) : Nat :=
  (s.map.free + (s.asyncAhead.length + s.ahead.length)) * MAX_SECTOR_DATA_SIZE

end Verif.Vlfs
