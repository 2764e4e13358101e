import Verif.Model.DirFault
import Verif.Spec.DirHistory
/-
Calls on a chip that refuses operations, compared with the same call on a chip that accepts all.
-/
namespace Verif.Vlfs
open Verif Verif.Spec

/-- `f` is what the accepting chip gives (`none`: an error), `dv` the chip afterwards: without a refused operation the result is the same, otherwise the call ends at the first refused one. -/
def Cut {β : Type} (ok : Nat → Bool) (dev : Dev) (r : Except Dev β) (f : Option β) (dv : β → Dev) : Prop :=
  match f with
  | none => ∃ d, r = .error d
  | some b => ∃ os, dv b = dev.ops os ∧ ((r = .ok b ∧ ∀ i, i < os.length → ok (dev.log.length + i) = true) ∨
      ∃ j, j < os.length ∧ r = .error (dev.ops (os.take j)) ∧ ok (dev.log.length + j) = false ∧ ∀ i, i < j → ok (dev.log.length + i) = true)

theorem ops_append (dev : Dev) (a b : List FlashOp) : (dev.ops a).ops b = dev.ops (a ++ b) := by
  unfold Dev.ops applyOps
  simp [List.foldl_append]

theorem ops_loglen (dev : Dev) (a : List FlashOp) : (dev.ops a).log.length = dev.log.length + a.length := by
  unfold Dev.ops; simp

theorem Cut.pure {β : Type} {ok : Nat → Bool} {dev : Dev} {b : β} {dv : β → Dev} (h : dv b = dev) : Cut ok dev (.ok b) (some b) dv :=
  ⟨[], by rw [h, Dev.ops_nil], .inl ⟨rfl, fun _ h => absurd h (by simp)⟩⟩

theorem Cut.andThen {β γ : Type} {ok : Nat → Bool} {dev : Dev} {r : Except Dev β} {f : Option β} {dv : β → Dev} {dv2 : γ → Dev} {k : β → Except Dev γ} {g : β → Option γ}
    (h : Cut ok dev r f dv) (h2 : ∀ b, f = some b → Cut ok (dv b) (k b) (g b) dv2) :
    Cut ok dev (r >>= k) (f.bind g) dv2 := by
  cases f with
  | none =>
    obtain ⟨d, rfl⟩ := h
    exact ⟨d, rfl⟩
  | some b =>
    obtain ⟨os, h1, h3⟩ := h
    have h4 := h2 b rfl
    show Cut ok dev _ (g b) dv2
    rcases h3 with ⟨rfl, ha⟩ | ⟨j, hj, rfl, hr, ha⟩
    · show Cut ok dev (k b) (g b) dv2
      unfold Cut at h4 ⊢
      cases hg : g b with
      | none => rw [hg] at h4; exact h4
      | some c =>
        rw [hg] at h4
        obtain ⟨os2, g1, g2⟩ := h4
        rw [h1] at g1 g2
        rw [ops_append] at g1
        rw [ops_loglen] at g2
        refine ⟨os ++ os2, g1, ?_⟩
        rcases g2 with ⟨g2, g3⟩ | ⟨j, hj, g2, g3, g4⟩
        · refine .inl ⟨g2, fun i hi => ?_⟩
          by_cases hlt : i < os.length
          · exact ha i hlt
          · have := g3 (i - os.length) (by rw [List.length_append] at hi; omega)
            rwa [show dev.log.length + os.length + (i - os.length) = dev.log.length + i by omega] at this
        · refine .inr ⟨os.length + j, by rw [List.length_append]; omega, ?_, by rw [← Nat.add_assoc]; exact g3, fun i hi => ?_⟩
          · rw [g2, ops_append, List.take_length_add_append]
          · by_cases hlt : i < os.length
            · exact ha i hlt
            · have := g4 (i - os.length) (by omega)
              rwa [show dev.log.length + os.length + (i - os.length) = dev.log.length + i by omega] at this
    · unfold Cut at h4 ⊢
      cases hg : g b with
      | none => exact ⟨_, rfl⟩
      | some c =>
        rw [hg] at h4
        obtain ⟨os2, g1, _⟩ := h4
        rw [h1, ops_append] at g1
        refine ⟨os ++ os2, g1, .inr ⟨j, by rw [List.length_append]; omega, ?_, hr, ha⟩⟩
        rw [List.take_append_of_le_length (by omega)]
        rfl

/-- one operation -/
theorem cut_attempt (ok : Nat → Bool) (dev : Dev) (o : FlashOp) : Cut ok dev (dev.attempt ok o) (some (dev.op o)) id := by
  refine ⟨[o], rfl, ?_⟩
  unfold Dev.attempt
  by_cases h : ok dev.log.length = true
  · refine .inl ⟨by rw [if_pos h], fun i hi => ?_⟩
    have : i = 0 := by simp at hi; exact hi
    subst this; exact h
  · refine .inr ⟨0, by simp, by rw [if_neg h, List.take_zero, Dev.ops_nil], by simpa using h, fun _ h => absurd h (by omega)⟩

theorem cut_flush (ok : Nat → Bool) (w : PageWriter) (dev : Dev) : Cut ok dev (w.flushT ok dev) (some (w.flush dev)) (·.2) :=
  (cut_attempt ok dev (.page w.addr w.buf)).andThen (g := fun d => some ((⟨w.addr + 256, []⟩ : PageWriter), d)) fun _ _ => .pure rfl

theorem cut_loop (ok : Nat → Bool) : ∀ (fuel : Nat) (w : PageWriter) (dev : Dev) (slice : Bytes), Cut ok dev (w.extendLoopT ok fuel dev slice) (some (w.extendLoop fuel dev slice)) (·.2) := by
  intro fuel
  induction fuel with
  | zero => exact fun _ _ _ => .pure rfl
  | succ fuel ih =>
    intro w dev slice
    unfold PageWriter.extendLoopT PageWriter.extendLoop
    split
    · dsimp only
      split
      · exact .pure rfl
      · exact (cut_flush ok ⟨w.addr, w.buf ++ slice.take (256 - w.buf.length)⟩ dev).andThen (g := fun r => some (r.1.extendLoop fuel r.2 (slice.drop (256 - w.buf.length)))) fun r _ => ih r.1 r.2 _
    · exact .pure rfl

theorem cut_extend (ok : Nat → Bool) (b : Builder) (slice : Bytes) : Cut ok b.dev (b.extendT ok slice) (some (b.extend slice)) (·.dev) :=
  (cut_loop ok (slice.length + 1) b.w b.dev slice).andThen (g := fun r : PageWriter × Dev => some ({ b with w := r.1, dev := r.2 } : Builder)) (dv2 := fun b : Builder => b.dev) fun _ _ => .pure rfl

/-- the builder before the header is written -/
def blankBuilder (fs : FS) (dev : Dev) : Builder :=
  { at' := fs.at'.incrementPosition, mng := fs.mng, dev := dev, currAddr := fs.at'.address, readBuf := [], readI := 0,
    readFinished := false, w := ⟨fs.at'.incrementPosition.address, []⟩, fileCount := 0, maxId := fs.at'.maxId }

theorem cut_new (ok : Nat → Bool) (fs : FS) : Cut ok fs.dev (Builder.newT ok fs) (some (Builder.new fs)) (·.dev) :=
  (cut_attempt ok fs.dev (.erase fs.at'.incrementPosition.address 32768)).andThen
    (g := fun dev => some ((blankBuilder fs dev).extend (headerSerialize fs.at'.incrementPosition.seq)))
    fun dev _ => cut_extend ok (blankBuilder fs dev) _

theorem cut_write (ok : Nat → Bool) (b : Builder) (e : FileEntry) : Cut ok b.dev (b.writeT ok e) (some (b.write e)) (·.dev) :=
  (cut_extend ok b e.serialize).andThen (g := fun b : Builder => some ({ b with fileCount := b.fileCount + 1, maxId := if e.id > b.maxId then e.id else b.maxId } : Builder)) (dv2 := fun b : Builder => b.dev) fun _ _ => .pure rfl

theorem cut_commit (ok : Nat → Bool) (b : Builder) : Cut ok b.dev (b.commitT ok) (some b.commit) (·.dev) :=
  (cut_extend ok b (footerSerialize b.maxId)).andThen (g := fun b1 => some (⟨{ b.at' with fileCount := b.fileCount, maxId := b.maxId }, b1.mng, (b1.w.flush b1.dev).2⟩ : FS))
    fun b1 _ => (cut_flush ok b1.w b1.dev).andThen (g := fun r => some (⟨{ b.at' with fileCount := b.fileCount, maxId := b.maxId }, b1.mng, r.2⟩ : FS)) fun _ _ => .pure rfl

/-- the result of a builder operation, `none` if it is an error -/
def okOf {α σ : Type} : Except Err α × σ → Option (α × σ)
  | (.error _, _) => none
  | (.ok a, s) => some (a, s)

theorem readNext_dev (b : Builder) : b.readNext.2.dev = b.dev := by
  unfold Builder.readNext
  split
  · rfl
  · dsimp only
    split
    · rfl
    · split <;> rfl

theorem cut_copyRest (ok : Nat → Bool) : ∀ (fuel : Nat) (b : Builder), Cut ok b.dev (copyRestT ok fuel b) ((okOf (copyRest fuel b)).map (·.2)) (·.dev) := by
  intro fuel
  induction fuel with
  | zero => exact fun b => ⟨_, rfl⟩
  | succ fuel ih =>
    intro b
    unfold copyRestT copyRest
    have hd := readNext_dev b
    obtain ⟨r, hr⟩ : ∃ r, b.readNext = r := ⟨_, rfl⟩
    rw [hr] at hd ⊢
    obtain ⟨r, b1⟩ := r
    have hd : b1.dev = b.dev := hd
    rw [← hd]
    match r with
    | .error e => exact ⟨_, rfl⟩
    | .ok none => exact .pure rfl
    | .ok (some e) => exact (cut_write ok b1 e).andThen (g := fun b => (okOf (copyRest fuel b)).map (·.2)) fun b _ => ih b

theorem release_dev (b : Builder) (e : FileEntry) : (b.releaseFileSectors e).2.dev = b.dev := rfl

theorem cut_removeLoop (ok : Nat → Bool) (filter : FileEntry → Bool) : ∀ (fuel : Nat) (b : Builder) (n m : Nat),
    Cut ok b.dev (removeLoopT ok filter fuel b n m) (okOf (removeLoop filter fuel b n m)) (·.2.dev) := by
  intro fuel
  induction fuel with
  | zero => exact fun b _ _ => ⟨_, rfl⟩
  | succ fuel ih =>
    intro b n m
    unfold removeLoopT removeLoop
    have hd := readNext_dev b
    obtain ⟨r, hr⟩ : ∃ r, b.readNext = r := ⟨_, rfl⟩
    rw [hr] at hd ⊢
    obtain ⟨r, b1⟩ := r
    have hd : b1.dev = b.dev := hd
    rw [← hd]
    match r with
    | .error e => exact ⟨_, rfl⟩
    | .ok none => exact .pure rfl
    | .ok (some e) =>
      dsimp only
      split
      · split
        · exact (cut_write ok b1 e).andThen (g := fun b => okOf (removeLoop filter fuel b n (m + 1))) fun b _ => ih b _ _
        · have hd2 := release_dev b1 e
          obtain ⟨r2, hr2⟩ : ∃ r2, b1.releaseFileSectors e = r2 := ⟨_, rfl⟩
          rw [hr2] at hd2 ⊢
          obtain ⟨r2, b2⟩ := r2
          have hd2 : b2.dev = b1.dev := hd2
          rw [← hd2]
          match r2 with
          | .error e => exact ⟨_, rfl⟩
          | .ok () => exact ih b2 _ _
      · exact (cut_write ok b1 e).andThen (g := fun b => okOf (removeLoop filter fuel b n m)) fun b _ => ih b _ _

theorem cut_erase (ok : Nat → Bool) (s : SectorsMng) (r : EraseRegion) (a : Bool) (dev : Dev) : Cut ok dev (s.eraseT ok r a dev) (s.erase r a dev) (·.2) := by
  have h := (cut_attempt ok dev (.erase r.address (r.len * SECTOR_SIZE))).andThen (dv2 := fun x : SectorsMng × Dev => x.2)
    (k := fun dev => if ((if a then s.asyncAhead else s.ahead) ++ r.sectors).length > 16 then .error dev
      else .ok (if a then { s with map := r.sectors.foldl SectorMap.setUsed s.map, asyncAhead := (if a then s.asyncAhead else s.ahead) ++ r.sectors }
        else { s with map := r.sectors.foldl SectorMap.setUsed s.map, ahead := (if a then s.asyncAhead else s.ahead) ++ r.sectors }, dev))
    (g := fun dev => if ((if a then s.asyncAhead else s.ahead) ++ r.sectors).length > 16 then none
      else some (if a then { s with map := r.sectors.foldl SectorMap.setUsed s.map, asyncAhead := (if a then s.asyncAhead else s.ahead) ++ r.sectors }
        else { s with map := r.sectors.foldl SectorMap.setUsed s.map, ahead := (if a then s.asyncAhead else s.ahead) ++ r.sectors }, dev))
    (fun d _ => by
      by_cases hc : ((if a then s.asyncAhead else s.ahead) ++ r.sectors).length > 16
      · rw [if_pos hc, if_pos hc]
        exact ⟨_, rfl⟩
      · rw [if_neg hc, if_neg hc]
        exact .pure rfl)
  exact h

theorem cut_claimAndErase (ok : Nat → Bool) (s : SectorsMng) (rng : Nat) (a : Bool) (dev : Dev) : Cut ok dev (s.claimAndEraseT ok rng a dev) (s.claimAndErase rng a dev) (·.2) := by
  unfold SectorsMng.claimAndEraseT SectorsMng.claimAndErase
  match s.claimEraseRegion rng with
  | none => exact .pure rfl
  | some (.error e) => exact ⟨_, rfl⟩
  | some (.ok r) => exact cut_erase ok s r a dev

/-- the refill of the accepting model -/
def refill (s : SectorsMng) (rng1 rng2 : Nat) (dev : Dev) : Option (SectorsMng × Dev) :=
  if s.asyncAhead ≠ [] then SectorsMng.claimAndErase { s with ahead := s.asyncAhead, asyncAhead := s.ahead } rng1 true dev
  else
    match s.claimEraseRegion rng1 with
    | none => some (s, dev)
    | some (.error _) => none
    | some (.ok r) =>
      match s.erase r false dev with
      | none => none
      | some (s, dev) => s.claimAndErase rng2 true dev

theorem cut_refill (ok : Nat → Bool) (s : SectorsMng) (r1 r2 : Nat) (dev : Dev) : Cut ok dev (s.refillT ok r1 r2 dev) (refill s r1 r2 dev) (·.2) := by
  unfold SectorsMng.refillT refill
  split
  · exact cut_claimAndErase ok _ r1 true dev
  · match s.claimEraseRegion r1 with
    | none => exact .pure rfl
    | some (.error e) => exact ⟨_, rfl⟩
    | some (.ok r) =>
      have h := (cut_erase ok s r false dev).andThen (k := fun x => x.1.claimAndEraseT ok r2 true x.2) (g := fun x => x.1.claimAndErase r2 true x.2) (fun x _ => cut_claimAndErase ok x.1 r2 true x.2)
      dsimp only
      have e : (match s.erase r false dev with | none => none | some (s, dev) => s.claimAndErase r2 true dev) = (s.erase r false dev).bind (fun x => x.1.claimAndErase r2 true x.2) := by
        cases s.erase r false dev <;> rfl
      rw [e]
      exact h

theorem claim_eq (s : SectorsMng) (r1 r2 : Nat) (dev : Dev) (h : s.pop = none) :
    okOf (s.claim r1 r2 dev) = (refill s r1 r2 dev).bind fun x => x.1.pop.map fun y => (y.1, y.2, x.2) := by
  unfold SectorsMng.claim
  rw [h]
  dsimp only
  show okOf (match refill s r1 r2 dev with | none => _ | some (s, dev) => _) = _
  cases refill s r1 r2 dev with
  | none => rfl
  | some x =>
    dsimp only [Option.bind]
    cases x.1.pop <;> rfl

theorem cut_claim (ok : Nat → Bool) (s : SectorsMng) (r1 r2 : Nat) (dev : Dev) : Cut ok dev (s.claimT ok r1 r2 dev) (okOf (s.claim r1 r2 dev)) (·.2.2) := by
  cases h : s.pop with
  | some x =>
    unfold SectorsMng.claimT SectorsMng.claim
    rw [h]
    exact .pure rfl
  | none =>
    rw [claim_eq s r1 r2 dev h]
    unfold SectorsMng.claimT
    rw [h]
    have := (cut_refill ok s r1 r2 dev).andThen (dv2 := fun y : Nat × SectorsMng × Dev => y.2.2) (k := fun x => match x.1.pop with | some (y, s) => .ok (y, s, x.2) | none => .error x.2)
      (g := fun x => x.1.pop.map fun y => (y.1, y.2, x.2)) (fun x _ => by
        cases x.1.pop with
        | none => exact ⟨_, rfl⟩
        | some y => exact .pure rfl)
    exact this

theorem cut_create (ok : Nat → Bool) (fs : FS) (typ : Nat) : Cut ok fs.dev (fs.createFileT ok typ) (okOf (fs.createFile typ)) (·.2.dev) := by
  have h := (cut_new ok fs).andThen (dv2 := fun x : FileEntry × FS => x.2.dev) (k := fun b =>
      copyRestT ok maxEntries b >>= fun b => Builder.writeT ok { b with maxId := b.maxId + 1 } ⟨b.maxId + 1, typ, none⟩ >>= fun b1 => b1.commitT ok >>= fun fs => .ok (⟨b.maxId + 1, typ, none⟩, fs))
    (g := fun b => ((okOf (copyRest maxEntries b)).map (·.2)).bind fun b => some (⟨b.maxId + 1, typ, none⟩, (Builder.write { b with maxId := b.maxId + 1 } ⟨b.maxId + 1, typ, none⟩).commit))
    (fun b _ => (cut_copyRest ok maxEntries b).andThen fun b _ => (cut_write ok { b with maxId := b.maxId + 1 } ⟨b.maxId + 1, typ, none⟩).andThen
      (g := fun b1 => some ((⟨b.maxId + 1, typ, none⟩ : FileEntry), b1.commit)) fun b1 _ => (cut_commit ok b1).andThen (g := fun fs => some ((⟨b.maxId + 1, typ, none⟩ : FileEntry), fs)) fun _ _ => .pure rfl)
  have e : okOf (fs.createFile typ) = (some (Builder.new fs)).bind fun b => ((okOf (copyRest maxEntries b)).map (·.2)).bind fun b =>
      some (⟨b.maxId + 1, typ, none⟩, (Builder.write { b with maxId := b.maxId + 1 } ⟨b.maxId + 1, typ, none⟩).commit) := by
    unfold FS.createFile
    dsimp only [Option.bind]
    obtain ⟨r, hr⟩ : ∃ r, copyRest maxEntries (Builder.new fs) = r := ⟨_, rfl⟩
    rw [hr]
    obtain ⟨r, b⟩ := r
    cases r <;> rfl
  rw [e]
  exact h

theorem cut_createOpen (ok : Nat → Bool) (fs : FS) (typ r1 r2 : Nat) : Cut ok fs.dev (fs.createFileAndOpenT ok typ r1 r2) (okOf (fs.createFileAndOpen typ r1 r2)) (·.2.dev) := by
  have h := (cut_new ok fs).andThen (dv2 := fun x : FileEntry × FS => x.2.dev) (k := fun b =>
      copyRestT ok maxEntries b >>= fun b => b.mng.claimT ok r1 r2 b.dev >>= fun y => Builder.writeT ok { b with maxId := b.maxId + 1, mng := y.2.1, dev := y.2.2 } ⟨b.maxId + 1, typ, some y.1⟩ >>= fun b1 =>
        b1.commitT ok >>= fun fs => .ok (⟨b.maxId + 1, typ, some y.1⟩, fs))
    (g := fun b => ((okOf (copyRest maxEntries b)).map (·.2)).bind fun b => (okOf (b.mng.claim r1 r2 b.dev)).bind fun y =>
      some (⟨b.maxId + 1, typ, some y.1⟩, (Builder.write { b with maxId := b.maxId + 1, mng := y.2.1, dev := y.2.2 } ⟨b.maxId + 1, typ, some y.1⟩).commit))
    (fun b _ => (cut_copyRest ok maxEntries b).andThen fun b _ => (cut_claim ok b.mng r1 r2 b.dev).andThen fun y _ =>
      (cut_write ok { b with maxId := b.maxId + 1, mng := y.2.1, dev := y.2.2 } ⟨b.maxId + 1, typ, some y.1⟩).andThen
      (g := fun b1 => some ((⟨b.maxId + 1, typ, some y.1⟩ : FileEntry), b1.commit)) fun b1 _ => (cut_commit ok b1).andThen (g := fun fs => some ((⟨b.maxId + 1, typ, some y.1⟩ : FileEntry), fs)) fun _ _ => .pure rfl)
  have e : okOf (fs.createFileAndOpen typ r1 r2) = (some (Builder.new fs)).bind fun b => ((okOf (copyRest maxEntries b)).map (·.2)).bind fun b => (okOf (b.mng.claim r1 r2 b.dev)).bind fun y =>
      some (⟨b.maxId + 1, typ, some y.1⟩, (Builder.write { b with maxId := b.maxId + 1, mng := y.2.1, dev := y.2.2 } ⟨b.maxId + 1, typ, some y.1⟩).commit) := by
    unfold FS.createFileAndOpen
    dsimp only [Option.bind]
    obtain ⟨r, hr⟩ : ∃ r, copyRest maxEntries (Builder.new fs) = r := ⟨_, rfl⟩
    rw [hr]
    obtain ⟨r, b⟩ := r
    cases r with
    | error => rfl
    | ok u =>
      dsimp only [okOf, Option.map]
      unfold Builder.writeNewFileAndOpen Builder.getNewFileId
      dsimp only
      obtain ⟨c, hc⟩ : ∃ c, b.mng.claim r1 r2 b.dev = c := ⟨_, rfl⟩
      rw [hc]
      obtain ⟨c, m, d⟩ := c
      cases c <;> rfl
  rw [e]
  exact h

theorem cut_remove (ok : Nat → Bool) (fs : FS) (filter : FileEntry → Bool) : Cut ok fs.dev (fs.removeFilesT ok filter) (okOf (fs.removeFiles filter)) (·.2.dev) := by
  have h := (cut_new ok fs).andThen (dv2 := fun x : (Nat × Nat) × FS => x.2.dev) (k := fun b =>
      removeLoopT ok filter maxEntries b 0 0 >>= fun x => x.2.commitT ok >>= fun fs => .ok (x.1, fs))
    (g := fun b => (okOf (removeLoop filter maxEntries b 0 0)).bind fun x => some (x.1, x.2.commit))
    (fun b _ => (cut_removeLoop ok filter maxEntries b 0 0).andThen fun x _ => (cut_commit ok x.2).andThen (g := fun fs => some (x.1, fs)) fun _ _ => .pure rfl)
  have e : okOf (fs.removeFiles filter) = (some (Builder.new fs)).bind fun b => (okOf (removeLoop filter maxEntries b 0 0)).bind fun x => some (x.1, x.2.commit) := by
    unfold FS.removeFiles
    dsimp only [Option.bind]
    obtain ⟨r, hr⟩ : ∃ r, removeLoop filter maxEntries (Builder.new fs) 0 0 = r := ⟨_, rfl⟩
    rw [hr]
    obtain ⟨r, b⟩ := r
    cases r <;> rfl
  rw [e]
  exact h

end Verif.Vlfs
