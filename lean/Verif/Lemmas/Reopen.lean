import Verif.Lemmas.WriterOps
/-
Opening an existing file for appending: the last sector is copied aside, erased, and copied back with the pointer to
the new sector.
-/
namespace Verif.Vlfs
open Verif Verif.Spec

/-- content of the copied sector -/
def patched (fl : Flash) (src : Nat) (patch : Option Nat) (j : Nat) : UInt8 :=
  match patch with
  | some next => if 4088 ≤ j then (u16x4 next).getD (j - 4088) 0xFF else fl (src * 4096 + j)
  | none => fl (src * 4096 + j)

theorem read_getD (fl : Flash) (a n i : Nat) (h : i < n) : (fl.read a n).getD i 0xFF = fl (a + i) := by
  rw [List.getD_eq_getElem?_getD, Flash.read_getElem? _ _ _ _ h]; rfl

theorem copyPages_spec {src dst : Nat} (hne : src ≠ dst) (patch : Option Nat) : ∀ (n i : Nat) (dev : Dev), i + n ≤ 16 →
    (∀ j, 256 * i ≤ j → j < 4096 → dev.flash (dst * 4096 + j) = 0xFF) →
    ∃ os, copyPages src dst patch n i dev = dev.ops os ∧ (∀ o ∈ os, ∀ a, o.touches a → a / 4096 = dst) ∧
      (∀ j, j < 256 * i → applyOps dev.flash os (dst * 4096 + j) = dev.flash (dst * 4096 + j)) ∧
      (∀ j, 256 * i ≤ j → j < 256 * (i + n) → applyOps dev.flash os (dst * 4096 + j) = patched dev.flash src patch j) := by
  intro n
  induction n with
  | zero =>
    intro i dev _ _
    exact ⟨[], (Dev.ops_nil _).symm, by simp, fun _ _ => rfl, fun j h1 h2 => by omega⟩
  | succ n ih =>
    intro i dev hi hb
    rw [copyPages]
    generalize hbuf : copyBuf src patch i dev.flash = buf
    unfold copyBuf at hbuf
    have e1 : src * SECTOR_SIZE + i * PAGE_SIZE = src * 4096 + 256 * i := by unfold SECTOR_SIZE PAGE_SIZE; rw [Nat.mul_comm i 256]
    have e2 : dst * SECTOR_SIZE + i * PAGE_SIZE = dst * 4096 + 256 * i := by unfold SECTOR_SIZE PAGE_SIZE; rw [Nat.mul_comm i 256]
    have e3 : PAGE_SIZE = 256 := rfl
    rw [e1, e3] at hbuf
    rw [e2]
    have hg : ∀ k, k < 256 → buf.getD k 0xFF = patched dev.flash src patch (256 * i + k) := by
      intro k hk
      rw [← hbuf]
      cases patch with
      | none =>
        show (dev.flash.read (src * 4096 + 256 * i) 256).getD k 0xFF = dev.flash (src * 4096 + (256 * i + k))
        rw [read_getD _ _ _ _ hk, Nat.add_assoc]
      | some next =>
        simp only [patched]
        by_cases h15 : i = 15
        · rw [if_pos h15, put_getD _ _ _ (by rw [u16x4_length, Flash.read_length]), u16x4_length]
          by_cases h8 : 248 ≤ k
          · rw [if_pos (by omega), if_pos (by omega), show 256 * i + k - 4088 = k - (256 - 8) by omega]
          · rw [if_neg (by omega), if_neg (by omega), read_getD _ _ _ _ hk, Nat.add_assoc]
        · rw [if_neg h15, if_neg (by omega), read_getD _ _ _ _ hk, Nat.add_assoc]
    have hnt : ∀ a, ¬ (dst * 4096 + 256 * i ≤ a ∧ a < dst * 4096 + 256 * i + 256) →
        (dev.op (.page (dst * 4096 + 256 * i) buf)).flash a = dev.flash a :=
      fun a ha => apply_untouched (o := .page (dst * 4096 + 256 * i) buf) ha
    obtain ⟨os, g1, g2, g3, g4⟩ := ih (i + 1) (dev.op (.page (dst * 4096 + 256 * i) buf)) (by omega) (by
      intro j h1 h2
      rw [hnt _ (by omega)]
      exact hb j (by omega) h2)
    refine ⟨[.page (dst * 4096 + 256 * i) buf] ++ os, ?_, ?_, ?_, ?_⟩
    · rw [g1, Dev.op_eq_ops, Dev.ops_ops]
    · intro o ho a ha
      rcases List.mem_append.mp ho with ho | ho
      · rw [List.mem_singleton.mp ho] at ha
        have : dst * 4096 + 256 * i ≤ a ∧ a < dst * 4096 + 256 * i + 256 := ha
        omega
      · exact g2 o ho a ha
    · intro j hj
      rw [applyOps_append]
      show applyOps (dev.op (.page (dst * 4096 + 256 * i) buf)).flash os _ = _
      rw [g3 j (by omega), hnt _ (by omega)]
    · intro j h1 h2
      rw [applyOps_append]
      show applyOps (dev.op (.page (dst * 4096 + 256 * i) buf)).flash os _ = _
      by_cases hj : j < 256 * (i + 1)
      · rw [g3 j hj]
        have := apply_page_blank (d := buf) (fl := dev.flash) (a := dst * 4096 + 256 * i)
          (fun k hk => by rw [Nat.add_assoc]; exact hb _ (by omega) (by omega)) (j - 256 * i) (by omega)
        rw [Nat.add_assoc, Nat.add_sub_of_le h1] at this
        show (FlashOp.page (dst * 4096 + 256 * i) buf).apply dev.flash (dst * 4096 + j) = _
        rw [this, hg _ (by omega), show 256 * i + (j - 256 * i) = j by omega]
      · rw [g4 j (by omega) (by omega)]
        have hsrc : ∀ j, j < 4096 → (dev.op (.page (dst * 4096 + 256 * i) buf)).flash (src * 4096 + j) = dev.flash (src * 4096 + j) := by
          intro j hj
          exact hnt _ (by omega)
        unfold patched
        cases patch with
        | none => exact hsrc j (by omega)
        | some next =>
          simp only
          by_cases h8 : 4088 ≤ j
          · rw [if_pos h8, if_pos h8]
          · rw [if_neg h8, if_neg h8]; exact hsrc j (by omega)

/-- items and length of a sector do not depend on its next pointer -/
theorem SecHolds.renext {crc : Bytes → UInt32} {f g : Flash} {s : Nat} {D : Bytes} {next next' : Nat} (h : SecHolds crc f s D next)
    (hs : ∀ j, j < 4088 → g (s * 4096 + j) = f (s * 4096 + j)) (hn : mostCommonU16 (g.read (s * 4096 + 4096 - 8) 8) = some next') :
    SecHolds crc g s D next' := by
  have hrd : ∀ a n, a + n ≤ 4088 → g.read (s * 4096 + a) n = f.read (s * 4096 + a) n := by
    intro a n ha
    apply Flash.read_congr
    intro i hi
    rw [Nat.add_assoc]
    exact hs _ (by omega)
  have hl : sectorLength g s = sectorLength f s := by unfold sectorLength; rw [hrd 4080 8 (by omega)]
  refine ⟨?_, hn, ?_⟩
  · rw [← h.items]
    unfold sectorItems
    rw [hl]
    have hle := sectorLength_le f s
    rw [List.flatMap_def, List.flatMap_def]
    refine congrArg List.flatten (List.map_congr_left ?_)
    intro p hp
    rw [List.mem_range] at hp
    unfold pageItems
    generalize hk : min (sectorLength f s - 252 * p) 252 = k
    have hk1 : k ≤ 252 := by omega
    have hp2 : p ≤ 15 := by omega
    have hk3 : p = 15 → k ≤ 236 := by intro h15; subst h15; omega
    have hb : 256 * p + ((k + 3) / 4 * 4 + 4) ≤ 4088 := by
      by_cases h15 : p = 15
      · have := hk3 h15; subst h15; omega
      · omega
    simp only
    rw [Nat.add_assoc (s * 4096), hrd (256 * p) _ (by omega), hrd (256 * p + (k + 3) / 4 * 4) 4 (by omega), hrd (256 * p) k (by omega)]
  · rw [hrd 4080 8 (by omega)]; exact h.size

/-- copying a sector aside, erasing it and copying it back with a new next pointer -/
theorem reopen_sector {dev : Dev} {last temp new : Nat} (hne : last ≠ temp)
    (hb : ∀ j, j < 4096 → dev.flash (temp * 4096 + j) = 0xFF) :
    ∃ os, copyPages temp last none 16 0 ((copyPages last temp (some new) 16 0 dev).op (.erase (last * SECTOR_SIZE) SECTOR_SIZE)) = dev.ops os ∧
      (∀ o ∈ os, ∀ a, o.touches a → a / 4096 = last ∨ a / 4096 = temp) ∧
      (∀ j, j < 4088 → applyOps dev.flash os (last * 4096 + j) = dev.flash (last * 4096 + j)) ∧
      (∀ i, i < 8 → applyOps dev.flash os (last * 4096 + 4088 + i) = (u16x4 new).getD i 0xFF) := by
  obtain ⟨os1, a1, a2, a3, a4⟩ := copyPages_spec hne (some new) 16 0 dev (by omega) (fun j _ h => hb j h)
  rw [a1]
  have e : last * SECTOR_SIZE = last * 4096 := rfl
  have e' : SECTOR_SIZE = 4096 := rfl
  rw [e, e']
  have her : ∀ a, ((dev.ops os1).op (.erase (last * 4096) 4096)).flash a = if last * 4096 ≤ a ∧ a < last * 4096 + 4096 then 0xFF else applyOps dev.flash os1 a :=
    fun a => rfl
  obtain ⟨os2, b1, b2, b3, b4⟩ := copyPages_spec (Ne.symm hne) none 16 0 ((dev.ops os1).op (.erase (last * 4096) 4096)) (by omega)
    (fun j _ h => by rw [her, if_pos (by omega)])
  refine ⟨os1 ++ ([.erase (last * 4096) 4096] ++ os2), ?_, ?_, ?_, ?_⟩
  · rw [b1, Dev.op_eq_ops, Dev.ops_ops, Dev.ops_ops]
  · intro o ho a ha
    rcases List.mem_append.mp ho with ho | ho
    · right; exact a2 o ho a ha
    · rcases List.mem_append.mp ho with ho | ho
      · rw [List.mem_singleton.mp ho] at ha
        have : last * 4096 ≤ a ∧ a < last * 4096 + 4096 := ha
        left; omega
      · left; exact b2 o ho a ha
  all_goals
    rw [applyOps_append, applyOps_append]
    show ∀ _, _ → applyOps ((dev.ops os1).op (.erase (last * 4096) 4096)).flash os2 _ = _
  · intro j hj
    rw [b4 j (by omega) (by omega)]
    simp only [patched]
    rw [her, if_neg (by omega), a4 j (by omega) (by omega)]
    simp only [patched]
    rw [if_neg (by omega)]
  · intro i hi
    rw [Nat.add_assoc, b4 _ (by omega) (by omega)]
    simp only [patched]
    rw [her, if_neg (by omega), a4 _ (by omega) (by omega)]
    simp only [patched]
    rw [if_pos (by omega), Nat.add_sub_cancel_left]

/-- following a chain to its last sector -/
theorem lastSector_stored {crc : Bytes → UInt32} {fl : Flash} {o : Option Nat} {l : List (Nat × Bytes)} (h : Stored crc fl o l) :
    ∀ (first fuel : Nat), o = some first → l.length < fuel → (∀ s ∈ secs l, s ≠ 0xFFFF) →
    ∃ init last D, l = init ++ [(last, D)] ∧ lastSector fuel fl first = .ok last ∧ SecHolds crc fl last D 0xFFFF ∧
      Segs crc fl first init last := by
  induction h with
  | nil => intro first fuel h; exact absurd h (by simp)
  | cons s D next l h ht ih =>
    intro first fuel ho hf hne
    injection ho with ho
    subst ho
    cases fuel with
    | zero => exact absurd hf (Nat.not_lt_zero _)
    | succ fuel =>
      have e : s * SECTOR_SIZE + SECTOR_SIZE - 8 = s * 4096 + 4096 - 8 := rfl
      rw [lastSector, e, h.next]
      simp only
      by_cases hn : next = 0xFFFF
      · rw [if_pos hn]
        subst hn
        rw [if_pos rfl] at ht
        cases ht with
        | nil => exact ⟨[], s, D, rfl, rfl, h, .nil s⟩
      · rw [if_neg hn]
        obtain ⟨init, last, D', g1, g2, g3, g4⟩ := ih next fuel (by rw [if_neg hn]) (by simpa using hf)
          (fun x hx => hne x (List.mem_cons_of_mem _ hx))
        exact ⟨(s, D) :: init, last, D', by rw [g1]; rfl, g2, g3, .cons s D next init last h hn g4⟩

end Verif.Vlfs
