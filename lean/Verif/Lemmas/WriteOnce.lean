import Verif.Spec.WriteOnce
import Verif.Lemmas.Sectors
/-
Sequences of operations the chip can carry out exactly.
-/
namespace Verif.Vlfs
open Verif Verif.Spec

theorem opsOk_append {fl : Flash} {a b : List FlashOp} (h1 : OpsOk fl a) (h2 : OpsOk (applyOps fl a) b) : OpsOk fl (a ++ b) := by
  induction a generalizing fl with
  | nil => exact h2
  | cons o a ih => exact ⟨h1.1, ih h1.2 h2⟩

theorem opsOk_split {fl : Flash} {a b : List FlashOp} (h : OpsOk fl (a ++ b)) : OpsOk fl a ∧ OpsOk (applyOps fl a) b := by
  induction a generalizing fl with
  | nil => exact ⟨trivial, h⟩
  | cons o a ih => exact ⟨⟨h.1, (ih h.2).1⟩, (ih h.2).2⟩

theorem opsOk_one {fl : Flash} {o : FlashOp} (h : OpOk fl o) : OpsOk fl [o] := ⟨h, trivial⟩

theorem eraseOk {r : EraseRegion} (hin : r.first + r.len ≤ DATA_REGION_SECTORS) (hsz : r.len = 1 ∨ r.len = 8 ∨ r.len = 16)
    (ha : r.first % r.len = 0) (fl : Flash) : OpOk fl (.erase r.address (r.len * SECTOR_SIZE)) := by
  have hin' : r.first + r.len ≤ 16352 := hin
  have hadr : r.address = (r.first + 32) * 4096 := rfl
  refine ⟨?_, ?_, ?_⟩
  · show r.len * 4096 = _ ∨ r.len * 4096 = _ ∨ r.len * 4096 = _
    rcases hsz with h | h | h <;> rw [h] <;> simp
  · rw [hadr]
    show r.len * 4096 ∣ _
    rcases hsz with h | h | h <;> rw [h] at ha ⊢ <;> omega
  · rw [hadr]
    show _ + r.len * 4096 ≤ 64 * 1024 * 1024
    omega

theorem opsOk_erases {s : SectorsMng} {os : List FlashOp} (h : ∀ o ∈ os, ∃ r, RegionFree s r ∧ o = .erase r.address (r.len * SECTOR_SIZE)) :
    ∀ fl, OpsOk fl os := by
  induction os with
  | nil => exact fun _ => trivial
  | cons o os ih =>
    intro fl
    refine ⟨?_, ih (fun o' ho => h o' (by simp [ho])) _⟩
    obtain ⟨r, hr, rfl⟩ := h o (by simp)
    exact eraseOk hr.inside hr.size hr.align fl

theorem opOk_page {fl : Flash} {s p : Nat} {d : Bytes} (hs : s < 16384) (hp : p < 16) (hd : d.length ≤ 256)
    (hb : ∀ i, i < 256 → fl (s * 4096 + 256 * p + i) = 0xFF) : OpOk fl (.page (s * 4096 + 256 * p) d) :=
  ⟨by omega, by show _ ≤ 64 * 1024 * 1024; omega, hd, hb⟩

theorem opOk_sector {fl : Flash} {s : Nat} (hs : s < 16384) : OpOk fl (.erase (s * 4096) 4096) :=
  ⟨.inl rfl, by omega, by show _ ≤ 64 * 1024 * 1024; omega⟩

end Verif.Vlfs
