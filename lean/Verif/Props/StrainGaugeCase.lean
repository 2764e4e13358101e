import Verif.Props.StrainGauge
import Mathlib.Tactic.NormNum
/-
C92: a concrete case, and the finding about gaps.
-/
namespace Verif.Props
open Verif Verif.Spec Verif.SG Verif.Tagged Verif.Lut

/-- numbers for the case: one byte samples, a filter that passes on the previous sample -/
def sgArith : Arith UInt8 UInt8 := ⟨0, (· + ·), 0, fun s x => (s, x), fun x => (x, 7), fun x _ => x⟩

/-- a record codec for the case, with one byte timestamps -/
def sgEnum : Enum (Rec UInt8) where
  variants :=
    [⟨0, 82, fun v => match v with | .reading r => some (r.start :: r.sg :: r.samples.toList) | _ => none,
        fun b => .reading ⟨b.getD 0 0, b.getD 1 0, Vector.ofFn fun i => b.getD (i.val + 2) 0⟩⟩,
     ⟨1, 2, fun v => match v with | .sync a c => some [a, c] | _ => none, fun b => .sync (b.getD 0 0) (b.getD 1 0)⟩]
  bufLen := 83

theorem sgEnum_ok : sgEnum.Ok where
  tags := by decide
  total := by
    intro v
    rcases v with r | ⟨b, u⟩
    · exact ⟨_, List.mem_cons_self, rfl⟩
    · exact ⟨_, List.mem_cons_of_mem _ List.mem_cons_self, rfl⟩
  codec := by
    intro k hk v b hb
    simp only [sgEnum, List.mem_cons, List.not_mem_nil, or_false] at hk
    rcases hk with rfl | rfl
    · rcases v with r | ⟨c, u⟩
      · simp only [Option.some.injEq] at hb
        subst hb
        refine ⟨by simp, ?_⟩
        obtain ⟨st, sg, sm⟩ := r
        simp only [List.getD_cons_zero, List.getD_cons_succ, Rec.reading.injEq, Reading.mk.injEq, true_and]
        ext i hi
        simp [hi]
      · exact absurd hb (by simp)
    · rcases v with r | ⟨c, u⟩
      · exact absurd hb (by simp)
      · simp only [Option.some.injEq] at hb; subst hb; exact ⟨rfl, rfl⟩
  room := by
    intro k hk
    simp only [sgEnum, List.mem_cons, List.not_mem_nil, or_false] at hk
    rcases hk with rfl | rfl <;> decide
  pos := by decide

/-- 45 reads, 5 ms apart but for a pause of 55 ms before read 20 -/
def sgReads : List (Raw UInt8 UInt8 × (Nat → Vector UInt8 80)) :=
  (List.range 45).map fun k => (⟨UInt8.ofNat (if k < 20 then 5 * k else 5 * k + 55), fun c => List.replicate 213 (UInt8.ofNat (k + c))⟩, fun _ => Vector.replicate 80 9)

theorem sgReads_full : FullReads (sgReads.map Prod.fst) := by
  intro r hr c _
  simp only [sgReads, List.map_map, List.mem_map] at hr
  obtain ⟨k, _, rfl⟩ := hr
  exact Nat.le_of_eq List.length_replicate.symm

/-- the times of the case as numbers, and any search -/
def sgEnv : SG.Env UInt8 := ⟨fun t => (t.toNat : Rat), fun _ _ => .error 0⟩

/-- the hypotheses of `C92_tables` are met: the case runs, its messages can be stored with a time sync before and a rotation in between, and the files exist -/
example : ∃ es st evs files fuel, (St.new sgArith).run sgArith sgReads = some (es, st) ∧ arrived evs = es.flatMap Effects.readings ∧
    List.Forall₂ (FileOf sgEnum) (segments ((Store.new UInt8).run evs)) files ∧ (∀ seg ∈ segments ((Store.new UInt8).run evs), seg.length < fuel) ∧
    (segments ((Store.new UInt8).run evs)).length = 2 ∧ newestSync evs = some (1, 2) := by
  obtain ⟨es, st, h1, _, h3, _, _⟩ := C92_messages sgArith sgReads sgReads_full
  have hl : (es.flatMap Effects.readings).length = 4 := by rw [h3]; simp [sgReads]
  generalize hm : es.flatMap Effects.readings = ms at *
  match ms, hl with
  | [r0, r1, r2, r3], _ =>
    let evs : List (Ev UInt8) := [.unix 1 2, .reading r0, .reading r1, .replaceWriter, .finishSegment, .reading r2, .reading r3]
    refine ⟨es, st, evs, (segments ((Store.new UInt8).run evs)).map fun seg => seg.flatMap sgEnum.bytes, 10, h1, by rw [hm]; rfl, ?_, ?_, rfl, rfl⟩
    · rw [List.forall₂_map_right_iff, List.forall₂_same]
      exact fun seg _ => (fileOf_iff sgEnum_ok _ _).mpr rfl
    · intro seg hseg
      have : segments ((Store.new UInt8).run evs) = [[.sync 1 2, .reading r0, .reading r1], [.sync 1 2, .reading r2, .reading r3]] := rfl
      rw [this] at hseg
      simp only [List.mem_cons, List.not_mem_nil, or_false] at hseg
      rcases hseg with rfl | rfl <;> simp

/-- **C92, finding** The table's times assume a read every 5 ms without a gap. After a pause in the middle of a batch (the ADC was switched off, or a read failed) the samples are shown
earlier than they were taken: here read 20 started at 155 ms, and its sample is shown under 100 ms. -/
theorem C92_gap : ∃ es st, (St.new sgArith).run sgArith sgReads = some (es, st) ∧
    ∀ evs, arrived evs = es.flatMap Effects.readings → ∀ sched1 sched2 fuel files, List.Forall₂ (FileOf sgEnum) (segments ((Store.new UInt8).run evs)) files →
      (∀ seg ∈ segments ((Store.new UInt8).run evs), seg.length < fuel) →
      ∃ out t row raw, sgTables sgArith sgEnum sgEnv sched1 sched2 fuel files = some out ∧ out[0]? = some t ∧ t[20]? = some row ∧
        (sgReads.map Prod.fst)[20]? = some raw ∧ row.boot = 100 ∧ sgEnv.num raw.start = 155 := by
  obtain ⟨es, st, h1, _⟩ := C92_messages sgArith sgReads sgReads_full
  refine ⟨es, st, h1, fun evs hev sched1 sched2 fuel files hf hl => ?_⟩
  obtain ⟨out, o1, _, o3⟩ := C92_tables sgArith sgReads sgReads_full h1 evs hev sgEnum_ok sgEnv sched1 sched2 fuel hf hl
  obtain ⟨t, t1, _, t3⟩ := o3 0 (by decide)
  have hlen : sgReads.length = 45 := by simp [sgReads]
  obtain ⟨row, first, x, w1, w2, _, w4, _⟩ := t3 20 (by rw [hlen]; decide)
  have hget : ∀ k, k < 45 → (sgReads.map Prod.fst)[k]? = some ⟨UInt8.ofNat (if k < 20 then 5 * k else 5 * k + 55), fun c => List.replicate 213 (UInt8.ofNat (k + c))⟩ := by
    intro k hk
    simp only [sgReads, List.map_map]
    rw [List.getElem?_map, List.getElem?_range hk]
    rfl
  have h20 := hget 20 (by decide)
  have h0 : (sgReads.map Prod.fst)[40 * (20 / 40)]? = _ := hget 0 (by decide)
  rw [w2] at h0
  injection h0 with h0
  refine ⟨out, t, row, _, o1, t1, w1, h20, ?_, ?_⟩
  · rw [w4, h0]
    show ((0 : Nat) : Rat) + 5 * ((20 : Nat) : Rat) = 100
    norm_num
  · show ((155 : Nat) : Rat) = 155
    norm_num

end Verif.Props
