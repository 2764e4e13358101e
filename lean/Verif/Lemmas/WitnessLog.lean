import Verif.Lemmas.Recording
import Verif.Lemmas.Witness
/-
Small appends and flushes succeed while there is room (for the concrete cases next to the theorems).
-/
namespace Verif.Props
open Verif Verif.Vlfs Verif.Spec Verif.Bit Verif.Delta Verif.Log Verif.LogFile

/-- a file that is open for writing: appends that fit into a page succeed -/
theorem small_writes_at {crc : Bytes → UInt32} {as bs : List FileSt} {leak : List Nat} : ∀ {ops : List WriterOp} {fs : FS} {k : Known} {e : FileEntry} {segs : List (Nat × Bytes)} {cur : Bytes} {w : FileWriter},
    Sys crc fs (as ++ ⟨k, e, segs, cur⟩ :: bs) leak → k.writer = some w → k.maybe = [] → OnlyWrites ops → cur.length + (writtenBytes ops).length < 252 →
    ∃ w' fs', runWriter crc fs w ops = (.ok (), w', fs') ∧
      Sys crc fs' (as ++ ⟨{ k with data := k.data ++ writtenBytes ops, writer := some w' }, e, segs, cur ++ writtenBytes ops⟩ :: bs) leak ∧ fs'.at' = fs.at' := by
  intro ops
  induction ops with
  | nil =>
    intro fs k e segs cur w hs hw hm _ _
    refine ⟨w, fs, rfl, ?_, rfl⟩
    simp only [writtenBytes, List.append_nil]
    rw [← hw]
    exact hs
  | cons o ops ih =>
    intro fs k e segs cur w hs hw hm ho hlen
    obtain ⟨rng, d, rfl, hd⟩ := ho o (by simp)
    simp only [writtenBytes, List.length_append] at hlen
    obtain ⟨first, f1, f2⟩ := Sys.wst (as := as) (bs := bs) hs hw
    have hd' : 0 < d.length := List.length_pos_iff.mpr hd
    obtain ⟨t1, t2, t3⟩ := extend_small f2 rng d hd' (by simp only; omega)
    obtain ⟨pdur, p2⟩ := ((hs.ok ⟨k, e, segs, cur⟩ (by simp)).open' w hw).2.2.2
    have s3 := Sys.write (as := as) (bs := bs) hs hw f1 t3 { k with data := k.data ++ d, writer := some (FileWriter.extend crc w fs.mng fs.dev rng d).2.1 } rfl rfl rfl rfl rfl pdur (by
      obtain ⟨pre, q1, q2⟩ := p2
      have q1 : pre <+: k.maybe := q1
      rw [hm] at q1
      rw [List.prefix_nil.mp q1, List.append_nil] at q2
      refine ⟨[], List.nil_prefix, ?_⟩
      simp only at q2 ⊢
      rw [← List.append_assoc, q2, List.append_nil])
    obtain ⟨w', fs', g1, g2, g3⟩ := ih (k := { k with data := k.data ++ d, writer := some (FileWriter.extend crc w fs.mng fs.dev rng d).2.1 }) s3 rfl hm (fun o ho' => ho o (by simp [ho'])) (by
      show (cur ++ d).length + _ < 252
      rw [List.length_append]; omega)
    refine ⟨w', fs', ?_, ?_, g3⟩
    · simp only [runWriter]
      have hx : fs.extendWriter crc w rng d = (.ok (), (FileWriter.extend crc w fs.mng fs.dev rng d).2.1, { fs with mng := (FileWriter.extend crc w fs.mng fs.dev rng d).2.2.1, dev := (FileWriter.extend crc w fs.mng fs.dev rng d).2.2.2 }) := Prod.ext t1 rfl
      rw [hx]
      exact g1
    · simp only [writtenBytes]
      rw [← List.append_assoc, ← List.append_assoc]
      exact g2

/-- … and a flush succeeds if a sector is free -/
theorem free_flush_at {crc : Bytes → UInt32} {as bs : List FileSt} {leak : List Nat} {fs : FS} {k : Known} {e : FileEntry} {segs : List (Nat × Bytes)} {cur : Bytes} {w : FileWriter}
    (hs : Sys crc fs (as ++ ⟨k, e, segs, cur⟩ :: bs) leak) (hw : k.writer = some w) (hm : k.maybe = []) (hlen : (others leak as bs).length + segs.length < 1000) (r1 r2 : Nat) :
    ∃ w' fs' segs', fs.flushWriter crc w r1 r2 = (.ok (), w', fs') ∧ Sys crc fs' (as ++ ⟨{ k with durable := k.data, writer := some w' }, e, segs', []⟩ :: bs) leak ∧ segs'.length ≤ segs.length + 1 ∧ fs'.at' = fs.at' := by
  obtain ⟨first, f1, f2⟩ := Sys.wst (as := as) (bs := bs) hs hw
  have hok : (FileWriter.flush crc w fs.mng fs.dev r1 r2).1 = .ok () := by
    unfold FileWriter.flush
    split
    · rfl
    · rcases claim_step f2 r1 r2 with ⟨x, m1, os1, c1, _⟩ | ⟨_, c2⟩
      · rw [c1]
      · exfalso
        have : (secs segs).length = segs.length := by simp [secs]
        simp only [List.length_append, List.length_singleton, this] at c2 hlen
        omega
  obtain ⟨segs', D', os, hc, hD, hlen'⟩ := flush_call_len f2 r1 r2
  have hD := hD hok
  subst hD
  obtain ⟨pdur, p2⟩ := ((hs.ok ⟨k, e, segs, cur⟩ (by simp)).open' w hw).2.2.2
  have hdata : bytesOf segs' = k.data := by
    obtain ⟨pre, q1, q2⟩ := p2
    have q1 : pre <+: k.maybe := q1
    rw [hm] at q1
    rw [List.prefix_nil.mp q1, List.append_nil] at q2
    have := hc.data
    simp only [List.append_nil] at this q2
    rw [this, q2]
  have s3 := Sys.write (as := as) (bs := bs) hs hw f1 hc { k with durable := k.data, writer := some (FileWriter.flush crc w fs.mng fs.dev r1 r2).2.1 } rfl rfl rfl rfl rfl
    (by rw [hdata]; exact List.prefix_rfl) ⟨[], List.nil_prefix, by simp only [List.append_nil]; exact hdata⟩
  exact ⟨_, _, segs', Prod.ext hok rfl, s3, hlen', rfl⟩

end Verif.Props
