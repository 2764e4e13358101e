import Verif.Spec.RecordFile
import Verif.Props.Tagged
import Verif.Lemmas.Recording
/-
Lemmas about logs of tagged records in files.
-/
namespace Verif.RecordFile
open Verif Verif.Vlfs Verif.Spec Verif.Tagged Verif.Console Verif.Log Verif.LogFile Verif.Export

variable {α : Type}

/-- `write` hands exactly the bytes of the record to the file -/
theorem write_eq {e : Enum α} (he : e.Ok) {crc : Bytes → UInt32} {s : RecordFile.St} (hb : s.buf.length = e.bufLen) (rng : Nat → Nat × Nat) (v : α) :
    ∃ buf : Bytes, buf.length = e.bufLen ∧
      s.write crc e rng v = ((s.fs.extendWriter crc s.w rng (e.bytes v)).1, ⟨buf, (s.fs.extendWriter crc s.w rng (e.bytes v)).2.1, (s.fs.extendWriter crc s.w rng (e.bytes v)).2.2⟩) := by
  obtain ⟨w', h1, h2, h3⟩ := write_ok he (w := ⟨s.buf, []⟩) hb v
  have hpos := bytes_pos he v
  unfold Writer.write at h1
  cases hx : e.writeToBuffer v s.buf with
  | none => rw [hx] at h1; exact absurd h1 (by simp)
  | some p =>
    obtain ⟨len, buf⟩ := p
    rw [hx] at h1
    simp only at h1
    split at h1
    · exact absurd h1 (by simp)
    next hlt =>
      simp only [List.nil_append, Option.some.injEq] at h1
      subst h1
      simp only [List.nil_append] at h2 h3
      refine ⟨buf, h2, ?_⟩
      unfold St.write St.writeAll
      rw [hx]
      simp only
      rw [if_neg hlt, h3, if_neg (by intro h; rw [h] at hpos; simp at hpos)]

/-- what is known about the file of a log -/
structure RecKnown (e : Enum α) (id : Nat) (s : RecordFile.St) (acc safe : List α) (k : Known) : Prop where
  id : k.id = id
  writer : k.writer = some s.w
  maybe : k.maybe = []
  data : k.data = acc.flatMap e.bytes
  durable : safe.flatMap e.bytes <+: k.durable

structure RecInv (crc : Bytes → UInt32) (e : Enum α) (id : Nat) (s : RecordFile.St) (ks : List Known) (acc safe : List α) : Prop where
  hist : Hist crc s.fs ks
  buf : s.buf.length = e.bufLen
  pre : safe <+: acc
  file : ∃ k ∈ ks, RecKnown e id s acc safe k

theorem RecInv.write {crc : Bytes → UInt32} {e : Enum α} (he : e.Ok) {id : Nat} {s s' : RecordFile.St} {ks : List Known} {acc safe : List α} (ih : RecInv crc e id s ks acc safe)
    {rng : Nat → Nat × Nat} {v : α} (h : s.write crc e rng v = (.ok (), s')) :
    RecInv crc e id s' (ks.map fun k => if k.id = id then { k with data := k.data ++ e.bytes v, writer := some s'.w } else k) (acc ++ [v]) safe := by
  obtain ⟨k, hk, hf⟩ := ih.file
  obtain rfl := hf.id
  obtain ⟨buf, h1, h2⟩ := write_eq he ih.buf rng v (crc := crc)
  rw [h2] at h
  rcases hx : s.fs.extendWriter crc s.w rng (e.bytes v) with ⟨r, w1, fs1⟩
  rw [hx] at h
  simp only [Prod.mk.injEq] at h
  obtain ⟨rfl, rfl⟩ := h
  obtain ⟨a, b, rfl⟩ := List.append_of_mem hk
  have hh := ih.hist.step (.extend rng (e.bytes v) s.w w1 fs1 a b k rfl hf.writer hf.maybe hx)
  have heq := map_file (ids_unique (hist_inv ih.hist)) (fun k => { k with data := k.data ++ e.bytes v, writer := some w1 })
  rw [heq]
  exact ⟨hh, h1, ih.pre.trans (List.prefix_append _ _), { k with data := k.data ++ e.bytes v, writer := some w1 }, by simp,
    rfl, rfl, hf.maybe, by rw [hf.data, List.flatMap_append]; simp, hf.durable⟩

theorem RecInv.flush {crc : Bytes → UInt32} {e : Enum α} {id : Nat} {s s' : RecordFile.St} {ks : List Known} {acc safe : List α} (ih : RecInv crc e id s ks acc safe)
    {r1 r2 : Nat} (h : s.flush crc r1 r2 = (.ok (), s')) :
    RecInv crc e id s' (ks.map fun k => if k.id = id then { k with durable := k.data, writer := some s'.w } else k) acc acc := by
  obtain ⟨k, hk, hf⟩ := ih.file
  obtain rfl := hf.id
  unfold St.flush at h
  rcases hx : s.fs.flushWriter crc s.w r1 r2 with ⟨r, w1, fs1⟩
  rw [hx] at h
  simp only [Prod.mk.injEq] at h
  obtain ⟨rfl, rfl⟩ := h
  obtain ⟨a, b, rfl⟩ := List.append_of_mem hk
  have hh := ih.hist.step (.flush r1 r2 s.w w1 fs1 a b k rfl hf.writer hx)
  have heq := map_file (ids_unique (hist_inv ih.hist)) (fun k => { k with durable := k.data, writer := some w1 })
  rw [heq]
  exact ⟨hh, ih.buf, List.prefix_rfl, { k with durable := k.data, writer := some w1 }, by simp, rfl, rfl, hf.maybe, hf.data, by rw [← hf.data]; exact List.prefix_rfl⟩

theorem records_inv {crc : Bytes → UInt32} {e : Enum α} (he : e.Ok) {id : Nat} {s : RecordFile.St} {ks : List Known} {acc safe : List α} (h : Records crc e id s ks acc safe) :
    RecInv crc e id s ks acc safe := by
  induction h with
  | start hr hk hid hw hd hm hb => exact ⟨hr, by rw [hb]; simp [Writer.new], List.prefix_rfl, _, hk, hid, hw, hm, by rw [hd]; rfl, List.nil_prefix⟩
  | write _ rng v h ih => exact ih.write he h
  | flush _ r1 r2 h ih => exact ih.flush h
  | other hr hs hkeep ih =>
    obtain ⟨k, hk, hf⟩ := ih.file
    exact ⟨ih.hist.step hs, ih.buf, ih.pre, k, hkeep k hk hf.id, hf.id, hf.writer, hf.maybe, hf.data, hf.durable⟩

theorem cut_content {crc : Bytes → UInt32} {e : Enum α} (he : e.Ok) {id : Nat} {s : RecordFile.St} {ks : List Known} {acc safe extra : List α} {fl' : Flash}
    (h : RecInv crc e id s ks acc safe) (hcut : RecordsCut crc e id s ks fl' extra) :
    ∃ fs'', FS.mount fl' = (.ok (), fs'') ∧ HoldsRecords crc e fs'' id (safe, acc ++ extra) := by
  obtain ⟨k, hk, hf⟩ := h.file
  have hid := hf.id
  have hdur := ((hist_inv h.hist).durable hk hf.writer).1
  have same : ∀ {fs'' : FS} {ks' : List Known}, FS.mount fl' = (.ok (), fs'') → Found crc fs'' ks' → k.afterLoss ∈ ks' →
      ∃ fs'', FS.mount fl' = (.ok (), fs'') ∧ HoldsRecords crc e fs'' id (safe, acc ++ []) := by
    intro fs'' ks' hm hinv hmem
    obtain ⟨pre, h1, h2⟩ := hinv.reads hmem ((hist_inv h.hist).whole hk hf.writer)
    rw [hid] at h2
    unfold Known.afterLoss at h1 h2
    rw [hf.writer] at h1 h2
    simp only at h1 h2
    refine ⟨fs'', hm, _, h2, hf.durable.trans (List.prefix_append _ _), ?_⟩
    show _ <+: (acc ++ []).flatMap e.bytes
    rw [hf.maybe, List.append_nil] at h1 hdur
    rw [List.append_nil, ← hf.data]
    obtain ⟨y, hy⟩ := hdur
    rw [← hy, List.drop_left] at h1
    rw [← hy]
    exact (List.prefix_append_right_inj _).mpr h1
  have call : ∀ {ops : List WriterOp} {fops : List FlashOp} {ex : List α}, issued s.fs (runWriter crc s.fs s.w ops).2.2 fops → CrashImage s.fs.dev.flash fops fl' →
      writtenBytes ops = ex.flatMap e.bytes → ∃ fs'', FS.mount fl' = (.ok (), fs'') ∧ HoldsRecords crc e fs'' id (safe, acc ++ ex) := by
    intro ops fops ex hi hcr hwb
    obtain ⟨a, b, rfl⟩ := List.append_of_mem hk
    obtain ⟨fs'', m1, cont, e1, e2, e3, _⟩ := runWriter_crash h.hist hf.writer hf.maybe hi hcr
    rw [hid] at e3
    refine ⟨fs'', m1, cont, e3, hf.durable.trans e1, ?_⟩
    show cont <+: (acc ++ ex).flatMap e.bytes
    rw [List.flatMap_append, ← hf.data, ← hwb]
    exact e2
  cases hcut with
  | idle =>
    obtain ⟨fs', m1, m4⟩ := restart_back (hist_inv h.hist)
    exact same m1 m4 (List.mem_map.mpr ⟨k, hk, rfl⟩)
  | write rng v ops _ hi hcr =>
    obtain ⟨buf, h1, h2⟩ := write_eq he h.buf rng v (crc := crc)
    rw [h2] at hi
    refine call (ops := [.write rng (e.bytes v)]) (fops := ops) ?_ hcr (by simp [writtenBytes])
    simp only [runWriter]
    rcases hx : s.fs.extendWriter crc s.w rng (e.bytes v) with ⟨_ | _, w1, fs1⟩ <;> rw [hx] at hi <;> exact hi
  | flush r1 r2 ops _ hi hcr =>
    refine call (ops := [.flush r1 r2]) (fops := ops) ?_ hcr (by simp [writtenBytes])
    simp only [runWriter]
    unfold St.flush at hi
    rcases hx : s.fs.flushWriter crc s.w r1 r2 with ⟨_ | _, w1, fs1⟩ <;> rw [hx] at hi <;> exact hi
  | otherWrite ks' _ hl hkeep =>
    obtain ⟨fs', m1, m4⟩ := loss_found (hist_inv h.hist) hl
    exact same m1 m4 (hkeep k hk hid)
  | otherDir fs' ks' ops _ hs hkeep hi hlen hp =>
    obtain ⟨fs'', ks2, m1, m2, m3⟩ := loss_dir_any (hist_inv h.hist) hs hi hlen hp
    refine same m1 m3 (List.mem_map.mpr ⟨k, ?_, rfl⟩)
    rcases m2 with rfl | rfl
    · exact hk
    · exact hkeep k hk hid
  | otherOpen fs' ks' ops _ hs hkeep hi hlen hp =>
    obtain ⟨fs'', ks2, m1, m2, m3⟩ := loss_allocStep_any (hist_inv h.hist) hs hi hlen hp
    refine same m1 m3 (List.mem_map.mpr ⟨k, ?_, rfl⟩)
    rcases m2 with rfl | rfl
    · exact hk
    · exact hkeep k hk hid
  | otherRotate typ n r1 r2 en fs' ops _ hc hw hother hcap ht hok hi hlen hp =>
    obtain ⟨fs'', ks2, m1, m2, m3⟩ := loss_rotateStep_any (hist_inv h.hist) hc hw hcap ht hok hi hlen hp
    have hno : oldestKnown typ n ks k = false := by
      unfold oldestKnown
      rw [show (k.typ == typ) = false by simpa using hother k hk hid]
      rfl
    refine same m1 m3 (List.mem_map.mpr ⟨k, ?_, rfl⟩)
    rcases m2 with rfl | rfl
    · exact List.mem_map.mpr ⟨k, hk, by rw [hno]; rfl⟩
    · exact List.mem_append_left _ (List.mem_filter.mpr ⟨hk, by rw [hno]; rfl⟩)

/-! ### reading -/

theorem readNext_end {e : Enum α} (he : e.Ok) (sched : Nat → Nat) {s : Src} (hs : s.data = []) : ∃ s', e.readNext sched s = some (none, s') := by
  have hp := he.pos
  obtain ⟨t, h⟩ := readExact_eq sched 1 s
  unfold Enum.readNext
  rw [if_neg (by omega), h, hs]
  exact ⟨_, rfl⟩

theorem readLog_take {e : Enum α} (he : e.Ok) (sched : Nat → Nat) : ∀ (vs : List α) (n fuel : Nat) (s : Src) (got : List α), s.data = (vs.flatMap e.bytes).take n → vs.length < fuel →
    ∃ j, readLog e sched fuel s got = some (got ++ vs.take j) ∧ ∀ l : List α, l <+: vs → (l.flatMap e.bytes).length ≤ n → l <+: vs.take j := by
  intro vs
  induction vs with
  | nil =>
    intro n fuel s got hs hf
    obtain ⟨fuel, rfl⟩ : ∃ f, fuel = f + 1 := ⟨fuel - 1, by omega⟩
    obtain ⟨s', h⟩ := readNext_end he sched (s := s) (by simpa using hs)
    exact ⟨0, by simp [readLog, h], fun l hl _ => by simpa using hl⟩
  | cons v vs ih =>
    intro n fuel s got hs hf
    obtain ⟨fuel, rfl⟩ : ∃ f, fuel = f + 1 := ⟨fuel - 1, by omega⟩
    rw [List.flatMap_cons] at hs
    by_cases hn : (e.bytes v).length ≤ n
    · rw [List.take_append, List.take_of_length_le hn] at hs
      obtain ⟨t, h⟩ := readNext_record he sched v _ s hs
      obtain ⟨j, h1, h2⟩ := ih (n - (e.bytes v).length) fuel ⟨_, t⟩ (got ++ [v]) rfl (by simpa using hf)
      refine ⟨j + 1, ?_, ?_⟩
      · unfold readLog
        rw [h]
        simp only
        rw [h1, List.append_assoc]
        rfl
      · intro l hl hlen
        cases l with
        | nil => exact List.nil_prefix
        | cons x l =>
          obtain ⟨rfl, hl'⟩ := List.cons_prefix_cons.mp hl
          rw [List.flatMap_cons, List.length_append] at hlen
          rw [List.take_succ_cons]
          exact List.cons_prefix_cons.mpr ⟨rfl, h2 l hl' (by omega)⟩
    · rw [List.take_append_of_le_length (by omega)] at hs
      obtain ⟨s', h⟩ := readNext_cut he sched v n s hs (by omega)
      refine ⟨0, by simp [readLog, h], ?_⟩
      intro l hl hlen
      cases l with
      | nil => exact List.nil_prefix
      | cons x l =>
        obtain ⟨rfl, hl⟩ := List.cons_prefix_cons.mp hl
        rw [List.flatMap_cons, List.length_append] at hlen
        omega

/-- a log that was cut somewhere reads back as all of `must` and nothing but a beginning of `may` -/
theorem readLog_ok {e : Enum α} (he : e.Ok) (sched : Nat → Nat) {must may : List α} {b : Bytes} (hp : must <+: may) (h1 : must.flatMap e.bytes <+: b) (h2 : b <+: may.flatMap e.bytes)
    {fuel : Nat} (hf : may.length < fuel) : ∃ outs, readLog e sched fuel ⟨b, 0⟩ [] = some outs ∧ must <+: outs ∧ outs <+: may := by
  obtain ⟨j, g1, g2⟩ := readLog_take he sched may b.length fuel ⟨b, 0⟩ [] (List.prefix_iff_eq_take.mp h2) hf
  exact ⟨_, g1, by rw [List.nil_append]; exact g2 must hp h1.length_le, by rw [List.nil_append]; exact List.take_prefix _ _⟩

theorem logLines_ok {e : Enum α} (he : e.Ok) (sched : Nat → Nat) {fuel : Nat} {bs : List Bytes} {logs : List (List α × List α)}
    (h : List.Forall₂ (fun b l => l.1 <+: l.2 ∧ l.1.flatMap e.bytes <+: b ∧ b <+: l.2.flatMap e.bytes) bs logs) (hf : ∀ l ∈ logs, l.2.length < fuel) :
    ∃ parts : List (List α), logLines e sched fuel bs = some parts.flatten ∧ List.Forall₂ (fun l outs => l.1 <+: outs ∧ outs <+: l.2) logs parts := by
  induction h with
  | nil => exact ⟨[], rfl, .nil⟩
  | @cons b l bs logs hx _ ih =>
    obtain ⟨x1, x2, x3⟩ := hx
    obtain ⟨outs, g1, g2⟩ := readLog_ok he sched x1 x2 x3 (hf l (by simp))
    obtain ⟨parts, g3, g4⟩ := ih fun l hl => hf l (by simp [hl])
    refine ⟨outs :: parts, ?_, .cons g2 g4⟩
    unfold logLines
    rw [g1]
    simp only
    rw [g3]
    rfl

end Verif.RecordFile
