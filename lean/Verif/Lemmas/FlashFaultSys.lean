import Verif.Lemmas.FlashFault
/-
Refused page programs, for the whole file system: the state after a refusal is compared with a state of a file system on a chip that refuses nothing.
-/
namespace Verif.Vlfs
open Verif Verif.Spec

theorem fill_nil (w : FileWriter) : w.fill [] = w := by
  unfold FileWriter.fill put
  simp

/-- a full sector: whatever is put into the page buffer as length, next sector and checksum is put in anew -/
theorem full_again (crc : Bytes → UInt32) (w : FileWriter) (x next : Nat) (dev : Dev) (hl : w.len = 4016) (ho : w.offset = 236) (hb : w.buffer.length = 256) :
    ((w.writeMeta x).withCrc crc (some 236)).flushTo crc next dev = w.flushTo crc next dev := by
  rw [flushTo_full crc w hl ho, flushTo_full crc ((w.writeMeta x).withCrc crc (some 236)) hl ho, meta_again crc w 236 x next hb (by decide)]
  rfl

theorem withCrc_length (crc : Bytes → UInt32) (w : FileWriter) (o : Nat) (hb : w.buffer.length = 256) (ho : o ≤ 252) : (w.withCrc crc (some o)).buffer.length = 256 := by
  show (put w.buffer o _).length = 256
  rw [put_length _ _ _ (by rw [beBytes_length]; omega), hb]

theorem writeMeta_length (w : FileWriter) (x : Nat) (hb : w.buffer.length = 256) : (w.writeMeta x).buffer.length = 256 := by
  show (put (put w.buffer 240 (u16x4 w.len)) 248 (u16x4 x)).length = 256
  have q : (put w.buffer 240 (u16x4 w.len)).length = 256 := by rw [put_length _ _ _ (by rw [u16x4_length]; omega), hb]
  rw [put_length _ _ _ (by rw [u16x4_length]; omega), q]

theorem fill_length {w : FileWriter} {d : Bytes} (hw : Ready w) (h : w.offset + d.length ≤ 256) : (w.fill d).buffer.length = 256 := by
  show (put w.buffer w.offset d).length = 256
  have := hw.buffer
  rw [put_length _ _ _ (by omega), hw.buffer]

/-- a flush that failed because a page program was refused: closing or flushing afterwards does what it would have done without that flush, except that a sector is lost -/
theorem flushF_refused {crc : Bytes → UInt32} {w wF : FileWriter} {m mF : SectorsMng} {dev devF : Dev} {r1 r2 : Nat} {ok : Nat → Bool} (hw : Ready w)
    (h : w.flushF crc m dev r1 r2 ok = (.error .flash, wF, mF, devF)) :
    ∃ x dev1, m.claim r1 r2 dev = (.ok x, mF, dev1) ∧ wF.id = w.id ∧ ∀ next, wF.flushTo crc next devF = w.flushTo crc next dev1 := by
  have hlen := hw.len
  have hoff := hw.offset
  have hb := hw.buffer
  unfold FileWriter.flushF at h
  by_cases h0 : w.len = 0
  · rw [if_pos h0] at h
    injection h with h _
    exact absurd h (by simp)
  · rw [if_neg h0] at h
    obtain ⟨res, m1, dev1, hc⟩ : ∃ res m1 dev1, m.claim r1 r2 dev = (res, m1, dev1) := ⟨_, _, _, rfl⟩
    rw [hc] at h
    cases res with
    | error e =>
      injection h with h _
      exact absurd h (by simp)
    | ok x =>
      dsimp only at h
      refine ⟨x, dev1, ?_⟩
      unfold FileWriter.flushToF at h
      rw [if_neg h0] at h
      cases hk : w.isLastDataPage with
      | true =>
        rw [hk, if_pos rfl] at h
        cases hok : ok 0 with
        | true =>
          rw [hok, writePageF_ok] at h
          injection h with h _
          exact absurd h (by simp)
        | false =>
          rw [hok, writePageF_refused] at h
          simp only [Prod.mk.injEq] at h
          obtain ⟨_, rfl, rfl, rfl⟩ := h
          refine ⟨hc, rfl, fun next => ?_⟩
          have h15 : w.len > 252 * 15 := of_decide_eq_true hk
          generalize ho : (w.offset + 3) / 4 * 4 = o
          have ho' : o ≤ 236 := by omega
          unfold FileWriter.flushTo
          have e0 : ¬ ((w.writeMeta x).withCrc crc (some o)).len = 0 := h0
          have e1 : ((w.writeMeta x).withCrc crc (some o)).isLastDataPage = true := hk
          have e2 : ((w.writeMeta x).withCrc crc (some o)).offset = w.offset := rfl
          rw [if_neg e0, if_neg h0]
          simp only [e1, hk, e2, if_true, ho]
          have e3 := congrArg FileWriter.buffer (meta_again crc w o x next hb ho')
          have e4 : (((w.writeMeta x).withCrc crc (some o)).writeMeta next).writePage crc ((w.writeMeta x).withCrc crc (some o)).pageAddress (some o) dev1 = (w.writeMeta next).writePage crc w.pageAddress (some o) dev1 := by
            show (({ w with buffer := blankPage, offset := 0 } : FileWriter), dev1.op (.page w.pageAddress ((((w.writeMeta x).withCrc crc (some o)).writeMeta next).withCrc crc (some o)).buffer)) = _
            rw [e3]; rfl
          rw [e4]
      | false =>
        rw [hk, if_neg (by simp)] at h
        have e2 : w.sector * SECTOR_SIZE + (SECTOR_SIZE - PAGE_SIZE) = w.sector * SECTOR_SIZE + (SECTOR_SIZE - PAGE_SIZE) := rfl
        have h15 : ¬ w.len > 252 * 15 := of_decide_eq_false hk
        by_cases hp : w.offset > 0
        · rw [if_pos hp] at h
          cases hok : ok 0 with
          | false =>
            rw [hok, writePageF_refused] at h
            simp only [Prod.mk.injEq] at h
            obtain ⟨_, rfl, rfl, rfl⟩ := h
            refine ⟨hc, rfl, fun next => ?_⟩
            generalize ho : (w.offset + 3) / 4 * 4 = o
            have ho' : o ≤ 252 := by omega
            have i := congrArg FileWriter.buffer (withCrc_idem crc w o (by omega))
            unfold FileWriter.flushTo
            have e0 : ¬ (w.withCrc crc (some o)).len = 0 := h0
            have e1 : (w.withCrc crc (some o)).isLastDataPage = false := hk
            have e2 : (w.withCrc crc (some o)).offset = w.offset := rfl
            rw [if_neg e0, if_neg h0]
            simp only [e1, hk, e2, Bool.false_eq_true, if_false, ho]
            rw [if_pos hp, if_pos hp]
            have e4 : (w.withCrc crc (some o)).writePage crc (w.withCrc crc (some o)).pageAddress (some o) dev1 = w.writePage crc w.pageAddress (some o) dev1 := by
              show (({ w with buffer := blankPage, offset := 0 } : FileWriter), dev1.op (.page w.pageAddress ((w.withCrc crc (some o)).withCrc crc (some o)).buffer)) = _
              rw [i]; rfl
            rw [e4]
            rfl
          | true =>
            rw [hok, writePageF_ok] at h
            dsimp only at h
            cases hok1 : ok 1 with
            | true =>
              rw [hok1, writePageF_ok] at h
              injection h with h _
              exact absurd h (by simp)
            | false =>
              rw [hok1, writePageF_refused] at h
              simp only [Prod.mk.injEq] at h
              obtain ⟨_, rfl, rfl, rfl⟩ := h
              refine ⟨hc, rfl, fun next => ?_⟩
              generalize hw1 : (w.writePage crc w.pageAddress (some ((w.offset + 3) / 4 * 4)) dev1) = q
              have f1 : q.1 = { w with buffer := blankPage, offset := 0 } := by rw [← hw1]; rfl
              have g0 : ¬ ((q.1.writeMeta x).withCrc crc none).len = 0 := by rw [f1]; exact h0
              have g1 : ((q.1.writeMeta x).withCrc crc none).isLastDataPage = false := by rw [f1]; exact hk
              have g2 : ((q.1.writeMeta x).withCrc crc none).offset = 0 := by rw [f1]; rfl
              have g3 : ((q.1.writeMeta x).withCrc crc none).sector = w.sector := by rw [f1]; rfl
              unfold FileWriter.flushTo
              rw [if_neg g0, if_neg h0]
              simp only [g1, hk, Bool.false_eq_true, if_false, g2, g3]
              rw [if_pos hp, if_neg (by omega), hw1]
              dsimp only
              have e5 : ((q.1.writeMeta x).withCrc crc none).writeMeta next = q.1.writeMeta next := meta_meta q.1 x next (by rw [f1]; exact List.length_replicate)
              rw [e5]
        · rw [if_neg hp] at h
          dsimp only at h
          cases hok1 : ok 1 with
          | true =>
            rw [hok1, writePageF_ok] at h
            injection h with h _
            exact absurd h (by simp)
          | false =>
            rw [hok1, writePageF_refused] at h
            simp only [Prod.mk.injEq] at h
            obtain ⟨_, rfl, rfl, rfl⟩ := h
            refine ⟨hc, rfl, fun next => ?_⟩
            have g0 : ¬ ((w.writeMeta x).withCrc crc none).len = 0 := h0
            have g1 : ((w.writeMeta x).withCrc crc none).isLastDataPage = false := hk
            have g2 : ((w.writeMeta x).withCrc crc none).offset = w.offset := rfl
            have g3 : ((w.writeMeta x).withCrc crc none).sector = w.sector := rfl
            unfold FileWriter.flushTo
            rw [if_neg g0, if_neg h0]
            simp only [g1, hk, Bool.false_eq_true, if_false, g2, g3]
            rw [if_neg hp, if_neg hp]
            dsimp only
            have e5 : ((w.writeMeta x).withCrc crc none).writeMeta next = w.writeMeta next := meta_meta w x next hb
            rw [e5]

theorem writer_eta (w : FileWriter) (n : Nat) (h : w.offset = n) : ({ w with offset := n } : FileWriter) = w := by subst h; rfl

/-- a page that could not be programmed, and the next write -/
theorem StuckPage.again {crc : Bytes → UInt32} {wF w0 : FileWriter} {devF dev0 : Dev} (h : StuckPage crc wF devF w0 dev0) (rng : Nat → Nat × Nat) (fuel : Nat) (m : SectorsMng) {slice : Bytes}
    (h0 : 0 < slice.length) :
    wF.len = w0.len ∧ (∀ ok, w0.len = 3780 → wF.extendLoopF crc rng ok (fuel + 1) m devF slice = (.error (.fs .panic), wF, m, devF)) ∧
    (∀ ok, w0.len < 3780 → ok fuel = true → wF.extendLoopF crc rng ok (fuel + 1) m devF slice = w0.extendLoopF crc rng ok fuel m dev0 slice) := by
  obtain ⟨w1, h1, h2, h3, h4, rfl, rfl, rfl⟩ := h
  refine ⟨rfl, fun ok hl => ?_, fun ok hl hok => ?_⟩
  · have hl : w1.len = 3780 := hl
    have hk : decide ((w1.withCrc crc (some 252)).len ≥ 252 * 15) = true := decide_eq_true (by show w1.len ≥ 252 * 15; omega)
    have ho : (w1.withCrc crc (some 252)).offset = 252 := h2
    rw [FileWriter.extendLoopF, if_pos h0]
    simp only [hk, ho, if_true]
    rw [if_pos (by decide)]
  · have hl : w1.len < 3780 := hl
    have hk : decide ((w1.withCrc crc (some 252)).len ≥ 252 * 15) = false := decide_eq_false (by show ¬ w1.len ≥ 252 * 15; omega)
    have ho : (w1.withCrc crc (some 252)).offset = 252 := h2
    have hbl := withCrc_length crc w1 252 h1 (by decide)
    have g2 : ¬ slice.length < 0 := by omega
    rw [FileWriter.extendLoopF, if_pos h0]
    simp only [hk, ho, Bool.false_eq_true, if_false]
    rw [if_neg (by decide), if_neg g2, hok]
    simp only [Nat.reduceSub, List.take_zero, List.drop_zero]
    have efill : ({ w1.withCrc crc (some 252) with buffer := put (w1.withCrc crc (some 252)).buffer 252 [], offset := 252 + 0, len := (w1.withCrc crc (some 252)).len + 0 } : FileWriter) = w1.withCrc crc (some 252) := by
      have : put (w1.withCrc crc (some 252)).buffer 252 [] = (w1.withCrc crc (some 252)).buffer := by unfold put; simp
      rw [this]
      exact writer_eta _ _ ho
    have e : (w1.withCrc crc (some 252)).writePage crc (w1.withCrc crc (some 252)).pageAddress (some 252) devF = ({ w1 with buffer := blankPage, offset := 0 }, devF.ops [pageOp crc w1]) := by
      have i := congrArg FileWriter.buffer (withCrc_idem crc w1 252 (by omega))
      have hp : pageOp crc w1 = .page w1.pageAddress (w1.withCrc crc (some 252)).buffer := by unfold pageOp; rw [h2]; rfl
      rw [hp, ← i]
      rfl
    rw [efill, writePageF_ok, e]

theorem StuckSector.facts {crc : Bytes → UInt32} {d : Bytes} {wF w0 : FileWriter} {mF m0 : SectorsMng} {devF dev0 : Dev} (h : StuckSector crc d wF mF devF w0 m0 dev0) (hw : Ready w0) :
    (w0.fill d).len = 4016 ∧ (w0.fill d).offset = 236 ∧ (w0.fill d).buffer.length = 256 ∧ wF.id = w0.id ∧ wF.len = 4016 ∧ wF.offset = 236 ∧ wF.buffer.length = 256 ∧
    (∀ next dev, wF.flushTo crc next dev = (w0.fill d).flushTo crc next dev) := by
  obtain ⟨x, r1, r2, h1, h2, h3, rfl⟩ := h
  have ho := hw.offset
  have e1 : (w0.fill d).len = 4016 := h2
  have e2 : (w0.fill d).offset = 236 := by show w0.offset + d.length = 236; omega
  have e3 := fill_length hw (d := d) (by omega)
  refine ⟨e1, e2, e3, rfl, e1, e2, ?_, fun next dev => full_again crc _ x next dev e1 e2 e3⟩
  exact withCrc_length crc _ 236 (writeMeta_length _ x e3) (by decide)

/-- a sector that could not be finished, and the next write -/
theorem StuckSector.again {crc : Bytes → UInt32} {d : Bytes} {wF w0 : FileWriter} {mF m0 : SectorsMng} {devF dev0 : Dev} (h : StuckSector crc d wF mF devF w0 m0 dev0) (hw : Ready w0)
    (rng : Nat → Nat × Nat) (ok : Nat → Bool) (fuel : Nat) (m : SectorsMng) (dev : Dev) {slice : Bytes} (h0 : 0 < slice.length) (hok : ok fuel = true) :
    (∃ e w' m' dev', m.claim (rng fuel).1 (rng fuel).2 dev = (.error e, m', dev') ∧ wF.extendLoopF crc rng ok (fuel + 1) m dev slice = (.error (.fs e), w', m', dev')) ∨
    wF.extendLoopF crc rng ok (fuel + 1) m dev slice = (w0.fill d).extendLoopF crc rng ok (fuel + 1) m dev slice := by
  obtain ⟨e1, e2, e3, e4, e5, e6, e7, e8⟩ := h.facts hw
  have r1 : Ready (w0.fill d) := ⟨by omega, by omega, e3⟩
  have r2 : Ready wF := ⟨by omega, by omega, e7⟩
  obtain ⟨s1, s2⟩ := loop_sector crc rng ok fuel m dev (n := 0) r1 (by omega) (by omega) h0 (Nat.zero_le _)
  obtain ⟨t1, t2⟩ := loop_sector crc rng ok fuel m dev (n := 0) r2 (by omega) (by omega) h0 (Nat.zero_le _)
  obtain ⟨res, m1, dev1, hc⟩ : ∃ res m1 dev1, m.claim (rng fuel).1 (rng fuel).2 dev = (res, m1, dev1) := ⟨_, _, _, rfl⟩
  cases res with
  | error e => exact .inl ⟨e, _, m1, dev1, hc, (t1 e m1 dev1 hc).2⟩
  | ok x =>
    right
    rw [(s2 x m1 dev1 hc).2, (t2 x m1 dev1 hc).2, hok]
    simp only [if_true, List.take_zero, fill_nil, e8]
    rw [e4]; rfl

/-- a write on a chip that refuses nothing -/
theorem extendF_ok {crc : Bytes → UInt32} {rest : List Nat} {first : Nat} {segs : List (Nat × Bytes)} {w : FileWriter} {D : Bytes} {m : SectorsMng} {dev : Dev}
    (h : WSt crc rest first segs w D m dev) (rng : Nat → Nat × Nat) (ok : Nat → Bool) (hok : ∀ i, ok i = true) (fuel : Nat) (slice : Bytes) (hf : slice.length + 1 + (if w.len = 4016 then 1 else 0) ≤ fuel) :
    w.extendLoopF crc rng ok fuel m dev slice = ((w.extendLoop crc rng fuel m dev slice).1.mapError FErr.fs, (w.extendLoop crc rng fuel m dev slice).2) := by
  rcases loopF_cases (ok := ok) fuel segs w D m dev slice h hf with g | ⟨⟨i, g⟩, _⟩
  · exact g
  · rw [hok i] at g; exact absurd g (by simp)

/-- filling the page buffer -/
theorem fill_call {crc : Bytes → UInt32} {rest : List Nat} {first : Nat} {segs : List (Nat × Bytes)} {w : FileWriter} {D d : Bytes} {m : SectorsMng} {dev : Dev}
    (h : WSt crc rest first segs w D m dev) (hl : 3780 ≤ w.len) (hd : w.len + d.length = 4016) :
    CallSpec crc rest first segs w D dev d (.ok (), w.fill d, m, dev) segs (D ++ d) [] d :=
  ⟨h.fill hl hd, (Dev.ops_nil _).symm, rfl, List.prefix_rfl, List.prefix_rfl, List.prefix_rfl, by simp, .inl ⟨rfl, rfl⟩,
    Tr.nil (w := w) h.chain h.winv (by rw [List.append_assoc]; exact List.prefix_append ..)⟩

/-- appending through `Sys.write`, for a file whose content is known -/
theorem Sys.append {crc : Bytes → UInt32} {fs : FS} {as bs : List FileSt} {f : FileSt} {leak : List Nat} (h : Sys crc fs (as ++ f :: bs) leak) {w : FileWriter} (hw : f.k.writer = some w)
    (hm : f.k.maybe = []) {first : Nat} (hf : f.e.first = some first) {slice : Bytes} {r : WRes} {segs' : List (Nat × Bytes)} {D' : Bytes} {os : List FlashOp} {pre : Bytes}
    (hc : CallSpec crc (others leak as bs) first f.segs w f.cur fs.dev slice r segs' D' os pre) :
    Sys crc { fs with mng := r.2.2.1, dev := r.2.2.2 } (as ++ ⟨{ f.k with data := f.k.data ++ pre, writer := some r.2.1 }, f.e, segs', D'⟩ :: bs) leak := by
  obtain ⟨_, _, _, hdur, p0, hp0, hdat⟩ := (h.ok f (by simp)).open' w hw
  have hp00 : p0 = [] := by rw [hm] at hp0; exact List.prefix_nil.mp hp0
  subst hp00
  have hdata := hc.data
  rw [hdat, List.append_nil] at hdata
  refine h.write hw hf hc { f.k with data := f.k.data ++ pre, writer := some r.2.1 } rfl rfl rfl rfl rfl (hdur.trans (bytesOf_prefix hc.segsPre)) ⟨[], List.nil_prefix, ?_⟩
  rw [hdata, List.append_nil]

/-- what holds after a refused write: the writer and file system are as good as `w2` and `fs2`, to which the bytes `p` have been appended -/
structure AfterRefusal (crc : Bytes → UInt32) (a b : List Known) (k : Known) (p : Bytes) (wF : FileWriter) (fsF : FS) (w2 : FileWriter) (fs2 : FS) : Prop where
  sys : SysInv crc fs2 (a ++ { k with data := k.data ++ p, writer := some w2 } :: b)
  dir : fs2.at' = fsF.at'
  mng : fs2.mng = fsF.mng
  id : wF.id = w2.id
  ends : ∀ next, wF.flushTo crc next fsF.dev = w2.flushTo crc next fs2.dev
  again : ∀ rng slice, 0 < slice.length →
    (wF.len = 3780 ∧ fsF.extendWriterF crc wF rng (fun _ => true) slice = (.error (.fs .panic), wF, fsF)) ∨
    (fsF.extendWriterF crc wF rng (fun _ => true) slice).1 = .error (.fs .deviceFull) ∨
    ∃ w3 fs3, fsF.extendWriterF crc wF rng (fun _ => true) slice = (.ok (), w3, fs3) ∧ SysInv crc fs3 (a ++ { k with data := k.data ++ p ++ slice, writer := some w3 } :: b) ∧ fs3.at' = fsF.at'

/-- the next write: the result of an accepting chip -/
theorem again_sys {crc : Bytes → UInt32} {fs : FS} {as bs : List FileSt} {f : FileSt} {leak : List Nat} (h : Sys crc fs (as ++ f :: bs) leak) {w : FileWriter} (hw : f.k.writer = some w)
    (hm : f.k.maybe = []) {a b : List Known} (ha : as.map (·.k) = a) (hb : bs.map (·.k) = b) (rng : Nat → Nat × Nat) (fuel : Nat) (slice : Bytes) (hf : slice.length + 1 + (if w.len = 4016 then 1 else 0) ≤ fuel) :
    ∃ r, w.extendLoopF crc rng (fun _ => true) fuel fs.mng fs.dev slice = r ∧ (r.1 = .error (.fs .deviceFull) ∨
      (r.1 = .ok () ∧ SysInv crc { fs with mng := r.2.2.1, dev := r.2.2.2 } (a ++ { f.k with data := f.k.data ++ slice, writer := some r.2.1 } :: b))) := by
  obtain ⟨first, hfirst, hwst⟩ := h.wst hw
  have hlen := hwst.winv.len
  refine ⟨_, extendF_ok hwst rng _ (fun _ => rfl) fuel slice hf, ?_⟩
  obtain ⟨segs', D', os, pre, hc⟩ := extendLoop_spec' (rng := rng) fuel f.segs w f.cur fs.mng fs.dev slice hwst (by rw [← hlen]; exact hf)
  rcases hc.res with ⟨r1, r2⟩ | ⟨r1, _⟩
  · right
    refine ⟨by rw [r1]; rfl, ?_⟩
    have := h.append hw hm hfirst hc
    rw [r2] at this
    exact ⟨_, leak, map_split ha hb, this⟩
  · left
    rw [r1]; rfl

theorem refused_write {crc : Bytes → UInt32} {fs fsF : FS} {a b : List Known} {k : Known} (h : SysInv crc fs (a ++ k :: b)) {w wF : FileWriter} (hw : k.writer = some w) (hm : k.maybe = [])
    {rng : Nat → Nat × Nat} {ok : Nat → Bool} {slice : Bytes} (hx : fs.extendWriterF crc w rng ok slice = (.error .flash, wF, fsF)) :
    ∃ p w2 fs2, p <+: slice ∧ (p = [] → 3780 ≤ w.len) ∧ fsF.at' = fs.at' ∧ AfterRefusal crc a b k p wF fsF w2 fs2 := by
  obtain ⟨files, leak, hf, hs⟩ := h
  obtain ⟨as, f, bs, rfl, ha, rfl, hb⟩ := split_files hf
  obtain ⟨first, hfirst, hwst⟩ := hs.wst hw
  have hlen := hwst.winv.len
  have hat : fsF.at' = fs.at' := (congrArg (fun r => r.2.2.at') hx).symm
  rcases loopF_cases (rng := rng) (ok := ok) (slice.length + 2) f.segs w f.cur fs.mng fs.dev slice hwst (by split <;> omega) with g | ⟨_, taken, d, w0, m0, dev0, g⟩
  · have h1 := congrArg (fun r => r.1) hx
    have h1 : (w.extendLoopF crc rng ok (slice.length + 2) fs.mng fs.dev slice).1 = .error .flash := h1
    rw [g] at h1
    dsimp only at h1
    cases hq : (w.extendLoop crc rng (slice.length + 2) fs.mng fs.dev slice).1 with
    | error e => rw [hq] at h1; exact absurd h1 (by simp [Except.mapError])
    | ok u => rw [hq] at h1; exact absurd h1 (by simp [Except.mapError])
  · have hr : w.extendLoopF crc rng ok (slice.length + 2) fs.mng fs.dev slice = (.error .flash, wF, fsF.mng, fsF.dev) := by
      have e1 := congrArg (fun r => r.1) hx
      have e2 := congrArg (fun r => r.2.1) hx
      have e3 := congrArg (fun r => r.2.2.mng) hx
      have e4 := congrArg (fun r => r.2.2.dev) hx
      exact Prod.ext e1 (Prod.ext e2 (Prod.ext e3 e4))
    rw [hr] at g
    have htl : taken.length ≤ slice.length := by
      have := g.pre.length_le
      rw [List.length_append] at this; omega
    obtain ⟨segs1, D1, os1, pre1, hc1⟩ := extendLoop_spec' (rng := rng) (slice.length + 2) f.segs w f.cur fs.mng fs.dev taken hwst (by split <;> omega)
    rw [g.loop] at hc1
    have hpre1 : pre1 = taken := by
      rcases hc1.res with ⟨_, r⟩ | ⟨r, _⟩
      · exact r
      · exact absurd r (by simp)
    subst hpre1
    have hs1 := hs.append hw hm hfirst hc1
    dsimp only at hs1
    rcases g.stuck with ⟨rfl, g1, g2⟩ | g2
    · have g1 : fsF.mng = m0 := g1
      subst g1
      have g2 : StuckPage crc wF fsF.dev w0 dev0 := g2
      refine ⟨pre1, w0, { fsF with dev := dev0 }, by have := g.pre; rwa [List.append_nil] at this, g.some, hat, ?_⟩
      have efs : ({ fs with mng := fsF.mng, dev := dev0 } : FS) = { fsF with dev := dev0 } := by
        obtain ⟨x, y, z⟩ := fsF
        have hat : x = fs.at' := hat
        subst hat
        rfl
      rw [efs] at hs1
      refine ⟨⟨_, leak, map_split ha hb, hs1⟩, rfl, rfl, ?_, g2.flushTo, ?_⟩
      · obtain ⟨w1, _, _, _, _, rfl, rfl, _⟩ := g2; rfl
      · intro rng2 slice2 h0
        obtain ⟨q1, q2, q3⟩ := g2.again rng2 (slice2.length + 1) fsF.mng h0
        have hle : w0.len ≤ 3780 := by
          obtain ⟨w1, _, _, _, q, rfl, rfl, _⟩ := g2
          exact q
        unfold FS.extendWriterF
        by_cases he : w0.len = 3780
        · left
          rw [q2 _ he]
          exact ⟨q1.trans he, rfl⟩
        · right
          rw [q3 _ (by omega) rfl]
          obtain ⟨r, r1, r2⟩ := again_sys hs1 rfl hm ha hb rng2 (slice2.length + 1) slice2 (by rw [if_neg (by omega)])
          have r1 : w0.extendLoopF crc rng2 (fun _ => true) (slice2.length + 1) fsF.mng dev0 slice2 = r := r1
          rw [r1]
          rcases r2 with r2 | ⟨r2, r3⟩
          · exact .inl r2
          · right
            refine ⟨_, _, ?_, r3, rfl⟩
            dsimp only
            rw [r2]
    · have g2 : StuckSector crc d wF fsF.mng fsF.dev w0 m0 dev0 := g2
      obtain ⟨first1, hf1, hwst1⟩ := hs1.wst (w := w0) rfl
      have hr0 := hwst1.ready
      obtain ⟨e1, e2, e3, e4, e5, e6, e7, e8⟩ := g2.facts hr0
      obtain ⟨x, r1, r2, y1, y2, y3, y4⟩ := id g2
      have hs2 := hs1.append (w := w0) rfl hm hf1 (fill_call hwst1 y1 y2)
      dsimp only at hs2
      refine ⟨pre1 ++ d, w0.fill d, fsF, g.pre, fun e => g.some (List.append_eq_nil_iff.mp e).1, hat, ?_⟩
      have hs3 : Sys crc fsF (as ++ ⟨{ f.k with data := f.k.data ++ pre1 ++ d, writer := some (w0.fill d) }, f.e, segs1, D1 ++ d⟩ :: bs) (x :: leak) := by
        rcases hs2.claim r1 r2 with ⟨x', c1, c2, _⟩ | ⟨c1, _⟩
        · have c1 : (m0.claim r1 r2 dev0).1 = .ok x' := c1
          have c2 : Sys crc { fs with mng := (m0.claim r1 r2 dev0).2.1, dev := (m0.claim r1 r2 dev0).2.2 } _ (x' :: leak) := c2
          rw [y3] at c1 c2
          injection c1 with c1
          subst c1
          have efs : ({ fs with mng := fsF.mng, dev := fsF.dev } : FS) = fsF := by
            obtain ⟨x, y, z⟩ := fsF
            have hat : x = fs.at' := hat
            subst hat
            rfl
          dsimp only at c2
          rw [efs] at c2
          exact c2
        · have c1 : m0.claim r1 r2 dev0 = (.error .deviceFull, m0, dev0) := c1
          rw [y3] at c1
          injection c1 with c1 _
          exact absurd c1 (by simp)
      rw [List.append_assoc] at hs3
      refine ⟨⟨_, x :: leak, map_split ha hb, hs3⟩, rfl, rfl, e4, fun next => e8 next _, ?_⟩
      intro rng2 slice2 h0
      right
      unfold FS.extendWriterF
      rcases g2.again hr0 rng2 (fun _ => true) (slice2.length + 1) fsF.mng fsF.dev h0 rfl with ⟨er, w', m', dev', q1, q2⟩ | q
      · left
        rw [q2]
        have : er = .deviceFull := by
          rcases hs3.claim (rng2 (slice2.length + 1)).1 (rng2 (slice2.length + 1)).2 with ⟨x', c1, _⟩ | ⟨c1, _⟩
          · rw [q1] at c1; exact absurd c1 (by simp)
          · rw [q1] at c1; injection c1 with c1 _; injection c1
        rw [this]
      · rw [q]
        obtain ⟨r, r1, r2⟩ := again_sys hs3 rfl hm ha hb rng2 (slice2.length + 2) slice2 (by split <;> omega)
        have r1 : (w0.fill d).extendLoopF crc rng2 (fun _ => true) (slice2.length + 2) fsF.mng fsF.dev slice2 = r := r1
        rw [show slice2.length + 1 + 1 = slice2.length + 2 from rfl, r1]
        rcases r2 with r2 | ⟨r2, r3⟩
        · exact .inl r2
        · right
          refine ⟨_, _, ?_, r3, rfl⟩
          dsimp only
          rw [r2]

end Verif.Vlfs
