import Verif.Props.RingLogCase
/-
C93: power loss while the oldest files of a type are dropped and a new one is begun, which is what a ring of sensor logs does when it is full.
-/
namespace Verif.Props
open Verif Verif.Vlfs Verif.Spec Verif.Bit Verif.Delta Verif.Log Verif.RingLog

variable {TS TD D DD : Type}

/-- **C93** In every reachable state: power is lost while the `n` oldest files of a type are dropped and a new file is begun, at any point, with any torn pages. The chip then mounts. The directory lists the same files as before, or all except the dropped ones, and the new one. All files that were not to be dropped keep what is known about them. -/
theorem C93_rotation_cut {crc : Bytes → UInt32} {fs fs1 : FS} {ks : List Known} {typ n r1 r2 : Nat} {e : FileEntry} {fops : List FlashOp} {fl' : Flash} (hr : Hist crc fs ks)
    (hc : fs.rotate typ n r1 r2 = (.ok e, fs1)) (hw : ∀ k ∈ ks, oldestKnown typ n ks k = true → k.writer = none) (hcap : ks.length < 2518) (ht : typ < 0x4000)
    (hok : countersOk fs) (hi : issued fs fs1 fops) (hl : (ks.filter fun k => !oldestKnown typ n ks k).length + 1 ≤ 2517)
    (hp : CrashImage fs.dev.flash fops fl') :
    ∃ fs', FS.mount fl' = (.ok (), fs') ∧
      (∃ es, lists fs' es ∧ (es.map (·.id) = ks.map (·.id) ∨ es.map (·.id) = (ks.filter fun k => !oldestKnown typ n ks k).map (·.id) ++ [e.id])) ∧
      ∀ k ∈ ks, oldestKnown typ n ks k = false → Survives crc fs' k := by
  obtain ⟨fs', ks2, m1, m3, m4⟩ := loss_rotateStep_any (hist_inv hr) hc hw hcap ht hok hi hl hp
  obtain ⟨es, m5, m6⟩ := m4.ids
  have hdur : ∀ k ∈ ks, k.writer.isSome = true → k.durable <+: k.data ++ k.maybe := by
    intro k hk hs
    obtain ⟨w', hw'⟩ := Option.isSome_iff_exists.mp hs
    exact ((hist_inv hr).durable hk hw').1
  refine ⟨fs', m1, ⟨es, m5, ?_⟩, fun k hk hko hdm => ?_⟩
  · rw [m6]
    rcases m3 with rfl | rfl
    · left; rw [spoilOldest_ids]
    · right; rw [List.map_append]; rfl
  · have hmem : k ∈ ks2 := by
      rcases m3 with rfl | rfl
      · exact List.mem_map.mpr ⟨k, hk, by rw [hko]; rfl⟩
      · exact List.mem_append_left _ (List.mem_filter.mpr ⟨hk, by rw [hko]; rfl⟩)
    obtain ⟨h1, h2⟩ := m4.afterLoss hmem hdm
    exact ⟨h1, fun hsm => h2 hsm (hdur k hk hsm)⟩

theorem oldest_one {typ : Nat} {ks : List Known} (h : ks.Pairwise fun a b => a.id < b.id) (hne : ofKind typ ks ≠ []) :
    (ks.filter fun k => !oldestKnown typ 1 ks k).length + 1 = ks.length := by
  have h1 := List.length_eq_length_filter_add (l := ks) (fun k => oldestKnown typ 1 ks k)
  have h2 := List.length_eq_length_filter_add (l := ofKind typ ks) (fun k => oldestKnown typ 1 ks k)
  have e1 : (ofKind typ ks).filter (fun k => oldestKnown typ 1 ks k) = ks.filter fun k => oldestKnown typ 1 ks k := by
    unfold ofKind
    rw [List.filter_filter]
    refine List.filter_congr fun x _ => ?_
    rw [oldest_iff]
    cases x.typ == typ <;> simp
  have e2 : (ofKind typ ks).filter (fun k => !oldestKnown typ 1 ks k) = (ofKind typ ks).drop 1 := by
    rw [← ofKind_dropped h]
    unfold ofKind
    rw [List.filter_filter, List.filter_filter]
    exact List.filter_congr fun x _ => Bool.and_comm _ _
  rw [e1, e2, List.length_drop] at h2
  have := List.length_pos_iff.mpr hne
  omega

/-- **C93** A ring of sensor logs is full (`s.cap ≤ s.segments`), and power is lost while it replaces its oldest segment by a new one. The chip mounts. Let `first` be the oldest file of the type before (the one that is to be
dropped) and `rest` the others: the directory lists `first` and `rest`, or `rest` and the new file. Every segment on the chip except the one in `first` reads back: at least what was
logged up to its last flush (everything, for a closed one), at most what was logged. -/
theorem C93_ring_cut {crc : Bytes → UInt32} {c : Cfg TS TD D DD} (hc : c.Codecs) (hf : c.Fits) {typ cap : Nat} {s s' : RingLog.St TS D} {ks : List Known} {segs : List (Segment TS D)} {fl' : Flash}
    {fops : List FlashOp} {r1 r2 : Nat} (h : RingLogging crc c typ cap s ks segs) (hn : s.next = none) (ho : s.old = none) (hcur : s.cur.isSome = true) (hfull : s.cap ≤ s.segments) (hcap : ks.length ≤ 2517) (hok : countersOk s.fs)
    (hb : s.beginSegment r1 r2 = (.ok (), s')) (hi : issued s.fs s'.fs fops) (hp : CrashImage s.fs.dev.flash fops fl') :
    ∃ kept fs first rest new, RingHolds s.fs typ cap segs kept [] ∧ FS.mount fl' = (.ok (), fs) ∧
      (∃ files, s.fs.filesIter (fun e => e.typ == typ) = .ok files ∧ files.map (·.id) = first :: rest) ∧
      (∃ files, fs.filesIter (fun e => e.typ == typ) = .ok files ∧ (files.map (·.id) = first :: rest ∨ files.map (·.id) = rest ++ [new])) ∧
      ∀ g ∈ kept, g.id ≠ first → ∃ content, ReadsAs crc fs g.id content ∧ LogReads c content g.safe g.entries := by
  have inv := ring_inv hc hf h
  obtain ⟨olds, gone, fin, act, finK, actK, nextK, F⟩ := inv.files
  have hh := ring_holds h inv F
  rw [hn] at hh
  have hsort := ids_sorted (hist_inv inv.hist)
  have hplan : s.plan.1 = 1 := by unfold RingLog.St.plan; rw [if_pos hfull]
  have hseg := inv.seg
  have h2 := inv.two
  have hcapEq := inv.capEq
  -- the ring has at least two files, the last one is in use
  have hcount : (ofKind typ ks).length = s.segments := by rw [F.count, hn, ho]; rfl
  obtain ⟨g0, k0, hact, hactK, ha⟩ : ∃ g k, act = [g] ∧ actK = [k] ∧ True := by
    have hp := F.parts
    obtain ⟨x, hx⟩ := Option.isSome_iff_exists.mp hcur
    rw [hx, ho] at hp
    obtain ⟨g, k, e1, e2, _⟩ := hp
    exact ⟨g, k, e1, e2, trivial⟩
  have hnext : nextK = [] := by
    have := F.next
    rw [hn] at this; exact this
  have hfiles : ofKind typ ks = (olds ++ finK) ++ [k0] := by rw [F.files, hactK, hnext, List.append_nil]
  obtain ⟨kf, kr, hkr⟩ : ∃ a l, olds ++ finK = a :: l := by
    cases hx : olds ++ finK with
    | nil =>
      rw [hx] at hfiles
      rw [hfiles] at hcount
      simp at hcount
      omega
    | cons a l => exact ⟨a, l, rfl⟩
  have hkind : ofKind typ ks = kf :: (kr ++ [k0]) := by rw [hfiles, hkr]; rfl
  have hkfw : kf.writer = none := by
    have : kf ∈ olds ++ finK := by rw [hkr]; simp
    rcases List.mem_append.mp this with hx | hx
    · exact F.closed kf hx
    · obtain ⟨g, hg⟩ := forall2_right F.done hx
      exact hg.writer
  have hone : ∀ k ∈ ks, oldestKnown typ 1 ks k = true → k = kf := by
    intro k hk hko
    have := dropped_mem hsort hk hko
    rw [hkind] at this
    simpa using this
  have hlen := oldest_one hsort (typ := typ) (by rw [hkind]; simp)
  -- the rotation
  unfold RingLog.St.beginSegment at hb
  rw [hplan, inv.typEq] at hb
  rcases hrot : s.fs.rotate typ 1 r1 r2 with ⟨_ | e, fs1⟩
  · rw [hrot] at hb; simp at hb
  simp only [hrot] at hb
  have hfs : s'.fs = fs1 := by
    cases hwo : RingLog.writerOf e with
    | none => rw [hwo] at hb; simp at hb
    | some w' => rw [hwo] at hb; simp at hb; rw [← hb]
  rw [hfs] at hi
  obtain ⟨fs, ks2, m1, m3, m4⟩ := loss_rotateStep_any (hist_inv inv.hist) hrot (fun k hk hko => by rw [hone k hk hko]; exact hkfw) (by omega) inv.small hok hi (by omega) hp
  obtain ⟨files, f1, f2⟩ := count_kind (hist_inv inv.hist) typ
  obtain ⟨files2, f3, f4⟩ := m4.kind typ
  refine ⟨fin ++ act, fs, kf.id, (kr ++ [k0]).map (·.id), e.id, hh, m1, ⟨files, f1, by rw [f2, hkind]; rfl⟩, ⟨files2, f3, ?_⟩, ?_⟩
  · change files2.map (·.id) = (ofKind typ ks2).map (·.id) at f4
    rw [f4]
    rcases m3 with rfl | rfl
    · left
      have : (ofKind typ (spoilOldest typ 1 ks)).map (·.id) = (ofKind typ ks).map (·.id) := by
        unfold ofKind spoilOldest
        rw [List.filter_map, List.map_map]
        have e1 : (fun k : Known => k.typ == typ) ∘ (fun k => if oldestKnown typ 1 ks k then k.spoiled else k) = fun k => k.typ == typ := by
          funext k; simp only [Function.comp]; split <;> rfl
        rw [e1]
        refine List.map_congr_left fun k _ => ?_
        simp only [Function.comp]; split <;> rfl
      rw [this, hkind]; rfl
    · right
      have : ∀ a b, ofKind typ (a ++ b) = ofKind typ a ++ ofKind typ b := fun a b => List.filter_append ..
      rw [this, ofKind_dropped hsort, hkind]
      simp [ofKind]
  · intro g hg hne
    have hpair : ∃ k ∈ ofKind typ ks, Pair c g k := by
      rcases List.mem_append.mp hg with hg | hg
      · obtain ⟨k, hk, hp⟩ := forall2_left F.done hg
        exact ⟨k, by rw [F.files]; simp [hk], .inl hp⟩
      · obtain ⟨k, hk, hp⟩ := parts_pair F.parts hg
        exact ⟨k, by rw [F.files]; simp [hk], hp⟩
    obtain ⟨k, hk, hpr⟩ := hpair
    have hkm := (List.mem_filter.mp hk).1
    have hid : k.id = g.id := by rcases hpr with hx | ⟨_, hx⟩ <;> exact hx.id
    have hko : oldestKnown typ 1 ks k = false := by
      cases hx : oldestKnown typ 1 ks k with
      | false => rfl
      | true => exact absurd (by rw [← hid, hone k hkm hx]) hne
    refine kept_good hc hf inv.hist hkm hpr ⟨_, m4, List.mem_map.mpr ⟨k, ?_, rfl⟩⟩
    rcases m3 with rfl | rfl
    · exact List.mem_map.mpr ⟨k, hkm, by rw [hko]; rfl⟩
    · exact List.mem_append_left _ (List.mem_filter.mpr ⟨hkm, by rw [hko]; rfl⟩)

/-- the hypotheses of `C93_ring_cut` hold: a ring of two segments, both with a reading, whose oldest one is about to be dropped -/
example (crc : Bytes → UInt32) : ∃ (s s' : RingLog.St (BitVec 64) (BitVec 64)) (ks : List Known) (fops : List FlashOp) (fl' : Flash), RingLogging crc Log.demo 5 2 s ks [segA, segB] ∧ s.next = none ∧ s.old = none ∧ s.cur.isSome = true ∧
    s.cap ≤ s.segments ∧ ks.length ≤ 2517 ∧ countersOk s.fs ∧ s.beginSegment 3 4 = (.ok (), s') ∧ issued s.fs s'.fs fops ∧ CrashImage s.fs.dev.flash fops fl' := by
  obtain ⟨s, ks, h1, h2, _, ⟨h3, h4, h5, h6, h7, h8⟩, _⟩ := C88_case_full crc 5 (by decide)
  obtain ⟨s', ops, h9, h10⟩ := h8 3 4
  exact ⟨s, s', ks, ops, _, h1, h3, h4, h2, h5, by omega, h7, h9, h10, .between [] ops rfl⟩

end Verif.Props
