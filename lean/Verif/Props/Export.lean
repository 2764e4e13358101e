import Verif.Lemmas.Export
import Verif.Props.RingLogCase
/-
C91: the tables of sensor readings a user downloads. What a table should show is defined in Verif/Spec/Export.lean.
-/
namespace Verif.Props
open Verif Verif.Vlfs Verif.Spec Verif.Bit Verif.Delta Verif.Log Verif.Console Verif.Lut Verif.Export

variable {TS TD D DD : Type}

/-- **C91** `pull_files`: when nothing else uses the device, the host gets the contents of exactly the files of the type, in the order of their ids, and the device is left as it was. -/
theorem C91_download {crc : Bytes → UInt32} {fs : FS} {ks : List Known} (h : Hist crc fs ks) {typ : Nat} {bs : List Bytes} (hb : List.Forall₂ (fun k b => ReadsAs crc fs k.id b) (ofKind typ ks) bs)
    {s : Session} (hs : s.reader = none) {fuel : Nat} (hf : ∀ b ∈ bs, b.length < fuel) (hl : ks.length < fuel) :
    ∃ s', pullFiles crc fuel s fs typ = (some bs, s', fs) ∧ s'.reader = none :=
  pullFiles_ok (hist_inv h) hb hs hf hl

theorem list_bound {β : Type} (f : β → Nat) (m : List β) : ∃ n, ∀ b ∈ m, f b < n := by
  induction m with
  | nil => exact ⟨0, by simp⟩
  | cons b m ih =>
    obtain ⟨n, hn⟩ := ih
    refine ⟨n + f b + 1, fun x hx => ?_⟩
    rcases List.mem_cons.mp hx with rfl | hx
    · omega
    · have := hn x hx; omega

theorem export_ok {crc : Bytes → UInt32} {fs : FS} {ks : List Known} (h : Hist crc fs ks) {c : Cfg TS TD D DD} {env : Env TS} (he : SearchWorks env) {typ : Nat}
    {logs : List (List (Out TS D) × List (Out TS D))} (hl : List.Forall₂ (fun (k : Known) l => ∃ b, ReadsAs crc fs k.id b ∧ LogReads c b l.1 l.2) (ofKind typ ks) logs) :
    ∃ n, ∀ fuel, n ≤ fuel → ∀ (sched1 sched2 : Nat → Nat) (s : Session), s.reader = none → ∃ (parts : List (List (Row TS D))) (s' : Session),
      exportType crc c env sched1 sched2 fuel s fs typ = (some parts.flatten, s', fs) ∧ s'.reader = none ∧
      List.Forall₂ (fun l rows => ∃ first second, l.1 <+: first ∧ first <+: l.2 ∧ l.1 <+: second ∧ second <+: l.2 ∧ Shows env (syncsOf env first) (readingsOf second) rows) logs parts := by
  obtain ⟨bs, h1, h2⟩ : ∃ bs, List.Forall₂ (fun (k : Known) b => ReadsAs crc fs k.id b) (ofKind typ ks) bs ∧ List.Forall₂ (fun b l => LogReads c b l.1 l.2) bs logs := by
    generalize ofKind typ ks = ls at hl
    induction hl with
    | nil => exact ⟨[], .nil, .nil⟩
    | cons hx _ ih =>
      obtain ⟨b, x1, x2⟩ := hx
      obtain ⟨bs, e1, e2⟩ := ih
      exact ⟨b :: bs, .cons x1 e1, .cons x2 e2⟩
  obtain ⟨n1, hn1⟩ := list_bound List.length bs
  obtain ⟨n2, hn2⟩ := list_bound (fun l => l.2.length) logs
  refine ⟨n1 + n2 + ks.length + 1, fun fuel hfuel sched1 sched2 s hs => ?_⟩
  obtain ⟨s', e1, e2⟩ := C91_download h h1 hs (fuel := fuel) (fun b hb => by have := hn1 b hb; omega) (by omega)
  have hlong : ∀ {bs : List Bytes} {logs : List (List (Out TS D) × List (Out TS D))}, List.Forall₂ (fun b l => LogReads c b l.1 l.2) bs logs → (∀ l ∈ logs, l.2.length < fuel) →
      List.Forall₂ (fun b l => LogReads c b l.1 l.2 ∧ l.2.length < fuel) bs logs := by
    intro bs logs hh
    induction hh with
    | nil => exact fun _ => .nil
    | @cons b l bs ls hx _ ih => exact fun hb => .cons ⟨hx, hb l (by simp)⟩ (ih (fun x hx => hb x (by simp [hx])))
  obtain ⟨parts, e3, e4⟩ := table_ok he (sched1 := sched1) (sched2 := sched2) (fuel := fuel) (hlong h2 fun l hl => by have := hn2 l hl; omega)
  refine ⟨parts, s', ?_, e2, e4⟩
  unfold exportType
  rw [e1]
  simp only
  rw [e3]

/-- **C91** A table is made of the files of the type, one after the other. If file by file the content reads back as at least `l.1` and at most `l.2` (as C88 says after a power loss), the rows of
a file are the readings of a beginning of `l.2` that has all of `l.1`, in order, with the unix times that the file's own time-sync records give. -/
theorem C91_table {crc : Bytes → UInt32} {fs : FS} {ks : List Known} (h : Hist crc fs ks) {c : Cfg TS TD D DD} {env : Env TS} (he : SearchWorks env) {typ : Nat}
    {logs : List (List (Out TS D) × List (Out TS D))} (hl : List.Forall₂ (fun (k : Known) l => ∃ b, ReadsAs crc fs k.id b ∧ LogReads c b l.1 l.2) (ofKind typ ks) logs) :
    ∃ n, ∀ fuel, n ≤ fuel → ∀ (sched1 sched2 : Nat → Nat) (s : Session), s.reader = none → ∃ parts : List (List (Row TS D)),
      (exportType crc c env sched1 sched2 fuel s fs typ).1 = some parts.flatten ∧
      List.Forall₂ (fun l rows => ∃ first second, l.1 <+: first ∧ first <+: l.2 ∧ l.1 <+: second ∧ second <+: l.2 ∧ Shows env (syncsOf env first) (readingsOf second) rows) logs parts := by
  obtain ⟨n, hn⟩ := export_ok h he hl
  refine ⟨n, fun fuel hf s1 s2 s hs => ?_⟩
  obtain ⟨parts, s', e1, _, e2⟩ := hn fuel hf s1 s2 s hs
  exact ⟨parts, by rw [e1], e2⟩

theorem prefix_both {α : Type} {l m : List α} (h1 : l <+: m) (h2 : m <+: l) : m = l := h2.eq_of_length_le h1.length_le

/-- **C91** If each file of the type is a complete log, the table shows exactly the logged readings, file by file, each with the unix time its file gives. -/
theorem C91_complete {crc : Bytes → UInt32} {fs : FS} {ks : List Known} (h : Hist crc fs ks) {c : Cfg TS TD D DD} {env : Env TS} (he : SearchWorks env) {typ : Nat}
    {logs : List (List (Out TS D))} (hl : List.Forall₂ (fun (k : Known) l => ∃ b, ReadsAs crc fs k.id b ∧ LogReads c b l l) (ofKind typ ks) logs) :
    ∃ n, ∀ fuel, n ≤ fuel → ∀ (sched1 sched2 : Nat → Nat) (s : Session), s.reader = none → ∃ parts : List (List (Row TS D)),
      (exportType crc c env sched1 sched2 fuel s fs typ).1 = some parts.flatten ∧ List.Forall₂ (fun l rows => Shows env (syncsOf env l) (readingsOf l) rows) logs parts := by
  have hl' : List.Forall₂ (fun (k : Known) (l : List (Out TS D) × List (Out TS D)) => ∃ b, ReadsAs crc fs k.id b ∧ LogReads c b l.1 l.2) (ofKind typ ks) (logs.map fun l => (l, l)) := by
    rw [List.forall₂_map_right_iff]
    exact hl
  obtain ⟨n, hn⟩ := C91_table h he hl'
  refine ⟨n, fun fuel hf s1 s2 s hs => ?_⟩
  obtain ⟨parts, e1, e2⟩ := hn fuel hf s1 s2 s hs
  refine ⟨parts, e1, ?_⟩
  rw [List.forall₂_map_left_iff] at e2
  refine e2.imp fun l rows ⟨first, second, k1, k2, k3, k4, k5⟩ => ?_
  rw [prefix_both k1 k2, prefix_both k3 k4] at k5
  exact k5

/-- **C91** The unix times in a table do not run backwards: if the time-sync records of the file come from one run, have different boot times and there are at least two, every row has a unix time,
and a later boot time never has an earlier unix time. -/
theorem C91_times {env : Env TS} {syncs : List Point} (h1 : OneRun syncs) (h2 : 2 ≤ syncs.length) {readings : List (TS × D)} {rows : List (Row TS D)} (h : Shows env syncs readings rows) :
    ∀ r ∈ rows, ∀ r' ∈ rows, env.time r.boot ≤ env.time r'.boot → ∃ u u', r.unix = .value u ∧ r'.unix = .value u' ∧ u ≤ u' := by
  intro r hr r' hr' hle
  obtain ⟨f, g1, g2⟩ := h.times r hr
  obtain ⟨f', g1', g2'⟩ := h.times r' hr'
  rw [g2, g2']
  exact C60_monotone syncs h1 h2 _ _ hle f f' g1 g1'

/-- **C91** … and with fewer than two time-sync records in the file no row has a unix time. -/
theorem C91_no_times {env : Env TS} {syncs : List Point} (h2 : syncs.length < 2) {readings : List (TS × D)} {rows : List (Row TS D)} (h : Shows env syncs readings rows) :
    ∀ r ∈ rows, r.unix = .none := by
  intro r hr
  obtain ⟨f, _, g2⟩ := h.times r hr
  rw [g2, C60_none, sort_length]
  exact h2

/-- **C91** From the avionics to the table: a ring of sensor logs that was closed, with no files of an earlier ring of this type, is exported as exactly the readings that were accepted for the
segments that are left, segment by segment. -/
theorem C91_ring {crc : Bytes → UInt32} {c : Cfg TS TD D DD} (hc : c.Codecs) (hf : c.Fits) {typ cap : Nat} {s : RingLog.St TS D} {ks : List Known} {segs : List (Segment TS D)}
    (h : RingLogging crc c typ cap s ks segs) (hcl : s.cur = none) (hnx : s.next = none) (hop : s.fs.at'.opened = []) (hown : ∀ k ∈ ofKind typ ks, ∃ g ∈ segs, g.id = k.id)
    {env : Env TS} (he : SearchWorks env) :
    ∃ gone kept n, segs = gone ++ kept ∧ kept.map (·.id) = (ofKind typ ks).map (·.id) ∧ kept ≠ [] ∧ ∀ fuel, n ≤ fuel → ∀ (sched1 sched2 : Nat → Nat) (t : Session), t.reader = none → ∃ parts : List (List (Row TS D)),
      (exportType crc c env sched1 sched2 fuel t s.fs typ).1 = some parts.flatten ∧ List.Forall₂ (fun g rows => Shows env (syncsOf env g.entries) (readingsOf g.entries) rows) kept parts := by
  have inv := RingLog.ring_inv hc hf h
  obtain ⟨olds, gone, fin, act, finK, actK, nextK, F⟩ := inv.files
  obtain ⟨files, earlier, gone', r1, r2, r3, r4, r5, r6⟩ := ring_holds h inv F
  have hp := F.parts
  have hn := F.next
  rw [hnx] at hn
  have hn : nextK = [] := hn
  have hact : act = [] ∧ actK = [] := by
    rcases ho : s.old with _ | o <;> rw [hcl, ho] at hp
    · exact hp
    · exact hp.elim
  have hfiles := F.files
  rw [hn, hact.2, List.append_nil, List.append_nil] at hfiles
  have hsplit := F.split
  rw [hact.1, List.append_nil] at hsplit
  have hids : finK.map (·.id) = fin.map (·.id) := by
    have := F.done
    clear hfiles hsplit F r2 r4 r6 hp hact
    induction this with
    | nil => rfl
    | cons h _ ih => simp only [List.map_cons, h.id, ih]
  have hsorted := RingLog.ids_sorted (hist_inv inv.hist)
  have holds : olds = [] := by
    by_cases hg : gone = []
    · rcases olds with _ | ⟨k, olds⟩
      · rfl
      · obtain ⟨g, hg1, hg2⟩ := hown k (by rw [hfiles]; simp)
        rw [hsplit, hg, List.nil_append] at hg1
        have hm : k.id ∈ finK.map (·.id) := by rw [hids, ← hg2]; exact List.mem_map_of_mem hg1
        obtain ⟨k', hk', hid⟩ := List.mem_map.mp hm
        have hs := hsorted.filter (fun k : Known => k.typ == typ)
        have hs : (ofKind typ ks).Pairwise fun a b => a.id < b.id := hs
        rw [hfiles, List.cons_append, List.pairwise_cons] at hs
        have := hs.1 k' (by simp [hk'])
        omega
    · exact F.full hg
  rw [holds, List.nil_append] at hfiles
  have hl : List.Forall₂ (fun (k : Known) l => ∃ b, ReadsAs crc s.fs k.id b ∧ LogReads c b l l) (ofKind typ ks) (fin.map (·.entries)) := by
    have hd := F.done
    have hin : ∀ k ∈ finK, k ∈ ks := fun k hk => (List.mem_filter.mp (show k ∈ ofKind typ ks by rw [hfiles]; exact hk)).1
    rw [hfiles, List.forall₂_map_right_iff]
    clear hfiles hids hsplit F r2 r4 r6 hp hact
    induction hd with
    | nil => exact .nil
    | @cons g k gs kk hkf _ ih =>
      refine .cons ?_ (ih (fun k hk => hin k (by simp [hk])))
      obtain ⟨pre, p1, _, p2⟩ := (hist_inv inv.hist).closed (hin k (by simp)) hkf.writer hkf.whole
      rw [hkf.maybe] at p1
      rw [List.prefix_nil.mp p1, List.append_nil] at p2
      obtain ⟨l0, l', d1, d2, d3, d4, d5⟩ := hkf.data
      exact ⟨k.data, p2 (by rw [hop]; simp) (by rw [hop]; decide), RingLog.logReads_of hf (by rw [← hkf.safe]; exact d1) d2 d4 d3 d5⟩
  obtain ⟨n, hn'⟩ := C91_complete inv.hist he hl
  refine ⟨gone, fin, n, hsplit, by rw [hfiles, hids], ?_, fun fuel hfu s1 s2 t ht => ?_⟩
  · rw [hact.1, List.append_nil] at r6
    exact r6
  · obtain ⟨parts, e1, e2⟩ := hn' fuel hfu s1 s2 t ht
    rw [List.forall₂_map_left_iff] at e2
    exact ⟨parts, e1, e2⟩

/-! ### findings about `pull_flight_data` -/

variable {TD1 TD2 B DB1 DB2 I DI : Type}

/-- **C91** (finding) baro_tier_2.csv does not come from the tier 2 logs: it is the table of the tier 1 logs once more, decoded with the number format of tier 2. -/
theorem C91_second_tier {crc : Bytes → UInt32} {fs : FS} {ks : List Known} (h : Hist crc fs ks) {c1 : Cfg TS TD1 B DB1} {c2 : Cfg TS TD2 B DB2} {c3 : Cfg TS TD1 I DI} {env : Env TS}
    {bs : List Bytes} (hb : List.Forall₂ (fun k b => ReadsAs crc fs k.id b) (ofKind baroTier1 ks) bs) {s : Session} (hs : s.reader = none) {sched1 sched2 : Nat → Nat} {fuel : Nat}
    (hf : ∀ b ∈ bs, b.length < fuel) (hl : ks.length < fuel) {fl : Flight TS B I} (hfl : pullFlightData crc c1 c2 c3 env sched1 sched2 fuel s fs = some fl) :
    table c1 env sched1 sched2 fuel bs = some fl.baro1 ∧ table c2 env sched1 sched2 fuel bs = some fl.baro2 := by
  obtain ⟨s1, e1, e2⟩ := C91_download h hb hs hf hl
  obtain ⟨s2, e3, _⟩ := C91_download h hb e2 hf hl
  unfold pullFlightData exportType at hfl
  rw [e1] at hfl
  simp only at hfl
  rcases t1 : table c1 env sched1 sched2 fuel bs with _ | r1
  · rw [t1] at hfl; exact absurd hfl (by simp)
  rw [t1] at hfl
  simp only at hfl
  rw [e3] at hfl
  simp only at hfl
  rcases t2 : table c2 env sched1 sched2 fuel bs with _ | r2
  · rw [t2] at hfl; exact absurd hfl (by simp)
  rw [t2] at hfl
  simp only at hfl
  split at hfl
  · exact absurd hfl (by simp)
  · injection hfl with hfl
    subst hfl
    exact ⟨rfl, rfl⟩

/-- **C91** (finding) With tier 2 logs on the device but no tier 1 logs, baro_tier_2.csv is empty. -/
theorem C91_second_tier_lost {crc : Bytes → UInt32} {fs : FS} {ks : List Known} (h : Hist crc fs ks) {c1 : Cfg TS TD1 B DB1} {c2 : Cfg TS TD2 B DB2} {c3 : Cfg TS TD1 I DI} {env : Env TS}
    (hno : ofKind baroTier1 ks = []) {s : Session} (hs : s.reader = none) {sched1 sched2 : Nat → Nat} {fuel : Nat} (hl : ks.length < fuel) {fl : Flight TS B I}
    (hfl : pullFlightData crc c1 c2 c3 env sched1 sched2 fuel s fs = some fl) : fl.baro2 = [] := by
  obtain ⟨_, h2⟩ := C91_second_tier h (bs := []) (by rw [hno]; exact .nil) hs (by simp) hl hfl
  injection h2 with h2
  exact h2.symm

/-- **C91** (finding) low_g_imu.csv is the table of all files of the type the GPS log uses as well: GPS logs are decoded as IMU readings. -/
theorem C91_imu_and_gps : FileTypes.lowGImuTier1 = FileTypes.gpsTier1 ∧ FileTypes.lowGImuTier2 = FileTypes.gpsTier2 := ⟨rfl, rfl⟩

/-! ### examples -/

theorem sort_nondesc (l : List Point) : (sort l).Pairwise fun p q : Point => p.1 ≤ q.1 := by
  have h2 : (sort l).Pairwise fun p q : Point => decide (p.1 ≤ q.1) = true := by
    unfold sort
    refine List.pairwise_mergeSort (fun a b c hab hbc => ?_) (fun a b => ?_) l
    · simp at *; exact le_trans hab hbc
    · simp; exact le_total _ _
  exact h2.imp fun h => of_decide_eq_true h

/-- a search as documented exists for every table -/
theorem search_sorted (l : List Point) (t : Rat) : ∃ r, IsSearch (sort l) t r := by
  have hs := List.pairwise_iff_getElem.mp (sort_nondesc l)
  generalize sort l = pts at hs
  by_cases h : ∃ (i : Nat) (p : Point), pts[i]? = some p ∧ p.1 = t
  · obtain ⟨i, hi⟩ := h; exact ⟨.ok i, hi⟩
  · have hne : ∀ (i : Nat) (p : Point), pts[i]? = some p → p.1 ≠ t := fun i p hp he => h ⟨i, p, hp, he⟩
    refine ⟨.error (pts.countP fun p => decide (p.1 < t)), List.countP_le_length, ?_⟩
    clear h
    have key : ∀ (pts : List Point), pts.Pairwise (fun p q : Point => p.1 ≤ q.1) → (∀ (i : Nat) (p : Point), pts[i]? = some p → p.1 ≠ t) → ∀ (j : Nat) (p : Point), pts[j]? = some p →
        (j < (pts.countP fun p => decide (p.1 < t)) → p.1 < t) ∧ ((pts.countP fun p => decide (p.1 < t)) ≤ j → t < p.1) := by
      intro pts
      induction pts with
      | nil => intro _ _ j p hp; simp at hp
      | cons x xs ih =>
        intro hpw hne j p hp
        rw [List.pairwise_cons] at hpw
        have hx := hne 0 x rfl
        by_cases hlt : x.1 < t
        · rw [List.countP_cons_of_pos (by simpa using hlt)]
          rcases j with _ | j
          · injection hp with hp; subst hp
            exact ⟨fun _ => hlt, fun hh => by omega⟩
          · obtain ⟨k1, k2⟩ := ih hpw.2 (fun i p hp => hne (i + 1) p hp) j p hp
            exact ⟨fun hh => k1 (by omega), fun hh => k2 (by omega)⟩
        · have hgt : t < x.1 := lt_of_le_of_ne (not_lt.mp hlt) (Ne.symm hx)
          have h0 : (xs.countP fun p => decide (p.1 < t)) = 0 := by
            rw [List.countP_eq_zero]
            intro y hy
            have := hpw.1 y hy
            simp only [decide_eq_true_eq, not_lt]
            linarith
          rw [List.countP_cons_of_neg (by simpa using hlt), h0]
          refine ⟨fun hh => by omega, fun _ => ?_⟩
          rcases j with _ | j
          · injection hp with hp; subst hp; exact hgt
          · have hmem : p ∈ xs := List.mem_of_getElem? hp
            have := hpw.1 p hmem
            linarith
    exact key pts (List.pairwise_iff_getElem.mpr hs) hne

theorem search_env (TS : Type) (num : BitVec 64 → Rat) (time : TS → Rat) : ∃ env : Env TS, env.num = num ∧ env.time = time ∧ SearchWorks env := by
  classical
  refine ⟨⟨num, time, fun pts t => if h : ∃ r, IsSearch pts t r then h.choose else .ok 0⟩, rfl, rfl, fun l t => ?_⟩
  have h := search_sorted l t
  simp only [h, dite_true]
  exact h.choose_spec

/-- another number format: timestamps differ by 5 bits -/
def demo5 : Cfg (BitVec 64) (BitVec 5) (BitVec 64) (BitVec 8) where
  ts := Prim.uint 64
  td := Prim.uint 5
  d := Prim.uint 64
  dd := Prim.uint 8
  tsDelta := ⟨fun l d => some (l + d.setWidth 64), fun v l => if (v - l).toNat < 32 then some ((v - l).setWidth 5) else none⟩
  dDelta := ⟨fun l d => some (l + d.setWidth 64), fun v l => if (v - l).toNat < 256 then some ((v - l).setWidth 8) else none⟩
  tooClose t l := decide (t.toNat < l.toNat + 5)
  bytes := 18

/-- the bytes of a log of two readings, (10, 20) and (18, 21) -/
def twoReadings : Bytes := (((Logger.new Log.demo).log Log.demo 10#64 20#64).bind fun x => (x.2.log Log.demo 18#64 21#64).bind fun y => y.2.flush.map (·.sink)).getD []

/-- **C91** (finding) A log decoded with another number format than it was written with gives wrong readings (and no error). -/
theorem C91_other_format : readAll Log.demo (fun _ => 0) 5 (LogReader.new Log.demo twoReadings) [] = some [.reading 10#64 20#64, .reading 18#64 21#64] ∧
    ∃ t v, readAll demo5 (fun _ => 0) 5 (LogReader.new demo5 twoReadings) [] = some [.reading 10#64 20#64, .reading t v] ∧ (t, v) ≠ (18#64, 21#64) := by
  refine ⟨by decide +kernel, 18#64, 28#64, by decide +kernel, by decide⟩

/-- a closed ring of tier 2 logs with two readings on the device: the table made from tier 2 has both readings, and `pull_flight_data` gives an empty second table -/
theorem C91_case (crc : Bytes → UInt32) : ∃ (fs : FS) (ks : List Known) (env : Env (BitVec 64)), Hist crc fs ks ∧ SearchWorks env ∧
    ∃ n, ∀ fuel, n ≤ fuel → ∃ rows fl, (exportType crc Log.demo env (fun _ => 0) (fun _ => 0) fuel .new fs baroTier2).1 = some rows ∧
      rows.map (fun r => (r.boot, r.data)) = [(10#64, 20#64), (18#64, 21#64)] ∧
      pullFlightData crc Log.demo Log.demo Log.demo env (fun _ => 0) (fun _ => 0) fuel .new fs = some fl ∧ fl.baro2 = [] := by
  obtain ⟨_, _, _, _, _, s, ks, hr, hcl, hop, hnx, htyp, hids⟩ := C88_case_of crc baroTier2 (by decide)
  obtain ⟨env, _, _, he⟩ := search_env (BitVec 64) (fun _ => 0) (fun _ => 0)
  have hh : Hist crc s.fs ks := (RingLog.ring_inv Log.demo_codecs Log.demo_fits hr).hist
  have hkind : ofKind baroTier2 ks = ks := List.filter_eq_self.mpr fun k hk => by simp [htyp k hk]
  have hnone : ∀ t, t ≠ baroTier2 → ofKind t ks = [] := fun t ht => List.filter_eq_nil_iff.mpr fun k hk => by
    rw [htyp k hk]
    simpa using Ne.symm ht
  have hmem : ∀ k ∈ ks, k.id = 1 ∨ k.id = 2 := fun k hk => by
    have : k.id ∈ ks.map (·.id) := List.mem_map_of_mem hk
    rw [hids] at this
    simpa using this
  obtain ⟨gone, kept, n, k1, k2, _, k3⟩ := C91_ring Log.demo_codecs Log.demo_fits hr hcl hnx hop (fun k hk => by
    rcases hmem k (hkind ▸ hk) with h | h
    · exact ⟨segA, by simp, h.symm⟩
    · exact ⟨segB.flushed, by simp, h.symm⟩) he
  rw [hkind, hids] at k2
  have hlen := congrArg List.length k1
  have hlen2 := congrArg List.length k2
  simp only [List.length_append, List.length_cons, List.length_nil, List.length_map] at hlen hlen2
  have hgone : gone = [] := List.length_eq_zero_iff.mp (by omega)
  rw [hgone, List.nil_append] at k1
  subst k1
  refine ⟨s.fs, ks, env, hh, he, n + ks.length + 1, fun fuel hfu => ?_⟩
  obtain ⟨parts, e1, e2⟩ := k3 fuel (by omega) (fun _ => 0) (fun _ => 0) .new rfl
  obtain ⟨s1, p1, q1⟩ := C91_download hh (typ := baroTier1) (bs := []) (by rw [hnone _ (by decide)]; exact .nil) (s := .new) rfl (fuel := fuel) (by simp) (by omega)
  obtain ⟨s2, p2, q2⟩ := C91_download hh (typ := baroTier1) (bs := []) (by rw [hnone _ (by decide)]; exact .nil) q1 (fuel := fuel) (by simp) (by omega)
  obtain ⟨s3, p3, q3⟩ := C91_download hh (typ := FileTypes.lowGImuTier1) (bs := []) (by rw [hnone _ (by decide)]; exact .nil) q2 (fuel := fuel) (by simp) (by omega)
  refine ⟨parts.flatten, ⟨[], [], []⟩, e1, ?_, ?_, rfl⟩
  · cases e2 with
    | cons x1 e2 =>
      cases e2 with
      | cons x2 e2 =>
        cases e2
        simp only [List.flatten_cons, List.flatten_nil, List.append_nil, List.map_append]
        rw [x1.readings, x2.readings]
        rfl
  · unfold pullFlightData exportType
    rw [p1]
    simp only [table]
    rw [p2]
    simp only [table]
    rw [p3]
    rfl

end Verif.Props
