import Verif.Lemmas.StrainGaugeHost
/-
C92: the strain gauge readings, from the ADC to the tables on the host.
-/
namespace Verif.Props
open Verif Verif.Spec Verif.SG Verif.Tagged Verif.Lut

variable {F S T : Type}

/-- **C92** Whatever the reads are and whatever earlier messages left in the slots of the channel, the processing task never panics, and sends after every 40th read one message for
each of the four channels, in order, which holds exactly the batch: the start time of its first read and the filtered sample of each of its reads. Nothing else is sent. -/
theorem C92_messages (a : Arith F S) (reads : List (Raw F T × (Nat → Vector UInt8 80))) (hf : FullReads (reads.map Prod.fst)) :
    ∃ es st, (St.new a).run a reads = some (es, st) ∧ es.length = reads.length ∧ (es.flatMap Effects.readings).length = 4 * (reads.length / 40) ∧
      (∀ j e, es[j]? = some e → (e.readings ≠ [] ↔ (j + 1) % 40 = 0)) ∧
      ∀ b c, b < reads.length / 40 → c < 4 → ∃ r, (es.flatMap Effects.readings)[4 * b + c]? = some r ∧ ReadingOf a (reads.map Prod.fst) b c r := by
  obtain ⟨es, st, h1, h2, h3⟩ := run_spec reads [] (St.new a) (new_inv a) (by simpa using hf)
  simp only [List.nil_append] at h3
  have hl : ∀ j e, es[j]? = some e → ((reads.map Prod.fst).take (j + 1)).length = j + 1 := fun j e h => by
    have := (List.getElem?_eq_some_iff.mp h).1
    rw [List.length_take, List.length_map]; omega
  obtain ⟨f1, f2⟩ := flat_index Effects.readings reads.length es h2 fun j e hj => by
    have := h3 j e hj
    refine ⟨fun hh => (this.sent (by rw [hl j e hj]; exact hh)).1, fun hh => (this.quiet (by rw [hl j e hj]; exact hh)).1⟩
  refine ⟨es, st, h1, h2, f1, fun j e hj => ⟨fun hne => ?_, fun hh hne => ?_⟩, fun b c hb hc => ?_⟩
  · by_cases hh : (j + 1) % 40 = 0
    · exact hh
    · exact absurd ((h3 j e hj).quiet (by rw [hl j e hj]; exact hh)).1 hne
  · have := ((h3 j e hj).sent (by rw [hl j e hj]; exact hh)).1
    rw [hne, List.length_nil] at this
    omega
  · have hlt : 40 * b + 39 < es.length := by omega
    have he := List.getElem?_eq_getElem hlt
    have hs := h3 _ _ he
    have hll := hl _ _ he
    obtain ⟨s1, s2⟩ := hs.sent (by rw [hll]; omega)
    obtain ⟨r, hr⟩ : ∃ r, (es[40 * b + 39]).readings[c]? = some r := ⟨(es[40 * b + 39]).readings[c]'(by omega), List.getElem?_eq_getElem _⟩
    refine ⟨r, by rw [f2 b c _ hc he]; exact hr, ?_⟩
    have := s2 c r hr
    rw [hll, show (40 * b + 39 + 1) / 40 - 1 = b by omega] at this
    have := ReadingOf.more this (by rw [hll]; omega) ((reads.map Prod.fst).drop (40 * b + 39 + 1))
    rwa [List.take_append_drop] at this

/-- **C92** The sample published in real time after each read is the filtered sample of that read, for each channel. -/
theorem C92_realtime (a : Arith F S) (reads : List (Raw F T × (Nat → Vector UInt8 80))) (hf : FullReads (reads.map Prod.fst)) {es : List (Effects F T)} {st : St F S T}
    (h : (St.new a).run a reads = some (es, st)) (j : Nat) (e : Effects F T) (hj : es[j]? = some e) :
    e.realtime.length = 4 ∧ ∀ c < 4, ∃ x, e.realtime[c]? = some x ∧ sgPoint a (reads.map Prod.fst) c j = some x := by
  obtain ⟨es', st', h1, h2, h3⟩ := run_spec reads [] (St.new a) (new_inv a) (by simpa using hf)
  rw [h] at h1
  simp only [Option.some.injEq, Prod.mk.injEq] at h1
  obtain ⟨rfl, rfl⟩ := h1
  simp only [List.nil_append] at h3
  have hlt := (List.getElem?_eq_some_iff.mp hj).1
  have hll : ((reads.map Prod.fst).take (j + 1)).length = j + 1 := by rw [List.length_take, List.length_map]; omega
  obtain ⟨r1, r2⟩ := (h3 j e hj).realtime
  refine ⟨r1, fun c hc => ?_⟩
  have := r2 c hc
  rw [hll, Nat.add_sub_cancel] at this
  refine ⟨e.realtime[c]'(by omega), List.getElem?_eq_getElem _, ?_⟩
  rw [List.getElem?_eq_getElem (by omega)] at this
  rw [this, ← sgPoint_append a ((reads.map Prod.fst).take (j + 1)) ((reads.map Prod.fst).drop (j + 1)) c j (by omega), List.take_append_drop]

/-- **C92** What the Fourier transform is computed of, once per batch and channel: the sum of four windows of 2048 consecutive samples, one window every ten reads, and the divisor four. -/
theorem C92_windows (a : Arith F S) (reads : List (Raw F T × (Nat → Vector UInt8 80))) (hf : FullReads (reads.map Prod.fst)) {es : List (Effects F T)} {st : St F S T}
    (h : (St.new a).run a reads = some (es, st)) (b c : Nat) (hb : b < reads.length / 40) (hc : c < 4) :
    ∃ e w, es[40 * b + 39]? = some e ∧ e.transforms.length = 4 ∧ e.transforms[c]? = some w ∧ WindowOf a (reads.map Prod.fst) b c w := by
  obtain ⟨es', st', h1, h2, h3⟩ := run_spec reads [] (St.new a) (new_inv a) (by simpa using hf)
  rw [h] at h1
  simp only [Option.some.injEq, Prod.mk.injEq] at h1
  obtain ⟨rfl, rfl⟩ := h1
  simp only [List.nil_append] at h3
  have hlt : 40 * b + 39 < es.length := by omega
  have he := List.getElem?_eq_getElem hlt
  have hll : ((reads.map Prod.fst).take (40 * b + 39 + 1)).length = 40 * b + 39 + 1 := by rw [List.length_take, List.length_map]; omega
  obtain ⟨s1, s2⟩ := (h3 _ _ he).transformed (by rw [hll]; omega)
  refine ⟨_, (es[40 * b + 39]).transforms[c]'(by omega), he, s1, List.getElem?_eq_getElem _, ?_⟩
  have := s2 c _ (List.getElem?_eq_getElem (by omega))
  rw [hll, show (40 * b + 39 + 1) / 40 - 1 = b by omega] at this
  have := WindowOf.more this (by rw [hll]; omega) ((reads.map Prod.fst).drop (40 * b + 39 + 1))
  rwa [List.take_append_drop] at this

/-- **C92** Storing: whatever the order of readings, time syncs and rotations, the segments hold, one after the other, exactly the readings that arrived, in order. -/
theorem C92_stored (evs : List (Ev T)) : (segments ((Store.new T).run evs)).flatMap stored = arrived evs := by
  rw [run_stored]; rfl

/-- **C92** Once a time sync was received, the segment a reading is written to holds the newest one, unless the reading arrives in the middle of a rotation. -/
theorem C92_sync (evs : List (Ev T)) (r : Reading T) (b u : T) (hn : newestSync evs = some (b, u)) (hq : ((Store.new T).run evs).rotating = false) :
    .sync b u ∈ ((Store.new T).run (evs ++ [.reading r])).current := by
  have h := run_inv (evs ++ [.reading r])
  have hst : (Store.new T).run (evs ++ [.reading r]) = ((Store.new T).run evs).step (.reading r) := by simp [Store.run]
  have hx : newestSync (evs ++ [.reading r]) = some (b, u) := by rw [newestSync_append]; simpa [newestSync] using hn
  have hu := h.unix
  rw [hx] at hu
  cases hs : ((Store.new T).run (evs ++ [.reading r])).unix with
  | none => rw [hs] at hu; exact absurd hu (by simp)
  | some p =>
    obtain ⟨⟨b', u'⟩, f⟩ := p
    rw [hs] at hu
    simp only [Option.map_some, Option.some.injEq, Prod.mk.injEq] at hu
    obtain ⟨rfl, rfl⟩ := hu
    have hf : f = false := by
      rw [hst] at hs
      simp only [Store.step, Store.owed] at hs
      cases hz : ((Store.new T).run evs).unix with
      | none => rw [hz] at hs; exact absurd hs (by simp)
      | some q =>
        obtain ⟨v, g⟩ := q
        rw [hz] at hs
        simp only at hs
        split at hs
        · simp only [Option.some.injEq, Prod.mk.injEq] at hs; exact hs.2.symm
        · rename_i hc
          simp only [Option.some.injEq, Prod.mk.injEq] at hs
          rw [← hs.2]
          cases g
          · rfl
          · exact absurd (by simp) hc
    subst hf
    exact h.there (b', u') hs (by rw [hst]; exact hq) (by rw [hst]; rfl)

/-- **C92, finding** A reading that arrives between the two halves of a rotation goes to the new segment without the time sync, and it makes the next rotation
be skipped as if nothing had been written. -/
theorem C92_rotation_race (r1 r2 : Reading T) (b u : T) :
    let evs : List (Ev T) := [.unix b u, .reading r1, .replaceWriter, .reading r2]
    newestSync evs = some (b, u) ∧ segments ((Store.new T).run evs) = [[.sync b u, .reading r1], [.reading r2]] ∧
      segments ((Store.new T).run (evs ++ [.finishSegment, .replaceWriter])) = [[.sync b u, .reading r1], [.reading r2]] :=
  ⟨rfl, rfl, rfl⟩

/-- **C92** On the host: from files with these records, whatever pieces the reader returns, the table of each channel has exactly the 40 samples of each of its readings,
file by file in order, each with the times the writer of the table adds; never a panic, as long as the channel numbers are below four. -/
theorem C92_host (a : Arith F S) {e : Enum (Rec T)} (he : e.Ok) (env : SG.Env T) (sched1 sched2 : Nat → Nat) (fuel : Nat) {segs : List (List (Rec T))} {files : List Bytes}
    (hf : List.Forall₂ (FileOf e) segs files) (hl : ∀ seg ∈ segs, seg.length < fuel) (hs : ∀ seg ∈ segs, ∀ r ∈ stored seg, r.sg.toNat < 4) :
    ∃ out, sgTables a e env sched1 sched2 fuel files = some out ∧ out.length = 4 ∧ ∀ c < 4, out[c]? = some (segs.flatMap fun seg =>
      ((stored seg).filter fun r => r.sg.toNat == c).flatMap fun r => csvRows a env r
        (convert (sort (storedSyncs env seg)) (env.num r.start) (env.search (sort (storedSyncs env seg)) (env.num r.start)))) := by
  obtain ⟨out, h1, h2, h3⟩ := fileLoop_spec a he env sched1 sched2 fuel segs files (List.replicate 4 []) (by simp) hf hl hs
  refine ⟨out, h1, h2, fun c hc => ?_⟩
  have := h3 c [] (by rw [List.getElem?_replicate, if_pos hc])
  rw [this, List.nil_append]
  rfl

/-- **C92** A file cut off at any byte by a power loss gives what a file with the records completely within the cut gives. -/
theorem C92_cut {e : Enum (Rec T)} (he : e.Ok) (env : SG.Env T) (sched1 sched2 sched1' sched2' : Nat → Nat) (fuel cut : Nat) {recs : List (Rec T)} {content : Bytes}
    (hf : FileOf e recs content) (hl : recs.length < fuel) :
    ∃ k kept, k ≤ recs.length ∧ FileOf e (recs.take k) kept ∧ kept.length ≤ cut ∧ (k < recs.length → ∀ more, FileOf e (recs.take (k + 1)) more → cut < more.length) ∧
      parseSg e env sched1 sched2 fuel (content.take cut) = parseSg e env sched1' sched2' fuel kept := by
  rw [fileOf_iff he] at hf
  subst hf
  obtain ⟨h1, h2⟩ := whole_fits e recs cut
  refine ⟨whole e cut recs, _, whole_le e recs cut, (fileOf_iff he _ _).mpr rfl, h1, fun hk more hm => ?_, ?_⟩
  · rw [fileOf_iff he] at hm
    subst hm; exact h2 hk
  · rw [parseSg_cut he env sched1 sched2 fuel cut recs hl, parseSg_full he env sched1' sched2' fuel]
    rw [List.length_take]; omega

theorem csvRows_length (a : Arith F S) (env : SG.Env T) (r : Reading T) (u : Result) : (csvRows a env r u).length = 40 := by simp [csvRows]

theorem csvRows_get (a : Arith F S) (env : SG.Env T) (r : Reading T) (u : Result) (k : Nat) (hk : k < 40) :
    (csvRows a env r u)[k]? = some ⟨env.num r.start + 5 * (k : Rat), later (5 * (k : Rat)) u, a.unhalf (r.samples[2 * k]) (r.samples[2 * k + 1])⟩ := by
  rw [csvRows, List.getElem?_map, List.getElem?_eq_getElem (by simpa using hk)]
  simp [Nat.mul_comm]

/-- **C92** From the ADC to the tables: the reads are processed, the messages arrive at the storing loop in order (C52) among any time syncs and rotations, the files of the
segments are downloaded (C91) and converted. Then row `j` of the table of channel `c` shows the low-passed sample of read `j`, rounded to f16, under the start time of its
batch of 40 plus 5 ms per read; there is a row for every read of the complete batches and no other. -/
theorem C92_tables (a : Arith F S) (reads : List (Raw F T × (Nat → Vector UInt8 80))) (hf : FullReads (reads.map Prod.fst)) {es : List (Effects F T)} {st : St F S T}
    (hrun : (St.new a).run a reads = some (es, st)) (evs : List (Ev T)) (hev : arrived evs = es.flatMap Effects.readings)
    {e : Enum (Rec T)} (he : e.Ok) (env : SG.Env T) (sched1 sched2 : Nat → Nat) (fuel : Nat) {files : List Bytes}
    (hfiles : List.Forall₂ (FileOf e) (segments ((Store.new T).run evs)) files) (hfuel : ∀ seg ∈ segments ((Store.new T).run evs), seg.length < fuel) :
    ∃ out, sgTables a e env sched1 sched2 fuel files = some out ∧ out.length = 4 ∧ ∀ c < 4, ∃ t, out[c]? = some t ∧ t.length = 40 * (reads.length / 40) ∧
      ∀ j < 40 * (reads.length / 40), ∃ row first x, t[j]? = some row ∧ (reads.map Prod.fst)[40 * (j / 40)]? = some first ∧ sgPoint a (reads.map Prod.fst) c j = some x ∧
        row.boot = env.num first.start + 5 * ((j % 40 : Nat) : Rat) ∧ row.sample = a.unhalf (a.half x).1 (a.half x).2 := by
  obtain ⟨es', st', m1, m2, m3, m4, m5⟩ := C92_messages a reads hf
  rw [hrun] at m1
  simp only [Option.some.injEq, Prod.mk.injEq] at m1
  obtain ⟨rfl, rfl⟩ := m1
  have hst : (segments ((Store.new T).run evs)).flatMap stored = es.flatMap Effects.readings := by rw [C92_stored, hev]
  generalize hsent : es.flatMap Effects.readings = sent at *
  have hnum : ∀ b c r, c < 4 → sent[4 * b + c]? = some r → r.sg.toNat = c := by
    intro b c r hc hr
    have hlt := (List.getElem?_eq_some_iff.mp hr).1
    obtain ⟨r', h1, h2⟩ := m5 b c (by omega) hc
    rw [hr] at h1; injection h1 with h1; subst h1
    exact h2.channel
  obtain ⟨out, o1, o2, o3⟩ := C92_host a he env sched1 sched2 fuel hfiles hfuel (by
    intro seg hseg r hr
    have hm : r ∈ sent := by rw [← hst]; exact List.mem_flatMap.mpr ⟨seg, hseg, hr⟩
    obtain ⟨i, hi⟩ := List.mem_iff_getElem?.mp hm
    have := hnum (i / 4) (i % 4) r (Nat.mod_lt _ (by decide)) (by rw [show 4 * (i / 4) + i % 4 = i by omega]; exact hi)
    have := Nat.mod_lt i (show 0 < 4 by decide)
    omega)
  refine ⟨out, o1, o2, fun c hc => ⟨_, o3 c hc, ?_⟩⟩
  obtain ⟨p1, p2⟩ := filter_pick (fun r : Reading T => r.sg.toNat == c) c hc (reads.length / 40) sent m3 fun b c' r hc' hr => by rw [hnum b c' r hc' hr]
  -- drop the unix column
  let g : Row F → Rat × F := fun row => (row.boot, row.sample)
  let f : Reading T → List (Rat × F) := fun r => (csvRows a env r .none).map g
  have hg : ∀ r u, (csvRows a env r u).map g = f r := by
    intro r u
    simp only [f, csvRows, List.map_map]
    rfl
  have hmap : ((segments ((Store.new T).run evs)).flatMap fun seg => ((stored seg).filter fun r => r.sg.toNat == c).flatMap fun r => csvRows a env r
        (convert (sort (storedSyncs env seg)) (env.num r.start) (env.search (sort (storedSyncs env seg)) (env.num r.start)))).map g =
      (sent.filter fun r => r.sg.toNat == c).flatMap f := by
    rw [← hst, List.filter_flatMap, List.flatMap_assoc, List.map_flatMap]
    congr 1
    funext seg
    rw [List.map_flatMap]
    simp only [hg]
  generalize ((segments ((Store.new T).run evs)).flatMap fun seg => ((stored seg).filter fun r => r.sg.toNat == c).flatMap fun r => csvRows a env r
        (convert (sort (storedSyncs env seg)) (env.num r.start) (env.search (sort (storedSyncs env seg)) (env.num r.start)))) = t at hmap
  obtain ⟨q1, q2⟩ := flat40 f (fun r => by simp [f, csvRows_length]) (sent.filter fun r => r.sg.toNat == c)
  rw [← hmap, p1, List.length_map] at q1
  refine ⟨q1, fun j hj => ?_⟩
  obtain ⟨r, r1, r2⟩ := m5 (j / 40) c (by omega) hc
  have hq := q2 j r (by rw [p2]; exact r1)
  rw [← hmap, List.getElem?_map] at hq
  obtain ⟨x, x1, x2⟩ := r2.samples (j % 40) (Nat.mod_lt _ (by decide))
  rw [show 40 * (j / 40) + j % 40 = j by omega] at x1
  have hs := r2.start
  cases hfirst : (reads.map Prod.fst)[40 * (j / 40)]? with
  | none => rw [hfirst] at hs; exact absurd hs (by simp)
  | some first =>
    rw [hfirst] at hs
    simp only [Option.map_some, Option.some.injEq] at hs
    have hrow : t[j]? = some (t[j]'(by omega)) := List.getElem?_eq_getElem _
    refine ⟨t[j]'(by omega), first, x, hrow, rfl, x1, ?_⟩
    simp only [f] at hq
    rw [hrow, List.getElem?_map, csvRows_get a env r .none _ (Nat.mod_lt _ (by decide))] at hq
    simp only [Option.map_some, g, Option.some.injEq, Prod.mk.injEq] at hq
    exact ⟨by rw [hq.1, hs], by rw [hq.2, ← x2]⟩

/-- **C92** The unix time of a row: what the time syncs of its own file give for the start of its batch (C60), plus 5 ms per read as in the boot time. -/
theorem C92_times (a : Arith F S) {e : Enum (Rec T)} (he : e.Ok) (env : SG.Env T) (sched1 sched2 : Nat → Nat) (fuel : Nat) {segs : List (List (Rec T))} {files : List Bytes}
    (hf : List.Forall₂ (FileOf e) segs files) (hl : ∀ seg ∈ segs, seg.length < fuel) (hs : ∀ seg ∈ segs, ∀ r ∈ stored seg, r.sg.toNat < 4) :
    ∃ out, sgTables a e env sched1 sched2 fuel files = some out ∧ ∀ c t row, out[c]? = some t → row ∈ t →
      ∃ seg ∈ segs, ∃ r ∈ stored seg, ∃ k : Nat, k < 40 ∧ r.sg.toNat = c ∧ row.boot = env.num r.start + 5 * (k : Rat) ∧
        let result := convert (sort (storedSyncs env seg)) (env.num r.start) (env.search (sort (storedSyncs env seg)) (env.num r.start))
        (∀ u, result = .value u → row.unix = .value (u + 5 * (k : Rat))) ∧ (result = .none → row.unix = .none) := by
  obtain ⟨out, o1, o2, o3⟩ := C92_host a he env sched1 sched2 fuel hf hl hs
  refine ⟨out, o1, fun c t row hc hrow => ?_⟩
  have hlt := (List.getElem?_eq_some_iff.mp hc).1
  rw [o3 c (by omega)] at hc
  injection hc with hc
  subst hc
  obtain ⟨seg, hseg, hrow⟩ := List.mem_flatMap.mp hrow
  obtain ⟨r, hr, hrow⟩ := List.mem_flatMap.mp hrow
  obtain ⟨hr1, hr2⟩ := List.mem_filter.mp hr
  obtain ⟨k, hk⟩ := List.mem_iff_getElem?.mp hrow
  have hklt : k < 40 := by
    have := (List.getElem?_eq_some_iff.mp hk).1
    rwa [csvRows_length] at this
  rw [csvRows_get _ _ _ _ _ hklt] at hk
  injection hk with hk
  subst hk
  refine ⟨seg, hseg, r, hr1, k, hklt, by simpa using hr2, rfl, fun u hu => ?_, fun hu => ?_⟩
  · show later _ _ = _
    rw [hu]; rfl
  · show later _ _ = _
    rw [hu]; rfl

/-- **C92** Without two time syncs in a file none of its rows has a unix time; in particular none at all if no time sync is ever received. -/
theorem C92_no_times (a : Arith F S) {e : Enum (Rec T)} (he : e.Ok) (env : SG.Env T) (sched1 sched2 : Nat → Nat) (fuel : Nat) {segs : List (List (Rec T))} {files : List Bytes}
    (hf : List.Forall₂ (FileOf e) segs files) (hl : ∀ seg ∈ segs, seg.length < fuel) (hs : ∀ seg ∈ segs, ∀ r ∈ stored seg, r.sg.toNat < 4)
    (hn : ∀ seg ∈ segs, (storedSyncs env seg).length < 2) :
    ∃ out, sgTables a e env sched1 sched2 fuel files = some out ∧ ∀ t ∈ out, ∀ row ∈ t, row.unix = .none := by
  obtain ⟨out, o1, o2, o3⟩ := C92_host a he env sched1 sched2 fuel hf hl hs
  refine ⟨out, o1, fun t ht row hrow => ?_⟩
  obtain ⟨c, hc⟩ := List.mem_iff_getElem?.mp ht
  have hlt := (List.getElem?_eq_some_iff.mp hc).1
  rw [o3 c (by omega)] at hc
  injection hc with hc
  subst hc
  obtain ⟨seg, hseg, hrow⟩ := List.mem_flatMap.mp hrow
  obtain ⟨r, _, hrow⟩ := List.mem_flatMap.mp hrow
  have hlen : (sort (storedSyncs env seg)).length < 2 := by rw [sort, List.length_mergeSort]; exact hn seg hseg
  rw [show ∀ f, convert (sort (storedSyncs env seg)) (env.num r.start) f = .none from fun f => by unfold convert; rw [if_pos hlen]] at hrow
  obtain ⟨i, _, rfl⟩ := List.mem_map.mp hrow
  rfl

/-- the store without time syncs has none in its segments -/
theorem C92_no_syncs (env : SG.Env T) (evs : List (Ev T)) (h : newestSync evs = none) : ∀ seg ∈ segments ((Store.new T).run evs), storedSyncs env seg = [] := by
  have key : ∀ (evs : List (Ev T)) (s : Store T), newestSync evs = none → s.unix = none → (∀ seg ∈ segments s, storedSyncs env seg = []) →
      ∀ seg ∈ segments (s.run evs), storedSyncs env seg = [] := by
    intro evs
    induction evs with
    | nil => intro s _ _ h; exact h
    | cons ev evs ih =>
      intro s hn hu hs
      have happ : ∀ (l m : List (Rec T)), storedSyncs env (l ++ m) = storedSyncs env l ++ storedSyncs env m := by
        intro l m
        induction l with
        | nil => rfl
        | cons x l ih => cases x <;> simp [storedSyncs, ih]
      cases ev with
      | unix b u => exact absurd hn (by simp [newestSync])
      | reading r =>
        refine ih _ hn (by simp [Store.step, Store.owed, hu]) fun seg hseg => ?_
        simp only [segments, Store.step, List.mem_append, List.mem_singleton] at hseg
        rcases hseg with hseg | rfl
        · exact hs seg (List.mem_append_left _ hseg)
        · rw [happ, happ, hs s.current (by simp [segments])]
          simp [Store.owed, hu, storedSyncs]
      | replaceWriter =>
        refine ih (s.step .replaceWriter) hn ?_ ?_
        · simp only [Store.step]; split <;> exact hu
        · simp only [Store.step]
          split
          · exact hs
          · intro seg hseg
            simp only [segments, List.mem_append, List.mem_singleton] at hseg
            rcases hseg with (hseg | rfl) | rfl
            · exact hs seg (List.mem_append_left _ hseg)
            · exact hs s.current (by simp [segments])
            · rfl
      | finishSegment =>
        refine ih (s.step .finishSegment) hn ?_ ?_
        · simp only [Store.step]; split <;> exact hu
        · simp only [Store.step]
          split <;> exact hs
  exact key evs (Store.new T) h rfl (fun seg hseg => by
    simp only [segments, Store.new, List.nil_append, List.mem_singleton] at hseg; subst hseg; rfl)

end Verif.Props
