import Verif.Lemmas.WitnessFull
import Verif.Props.Directory
import Verif.Props.Files
import Verif.Spec.RingHistory
import Verif.Model.FileTypes
/-
C33 (ring logs) and C34 (file types).
-/
namespace Verif.Props
open Verif Verif.Vlfs Verif.Spec

/-! ### counting -/

theorem ofType_dropFirst (typ : Nat) : ∀ (es : List FileEntry) (k : Nat), ofType typ (dropFirst typ k es) = (ofType typ es).drop k
  | [], k => by simp [ofType, dropFirst]
  | e :: es, k => by
    rw [dropFirst]
    by_cases ht : e.typ = typ
    · by_cases hk : k > 0
      · rw [if_pos ⟨ht, hk⟩, ofType_dropFirst typ es]
        unfold ofType
        rw [List.filter_cons, if_pos (by simp [ht])]
        obtain ⟨j, rfl⟩ : ∃ j, k = j + 1 := ⟨k - 1, by omega⟩
        rfl
      · rw [if_neg (fun h => hk h.2)]
        have hk : k = 0 := by omega
        subst hk
        unfold ofType
        rw [List.filter_cons, if_pos (by simp [ht]), List.filter_cons, if_pos (by simp [ht])]
        have := ofType_dropFirst typ es 0
        unfold ofType at this
        rw [this]; rfl
    · rw [if_neg (fun h => ht h.1)]
      have := ofType_dropFirst typ es k
      unfold ofType at this ⊢
      rw [List.filter_cons, if_neg (by simp [ht]), List.filter_cons, if_neg (by simp [ht]), this]

theorem notOfType_dropFirst (typ : Nat) : ∀ (es : List FileEntry) (k : Nat), notOfType typ (dropFirst typ k es) = notOfType typ es
  | [], k => by simp [notOfType, dropFirst]
  | e :: es, k => by
    rw [dropFirst]
    by_cases hc : e.typ = typ ∧ k > 0
    · rw [if_pos hc, notOfType_dropFirst typ es]
      unfold notOfType
      rw [List.filter_cons, if_neg (by simp [hc.1])]
    · rw [if_neg hc]
      have := notOfType_dropFirst typ es k
      unfold notOfType at this ⊢
      rw [List.filter_cons, List.filter_cons, this]

/-- one rotation on a reachable file system -/
theorem rotate_lists {fs fs' : FS} {es : List FileEntry} {ids : List Nat} {typ n r1 r2 : Nat} {e : FileEntry} (hr : Reach fs es ids) (hok : countersOk fs)
    (hcap : es.length < 2518) (ht : typ < 0x4000) (h : fs.rotate typ n r1 r2 = (.ok e, fs')) :
    e.typ = typ ∧ (∀ x ∈ es, x.id < e.id) ∧ lists fs' (es.filter (fun x => !amongOldest typ n es x) ++ [e]) ∧
    Reach fs' (es.filter (fun x => !amongOldest typ n es x) ++ [e]) (e.id :: ids) ∧
    ofType typ (es.filter (fun x => !amongOldest typ n es x)) = (ofType typ es).drop n ∧
    notOfType typ (es.filter (fun x => !amongOldest typ n es x)) = notOfType typ es := by
  have inv := reach_inv hr
  have hlen : (es.filter fun x => !amongOldest typ n es x).length < 2518 := Nat.lt_of_le_of_lt (List.length_filter_le _ _) hcap
  have hc := Reach.call hr (Call.rotate typ n r1 r2 e fs' h hlen ht) hok
  have hd := dropFirst_eq typ es n inv.dir.sorted
  have he : e.id = fs.at'.maxId + 1 ∧ e.typ = typ := by
    rcases rotate_spec inv.dir inv.range typ n r1 r2 (by rw [hd]; exact hlen) with ⟨s, g, _, g1, _⟩ | ⟨er, g, g1⟩
    · rw [h] at g1; injection g1 with g1 _; injection g1 with g1; rw [g1]; exact ⟨rfl, rfl⟩
    · rw [h] at g1; injection g1 with g1 _; exact absurd g1 (by simp)
  refine ⟨he.2, ?_, lists_of_dirInv (reach_inv hc).dir, hc, ?_, ?_⟩
  · intro x hx
    have := inv.dir.maxId x hx
    rw [he.1]; omega
  · rw [← hd]; exact ofType_dropFirst typ es n
  · rw [← hd]; exact notOfType_dropFirst typ es n

theorem lists_inj {fs : FS} {a b : List FileEntry} (h1 : lists fs a) (h2 : lists fs b) : a = b := by
  unfold lists at h1 h2
  rw [h1] at h2
  injection h2

theorem ofType_snoc {typ : Nat} (es : List FileEntry) {e : FileEntry} (h : e.typ = typ) : ofType typ (es ++ [e]) = ofType typ es ++ [e] := by
  unfold ofType
  rw [List.filter_append, List.filter_cons, if_pos (by simp [h]), List.filter_nil]

theorem notOfType_snoc {typ : Nat} (es : List FileEntry) {e : FileEntry} (h : e.typ = typ) : notOfType typ (es ++ [e]) = notOfType typ es := by
  unfold notOfType
  rw [List.filter_append, List.filter_cons, if_neg (by simp [h]), List.filter_nil, List.append_nil]

/-! ### C33 -/

/-- **C33** Starting a ring of `cap` segments on any reachable file system (with any number of files of the type on it): the oldest files of the
type are removed until `cap - 1` are left, the new segment is added behind all others, files of other types stay as they are, and the counter of the ring is the
number of files of the type, at most `cap`. -/
theorem C33_start {fs fs' : FS} {es : List FileEntry} {ids : List Nat} {typ cap r1 r2 : Nat} {r : Ring} (hr : Reach fs es ids) (hok : countersOk fs)
    (hcap : es.length < 2518) (ht : typ < 0x4000) (h : Ring.new fs typ cap r1 r2 = (.ok r, fs')) :
    ∃ es', lists fs' es' ∧ Reach fs' es' (r.current.id :: ids) ∧ ofType typ es' = (ofType typ es).drop ((ofType typ es).length + 1 - cap) ++ [r.current] ∧
      notOfType typ es' = notOfType typ es ∧ (∀ x ∈ es, x.id < r.current.id) ∧
      (ofType typ es').length = r.segments ∧ r.segments ≤ cap ∧ r.typ = typ ∧ r.cap = cap := by
  have inv := reach_inv hr
  unfold Ring.new at h
  rw [inv.dir.filesIter] at h
  simp only at h
  split at h
  · injection h with h _; exact absurd h (by simp)
  rename_i h0
  have hlen : (es.filter fun e => e.typ == typ).length = (ofType typ es).length := rfl
  rw [hlen] at h
  generalize hp : (if (ofType typ es).length > cap - 1 then ((ofType typ es).length - cap + 1, cap) else (0, (ofType typ es).length + 1)) = p at h
  cases hrot : fs.rotate typ p.1 r1 r2 with
  | mk res g =>
  rw [hrot] at h
  cases res with
  | error e => injection h with h _; exact absurd h (by simp)
  | ok e =>
    simp only at h
    injection h with h1 h2
    injection h1 with h1
    subst h1 h2
    obtain ⟨k1, k2, k3, k4, k5, k6⟩ := rotate_lists hr hok hcap ht hrot
    have hp1 : p.1 = (ofType typ es).length + 1 - cap := by rw [← hp]; split <;> simp only <;> omega
    refine ⟨_, k3, k4, ?_, ?_, k2, ?_, ?_, rfl, rfl⟩
    · rw [ofType_snoc _ k1, k5, hp1]
    · rw [notOfType_snoc _ k1, k6]
    · rw [ofType_snoc _ k1, k5, List.length_append, List.length_drop, List.length_singleton, hp1]
      show _ = p.2
      rw [← hp]; split <;> simp only <;> omega
    · show p.2 ≤ cap
      rw [← hp]; split <;> simp only <;> omega

/-- what a new segment does to the directory, in any reachable state and with any value of the ring's counter -/
theorem ring_rotate {fs fs' : FS} {es : List FileEntry} {ids : List Nat} {r1 r2 : Nat} {r r' : Ring} (hr : Reach fs es ids) (hok : countersOk fs)
    (hcap : es.length < 2518) (ht : r.typ < 0x4000) (h : r.rotate fs r1 r2 = (.ok r', fs')) :
    ∃ es', lists fs' es' ∧ Reach fs' es' (r'.current.id :: ids) ∧
      ofType r.typ es' = (ofType r.typ es).drop (if r.segments ≥ r.cap then 1 else 0) ++ [r'.current] ∧
      notOfType r.typ es' = notOfType r.typ es ∧ (∀ x ∈ es, x.id < r'.current.id) ∧
      r'.segments = min (r.segments + 1) r.cap ∧ r'.typ = r.typ ∧ r'.cap = r.cap := by
  unfold Ring.rotate at h
  simp only at h
  cases hrot : fs.rotate r.typ (if r.segments ≥ r.cap then ((1 : Nat), r.cap) else (0, r.segments + 1)).1 r1 r2 with
  | mk res g =>
  rw [hrot] at h
  cases res with
  | error e => injection h with h _; exact absurd h (by simp)
  | ok e =>
    simp only at h
    injection h with h1 h2
    injection h1 with h1
    subst h1 h2
    obtain ⟨k1, k2, k3, k4, k5, k6⟩ := rotate_lists hr hok hcap ht hrot
    refine ⟨_, k3, k4, ?_, ?_, k2, ?_, rfl, rfl⟩
    · rw [ofType_snoc _ k1, k5]
      congr 2
      split <;> rfl
    · rw [notOfType_snoc _ k1, k6]
    · show (if r.segments ≥ r.cap then ((1 : Nat), r.cap) else (0, r.segments + 1)).2 = _
      split <;> simp only <;> omega

/-- **C33** At any time during the life of a ring: the directory is a reachable one, the number of files of the type is the ring's counter and at most the configured
number, and the newest of them is the one being written. -/
theorem C33_bounded {typ cap : Nat} {fs : FS} {es : List FileEntry} {ids : List Nat} {r : Ring} (h : RingRun typ cap fs es ids r) :
    Reach fs es ids ∧ lists fs es ∧ (ofType typ es).length = r.segments ∧ 1 ≤ r.segments ∧ r.segments ≤ cap ∧
    (ofType typ es).getLast?.map (·.id) = some r.current.id ∧ r.typ = typ ∧ r.cap = cap ∧ typ < 0x4000 := by
  induction h with
  | start hr hok hcap ht h hl =>
    obtain ⟨es', k1, k2, k3, k4, k5, k6, k7, k8, k9⟩ := C33_start hr hok hcap ht h
    have := lists_inj hl k1
    subst this
    refine ⟨k2, k1, k6, ?_, k7, by rw [k3]; simp, k8, k9, ht⟩
    rw [← k6, k3, List.length_append, List.length_singleton]; omega
  | write h ih => exact ih
  | @segment fs fs' es es' ids r1 r2 r r' hr hok hcap h hl ih =>
    obtain ⟨i1, i2, i3, i4, i5, i6, i7, i8, i9⟩ := ih
    unfold Ring.createNewSegment at h
    cases hd : r.dirty with
    | false =>
      rw [hd] at h
      simp only [Bool.not_false, if_true] at h
      injection h with h1 h2
      injection h1 with h1
      subst h1 h2
      have := lists_inj hl i2
      subst this
      exact ⟨i1, i2, i3, i4, i5, i6, i7, i8, i9⟩
    | true =>
      rw [hd] at h
      simp only [Bool.not_true, Bool.false_eq_true, if_false] at h
      obtain ⟨es2, k1, k2, k3, k4, k5, k6, k7, k8⟩ := ring_rotate i1 hok hcap (by rw [i7]; exact i9) h
      have := lists_inj hl k1
      subst this
      rw [i7] at k3
      refine ⟨by simpa using k2, k1, ?_, by rw [k6]; omega, by rw [k6]; omega, by rw [k3]; simp, by rw [k7, i7], by rw [k8, i8], i9⟩
      rw [k3, List.length_append, List.length_drop, List.length_singleton, i3, k6]
      split <;> omega
  | @rotate fs fs' es es' ids r1 r2 r r' hr hok hcap h hl ih =>
    obtain ⟨i1, i2, i3, i4, i5, i6, i7, i8, i9⟩ := ih
    obtain ⟨es2, k1, k2, k3, k4, k5, k6, k7, k8⟩ := ring_rotate i1 hok hcap (by rw [i7]; exact i9) h
    have := lists_inj hl k1
    subst this
    rw [i7] at k3
    refine ⟨k2, k1, ?_, by rw [k6]; omega, by rw [k6]; omega, by rw [k3]; simp, by rw [k7, i7], by rw [k8, i8], i9⟩
    rw [k3, List.length_append, List.length_drop, List.length_singleton, i3, k6]
    split <;> omega
  | @call fs fs' es es' ids new r hr hc hok hkeep ih =>
    obtain ⟨i1, i2, i3, i4, i5, i6, i7, i8, i9⟩ := ih
    have h1 := Reach.call i1 hc hok
    have hl : (ofType typ es').length = (ofType typ es).length := by
      have := congrArg List.length hkeep
      rwa [List.length_map, List.length_map] at this
    refine ⟨h1, lists_of_dirInv (reach_inv h1).dir, by rw [hl, i3], i4, i5, ?_, i7, i8, i9⟩
    rw [← List.getLast?_map, hkeep, List.getLast?_map]; exact i6
  | opened hr l ih =>
    obtain ⟨i1, i2, i3⟩ := ih
    have h1 := Reach.opened i1 l
    exact ⟨h1, lists_of_dirInv (reach_inv h1).dir, i3⟩
  | other hr ha hf hm ih =>
    obtain ⟨i1, i2, i3⟩ := ih
    have h1 := Reach.other i1 ha hf hm
    exact ⟨h1, lists_of_dirInv (reach_inv h1).dir, i3⟩

/-- **C33** A new segment of a running ring removes at most one file: the oldest of the type, and only if the ring is full; the new segment is added behind all others;
files of other types stay as they are. -/
theorem C33_new_segment {typ cap : Nat} {fs fs' : FS} {es : List FileEntry} {ids : List Nat} {r1 r2 : Nat} {r r' : Ring} (hr : RingRun typ cap fs es ids r)
    (hok : countersOk fs) (hcap : es.length < 2518) (h : r.rotate fs r1 r2 = (.ok r', fs')) :
    ∃ es', lists fs' es' ∧ ofType typ es' = (ofType typ es).drop (if (ofType typ es).length = cap then 1 else 0) ++ [r'.current] ∧
      notOfType typ es' = notOfType typ es ∧ (∀ x ∈ es, x.id < r'.current.id) := by
  obtain ⟨i1, i2, i3, i4, i5, i6, i7, i8, i9⟩ := C33_bounded hr
  obtain ⟨es2, k1, k2, k3, k4, k5, k6, k7, k8⟩ := ring_rotate i1 hok hcap (by rw [i7]; exact i9) h
  rw [i7] at k3 k4
  refine ⟨es2, k1, ?_, k4, k5⟩
  rw [k3, i3, i8]
  congr 2
  split <;> split <;> omega

/-- **C33** A segment in which nothing was written is kept: no directory change. -/
theorem C33_no_empty_segments (r : Ring) (fs : FS) (r1 r2 : Nat) (h : r.dirty = false) : r.createNewSegment fs r1 r2 = (.ok r, fs) := by
  unfold Ring.createNewSegment
  rw [h]; rfl

/-- **C33** Contents: a rotation leaves the content of every file it does not remove as it was, on any reachable file system. -/
theorem C33_contents {crc : Bytes → UInt32} {fs fs' : FS} {ks : List Known} {typ n r1 r2 : Nat} {e : FileEntry} (hr : Hist crc fs ks)
    (hw : ∀ k ∈ ks, oldestKnown typ n ks k = true → k.writer = none) (hcap : ks.length < 2518) (ht : typ < 0x4000) (hok : countersOk fs)
    (h : fs.rotate typ n r1 r2 = (.ok e, fs')) {k : Known} (hk : k ∈ ks) (hkeep : oldestKnown typ n ks k = false) (hkw : k.writer = none) (hkd : k.damaged = false)
    (hm : k.maybe = []) (hno : k.id ∉ fs.at'.opened) (hlen : fs.at'.opened.length < 32) :
    ReadsAs crc fs k.id k.data ∧ ReadsAs crc fs' k.id k.data := by
  constructor
  · obtain ⟨pre, h1, h2⟩ := C10_closed_content hr hk hkw hkd hno hlen
    rw [hm, List.prefix_nil] at h1
    rw [h1, List.append_nil] at h2; exact h2
  · have hs : Step crc fs ks fs' _ := .rotate typ n r1 r2 e fs' h hw hcap ht hok
    have hop : fs'.at'.opened = fs.at'.opened := by
      obtain ⟨files, leak, hf, hsys⟩ := hist_inv hr
      subst hf
      have hl : ((files.map (·.e)).filter fun x => !amongOldest typ n (files.map (·.e)) x).length < 2518 := by
        refine Nat.lt_of_le_of_lt (List.length_filter_le _ _) ?_
        rw [List.length_map] at hcap ⊢; exact hcap
      exact (reach_call hsys.reach (.rotate typ n r1 r2 e fs' h hl ht) hok).2
    obtain ⟨pre, h1, h2⟩ := C10_closed_content (hr.step hs) (k := k)
      (List.mem_append_left _ (List.mem_filter.mpr ⟨hk, by rw [hkeep]; rfl⟩)) hkw hkd (by rw [hop]; exact hno) (by rw [hop]; exact hlen)
    rw [hm, List.prefix_nil] at h1
    rw [h1, List.append_nil] at h2; exact h2

/-- **C33** Starting a ring with `segments_per_ring = 0` panics. -/
theorem C33_zero_segments {fs : FS} {es : List FileEntry} {ids : List Nat} (hr : Reach fs es ids) (typ r1 r2 : Nat) :
    Ring.new fs typ 0 r1 r2 = (.error .panic, fs) := by
  unfold Ring.new
  rw [(reach_inv hr).dir.filesIter]
  rfl

/-! findings -/

theorem sorted_unique : ∀ {es : List FileEntry}, es.Pairwise (fun a b => a.id < b.id) → ∀ {x y : FileEntry}, x ∈ es → y ∈ es → x.id = y.id → x = y
  | [], _, _, _, hx, _, _ => absurd hx List.not_mem_nil
  | e :: es, h, x, y, hx, hy, he => by
    rw [List.pairwise_cons] at h
    rcases List.mem_cons.mp hx with hx | hx <;> rcases List.mem_cons.mp hy with hy | hy
    · rw [hx, hy]
    · have := h.1 y hy; rw [hx] at he; omega
    · have := h.1 x hx; rw [hy] at he; omega
    · exact sorted_unique h.2 hx hy he

/-- **C33** (finding) The ground command "delete logs" removes the segment a ring is writing to, because that file is not registered as open. -/
theorem C33_delete_logs_removes_current {typ cap : Nat} {fs fs' : FS} {es es' : List FileEntry} {ids : List Nat} {r : Ring} {n : Nat × Nat}
    (hr : RingRun typ cap fs es ids r) (hd : FileTypes.deleteLogs typ = true) (hno : r.current.id ∉ fs.at'.opened) (hok : countersOk fs)
    (h : fs.removeFiles (fun e => FileTypes.deleteLogs e.typ) = (.ok n, fs')) (hl : lists fs' es') :
    (∃ e ∈ es, e.id = r.current.id ∧ e.typ = typ) ∧ ∀ e ∈ es', e.id ≠ r.current.id := by
  obtain ⟨i1, i2, i3, i4, i5, i6, i7, i8, i9⟩ := C33_bounded hr
  have hmem : ∃ e ∈ es, e.id = r.current.id ∧ e.typ = typ := by
    cases hg : (ofType typ es).getLast? with
    | none => rw [hg] at i6; simp at i6
    | some e =>
      rw [hg] at i6
      have he := List.mem_of_getLast? hg
      unfold ofType at he
      rw [List.mem_filter] at he
      exact ⟨e, he.1, by simpa using i6, by simpa using he.2⟩
  refine ⟨hmem, ?_⟩
  have hc := Reach.call i1 (Call.remove (fun e => FileTypes.deleteLogs e.typ) n.1 n.2 fs' h) hok
  have := lists_inj hl (lists_of_dirInv (reach_inv hc).dir)
  subst this
  intro e he heq
  rw [List.mem_filter] at he
  obtain ⟨x, hx, hx1, hx2⟩ := hmem
  have hex : e = x := sorted_unique (reach_inv i1).dir.sorted he.1 hx (by rw [heq, hx1])
  subst hex
  have h2 := he.2
  rw [hx2, hd, heq] at h2
  simp at h2
  exact hno h2

/-- **C33** (finding) The ring does not notice that its files were deleted: once its counter is full, every new segment removes the oldest file of the type even if that
is the one just written. With no file of the type left, the ring never again keeps more than one segment. -/
theorem C33_stale_counter {fs fs' : FS} {es : List FileEntry} {ids : List Nat} {r1 r2 : Nat} {r r' : Ring} (hr : Reach fs es ids)
    (hok : countersOk fs) (hcap : es.length < 2518) (ht : r.typ < 0x4000) (hfull : r.cap ≤ r.segments) (hone : (ofType r.typ es).length ≤ 1)
    (h : r.rotate fs r1 r2 = (.ok r', fs')) :
    ∃ es', lists fs' es' ∧ ofType r.typ es' = [r'.current] ∧ r'.cap ≤ r'.segments ∧ ∀ x ∈ ofType r.typ es, x ∉ es' := by
  obtain ⟨es2, k1, k2, k3, k4, k5, k6, k7, k8⟩ := ring_rotate hr hok hcap ht h
  rw [if_pos (show r.segments ≥ r.cap from hfull)] at k3
  have : (ofType r.typ es).drop 1 = [] := List.drop_eq_nil_of_le hone
  rw [this, List.nil_append] at k3
  refine ⟨es2, k1, k3, by rw [k6, k8]; omega, ?_⟩
  intro x hx hx2
  have hx3 : x ∈ ofType r.typ es2 := by
    unfold ofType at hx ⊢
    exact List.mem_filter.mpr ⟨hx2, (List.mem_filter.mp hx).2⟩
  rw [k3, List.mem_singleton] at hx3
  have := k5 x (List.mem_filter.mp hx).1
  rw [hx3] at this
  exact Nat.lt_irrefl _ this

/-! ### C34 -/

/-- **C34** (finding) Two pairs of loggers share their file types: the GPS logger and the low-G IMU logger. All other names have types of their own. -/
theorem C34_shared_types : FileTypes.gpsTier1 = FileTypes.lowGImuTier1 ∧ FileTypes.gpsTier2 = FileTypes.lowGImuTier2 ∧
    ∀ a ∈ FileTypes.table, ∀ b ∈ FileTypes.table, a.2 = b.2 → a.1 = b.1 ∨
      (a.1, b.1) ∈ [("AVIONICS_GPS_LOGGER_TIER_1", "AVIONICS_LOW_G_IMU_LOGGER_TIER_1"), ("AVIONICS_LOW_G_IMU_LOGGER_TIER_1", "AVIONICS_GPS_LOGGER_TIER_1"),
        ("AVIONICS_GPS_LOGGER_TIER_2", "AVIONICS_LOW_G_IMU_LOGGER_TIER_2"), ("AVIONICS_LOW_G_IMU_LOGGER_TIER_2", "AVIONICS_GPS_LOGGER_TIER_2")] := by
  refine ⟨rfl, rfl, ?_⟩
  decide

/-- **C34** (finding) The consequence: if the chip holds a full ring of low-G IMU segments, starting the GPS logger removes the oldest of them; starting the low-G IMU logger
afterwards removes a further one, and adds its segment to the files the GPS ring counts as its own. -/
theorem C34_loggers_remove_each_other {fs fs1 fs2 : FS} {es : List FileEntry} {ids : List Nat} {r1 r2 r3 r4 : Nat} {gps imu : Ring} (hr : Reach fs es ids)
    (hok : countersOk fs) (hok1 : countersOk fs1) (hcap : es.length < 2517) (hfull : (ofType FileTypes.lowGImuTier1 es).length = FileTypes.tierSegments.1)
    (h1 : Ring.new fs FileTypes.gpsTier1 FileTypes.tierSegments.1 r1 r2 = (.ok gps, fs1))
    (h2 : Ring.new fs1 FileTypes.lowGImuTier1 FileTypes.tierSegments.1 r3 r4 = (.ok imu, fs2)) :
    ∃ es1 es2, lists fs1 es1 ∧ lists fs2 es2 ∧
      ofType FileTypes.lowGImuTier1 es1 = (ofType FileTypes.lowGImuTier1 es).drop 1 ++ [gps.current] ∧
      ofType FileTypes.lowGImuTier1 es2 = (ofType FileTypes.lowGImuTier1 es).drop 2 ++ [gps.current, imu.current] := by
  obtain ⟨es1, a1, a2, a3, a4, a5, a6, a7, a8, a9⟩ := C33_start hr hok (by omega) (by decide) h1
  have e : FileTypes.gpsTier1 = FileTypes.lowGImuTier1 := rfl
  rw [e] at a3 a6 a4
  rw [hfull] at a3
  have hl1 : es1.length < 2518 := by
    have hsplit : ∀ l : List FileEntry, l.length = (ofType FileTypes.lowGImuTier1 l).length + (notOfType FileTypes.lowGImuTier1 l).length := by
      intro l
      unfold ofType notOfType
      induction l with
      | nil => rfl
      | cons x l ih =>
        rw [List.length_cons, ih, List.filter_cons, List.filter_cons]
        by_cases hx : x.typ = FileTypes.lowGImuTier1
        · rw [if_pos (by simp [hx]), if_neg (by simp [hx]), List.length_cons]; omega
        · rw [if_neg (by simp [hx]), if_pos (by simp [hx]), List.length_cons]; omega
    have b1 := hsplit es
    have b2 := hsplit es1
    rw [a4] at b2
    rw [hfull] at b1
    have b3 : FileTypes.tierSegments.1 = 6 := rfl
    rw [a6] at b2
    rw [b3] at a7 b1
    omega
  obtain ⟨es2, b1, b2, b3, b4, b5, b6, b7, b8, b9⟩ := C33_start a2 hok1 hl1 (by decide) h2
  refine ⟨es1, es2, a1, b1, a3, ?_⟩
  have hlen : (ofType FileTypes.lowGImuTier1 es1).length = 6 := by
    rw [a3, List.length_append, List.length_drop, hfull]; rfl
  rw [b3, hlen, a3]
  have hd : (ofType FileTypes.lowGImuTier1 es).length = 6 := hfull
  rw [show 6 + 1 - FileTypes.tierSegments.1 = 1 from rfl, show FileTypes.tierSegments.1 + 1 - FileTypes.tierSegments.1 = 1 from rfl]
  rw [List.drop_append_of_le_length (by rw [List.length_drop, hd]; decide), List.drop_drop, List.append_assoc]
  rfl

/-! ### the hypotheses are met -/

/-- `n` empty files of a type on a chip -/
theorem typed_files (crc : Bytes → UInt32) (typ : Nat) (ht : typ < 0x4000) (n : Nat) (hn : n ≤ 2000) :
    ∃ fs files ids, Sys crc fs files [] ∧ Hist crc fs (files.map (·.k)) ∧ Reach fs (files.map (·.e)) ids ∧ files.length = n ∧ files.flatMap FileSt.own = [] ∧
      (∀ f ∈ files, f.e.typ = typ ∧ f.k.typ = typ ∧ f.k.writer = none) ∧ fs.at'.maxId = n ∧ fs.at'.seq = n + 1 ∧ fs.at'.opened = [] := by
  induction n with
  | zero =>
    obtain ⟨s0, a0, m0⟩ := format_sys crc
    exact ⟨_, [], [], s0, .format _ blank_noheader, .format _ blank_noheader, rfl, rfl, by simp, by rw [a0]; rfl, by rw [a0]; rfl, by rw [a0]; rfl⟩
  | succ n ih =>
    obtain ⟨fs, files, ids, h1, h2, hre, h3, h4, h5, h6, h7, h8⟩ := ih (by omega)
    have ok : countersOk fs := ⟨by rw [h7]; omega, by rw [h6]; omega⟩
    have hl : (files.map (·.e)).length < 2518 := by rw [List.length_map]; omega
    obtain ⟨fs1, c1, c2, c3⟩ := createFile_spec h1.reach.dir typ hl
    obtain ⟨d1, d2, d3⟩ := create_sys h1 c1 (by omega) ht ok
    refine ⟨fs1, _, [fs.at'.maxId + 1] ++ ids, d3, ?_, ?_, by rw [List.length_append, h3]; rfl, ?_, ?_, by rw [c2.maxId, h6], by rw [c2.seq, h7], by rw [d2, h8]⟩
    · rw [List.map_append]
      exact h2.step (.dir (.create typ _ fs1 c1 (by rw [List.length_map]; omega) ht ok))
    · rw [List.map_append]
      exact hre.call (.create typ _ fs1 c1 hl ht) ok
    · rw [List.flatMap_append, h4]; rfl
    · intro f hf
      rcases List.mem_append.mp hf with hf | hf
      · exact h5 f hf
      · rw [List.mem_singleton] at hf; subst hf; exact ⟨rfl, rfl, rfl⟩

theorem ofType_all {typ : Nat} {es : List FileEntry} (h : ∀ e ∈ es, e.typ = typ) : ofType typ es = es := by
  unfold ofType
  rw [List.filter_eq_self]
  intro e he
  simp [h e he]

/-- starting a ring succeeds as long as there is space -/
theorem ring_new_ok {crc : Bytes → UInt32} {fs : FS} {ks : List Known} (h : SysInv crc fs ks) {typ cap : Nat} (r1 r2 : Nat) (hc : 1 ≤ cap)
    (hcap : ks.length < 2518) (ht : typ < 0x4000) (hok : countersOk fs) (hfree : 0 < fs.mng.freeBytes) :
    ∃ r fs' ks', Ring.new fs typ cap r1 r2 = (.ok r, fs') ∧ SysInv crc fs' ks' ∧ ks'.length ≤ ks.length + 1 := by
  obtain ⟨files, leak, hf, hs⟩ := id h
  unfold Ring.new
  rw [hs.reach.dir.filesIter]
  simp only
  rw [if_neg (by omega)]
  generalize (if ((files.map (·.e)).filter fun e => e.typ == typ).length > cap - 1 then (((files.map (·.e)).filter fun e => e.typ == typ).length - cap + 1, cap)
    else (0, ((files.map (·.e)).filter fun e => e.typ == typ).length + 1)) = p
  rcases step_rotate h typ p.1 r1 r2 hcap ht hok with ⟨e, fs', g1, g2⟩ | ⟨_, g2⟩
  · rw [g1]
    refine ⟨_, fs', _, rfl, g2, ?_⟩
    rw [List.length_append, List.length_singleton]
    have := List.length_filter_le (fun k => !oldestKnown typ p.1 ks k) ks
    omega
  · omega

/-- C33, C34: a full ring of six segments, and a ring is started on it -/
example : ∃ fs es ids r fs', Reach fs es ids ∧ countersOk fs ∧ es.length < 2517 ∧ (ofType FileTypes.lowGImuTier1 es).length = FileTypes.tierSegments.1 ∧
    Ring.new fs FileTypes.gpsTier1 FileTypes.tierSegments.1 0 0 = (.ok r, fs') ∧ countersOk fs' ∧ ∃ es' ids', RingRun FileTypes.gpsTier1 6 fs' es' ids' r ∧
      (ofType FileTypes.gpsTier1 es').length = 6 := by
  obtain ⟨fs, files, ids, h1, h2, hre, h3, h4, h5, h6, h7, h8⟩ := typed_files (fun _ => 0) 9 (by decide) 6 (by decide)
  have ok : countersOk fs := ⟨by rw [h7]; decide, by rw [h6]; decide⟩
  have hfree : 0 < fs.mng.freeBytes := by rw [(freeBytes_eq h1.inv).1, h4]; decide
  obtain ⟨r, fs', ks', g1, g2, g3⟩ := ring_new_ok (typ := 9) (cap := 6) (hist_inv h2) 0 0 (by decide) (by rw [List.length_map]; omega) (by decide) ok hfree
  have hall : ofType 9 (files.map (·.e)) = files.map (·.e) := ofType_all (by
    intro e he
    rw [List.mem_map] at he
    obtain ⟨f, hf, rfl⟩ := he
    exact (h5 f hf).1)
  have hlen : (files.map (·.e)).length = 6 := by rw [List.length_map, h3]
  obtain ⟨es', k1, k2, k3, k4, k5, k6, k7, k8, k9⟩ := C33_start hre ok (by omega) (by decide) g1
  have hrun : RingRun FileTypes.gpsTier1 6 fs' es' (r.current.id :: ids) r := .start hre ok (by omega) (by decide) g1 k1
  refine ⟨fs, _, ids, r, fs', hre, ok, by omega, by show (ofType 9 _).length = 6; rw [hall, hlen], g1, ?_, es', _, hrun, ?_⟩
  · unfold Ring.new at g1
    rw [h1.reach.dir.filesIter] at g1
    simp only at g1
    rw [if_neg (by decide)] at g1
    generalize (if ((files.map (·.e)).filter fun e => e.typ == 9).length > 6 - 1 then (((files.map (·.e)).filter fun e => e.typ == 9).length - 6 + 1, 6)
      else (0, ((files.map (·.e)).filter fun e => e.typ == 9).length + 1)) = p at g1
    have hdl := dropFirst_length 9 (files.map (·.e)) p.1
    rcases rotate_spec h1.reach.dir h1.reach.range 9 p.1 0 0 (by omega) with ⟨s, g, _, q1, q2, _⟩ | ⟨er, g, q1⟩
    · rw [q1] at g1
      injection g1 with _ g1
      subst g1
      exact ⟨by rw [q2.seq, h7]; decide, by rw [q2.maxId, h6]; decide⟩
    · rw [q1] at g1; injection g1 with g1 _; exact absurd g1 (by simp)
  · show (ofType 9 es').length = 6
    rw [k3, hall, hlen]
    rw [List.length_append, List.length_drop, hlen]
    rfl

/-- C33_contents: one file is dropped, another one is kept -/
example : ∃ fs ks e fs' k, Hist (fun _ => 0) fs ks ∧ (∀ k ∈ ks, oldestKnown 9 1 ks k = true → k.writer = none) ∧ ks.length < 2518 ∧ countersOk fs ∧
    fs.rotate 9 1 0 0 = (.ok e, fs') ∧ k ∈ ks ∧ oldestKnown 9 1 ks k = false ∧ k.writer = none ∧ k.id ∉ fs.at'.opened ∧ fs.at'.opened.length < 32 := by
  obtain ⟨fs, files, ids, h1, h2, hre, h3, h4, h5, h6, h7, h8⟩ := typed_files (fun _ => 0) 9 (by decide) 2 (by decide)
  have ok : countersOk fs := ⟨by rw [h7]; decide, by rw [h6]; decide⟩
  have hfree : 0 < fs.mng.freeBytes := by rw [(freeBytes_eq h1.inv).1, h4]; decide
  rcases step_rotate (hist_inv h2) 9 1 0 0 (by rw [List.length_map]; omega) (by decide) ok with ⟨e, fs', g1, _⟩ | ⟨_, g⟩
  case inr => omega
  match files, h3 with
  | [f1, f2], _ =>
    have hlt : f1.k.id < f2.k.id := by
      have := h1.reach.dir.sorted
      simp at this
      rw [← (h1.ok f1 (by simp)).id, ← (h1.ok f2 (by simp)).id]; exact this
    refine ⟨fs, _, e, fs', f2.k, h2, ?_, by simp, ok, g1, by simp, ?_, (h5 f2 (by simp)).2.2, by rw [h8]; exact List.not_mem_nil, by rw [h8]; decide⟩
    · intro k hk _
      simp at hk
      rcases hk with rfl | rfl
      · exact (h5 f1 (by simp)).2.2
      · exact (h5 f2 (by simp)).2.2
    · unfold oldestKnown
      simp [(h5 f1 (by simp)).2.1, (h5 f2 (by simp)).2.1, hlt]

theorem ring_rotate_ok {fs fs' : FS} {r : Ring} {t c k r1 r2 : Nat} {e : FileEntry} (h1 : r.typ = t) (h2 : r.cap = c) (h3 : r.segments = k) (h : c ≤ k)
    (hr : fs.rotate t 1 r1 r2 = (.ok e, fs')) : r.rotate fs r1 r2 = (.ok { r with segments := c, current := e, dirty := false, newSegment := true }, fs') := by
  subst h1 h2 h3
  unfold Ring.rotate
  simp only [if_pos (show r.segments ≥ r.cap from h), hr]

/-- C33_stale_counter: a full counter, no file of the type, and the rotation succeeds -/
example : ∃ (fs : FS) (es : List FileEntry) (ids : List Nat) (r r' : Ring) (fs' : FS), Reach fs es ids ∧ countersOk fs ∧ es.length < 2518 ∧ r.typ < 0x4000 ∧ r.cap = 6 ∧ r.segments = 6 ∧
    (ofType r.typ es).length ≤ 1 ∧ r.rotate fs 0 0 = (.ok r', fs') := by
  obtain ⟨fs, files, ids, h1, h2, hre, h3, h4, h5, h6, h7, h8⟩ := typed_files (fun _ => 0) 13 (by decide) 1 (by decide)
  have ok : countersOk fs := ⟨by rw [h7]; decide, by rw [h6]; decide⟩
  have hfree : 0 < fs.mng.freeBytes := by rw [(freeBytes_eq h1.inv).1, h4]; decide
  rcases step_rotate (hist_inv h2) 13 1 0 0 (by rw [List.length_map]; omega) (by decide) ok with ⟨e, fs', g1, _⟩ | ⟨_, g⟩
  case inr => omega
  refine ⟨fs, _, ids, ⟨13, 6, 6, ⟨0, 13, none⟩, true, false⟩, ⟨13, 6, 6, e, false, true⟩, fs', hre, ok, by rw [List.length_map]; omega, (by show 13 < 0x4000; omega), rfl, rfl, ?_, ?_⟩
  · exact Nat.le_trans (List.length_filter_le _ _) (by rw [List.length_map]; omega)
  · exact ring_rotate_ok rfl rfl rfl (Nat.le_refl _) g1

end Verif.Props
