import Verif.Lemmas.SystemHist
import Verif.Lemmas.SystemReopen
import Verif.Lemmas.Witness
/-
Consequences of the invariant used by the properties of files.
-/
namespace Verif.Vlfs
open Verif Verif.Spec

theorem SysInv.file {crc : Bytes → UInt32} {fs : FS} {ks : List Known} (h : SysInv crc fs ks) {k : Known} (hk : k ∈ ks) :
    ∃ files leak f, files.map (·.k) = ks ∧ Sys crc fs files leak ∧ f ∈ files ∧ f.k = k := by
  obtain ⟨files, leak, hf, hs⟩ := h
  rw [← hf] at hk
  obtain ⟨f, hm, rfl⟩ := List.mem_map.mp hk
  exact ⟨files, leak, f, hf, hs, hm, rfl⟩

theorem SysInv.closed {crc : Bytes → UInt32} {fs : FS} {ks : List Known} (h : SysInv crc fs ks) {k : Known} (hk : k ∈ ks)
    (hw : k.writer = none) (hdm : k.damaged = false) : ∃ pre, pre <+: k.maybe ∧ (∃ n, fs.getFileSize k.id = .ok ((k.data ++ pre).length, n)) ∧
      (k.id ∉ fs.at'.opened → fs.at'.opened.length < 32 → ReadsAs crc fs k.id (k.data ++ pre)) := by
  obtain ⟨files, leak, f, hf, hs, hm, rfl⟩ := h.file hk
  have hfo := hs.ok f hm
  obtain ⟨h1, pre, h2, h3⟩ := hfo.closed hw hdm
  refine ⟨pre, h2, ?_, ?_⟩
  · obtain ⟨j, hj⟩ := hs.find hm
    unfold FS.getFileSize
    rw [hj]
    simp only
    obtain ⟨d1, d2⟩ := hs.own_data hm
    have hown : f.own = secs f.segs := by unfold FileSt.own; rw [hw]
    rw [hown] at d1 d2
    have hl := data_length d1 d2
    unfold secs at hl
    rw [List.length_map] at hl
    have e : SECTORS_COUNT = 16384 := rfl
    rw [h1.size _ _ _ (by rw [e]; omega), h3, Nat.zero_add]
    exact ⟨_, rfl⟩
  · intro hno hlen
    rcases openRead_spec hs hm with ⟨k1, _⟩ | ⟨k1, _⟩ | ⟨_, _, k3⟩
    · exact absurd k1 hno
    · omega
    · refine ⟨_, _, k3, fun ns => ?_⟩
      rw [closed_reads hs hm hw hdm, h3]

theorem SysInv.openSize {crc : Bytes → UInt32} {fs : FS} {ks : List Known} (h : SysInv crc fs ks) {k : Known} (hk : k ∈ ks)
    {w : FileWriter} (hw : k.writer = some w) : ∃ c n, fs.getFileSize k.id = .ok (c.length, n) ∧ k.durable <+: c ∧ c <+: k.data ++ k.maybe := by
  obtain ⟨files, leak, f, hf, hs, hm, rfl⟩ := h.file hk
  have hfo := hs.ok f hm
  obtain ⟨_, ⟨first, h1, h2⟩, h3, h4, p, h5, h6⟩ := hfo.open' w hw
  obtain ⟨j, hj⟩ := hs.find hm
  have hst := stored_open h2 (fun _ _ _ _ => rfl) h3.fields
  unfold FS.getFileSize
  rw [hj]
  simp only
  obtain ⟨d1, d2⟩ := hs.own_data hm
  have hown : f.own = secs f.segs ++ [w.sector] := by unfold FileSt.own; rw [hw]
  rw [hown] at d1 d2
  have hl := data_length d1 d2
  unfold secs at hl
  rw [List.length_append, List.length_map, List.length_singleton] at hl
  have e : SECTORS_COUNT = 16384 := rfl
  rw [h1, hst.size _ _ _ (by rw [e, List.length_append, List.length_singleton]; omega), Nat.zero_add, bytesOf_open]
  refine ⟨_, _, rfl, h4, ?_⟩
  have : bytesOf f.segs <+: f.k.data ++ p := by rw [← h6]; exact List.prefix_append _ _
  refine this.trans ?_
  exact (List.prefix_append_right_inj _).mpr h5

theorem SysInv.durable {crc : Bytes → UInt32} {fs : FS} {ks : List Known} (h : SysInv crc fs ks) {k : Known} (hk : k ∈ ks)
    {w : FileWriter} (hw : k.writer = some w) : k.durable <+: k.data ++ k.maybe ∧ w.id = k.id := by
  obtain ⟨c, n, _, h1, h2⟩ := h.openSize hk hw
  obtain ⟨files, leak, f, hf, hs, hm, rfl⟩ := h.file hk
  exact ⟨h1.trans h2, ((hs.ok f hm).open' w hw).1⟩

/-- a file that is being written is not damaged -/
theorem SysInv.whole {crc : Bytes → UInt32} {fs : FS} {ks : List Known} (h : SysInv crc fs ks) {k : Known} (hk : k ∈ ks)
    {w : FileWriter} (hw : k.writer = some w) : k.damaged = false := by
  obtain ⟨files, leak, f, hf, hs, hm, rfl⟩ := h.file hk
  exact (hs.ok f hm).whole (by rw [hw]; rfl)

theorem afterLoss_damaged (k : Known) : k.afterLoss.damaged = k.damaged := by
  unfold Known.afterLoss
  cases h : k.writer <;> simp

/-- reading a file after a restart -/
theorem SysInv.afterLoss {crc : Bytes → UInt32} {fs : FS} {ks : List Known} (h : SysInv crc fs (ks.map Known.afterLoss)) (ho : fs.at'.opened = [])
    {k : Known} (hk : k ∈ ks) (hdm : k.damaged = false) : (k.writer = none → ∃ pre, pre <+: k.maybe ∧ ReadsAs crc fs k.id (k.data ++ pre)) ∧
      (k.writer.isSome = true → k.durable <+: k.data ++ k.maybe → ∃ c, k.durable <+: c ∧ c <+: k.data ++ k.maybe ∧ ReadsAs crc fs k.id c) := by
  have hm : k.afterLoss ∈ ks.map Known.afterLoss := List.mem_map.mpr ⟨k, hk, rfl⟩
  obtain ⟨pre, h1, _, h2⟩ := h.closed hm (afterLoss_writer k) (by rw [afterLoss_damaged]; exact hdm)
  have h2 := h2 (by rw [ho]; exact List.not_mem_nil) (by rw [ho]; decide)
  rw [(afterLoss_id k).1] at h2
  constructor
  · intro hw
    simp only [Known.afterLoss, hw] at h1 h2
    exact ⟨pre, h1, h2⟩
  · intro hw hd
    obtain ⟨w, hw⟩ := Option.isSome_iff_exists.mp hw
    simp only [Known.afterLoss, hw] at h1 h2
    refine ⟨_, List.prefix_append _ _, ?_, h2⟩
    obtain ⟨t, ht⟩ := hd
    rw [← ht, List.drop_left] at h1
    rw [← ht]
    exact (List.prefix_append_right_inj _).mpr h1

/-- running a list of operations of a writer -/
theorem runWriter_hist {crc : Bytes → UInt32} : ∀ {ops : List WriterOp} {fs fs' : FS} {w w' : FileWriter} {a b : List Known} {k : Known},
    Hist crc fs (a ++ k :: b) → k.writer = some w → k.maybe = [] → runWriter crc fs w ops = (.ok (), w', fs') →
    ∃ dur, k.durable <+: dur ∧ Hist crc fs' (a ++ { k with data := k.data ++ writtenBytes ops, durable := dur, writer := some w' } :: b) ∧
      fs'.at'.opened = fs.at'.opened := by
  intro ops
  induction ops with
  | nil =>
    intro fs fs' w w' a b k hr hw hm h
    simp only [runWriter] at h
    injection h with _ h
    injection h with h1 h2
    subst h1 h2
    refine ⟨k.durable, List.prefix_refl _, ?_, rfl⟩
    obtain ⟨_, _, _, _, _, _, _⟩ := k
    simp only [writtenBytes, List.append_nil]
    simp only at hw
    subst hw
    exact hr
  | cons op ops ih =>
    intro fs fs' w w' a b k hr hw hm h
    cases op with
    | write rng slice =>
      simp only [runWriter] at h
      split at h
      · rename_i w1 fs1 h1
        have hr' := hr.step (.extend rng slice w w1 fs1 a b k rfl hw hm h1)
        obtain ⟨dur, g1, g2, g3⟩ := ih hr' rfl hm h
        refine ⟨dur, g1, ?_, ?_⟩
        · simp only [writtenBytes]
          rw [← List.append_assoc]; exact g2
        · rw [g3]
          have := congrArg (fun r => r.2.2.at'.opened) h1
          exact this.symm
      · rename_i hne
        exact absurd h (hne _ _)
    | flush r1 r2 =>
      simp only [runWriter] at h
      split at h
      · rename_i w1 fs1 h1
        have hd : k.durable <+: k.data := by
          have := (SysInv.durable (hist_inv hr) (k := k) (by simp) hw).1
          rwa [hm, List.append_nil] at this
        have hr' := hr.step (.flush r1 r2 w w1 fs1 a b k rfl hw h1)
        obtain ⟨dur, g1, g2, g3⟩ := ih hr' rfl hm h
        refine ⟨dur, hd.trans g1, g2, ?_⟩
        · rw [g3]
          have := congrArg (fun r => r.2.2.at'.opened) h1
          exact this.symm
      · rename_i hne
        exact absurd h (hne _ _)

theorem mem_of_swapRemove {l : List Nat} {k x : Nat} (hx : x ∈ swapRemove l k) : x ∈ l := by
  unfold swapRemove at hx
  split at hx
  · exact hx
  · rename_i y hy
    have hy : y ∈ l := List.mem_of_getLast? hy
    have hx := List.dropLast_subset _ hx
    rcases List.mem_or_eq_of_mem_set hx with h | rfl
    · exact h
    · exact hy

theorem mem_of_markClosed {fs : FS} {id x : Nat} (hx : x ∈ (fs.markClosed id).at'.opened) : x ∈ fs.at'.opened := by
  unfold FS.markClosed at hx
  split at hx
  · exact hx
  · exact mem_of_swapRemove hx

theorem openWrite_maxId {crc : Bytes → UInt32} {fs : FS} {files : List FileSt} {leak : List Nat} (hs : Sys crc fs files leak) (id : Nat) (rng : Nat → Nat) :
    (fs.openForWrite id rng).2.at'.maxId = fs.at'.maxId := by
  unfold FS.openForWrite
  split
  · rfl
  · rfl
  · split
    · rfl
    · by_cases hlen : fs.at'.opened.length < 32
      case neg => rw [markOpened_err hlen]
      rw [markOpened_ok hlen]
      simp only
      have hs1 : Sys crc { fs with at' := { fs.at' with opened := fs.at'.opened ++ [id] } } files leak :=
        hs.opened rfl rfl rfl rfl rfl rfl (fun g _ _ _ hg => List.mem_append_left _ hg)
      rcases hs1.claim (rng 0) (rng 1) with ⟨new, c1, c2, _⟩ | ⟨c1, _⟩
      case inr =>
        have c1 : fs.mng.claim (rng 0) (rng 1) fs.dev = (.error .deviceFull, fs.mng, fs.dev) := c1
        rw [c1]
      have c1 : (fs.mng.claim (rng 0) (rng 1) fs.dev).1 = .ok new := c1
      have c2 : Sys crc ⟨{ fs.at' with opened := fs.at'.opened ++ [id] }, (fs.mng.claim (rng 0) (rng 1) fs.dev).2.1,
        (fs.mng.claim (rng 0) (rng 1) fs.dev).2.2⟩ files (new :: leak) := c2
      generalize fs.mng.claim (rng 0) (rng 1) fs.dev = r at c1 c2
      obtain ⟨r0, m, d⟩ := r
      simp only at c1 c2
      subst c1
      simp only
      split
      · split
        · rfl
        · split <;> rfl
      · rcases setFirstSector_spec c2.reach.dir id (some new) with ⟨_, fs2, g, g1, _⟩ | ⟨_, g⟩
        · rw [g]; exact g1.maxId
        · rw [g]

/-- how a step changes the list of open files, and the highest id -/
theorem step_opened {crc : Bytes → UInt32} {fs fs' : FS} {ks ks' : List Known} (hr : Hist crc fs ks) (hs : Step crc fs ks fs' ks') :
    fs.at'.maxId ≤ fs'.at'.maxId ∧ (∀ x ∈ fs'.at'.opened, x ∈ fs.at'.opened ∨ ∃ k ∈ ks, k.id = x) ∧
    (∀ x ∈ fs.at'.opened, x ∈ fs'.at'.opened ∨ (∃ w, fs' = fs.closeWriter crc w ∧ w.id = x) ∨ ∃ r, fs' = fs.closeReader r ∧ r.id = x) := by
  have inv := hist_inv hr
  obtain ⟨files, leak, hf, hsys⟩ := id inv
  subst hf
  have viaCall : ∀ {fs' es' new}, Call fs (files.map (·.e)) fs' es' new → countersOk fs →
      fs.at'.maxId ≤ fs'.at'.maxId ∧ fs'.at'.opened = fs.at'.opened := by
    intro fs' es' new hc hok
    obtain ⟨m, h1, h2, h3, h4, h5, h6⟩ := call_rewrite hsys.reach hc hok
    exact ⟨by rw [h1.maxId]; exact h5, h1.opened⟩
  have same : fs.at'.maxId ≤ fs.at'.maxId ∧ (∀ x ∈ fs.at'.opened, x ∈ fs.at'.opened ∨ ∃ k ∈ files.map (·.k), k.id = x) ∧
    (∀ x ∈ fs.at'.opened, x ∈ fs.at'.opened ∨ (∃ w, fs = fs.closeWriter crc w ∧ w.id = x) ∨ ∃ r, fs = fs.closeReader r ∧ r.id = x) :=
    ⟨Nat.le_refl _, fun x hx => .inl hx, fun x hx => .inl hx⟩
  have opens : ∀ {fs' : FS} (k : Known), k ∈ files.map (·.k) → fs.at'.maxId ≤ fs'.at'.maxId → fs'.at'.opened = fs.at'.opened ++ [k.id] →
    fs.at'.maxId ≤ fs'.at'.maxId ∧ (∀ x ∈ fs'.at'.opened, x ∈ fs.at'.opened ∨ ∃ k ∈ files.map (·.k), k.id = x) ∧
    (∀ x ∈ fs.at'.opened, x ∈ fs'.at'.opened ∨ (∃ w, fs' = fs.closeWriter crc w ∧ w.id = x) ∨ ∃ r, fs' = fs.closeReader r ∧ r.id = x) := by
    intro fs' k hk h1 h2
    rw [h2]
    refine ⟨h1, fun x hx => ?_, fun x hx => .inl (List.mem_append_left _ hx)⟩
    rcases List.mem_append.mp hx with hx | hx
    · exact .inl hx
    · rw [List.mem_singleton] at hx
      exact .inr ⟨k, hk, hx.symm⟩
  cases hs with
  | dir h =>
    have hok := (dirStep_inv inv h).2.2
    obtain ⟨es', new, hc⟩ := dirStep_call hsys h
    obtain ⟨h1, h2⟩ := viaCall hc hok
    exact ⟨h1, fun x hx => .inl (h2 ▸ hx), fun x hx => .inl (h2 ▸ hx)⟩
  | createOpen typ r1 r2 e fs' h hcap ht hok =>
    obtain ⟨h1, h2⟩ := viaCall (.createOpen typ r1 r2 e fs' h (by rw [List.length_map] at hcap ⊢; exact hcap) ht) hok
    exact ⟨h1, fun x hx => .inl (h2 ▸ hx), fun x hx => .inl (h2 ▸ hx)⟩
  | rotate typ n r1 r2 e fs' h hw hcap ht hok =>
    have hlen : ((files.map (·.e)).filter fun x => !amongOldest typ n (files.map (·.e)) x).length < 2518 := by
      refine Nat.lt_of_le_of_lt (List.length_filter_le _ _) ?_
      rw [List.length_map] at hcap ⊢; exact hcap
    obtain ⟨h1, h2⟩ := viaCall (.rotate typ n r1 r2 e fs' h hlen ht) hok
    exact ⟨h1, fun x hx => .inl (h2 ▸ hx), fun x hx => .inl (h2 ▸ hx)⟩
  | openWrite id rng w fs' a b k hk hid hw hdm h hok =>
    subst hid
    have e := openWrite_maxId hsys k.id rng
    rw [h] at e
    rcases step_openWrite inv hk hw hdm hok rng with ⟨_, g⟩ | ⟨_, g⟩ | ⟨_, fs2, g, _⟩ | ⟨_, _, w', fs2, g, g1, _⟩
    · rw [g] at h; injection h with h _; exact absurd h (by simp)
    · rw [g] at h; injection h with h _; exact absurd h (by simp)
    · rw [g] at h; injection h with h _; exact absurd h (by simp)
    · rw [g] at h
      injection h with _ h
      subst h
      exact opens _ (by rw [hk]; simp) (Nat.le_of_eq e.symm) g1
  | openWriteErr id rng er fs' hsafe hdm h hok =>
    have e := openWrite_maxId hsys id rng
    rw [h] at e
    by_cases hex : ∃ k ∈ files.map (·.k), k.id = id
    · obtain ⟨k, hk, rfl⟩ := hex
      cases hw : k.writer with
      | some w =>
        obtain ⟨_, g1, _⟩ := guarded_inUse inv hk (by rw [hw]; rfl) (hsafe k hk rfl (by rw [hw]; rfl))
        rw [g1 rng] at h
        injection h with _ h
        rw [← h]; exact same
      | none =>
        obtain ⟨a, b, hab⟩ := List.append_of_mem hk
        rcases step_openWrite inv hab hw (hdm k hk rfl) hok rng with ⟨_, g⟩ | ⟨_, g⟩ | ⟨_, fs2, g, g1, _⟩ | ⟨_, _, w', fs2, g, _⟩
        · rw [g] at h; injection h with _ h; rw [← h]; exact same
        · rw [g] at h; injection h with _ h; rw [← h]; exact same
        · rw [g] at h
          injection h with _ h
          subst h
          exact opens _ hk (Nat.le_of_eq e.symm) g1
        · rw [g] at h; injection h with h _; exact absurd h (by simp)
    · rw [step_openWrite_missing inv (fun k hk he => hex ⟨k, hk, he⟩)] at h
      injection h with _ h
      rw [← h]; exact same
  | extend rng slice w w' fs' a b k hk hw hm h =>
    have e : fs'.at' = fs.at' := (congrArg (fun r => r.2.2.at') h).symm
    exact ⟨by rw [e], fun x hx => .inl (e ▸ hx), fun x hx => .inl (e ▸ hx)⟩
  | extendErr rng slice er w w' fs' a b k hk hw hm h =>
    have e : fs'.at' = fs.at' := (congrArg (fun r => r.2.2.at') h).symm
    exact ⟨by rw [e], fun x hx => .inl (e ▸ hx), fun x hx => .inl (e ▸ hx)⟩
  | flush r1 r2 w w' fs' a b k hk hw h =>
    have e : fs'.at' = fs.at' := (congrArg (fun r => r.2.2.at') h).symm
    exact ⟨by rw [e], fun x hx => .inl (e ▸ hx), fun x hx => .inl (e ▸ hx)⟩
  | flushErr r1 r2 er w w' fs' a b k hk hw h =>
    have e : fs'.at' = fs.at' := (congrArg (fun r => r.2.2.at') h).symm
    exact ⟨by rw [e], fun x hx => .inl (e ▸ hx), fun x hx => .inl (e ▸ hx)⟩
  | close w a b k hk hw =>
    unfold FS.closeWriter
    refine ⟨by rw [(markClosed_fields _ _).2.2.2.2.1], fun x hx => .inl (mem_of_markClosed (fs := { fs with dev := w.close crc fs.dev }) hx), fun x hx => ?_⟩
    by_cases he : w.id = x
    · exact .inr (.inl ⟨w, rfl, he⟩)
    · exact .inl (markClosed_mem (fun h => he h.symm) hx)
  | openRead id =>
    by_cases hex : ∃ f ∈ files, f.k.id = id
    · obtain ⟨f, hm, rfl⟩ := hex
      rcases openRead_spec hsys hm with ⟨_, g⟩ | ⟨_, g⟩ | ⟨_, _, g⟩ <;> rw [g]
      · exact ⟨Nat.le_refl _, fun x hx => .inl hx, fun x hx => .inl hx⟩
      · exact ⟨Nat.le_refl _, fun x hx => .inl hx, fun x hx => .inl hx⟩
      · refine ⟨Nat.le_refl _, fun x hx => ?_, fun x hx => .inl (List.mem_append_left _ hx)⟩
        rcases List.mem_append.mp hx with hx | hx
        · exact .inl hx
        · rw [List.mem_singleton] at hx
          exact .inr ⟨f.k, List.mem_map.mpr ⟨f, hm, rfl⟩, hx.symm⟩
    · have : (fs.openForRead id).2 = fs := by
        unfold FS.openForRead
        rw [hsys.find_none (fun f hm he => hex ⟨f, hm, he⟩)]
      rw [this]
      exact ⟨Nat.le_refl _, fun x hx => .inl hx, fun x hx => .inl hx⟩
  | closeRead r hs =>
    unfold FS.closeReader
    refine ⟨by rw [(markClosed_fields _ _).2.2.2.2.1], fun x hx => .inl (mem_of_markClosed hx), fun x hx => ?_⟩
    by_cases he : r.id = x
    · exact .inr (.inr ⟨r, rfl, he⟩)
    · exact .inl (markClosed_mem (fun h => he h.symm) hx)
  | learn c a b k hk hw r fs' ho n hn hr => exact ⟨Nat.le_refl _, fun x hx => .inl hx, fun x hx => .inl hx⟩

theorem readLatest_opened (fl : Flash) (at' : AT) : (readLatest fl at').1.opened = at'.opened := by
  unfold readLatest
  have step : ∀ st q, (readLatestStep fl st q).1.opened = st.1.opened := by
    intro st q
    unfold readLatestStep
    split
    · rfl
    · split <;> rfl
  have : ∀ (l : List Nat) (st : AT × Bool), (l.foldl (readLatestStep fl) st).1.opened = st.1.opened := by
    intro l
    induction l with
    | nil => intro st; rfl
    | cons q l ih => intro st; rw [List.foldl_cons, ih, step]
  exact this _ _

theorem mount_opened {fl : Flash} {r : Except Err Unit} {fs : FS} (h : FS.mount fl = (r, fs)) : fs.at'.opened = [] := by
  have e := readLatest_opened fl AT.default
  have : (FS.mount fl).2.at' = (readLatest fl AT.default).1 := by
    unfold FS.mount
    generalize readLatest fl AT.default = r
    obtain ⟨at', b⟩ := r
    cases b with
    | false => rfl
    | true =>
      simp only [if_true]
      split
      · rfl
      · split <;> rfl
  rw [h] at this
  simp only at this
  rw [this, e]; rfl

/-- ids of existing files and of files marked open are at most the highest id -/
theorem hist_openIds {crc : Bytes → UInt32} {fs : FS} {ks : List Known} (h : Hist crc fs ks) :
    ∀ x ∈ fs.at'.opened, x ≤ fs.at'.maxId := by
  induction h with
  | format fl h =>
    rw [(format_inv fl h).1]
    intro x hx
    exact absurd hx List.not_mem_nil
  | step hr hs ih =>
    obtain ⟨h1, h2, _⟩ := step_opened hr hs
    intro x hx
    rcases h2 x hx with h | ⟨k, hk, rfl⟩
    · exact Nat.le_trans (ih x h) h1
    · obtain ⟨files, leak, f, _, hsys, hm, rfl⟩ := (hist_inv hr).file hk
      have := hsys.reach.dir.maxId f.e (List.mem_map.mpr ⟨f, hm, rfl⟩)
      rw [(hsys.ok f hm).id] at this
      omega
  | restart hr hm ih =>
    obtain ⟨fs2, g1, _, g2, _⟩ := step_restart (hist_inv hr)
    rw [hm] at g1
    injection g1 with _ g1
    subst g1
    rw [g2]; intro x hx; exact absurd hx List.not_mem_nil
  | loss hr hl hm ih =>
    obtain ⟨fs2, g1, _, g2, _⟩ := step_loss (hist_inv hr) hl
    rw [hm] at g1
    injection g1 with _ g1
    subst g1
    rw [g2]; intro x hx; exact absurd hx List.not_mem_nil
  | lossDir hr hs hi hl hfit hp hm hlist hx hids ih =>
    have := mount_opened hm
    rw [this]; intro x hx; exact absurd hx List.not_mem_nil
  | lossAlloc hr hs hi hl hfit hp hm hlist hx hids ih =>
    have := mount_opened hm
    rw [this]; intro x hx; exact absurd hx List.not_mem_nil
  | lossRotate hr typ n r1 r2 e h hw hcap ht hok hi hl hfit hp hm hlist hx hids ih =>
    have := mount_opened hm
    rw [this]; intro x hx; exact absurd hx List.not_mem_nil

end Verif.Vlfs
