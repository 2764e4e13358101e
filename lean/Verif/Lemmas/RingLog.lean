import Verif.Lemmas.Recording
import Verif.Spec.RingLog
/-
What holds of a ring of sensor logs at every point.
-/
namespace Verif.RingLog
open Verif Verif.Vlfs Verif.Spec Verif.Bit Verif.Delta Verif.Log Verif.LogFile

variable {TS TD D DD : Type}

/-! ### lists of files -/

theorem ids_sorted {crc : Bytes → UInt32} {fs : FS} {ks : List Known} (h : SysInv crc fs ks) : ks.Pairwise fun a b => a.id < b.id := by
  obtain ⟨files, leak, hf, hs⟩ := h
  rw [← hf, List.pairwise_map]
  have hsort := hs.reach.dir.sorted
  rw [List.pairwise_map] at hsort
  refine hsort.imp_of_mem ?_
  intro a b ha hb hab
  rw [← (hs.ok a ha).id, ← (hs.ok b hb).id]
  exact hab

theorem sorted_oldest {L : List Known} (h : L.Pairwise fun a b => a.id < b.id) (n : Nat) :
    (∀ x ∈ L.take n, (L.filter fun y => decide (y.id < x.id)).length < n) ∧ (∀ x ∈ L.drop n, n ≤ (L.filter fun y => decide (y.id < x.id)).length) := by
  have hs := h
  rw [← List.take_append_drop n L, List.pairwise_append] at hs
  obtain ⟨h1, h2, h3⟩ := hs
  have hsplit : ∀ p : Known → Bool, L.filter p = (L.take n).filter p ++ (L.drop n).filter p := fun p => by rw [← List.filter_append, List.take_append_drop]
  constructor
  · intro x hx
    rw [hsplit, List.length_append]
    have e2 : (L.drop n).filter (fun y => decide (y.id < x.id)) = [] := by
      rw [List.filter_eq_nil_iff]
      intro y hy
      have := h3 x hx y hy
      simp; omega
    have e1 : ((L.take n).filter fun y => decide (y.id < x.id)).length < (L.take n).length :=
      List.length_filter_lt_length_iff_exists.mpr ⟨x, hx, by simp⟩
    have := List.length_take_le n L
    rw [e2, List.length_nil]; omega
  · intro x hx
    rw [hsplit, List.length_append]
    have e1 : (L.take n).filter (fun y => decide (y.id < x.id)) = L.take n := by
      rw [List.filter_eq_self]
      intro y hy
      have := h3 y hy x hx
      simpa using this
    have : n < L.length := by
      have := List.length_pos_of_mem hx
      rw [List.length_drop] at this; omega
    rw [e1, List.length_take]; omega

theorem oldest_iff (typ n : Nat) (ks : List Known) (k : Known) :
    oldestKnown typ n ks k = (k.typ == typ && decide (((ofKind typ ks).filter fun y => decide (y.id < k.id)).length < n)) := by
  unfold oldestKnown ofKind
  rw [List.filter_filter]
  congr 4
  exact List.filter_congr fun x _ => Bool.and_comm _ _

/-- which files of the type are left when the oldest `n` are dropped -/
theorem ofKind_dropped {typ n : Nat} {ks : List Known} (h : ks.Pairwise fun a b => a.id < b.id) :
    ofKind typ (ks.filter fun k => !oldestKnown typ n ks k) = (ofKind typ ks).drop n := by
  have hL : (ofKind typ ks).Pairwise fun a b => a.id < b.id := h.filter _
  obtain ⟨h1, h2⟩ := sorted_oldest hL n
  have e : ofKind typ (ks.filter fun k => !oldestKnown typ n ks k) = (ofKind typ ks).filter fun k => !decide (((ofKind typ ks).filter fun y => decide (y.id < k.id)).length < n) := by
    conv => lhs; unfold ofKind
    rw [List.filter_filter]
    conv => rhs; unfold ofKind
    rw [List.filter_filter]
    refine List.filter_congr fun x hx => ?_
    rw [oldest_iff]
    cases hx : (x.typ == typ) <;> simp [ofKind]
  rw [e]
  generalize ofKind typ ks = L at h1 h2
  conv => lhs; arg 2; rw [← List.take_append_drop n L]
  rw [List.filter_append]
  have a1 : (L.take n).filter (fun k => !decide ((L.filter fun y => decide (y.id < k.id)).length < n)) = [] := by
    rw [List.filter_eq_nil_iff]
    intro x hx
    have := h1 x hx
    simp [this]
  have a2 : (L.drop n).filter (fun k => !decide ((L.filter fun y => decide (y.id < k.id)).length < n)) = L.drop n := by
    rw [List.filter_eq_self]
    intro x hx
    have := h2 x hx
    simp; omega
  rw [a1, a2, List.nil_append]

/-- … and which are dropped -/
theorem dropped_mem {typ n : Nat} {ks : List Known} (h : ks.Pairwise fun a b => a.id < b.id) {k : Known} (hk : k ∈ ks) (ho : oldestKnown typ n ks k = true) :
    k ∈ (ofKind typ ks).take n := by
  have hL : (ofKind typ ks).Pairwise fun a b => a.id < b.id := h.filter _
  obtain ⟨h1, h2⟩ := sorted_oldest hL n
  rw [oldest_iff, Bool.and_eq_true, decide_eq_true_iff] at ho
  have hm : k ∈ ofKind typ ks := List.mem_filter.mpr ⟨hk, ho.1⟩
  rw [← List.take_append_drop n (ofKind typ ks)] at hm
  rcases List.mem_append.mp hm with hm | hm
  · exact hm
  · have := h2 k hm; omega

theorem ofKind_rotated {typ n : Nat} {w : FileWriter} {ks : List Known} (h : ks.Pairwise fun a b => a.id < b.id) :
    ofKind typ (rotated typ n w ks) = (ofKind typ ks).drop n ++ [⟨w.id, typ, [], [], [], some w, false, false⟩] := by
  unfold rotated
  have : ∀ a b, ofKind typ (a ++ b) = ofKind typ a ++ ofKind typ b := fun a b => List.filter_append ..
  rw [this, ofKind_dropped h]
  congr 1
  simp [ofKind]

/-- a file of the type is changed -/
theorem ofKind_map {typ : Nat} {ks A B : List Known} {k : Known} (h : ks.Pairwise fun a b => a.id ≠ b.id) (hk : ofKind typ ks = A ++ k :: B) (f : Known → Known) (hf : ∀ x, (f x).typ = x.typ) :
    ofKind typ (ks.map fun x => if x.id = k.id then f x else x) = A ++ f k :: B := by
  have e : ofKind typ (ks.map fun x => if x.id = k.id then f x else x) = (ofKind typ ks).map fun x => if x.id = k.id then f x else x := by
    unfold ofKind
    rw [List.filter_map]
    congr 1
    refine List.filter_congr fun x _ => ?_
    simp only [Function.comp]
    split
    · rw [hf]
    · rfl
  have hp : (ofKind typ ks).Pairwise fun a b => a.id ≠ b.id := h.filter _
  rw [e]
  rw [hk] at hp ⊢
  exact map_file hp f

theorem same_file {l : List Known} (h : l.Pairwise fun a b => a.id ≠ b.id) {x y : Known} (hx : x ∈ l) (hy : y ∈ l) (he : x.id = y.id) : x = y := by
  induction l with
  | nil => simp at hx
  | cons a l ih =>
    rw [List.pairwise_cons] at h
    rcases List.mem_cons.mp hx with hx | hx <;> rcases List.mem_cons.mp hy with hy | hy
    · rw [hx, hy]
    · exact absurd (by rw [← he, hx]) (h.1 y hy)
    · exact absurd (by rw [he, hy]) (h.1 x hx)
    · exact ih h.2 hx hy

/-! ### the invariant -/

/-- a segment that is being written -/
structure Act (c : Cfg TS TD D DD) (h : Half TS D) (g : Segment TS D) (k : Known) : Prop where
  run : Run c h.l g.inputs g.entries
  id : k.id = g.id
  writer : k.writer = some h.w
  maybe : k.maybe = []
  data : k.data = h.l.sink
  durable : ∃ l0, WInv c l0 g.safe ∧ l0.w.len = 0 ∧ l0.sink <+: k.durable
  le : g.safe <+: g.entries

/-- a segment that was closed -/
structure Fin (c : Cfg TS TD D DD) (g : Segment TS D) (k : Known) : Prop where
  id : k.id = g.id
  writer : k.writer = none
  whole : k.damaged = false
  maybe : k.maybe = []
  data : ∃ l0 l', WInv c l0 g.safe ∧ l0.w.len = 0 ∧ l0.sink <+: k.data ∧ WInv c l' g.entries ∧ k.data <+: l'.sink
  safe : g.safe = g.entries
  run : ∃ l, Run c l g.inputs g.entries

/-- the loggers in use -/
def Parts (c : Cfg TS TD D DD) (cur old : Option (Half TS D)) (act : List (Segment TS D)) (actK : List Known) : Prop :=
  match cur, old with
  | none, none => act = [] ∧ actK = []
  | some h, none => ∃ g k, act = [g] ∧ actK = [k] ∧ Act c h g k
  | some h, some o => ∃ go g ko k, act = [go, g] ∧ actK = [ko, k] ∧ Act c o go ko ∧ Act c h g k
  | none, some _ => False

/-- the new file that is not in use yet -/
def NextK (next : Option FileWriter) (nk : List Known) : Prop :=
  match next with
  | none => nk = []
  | some w => ∃ k, nk = [k] ∧ k.id = w.id ∧ k.writer = some w ∧ k.data = [] ∧ k.maybe = []

structure Files (c : Cfg TS TD D DD) (s : St TS D) (fks : List Known) (segs : List (Segment TS D)) (olds : List Known) (gone fin act : List (Segment TS D)) (finK actK nextK : List Known) : Prop where
  split : segs = gone ++ fin ++ act
  files : fks = olds ++ finK ++ actK ++ nextK
  closed : ∀ k ∈ olds, k.writer = none
  full : gone ≠ [] → olds = []
  done : List.Forall₂ (Fin c) fin finK
  parts : Parts c s.cur s.old act actK
  next : NextK s.next nextK
  count : fks.length = if s.next.isSome ∨ s.old.isSome then s.plan.2 else s.segments
  room : gone ≠ [] → s.cap ≤ s.segments

structure RInv (crc : Bytes → UInt32) (c : Cfg TS TD D DD) (typ cap : Nat) (s : St TS D) (ks : List Known) (segs : List (Segment TS D)) : Prop where
  hist : Hist crc s.fs ks
  typEq : s.typ = typ
  capEq : s.cap = cap
  two : 2 ≤ cap
  small : typ < 0x4000
  seg : s.segments ≤ cap
  order : s.next.isSome = true → s.old = none
  files : ∃ olds gone fin act finK actK nextK, Files c s (ofKind typ ks) segs olds gone fin act finK actK nextK

theorem parts_cur {c : Cfg TS TD D DD} {h : Half TS D} {old : Option (Half TS D)} {act : List (Segment TS D)} {actK : List Known} (hp : Parts c (some h) old act actK) :
    ∃ pa pk g k, act = pa ++ [g] ∧ actK = pk ++ [k] ∧ Act c h g k ∧ ∀ h' g' k', Act c h' g' k' → Parts c (some h') old (pa ++ [g']) (pk ++ [k']) := by
  cases old with
  | none =>
    obtain ⟨g, k, h1, h2, h3⟩ := hp
    exact ⟨[], [], g, k, h1, h2, h3, fun h' g' k' ha => ⟨g', k', rfl, rfl, ha⟩⟩
  | some o =>
    obtain ⟨go, g, ko, k, h1, h2, h3, h4⟩ := hp
    exact ⟨[go], [ko], g, k, h1, h2, h4, fun h' g' k' ha => ⟨go, g', ko, k', rfl, rfl, h3, ha⟩⟩

theorem parts_old {c : Cfg TS TD D DD} {o : Half TS D} {cur : Option (Half TS D)} {act : List (Segment TS D)} {actK : List Known} (hp : Parts c cur (some o) act actK) :
    ∃ h go g ko k, cur = some h ∧ act = [go, g] ∧ actK = [ko, k] ∧ Act c o go ko ∧ Act c h g k := by
  cases cur with
  | none => exact hp.elim
  | some h =>
    obtain ⟨go, g, ko, k, h1, h2, h3, h4⟩ := hp
    exact ⟨h, go, g, ko, k, rfl, h1, h2, h3, h4⟩

theorem Act.recInv {crc : Bytes → UInt32} {c : Cfg TS TD D DD} {h : Half TS D} {g : Segment TS D} {k : Known} {fs : FS} {ks : List Known} (ha : Act c h g k) (hh : Hist crc fs ks) (hk : k ∈ ks) :
    RecInv crc c g.id ⟨h.l, h.w, fs⟩ ks g.inputs g.entries g.safe := ⟨hh, ha.run, k, hk, ha.id, ha.writer, ha.maybe, ha.data, ha.durable⟩

theorem mem_kind {typ : Nat} {ks A B : List Known} {k : Known} (h : ofKind typ ks = A ++ k :: B) : k ∈ ks ∧ k.typ = typ := by
  have : k ∈ ofKind typ ks := by rw [h]; simp
  have := List.mem_filter.mp this
  exact ⟨this.1, by simpa using this.2⟩

/-- one logger makes a call: its file is changed by `f` -/
theorem changed {crc : Bytes → UInt32} {c : Cfg TS TD D DD} {typ : Nat} {fs' : FS} {ks A B : List Known} {k : Known} {f : Known → Known} {h' : Half TS D} {id : Nat} {inputs : List (TS × D)}
    {acc safe : List (Out TS D)} (hle : safe <+: acc) (hid : k.id = id) (hu : ks.Pairwise fun a b => a.id ≠ b.id) (hk : ofKind typ ks = A ++ k :: B) (hf : ∀ x, (f x).typ = x.typ) (hfi : ∀ x, (f x).id = x.id)
    (hr : RecInv crc c id ⟨h'.l, h'.w, fs'⟩ (ks.map fun x => if x.id = id then f x else x) inputs acc safe) :
    ofKind typ (ks.map fun x => if x.id = id then f x else x) = A ++ f k :: B ∧ Act c h' ⟨id, inputs, acc, safe⟩ (f k) := by
  subst hid
  have e := ofKind_map hu hk f hf
  refine ⟨e, ?_⟩
  obtain ⟨k', hk', hr'⟩ := hr.file
  have hm := (mem_kind e).1
  have : k' = f k := same_file (ids_unique (hist_inv hr.hist)) hk' hm (by rw [hr'.id, hfi])
  subst this
  exact ⟨hr.run, hr'.id, hr'.writer, hr'.maybe, hr'.data, hr'.durable, hle⟩

/-! ### the calls of the current logger -/

theorem last_eq {α : Type} {a b : List α} {x y : α} (h : a ++ [x] = b ++ [y]) : a = b ∧ x = y := by
  have := List.append_inj' h rfl
  exact ⟨this.1, by simpa using this.2⟩

/-- the current logger makes a call that changes its file by `f` -/
theorem cur_call {crc : Bytes → UInt32} {c : Cfg TS TD D DD} {typ cap : Nat} {s : St TS D} {ks : List Known} {pre : List (Segment TS D)} {g g' : Segment TS D} {h h' : Half TS D} {fs' : FS} {f : Known → Known}
    (hi : RInv crc c typ cap s ks (pre ++ [g])) (hc : s.cur = some h) (hf : ∀ x, (f x).typ = x.typ) (hfi : ∀ x, (f x).id = x.id) (hid : g'.id = g.id) (hle : g.safe <+: g.entries → g'.safe <+: g'.entries)
    (hr : RecInv crc c g.id ⟨h.l, h.w, s.fs⟩ ks g.inputs g.entries g.safe → RecInv crc c g.id ⟨h'.l, h'.w, fs'⟩ (ks.map fun x => if x.id = g.id then f x else x) g'.inputs g'.entries g'.safe) :
    RInv crc c typ cap { s with cur := some h', fs := fs' } (ks.map fun x => if x.id = g.id then f x else x) (pre ++ [g']) := by
  obtain ⟨olds, gone, fin, act, finK, actK, nextK, F⟩ := hi.files
  have hp := F.parts
  rw [hc] at hp
  obtain ⟨pa, pk, g0, k, rfl, rfl, ha, hback⟩ := parts_cur hp
  have hsp := F.split
  rw [← List.append_assoc] at hsp
  obtain ⟨rfl, rfl⟩ := last_eq hsp
  have hk : ofKind typ ks = (olds ++ finK ++ pk) ++ k :: nextK := by rw [F.files]; simp
  have hu := ids_unique (hist_inv hi.hist)
  have hr' := hr (ha.recInv hi.hist (mem_kind hk).1)
  obtain ⟨e1, e2⟩ := changed (hle ha.le) ha.id hu hk hf hfi hr'
  refine ⟨hr'.hist, hi.typEq, hi.capEq, hi.two, hi.small, hi.seg, hi.order, olds, gone, fin, pa ++ [g'], finK, pk ++ [f k], nextK, ?_⟩
  have ha' : Act c h' g' (f k) := by
    obtain ⟨a1, a2, a3, a4, a5, a6, a7⟩ := e2
    exact ⟨a1, a2.trans hid.symm, a3, a4, a5, a6, a7⟩
  refine ⟨by simp, by rw [e1]; simp, F.closed, F.full, F.done, hback h' g' (f k) ha', F.next, ?_, F.room⟩
  rw [e1]
  have := F.count
  rw [hk] at this
  simpa [St.plan] using this

/-- the logger that was replaced makes a call that changes its file by `f` -/
theorem old_call {crc : Bytes → UInt32} {c : Cfg TS TD D DD} {typ cap : Nat} {s : St TS D} {ks : List Known} {pre : List (Segment TS D)} {o o' g : Segment TS D} {h h' : Half TS D} {fs' : FS} {f : Known → Known}
    (hi : RInv crc c typ cap s ks (pre ++ [o, g])) (hc : s.old = some h) (hf : ∀ x, (f x).typ = x.typ) (hfi : ∀ x, (f x).id = x.id) (hid : o'.id = o.id) (hle : o.safe <+: o.entries → o'.safe <+: o'.entries)
    (hr : RecInv crc c o.id ⟨h.l, h.w, s.fs⟩ ks o.inputs o.entries o.safe → RecInv crc c o.id ⟨h'.l, h'.w, fs'⟩ (ks.map fun x => if x.id = o.id then f x else x) o'.inputs o'.entries o'.safe) :
    RInv crc c typ cap { s with old := some h', fs := fs' } (ks.map fun x => if x.id = o.id then f x else x) (pre ++ [o', g]) := by
  obtain ⟨olds, gone, fin, act, finK, actK, nextK, F⟩ := hi.files
  have hp := F.parts
  rw [hc] at hp
  obtain ⟨hcur, go, g0, ko, k, hcc, rfl, rfl, ha, ha2⟩ := parts_old hp
  have hsp := F.split
  obtain ⟨rfl, hsp2⟩ := List.append_inj' hsp rfl
  injection hsp2 with h1 h2
  injection h2 with h2 _
  subst h1; subst h2
  have hnext : s.next = none := by
    cases hn : s.next with
    | none => rfl
    | some w => have := hi.order (by rw [hn]; rfl); rw [hc] at this; simp at this
  have hk : ofKind typ ks = (olds ++ finK) ++ ko :: (k :: nextK) := by rw [F.files]; simp
  have hu := ids_unique (hist_inv hi.hist)
  have hr' := hr (ha.recInv hi.hist (mem_kind hk).1)
  obtain ⟨e1, e2⟩ := changed (hle ha.le) ha.id hu hk hf hfi hr'
  refine ⟨hr'.hist, hi.typEq, hi.capEq, hi.two, hi.small, hi.seg, (by intro hx; have hx : s.next.isSome = true := hx; rw [hnext] at hx; simp at hx), olds, gone, fin, [o', g], finK, [f ko, k], nextK, ?_⟩
  have ha' : Act c h' o' (f ko) := by
    obtain ⟨a1, a2, a3, a4, a5, a6, a7⟩ := e2
    exact ⟨a1, a2.trans hid.symm, a3, a4, a5, a6, a7⟩
  refine ⟨rfl, by rw [e1]; simp, F.closed, F.full, F.done, ?_, F.next, ?_, F.room⟩
  · show Parts c s.cur (some h') _ _
    rw [hcc]
    exact ⟨o', g, f ko, k, rfl, rfl, ha', ha2⟩
  · rw [e1]
    have := F.count
    rw [hk, hc] at this
    simpa [St.plan] using this

/-- the writer of an active segment is closed -/
theorem closed_act {crc : Bytes → UInt32} {c : Cfg TS TD D DD} (hcod : c.Codecs) (hfit : c.Fits) {typ : Nat} {fs : FS} {ks A B : List Known} {k : Known} {h : Half TS D} {g : Segment TS D} (ha : Act c h g k) (hh : Hist crc fs ks)
    (hk : ofKind typ ks = A ++ k :: B) (hsafe : g.safe = g.entries) :
    Hist crc (fs.closeWriter crc h.w) (closed g.id ks) ∧ ofKind typ (closed g.id ks) = A ++ { k with durable := k.data, writer := none, guarded := false } :: B ∧
      Fin c g { k with durable := k.data, writer := none, guarded := false } := by
  have hu := ids_unique (hist_inv hh)
  obtain ⟨l0, d1, d2, d3⟩ := ha.durable
  have hdur := ((hist_inv hh).durable (mem_kind hk).1 ha.writer).1
  rw [ha.maybe, List.append_nil] at hdur
  refine ⟨?_, ?_, ha.id, rfl, (hist_inv hh).whole (k := k) (mem_kind hk).1 ha.writer, ha.maybe, ⟨l0, h.l, d1, d2, d3.trans hdur, (run_inv hcod hfit ha.run).1, by show k.data <+: _; rw [ha.data]; exact List.prefix_rfl⟩, hsafe, h.l, ha.run⟩
  · obtain ⟨a, b, hab⟩ := List.append_of_mem (mem_kind hk).1
    have : closed g.id ks = a ++ { k with durable := k.data, writer := none, guarded := false } :: b := by
      unfold closed
      rw [hab] at hu ⊢
      rw [← ha.id]
      exact map_file hu fun k => { k with durable := k.data, writer := none, guarded := false }
    rw [this]
    exact hh.step (.close h.w a b k hab ha.writer)
  · unfold closed
    rw [← ha.id]
    exact ofKind_map hu hk (fun k => { k with durable := k.data, writer := none, guarded := false }) fun _ => rfl

/-! ### all calls -/

theorem rotate_hist {crc : Bytes → UInt32} {typ n r1 r2 : Nat} {fs fs' : FS} {ks : List Known} {e : FileEntry} {w : FileWriter} (hh : Hist crc fs ks) (h : fs.rotate typ n r1 r2 = (.ok e, fs')) (hw : writerOf e = some w)
    (hfree : ∀ k ∈ (ofKind typ ks).take n, k.writer = none) (hcap : ks.length < 2518) (ht : typ < 0x4000) (hok : countersOk fs) : Hist crc fs' (rotated typ n w ks) := by
  have hs := hh.step (.rotate typ n r1 r2 e fs' h (fun k hk ho => hfree k (dropped_mem (ids_sorted (hist_inv hh)) hk ho)) hcap ht hok)
  unfold writerOf at hw
  have hid : e.id = w.id := by
    cases hf : e.first with
    | none => rw [hf] at hw; simp at hw
    | some x => rw [hf] at hw; simp at hw; rw [← hw]; rfl
  rw [hw, hid] at hs
  exact hs

theorem count_kind {crc : Bytes → UInt32} {fs : FS} {ks : List Known} (h : SysInv crc fs ks) (typ : Nat) :
    ∃ files, fs.filesIter (fun e => e.typ == typ) = .ok files ∧ files.map (·.id) = (ofKind typ ks).map (·.id) := by
  obtain ⟨files, leak, hf, hs⟩ := h
  refine ⟨_, hs.reach.dir.filesIter _, ?_⟩
  unfold ofKind
  rw [← hf, List.filter_map, List.filter_map, List.map_map, List.map_map]
  have e : files.filter ((fun e : FileEntry => e.typ == typ) ∘ (·.e)) = files.filter ((fun k : Known => k.typ == typ) ∘ (·.k)) := by
    refine List.filter_congr fun f hm => ?_
    simp only [Function.comp, (hs.ok f hm).typ]
  rw [e]
  refine List.map_congr_left fun f hm => ?_
  simp only [Function.comp]
  exact (hs.ok f (List.mem_filter.mp hm).1).id

theorem forall2_right {α β : Type} {R : α → β → Prop} {a : List α} {b : List β} (h : List.Forall₂ R a b) {y : β} (hy : y ∈ b) : ∃ x, R x y := by
  induction h with
  | nil => simp at hy
  | cons hx _ ih =>
    rcases List.mem_cons.mp hy with rfl | hy
    · exact ⟨_, hx⟩
    · exact ih hy

theorem parts_snoc_ne {c : Cfg TS TD D DD} {h : Half TS D} {act : List (Segment TS D)} {actK : List Known} (hp : Parts c (some h) none act actK) : ∃ g k, act = [g] ∧ actK = [k] ∧ Act c h g k := hp

theorem ring_inv {crc : Bytes → UInt32} {c : Cfg TS TD D DD} (hc : c.Codecs) (hfit : c.Fits) {typ cap : Nat} {s : St TS D} {ks : List Known} {segs : List (Segment TS D)}
    (h : RingLogging crc c typ cap s ks segs) : RInv crc c typ cap s ks segs := by
  induction h with
  | @start fs fs' ks s hf hr hw h2 ht hcap hok r1 r2 hn hcur =>
    obtain ⟨files, f1, f2⟩ := count_kind (hist_inv hr) typ
    have hlen : files.length = (ofKind typ ks).length := by have := congrArg List.length f2; simpa using this
    unfold St.new at hn
    rw [f1] at hn
    simp only at hn
    rw [if_neg (by omega)] at hn
    rcases hrot : fs.rotate typ (startPlan files.length cap).1 r1 r2 with ⟨_ | e, fs1⟩
    · rw [hrot] at hn; simp at hn
    rw [hrot] at hn
    simp only at hn
    cases hwo : writerOf e with
    | none => rw [hwo] at hn; simp at hn
    | some w =>
      rw [hwo] at hn
      simp only [Prod.mk.injEq, Except.ok.injEq] at hn
      obtain ⟨rfl, rfl⟩ := hn
      simp only [Option.some.injEq] at hcur
      subst hcur
      have hn1 : (startPlan files.length cap).1 = (ofKind typ ks).length + 1 - cap := by unfold startPlan; rw [hlen]; split <;> simp only <;> omega
      rw [hn1] at hrot
      have hh := rotate_hist hr hrot hwo (fun k hk => hw k (List.mem_of_mem_take hk)) hcap ht hok
      have hk := ofKind_rotated (typ := typ) (n := (ofKind typ ks).length + 1 - cap) (w := w) (ids_sorted (hist_inv hr))
      have hn2 : (startPlan files.length cap).2 ≤ cap ∧ (ofKind typ ks).length - ((ofKind typ ks).length + 1 - cap) + 1 = (startPlan files.length cap).2 := by
        unfold startPlan; rw [hlen]; split <;> simp only <;> omega
      refine ⟨hh, rfl, rfl, h2, ht, hn2.1, fun _ => rfl, (ofKind typ ks).drop ((ofKind typ ks).length + 1 - cap), [], [], [Segment.empty w.id], [], [⟨w.id, typ, [], [], [], some w, false, false⟩], [], ?_⟩
      refine ⟨rfl, by rw [hk]; simp, fun k hk => hw k (List.mem_of_mem_drop hk), fun h => absurd rfl h, .nil, ⟨_, _, rfl, rfl, ?_⟩, rfl, ?_, fun h => absurd rfl h⟩
      · exact ⟨.new, rfl, rfl, rfl, rfl, ⟨Logger.new c, (run_inv hc hfit .new).1, rfl, List.nil_prefix⟩, List.nil_prefix⟩
      · rw [hk]
        simp only [List.length_append, List.length_drop, List.length_singleton]
        simp [hn2.2]
  | @accept s s' ks pre g h h' hr hcur rng1 rng2 t v hl hcur' ih =>
    unfold St.log at hl
    rw [hcur] at hl
    rcases hx : LogFile.St.log crc c rng1 rng2 ⟨h.l, h.w, s.fs⟩ t v with ⟨r, f⟩
    simp only [hx] at hl
    simp only [Prod.mk.injEq] at hl
    obtain ⟨rfl, rfl⟩ := hl
    simp only [Option.some.injEq] at hcur'
    subst hcur'
    refine cur_call (h' := ⟨f.l, f.w⟩) (f := fun k => { k with data := f.l.sink, writer := some f.w }) ih hcur (fun _ => rfl) (fun _ => rfl) rfl (fun hx => hx.trans (List.prefix_append _ _)) fun hri => ?_
    have := hri.accept hc hfit hx
    simpa [Segment.add, wrote] using this
  | @refuse s s' ks segs hr rng1 rng2 t v hl ih =>
    unfold St.log at hl
    cases hcur : s.cur with
    | none => rw [hcur] at hl; simp at hl
    | some h =>
      rw [hcur] at hl
      rcases hx : LogFile.St.log crc c rng1 rng2 ⟨h.l, h.w, s.fs⟩ t v with ⟨r, f⟩
      simp only [hx] at hl
      simp only [Prod.mk.injEq] at hl
      obtain ⟨rfl, rfl⟩ := hl
      have := log_refused hx
      subst this
      simp only
      have : ({ s with cur := some ⟨h.l, h.w⟩, fs := s.fs } : St TS D) = s := by rw [← hcur]
      rw [this]
      exact ih
  | @unix s s' ks pre g h h' hr hcur rng u hl hcur' ih =>
    unfold St.logUnix at hl
    rw [hcur] at hl
    rcases hx : LogFile.St.logUnix crc rng ⟨h.l, h.w, s.fs⟩ u with ⟨r, f⟩
    simp only [hx] at hl
    simp only [Prod.mk.injEq] at hl
    obtain ⟨rfl, rfl⟩ := hl
    simp only [Option.some.injEq] at hcur'
    subst hcur'
    refine cur_call (h' := ⟨f.l, f.w⟩) (f := fun k => { k with data := f.l.sink, writer := some f.w }) ih hcur (fun _ => rfl) (fun _ => rfl) rfl (fun hx => hx.trans (List.prefix_append _ _)) fun hri => ?_
    have := hri.unix hc hfit hx
    simpa [Segment.add, wrote] using this
  | @flush s s' ks pre g h' hr rng r1 r2 hl hcur' ih =>
    unfold St.flush at hl
    cases hcur : s.cur with
    | none => rw [hcur] at hl; simp at hl
    | some h =>
      rw [hcur] at hl
      rcases hx : LogFile.St.flush crc rng r1 r2 ⟨h.l, h.w, s.fs⟩ with ⟨r, f⟩
      simp only [hx] at hl
      simp only [Prod.mk.injEq] at hl
      obtain ⟨rfl, rfl⟩ := hl
      simp only [Option.some.injEq] at hcur'
      subst hcur'
      refine cur_call (h' := ⟨f.l, f.w⟩) (f := fun k => { k with data := f.l.sink, durable := f.l.sink, writer := some f.w }) ih hcur (fun _ => rfl) (fun _ => rfl) rfl (fun _ => List.prefix_rfl) fun hri => ?_
      exact hri.flush hc hfit hx
  | @begin s s' ks segs w hr hn ho hcur hcap hok r1 r2 hb hnext ih =>
    obtain ⟨h, hcur⟩ := Option.isSome_iff_exists.mp hcur
    unfold St.beginSegment at hb
    rcases hrot : s.fs.rotate s.typ s.plan.1 r1 r2 with ⟨_ | e, fs1⟩
    · rw [hrot] at hb; simp at hb
    rw [hrot] at hb
    simp only at hb
    cases hwo : writerOf e with
    | none => rw [hwo] at hb; simp at hb
    | some w' =>
      rw [hwo] at hb
      simp only [Prod.mk.injEq, true_and] at hb
      subst hb
      simp only [Option.some.injEq] at hnext
      subst hnext
      obtain ⟨olds, gone, fin, act, finK, actK, nextK, F⟩ := ih.files
      have hp := F.parts
      rw [hcur, ho] at hp
      obtain ⟨g, k, rfl, rfl, ha⟩ := parts_snoc_ne hp
      have hnk := F.next
      rw [hn] at hnk
      have hnk : nextK = [] := hnk
      subst hnk
      have hfiles := F.files
      rw [List.append_nil] at hfiles
      have hcount := F.count
      rw [hn, ho] at hcount
      simp only [Option.isSome_none, Bool.false_eq_true, or_self, if_false] at hcount
      have h2 := ih.two
      have hcapEq := ih.capEq
      -- at most one file, and not the one in use
      have hplan : s.plan.1 ≤ (olds ++ finK).length ∧ s.plan.1 ≤ 1 ∧ s.plan.2 ≤ cap ∧ s.segments + 1 - s.plan.1 = s.plan.2 := by
        have hl : (olds ++ finK).length + 1 = s.segments := by rw [← hcount, hfiles]; simp only [List.length_append, List.length_singleton]
        have := ih.seg
        unfold St.plan
        split <;> simp only <;> omega
      have hdrop : (ofKind typ ks).drop s.plan.1 = (olds ++ finK).drop s.plan.1 ++ [k] := by rw [hfiles]; exact List.drop_append_of_le_length hplan.1
      have htake : ∀ x ∈ (ofKind typ ks).take s.plan.1, x.writer = none := by
        intro x hx
        rw [hfiles, List.take_append_of_le_length hplan.1] at hx
        rcases List.mem_append.mp (List.mem_of_mem_take hx) with hx | hx
        · exact F.closed x hx
        · obtain ⟨g, hg⟩ := forall2_right F.done hx
          exact hg.writer
      rw [ih.typEq] at hrot
      have hh := rotate_hist ih.hist hrot hwo htake hcap ih.small hok
      have hk := ofKind_rotated (typ := typ) (n := s.plan.1) (w := w') (ids_sorted (hist_inv ih.hist))
      rw [hdrop] at hk
      -- what is dropped
      have hsplit : ∃ olds' gone' fin' finK', (olds ++ finK).drop s.plan.1 = olds' ++ finK' ∧ gone' ++ fin' = gone ++ fin ∧ (∀ x ∈ olds', x.writer = none) ∧ (gone' ≠ [] → olds' = []) ∧ List.Forall₂ (Fin c) fin' finK' ∧ (gone' ≠ [] → s.cap ≤ s.segments) := by
        rcases Nat.lt_or_ge 0 s.plan.1 with hpos | hz
        · have h1 : s.plan.1 = 1 := by omega
          rw [h1]
          cases olds with
          | cons x olds =>
            exact ⟨olds, gone, fin, finK, rfl, rfl, fun y hy => F.closed y (by simp [hy]), fun hg => absurd (F.full hg) (by simp), F.done, F.room⟩
          | nil =>
            cases hd : F.done with
            | nil => rw [h1] at hplan; simp at hplan
            | @cons a b fin2 finK2 hx hrest => exact ⟨[], gone ++ [a], fin2, finK2, rfl, by simp, by simp, fun _ => rfl, hrest, fun _ => by
                have := h1; unfold St.plan at this; split at this
                · assumption
                · simp at this⟩
        · have h0 : s.plan.1 = 0 := by omega
          rw [h0]
          exact ⟨olds, gone, fin, finK, rfl, rfl, F.closed, F.full, F.done, F.room⟩
      obtain ⟨olds', gone', fin', finK', e1, e2, e3, e4, e5, e6⟩ := hsplit
      refine ⟨hh, ih.typEq, ih.capEq, ih.two, ih.small, ih.seg, fun _ => ho, olds', gone', fin', [g], finK', [k], [⟨w'.id, typ, [], [], [], some w', false, false⟩], ?_⟩
      refine ⟨by rw [e2]; exact F.split, by rw [hk, e1], e3, e4, e5, ?_, ⟨_, rfl, rfl, rfl, rfl, rfl⟩, ?_, e6⟩
      · show Parts c s.cur s.old [g] [k]
        rw [hcur, ho]
        exact ⟨g, k, rfl, rfl, ha⟩
      · rw [hk]
        simp only [Option.isSome_some, true_or, if_true]
        have : (St.plan { s with next := some w', fs := fs1 }).2 = s.plan.2 := rfl
        rw [this]
        have hl : (olds ++ finK).length + 1 = s.segments := by rw [← hcount, hfiles]; simp only [List.length_append, List.length_singleton]
        simp only [List.length_append, List.length_drop, List.length_singleton] at hl ⊢
        have := hplan.1
        rw [List.length_append] at this
        omega
  | @swap s s' ks segs w hr hn hs ih =>
    unfold St.swap at hs
    rw [hn] at hs
    cases hcur : s.cur with
    | none => rw [hcur] at hs; simp at hs
    | some h =>
      rw [hcur] at hs
      simp only [Prod.mk.injEq, true_and] at hs
      subst hs
      have ho := ih.order (by rw [hn]; rfl)
      obtain ⟨olds, gone, fin, act, finK, actK, nextK, F⟩ := ih.files
      have hp := F.parts
      rw [hcur, ho] at hp
      obtain ⟨g, k, rfl, rfl, ha⟩ := parts_snoc_ne hp
      have hnk := F.next
      rw [hn] at hnk
      obtain ⟨kn, rfl, n1, n2, n3, n4⟩ := hnk
      refine ⟨ih.hist, ih.typEq, ih.capEq, ih.two, ih.small, ih.seg, fun hx => absurd hx (by simp), olds, gone, fin, [g, Segment.empty w.id], finK, [k, kn], [], ?_⟩
      refine ⟨by rw [F.split]; simp, by rw [F.files]; simp, F.closed, F.full, F.done, ⟨g, _, k, kn, rfl, rfl, ha, ?_⟩, rfl, ?_, F.room⟩
      · exact ⟨.new, n1, n2, n4, n3, ⟨Logger.new c, (run_inv hc hfit .new).1, rfl, List.nil_prefix⟩, List.nil_prefix⟩
      · have := F.count
        rw [hn] at this
        simpa [St.plan] using this
  | @flushOld s s' ks pre o g h' hr rng r1 r2 hl hold ih =>
    unfold St.flushOld at hl
    cases hcur : s.old with
    | none => rw [hcur] at hl; simp at hl
    | some h =>
      rw [hcur] at hl
      rcases hx : LogFile.St.flush crc rng r1 r2 ⟨h.l, h.w, s.fs⟩ with ⟨r, f⟩
      simp only [hx] at hl
      simp only [Prod.mk.injEq] at hl
      obtain ⟨rfl, rfl⟩ := hl
      simp only [Option.some.injEq] at hold
      subst hold
      refine old_call (h' := ⟨f.l, f.w⟩) (f := fun k => { k with data := f.l.sink, durable := f.l.sink, writer := some f.w }) ih hcur (fun _ => rfl) (fun _ => rfl) rfl (fun _ => List.prefix_rfl) fun hri => ?_
      exact hri.flush hc hfit hx
  | @closeOld s s' ks pre o g hr hsafe hl ih =>
    unfold St.closeOld at hl
    cases hold : s.old with
    | none => rw [hold] at hl; simp at hl
    | some h =>
      rw [hold] at hl
      simp only [Prod.mk.injEq, true_and] at hl
      subst hl
      obtain ⟨olds, gone, fin, act, finK, actK, nextK, F⟩ := ih.files
      have hp := F.parts
      rw [hold] at hp
      obtain ⟨hcur, go, g0, ko, k, hcc, rfl, rfl, ha, ha2⟩ := parts_old hp
      have hsp := F.split
      obtain ⟨rfl, hsp2⟩ := List.append_inj' hsp rfl
      injection hsp2 with h1 h2
      injection h2 with h2 _
      subst h1; subst h2
      have hnext : s.next = none := by
        cases hn : s.next with
        | none => rfl
        | some w => have := ih.order (by rw [hn]; rfl); rw [hold] at this; simp at this
      have hnk := F.next
      rw [hnext] at hnk
      have hnk : nextK = [] := hnk
      subst hnk
      have hk : ofKind typ ks = (olds ++ finK) ++ ko :: [k] := by rw [F.files]; simp
      obtain ⟨c1, c2, c3⟩ := closed_act hc hfit ha ih.hist hk hsafe
      refine ⟨c1, ih.typEq, ih.capEq, ih.two, ih.small, ?_, fun hx => absurd hx (by show ¬ s.next.isSome = true; rw [hnext]; simp), olds, gone, fin ++ [o], [g], finK ++ [{ ko with durable := ko.data, writer := none, guarded := false }], [k], [], ?_⟩
      · show s.plan.2 ≤ cap
        have := ih.capEq
        unfold St.plan
        split <;> simp only <;> omega
      · refine ⟨by simp, by rw [c2]; simp, F.closed, F.full, List.rel_append F.done (.cons c3 .nil), ?_, ?_, ?_, fun hg => by
          have h1 := F.room hg
          show s.cap ≤ s.plan.2
          unfold St.plan; rw [if_pos h1]⟩
        · show Parts c s.cur none _ _
          rw [hcc]
          exact ⟨g, k, rfl, rfl, ha2⟩
        · show NextK s.next []
          rw [hnext]; rfl
        · rw [c2]
          have := F.count
          rw [hk, hold, hnext] at this
          simp only [hnext]
          simpa using this
  | @close s s' ks pre g h hr hn ho hcur rng r1 r2 hl ih =>
    unfold St.close at hl
    rw [hcur] at hl
    rcases hx : LogFile.St.flush crc rng r1 r2 ⟨h.l, h.w, s.fs⟩ with ⟨r, f⟩
    simp only [hx] at hl
    cases r with
    | error e => simp at hl
    | ok x =>
    cases x
    simp only [Prod.mk.injEq, true_and] at hl
    subst hl
    have inv := cur_call (h' := ⟨f.l, f.w⟩) (g' := g.flushed) (fs' := f.fs) (f := fun k => { k with data := f.l.sink, durable := f.l.sink, writer := some f.w }) ih hcur (fun _ => rfl) (fun _ => rfl) rfl (fun _ => List.prefix_rfl)
      fun hri => hri.flush hc hfit hx
    obtain ⟨olds, gone, fin, act, finK, actK, nextK, F⟩ := inv.files
    have hp := F.parts
    simp only [ho] at hp
    obtain ⟨g1, k, rfl, rfl, ha⟩ := parts_snoc_ne hp
    have hsp := F.split
    obtain ⟨rfl, rfl⟩ := last_eq hsp
    have hnk := F.next
    simp only [hn] at hnk
    have hnk : nextK = [] := hnk
    subst hnk
    have hk := F.files
    rw [List.append_nil] at hk
    obtain ⟨c1, c2, c3⟩ := closed_act hc hfit ha inv.hist hk rfl
    refine ⟨c1, ih.typEq, ih.capEq, ih.two, ih.small, ih.seg, fun hx => absurd hx (by show ¬ s.next.isSome = true; rw [hn]; simp), olds, gone, fin ++ [g.flushed], [], finK ++ [{ k with durable := k.data, writer := none, guarded := false }], [], [], ?_⟩
    refine ⟨by simp, by refine Eq.trans c2 ?_; simp, F.closed, F.full, List.rel_append F.done (.cons c3 .nil), ?_, ?_, ?_, F.room⟩
    · show Parts c none s.old _ _
      rw [ho]; exact ⟨rfl, rfl⟩
    · show NextK s.next []
      rw [hn]; rfl
    · refine (congrArg List.length c2).trans ?_
      have := F.count
      rw [hk] at this
      simpa [ho, hn] using this
  | @other s fs' ks ks' segs hr hs hkeep ih =>
    obtain ⟨olds, gone, fin, act, finK, actK, nextK, F⟩ := ih.files
    exact ⟨ih.hist.step hs, ih.typEq, ih.capEq, ih.two, ih.small, ih.seg, ih.order, olds, gone, fin, act, finK, actK, nextK, F.split, by rw [hkeep]; exact F.files, F.closed, F.full, F.done, F.parts, F.next, by rw [hkeep]; exact F.count, F.room⟩

end Verif.RingLog
