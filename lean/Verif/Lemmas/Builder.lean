import Verif.Lemmas.Slots
import Verif.Lemmas.WriteOnce
/-
The directory builder: what it reads and what it writes.
-/
namespace Verif.Vlfs
open Verif
open Verif.Spec (OpOk)

/-- address of a flash operation -/
def _root_.Verif.FlashOp.addr : FlashOp → Nat
  | .erase a _ => a
  | .page a _ => a

/-- the operation is on the directory region (the first 128 KiB) -/
def _root_.Verif.FlashOp.isTable (o : FlashOp) : Bool := decide (o.addr < 131072)

/-- the two chips agree on the directory region -/
def LowEq (f g : Flash) : Prop := ∀ a, a < 131072 → f a = g a

theorem LowEq.refl (f : Flash) : LowEq f f := fun _ _ => rfl
theorem LowEq.symm {f g : Flash} (h : LowEq f g) : LowEq g f := fun a ha => (h a ha).symm
theorem LowEq.trans {f g h : Flash} (h1 : LowEq f g) (h2 : LowEq g h) : LowEq f h :=
  fun a ha => (h1 a ha).trans (h2 a ha)

theorem LowEq.sameSlot {f g : Flash} (h : LowEq f g) {q : Nat} (hq : q < 4) : SameSlot f g q := by
  intro j hj
  apply h
  rw [slotAddr_eq]; omega

theorem apply_lowEq {f g : Flash} (h : LowEq f g) (o : FlashOp) : LowEq (o.apply f) (o.apply g) := by
  intro a ha
  cases o <;> simp only [FlashOp.apply] <;> rw [h a ha]

theorem apply_data_lowEq (f : Flash) (o : FlashOp) (ho : o.isTable = false) : LowEq (o.apply f) f := by
  intro a ha
  have : ¬ o.addr < 131072 := by simpa [FlashOp.isTable] using ho
  cases o <;> simp only [FlashOp.addr] at this <;> simp only [FlashOp.apply] <;> rw [if_neg (by omega)]

theorem applyOps_lowEq_congr {f g : Flash} (h : LowEq f g) (os : List FlashOp) :
    LowEq (applyOps f os) (applyOps g os) := by
  induction os generalizing f g with
  | nil => exact h
  | cons o os ih => exact ih (apply_lowEq h o)

theorem applyOps_filter (f : Flash) (os : List FlashOp) :
    LowEq (applyOps f os) (applyOps f (os.filter FlashOp.isTable)) := by
  induction os generalizing f with
  | nil => exact LowEq.refl _
  | cons o os ih =>
    rw [applyOps_cons]
    cases ho : o.isTable with
    | true => rw [List.filter_cons_of_pos ho, applyOps_cons]; exact ih _
    | false =>
      rw [List.filter_cons_of_neg (by simp [ho])]
      exact (applyOps_lowEq_congr (apply_data_lowEq f o ho) os).trans (ih f)

theorem pages_isTable (A : Nat) (S : Bytes) (n : Nat) (h : A + 256 * n ≤ 131072) :
    ∀ o ∈ pages A S n, o.isTable = true := by
  intro o ho
  unfold pages at ho
  rw [List.mem_map] at ho
  obtain ⟨i, hi, rfl⟩ := ho
  rw [List.mem_range] at hi
  exact decide_eq_true (show A + 256 * i < 131072 by omega)

/-- stream of a table without its footer -/
def bodyImage (seq : Nat) (new : List FileEntry) : Bytes := headerSerialize seq ++ new.flatMap FileEntry.serialize

theorem bodyImage_length (seq : Nat) (new : List FileEntry) : (bodyImage seq new).length = 13 * (new.length + 1) := by
  unfold bodyImage
  rw [List.length_append, headerSerialize_length, flatMap_serialize_length]; omega

theorem bodyImage_snoc (seq : Nat) (new : List FileEntry) (e : FileEntry) :
    bodyImage seq (new ++ [e]) = bodyImage seq new ++ e.serialize := by
  simp [bodyImage]

theorem bodyImage_footer (seq : Nat) (new : List FileEntry) (m : Nat) :
    bodyImage seq new ++ footerSerialize m = tableImage seq new m := rfl

/-- slot the next table goes to -/
def nextPos (fs : FS) : Nat := (fs.at'.position + 1) % 4

/-- write side of the builder started from `fs`: `new` written so far, `m` the running maximum -/
structure BW (fs : FS) (b : Builder) (new : List FileEntry) (m : Nat) : Prop where
  seq : b.at'.seq = fs.at'.seq + 1
  pos : b.at'.position = nextPos fs
  opened : b.at'.opened = fs.at'.opened
  trace : ∃ os, b.dev = fs.dev.ops os ∧ os.filter FlashOp.isTable =
    .erase (slotAddr (nextPos fs)) 32768 ::
      pages (slotAddr (nextPos fs)) (bodyImage (fs.at'.seq + 1) new) ((bodyImage (fs.at'.seq + 1) new).length / 256)
  w : b.w.Inv (slotAddr (nextPos fs)) (bodyImage (fs.at'.seq + 1) new)
  count : b.fileCount = new.length
  maxId : b.maxId = m
  data : ∃ os, b.dev = fs.dev.ops os ∧ ∀ o ∈ os, o.isTable = false → ∀ fl, OpOk fl o

/-- read side: `i` records read -/
structure BR (fs : FS) (b : Builder) (i : Nat) : Prop where
  unfinished : b.readFinished = false
  curr : b.currAddr = slotAddr fs.at'.position
  readI : b.readI = i
  buf : i % 64 ≠ 0 → ∀ j, j / 64 = i / 64 → j ≤ 2518 →
    (b.readBuf.drop ((j % 64) * 13)).take 13 = fs.dev.flash.read (slotAddr fs.at'.position + 13 + j * 13) 13

theorem nextPos_lt (fs : FS) : nextPos fs < 4 := Nat.mod_lt _ (by decide)

theorem nextPos_ne {fs : FS} (h : fs.at'.position < 4) : nextPos fs ≠ fs.at'.position := by
  unfold nextPos; omega

theorem filter_eq_self_of {os : List FlashOp} (h : ∀ o ∈ os, o.isTable = true) : os.filter FlashOp.isTable = os :=
  List.filter_eq_self.mpr h

/-- extending the written stream keeps the trace -/
theorem trace_extend {fs : FS} {w : PageWriter} {dev : Dev} {S : Bytes} (slice : Bytes)
    (ht : ∃ os, dev = fs.dev.ops os ∧ os.filter FlashOp.isTable =
      .erase (slotAddr (nextPos fs)) 32768 :: pages (slotAddr (nextPos fs)) S (S.length / 256))
    (hw : w.Inv (slotAddr (nextPos fs)) S) (hl : (S ++ slice).length ≤ 32768) :
    (∃ os, (w.extend dev slice).2 = fs.dev.ops os ∧ os.filter FlashOp.isTable =
      .erase (slotAddr (nextPos fs)) 32768 :: pages (slotAddr (nextPos fs)) (S ++ slice) ((S ++ slice).length / 256)) ∧
    (w.extend dev slice).1.Inv (slotAddr (nextPos fs)) (S ++ slice) := by
  obtain ⟨os, h1, h2⟩ := ht
  obtain ⟨h3, os', h4, h5⟩ := extend_spec hw dev slice
  refine ⟨⟨os ++ os', ?_, ?_⟩, h3⟩
  · rw [h4, h1, Dev.ops_ops]
  · have hlt := nextPos_lt fs
    have : ∀ o ∈ os', o.isTable = true := by
      intro o ho
      refine pages_isTable (slotAddr (nextPos fs)) (S ++ slice) ((S ++ slice).length / 256) ?_ o ?_
      · rw [slotAddr_eq]; omega
      · rw [← h5]; exact List.mem_append_right _ ho
    rw [List.filter_append, h2, filter_eq_self_of this, List.cons_append, h5]

theorem data_extend {fs : FS} {w : PageWriter} {dev : Dev} {S : Bytes} (slice : Bytes)
    (ht : ∃ os, dev = fs.dev.ops os ∧ ∀ o ∈ os, o.isTable = false → ∀ fl, OpOk fl o)
    (hw : w.Inv (slotAddr (nextPos fs)) S) (hl : (S ++ slice).length ≤ 32768) :
    ∃ os, (w.extend dev slice).2 = fs.dev.ops os ∧ ∀ o ∈ os, o.isTable = false → ∀ fl, OpOk fl o := by
  obtain ⟨os, h1, h2⟩ := ht
  obtain ⟨h3, os', h4, h5⟩ := extend_spec hw dev slice
  refine ⟨os ++ os', ?_, ?_⟩
  · rw [h4, h1, Dev.ops_ops]
  · have hlt := nextPos_lt fs
    intro o ho hx
    rcases List.mem_append.mp ho with ho | ho
    · exact h2 o ho hx
    · have := pages_isTable (slotAddr (nextPos fs)) (S ++ slice) ((S ++ slice).length / 256) (by rw [slotAddr_eq]; omega) o
        (by rw [← h5]; exact List.mem_append_right _ ho)
      rw [this] at hx
      exact absurd hx (by decide)

theorem Builder.new_spec (fs : FS) : BW fs (Builder.new fs) [] fs.at'.maxId ∧ BR fs (Builder.new fs) 0 ∧
    (Builder.new fs).mng = fs.mng := by
  have hadd : AT.address fs.at'.incrementPosition = slotAddr (nextPos fs) := rfl
  have hw0 : PageWriter.Inv ⟨slotAddr (nextPos fs), []⟩ (slotAddr (nextPos fs)) [] := ⟨by simp, by simp⟩
  have := trace_extend (fs := fs) (w := ⟨slotAddr (nextPos fs), []⟩)
    (dev := fs.dev.op (.erase (slotAddr (nextPos fs)) 32768)) (S := []) (headerSerialize (fs.at'.seq + 1))
    ⟨[.erase (slotAddr (nextPos fs)) 32768], rfl, by
      have hlt := nextPos_lt fs
      rw [List.filter_cons_of_pos]
      · rfl
      · exact decide_eq_true (show slotAddr (nextPos fs) < 131072 by rw [slotAddr_eq]; omega)⟩ hw0
    (by rw [List.nil_append, headerSerialize_length]; omega)
  rw [List.nil_append] at this
  have hb : bodyImage (fs.at'.seq + 1) [] = headerSerialize (fs.at'.seq + 1) := by simp [bodyImage]
  have hdata := data_extend (fs := fs) (w := ⟨slotAddr (nextPos fs), []⟩)
    (dev := fs.dev.op (.erase (slotAddr (nextPos fs)) 32768)) (S := []) (headerSerialize (fs.at'.seq + 1))
    ⟨[.erase (slotAddr (nextPos fs)) 32768], rfl, by
      have hlt := nextPos_lt fs
      intro o ho hx
      rw [List.mem_singleton.mp ho] at hx
      have : slotAddr (nextPos fs) < 131072 := by rw [slotAddr_eq]; omega
      exact absurd (decide_eq_true this) (by rw [show decide (slotAddr (nextPos fs) < 131072) = false from hx]; decide)⟩ hw0
    (by rw [List.nil_append, headerSerialize_length]; omega)
  refine ⟨⟨rfl, rfl, rfl, ?_, ?_, rfl, rfl, hdata⟩, ⟨rfl, rfl, rfl, ?_⟩, rfl⟩
  · rw [hb]; exact this.1
  · rw [hb]; exact this.2
  · intro h; exact absurd rfl h

theorem BW.write {fs : FS} {b : Builder} {new : List FileEntry} {m : Nat} (h : BW fs b new m) (e : FileEntry)
    (hl : new.length < 2518) : BW fs (b.write e) (new ++ [e]) (if e.id > m then e.id else m) := by
  have hlen := bodyImage_length (fs.at'.seq + 1) (new ++ [e])
  rw [List.length_append, List.length_singleton] at hlen
  have := trace_extend e.serialize h.trace h.w (by rw [← bodyImage_snoc, hlen]; omega)
  rw [← bodyImage_snoc] at this
  refine ⟨h.seq, h.pos, h.opened, this.1, this.2, ?_, ?_, data_extend e.serialize h.data h.w (by rw [← bodyImage_snoc, hlen]; omega)⟩
  · show b.fileCount + 1 = _
    rw [h.count, List.length_append]; rfl
  · show (if e.id > b.maxId then e.id else b.maxId) = _
    rw [h.maxId]

theorem BR.write {fs : FS} {b : Builder} {i : Nat} (h : BR fs b i) (e : FileEntry) : BR fs (b.write e) i :=
  ⟨h.unfinished, h.curr, h.readI, h.buf⟩

/-- the slot being read is not touched -/
theorem BW.sameSlot {fs : FS} {b : Builder} {new : List FileEntry} {m : Nat} (h : BW fs b new m) (hl : new.length ≤ 2518)
    {q : Nat} (hq : q < 4) (hne : q ≠ nextPos fs) : SameSlot b.dev.flash fs.dev.flash q := by
  obtain ⟨os, h1, h2⟩ := h.trace
  intro j hj
  have hlt := nextPos_lt fs
  have hlen := bodyImage_length (fs.at'.seq + 1) new
  rw [h1]
  show applyOps fs.dev.flash os _ = _
  rw [applyOps_filter _ _ _ (by rw [slotAddr_eq]; omega), h2, applyOps_cons, applyOps_pages, slotAddr_eq, slotAddr_eq]
  rw [if_neg (by omega)]
  simp only [FlashOp.apply]
  rw [if_neg (by omega)]

theorem read_slice (fl : Flash) (a n k len : Nat) (h : k + len ≤ n) : ((fl.read a n).drop k).take len = fl.read (a + k) len := by
  obtain ⟨r, rfl⟩ : ∃ r, n = k + (len + r) := ⟨n - (k + len), by omega⟩
  rw [Flash.read_add, List.drop_append_of_le_length (by rw [Flash.read_length]),
    List.drop_eq_nil_of_le (by rw [Flash.read_length]), List.nil_append, Flash.read_add,
    List.take_append_of_le_length (by rw [Flash.read_length]), List.take_of_length_le (by rw [Flash.read_length])]

theorem Flash.read_low (f g : Flash) (q j : Nat) (h : SameSlot f g q) (hj : j ≤ 2518) :
    f.read (slotAddr q + 13 + j * 13) 13 = g.read (slotAddr q + 13 + j * 13) 13 := by
  apply Flash.read_congr
  intro k hk
  have := h (13 + j * 13 + k) (by omega)
  rwa [show slotAddr q + (13 + j * 13 + k) = slotAddr q + 13 + j * 13 + k by omega] at this

theorem readNextSlice_spec {fs : FS} {b : Builder} {new : List FileEntry} {m i : Nat} (hw : BW fs b new m)
    (hr : BR fs b i) (hp : fs.at'.position < 4) (hl : new.length ≤ 2518) (hi : i ≤ 2518) :
    b.readNextSlice.1 = fs.dev.flash.read (slotAddr fs.at'.position + 13 + i * 13) 13 ∧
    BW fs b.readNextSlice.2 new m ∧ BR fs b.readNextSlice.2 (i + 1) ∧ b.readNextSlice.2.mng = b.mng := by
  have hss := hw.sameSlot hl hp (fun h => nextPos_ne hp h.symm)
  -- content of the buffer used by this call
  have key : ∀ j, j / 64 = i / 64 → j ≤ 2518 →
      ((if b.readI % 64 = 0 then b.dev.flash.read (b.currAddr + 13 + b.readI * 13) (13 * 64) else b.readBuf).drop
        ((j % 64) * 13)).take 13 = fs.dev.flash.read (slotAddr fs.at'.position + 13 + j * 13) 13 := by
    intro j hj hj2
    rw [hr.readI, hr.curr]
    by_cases h0 : i % 64 = 0
    · rw [if_pos h0, read_slice _ _ _ _ _ (by omega)]
      rw [show slotAddr fs.at'.position + 13 + i * 13 + j % 64 * 13 = slotAddr fs.at'.position + 13 + j * 13 by omega]
      exact Flash.read_low _ _ _ _ hss hj2
    · rw [if_neg h0]
      exact hr.buf h0 j hj hj2
  refine ⟨?_, ⟨hw.seq, hw.pos, hw.opened, hw.trace, hw.w, hw.count, hw.maxId, hw.data⟩,
    ⟨hr.unfinished, hr.curr, ?_, ?_⟩, rfl⟩
  · have := key i rfl hi
    rw [← this]
    unfold Builder.readNextSlice
    simp only [hr.readI]
  · show b.readI + 1 = _
    rw [hr.readI]
  · intro h0 j hj hj2
    exact key j (by omega) hj2

/-- the directory invariant: `es` are the files -/
structure DirInv (fs : FS) (es : List FileEntry) : Prop where
  pos : fs.at'.position < 4
  seq1 : 1 ≤ fs.at'.seq
  seq : fs.at'.seq < 2 ^ 64
  holds : SlotHolds fs.dev.flash fs.at'.position fs.at'.seq es fs.at'.maxId
  count : fs.at'.fileCount = es.length
  cap : es.length ≤ 2518
  stale : ∀ q, q < 4 → q ≠ fs.at'.position → Stale fs.dev.flash q fs.at'.seq
  wf : ∀ e ∈ es, e.WF
  typ : ∀ e ∈ es, e.typ ≠ 0xFFFF
  sorted : es.Pairwise (fun a b => a.id < b.id)
  maxId : ∀ e ∈ es, e.id ≤ fs.at'.maxId
  maxLt : fs.at'.maxId < 2 ^ 64

theorem readNext_some {fs : FS} {es : List FileEntry} (hd : DirInv fs es) {b : Builder} {new : List FileEntry} {m i : Nat}
    (hw : BW fs b new m) (hr : BR fs b i) (hl : new.length ≤ 2518) (hi : i < es.length) :
    ∃ b', b.readNext = (.ok (some es[i]), b') ∧ BW fs b' new m ∧ BR fs b' (i + 1) ∧ b'.mng = b.mng := by
  have hcap := hd.cap
  obtain ⟨h1, h2, h3, h4⟩ := readNextSlice_spec hw hr hd.pos hl (by omega)
  refine ⟨b.readNextSlice.2, ?_, h2, h3, h4⟩
  unfold Builder.readNext
  rw [hr.unfinished]
  simp only [Bool.false_eq_true, if_false]
  have := hd.holds.entry i hi
  unfold ent at this
  rw [h1, this]
  simp only [hd.holds.notFooter _ (List.getElem_mem hi), Bool.false_eq_true, if_false]

theorem readNext_none {fs : FS} {es : List FileEntry} (hd : DirInv fs es) {b : Builder} {new : List FileEntry} {m : Nat}
    (hw : BW fs b new m) (hr : BR fs b es.length) (hl : new.length ≤ 2518) :
    ∃ b', b.readNext = (.ok none, b') ∧ BW fs b' new m ∧ b'.mng = b.mng := by
  obtain ⟨h1, h2, h3, h4⟩ := readNextSlice_spec hw hr hd.pos hl hd.cap
  refine ⟨{ b.readNextSlice.2 with readFinished := true }, ?_, ⟨h2.seq, h2.pos, h2.opened, h2.trace, h2.w, h2.count, h2.maxId, h2.data⟩, h4⟩
  unfold Builder.readNext
  rw [hr.unfinished]
  simp only [Bool.false_eq_true, if_false]
  obtain ⟨f, hf, hf2, _⟩ := hd.holds.footer
  unfold ent at hf
  rw [h1, hf]
  simp only [hf2, if_true]

/-- running maximum of the ids -/
def maxOf (m : Nat) (l : List FileEntry) : Nat := l.foldl (fun m e => if e.id > m then e.id else m) m

theorem maxOf_le {m : Nat} {l : List FileEntry} (h : ∀ e ∈ l, e.id ≤ m) : maxOf m l = m := by
  induction l with
  | nil => rfl
  | cons e l ih =>
    have h1 := h e (List.mem_cons_self ..)
    show maxOf (if e.id > m then e.id else m) l = m
    rw [if_neg (by omega)]
    exact ih (fun x hx => h x (List.mem_cons_of_mem _ hx))

theorem copyRest_spec {fs : FS} {es : List FileEntry} (hd : DirInv fs es) :
    ∀ (fuel : Nat) (b : Builder) (new : List FileEntry) (i : Nat), BW fs b new fs.at'.maxId → BR fs b i →
    i ≤ es.length → es.length - i < fuel → new.length + (es.length - i) ≤ 2518 →
    ∃ b', copyRest fuel b = (.ok (), b') ∧ BW fs b' (new ++ es.drop i) fs.at'.maxId ∧ b'.mng = b.mng := by
  intro fuel
  induction fuel with
  | zero => exact fun b new i _ _ _ h => absurd h (Nat.not_lt_zero _)
  | succ fuel ih =>
    intro b new i hw hr hi hf hl
    rw [copyRest]
    by_cases hlt : i < es.length
    · obtain ⟨b1, h1, h2, h3, h4⟩ := readNext_some hd hw hr (by omega) hlt
      rw [h1]
      simp only
      have hwr := h2.write es[i] (by omega)
      have hm := hd.maxId es[i] (List.getElem_mem hlt)
      rw [if_neg (by omega)] at hwr
      obtain ⟨b2, h5, h6, h7⟩ := ih (b1.write es[i]) (new ++ [es[i]]) (i + 1) hwr (h3.write _) (by omega) (by omega)
        (by rw [List.length_append, List.length_singleton]; omega)
      refine ⟨b2, h5, ?_, by rw [h7]; exact h4⟩
      rw [List.append_assoc] at h6
      rw [List.drop_eq_getElem_cons hlt]
      exact h6
    · have : i = es.length := by omega
      subst this
      obtain ⟨b1, h1, h2, h4⟩ := readNext_none hd hw hr (by omega)
      rw [h1]
      refine ⟨b1, rfl, ?_, h4⟩
      rw [List.drop_length, List.append_nil]; exact h2

theorem copyN_spec {fs : FS} {es : List FileEntry} (hd : DirInv fs es) :
    ∀ (n : Nat) (b : Builder) (new : List FileEntry) (i : Nat), BW fs b new fs.at'.maxId → BR fs b i →
    i + n ≤ es.length → new.length + n ≤ 2518 →
    ∃ b', copyN n b = (.ok (), b') ∧ BW fs b' (new ++ (es.drop i).take n) fs.at'.maxId ∧ BR fs b' (i + n) ∧ b'.mng = b.mng := by
  intro n
  induction n with
  | zero =>
    intro b new i hw hr hi hl
    refine ⟨b, rfl, ?_, hr, rfl⟩
    rw [List.take_zero, List.append_nil]; exact hw
  | succ n ih =>
    intro b new i hw hr hi hl
    rw [copyN]
    have hlt : i < es.length := by omega
    obtain ⟨b1, h1, h2, h3, h4⟩ := readNext_some hd hw hr (by omega) hlt
    rw [h1]
    simp only
    have hwr := h2.write es[i] (by omega)
    have hm := hd.maxId es[i] (List.getElem_mem hlt)
    rw [if_neg (by omega)] at hwr
    obtain ⟨b2, h5, h6, h8, h7⟩ := ih (b1.write es[i]) (new ++ [es[i]]) (i + 1) hwr (h3.write _) (by omega)
      (by rw [List.length_append, List.length_singleton]; omega)
    refine ⟨b2, h5, ?_, by rw [show i + (n + 1) = i + 1 + n by omega]; exact h8, by rw [h7]; exact h4⟩
    rw [List.append_assoc] at h6
    rw [List.drop_eq_getElem_cons hlt, List.take_succ_cons]
    exact h6

/-- a complete directory update: the flash operations issued and the resulting in-memory state -/
structure Rewrite (fs fs' : FS) (new : List FileEntry) (m : Nat) : Prop where
  seq : fs'.at'.seq = fs.at'.seq + 1
  pos : fs'.at'.position = nextPos fs
  opened : fs'.at'.opened = fs.at'.opened
  count : fs'.at'.fileCount = new.length
  maxId : fs'.at'.maxId = m
  trace : ∃ os, fs'.dev = fs.dev.ops os ∧ os.filter FlashOp.isTable =
    .erase (slotAddr (nextPos fs)) 32768 ::
      pages (slotAddr (nextPos fs)) (tableImage (fs.at'.seq + 1) new m) (13 * (new.length + 2) / 256 + 1)
  data : ∃ os, fs'.dev = fs.dev.ops os ∧ ∀ o ∈ os, o.isTable = false → ∀ fl, OpOk fl o

theorem BW.commit {fs : FS} {b : Builder} {new : List FileEntry} {m : Nat} (h : BW fs b new m) (hl : new.length ≤ 2518) :
    Rewrite fs b.commit new m ∧ b.commit.mng = b.mng := by
  have hlen := tableImage_length (fs.at'.seq + 1) new m
  have hx := trace_extend (footerSerialize m) h.trace h.w (by rw [bodyImage_footer, hlen]; omega)
  rw [bodyImage_footer] at hx
  obtain ⟨⟨os, h1, h2⟩, h3⟩ := hx
  obtain ⟨os', h4, h5⟩ := flush_spec h3 (b.w.extend b.dev (footerSerialize m)).2
  have hlt := nextPos_lt fs
  have this : ∀ o ∈ os', o.isTable = true := by
    intro o ho
    refine pages_isTable (slotAddr (nextPos fs)) (tableImage (fs.at'.seq + 1) new m)
      ((tableImage (fs.at'.seq + 1) new m).length / 256 + 1) ?_ o ?_
    · rw [slotAddr_eq, hlen]; omega
    · rw [← h5]; exact List.mem_append_right _ ho
  obtain ⟨os2, g1, g2⟩ := data_extend (footerSerialize m) h.data h.w (by rw [bodyImage_footer, hlen]; omega)
  have hdev : ∀ x, (b.w.extend b.dev (footerSerialize m)).2 = fs.dev.ops x → b.commit.dev = fs.dev.ops (x ++ os') := by
    intro x hx
    unfold Builder.commit
    simp only [Builder.extend, h.maxId]
    rw [h4, hx, Dev.ops_ops]
  refine ⟨⟨h.seq, h.pos, h.opened, h.count, h.maxId, ⟨os ++ os', hdev os h1, ?_⟩, ⟨os2 ++ os', hdev os2 g1, ?_⟩⟩, rfl⟩
  · rw [List.filter_append, h2, filter_eq_self_of this, List.cons_append, h5, hlen]
  · intro o ho hx
    rcases List.mem_append.mp ho with ho | ho
    · exact g2 o ho hx
    · rw [this o ho] at hx; exact absurd hx (by decide)

end Verif.Vlfs
