import Verif.Spec.TypedIo
import Verif.Props.Files
/-
C110: numbers written to a file are read back.
-/
namespace Verif.Props
open Verif Verif.Vlfs Verif.Spec Typed

/-- the bytes of the numbers -/
def numberBytes (l : List (Ty × Nat)) : Bytes := l.flatMap fun x => beBytes x.1.width x.2

/-- a typed program as operations on bytes -/
def tOpBytes : TOp → WriterOp
  | .put rng t v => .write rng (beBytes t.width v)
  | .flush r1 r2 => .flush r1 r2

theorem runTyped_eq (crc : Bytes → UInt32) (fs : FS) (w : FileWriter) (l : List TOp) : runTyped crc fs w l = runWriter crc fs w (l.map tOpBytes) := by
  induction l generalizing fs w with
  | nil => rfl
  | cons o l ih =>
    cases o <;> simp only [runTyped, putNumber, List.map_cons, tOpBytes, runWriter] <;> split <;> simp_all

theorem writtenBytes_typed (l : List TOp) : writtenBytes (l.map tOpBytes) = numberBytes (numbers l) := by
  induction l with
  | nil => rfl
  | cons o l ih => cases o <;> simp_all [tOpBytes, writtenBytes, numbers, numberBytes]

theorem typedReads_eq (crc : Bytes → UInt32) (fl : Flash) (r : FileReader) (ts : List Ty) (l : List (Bytes × ReadStatus)) (hl : l.length = ts.length)
    (h : reads crc fl r (ts.map Ty.width) = l.map .ok) : typedReads crc fl r ts = (List.zipWith decode ts l).map .ok := by
  induction ts generalizing r l with
  | nil => cases l <;> rfl
  | cons t ts ih =>
    cases l with
    | nil => cases hl
    | cons x l =>
      simp only [List.map_cons, reads, List.cons.injEq] at h
      simp only [typedReads, List.zipWith_cons_cons, List.map_cons]
      obtain ⟨h1, h2⟩ := h
      obtain ⟨res, hres⟩ : ∃ res, r.readSlice crc fl t.width = res := ⟨_, rfl⟩
      obtain ⟨a, r'⟩ := res
      rw [hres] at h1 h2
      have e : readTyped crc fl r t = (.ok (decode t x), r') := by
        unfold readTyped
        rw [hres]
        cases h1
        rfl
      rw [e, ih r' l (by simpa using hl) h2]

theorem consumes_length (items : List Item) (ns : List Nat) : (consumes items ns).length = ns.length := by
  induction ns generalizing items with
  | nil => rfl
  | cons n ns ih => simp [consumes, ih]

theorem consume_bytes (a b : Bytes) : consume ((a ++ b).map .byte) a.length = (a, .ok, b.map .byte) := by
  induction a with
  | nil => cases b <;> rfl
  | cons x a ih => simp only [List.cons_append, List.map_cons, List.length_cons, consume, ih]

/-- reading the types of the numbers takes them one by one; what is read after that ends -/
theorem decode_numbers (l : List (Ty × Nat)) (hv : ∀ x ∈ l, x.2 < 256 ^ x.1.width) (more : List Ty) :
    List.zipWith decode (l.map (·.1) ++ more) (consumes ((numberBytes l).map .byte) ((l.map (·.1) ++ more).map Ty.width)) =
      (l.map fun x => (some x.2, ReadStatus.ok)) ++ more.map fun _ => (none, .endOfFile) := by
  induction l with
  | nil =>
    simp only [List.map_nil, List.nil_append, numberBytes, List.flatMap_nil]
    induction more with
    | nil => rfl
    | cons t more ih =>
      have e : ∀ t : Ty, consume [] t.width = ([], .endOfFile, []) := by intro t; cases t <;> rfl
      have e2 : ∀ t : Ty, decode t ([], .endOfFile) = (none, .endOfFile) := by intro t; cases t <;> rfl
      simp only [List.map_cons, consumes, e, List.zipWith_cons_cons, e2, ih]
  | cons x l ih =>
    have e : consume ((numberBytes (x :: l)).map .byte) x.1.width = (beBytes x.1.width x.2, .ok, (numberBytes l).map .byte) := by
      have := consume_bytes (beBytes x.1.width x.2) (numberBytes l)
      rwa [beBytes_length] at this
    simp only [List.map_cons, List.cons_append, consumes, List.zipWith_cons_cons, e, ih (fun y hy => hv y (List.mem_cons_of_mem _ hy))]
    congr 1
    simp only [decode, beBytes_length, if_true, beNat_beBytes_of_lt (hv x List.mem_cons_self)]

theorem readsNumbers_of_readsAs {crc : Bytes → UInt32} {fs : FS} {id : Nat} {l : List (Ty × Nat)} (hv : ∀ x ∈ l, x.2 < 256 ^ x.1.width) (h : ReadsAs crc fs id (numberBytes l)) :
    ReadsNumbers crc fs id l := by
  obtain ⟨r, fs', h1, h2⟩ := h
  refine ⟨r, fs', h1, fun more => ?_⟩
  rw [typedReads_eq crc _ r _ _ (by rw [consumes_length, List.length_map]) (h2 _), decode_numbers l hv more]
  simp

/-- the numbers an integer type can hold -/
def tyLimit : Ty → Nat
  | .u8 => 2 ^ 8
  | .u16 => 2 ^ 16
  | .u32 => 2 ^ 32
  | .u64 => 2 ^ 64

/-- how many bytes of a file a number takes -/
def tyBytes : Ty → Nat
  | .u8 => 1
  | .u16 => 2
  | .u32 => 4
  | .u64 => 8

theorem tyLimit_eq (t : Ty) : tyLimit t = 256 ^ t.width := by cases t <;> rfl
theorem tyBytes_eq : Ty.width = tyBytes := by funext t; cases t <;> rfl

/-- C110: a new file that a program writes numbers to, with flushes wherever it likes, gives after closing the same numbers to a reader that asks for the same types, and then says that it ends -/
theorem C110_numbers {crc : Bytes → UInt32} {fs fs0 fs1 fs2 : FS} {ks : List Known} {typ : Nat} {e : FileEntry} {rng : Nat → Nat} {w w' : FileWriter} {l : List TOp}
    (hr : Hist crc fs ks) (hcap : ks.length < 2518) (ht : typ < 0x4000) (hok : countersOk fs) (hok0 : countersOk fs0)
    (hc : fs.createFile typ = (.ok e, fs0)) (ho : fs0.openForWrite e.id rng = (.ok w, fs1)) (hrun : runTyped crc fs1 w l = (.ok (), w', fs2))
    (hv : ∀ x ∈ numbers l, x.2 < tyLimit x.1) :
    ReadsNumbers crc (fs2.closeWriter crc w') e.id (numbers l) := by
  simp only [tyLimit_eq] at hv
  rw [runTyped_eq] at hrun
  refine readsNumbers_of_readsAs hv ?_
  have := C07_write_read hr hcap ht hok hok0 hc ho hrun
  rwa [writtenBytes_typed] at this

/-- C110: asked for other types, a file that reads as `c` answers with the numbers made of its bytes; a read that meets the end gives no number, says so, and the bytes it got are gone -/
theorem C110_any {crc : Bytes → UInt32} {fs : FS} {id : Nat} {c : Bytes} (h : ReadsAs crc fs id c) :
    ∃ r fs', fs.openForRead id = (.ok r, fs') ∧ ∀ (ts : List Ty) (t : Ty) (more : List Ty), (ts.map tyBytes).sum ≤ c.length → c.length < (ts.map tyBytes).sum + tyBytes t →
      typedReads crc fs.dev.flash r (ts ++ t :: more) =
        ((List.range ts.length).map fun i => .ok (some (beNat ((c.drop ((ts.take i).map tyBytes).sum).take ((ts.map tyBytes).getD i 0))), .ok)) ++ (t :: more).map fun _ => .ok (none, .endOfFile) := by
  rw [← tyBytes_eq]
  obtain ⟨r, fs', h1, h2⟩ := h
  refine ⟨r, fs', h1, fun ts t more hl hl2 => ?_⟩
  rw [typedReads_eq crc _ r _ _ (by rw [consumes_length, List.length_map]) (h2 _)]
  clear h2 h1
  have e0 : ∀ t : Ty, consume [] t.width = ([], .endOfFile, []) := by intro t; cases t <;> rfl
  have e2 : ∀ t : Ty, decode t ([], .endOfFile) = (none, .endOfFile) := by intro t; cases t <;> rfl
  have short : ∀ (c : Bytes) (n : Nat), c.length < n → consume (c.map .byte) n = (c, .endOfFile, []) := by
    intro c
    induction c with
    | nil => intro n hn; cases n with | zero => simp at hn | succ => rfl
    | cons x c ih =>
      intro n hn
      cases n with
      | zero => simp at hn
      | succ n => simp only [List.map_cons, consume, ih n (by simpa using hn)]
  induction ts generalizing c with
  | nil =>
    simp only [List.map_nil, List.sum_nil, Nat.zero_add] at hl2
    have tail : ∀ more : List Ty, List.zipWith decode more (consumes [] (more.map Ty.width)) = more.map fun _ => (none, ReadStatus.endOfFile) := by
      intro more
      induction more with
      | nil => rfl
      | cons t more ih => simp only [List.map_cons, consumes, e0, List.zipWith_cons_cons, e2, ih]
    simp only [List.nil_append, List.map_cons, consumes, short c _ hl2, List.zipWith_cons_cons, tail]
    simp [decode, Nat.ne_of_lt hl2]
  | cons s ts ih =>
    simp only [List.map_cons, List.sum_cons] at hl hl2
    have e : consume (c.map .byte) s.width = (c.take s.width, .ok, (c.drop s.width).map .byte) := by
      have := consume_bytes (c.take s.width) (c.drop s.width)
      rwa [List.take_append_drop, List.length_take, Nat.min_eq_left (by omega)] at this
    have := @ih (c.drop s.width) (by rw [List.length_drop]; omega) (by rw [List.length_drop]; omega)
    simp only [List.cons_append, List.map_cons, consumes, e, List.zipWith_cons_cons, this]
    simp only [decode, List.length_take, Nat.min_eq_left (show s.width ≤ c.length by omega), if_true]
    rw [List.length_cons, List.range_succ_eq_map]
    simp [Function.comp_def]

/-- a file with the bytes 1, 2, 3: read as a byte and a 16-bit number -/
example (crc : Bytes → UInt32) : ∃ fs id, ReadsAs crc fs id [1, 2, 3] ∧ ReadsNumbers crc fs id [(.u8, 1), (.u16, 0x0203)] := by
  obtain ⟨fs, s, h1, h2, h3, h4, h5⟩ := demo_closed crc
  have hok : countersOk fs := by unfold countersOk; rw [h4, h5]; exact ⟨by decide, by decide⟩
  rcases step_openWrite (hist_inv h1) (a := []) (b := []) rfl rfl rfl hok (fun _ => 0) with ⟨g, _⟩ | ⟨g, _⟩ | ⟨g, _⟩ | ⟨_, _, w, fs1, g, _⟩
  · rw [h2] at g; exact absurd g List.not_mem_nil
  · rw [h2] at g; exact absurd g (by decide)
  · rw [(freeBytes_eq h3.inv).1] at g; simp [FileSt.own, secs] at g
  · have := (C10_reopen_appends (ops := []) (a := []) (b := []) h1 rfl rfl rfl hok g rfl).1
    exact ⟨_, _, this, readsNumbers_of_readsAs (by decide) this⟩

end Verif.Props
