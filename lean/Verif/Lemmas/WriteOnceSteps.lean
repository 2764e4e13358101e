import Verif.Lemmas.SystemHist
/-
Every call of the file system issues only operations the chip can carry out exactly.
-/
namespace Verif.Vlfs
open Verif Verif.Spec

/-- `d'` comes from `d` by operations the chip can carry out exactly -/
def Good (d d' : Dev) : Prop := ∃ os, d' = d.ops os ∧ OpsOk d.flash os

theorem Good.refl (d : Dev) : Good d d := ⟨[], (Dev.ops_nil _).symm, trivial⟩
theorem Good.trans {a b c : Dev} (h1 : Good a b) (h2 : Good b c) : Good a c := by
  obtain ⟨o1, rfl, g1⟩ := h1
  obtain ⟨o2, rfl, g2⟩ := h2
  exact ⟨o1 ++ o2, Dev.ops_ops .., opsOk_append g1 g2⟩
theorem Good.op {d : Dev} {o : FlashOp} (h : OpOk d.flash o) : Good d (d.op o) := ⟨[o], rfl, opsOk_one h⟩
theorem Good.issued {d d' : Dev} (h : Good d d') {ops : List FlashOp} (hi : d'.log = d.log ++ ops) :
    OpsOk d.flash ops ∧ d'.flash = applyOps d.flash ops := by
  obtain ⟨os, rfl, g⟩ := h
  have : os = ops := List.append_cancel_left (show d.log ++ os = d.log ++ ops from hi)
  subst this
  exact ⟨g, rfl⟩

theorem claim_good {m : SectorsMng} {out : List Nat} (h : m.Inv out) (r1 r2 : Nat) (dev : Dev) (hb : AheadBlank m dev.flash) :
    Good dev (m.claim r1 r2 dev).2.2 := by
  rcases claim_spec h r1 r2 dev hb with ⟨x, _, _, _, _, _, _, _, os, h8, h9⟩ | ⟨h1, _⟩
  · exact ⟨os, h8, opsOk_erases h9 _⟩
  · rw [h1]; exact Good.refl _

/-! ### the directory -/

theorem OpOk.mkPage {fl : Flash} {a : Nat} {d : Bytes} (h1 : 256 ∣ a) (h2 : a + 256 ≤ chipBytes) (h3 : d.length ≤ 256)
    (h4 : ∀ i, i < 256 → fl (a + i) = 0xFF) : OpOk fl (.page a d) := ⟨h1, h2, h3, h4⟩
theorem OpOk.mkErase {fl : Flash} {a len : Nat} (h1 : len = 4096 ∨ len = 32768 ∨ len = 65536) (h2 : len ∣ a) (h3 : a + len ≤ chipBytes) :
    OpOk fl (.erase a len) := ⟨h1, h2, h3⟩
theorem chip_eq : chipBytes = 67108864 := rfl

attribute [local irreducible] chipBytes slotAddr in
theorem opsOk_pages {fl : Flash} {A : Nat} {S : Bytes} : ∀ n, 256 ∣ A → A + 256 * n ≤ chipBytes →
    (∀ a, A ≤ a → a < A + 256 * n → fl a = 0xFF) → OpsOk fl (pages A S n) := by
  intro n
  induction n with
  | zero => intro _ _ _; exact trivial
  | succ n ih =>
    intro hA hl hb
    rw [pages_succ]
    have k1 : 256 ∣ A + 256 * n := by clear hl hb ih; omega
    have k2 : A + 256 * n + 256 ≤ chipBytes := Nat.le_trans (Nat.le_of_eq (by rw [Nat.mul_succ, Nat.add_assoc])) hl
    have k3 : A + 256 * n ≤ chipBytes := Nat.le_trans (Nat.le_add_right _ _) k2
    clear hl
    refine opsOk_append (ih hA k3 fun a h1 h2 => hb a h1 (by omega)) (opsOk_one (OpOk.mkPage k1 k2 ?_ ?_))
    clear k2 k3
    · rw [List.length_take]; omega
    · intro i hi
      rw [applyOps_pages, if_neg (by omega)]
      exact hb _ (by omega) (by omega)

/-- the bytes of the chip an operation depends on and changes are on one side of the border between directory and data -/
theorem opOk_lowEq {f g : Flash} {o : FlashOp} (hl : LowEq f g) (ht : o.isTable = true) (h : OpOk f o) : OpOk g o := by
  cases o with
  | erase a len => exact h
  | page a d =>
    have ha : a < 131072 := of_decide_eq_true ht
    obtain ⟨h1, h2, h3, h4⟩ := h
    exact ⟨h1, h2, h3, fun i hi => by rw [← hl (a + i) (by omega)]; exact h4 i hi⟩

theorem opsOk_mix : ∀ (os : List FlashOp) (fl fl' : Flash), LowEq fl fl' → OpsOk fl' (os.filter FlashOp.isTable) →
    (∀ o ∈ os, o.isTable = false → ∀ fl, OpOk fl o) → OpsOk fl os := by
  intro os
  induction os with
  | nil => intros; trivial
  | cons o os ih =>
    intro fl fl' hl hf hd
    by_cases ht : o.isTable = true
    · rw [List.filter_cons_of_pos ht] at hf
      exact ⟨opOk_lowEq hl.symm ht hf.1, ih _ _ (apply_lowEq hl o) hf.2 fun x hx => hd x (by simp [hx])⟩
    · rw [List.filter_cons_of_neg ht] at hf
      have ht' : o.isTable = false := by simpa using ht
      exact ⟨hd o (by simp) ht' fl, ih _ _ ((apply_data_lowEq fl o ht').trans hl) hf fun x hx => hd x (by simp [hx])⟩

theorem rewrite_good {fs fs' : FS} {new : List FileEntry} {m : Nat} (h : Rewrite fs fs' new m) (hl : new.length ≤ 2518) :
    Good fs.dev fs'.dev := by
  obtain ⟨os, h1, h2⟩ := h.trace
  obtain ⟨os', h3, h4⟩ := h.data
  have : os' = os := by rw [h1] at h3; exact (ops_inj h3).symm
  subst this
  refine ⟨os', h1, opsOk_mix os' _ fs.dev.flash (LowEq.refl _) ?_ h4⟩
  rw [h2]
  have hlt := nextPos_lt fs
  have e : slotAddr (nextPos fs) = nextPos fs * 32768 := slotAddr_eq _
  refine ⟨OpOk.mkErase (.inr (.inl rfl)) (by rw [e]; omega) (by rw [e, chip_eq]; omega), ?_⟩
  refine opsOk_pages _ (by rw [e]; omega) (by rw [e, chip_eq]; omega) ?_
  intro a g1 g2
  simp only [FlashOp.apply]
  rw [e] at g1 g2 ⊢
  have g3 : a < nextPos fs * 32768 + 32768 := by
    refine Nat.lt_of_lt_of_le g2 ?_
    clear g2 g1 h1 h2 h3 h4 h e
    omega
  rw [if_pos ⟨g1, g3⟩]

theorem call_good {fs fs' : FS} {es es' : List FileEntry} {new : List Nat} (hr : ReachInv fs es [])
    (hc : Call fs es fs' es' new) (hok : countersOk fs) : Good fs.dev fs'.dev := by
  obtain ⟨m, h1, h2, _⟩ := call_rewrite hr hc hok
  exact rewrite_good h1 h2.cap

/-! ### start -/

theorem readLatest_false (fl : Flash) (at' : AT) (h : (readLatest fl at').2 = false) : (readLatest fl at').1 = at' := by
  have key : ∀ (l : List Nat) (st : AT × Bool), (st.2 = false → st.1 = at') →
      ((l.foldl (readLatestStep fl) st).2 = false → (l.foldl (readLatestStep fl) st).1 = at') := by
    intro l
    induction l with
    | nil => exact fun _ h => h
    | cons i l ih =>
      intro st hst
      refine ih _ ?_
      unfold readLatestStep
      split
      · exact hst
      · split
        · intro hx; exact absurd hx (by simp)
        · exact hst
  exact key _ _ (fun _ => rfl) h

theorem writeEmpty_good (fl : Flash) : Good ⟨fl, []⟩ (writeEmptyTable AT.default ⟨fl, []⟩) := by
  have hw0 : PageWriter.Inv ⟨AT.default.address, []⟩ (slotAddr 0) [] := ⟨by simp [AT.default, AT.address], by simp⟩
  unfold writeEmptyTable
  simp only
  obtain ⟨a1, os1, a2, a3⟩ := extend_spec hw0 ((Dev.mk fl []).op (.erase AT.default.address 4096)) (headerSerialize AT.default.seq)
  obtain ⟨b1, os2, b2, b3⟩ := extend_spec a1
    (PageWriter.extend ⟨AT.default.address, []⟩ ((Dev.mk fl []).op (.erase AT.default.address 4096)) (headerSerialize AT.default.seq)).2 (footerSerialize AT.default.maxId)
  obtain ⟨os3, c2, c3⟩ := flush_spec b1 (PageWriter.extend
    (PageWriter.extend ⟨AT.default.address, []⟩ ((Dev.mk fl []).op (.erase AT.default.address 4096)) (headerSerialize AT.default.seq)).1
    (PageWriter.extend ⟨AT.default.address, []⟩ ((Dev.mk fl []).op (.erase AT.default.address 4096)) (headerSerialize AT.default.seq)).2 (footerSerialize AT.default.maxId)).2
  have hl1 : ([] ++ headerSerialize AT.default.seq).length = 13 := by rw [List.nil_append, headerSerialize_length]
  have hl2 : ([] ++ headerSerialize AT.default.seq ++ footerSerialize AT.default.maxId).length ≤ 32 := by
    rw [List.length_append, hl1]
    show 13 + (footerSerialize AT.default.maxId).length ≤ 32
    decide +kernel
  have e2 : ([] ++ headerSerialize AT.default.seq ++ footerSerialize AT.default.maxId).length / 256 = 0 := by omega
  have e1 : ([] ++ headerSerialize AT.default.seq).length / 256 = 0 := by omega
  rw [e1] at a3 b3
  rw [e2] at b3 c3
  have z1 : os1 = [] := by simpa [pages] using a3
  have z2 : os2 = [] := by simpa [pages] using b3
  have z3 : os3 = pages (slotAddr 0) ([] ++ headerSerialize AT.default.seq ++ footerSerialize AT.default.maxId) 1 := by simpa [pages] using c3
  rw [c2, b2, a2, z1, z2, Dev.ops_nil, Dev.ops_nil]
  refine Good.trans (Good.op (OpOk.mkErase (.inl rfl) ?_ ?_)) ⟨os3, rfl, ?_⟩
  · show 4096 ∣ slotAddr 0; rw [slotAddr_eq]; omega
  · show slotAddr 0 + 4096 ≤ _; rw [slotAddr_eq, chip_eq]; omega
  · rw [z3]
    refine opsOk_pages 1 (by rw [slotAddr_eq]; omega) (by rw [slotAddr_eq, chip_eq]; omega) ?_
    intro a g1 g2
    have e0 : slotAddr 0 = 0 := by rw [slotAddr_eq]
    rw [e0] at g1 g2
    have ha : AT.default.address = 0 := e0
    rw [ha]
    exact if_pos ⟨by omega, by omega⟩

theorem mount_good (fl : Flash) : Good ⟨fl, []⟩ (FS.mount fl).2.dev := by
  unfold FS.mount
  simp only
  split
  · split
    · exact Good.refl _
    · split
      · exact Good.refl _
      · exact Good.refl _
  · rename_i h
    have h : (readLatest fl AT.default).2 = false := by simpa using h
    show Good _ (writeEmptyTable (readLatest fl AT.default).1 _)
    rw [readLatest_false fl _ h]
    exact writeEmpty_good fl

/-! ### open for append -/

theorem copyBuf_length (src : Nat) (patch : Option Nat) (i : Nat) (fl : Flash) : (copyBuf src patch i fl).length = 256 := by
  have e : PAGE_SIZE = 256 := rfl
  unfold copyBuf
  simp only
  split
  · split
    · rw [put_length _ _ _ (by rw [u16x4_length, Flash.read_length, e]), Flash.read_length, e]
    · rw [Flash.read_length, e]
  · rw [Flash.read_length, e]

theorem copyPages_good {src dst : Nat} (patch : Option Nat) (hd : dst < 16384) : ∀ (n i : Nat) (dev : Dev), i + n ≤ 16 →
    (∀ j, 256 * i ≤ j → j < 4096 → dev.flash (dst * 4096 + j) = 0xFF) → Good dev (copyPages src dst patch n i dev) := by
  intro n
  induction n with
  | zero => intro i dev _ _; exact Good.refl _
  | succ n ih =>
    intro i dev hn hb
    have e : dst * SECTOR_SIZE + i * PAGE_SIZE = dst * 4096 + 256 * i := by
      show dst * 4096 + i * 256 = _; omega
    unfold copyPages
    rw [e]
    refine Good.trans (Good.op (opOk_page hd (by omega) (by rw [copyBuf_length]) fun k hk => by rw [Nat.add_assoc]; exact hb _ (by omega) (by omega))) (ih _ _ (by omega) ?_)
    intro j h1 h2
    show (FlashOp.page _ _).apply dev.flash _ = _
    rw [apply_untouched, hb j (by omega) h2]
    show ¬ (dst * 4096 + 256 * i ≤ dst * 4096 + j ∧ dst * 4096 + j < dst * 4096 + 256 * i + 256)
    omega

theorem reopen_good {dev : Dev} {last temp new : Nat} (hl : last < 16384) (ht : temp < 16384)
    (hb : ∀ j, j < 4096 → dev.flash (temp * 4096 + j) = 0xFF) :
    Good dev (copyPages temp last none 16 0 ((copyPages last temp (some new) 16 0 dev).op (.erase (last * SECTOR_SIZE) SECTOR_SIZE))) := by
  have e : SECTOR_SIZE = 4096 := rfl
  rw [e]
  refine (copyPages_good _ ht 16 0 dev (by omega) fun j _ h => hb j h).trans ((Good.op (opOk_sector hl)).trans
    (copyPages_good _ hl 16 0 _ (by omega) fun j _ h => ?_))
  show (FlashOp.erase _ _).apply _ _ = _
  simp only [FlashOp.apply]
  rw [if_pos (by omega)]

theorem openWrite_good {crc : Bytes → UInt32} {fs : FS} {files : List FileSt} {leak : List Nat} (hs : Sys crc fs files leak) {f : FileSt}
    (hmem : f ∈ files) (hw : f.k.writer = none) (hdm : f.k.damaged = false) (hok : countersOk fs) (rng : Nat → Nat) :
    Good fs.dev (fs.openForWrite f.k.id rng).2.dev := by
  obtain ⟨j, hj⟩ := hs.find hmem
  have hid := (hs.ok f hmem).id
  unfold FS.openForWrite
  rw [hj]
  simp only
  rw [hid]
  by_cases hop : fs.at'.isOpened f.k.id = true
  · rw [if_pos hop]; exact Good.refl _
  rw [if_neg hop]
  by_cases hlen : fs.at'.opened.length < 32
  case neg => rw [markOpened_err hlen]; exact Good.refl _
  rw [markOpened_ok hlen]
  simp only
  have hs1 : Sys crc { fs with at' := { fs.at' with opened := fs.at'.opened ++ [f.k.id] } } files leak :=
    hs.opened rfl rfl rfl rfl rfl rfl (fun g _ _ _ hg => List.mem_append_left _ hg)
  have g0 := claim_good hs.inv (rng 0) (rng 1) fs.dev hs.blank
  rcases hs1.claim (rng 0) (rng 1) with ⟨new, c1, c2, c3, c4, c5, _⟩ | ⟨c1, cf⟩
  case inr =>
    have c1 : fs.mng.claim (rng 0) (rng 1) fs.dev = (.error .deviceFull, fs.mng, fs.dev) := c1
    rw [c1]
    exact Good.refl _
  have c1 : (fs.mng.claim (rng 0) (rng 1) fs.dev).1 = .ok new := c1
  have c2 : Sys crc ⟨{ fs.at' with opened := fs.at'.opened ++ [f.k.id] }, (fs.mng.claim (rng 0) (rng 1) fs.dev).2.1,
    (fs.mng.claim (rng 0) (rng 1) fs.dev).2.2⟩ files (new :: leak) := c2
  generalize fs.mng.claim (rng 0) (rng 1) fs.dev = r at c1 c2 g0
  obtain ⟨r0, m, d⟩ := r
  simp only at c1 c2 g0
  subst c1
  simp only
  cases hfirst : f.e.first with
  | none =>
    simp only
    have hnew : new < 0xFFFF := by have := c3.2; unfold SECTORS_COUNT at this; omega
    rcases setFirstSector_spec c2.reach.dir f.k.id (some new) with ⟨_, fs', g1, g2, g3⟩ | ⟨hne, _⟩
    case inr => exact absurd hid (hne f.e (List.mem_map.mpr ⟨f, hmem, rfl⟩))
    have hg := call_good c2.reach (.setFirst f.k.id (some new) fs' g1 (fun s hs => by injection hs with hs; omega)) hok
    rw [g1]
    exact g0.trans hg
  | some first =>
    simp only
    obtain ⟨hst, _⟩ := (c2.ok f hmem).closed hw hdm
    have hod := c2.own_data hmem
    have hown : f.own = secs f.segs := by unfold FileSt.own; rw [hw]
    rw [hown] at hod
    have hl := data_length hod.1 hod.2
    rw [List.length_map] at hl
    obtain ⟨init, last, D, l1, l2, l3, l4⟩ := lastSector_stored hst first (SECTORS_COUNT + 1) hfirst (by unfold SECTORS_COUNT; omega)
      (fun s hsm => by have := (hod.2 s hsm).2; unfold SECTORS_COUNT at this; omega)
    have l2 : lastSector (SECTORS_COUNT + 1) d.flash first = .ok last := l2
    rw [l2]
    simp only
    have hdl : InData last := hod.2 last (by rw [l1]; simp)
    have gg := claim_good c2.inv (rng 2) (rng 3) d c2.blank
    have gg : Good d (m.claim (rng 2) (rng 3) d).2.2 := gg
    rcases c2.claim (rng 2) (rng 3) with ⟨temp, e1, e2, e3, e4, e5, _⟩ | ⟨e1, ef⟩
    case inr =>
      have e1 : m.claim (rng 2) (rng 3) d = (.error .deviceFull, m, d) := e1
      rw [e1]
      exact g0
    have e1 : (m.claim (rng 2) (rng 3) d).1 = .ok temp := e1
    have e4 : ∀ j, j < 4096 → (m.claim (rng 2) (rng 3) d).2.2.flash (temp * 4096 + j) = 0xFF := e4
    generalize m.claim (rng 2) (rng 3) d = r at e1 e4 gg
    obtain ⟨r0, m2, d2⟩ := r
    simp only at e1 e4 gg
    subst e1
    simp only
    exact g0.trans (gg.trans (reopen_good hdl.2 e3.2 e4))

/-! ### every step -/

theorem writerCall_good {crc : Bytes → UInt32} {fs fs' : FS} {ks a b : List Known} {k : Known} {w : FileWriter} {slice : Bytes}
    (h : SysInv crc fs ks) (hk : ks = a ++ k :: b) (hw : k.writer = some w) (hc : WriterCall crc fs w fs' slice) : Good fs.dev fs'.dev := by
  obtain ⟨files, leak, hf, hs⟩ := h
  rw [hk] at hf
  obtain ⟨as, f, bs, rfl, ha, rfl, hb⟩ := split_files hf
  obtain ⟨first, hfirst, hwst⟩ := hs.wst hw
  cases hc with
  | extend rng slice =>
    obtain ⟨segs', D', os, pre, hc⟩ := extend_call hwst rng slice
    exact ⟨os, hc.ops, hc.tr.ok⟩
  | flush r1 r2 =>
    obtain ⟨segs', D', os, hc, _⟩ := flush_call hwst r1 r2
    exact ⟨os, hc.ops, hc.tr.ok⟩
  | close =>
    obtain ⟨os, c1, c2, c3, c4⟩ := close_call hwst
    refine ⟨os, ?_, c4.ok⟩
    show (FS.markClosed { fs with dev := w.close crc fs.dev } w.id).dev = _
    rw [(markClosed_fields _ _).1]
    exact c1

theorem sys_len {crc : Bytes → UInt32} {fs : FS} {files : List FileSt} {leak : List Nat} {ks : List Known} (_ : Sys crc fs files leak)
    (hf : files.map (·.k) = ks) : (files.map (·.e)).length = ks.length := by rw [← hf]; simp

theorem dirStep_good {crc : Bytes → UInt32} {fs fs' : FS} {ks ks' : List Known} (h : SysInv crc fs ks) (hst : DirStep fs ks fs' ks') :
    Good fs.dev fs'.dev := by
  obtain ⟨files, leak, hf, hs⟩ := h
  have hl := sys_len hs hf
  cases hst with
  | create typ e fs' hc hcap ht hok => exact call_good hs.reach (.create typ e fs' hc (by omega) ht) hok
  | remove filter n fs' hc hsafe hok => exact call_good hs.reach (.remove _ n.1 n.2 fs' hc) hok

theorem rotate_good {crc : Bytes → UInt32} {fs fs' : FS} {ks : List Known} (h : SysInv crc fs ks) {typ n r1 r2 : Nat} {e : FileEntry}
    (hr : fs.rotate typ n r1 r2 = (.ok e, fs')) (hcap : ks.length < 2518) (ht : typ < 0x4000) (hok : countersOk fs) : Good fs.dev fs'.dev := by
  obtain ⟨files, leak, hf, hs⟩ := h
  have hl := sys_len hs hf
  refine call_good hs.reach (.rotate typ n r1 r2 e fs' hr ?_ ht) hok
  exact Nat.lt_of_le_of_lt (List.length_filter_le ..) (by omega)

theorem step_good {crc : Bytes → UInt32} {fs fs' : FS} {ks ks' : List Known} (h : SysInv crc fs ks) (hst : Step crc fs ks fs' ks') :
    Good fs.dev fs'.dev := by
  cases hst with
  | dir hd => exact dirStep_good h hd
  | createOpen typ r1 r2 e fs' hc hcap ht hok =>
    obtain ⟨files, leak, hf, hs⟩ := h
    have hl := sys_len hs hf
    exact call_good hs.reach (.createOpen typ r1 r2 e fs' hc (by omega) ht) hok
  | rotate typ n r1 r2 e fs' hr hw hcap ht hok => exact rotate_good h hr hcap ht hok
  | openWrite id rng w fs' a b k hk hid hw hd ho hok =>
    obtain ⟨files, leak, hf, hs⟩ := h
    rw [hk] at hf
    obtain ⟨as, f, bs, rfl, ha, rfl, hb⟩ := split_files hf
    have := openWrite_good hs (f := f) (by simp) hw hd hok rng
    rw [hid, ho] at this
    exact this
  | openWriteErr id rng er fs' hsafe hd ho hok =>
    by_cases hex : ∃ k ∈ ks, k.id = id
    · obtain ⟨k, hk, rfl⟩ := hex
      cases hw : k.writer with
      | some w =>
        obtain ⟨_, g1, _⟩ := guarded_inUse h hk (by rw [hw]; rfl) (hsafe k hk rfl (by rw [hw]; rfl))
        rw [g1 rng] at ho
        injection ho with _ ho
        rw [← ho]; exact Good.refl _
      | none =>
        obtain ⟨files, leak, hf, hs⟩ := h
        rw [← hf] at hk
        obtain ⟨f, hfm, rfl⟩ := List.mem_map.mp hk
        have := openWrite_good hs hfm hw (hd f.k (by rw [← hf]; exact hk) rfl) hok rng
        rw [ho] at this
        exact this
    · rw [step_openWrite_missing h (fun k hk he => hex ⟨k, hk, he⟩) rng] at ho
      injection ho with _ ho
      rw [← ho]; exact Good.refl _
  | extend rng slice w w' fs' a b k hk hw hm hx =>
    have := writerCall_good h hk hw (.extend rng slice)
    rw [hx] at this; exact this
  | extendErr rng slice er w w' fs' a b k hk hw hm hx =>
    have := writerCall_good h hk hw (.extend rng slice)
    rw [hx] at this; exact this
  | flush r1 r2 w w' fs' a b k hk hw hx =>
    have := writerCall_good h hk hw (.flush r1 r2)
    rw [hx] at this; exact this
  | flushErr r1 r2 er w w' fs' a b k hk hw hx =>
    have := writerCall_good h hk hw (.flush r1 r2)
    rw [hx] at this; exact this
  | close w a b k hk hw => exact writerCall_good h hk hw .close
  | openRead id =>
    have : (fs.openForRead id).2.dev = fs.dev := by
      unfold FS.openForRead
      split
      · rfl
      · rfl
      · split
        · rfl
        · split
          · rename_i h
            unfold FS.markOpened at h
            split at h <;> (injection h with _ h; rw [← h])
          · rename_i h
            unfold FS.markOpened at h
            split at h <;> (injection h with _ h; rw [← h])
    rw [this]; exact Good.refl _
  | closeRead r hs =>
    show Good fs.dev (fs.markClosed r.id).dev
    rw [(markClosed_fields _ _).1]; exact Good.refl _
  | learn => exact Good.refl _

end Verif.Vlfs
