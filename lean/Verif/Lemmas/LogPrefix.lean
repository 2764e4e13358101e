import Verif.Lemmas.DeltaLoggerRun
/-
Reading a log that was cut off: every entry that is completely there is returned before the end of the log is reported.
-/
namespace Verif.Log
open Verif.Bit Verif.Delta

variable {TS TD D DD : Type}

theorem seg_unique {α : Type} {p : Prim α} {v v' : α} {a a' x y : List Bool} (h : Seg p v a) (h' : Seg p v' a') (e : a ++ x = a' ++ y) : v = v' ∧ a = a' ∧ x = y := by
  obtain ⟨e1, e2⟩ := List.append_inj e (h.1.trans h'.1.symm)
  subst e1
  have := (h.2 []).symm.trans (h'.2 [])
  injection this with this
  exact ⟨this, rfl, e2⟩

/-- an entry at a position is determined by the bits there -/
theorem ent_unique {c : Cfg TS TD D DD} {pos : Nat} {e e' : Ent TS TD D DD} {eb eb' x y : List Bool} (h : EntBits c e eb) (h' : EntBits c e' eb')
    (ha : e = .eob → (pos + eb.length) % 8 = 0) (ha' : e' = .eob → (pos + eb'.length) % 8 = 0) (he : eb ++ x = eb' ++ y) : e = e' ∧ eb = eb' ∧ x = y := by
  cases h <;> cases h' <;> simp only [List.cons_append, List.nil_append, List.cons.injEq, Bool.true_eq_false, Bool.false_eq_true, reduceCtorEq, false_and, and_false, true_and] at he
  · rename_i h1 h2 _ _ _ _ h3 h4
    rw [List.append_assoc, List.append_assoc] at he
    obtain ⟨e1, e2, e3⟩ := seg_unique h1 h3 he
    obtain ⟨e4, e5, e6⟩ := seg_unique h2 h4 e3
    subst e1; subst e2; subst e4; subst e5; exact ⟨rfl, rfl, e6⟩
  · rename_i h1 h2 _ _ _ _ h3 h4
    rw [List.append_assoc, List.append_assoc] at he
    obtain ⟨e1, e2, e3⟩ := seg_unique h1 h3 he
    obtain ⟨e4, e5, e6⟩ := seg_unique h2 h4 e3
    subst e1; subst e2; subst e4; subst e5; exact ⟨rfl, rfl, e6⟩
  · rename_i h1 h2 _ _ _ _ h3 h4
    rw [List.append_assoc, List.append_assoc] at he
    obtain ⟨e1, e2, e3⟩ := seg_unique h1 h3 he
    obtain ⟨e4, e5, e6⟩ := seg_unique h2 h4 e3
    subst e1; subst e2; subst e4; subst e5; exact ⟨rfl, rfl, e6⟩
  · rename_i h1 _ _ h3
    obtain ⟨e1, e2, e3⟩ := seg_unique h1 h3 he
    subst e1; subst e2; exact ⟨rfl, rfl, e3⟩
  · rename_i p hp p' hp'
    have k1 := ha rfl
    have k2 := ha' rfl
    simp only [List.length_append, List.length_cons, List.length_nil] at k1 k2
    have hl : p.length = p'.length := by omega
    obtain ⟨e1, e2⟩ := List.append_inj he hl
    subst e1
    exact ⟨rfl, rfl, e2⟩

/-- the entries `A` from position `pos` on are completely within `avail` -/
def Covers (c : Cfg TS TD D DD) (pos : Nat) (avail : List Bool) (A : List (Ent TS TD D DD)) : Prop := ∃ bA, Str c pos A bA ∧ bA <+: avail

/-- splitting off the first entry -/
theorem Covers.uncons {c : Cfg TS TD D DD} {pos : Nat} {e : Ent TS TD D DD} {eb tail : List Bool} {A : List (Ent TS TD D DD)} (he : EntBits c e eb)
    (ha : e = .eob → (pos + eb.length) % 8 = 0) (h : Covers c pos (eb ++ tail) A) : A = [] ∨ ∃ A', A = e :: A' ∧ Covers c (pos + eb.length) tail A' := by
  obtain ⟨bA, h1, h2⟩ := h
  cases h1 with
  | nil => exact .inl rfl
  | @cons _ e' eb' es bits he' ha' hs =>
    right
    obtain ⟨z, hz⟩ := h2
    rw [List.append_assoc] at hz
    obtain ⟨k1, k2, k3⟩ := ent_unique he' he ha' ha hz
    subst k1; subst k2
    exact ⟨es, rfl, bits, hs, z, k3⟩

/-- two streams, one a prefix of the other -/
theorem str_prefix {c : Cfg TS TD D DD} {A B : List (Ent TS TD D DD)} {pos : Nat} {bA bB : List Bool} (hA : Str c pos A bA) (hB : Str c pos B bB) (h : bA <+: bB) : A <+: B := by
  induction hB generalizing A bA with
  | nil pos =>
    rw [List.prefix_nil] at h
    cases hA with
    | nil => exact List.prefix_refl _
    | cons he _ _ =>
      have := entBits_two he
      rw [List.append_eq_nil_iff] at h
      rw [h.1] at this; simp at this
  | @cons pos e eb es bits he ha hs ih =>
    rcases Covers.uncons he ha ⟨bA, hA, h⟩ with h0 | ⟨A', h1, b', h2, h3⟩
    · rw [h0]; exact List.nil_prefix
    · rw [h1]
      exact List.cons_prefix_cons.mpr ⟨rfl, ih h2 h3⟩

/-- the loop of `read` and the entries that are completely there -/
theorem readLoop_covers {c : Cfg TS TD D DD} (hr : c.Rooms) (sched : Nat → Nat) : ∀ (fuel : Nat) (es : List (Ent TS TD D DD)) (bits : List Bool) (pos : Nat) (s : LogReader TS D)
    (A : List (Ent TS TD D DD)),
    RInv c.bytes s.r → Str c pos es bits → s.avail <+: bits → (pos + s.avail.length) % 8 = 0 → s.avail.length < fuel → Covers c pos s.avail A →
    (∃ o s' es1 es2 b2 pos', s.readLoop c sched fuel = some (some o, s') ∧ es = es1 ++ es2 ∧ Str c pos' es2 b2 ∧ s'.avail <+: b2 ∧ (pos' + s'.avail.length) % 8 = 0 ∧
      RInv c.bytes s'.r ∧ applyAll c (s.tsLast, s.dLast) es1 = ((s'.tsLast, s'.dLast), [o]) ∧ (A <+: es1 ∨ ∃ A', A = es1 ++ A' ∧ Covers c pos' s'.avail A')) ∨
    (∃ s' es1 es2, s.readLoop c sched fuel = some (none, s') ∧ es = es1 ++ es2 ∧ (applyAll c (s.tsLast, s.dLast) es1).2 = [] ∧ A <+: es1) := by
  intro fuel
  induction fuel with
  | zero => intro _ _ _ s _ _ _ _ _ h; exact absurd h (Nat.not_lt_zero _)
  | succ fuel ih =>
    intro es bits pos s A hi hs hav htot hf hA
    unfold LogReader.readLoop
    cases hs with
    | nil =>
      right
      have h0 : s.avail = [] := List.prefix_nil.mp hav
      rcases header_ok hr sched hi (h1 := true) (h2 := true) (rest := []) (by rw [h0]; exact List.nil_prefix) with ⟨s1, s2, s3, tail, f1, _⟩ | ⟨_, s', f2⟩
      · rw [h0] at f1; exact absurd f1 (by simp)
      · obtain ⟨bA, a1, a2⟩ := hA
        rw [h0] at a2
        refine ⟨s', [], [], ?_, rfl, rfl, str_prefix a1 (.nil pos) a2⟩
        have : s.inner c sched = some (.eof, s') := by
          unfold LogReader.inner
          simp only [f2]
        simp only [this]
    | @cons _ e eb es rest he ha hs =>
      have h2 := entBits_two he
      rcases inner_ok hr sched hi he ha htot hav with ⟨s1, tail, f1, f2, f3, f4, f5⟩ | ⟨f1, s1, f2⟩
      · have hav' : s1.avail <+: rest := by rw [f1] at hav; rw [f4]; exact (List.prefix_append_right_inj _).mp hav
        have hlen : s.avail.length = eb.length + s1.avail.length := by rw [f1, f4, List.length_append]
        rw [f2]
        rw [f1, ← f4] at hA
        have hA := hA.uncons he ha
        cases hres : (apply c (s.tsLast, s.dLast) e).2 with
        | eof => cases e <;> simp only [apply, result] at hres <;> first | (split at hres <;> exact absurd hres (by simp)) | exact absurd hres (by simp)
        | data o =>
          left
          refine ⟨o, s1, [e], es, rest, pos + eb.length, rfl, rfl, hs, hav', by rw [← htot, hlen]; congr 1; omega, f3, ?_, ?_⟩
          · simp only [applyAll, hres, Res.outs, ← f5, List.append_nil]
          · rcases hA with hA | ⟨A', hA, hc⟩
            · left; rw [hA]; exact List.nil_prefix
            · right; exact ⟨A', hA, hc⟩
        | again =>
          simp only
          have happ : applyAll c (s.tsLast, s.dLast) [e] = ((s1.tsLast, s1.dLast), []) := by
            simp only [applyAll, hres, Res.outs, ← f5, List.append_nil]
          obtain ⟨A', hc, hAA⟩ : ∃ A', Covers c (pos + eb.length) s1.avail A' ∧ (A = [] ∨ A = e :: A') := by
            rcases hA with hA | ⟨A', hA, hc⟩
            · exact ⟨[], ⟨[], .nil _, List.nil_prefix⟩, .inl hA⟩
            · exact ⟨A', hc, .inr hA⟩
          rcases ih es rest (pos + eb.length) s1 A' f3 hs hav' (by rw [← htot, hlen]; congr 1; omega) (by omega) hc with
            ⟨o, s', es1, es2, b2, pos', k1, k2, k3, k4, k5, k6, k7, k8⟩ | ⟨s', es1, es2, k1, k2, k3, k4⟩
          · left
            refine ⟨o, s', e :: es1, es2, b2, pos', k1, by rw [k2]; rfl, k3, k4, k5, k6, ?_, ?_⟩
            · rw [show e :: es1 = [e] ++ es1 from rfl, applyAll_append, happ]
              simp only [k7, List.nil_append]
            · rcases hAA with hAA | hAA
              · left; rw [hAA]; exact List.nil_prefix
              · rcases k8 with k8 | ⟨A2, k8, k9⟩
                · left; rw [hAA]; exact List.cons_prefix_cons.mpr ⟨rfl, k8⟩
                · right; exact ⟨A2, by rw [hAA, k8]; rfl, k9⟩
          · right
            refine ⟨s', e :: es1, es2, k1, by rw [k2]; rfl, ?_, ?_⟩
            · rw [show e :: es1 = [e] ++ es1 from rfl, applyAll_append, happ]
              simp only [k3, List.nil_append]
            · rcases hAA with hAA | hAA
              · rw [hAA]; exact List.nil_prefix
              · rw [hAA]; exact List.cons_prefix_cons.mpr ⟨rfl, k4⟩
      · right
        rw [f2]
        refine ⟨s1, [], e :: es, rfl, rfl, rfl, ?_⟩
        obtain ⟨bA, a1, a2⟩ := hA
        cases a1 with
        | nil => exact List.nil_prefix
        | @cons _ e' eb' es' bits' he' ha' hs' =>
          obtain ⟨z, hz⟩ := a2
          obtain ⟨y, hy⟩ := hav
          rw [← hz, List.append_assoc, List.append_assoc] at hy
          obtain ⟨_, k2, _⟩ := ent_unique he' he ha' ha hy
          rw [← hz, List.length_append, List.length_append, k2] at f1
          omega

/-- a reader opened on the bytes `src` of a stream, and the entries that are completely in `src` -/
theorem readRun_covers {c : Cfg TS TD D DD} (hr : c.Rooms) {sched : Nat → Nat} {src : Bytes} {ents A : List (Ent TS TD D DD)} {bits bA : List Bool}
    (hs : Str c 0 ents bits) (hpre : bytesBits src <+: bits) (hA : Str c 0 A bA) (hsrc : bA <+: bytesBits src) {s : LogReader TS D} {outs : List (Out TS D)} (h : ReadRun c sched src s outs) :
    RInv c.bytes s.r ∧ ∃ es1 es2 b2 pos, ents = es1 ++ es2 ∧ Str c pos es2 b2 ∧ s.avail <+: b2 ∧ (pos + s.avail.length) % 8 = 0 ∧
      applyAll c (none, none) es1 = ((s.tsLast, s.dLast), outs) ∧ (A <+: es1 ∨ ∃ A', A = es1 ++ A' ∧ Covers c pos s.avail A') := by
  induction h with
  | new =>
    have hav : (LogReader.new c src : LogReader TS D).avail = bytesBits src := by
      simp [LogReader.avail, LogReader.new, Reader.new, Reader.pend]
    refine ⟨⟨by simp [LogReader.new, Reader.new], Nat.le_refl _, Nat.zero_le _, rfl⟩, [], ents, bits, 0, rfl, hs, by rw [hav]; exact hpre, ?_, rfl, .inr ⟨A, rfl, bA, hA, by rw [hav]; exact hsrc⟩⟩
    rw [hav, bytesBits_length]; omega
  | @next s s' outs o hrun hread ih =>
    obtain ⟨hi, es1, es2, b2, pos, e1, e2, e3, e4, e5, e6⟩ := ih
    have hfuel : s.avail.length < s.r.lenBits + 8 * s.src.length + 1 := by
      rw [LogReader.avail, List.length_append, hi.pend_length, bytesBits_length]; omega
    unfold LogReader.read at hread
    obtain ⟨A', hc, hAA⟩ : ∃ A', Covers c pos s.avail A' ∧ (A <+: es1 ∨ A = es1 ++ A') := by
      rcases e6 with e6 | ⟨A', e6, hc⟩
      · exact ⟨[], ⟨[], .nil _, List.nil_prefix⟩, .inl e6⟩
      · exact ⟨A', hc, .inr e6⟩
    rcases readLoop_covers hr sched _ es2 b2 pos s A' hi e2 e3 e4 hfuel hc with ⟨o', s'', fs1, fs2, b3, pos', k1, k2, k3, k4, k5, k6, k7, k8⟩ | ⟨s'', fs1, fs2, k1, k2, k3, k4⟩
    · rw [k1] at hread
      injection hread with hread
      injection hread with h1 h2
      injection h1 with h1
      subst h1; subst h2
      refine ⟨k6, es1 ++ fs1, fs2, b3, pos', by rw [e1, k2, List.append_assoc], k3, k4, k5, ?_, ?_⟩
      · rw [applyAll_append, e5]
        simp only [k7]
      · rcases hAA with hAA | hAA
        · left; exact hAA.trans (List.prefix_append _ _)
        · rcases k8 with k8 | ⟨A2, k8, k9⟩
          · left; rw [hAA]; exact (List.prefix_append_right_inj _).mpr k8
          · right; exact ⟨A2, by rw [hAA, k8, List.append_assoc], k9⟩
    · rw [k1] at hread
      injection hread with hread
      injection hread with h1 h2
      exact absurd h1 (by simp)

/-- **the content of a cut-off log**: everything logged up to a flush is returned before the end is reported, nothing is returned that was not logged, and the reader does not panic -/
theorem cut_log {c : Cfg TS TD D DD} (hf : c.Fits) {l0 l : Logger TS D} {acc0 acc : List (Out TS D)} (h0 : WInv c l0 acc0) (hz : l0.w.len = 0) (h : WInv c l acc)
    {src : Bytes} (h1 : l0.sink <+: src) (h2 : src <+: l.sink) {sched : Nat → Nat} {s : LogReader TS D} {outs : List (Out TS D)} (hr : ReadRun c sched src s outs) :
    outs <+: acc ∧ (∃ r, s.read c sched = some r) ∧ ∀ s', s.read c sched = some (none, s') → acc0 <+: outs := by
  obtain ⟨A, hA, hapA⟩ := h0.str
  obtain ⟨ents, hstr, happ⟩ := h.str
  have hzz : wbits l0.w = [] := by rw [wbits, hz]; rfl
  rw [hzz, List.append_nil] at hA
  have mono : ∀ {x y : Bytes}, x <+: y → bytesBits x <+: bytesBits y := by
    rintro x y ⟨z, rfl⟩; rw [bytesBits_append]; exact List.prefix_append _ _
  have hpre : bytesBits src <+: bytesBits l.sink ++ wbits l.w := (mono h2).trans (List.prefix_append _ _)
  obtain ⟨hi, es1, es2, b2, pos, e1, e2, e3, e4, e5, e6⟩ := readRun_covers hf.rooms hstr hpre hA (mono h1) hr
  have hfuel : s.avail.length < s.r.lenBits + 8 * s.src.length + 1 := by
    rw [LogReader.avail, List.length_append, hi.pend_length, bytesBits_length]; omega
  have hout : outs <+: acc := by
    rw [e1, applyAll_append, e5] at happ
    injection happ with _ h2
    exact ⟨_, h2⟩
  obtain ⟨A', hc, hAA⟩ : ∃ A', Covers c pos s.avail A' ∧ (A <+: es1 ∨ A = es1 ++ A') := by
    rcases e6 with e6 | ⟨A', e6, hc⟩
    · exact ⟨[], ⟨[], .nil _, List.nil_prefix⟩, .inl e6⟩
    · exact ⟨A', hc, .inr e6⟩
  have mono2 : ∀ {x y : List (Ent TS TD D DD)}, x <+: y → (applyAll c (none, none) x).2 <+: (applyAll c (none, none) y).2 := by
    rintro x y ⟨z, rfl⟩; rw [applyAll_append]; exact List.prefix_append _ _
  unfold LogReader.read
  rcases readLoop_covers hf.rooms sched _ es2 b2 pos s A' hi e2 e3 e4 hfuel hc with ⟨o', s'', fs1, fs2, b3, pos', k1, _⟩ | ⟨s'', fs1, fs2, k1, k2, k3, k4⟩
  · refine ⟨hout, ⟨_, k1⟩, ?_⟩
    intro s' hs'
    rw [k1] at hs'
    injection hs' with hs'
    injection hs' with hs' _
    exact absurd hs' (by simp)
  · refine ⟨hout, ⟨_, k1⟩, ?_⟩
    intro s' _
    have hA2 : A <+: es1 ++ fs1 := by
      rcases hAA with hAA | hAA
      · exact hAA.trans (List.prefix_append _ _)
      · rw [hAA]; exact (List.prefix_append_right_inj _).mpr k4
    have := mono2 hA2
    rw [hapA, applyAll_append, e5] at this
    simp only [k3, List.append_nil] at this
    exact this

end Verif.Log
