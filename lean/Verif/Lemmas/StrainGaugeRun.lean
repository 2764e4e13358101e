import Verif.Lemmas.StrainGauge
/-
Lemmas for C92: the main loop of the processing task.
-/
namespace Verif.SG
open Verif Verif.Spec

variable {F S T : Type}

theorem sgStream_append (xs ys : List (Raw F T)) (c : Nat) : sgStream (xs ++ ys) c = sgStream xs c ++ sgStream ys c := by simp [sgStream]

theorem sgStream_one (r : Raw F T) (c : Nat) : sgStream [r] c = (r.chan c).take 213 := by simp [sgStream]

theorem sgStream_length {c : Nat} (hc : c < 4) : ∀ {rs : List (Raw F T)}, FullReads rs → (sgStream rs c).length = 213 * rs.length
  | [], _ => rfl
  | r :: rs, h => by
    have ih := sgStream_length hc (rs := rs) fun r' hr => h r' (List.mem_cons_of_mem _ hr)
    have hr := h r List.mem_cons_self c hc
    have : sgStream (r :: rs) c = (r.chan c).take 213 ++ sgStream rs c := by simp [sgStream]
    rw [this, List.length_append, ih, List.length_take, List.length_cons]; omega

theorem sgPoint_append (a : Arith F S) (rs more : List (Raw F T)) (c j : Nat) (h : j < rs.length) : sgPoint a (rs ++ more) c j = sgPoint a rs c j := by
  unfold sgPoint
  rw [List.take_append_of_le_length (by omega)]

theorem full_append {xs ys : List (Raw F T)} (h : FullReads (xs ++ ys)) : FullReads xs ∧ FullReads ys :=
  ⟨fun r hr => h r (List.mem_append_left _ hr), fun r hr => h r (List.mem_append_right _ hr)⟩

theorem full_drop {rs : List (Raw F T)} (h : FullReads rs) (n : Nat) : FullReads (rs.drop n) := fun r hr => h r (List.mem_of_mem_drop hr)

/-- a processor after the reads `rs`, the batch having started at read `base` -/
structure ChanAt (a : Arith F S) (rs : List (Raw F T)) (base c : Nat) (ch : Chan F S) : Prop where
  filt : ch.filt = filterEnd a a.start (sgStream rs c)
  len : ch.samples.length = rs.length - base
  samp : ∀ k < rs.length - base, ch.samples[k]? = sgPoint a rs c (base + k)
  win : Win a (sgStream (rs.drop base) c) ch

theorem process_at {a : Arith F S} {rs : List (Raw F T)} {base c : Nat} {ch : Chan F S} (h : ChanAt a rs base c ch) (hb : base ≤ rs.length) (hb2 : rs.length < base + 40)
    (hf : FullReads rs) (r : Raw F T) (hr : 213 ≤ (r.chan c).length) (hc : c < 4) :
    ∃ ch', ch.process a (r.chan c) = some ch' ∧ ChanAt a (rs ++ [r]) base c ch' := by
  obtain ⟨ch', h1, h2, h3, h4⟩ := process_spec (a := a) hr (by rw [sgStream_length hc (full_drop hf base)]; omega) h.win (by rw [h.len]; omega)
  have hst : sgStream (rs ++ [r]) c = sgStream rs c ++ (r.chan c).take 213 := by rw [sgStream_append, sgStream_one]
  have hpt : sgPoint a (rs ++ [r]) c rs.length = (filterOut a ch.filt ((r.chan c).take 213)).getLast? := by
    unfold sgPoint
    rw [List.take_of_length_le (by simp), hst, filterOut_append, ← h.filt]
    have hne : filterOut a ch.filt ((r.chan c).take 213) ≠ [] := by
      intro h0
      have := congrArg List.length h0
      rw [filterOut_length, List.length_take, List.length_nil] at this
      omega
    rw [List.getLast?_append, List.getLast?_eq_some_getLast hne]; rfl
  have hsome : ∃ x, (filterOut a ch.filt ((r.chan c).take 213)).getLast? = some x := by
    have hne : filterOut a ch.filt ((r.chan c).take 213) ≠ [] := by
      intro h0
      have := congrArg List.length h0
      rw [filterOut_length, List.length_take, List.length_nil] at this
      omega
    exact ⟨_, List.getLast?_eq_some_getLast hne⟩
  obtain ⟨x, hx⟩ := hsome
  rw [hx] at h4 hpt
  refine ⟨ch', h1, ⟨?_, ?_, fun k hk => ?_, ?_⟩⟩
  · rw [h3, hst, filterEnd_append, ← h.filt]
  · rw [h4, List.length_append, h.len]; simp; omega
  · rw [h4]
    rw [List.length_append, List.length_singleton] at hk
    by_cases hk2 : k < rs.length - base
    · rw [List.getElem?_append_left (by rw [h.len]; exact hk2), h.samp k hk2, sgPoint_append _ _ _ _ _ (by omega)]
    · have : k = rs.length - base := by omega
      rw [List.getElem?_append_right (by rw [h.len]; omega), h.len, this, show base + (rs.length - base) = rs.length by omega, hpt]
      simp
  · rw [List.drop_append_of_le_length hb, sgStream_append, sgStream_one]; exact h2

theorem new_at (a : Arith F S) (c : Nat) : ChanAt (T := T) a [] 0 c (Chan.new a) := by
  refine ⟨rfl, rfl, fun k hk => absurd hk (by simp), ⟨List.length_replicate, by rfl, (show 0 = (0 + 82) / 2130 by decide), fun k hk => ?_⟩⟩
  show (List.replicate 2048 a.zero)[k]? = _
  rw [List.getElem?_replicate, if_pos hk]; rfl

theorem writeSamples_spec (a : Arith F S) : ∀ (xs : List F) (i : Nat) (v : Vector UInt8 80), i + xs.length ≤ 40 →
    ∃ v', writeSamples a i xs v = some v' ∧ ∀ k (hk : k < 40), (v'[2 * k], v'[2 * k + 1]) = if i ≤ k then (xs[k - i]?.map a.half).getD (v[2 * k], v[2 * k + 1]) else (v[2 * k], v[2 * k + 1])
  | [], i, v, _ => ⟨v, rfl, fun k hk => by simp⟩
  | x :: xs, i, v, h => by
    rw [List.length_cons] at h
    obtain ⟨v', h1, h2⟩ := writeSamples_spec a xs (i + 1) ((v.set (i * 2) (a.half x).1 (by omega)).set (i * 2 + 1) (a.half x).2 (by omega)) (by omega)
    refine ⟨v', ?_, fun k hk => ?_⟩
    · unfold writeSamples
      rw [dif_pos (by omega)]; exact h1
    · rw [h2 k hk]
      by_cases hik : i = k
      · subst hik
        rw [if_neg (by omega), if_pos (Nat.le_refl _)]
        simp [Nat.mul_comm]
      · have e1 : ((v.set (i * 2) (a.half x).1 (by omega)).set (i * 2 + 1) (a.half x).2 (by omega))[2 * k] = v[2 * k] := by
          rw [Vector.getElem_set, if_neg (by omega), Vector.getElem_set, if_neg (by omega)]
        have e2 : ((v.set (i * 2) (a.half x).1 (by omega)).set (i * 2 + 1) (a.half x).2 (by omega))[2 * k + 1] = v[2 * k + 1] := by
          rw [Vector.getElem_set, if_neg (by omega), Vector.getElem_set, if_neg (by omega)]
        rw [e1, e2]
        by_cases hlt : i < k
        · rw [if_pos (by omega), if_pos (by omega), show k - i = (k - (i + 1)) + 1 by omega, List.getElem?_cons_succ]
        · rw [if_neg (by omega), if_neg (by omega)]

/-- the end of a batch for one channel -/
theorem finish_at {a : Arith F S} {rs : List (Raw F T)} {base c : Nat} {ch : Chan F S} (h : ChanAt a rs base c ch) (hb : rs.length = base + 40) (hb4 : base % 40 = 0)
    (hf : FullReads rs) (hc : c < 4) (slot : Vector UInt8 80) (t : T) (ht : (rs[base]?).map Raw.start = some t) :
    ∃ w v ch', ch.finish a slot = some (w, v, ch') ∧ ChanAt a rs rs.length c ch' ∧ WindowOf a rs (base / 40) c w ∧ ReadingOf a rs (base / 40) c ⟨t, UInt8.ofNat c, v⟩ := by
  obtain ⟨v, h1, h2⟩ := writeSamples_spec a ch.samples 0 slot (by rw [h.len]; omega)
  have hbb : 40 * (base / 40) = base := by omega
  refine ⟨(ch.sum, ch.count), v, ⟨List.replicate fftSize a.zero, 0, 0, [], ch.filt⟩, by unfold Chan.finish; rw [h1], ?_, ?_, ?_⟩
  · refine ⟨h.filt, by simp, fun k hk => absurd hk (by simp), ?_⟩
    rw [List.drop_length]
    refine ⟨List.length_replicate, by rfl, (show 0 = (0 + 82) / 2130 by decide), fun k hk => ?_⟩
    show (List.replicate 2048 a.zero)[k]? = _
    rw [List.getElem?_replicate, if_pos hk]; rfl
  · have hl : (sgStream (rs.drop base) c).length = 8520 := by rw [sgStream_length hc (full_drop hf base), List.length_drop]; omega
    refine ⟨?_, h.win.len, fun k hk => ?_⟩
    · show ch.count = 4
      rw [h.win.cnt, hl]
    · rw [hbb]
      obtain ⟨x0, x1, x2, x3, e0, e1, e2, e3, e4⟩ := acc_four a _ k hl hk
      exact ⟨x0, x1, x2, x3, e0, e1, e2, e3, by rw [h.win.sums k hk, e4]⟩
  · refine ⟨by rw [hbb]; exact ht, ?_, fun k hk => ?_⟩
    · show (UInt8.ofNat c).toNat = c
      rw [UInt8.toNat_ofNat']; omega
    · have hs := h.samp k (by omega)
      have hlt : k < ch.samples.length := by rw [h.len]; omega
      rw [List.getElem?_eq_getElem hlt] at hs
      refine ⟨ch.samples[k], by rw [hbb, ← hs], ?_⟩
      have := h2 k hk
      rw [if_pos (Nat.zero_le _), Nat.sub_zero, List.getElem?_eq_getElem hlt] at this
      exact this

theorem processAll_spec {a : Arith F S} {r : Raw F T} (P Q : Nat → Chan F S → Prop) : ∀ (cs : List (Chan F S)) (k : Nat),
    (∀ j ch, cs[j]? = some ch → P (k + j) ch) → (∀ j ch, j < cs.length → P (k + j) ch → ∃ ch', ch.process a (r.chan (k + j)) = some ch' ∧ Q (k + j) ch') →
    ∃ cs', processAll a r k cs = some cs' ∧ cs'.length = cs.length ∧ ∀ j ch, cs'[j]? = some ch → Q (k + j) ch
  | [], k, _, _ => ⟨[], rfl, rfl, fun j ch h => absurd h (by simp)⟩
  | c :: cs, k, hp, hs => by
    obtain ⟨c', h1, h2⟩ := hs 0 c (by simp) (hp 0 c rfl)
    obtain ⟨cs', h3, h4, h5⟩ := processAll_spec P Q cs (k + 1)
      (fun j ch h => by have := hp (j + 1) ch (by simpa using h); rwa [show k + (j + 1) = k + 1 + j by omega] at this)
      (fun j ch hj h => by
        have := hs (j + 1) ch (by simpa using hj) (by rwa [show k + (j + 1) = k + 1 + j by omega])
        rwa [show k + (j + 1) = k + 1 + j by omega] at this)
    refine ⟨c' :: cs', ?_, by simp [h4], fun j ch h => ?_⟩
    · unfold processAll
      rw [Nat.add_zero] at h1
      rw [h1]; simp only [h3]
    · cases j with
      | zero => simp only [List.getElem?_cons_zero, Option.some.injEq] at h; subst h; exact h2
      | succ j =>
        rw [List.getElem?_cons_succ] at h
        have := h5 j ch h
        rwa [show k + (j + 1) = k + 1 + j by omega]

theorem lasts_spec : ∀ (cs : List (Chan F S)), (∀ c ∈ cs, c.samples ≠ []) →
    ∃ xs, lasts cs = some xs ∧ xs.length = cs.length ∧ ∀ (j : Nat) (ch : Chan F S), cs[j]? = some ch → xs[j]? = ch.samples.getLast?
  | [], _ => ⟨[], rfl, rfl, fun j ch h => absurd h (by simp)⟩
  | c :: cs, h => by
    obtain ⟨xs, h1, h2, h3⟩ := lasts_spec cs fun c hc => h c (List.mem_cons_of_mem _ hc)
    have hne := h c List.mem_cons_self
    refine ⟨c.samples.getLast hne :: xs, ?_, by simp [h2], fun j ch hj => ?_⟩
    · unfold lasts
      rw [List.getLast?_eq_some_getLast hne]; simp only [h1]
    · cases j with
      | zero => simp only [List.getElem?_cons_zero, Option.some.injEq] at hj; subst hj; rw [List.getElem?_cons_zero, List.getLast?_eq_some_getLast hne]
      | succ j => rw [List.getElem?_cons_succ] at hj ⊢; exact h3 j ch hj

theorem finishAll_spec {a : Arith F S} {t : T} {slots : Nat → Vector UInt8 80} (Q Q' : Nat → Chan F S → Prop) (R : Nat → Reading T → Prop) (W : Nat → List F × Nat → Prop) :
    ∀ (cs : List (Chan F S)) (k : Nat), (∀ j ch, cs[j]? = some ch → Q (k + j) ch) →
    (∀ j ch, j < cs.length → Q (k + j) ch → ∃ w v ch', ch.finish a (slots (k + j)) = some (w, v, ch') ∧ Q' (k + j) ch' ∧ W (k + j) w ∧ R (k + j) ⟨t, UInt8.ofNat (k + j), v⟩) →
    ∃ ws rs cs', finishAll a t slots k cs = some (ws, rs, cs') ∧ cs'.length = cs.length ∧ ws.length = cs.length ∧ rs.length = cs.length ∧
      (∀ j ch, cs'[j]? = some ch → Q' (k + j) ch) ∧ (∀ j w, ws[j]? = some w → W (k + j) w) ∧ (∀ j r, rs[j]? = some r → R (k + j) r)
  | [], k, _, _ => ⟨[], [], [], rfl, rfl, rfl, rfl, fun j ch h => absurd h (by simp), fun j ch h => absurd h (by simp), fun j ch h => absurd h (by simp)⟩
  | c :: cs, k, hp, hs => by
    obtain ⟨w, v, c', h1, h2, h2w, h2r⟩ := hs 0 c (by simp) (hp 0 c rfl)
    obtain ⟨ws, rs, cs', h3, h4, h5, h6, h7, h8, h9⟩ := finishAll_spec Q Q' R W cs (k + 1)
      (fun j ch h => by have := hp (j + 1) ch (by simpa using h); rwa [show k + (j + 1) = k + 1 + j by omega] at this)
      (fun j ch hj h => by
        have := hs (j + 1) ch (by simpa using hj) (by rwa [show k + (j + 1) = k + 1 + j by omega])
        rwa [show k + (j + 1) = k + 1 + j by omega] at this)
    rw [Nat.add_zero] at h1 h2 h2w h2r
    refine ⟨w :: ws, ⟨t, UInt8.ofNat k, v⟩ :: rs, c' :: cs', ?_, by simp [h4], by simp [h5], by simp [h6], fun j ch h => ?_, fun j ch h => ?_, fun j ch h => ?_⟩
    · unfold finishAll
      rw [h1]; simp only [h3]
    all_goals
      cases j with
      | zero => simp only [List.getElem?_cons_zero, Option.some.injEq] at h; subst h; assumption
      | succ j =>
        rw [List.getElem?_cons_succ] at h
        rw [show k + (j + 1) = k + 1 + j by omega]
        first | exact h7 j ch h | exact h8 j ch h | exact h9 j ch h

/-- the task's state after the reads `rs` -/
structure Inv (a : Arith F S) (rs : List (Raw F T)) (st : St F S T) : Prop where
  i : st.i = rs.length % 40
  start : st.i ≠ 0 → st.start = (rs[40 * (rs.length / 40)]?).map Raw.start
  four : st.chans.length = 4
  chans : ∀ c ch, st.chans[c]? = some ch → ChanAt a rs (40 * (rs.length / 40)) c ch

/-- what the last of the reads `rs` leads to -/
structure EffectsOf (a : Arith F S) (rs : List (Raw F T)) (e : Effects F T) : Prop where
  realtime : e.realtime.length = 4 ∧ ∀ c < 4, e.realtime[c]? = sgPoint a rs c (rs.length - 1)
  quiet : rs.length % 40 ≠ 0 → e.readings = [] ∧ e.transforms = []
  sent : rs.length % 40 = 0 → e.readings.length = 4 ∧ ∀ c r, e.readings[c]? = some r → ReadingOf a rs (rs.length / 40 - 1) c r
  transformed : rs.length % 40 = 0 → e.transforms.length = 4 ∧ ∀ c w, e.transforms[c]? = some w → WindowOf a rs (rs.length / 40 - 1) c w

theorem onRead_spec {a : Arith F S} {rs : List (Raw F T)} {st : St F S T} (h : Inv a rs st) (r : Raw F T) (hf : FullReads (rs ++ [r])) (slots : Nat → Vector UInt8 80) :
    ∃ e st', st.onRead a slots r = some (e, st') ∧ Inv a (rs ++ [r]) st' ∧ EffectsOf a (rs ++ [r]) e := by
  obtain ⟨hf1, hf2⟩ := full_append hf
  have hlen : (rs ++ [r]).length = rs.length + 1 := by simp
  obtain ⟨cs, p1, p2, p3⟩ := processAll_spec (a := a) (r := r) (ChanAt a rs (40 * (rs.length / 40))) (ChanAt a (rs ++ [r]) (40 * (rs.length / 40))) st.chans 0
    (fun j ch hj => by rw [Nat.zero_add]; exact h.chans j ch hj)
    (fun j ch hj hc => by
      rw [h.four] at hj
      rw [Nat.zero_add] at hc ⊢
      exact process_at hc (by omega) (by omega) hf1 r (hf2 r (by simp) j hj) hj)
  simp only [Nat.zero_add] at p3
  rw [h.four] at p2
  obtain ⟨xs, l1, l2, l3⟩ := lasts_spec cs fun c hc => by
    obtain ⟨j, hj⟩ := List.mem_iff_getElem?.mp hc
    have := (p3 j c hj).len
    rw [hlen] at this
    intro h0
    rw [h0, List.length_nil] at this
    omega
  have hrt : xs.length = 4 ∧ ∀ c < 4, xs[c]? = sgPoint a (rs ++ [r]) c ((rs ++ [r]).length - 1) := by
    refine ⟨by omega, fun c hc => ?_⟩
    obtain ⟨ch, hch⟩ : ∃ ch, cs[c]? = some ch := ⟨cs[c]'(by omega), List.getElem?_eq_getElem _⟩
    have hc := p3 c ch hch
    rw [l3 c ch hch, List.getLast?_eq_getElem?, hc.len, hlen]
    have := hc.samp (rs.length + 1 - 40 * (rs.length / 40) - 1) (by rw [hlen]; omega)
    rw [this]
    congr 1
    omega
  unfold St.onRead
  simp only [p1, l1]
  by_cases hi : st.i + 1 = readsPerRound
  · have hi' : rs.length % 40 = 39 := by rw [← h.i]; have : readsPerRound = 40 := rfl; omega
    rw [if_pos hi]
    have hst : (if st.i = 0 then some r.start else st.start) = (rs[40 * (rs.length / 40)]?).map Raw.start := by
      rw [if_neg (by rw [h.i]; omega)]; exact h.start (by rw [h.i]; omega)
    have hlt : 40 * (rs.length / 40) < rs.length := by omega
    rw [List.getElem?_eq_getElem hlt] at hst
    rw [hst]
    simp only [Option.map_some]
    obtain ⟨ws, ms, cs', f1, f2, f3, f4, f5, f6, f7⟩ := finishAll_spec (a := a) (t := (rs[40 * (rs.length / 40)]).start) (slots := slots)
      (ChanAt a (rs ++ [r]) (40 * (rs.length / 40))) (ChanAt a (rs ++ [r]) (rs ++ [r]).length)
      (ReadingOf a (rs ++ [r]) (40 * (rs.length / 40) / 40)) (WindowOf a (rs ++ [r]) (40 * (rs.length / 40) / 40)) cs 0
      (fun j ch hj => by rw [Nat.zero_add]; exact p3 j ch hj)
      (fun j ch hj hc => by
        rw [Nat.zero_add] at hc ⊢
        obtain ⟨w, v, ch', g1, g2, g3, g4⟩ := finish_at hc (by rw [hlen]; omega) (by omega) hf (by omega) (slots j) (rs[40 * (rs.length / 40)]).start
          (by rw [List.getElem?_append_left hlt, List.getElem?_eq_getElem hlt]; rfl)
        exact ⟨w, v, ch', g1, g2, g3, g4⟩)
    simp only [Nat.zero_add] at f5 f6 f7
    have hb : 40 * (rs.length / 40) / 40 = (rs ++ [r]).length / 40 - 1 := by rw [hlen]; omega
    rw [hb] at f6 f7
    refine ⟨_, _, by rw [f1], ⟨?_, fun hh => absurd rfl hh, by show cs'.length = 4; omega, fun c ch hch => ?_⟩, ⟨hrt, fun hh => ?_, fun _ => ⟨by show ms.length = 4; omega, f7⟩, fun _ => ⟨by show ws.length = 4; omega, f6⟩⟩⟩
    · show 0 = (rs ++ [r]).length % 40
      rw [hlen]; omega
    · have hz : 40 * ((rs ++ [r]).length / 40) = (rs ++ [r]).length := by rw [hlen]; omega
      rw [hz]; exact f5 c ch hch
    · rw [hlen] at hh; omega
  · have hi' : rs.length % 40 ≠ 39 := by rw [← h.i]; have : readsPerRound = 40 := rfl; omega
    rw [if_neg hi]
    have hbase : 40 * ((rs ++ [r]).length / 40) = 40 * (rs.length / 40) := by rw [hlen]; omega
    refine ⟨_, _, rfl, ⟨?_, fun _ => ?_, p2, fun c ch hch => ?_⟩, ⟨hrt, fun _ => ⟨rfl, rfl⟩, fun hh => ?_, fun hh => ?_⟩⟩
    · show st.i + 1 = _
      rw [hlen, h.i]; omega
    · show (if st.i = 0 then some r.start else st.start) = _
      rw [hbase]
      by_cases h0 : st.i = 0
      · rw [if_pos h0]
        have : 40 * (rs.length / 40) = rs.length := by have := h.i; omega
        rw [this]; simp
      · rw [if_neg h0, h.start h0, List.getElem?_append_left (by have := h.i; omega)]
    · rw [hbase]; exact p3 c ch hch
    · rw [hlen] at hh; omega
    · rw [hlen] at hh; omega

theorem new_inv (a : Arith F S) : Inv (T := T) a [] (St.new a) := by
  refine ⟨rfl, fun h => absurd rfl h, rfl, fun c ch h => ?_⟩
  simp only [St.new, List.getElem?_replicate] at h
  split at h
  · injection h with h; subst h; simpa using new_at (T := T) a c
  · exact absurd h (by simp)

theorem run_spec {a : Arith F S} : ∀ (evs : List (Raw F T × (Nat → Vector UInt8 80))) (rs : List (Raw F T)) (st : St F S T), Inv a rs st → FullReads (rs ++ evs.map Prod.fst) →
    ∃ es st', st.run a evs = some (es, st') ∧ es.length = evs.length ∧ ∀ j e, es[j]? = some e → EffectsOf a (rs ++ (evs.map Prod.fst).take (j + 1)) e
  | [], rs, st, _, _ => ⟨[], st, rfl, rfl, fun j e h => absurd h (by simp)⟩
  | (r, slots) :: evs, rs, st, h, hf => by
    have hf' : FullReads (rs ++ [r] ++ evs.map Prod.fst) := by simpa using hf
    obtain ⟨e, st1, h1, h2, h3⟩ := onRead_spec h r (full_append hf').1 slots
    obtain ⟨es, st2, h4, h5, h6⟩ := run_spec evs (rs ++ [r]) st1 h2 hf'
    refine ⟨e :: es, st2, ?_, by simp [h5], fun j x hx => ?_⟩
    · unfold St.run
      simp only [h1, h4]
    · cases j with
      | zero => simp only [List.getElem?_cons_zero, Option.some.injEq] at hx; subst hx; simpa using h3
      | succ j =>
        rw [List.getElem?_cons_succ] at hx
        have := h6 j x hx
        simpa using this

theorem ReadingOf.more {a : Arith F S} {rs : List (Raw F T)} {b c : Nat} {r : Reading T} (h : ReadingOf a rs b c r) (hb : 40 * b + 40 ≤ rs.length) (more : List (Raw F T)) :
    ReadingOf a (rs ++ more) b c r := by
  refine ⟨?_, h.channel, fun k hk => ?_⟩
  · rw [List.getElem?_append_left (by omega)]; exact h.start
  · obtain ⟨x, h1, h2⟩ := h.samples k hk
    exact ⟨x, by rw [sgPoint_append _ _ _ _ _ (by omega)]; exact h1, h2⟩

theorem WindowOf.more {a : Arith F S} {rs : List (Raw F T)} {b c : Nat} {w : List F × Nat} (h : WindowOf a rs b c w) (hb : 40 * b + 40 ≤ rs.length) (more : List (Raw F T)) :
    WindowOf a (rs ++ more) b c w := by
  have key : ∀ {i : Nat} {x : F}, (sgStream (rs.drop (40 * b)) c)[i]? = some x → (sgStream ((rs ++ more).drop (40 * b)) c)[i]? = some x := by
    intro i x hx
    rw [List.drop_append_of_le_length (by omega), sgStream_append, List.getElem?_append_left]
    · exact hx
    · exact (List.getElem?_eq_some_iff.mp hx).1
  refine ⟨h.count, h.size, fun k hk => ?_⟩
  obtain ⟨x0, x1, x2, x3, e0, e1, e2, e3, e4⟩ := h.sums k hk
  exact ⟨x0, x1, x2, x3, key e0, key e1, key e2, key e3, e4⟩

/-- where the messages of a batch are in the sequence of all messages -/
theorem flat_index {β γ : Type} (f : β → List γ) : ∀ (n : Nat) (es : List β), es.length = n → (∀ j e, es[j]? = some e → ((j + 1) % 40 = 0 → (f e).length = 4) ∧ ((j + 1) % 40 ≠ 0 → f e = [])) →
    (es.flatMap f).length = 4 * (n / 40) ∧ ∀ b c e, c < 4 → es[40 * b + 39]? = some e → (es.flatMap f)[4 * b + c]? = (f e)[c]?
  | 0, es, hn, _ => by
    have : es = [] := List.length_eq_zero_iff.mp hn
    subst this
    exact ⟨rfl, fun b c e _ h => absurd h (by simp)⟩
  | n + 1, es, hn, h => by
    obtain ⟨init, x, rfl⟩ : ∃ init x, es = init ++ [x] := ⟨es.dropLast, es.getLast (by intro h0; simp [h0] at hn), (List.dropLast_concat_getLast _).symm⟩
    rw [List.length_append, List.length_singleton] at hn
    have hin : init.length = n := by omega
    obtain ⟨h1, h2⟩ := flat_index f n init hin fun j e hj => h j e (by rw [List.getElem?_append_left (List.getElem?_eq_some_iff.mp hj).1]; exact hj)
    have hx := h n x (by rw [List.getElem?_append_right (by omega), hin]; simp)
    rw [List.flatMap_append]
    simp only [List.flatMap_cons, List.flatMap_nil, List.append_nil]
    constructor
    · rw [List.length_append, h1]
      by_cases h40 : (n + 1) % 40 = 0
      · rw [hx.1 h40]; omega
      · rw [hx.2 h40, List.length_nil]; omega
    · intro b c e hc hb
      by_cases hlt : 40 * b + 39 < n
      · rw [List.getElem?_append_left (by omega)] at hb
        rw [List.getElem?_append_left (by omega)]
        exact h2 b c e hc hb
      · have hlt2 := (List.getElem?_eq_some_iff.mp hb).1
        rw [List.length_append, List.length_singleton, hin] at hlt2
        have hbn : 40 * b + 39 = n := by omega
        rw [List.getElem?_append_right (by omega), hbn, hin] at hb
        simp at hb
        subst hb
        rw [List.getElem?_append_right (by omega), h1]
        congr 1
        omega

end Verif.SG
