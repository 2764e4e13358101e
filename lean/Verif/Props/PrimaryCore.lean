import Verif.Props.FlightCore
/-
C44, C45: the primary flight computer.
-/
namespace Verif.Props

open Verif Fc

theorem milestones_append {S : Type} (l m : List (Nat × Event S)) : milestones (l ++ m) = milestones l ++ milestones m := by
  induction l with
  | nil => rfl
  | cons x l ih =>
    obtain ⟨i, e⟩ := x
    cases e <;> simp only [List.cons_append, milestones, ih]

/-- the last `k` values before `n`, oldest first -/
def window {α : Type} (f : Nat → α) (n k : Nat) : List α := (List.range' (n - k) k).map f

theorem window_length {α : Type} (f : Nat → α) (n k : Nat) : (window f n k).length = k := by simp [window]

theorem window_grow {α : Type} (f : Nat → α) (n k : Nat) (h : k ≤ n) : window f n k ++ [f n] = window f (n + 1) (k + 1) := by
  unfold window
  rw [show n + 1 - (k + 1) = n - k by omega, List.range'_concat, List.map_append]
  congr 2
  simp only [List.map_cons, List.map_nil, Nat.one_mul]
  rw [show n - k + k = n by omega]

theorem window_slide {α : Type} (f : Nat → α) (n k : Nat) (h : k ≤ n) (h0 : 0 < k) : (window f n k).drop 1 ++ [f n] = window f (n + 1) k := by
  obtain ⟨k, rfl⟩ : ∃ j, k = j + 1 := ⟨k - 1, by omega⟩
  have : (window f n (k + 1)).drop 1 = window f n k := by
    unfold window
    rw [List.range'_succ, List.map_cons, List.drop_one, List.tail_cons, show n - (k + 1) + 1 = n - k by omega]
  rw [this]
  exact window_grow f n k (by omega)

/-- the moving average over the last `k` of at most `c` samples -/
def smaOf {F : Type} (z : F) (c : Nat) (f : Nat → F) (n k : Nat) : Sma F := ⟨c, (window f n k).reverse, z⟩

theorem sma_add {F : Type} (z : F) (c : Nat) (f : Nat → F) (n k : Nat) (hc : 0 < c) (hk : k ≤ n) (hkc : k ≤ c) :
    (smaOf z c f n k).add (f n) = smaOf z c f (n + 1) (min (k + 1) c) := by
  unfold Sma.add smaOf
  simp only [List.length_reverse, window_length]
  rw [if_neg (by omega)]
  by_cases h : k = c
  · subst h
    rw [if_pos rfl, show min (k + 1) k = k by omega]
    congr 1
    rw [← window_slide f n k hk hc, List.reverse_append, List.drop_one, List.reverse_singleton, List.dropLast_reverse]
    rfl
  · rw [if_neg h, show min (k + 1) c = k + 1 by omega]
    congr 1
    rw [← window_grow f n k hk, List.reverse_append]
    rfl

theorem sma_mean4 {F : Type} (o : Ops F) (f : Nat → F) (n : Nat) (h : 4 ≤ n + 1) : (smaOf (o.lit 0) 4 f (n + 1) 4).average o = mean4 o f n := by
  unfold Sma.average smaOf mean4
  simp only [List.length_reverse, window_length]
  rw [if_neg (by decide)]
  obtain ⟨j, rfl⟩ : ∃ j, n = j + 3 := ⟨n - 3, by omega⟩
  simp only [window, show j + 3 + 1 - 4 = j by omega, List.range', List.map_cons, List.map_nil, List.reverse_cons, List.reverse_nil, List.nil_append, List.cons_append,
    List.foldl_cons, List.foldl_nil, show j + 3 - 1 = j + 1 + 1 by omega, show j + 3 - 2 = j + 1 by omega, show j + 3 - 3 = j by omega]
  rfl

/-- a snapshot after mounting compensation -/
def mounted {fl : Floats} {es : Est fl} (s : Snapshot fl es) : Snapshot fl es := { s with acc := es.mount s.acc, gyro := es.mount s.gyro }

theorem pad_eq {fl : Floats} {es : Est fl} (m : Mission fl es) (n : Nat) (h : 100 ≤ n) :
    (match (window (fun i => mounted (m.s i)) (n + 1) 100).findSome? (fun s => s.baro) with
      | some r => r.altitude
      | none => fl.s.lit 0) = m.pad n := by
  unfold Mission.pad window
  rw [List.findSome?_map, List.findSome?_map, show n + 1 - 100 = n - 99 by omega]
  rfl

/-- which state goes with which part of the flight -/
inductive PInv {fl : Floats} {es : Est fl} (m : Mission fl es) (n : Nat) : PState fl es → List (Nat × Option FcState) → Prop
  | start : n ≤ 1 → PInv m n (.armed [] ⟨4, [], fl.s.lit 0⟩) []
  | armed : 1 < n → Never m.Boost 100 n →
      PInv m n (.armed (window (fun i => mounted (m.s i)) n (min (n - 1) 100)) (smaOf (fl.s.lit 0) 4 m.accUp n (min (n - 1) 4))) [(1, some .armed)]
  | launched (a : Nat) : m.Up a → a < n → Never m.BurnOut (a + 4) n →
      PInv m n (.powerAscend (smaOf (fl.s.lit 0) 4 m.accMag n (min (n - (a + 1)) 4)) (m.pad a) (m.s a).timestamp) [(1, some .armed), (a, some .powerAscend)]
  | coasting (a b : Nat) : m.Coasting a b → b < n → Never m.Apogee (b + 1) n →
      PInv m n (.coast (m.pad a) (m.s a).timestamp) [(1, some .armed), (a, some .powerAscend), (b, some .coast)]
  | waitDrogue (a b c : Nat) : m.Over a b c → c < n → Never (m.TooLow a) (c + 1) n → Never (m.DrogueTime a c) (c + 1) n →
      PInv m n (.drogueChute (m.pad a) (m.s a).timestamp (fl.d.add (m.s c).timestamp m.p.drogueDelay))
        [(1, some .armed), (a, some .powerAscend), (b, some .coast), (c, some .descent)]
  | failed (a b c d : Nat) : m.Over a b c → First (m.TooLow a) (c + 1) d → Never (m.DrogueTime a c) (c + 1) d → d < n →
      PInv m n .landed [(1, some .armed), (a, some .powerAscend), (b, some .coast), (c, some .descent), (d, none)]
  | waitLow (a b c d : Nat) : m.Drogue a b c d → d < n → Never (m.MainLow a) (d + 1) n →
      PInv m n (.mainChute (m.pad a) none) [(1, some .armed), (a, some .powerAscend), (b, some .coast), (c, some .descent)]
  | waitMain (a b c d e : Nat) : m.Drogue a b c d → First (m.MainLow a) (d + 1) e → e < n → Never (m.MainTime e) (e + 1) n →
      PInv m n (.mainChute (m.pad a) (some (fl.d.add (m.s e).timestamp m.p.mainDelay)))
        [(1, some .armed), (a, some .powerAscend), (b, some .coast), (c, some .descent)]
  | waitLanding (a b c d e f : Nat) : m.Main a b c d e f → f < n → Never m.AtRest (f + 1) n →
      PInv m n .mainChuteDescend [(1, some .armed), (a, some .powerAscend), (b, some .coast), (c, some .descent)]
  | landed (a b c d e f g : Nat) : m.Main a b c d e f → First m.AtRest (f + 1) g → g < n →
      PInv m n .landed [(1, some .armed), (a, some .powerAscend), (b, some .coast), (c, some .descent), (g, some .landed)]

theorem PInv.timeline {fl : Floats} {es : Est fl} {m : Mission fl es} {n : Nat} {s : PState fl es} {l : List (Nat × Option FcState)} (h : PInv m n s l) :
    PTimeline m n l := by
  cases h with
  | start h => exact .start h
  | armed h1 h2 => exact .armed h1 h2
  | launched a h1 h2 h3 => exact .launched a h1 h2 h3
  | coasting a b h1 h2 h3 => exact .coasting a b h1 h2 h3
  | waitDrogue a b c h1 h2 h3 h4 => exact .waitDrogue a b c h1 h2 h3 h4
  | failed a b c d h1 h2 h3 h4 => exact .failed a b c d h1 h2 h3 h4
  | waitLow a b c d h1 h2 h3 => exact .waitLow a b c d h1 h2 h3
  | waitMain a b c d e h1 h2 h3 h4 => exact .waitMain a b c d e h1 h2 h3 h4
  | waitLanding a b c d e f h1 h2 h3 => exact .waitLanding a b c d e f h1 h2 h3
  | landed a b c d e f g h1 h2 h3 => exact .landed a b c d e f g h1 h2 h3

/-- the estimation part keeps everything but estimate and barometer filter, and publishes altitude and speed when in the air -/
theorem estimate_facts {fl : Floats} {es : Est fl} {c c' : Primary fl es} {s : Snapshot fl es} {dt : fl.D} {ev : List (Event fl.S)} (h : c.estimate s dt = some (c', ev)) :
    c'.state = c.state ∧ c'.profile = c.profile ∧ c'.criticalError = c.criticalError ∧ c'.firstTick = c.firstTick ∧
      (ev = [] ∨ ev = [.changeAltitude (es.posZ c'.est), .changeAirSpeed (es.velZ c'.est)]) ∧
      ((∀ h a, c.state ≠ .armed h a) → ev = [.changeAltitude (es.posZ c'.est), .changeAirSpeed (es.velZ c'.est)]) := by
  unfold Primary.estimate at h
  split at h
  · rename_i hi a hs
    simp only [Option.some.injEq, Prod.mk.injEq] at h
    obtain ⟨rfl, rfl⟩ := h
    exact ⟨rfl, rfl, rfl, rfl, .inl rfl, fun hh => absurd hs (hh _ _)⟩
  · simp only at h
    split at h
    · simp only [Option.some.injEq, Prod.mk.injEq] at h
      obtain ⟨rfl, rfl⟩ := h
      exact ⟨rfl, rfl, rfl, rfl, .inr rfl, fun _ => rfl⟩
    · split at h
      · cases h
      · simp only [Option.some.injEq, Prod.mk.injEq] at h
        obtain ⟨rfl, rfl⟩ := h
        exact ⟨rfl, rfl, rfl, rfl, .inr rfl, fun _ => rfl⟩

/-- the stage part when armed -/
theorem stage_armed {fl : Floats} {es : Est fl} {c c' : Primary fl es} {s : Snapshot fl es} {ev : List (Event fl.S)} {hist : List (Snapshot fl es)} {acc : Sma fl.S}
    (hs : c.state = .armed hist acc) (h : c.stage s = some (c', ev)) {h1 : List (Snapshot fl es)} {a1 : Sma fl.S} {ev0 : List (Event fl.S)}
    (hh : (if hist.length = 100 then hist.drop 1 else hist) ++ [s] = h1) (ha : acc.add (es.z s.acc) = a1)
    (he : (if c.firstTick then [Event.changeState .armed] else []) = ev0) :
    c'.profile = c.profile ∧ c'.criticalError = c.criticalError ∧ c'.firstTick = false ∧
    ((h1.length = 100 ∧ fl.s.lt (fl.s.lit 50) (a1.average fl.s) = true ∧
      c'.state = .powerAscend ⟨4, [], fl.s.lit 0⟩ (match h1.findSome? (fun s => s.baro) with | some r => r.altitude | none => fl.s.lit 0) s.timestamp ∧
      ev = ev0 ++ [.changeState .powerAscend]) ∨
    (¬ (h1.length = 100 ∧ fl.s.lt (fl.s.lit 50) (a1.average fl.s) = true) ∧ c'.state = .armed h1 a1 ∧ ev = ev0)) := by
  unfold Primary.stage at h
  rw [hs] at h
  simp only at h
  rw [hh, ha, he] at h
  split at h
  · rename_i hc
    split at h
    · cases h
    · split at h
      · cases h
      · simp only [Option.some.injEq, Prod.mk.injEq] at h
        obtain ⟨rfl, rfl⟩ := h
        exact ⟨rfl, rfl, rfl, .inl ⟨hc.1, hc.2, rfl, rfl⟩⟩
  · rename_i hc
    simp only [Option.some.injEq, Prod.mk.injEq] at h
    obtain ⟨rfl, rfl⟩ := h
    exact ⟨rfl, rfl, rfl, .inr ⟨hc, rfl, rfl⟩⟩

/-- the stage part publishes no altitude or speed -/
theorem stage_quiet {fl : Floats} {es : Est fl} {c c' : Primary fl es} {s : Snapshot fl es} {ev : List (Event fl.S)} (h : c.stage s = some (c', ev)) :
    ∀ e ∈ ev, (∀ v, e ≠ .changeAltitude v) ∧ ∀ v, e ≠ .changeAirSpeed v := by
  intro e he
  by_cases hs : ∃ hist acc, c.state = .armed hist acc
  · obtain ⟨hist, acc, hs⟩ := hs
    have h0 : ∀ e ∈ (if c.firstTick = true then [Event.changeState FcState.armed] else [] : List (Event fl.S)), (∀ v, e ≠ .changeAltitude v) ∧ ∀ v, e ≠ .changeAirSpeed v := by
      intro e he
      split at he
      · simp only [List.mem_singleton] at he; subst he; simp
      · cases he
    obtain ⟨_, _, _, h | h⟩ := stage_armed hs h rfl rfl rfl
    · rw [h.2.2.2] at he
      rcases List.mem_append.1 he with he | he
      · exact h0 e he
      · simp only [List.mem_singleton] at he; subst he; simp
    · rw [h.2.2] at he
      exact h0 e he
  · unfold Primary.stage at h
    split at h
    · rename_i hist acc hs'
      exact absurd ⟨_, _, hs'⟩ hs
    all_goals
      try simp only at h
      repeat' split at h
      all_goals
        simp only [Option.some.injEq, Prod.mk.injEq] at h
        obtain ⟨_, rfl⟩ := h
        simp only [List.mem_singleton, List.not_mem_nil] at he
        try subst he
        try simp

/-- one step of the invariant. `hv`, `ha`: what is published at this snapshot when in the air -/
theorem stage_inv {fl : Floats} {es : Est fl} (m : Mission fl es) (n : Nat) (hn : 1 ≤ n) (c c' : Primary fl es) (ev : List (Event fl.S)) (l : List (Nat × Option FcState))
    (hp : c.profile = m.p) (hf : c.firstTick = decide (n ≤ 1)) (h : PInv m n c.state l) (hs : c.stage (mounted (m.s n)) = some (c', ev))
    (hv : (∀ h a, c.state ≠ .armed h a) → ∀ v, Event.changeAirSpeed v ∈ m.events n ↔ v = es.velZ c.est)
    (ha : (∀ h a, c.state ≠ .armed h a) → ∀ v, Event.changeAltitude v ∈ m.events n ↔ v = es.posZ c.est) :
    c'.profile = m.p ∧ c'.criticalError = c.criticalError ∧ c'.firstTick = false ∧ PInv m (n + 1) c'.state (l ++ milestones (ev.map fun e => (n, e))) := by
  obtain ⟨cp, cs, clt, cbo, cest, cbf, cce, cft⟩ := c
  simp only at hp h hf hv ha
  subst hp hf
  cases h with
  | start h0 =>
    have h1 : n = 1 := by omega
    subst h1
    obtain ⟨h1, h2, h3, h4⟩ := stage_armed (hist := []) rfl hs rfl rfl rfl
    rcases h4 with h4 | h4
    · exact absurd h4.1 (by simp)
    · refine ⟨h1, h2, h3, ?_⟩
      rw [h4.2.1, h4.2.2]
      exact PInv.armed (n := 2) (by omega) (Never.empty (by omega))
  | armed h1 h2 =>
    have hwin : (if (window (fun i => mounted (m.s i)) n (min (n - 1) 100)).length = 100 then (window (fun i => mounted (m.s i)) n (min (n - 1) 100)).drop 1
        else window (fun i => mounted (m.s i)) n (min (n - 1) 100)) ++ [mounted (m.s n)] = window (fun i => mounted (m.s i)) (n + 1) (min n 100) := by
      rw [window_length]
      by_cases hk : min (n - 1) 100 = 100
      · rw [if_pos hk, hk, show min n 100 = 100 by omega]
        exact window_slide (fun i => mounted (m.s i)) n 100 (by omega) (by omega)
      · rw [if_neg hk, show min n 100 = min (n - 1) 100 + 1 by omega]
        exact window_grow (fun i => mounted (m.s i)) n _ (by omega)
    have hacc : (smaOf (fl.s.lit 0) 4 m.accUp n (min (n - 1) 4)).add (es.z (mounted (m.s n)).acc) = smaOf (fl.s.lit 0) 4 m.accUp (n + 1) (min n 4) := by
      have := sma_add (fl.s.lit 0) 4 m.accUp n (min (n - 1) 4) (by omega) (by omega) (by omega)
      rw [show min (min (n - 1) 4 + 1) 4 = min n 4 by omega] at this
      exact this
    obtain ⟨e1, e2, e3, e4⟩ := stage_armed rfl hs hwin hacc rfl
    refine ⟨e1, e2, e3, ?_⟩
    rw [window_length] at e4
    have hd : decide (n ≤ 1) = false := decide_eq_false (by omega)
    simp only [hd] at e4
    have hmean : 100 ≤ n → (smaOf (fl.s.lit 0) 4 m.accUp (n + 1) (min n 4)).average fl.s = mean4 fl.s m.accUp n := by
      intro h
      rw [show min n 4 = 4 by omega]
      exact sma_mean4 _ _ _ (by omega)
    rcases e4 with ⟨k1, k2, k3, k4⟩ | ⟨k1, k2, k3⟩
    · rw [k3, k4]
      have hn : 100 ≤ n := by omega
      rw [hmean hn] at k2
      rw [show min n 100 = 100 by omega, pad_eq m n hn]
      have := PInv.launched (m := m) (n := n + 1) n (Never.first h2 hn k2) (by omega) (Never.empty (by omega))
      rw [show n + 1 - (n + 1) = 0 by omega] at this
      exact this
    · rw [k2, k3]
      have := PInv.armed (m := m) (n := n + 1) (by omega) (by
        intro i i1 i2
        rcases Nat.lt_succ_iff_lt_or_eq.1 i2 with i3 | rfl
        · exact h2 i i1 i3
        · intro hb
          exact k1 ⟨by omega, by rw [hmean i1]; exact hb⟩)
      rw [show n + 1 - 1 = n by omega] at this
      exact this
  | launched a h1 h2 h3 =>
    have ha' := h1.1
    unfold Primary.stage at hs
    have hacc : (smaOf (fl.s.lit 0) 4 m.accMag n (min (n - (a + 1)) 4)).add (es.mag (mounted (m.s n)).acc) = smaOf (fl.s.lit 0) 4 m.accMag (n + 1) (min (n + 1 - (a + 1)) 4) := by
      have := sma_add (fl.s.lit 0) 4 m.accMag n (min (n - (a + 1)) 4) (by omega) (by omega) (by omega)
      rw [show min (min (n - (a + 1)) 4 + 1) 4 = min (n + 1 - (a + 1)) 4 by omega] at this
      exact this
    simp only [hacc] at hs
    have hfull : (smaOf (fl.s.lit 0) 4 m.accMag (n + 1) (min (n + 1 - (a + 1)) 4)).isFull = true ↔ a + 4 ≤ n := by
      unfold Sma.isFull smaOf
      simp only [List.length_reverse, window_length, decide_eq_true_eq]
      omega
    have hmean : a + 4 ≤ n → (smaOf (fl.s.lit 0) 4 m.accMag (n + 1) (min (n + 1 - (a + 1)) 4)).average fl.s = mean4 fl.s m.accMag n := by
      intro h
      rw [show min (n + 1 - (a + 1)) 4 = 4 by omega]
      exact sma_mean4 _ _ _ (by omega)
    split at hs
    · rename_i hc
      simp only [Option.some.injEq, Prod.mk.injEq] at hs
      obtain ⟨rfl, rfl⟩ := hs
      have hge := hfull.1 hc.1
      refine ⟨rfl, rfl, ?_, .coasting a n ⟨h1, Never.first h3 hge ?_⟩ (by omega) (Never.empty (by omega))⟩
      · exact decide_eq_false (by omega)
      · have := hc.2; rw [hmean hge] at this; exact this
    · rename_i hc
      simp only [Option.some.injEq, Prod.mk.injEq] at hs
      obtain ⟨rfl, rfl⟩ := hs
      refine ⟨rfl, rfl, decide_eq_false (by omega), .launched a h1 (by omega) ?_⟩
      intro i i1 i2
      rcases Nat.lt_succ_iff_lt_or_eq.1 i2 with i3 | rfl
      · exact h3 i i1 i3
      · intro hb
        exact hc ⟨hfull.2 i1, by rw [hmean i1]; exact hb⟩
  | coasting a b h1 h2 h3 =>
    have h12 := h1.2.1
    replace hv := hv (by intro _ _ h; cases h)
    unfold Primary.stage at hs
    simp only at hs
    split at hs
    · rename_i hc
      simp only [Option.some.injEq, Prod.mk.injEq] at hs
      obtain ⟨rfl, rfl⟩ := hs
      exact ⟨rfl, rfl, decide_eq_false (by omega), .waitDrogue a b n ⟨h1, Never.first h3 (by omega) ⟨_, (hv _).2 rfl, hc⟩⟩ (by omega) (Never.empty (by omega)) (Never.empty (by omega))⟩
    · rename_i hc
      simp only [Option.some.injEq, Prod.mk.injEq] at hs
      obtain ⟨rfl, rfl⟩ := hs
      refine ⟨rfl, rfl, decide_eq_false (by omega), .coasting a b h1 (by omega) (Never.snoc h3 ?_)⟩
      rintro ⟨v, hv', hl⟩
      exact hc ((hv v).1 hv' ▸ hl)
  | waitDrogue a b c h1 h2 h3 h4 =>
    have h12 := h1.2.1
    replace ha := ha (by intro _ _ h; cases h)
    unfold Primary.stage at hs
    simp only at hs
    split at hs
    · rename_i hc
      simp only [Option.some.injEq, Prod.mk.injEq] at hs
      obtain ⟨rfl, rfl⟩ := hs
      exact ⟨rfl, rfl, decide_eq_false (by omega), .failed a b c n h1 (Never.first h3 (by omega) ⟨_, (ha _).2 rfl, hc⟩) h4 (by omega)⟩
    · rename_i hc
      have hlow : ¬ m.TooLow a n := by
        rintro ⟨v, hv', hl⟩
        exact hc ((ha v).1 hv' ▸ hl)
      split at hs
      · rename_i ht
        simp only [Option.some.injEq, Prod.mk.injEq] at hs
        obtain ⟨rfl, rfl⟩ := hs
        exact ⟨rfl, rfl, decide_eq_false (by omega), .waitLow a b c n ⟨h1, Never.first h4 (by omega) ht, Never.snoc h3 hlow⟩ (by omega) (Never.empty (by omega))⟩
      · rename_i ht
        simp only [Option.some.injEq, Prod.mk.injEq] at hs
        obtain ⟨rfl, rfl⟩ := hs
        exact ⟨rfl, rfl, decide_eq_false (by omega), .waitDrogue a b c h1 (by omega) (Never.snoc h3 hlow) (Never.snoc h4 ht)⟩
  | failed a b c d h1 h2 h3 h4 =>
    have h12 := h2.1
    unfold Primary.stage at hs
    simp only [Option.some.injEq, Prod.mk.injEq] at hs
    obtain ⟨rfl, rfl⟩ := hs
    exact ⟨rfl, rfl, decide_eq_false (by omega), .failed a b c d h1 h2 h3 (by omega)⟩
  | waitLow a b c d h1 h2 h3 =>
    have h12 := h1.2.1.1
    replace ha := ha (by intro _ _ h; cases h)
    unfold Primary.stage at hs
    simp only at hs
    split at hs
    · rename_i hc
      simp only [Option.some.injEq, Prod.mk.injEq] at hs
      obtain ⟨rfl, rfl⟩ := hs
      exact ⟨rfl, rfl, decide_eq_false (by omega), .waitMain a b c d n h1 (Never.first h3 (by omega) ⟨_, (ha _).2 rfl, hc⟩) (by omega) (Never.empty (by omega))⟩
    · rename_i hc
      simp only [Option.some.injEq, Prod.mk.injEq] at hs
      obtain ⟨rfl, rfl⟩ := hs
      refine ⟨rfl, rfl, decide_eq_false (by omega), .waitLow a b c d h1 (by omega) (Never.snoc h3 ?_)⟩
      rintro ⟨v, hv', hl⟩
      exact hc ((ha v).1 hv' ▸ hl)
  | waitMain a b c d e h1 h2 h3 h4 =>
    have h12 := h2.1
    unfold Primary.stage at hs
    simp only at hs
    split at hs
    · rename_i hc
      simp only [Option.some.injEq, Prod.mk.injEq] at hs
      obtain ⟨rfl, rfl⟩ := hs
      exact ⟨rfl, rfl, decide_eq_false (by omega), .waitLanding a b c d e n ⟨h1, h2, Never.first h4 (by omega) hc⟩ (by omega) (Never.empty (by omega))⟩
    · rename_i hc
      simp only [Option.some.injEq, Prod.mk.injEq] at hs
      obtain ⟨rfl, rfl⟩ := hs
      exact ⟨rfl, rfl, decide_eq_false (by omega), .waitMain a b c d e h1 h2 (by omega) (Never.snoc h4 hc)⟩
  | waitLanding a b c d e f h1 h2 h3 =>
    have h12 := h1.2.2.1
    replace hv := hv (by intro _ _ h; cases h)
    unfold Primary.stage at hs
    simp only at hs
    split at hs
    · rename_i hc
      simp only [Option.some.injEq, Prod.mk.injEq] at hs
      obtain ⟨rfl, rfl⟩ := hs
      exact ⟨rfl, rfl, decide_eq_false (by omega), .landed a b c d e f n h1 (Never.first h3 (by omega) ⟨_, (hv _).2 rfl, hc⟩) (by omega)⟩
    · rename_i hc
      simp only [Option.some.injEq, Prod.mk.injEq] at hs
      obtain ⟨rfl, rfl⟩ := hs
      refine ⟨rfl, rfl, decide_eq_false (by omega), .waitLanding a b c d e f h1 (by omega) (Never.snoc h3 ?_)⟩
      rintro ⟨v, hv', hl⟩
      exact hc ((hv v).1 hv' ▸ hl)
  | landed a b c d e f g h1 h2 h3 =>
    have h12 := h2.1
    unfold Primary.stage at hs
    simp only [Option.some.injEq, Prod.mk.injEq] at hs
    obtain ⟨rfl, rfl⟩ := hs
    exact ⟨rfl, rfl, decide_eq_false (by omega), .landed a b c d e f g h1 h2 (by omega)⟩

theorem mission_inv {fl : Floats} {es : Est fl} (m : Mission fl es) (n : Nat) {c : Primary fl es} {evs : List (Nat × Event fl.S)} (h : m.run n = some (c, evs)) :
    c.profile = m.p ∧ c.criticalError = false ∧ c.firstTick = decide (n ≤ 1) ∧ (c.lastTime = none ↔ n = 0) ∧ PInv m n c.state (milestones evs) := by
  induction n generalizing c evs with
  | zero =>
    simp only [Mission.run, Primary.after, Option.some.injEq, Prod.mk.injEq] at h
    obtain ⟨rfl, rfl⟩ := h
    exact ⟨rfl, rfl, rfl, by simp [Primary.new], .start (by omega)⟩
  | succ n ih =>
    have h' := h
    simp only [Mission.run, Primary.after, Option.bind_eq_some_iff, Option.map_eq_some_iff] at h
    obtain ⟨⟨c0, evs0⟩, h1, ⟨c1, ev⟩, h2, h3⟩ := h
    simp only [Prod.mk.injEq] at h2 h3
    obtain ⟨rfl, rfl⟩ := h3
    obtain ⟨i1, i2, i3, i4, i5⟩ := ih (c := c0) (evs := evs0) h1
    have hev : m.events n = ev := by
      unfold Mission.events
      rw [show m.run n = some (c0, evs0) from h1]
      simp only [h2]
    rw [milestones_append]
    unfold Primary.tick at h2
    rw [i2, if_neg (by simp)] at h2
    cases hl : c0.lastTime with
    | none =>
      have hn := i4.1 hl
      subst hn
      rw [hl] at h2
      simp only [Option.some.injEq, Prod.mk.injEq] at h2
      obtain ⟨rfl, rfl⟩ := h2
      refine ⟨i1, rfl, i3, by simp, ?_⟩
      revert i5
      generalize milestones evs0 = l
      generalize c0.state = st
      intro i5
      cases i5 with
      | start _ => exact .start (by omega)
      | _ => omega
    | some t =>
      have hn : n ≠ 0 := fun h => by rw [i4.2 h] at hl; cases hl
      rw [hl] at h2
      simp only at h2
      cases he : c0.estimate (mounted (m.s n)) (fl.d.sub (m.s n).imuTimestamp t) with
      | none =>
        have he' := he
        unfold mounted at he'
        rw [he'] at h2
        cases h2
      | some x =>
        obtain ⟨c2, ev1⟩ := x
        have he' := he
        unfold mounted at he'
        rw [he'] at h2
        simp only at h2
        cases hs : c2.stage (mounted (m.s n)) with
        | none =>
          have hs' := hs
          unfold mounted at hs'
          rw [hs'] at h2
          cases h2
        | some y =>
          obtain ⟨c3, ev2⟩ := y
          have hs' := hs
          unfold mounted at hs'
          rw [hs'] at h2
          simp only [Option.some.injEq, Prod.mk.injEq] at h2
          obtain ⟨rfl, rfl⟩ := h2
          obtain ⟨f1, f2, f3, f4, f5, f6⟩ := estimate_facts he
          have hq := stage_quiet hs
          obtain ⟨g1, g2, g3, g4⟩ := stage_inv m n (by omega) c2 c3 ev2 (milestones evs0) (f2.trans i1) (f4.trans i3) (f1 ▸ i5) hs
            (by
              intro hna v
              rw [hev, f6 (by rw [← f1]; exact hna), List.mem_append]
              constructor
              · rintro (h | h)
                · simpa using h
                · exact absurd rfl ((hq _ h).2 v)
              · rintro rfl; exact .inl (by simp))
            (by
              intro hna v
              rw [hev, f6 (by rw [← f1]; exact hna), List.mem_append]
              constructor
              · rintro (h | h)
                · simpa using h
                · exact absurd rfl ((hq _ h).1 v)
              · rintro rfl; exact .inl (by simp))
          refine ⟨g1, g2.trans (f3.trans i2), by rw [g3]; exact (decide_eq_false (by omega)).symm, by simp, ?_⟩
          have hmil : milestones (((ev1 ++ ev2).map fun e => (n, e))) = milestones (ev2.map fun e => (n, e)) := by
            rw [List.map_append, milestones_append]
            rcases f5 with rfl | rfl <;> rfl
          rw [hmil]
          exact g4

/-- C44: for every profile and stream of snapshots, whatever the floating point operations, the vectors and the Kalman filter do, as long as the primary flight computer has not
crashed: what it has announced, and when, is exactly its timeline. Launch is at the first snapshot, not before the hundred-and-first, at which the mean of the last four
accelerations exceeds 50; burn-out at the first, at least four after the launch, at which the mean magnitude of the last four is under 10; descent at the first after that
at which the speed it publishes is not positive; and so on. -/
theorem C44_timeline {fl : Floats} {es : Est fl} (m : Mission fl es) (n : Nat) {c : Primary fl es} {evs : List (Nat × Event fl.S)} (h : m.run n = some (c, evs)) :
    PTimeline m n (milestones evs) := (mission_inv m n h).2.2.2.2.timeline

/-- C44: each stage announced at most once, in order, and none after the announcement that the minimum apogee was not reached -/
theorem C44_order {fl : Floats} {es : Est fl} (m : Mission fl es) (n : Nat) {c : Primary fl es} {evs : List (Nat × Event fl.S)} (h : m.run n = some (c, evs)) :
    ((milestones evs).map Prod.snd <+: [some .armed, some .powerAscend, some .coast, some .descent, some .landed] ∨
      (milestones evs).map Prod.snd = [some .armed, some .powerAscend, some .coast, some .descent, none]) ∧
    (milestones evs).Pairwise fun x y => x.1 < y.1 := by
  have ht := C44_timeline m n h
  revert ht
  generalize milestones evs = l
  intro ht
  cases ht with
  | start h => exact ⟨.inl ⟨_, rfl⟩, List.Pairwise.nil⟩
  | armed h1 h2 => exact ⟨.inl ⟨_, rfl⟩, List.pairwise_singleton _ _⟩
  | launched a h1 h2 h3 =>
    have := h1.1
    refine ⟨.inl ⟨_, rfl⟩, ?_⟩
    simp
    omega
  | coasting a b h1 h2 h3 =>
    have := h1.1.1
    have := h1.2.1
    refine ⟨.inl ⟨_, rfl⟩, ?_⟩
    simp
    omega
  | waitDrogue a b c h1 h2 h3 h4 =>
    have := h1.1.1.1
    have := h1.1.2.1
    have := h1.2.1
    refine ⟨.inl ⟨_, rfl⟩, ?_⟩
    simp
    omega
  | failed a b c d h1 h2 h3 h4 =>
    have := h1.1.1.1
    have := h1.1.2.1
    have := h1.2.1
    have := h2.1
    refine ⟨.inr rfl, ?_⟩
    simp
    omega
  | waitLow a b c d h1 h2 h3 =>
    have := h1.1.1.1.1
    have := h1.1.1.2.1
    have := h1.1.2.1
    refine ⟨.inl ⟨_, rfl⟩, ?_⟩
    simp
    omega
  | waitMain a b c d e h1 h2 h3 h4 =>
    have := h1.1.1.1.1
    have := h1.1.1.2.1
    have := h1.1.2.1
    refine ⟨.inl ⟨_, rfl⟩, ?_⟩
    simp
    omega
  | waitLanding a b c d e f h1 h2 h3 =>
    have := h1.1.1.1.1.1
    have := h1.1.1.1.2.1
    have := h1.1.1.2.1
    refine ⟨.inl ⟨_, rfl⟩, ?_⟩
    simp
    omega
  | landed a b c d e f g h1 h2 h3 =>
    have := h1.1.1.1.1.1
    have := h1.1.1.1.2.1
    have := h1.1.1.2.1
    have := h1.1.2.1.1
    have := h1.2.1.1
    have := h1.2.2.1
    have := h2.1
    refine ⟨.inl ⟨[], rfl⟩, ?_⟩
    simp
    omega

theorem mem_milestones {S : Type} (evs : List (Nat × Event S)) (i : Nat) (s : FcState) : (i, Event.changeState s) ∈ evs ↔ (i, some s) ∈ milestones evs := by
  induction evs with
  | nil => simp [milestones]
  | cons x l ih =>
    obtain ⟨j, e⟩ := x
    cases e <;> simp [milestones, ih]

/-- C44: descent is announced only after burn-out was, and at a snapshot at which the published speed is not positive; burn-out only after launch -/
theorem C44_descent {fl : Floats} {es : Est fl} (m : Mission fl es) (n : Nat) {c : Primary fl es} {evs : List (Nat × Event fl.S)} (h : m.run n = some (c, evs))
    {i : Nat} (hi : (i, Event.changeState FcState.descent) ∈ evs) :
    ∃ a b, (a, Event.changeState FcState.powerAscend) ∈ evs ∧ (b, Event.changeState FcState.coast) ∈ evs ∧ a < b ∧ b < i ∧
      ∃ v, Event.changeAirSpeed v ∈ m.events i ∧ fl.s.le v (fl.s.lit 0) = true := by
  have ht := C44_timeline m n h
  simp only [mem_milestones] at hi ⊢
  revert ht hi
  generalize milestones evs = l
  intro ht hi
  cases ht with
  | start h => simp at hi
  | armed h1 h2 => simp at hi
  | launched a h1 h2 h3 => simp at hi
  | coasting a b h1 h2 h3 => simp at hi
  | waitDrogue a b c h1 h2 h3 h4 =>
    simp at hi; subst hi
    exact ⟨a, b, by simp, by simp, by have := h1.1.2.1; omega, h1.2.1, h1.2.2.1⟩
  | failed a b c d h1 h2 h3 h4 =>
    simp at hi; subst hi
    exact ⟨a, b, by simp, by simp, by have := h1.1.2.1; omega, h1.2.1, h1.2.2.1⟩
  | waitLow a b c d h1 h2 h3 =>
    simp at hi; subst hi
    replace h1 := h1.1
    exact ⟨a, b, by simp, by simp, by have := h1.1.2.1; omega, h1.2.1, h1.2.2.1⟩
  | waitMain a b c d e h1 h2 h3 h4 =>
    simp at hi; subst hi
    replace h1 := h1.1
    exact ⟨a, b, by simp, by simp, by have := h1.1.2.1; omega, h1.2.1, h1.2.2.1⟩
  | waitLanding a b c d e f h1 h2 h3 =>
    simp at hi; subst hi
    replace h1 := h1.1.1
    exact ⟨a, b, by simp, by simp, by have := h1.1.2.1; omega, h1.2.1, h1.2.2.1⟩
  | landed a b c d e f g h1 h2 h3 =>
    simp at hi; subst hi
    replace h1 := h1.1.1
    exact ⟨a, b, by simp, by simp, by have := h1.1.2.1; omega, h1.2.1, h1.2.2.1⟩

/-- C45 (finding): in no flight does the primary flight computer announce the deployment of a parachute -/
theorem C45_never_deploys {fl : Floats} {es : Est fl} (m : Mission fl es) (n : Nat) {c : Primary fl es} {evs : List (Nat × Event fl.S)} (h : m.run n = some (c, evs))
    (i : Nat) : (i, Event.changeState FcState.drogueChuteDeployed) ∉ evs ∧ (i, Event.changeState FcState.mainChuteDeployed) ∉ evs := by
  have ho := (C44_order m n h).1
  simp only [mem_milestones]
  have key : ∀ s, (i, some s) ∈ milestones evs → s = .armed ∨ s = .powerAscend ∨ s = .coast ∨ s = .descent ∨ s = .landed := by
    intro s hs
    have hs' : some s ∈ (milestones evs).map Prod.snd := List.mem_map.2 ⟨_, hs, rfl⟩
    rcases ho with ho | ho
    · have := ho.subset hs'
      simpa using this
    · rw [ho] at hs'
      have : s = .armed ∨ s = .powerAscend ∨ s = .coast ∨ s = .descent := by simpa using hs'
      rcases this with h | h | h | h <;> simp [h]
  constructor
  · intro h
    have := key _ h
    simp at this
  · intro h
    have := key _ h
    simp at this

/-- rationals in place of floating point numbers, for the examples -/
def ratOps : Ops Rat :=
  ⟨(· + ·), (· - ·), (· * ·), (· / ·), fun a b => decide (a < b), fun a b => decide (a ≤ b), fun a => if a < 0 then -a else a, fun a => -a, fun n => n⟩

def ratFloats : Floats := ⟨Rat, Rat, ratOps, ratOps, id, id⟩

instance : DecidableEq (Event ratFloats.S) := inferInstanceAs (DecidableEq (Event Rat))

instance : DecidableEq ratFloats.S := inferInstanceAs (DecidableEq Rat)

def demoProfile : Profile ratFloats := ⟨(1000 : Rat), (100 : Rat), (500 : Rat), (300 : Rat), (0 : Rat), (3000 : Rat), (5000 : Rat)⟩

/-- a filter that changes nothing -/
def demoBiquad : Biquad ratFloats := ⟨(0 : Rat), (0 : Rat), (1 : Rat), (0 : Rat), (0 : Rat), (0 : Rat), (0 : Rat)⟩

/-- up to 900 in 3 s, then down -/
def demoFlight : Flight ratFloats :=
  ⟨demoProfile, demoBiquad, fun i => ⟨(1000 * i : Rat), ([0, 300, 600, 900, 900, 850, 800, 750, 600, 450, 300, 200, 160, 130, 120, 120] : List Rat).getD i 120⟩⟩

/-- the demo flight goes through all stages -/
example : ((Backup.new demoFlight.q demoFlight.p).after demoFlight.r 20).map (fun x => announced x.2) =
    some [(0, .armed), (12, .drogueChuteDeployed), (14, .mainChuteDeployed), (15, .landed)] := by decide +kernel

/-- the manual flight computer goes through all stages -/
example : announced ((Manual.new demoProfile).after (fun i => if i = 2 then .trigger (200 : Rat) else .tick (100 * i : Rat)) 100).2 =
    [(2, .drogueChuteDeployed), (32, .mainChuteDeployed), (82, .landed)] := by decide +kernel

/-- a Kalman filter that takes position and velocity from the second and third component of the acceleration -/
def demoEst : Est ratFloats :=
  { E := Rat × Rat, V := Rat × Rat × Rat, initial := (0, 0), posZ := Prod.fst, velZ := Prod.snd, setPosZ := fun e z => (z, e.2)
    predict := fun _ a _ _ => (a.2.1, a.2.2), observeHeight := fun e _ => e, orient := fun e _ => some e, mount := id, degToRad := id, mag := Prod.fst, z := Prod.fst }

/-- launch at 103, burn-out at 110, apogee at 113, landing at 120 -/
def demoMission : Mission ratFloats demoEst :=
  ⟨demoProfile, fun i => ⟨(1000 * i : Rat), (1000 * i : Rat), (if i < 100 then ((10 : Rat), (0 : Rat), (0 : Rat)) else if i < 107 then ((100 : Rat), (200 : Rat), (300 : Rat))
    else if i < 113 then ((1 : Rat), (900 : Rat), (50 : Rat)) else if i < 117 then ((1 : Rat), (500 : Rat), (-20 : Rat)) else if i < 120 then ((1 : Rat), (200 : Rat), (-20 : Rat))
    else ((1 : Rat), (0 : Rat), (0 : Rat))), ((0 : Rat), (0 : Rat), (0 : Rat)), none⟩⟩

/-- the demo mission goes through all stages -/
example : (demoMission.run 130).map (fun x => milestones x.2) =
    some [(1, some .armed), (101, some .powerAscend), (110, some .coast), (113, some .descent), (120, some .landed)] := by decide +kernel

/-- at its descent the demo mission publishes a speed that is not positive -/
example : ∃ v, Event.changeAirSpeed v ∈ demoMission.events 113 ∧ ratFloats.s.le v (ratFloats.s.lit 0) = true :=
  ⟨(-20 : Rat), by
    rw [show demoMission.events 113 = [.changeAltitude (500 : Rat), .changeAirSpeed (-20 : Rat), .changeState .descent] by decide +kernel]
    exact .tail _ (.head _), by decide +kernel⟩

end Verif.Props
