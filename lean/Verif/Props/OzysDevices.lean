import Mathlib.Data.List.Induction
import Mathlib.Tactic.Ring
import Mathlib.Algebra.Order.Field.Rat
import Verif.Spec.OzysDevices
import Verif.Props.OzysDatabase
/-
C115: the devices of the OZYS app and their manager.
-/
namespace Verif.Props
open Verif Verif.Ozys

/-! rounding and loops -/

theorem roundTo_nearest (step x : Nat) (h : 0 < step) (he : 2 ∣ step) : IsNearest step x (roundTo step x) := by
  obtain ⟨h2, rfl⟩ := he
  have e : 2 * h2 / 2 = h2 := by omega
  unfold IsNearest roundTo
  rw [e]
  generalize hq : (x + h2) / (2 * h2) = q
  have h1 : 2 * h2 * q ≤ x + h2 := by rw [← hq]; exact Nat.mul_div_le _ _
  have h3 : x + h2 < 2 * h2 * (q + 1) := by rw [← hq]; exact Nat.lt_mul_div_succ _ h
  rw [Nat.mul_add, Nat.mul_one] at h3
  rw [Nat.mul_comm q]
  exact ⟨⟨q, rfl⟩, by omega, by omega⟩

theorem roundTo_mono (step x y : Nat) (h : x ≤ y) : roundTo step x ≤ roundTo step y := by
  unfold roundTo
  exact Nat.mul_le_mul_right _ (Nat.div_le_div_right (by omega))

theorem step_dvd_roundTo (step x : Nat) : step ∣ roundTo step x := ⟨_, Nat.mul_comm _ _⟩

theorem loopTimes_ge (step a b : Nat) (h : b ≤ a) : loopTimes step a b = [] := by
  unfold loopTimes; rw [if_neg (by omega)]

theorem loopTimes_range (step : Nat) (h : 0 < step) : ∀ (n a : Nat), loopTimes step a (a + step * n) = (List.range n).map fun i => a + step * i := by
  intro n
  induction n with
  | zero => intro a; rw [Nat.mul_zero, loopTimes_ge _ _ _ (by omega)]; rfl
  | succ n ih =>
    intro a
    unfold loopTimes
    have : step ≤ step * (n + 1) := Nat.le_mul_of_pos_right _ (by omega)
    rw [if_pos ⟨h, by omega⟩]
    have e : a + step * (n + 1) = (a + step) + step * n := by rw [Nat.mul_add]; omega
    rw [e, ih (a + step), List.range_succ_eq_map, List.map_cons, List.map_map]
    simp only [Nat.mul_zero, Nat.add_zero]
    congr 1
    apply List.map_congr_left
    intro i _
    simp only [Function.comp, Nat.succ_eq_add_one, Nat.mul_add]
    omega

theorem loopTimes_append (step a b c : Nat) (h : 0 < step) (hab : a ≤ b) (hbc : b ≤ c) (ha : step ∣ a) (hb : step ∣ b) (hc : step ∣ c) :
    loopTimes step a b ++ loopTimes step b c = loopTimes step a c := by
  obtain ⟨n, hn⟩ : step ∣ b - a := Nat.dvd_sub hb ha
  obtain ⟨k, hk⟩ : step ∣ c - b := Nat.dvd_sub hc hb
  have e1 : b = a + step * n := by omega
  have e2 : c = b + step * k := by omega
  have e3 : c = a + step * (n + k) := by rw [Nat.mul_add]; omega
  rw [show loopTimes step a c = loopTimes step a (a + step * (n + k)) by rw [← e3], loopTimes_range _ h, e2, loopTimes_range _ h, e1, loopTimes_range _ h,
    List.range_add, List.map_append, List.map_map]
  congr 1
  apply List.map_congr_left
  intro i _
  simp only [Function.comp, Nat.mul_add]
  omega

theorem loopTimes_bounds (step a b : Nat) (t : Nat) (ht : t ∈ loopTimes step a b) : a ≤ t ∧ t < b := by
  induction a using loopTimes.induct (step := step) (stop := b) with
  | case1 a h ih =>
    unfold loopTimes at ht
    rw [if_pos h] at ht
    rcases List.mem_cons.mp ht with rfl | ht
    · exact ⟨Nat.le_refl _, h.2⟩
    · have := ih ht; omega
  | case2 a h => unfold loopTimes at ht; rw [if_neg h] at ht; cases ht

theorem loopTimes_dvd (step a b : Nat) (ha : step ∣ a) (t : Nat) (ht : t ∈ loopTimes step a b) : step ∣ t := by
  induction a using loopTimes.induct (step := step) (stop := b) with
  | case1 a h ih =>
    unfold loopTimes at ht
    rw [if_pos h] at ht
    rcases List.mem_cons.mp ht with rfl | ht
    · exact ha
    · exact ih (Nat.dvd_add ha (Nat.dvd_refl _)) ht
  | case2 a h => unfold loopTimes at ht; rw [if_neg h] at ht; cases ht

theorem loopTimes_sorted (step a b : Nat) : (loopTimes step a b).Pairwise (· < ·) := by
  induction a using loopTimes.induct (step := step) (stop := b) with
  | case1 a h ih =>
    unfold loopTimes
    rw [if_pos h]
    exact List.pairwise_cons.mpr ⟨fun t ht => by have := loopTimes_bounds step _ b t ht; omega, ih⟩
  | case2 a h => unfold loopTimes; rw [if_neg h]; exact List.Pairwise.nil

/-! channels of a device -/

/-- ids of the connected channels -/
def chanIds (d : Dev) : List String := (d.info.channels.filterMap fun x => x).map (·.id)

theorem updFirst_ids (c : String) (f : Chan → Chan) (hf : ∀ x, (f x).id = x.id) : ∀ l : List (Option Chan), ((updFirst c f l).filterMap fun x => x).map (·.id) = (l.filterMap fun x => x).map (·.id) := by
  intro l
  induction l with
  | nil => rfl
  | cons x l ih =>
    cases x with
    | none => simpa [updFirst] using ih
    | some x =>
      unfold updFirst
      split
      · simp [hf]
      · simpa using ih

theorem step_ids (wave : Rat → Rat) (d : Dev) (o : DevOp) : chanIds (d.step wave o).2 = chanIds d := by
  cases o with
  | aligned s => simp only [Dev.step]; split <;> (try split) <;> rfl
  | tick s now => simp only [Dev.step]; split <;> (try split) <;> rfl
  | opened => simp only [Dev.step]; split <;> rfl
  | audio now a b => simp only [Dev.step]; split <;> (try split) <;> rfl
  | disconnect => simp only [Dev.step]; split <;> rfl
  | control c e => exact updFirst_ids c (fun x => { x with enabled := e }) (fun _ => rfl) d.info.channels
  | renameChannel c e => exact updFirst_ids c (fun x => { x with name := e }) (fun _ => rfl) d.info.channels
  | renameDevice n => rfl
  | record e => rfl

theorem step_subs (wave : Rat → Rat) (d : Dev) (o : DevOp) : (d.step wave o).2.subs = d.subs := by
  cases o with
  | aligned s => simp only [Dev.step]; split <;> (try split) <;> rfl
  | tick s now => simp only [Dev.step]; split <;> (try split) <;> rfl
  | opened => simp only [Dev.step]; split <;> rfl
  | audio now a b => simp only [Dev.step]; split <;> (try split) <;> rfl
  | disconnect => simp only [Dev.step]; split <;> rfl
  | control c e => rfl
  | renameChannel c e => rfl
  | renameDevice n => rfl
  | record e => rfl

theorem step_devId (wave : Rat → Rat) (d : Dev) (o : DevOp) : (d.step wave o).2.info.id = d.info.id := by
  cases o with
  | aligned s => simp only [Dev.step]; split <;> (try split) <;> rfl
  | tick s now => simp only [Dev.step]; split <;> (try split) <;> rfl
  | opened => simp only [Dev.step]; split <;> rfl
  | audio now a b => simp only [Dev.step]; split <;> (try split) <;> rfl
  | disconnect => simp only [Dev.step]; split <;> rfl
  | control c e => rfl
  | renameChannel c e => rfl
  | renameDevice n => rfl
  | record e => rfl

/-- is the channel on? -/
def isOn (d : Dev) (c : String) : Bool := d.info.live.any fun x => x.id = c

theorem live_filter (c : String) : ∀ l : List Chan, (l.map (·.id)).Nodup → ((l.filter (·.enabled)).map (·.id)).filter (· = c) = if (l.filter (·.enabled)).any (fun x => x.id = c) then [c] else [] := by
  intro l
  induction l with
  | nil => intro _; rfl
  | cons x l ih =>
    intro hn
    rw [List.map_cons, List.nodup_cons] at hn
    have ih' := ih hn.2
    by_cases he : x.enabled
    · rw [List.filter_cons_of_pos he, List.map_cons]
      by_cases hc : x.id = c
      · rw [List.filter_cons_of_pos (by simpa using hc), ih', List.any_cons]
        have : ((l.filter (·.enabled)).any fun x => decide (x.id = c)) = false := by
          rw [List.any_eq_false]
          intro y hy hyc
          apply hn.1
          rw [hc]
          exact List.mem_map.mpr ⟨y, (List.mem_filter.mp hy).1, by simpa using hyc⟩
        rw [this]
        simp [hc]
      · rw [List.filter_cons_of_neg (by simpa using hc), ih', List.any_cons]
        simp [hc]
    · rw [List.filter_cons_of_neg he]; exact ih'

/-- the calls about a channel -/
def about (c : String) (l : List Call) : List Call := l.filter fun x => x.1 = c

theorem about_append (c : String) (a b : List Call) : about c (a ++ b) = about c a ++ about c b := List.filter_append ..

theorem about_flatMap {β : Type} (c : String) (l : List β) (f : β → List Call) : about c (l.flatMap f) = l.flatMap fun x => about c (f x) := by
  unfold about; rw [List.filter_flatMap]

theorem about_generate (wave : Rat → Rat) (d : Dev) (s : Stream) (t : Nat) (c : String) (hn : (chanIds d).Nodup) (hs : d.subs = 1) :
    about c (d.generate wave s t) = if isOn d c then [(c, mockData wave s t)] else [] := by
  have h := live_filter c (d.info.channels.filterMap fun x => x) hn
  unfold Dev.generate Dev.call about isOn
  rw [hs]
  change List.filter _ (d.info.live.flatMap fun ch => [(ch.id, mockData wave s t)]) = _
  rw [← List.map_eq_flatMap]
  have e : (d.info.live.map fun ch => (ch.id, mockData wave s t)) = ((d.info.live.map (·.id)).map fun x => (x, mockData wave s t)) := by rw [List.map_map]; rfl
  rw [e, List.filter_map]
  have e2 : ((d.info.live.map (·.id)).filter ((fun x : Call => decide (x.1 = c)) ∘ fun x => (x, mockData wave s t))) = if d.info.live.any (fun x => x.id = c) then [c] else [] := h
  rw [e2]
  split <;> rfl

theorem flatMap_ite {β γ : Type} (l : List β) (b : Bool) (f : β → γ) : (l.flatMap fun t => if b then [f t] else []) = if b then l.map f else [] := by
  cases b
  · simp
  · simp [List.map_eq_flatMap]

theorem about_tick (wave : Rat → Rat) (d : Dev) (m : MockSt) (s : Stream) (now : Nat) (c : String) (hn : (chanIds d).Nodup) (hs : d.subs = 1) :
    about c (d.mockTick wave m s now).1 = if m.last s = 0 then [] else if isOn d c then (loopTimes s.step (m.last s) (roundTo s.step now)).map (fun t => (c, mockData wave s t)) else [] := by
  unfold Dev.mockTick
  split
  · rfl
  · show about c (List.flatMap _ _) = _
    rw [about_flatMap]
    simp only [about_generate wave d s _ c hn hs]
    exact flatMap_ite _ _ _

theorem isOn_eq (d : Dev) (c : String) : isOn d c = (d.info.channels.filterMap fun x => x).any fun x => x.enabled && decide (x.id = c) := by
  unfold isOn DevInfo.live
  rw [List.any_filter]

theorem updFirst_on (c c' : String) (f : Chan → Chan) (hid : ∀ x, (f x).id = x.id) (hen : c' = c → ∀ x : Chan, x.enabled → (f x).enabled) :
    ∀ l : List (Option Chan), ((l.filterMap fun x => x).any fun x => x.enabled && decide (x.id = c)) → (((updFirst c' f l).filterMap fun x => x).any fun x => x.enabled && decide (x.id = c)) := by
  intro l
  induction l with
  | nil => intro h; exact h
  | cons x l ih =>
    cases x with
    | none => intro h; simpa [updFirst] using ih (by simpa using h)
    | some x =>
      intro h
      unfold updFirst
      change ((x :: l.filterMap fun x => x).any fun x => x.enabled && decide (x.id = c)) = true at h
      rw [List.any_cons, Bool.or_eq_true] at h
      split
      · rename_i hx
        change ((f x :: l.filterMap fun x => x).any fun x => x.enabled && decide (x.id = c)) = true
        rw [List.any_cons, Bool.or_eq_true]
        rcases h with h | h
        · left
          simp only [Bool.and_eq_true, decide_eq_true_eq] at h ⊢
          exact ⟨hen (by rw [← hx, h.2]) x h.1, by rw [hid]; exact h.2⟩
        · exact .inr h
      · change ((x :: (updFirst c' f l).filterMap fun x => x).any fun x => x.enabled && decide (x.id = c)) = true
        rw [List.any_cons, Bool.or_eq_true]
        rcases h with h | h
        · exact .inl h
        · exact .inr (ih h)

theorem isOn_step (wave : Rat → Rat) (d : Dev) (o : DevOp) (c : String) (h : isOn d c) (ho : ∀ e, o = .control c e → e = true) : isOn (d.step wave o).2 c := by
  cases o with
  | aligned s => simp only [Dev.step]; split <;> (try split) <;> exact h
  | tick s now => simp only [Dev.step]; split <;> (try split) <;> exact h
  | opened => simp only [Dev.step]; split <;> exact h
  | audio now a b => simp only [Dev.step]; split <;> (try split) <;> exact h
  | disconnect => simp only [Dev.step]; split <;> exact h
  | control c' e =>
    rw [isOn_eq] at h ⊢
    exact updFirst_on c c' (fun x => { x with enabled := e }) (fun _ => rfl) (fun hc _ _ => by subst hc; exact ho e rfl) d.info.channels h
  | renameChannel c' n =>
    rw [isOn_eq] at h ⊢
    exact updFirst_on c c' (fun x => { x with name := n }) (fun _ => rfl) (fun _ _ hx => hx) d.info.channels h
  | renameDevice n => exact h
  | record e => exact h

/-! the streams of a mock device -/

/-- the stream data belongs to -/
def Data.stream : Data → Stream
  | .readings _ => .readings
  | .fft _ => .fft

/-- calls about a channel in a stream -/
def part (c : String) (s : Stream) (l : List Call) : List Call := (about c l).filter fun x => Data.stream x.2 = s

theorem part_append (c : String) (s : Stream) (a b : List Call) : part c s (a ++ b) = part c s a ++ part c s b := by
  unfold part; rw [about_append, List.filter_append]

theorem readingsOf_append (c : String) (a b : List Call) : readingsOf c (a ++ b) = readingsOf c a ++ readingsOf c b := by
  induction a with
  | nil => rfl
  | cons x a ih =>
    obtain ⟨c', x⟩ := x
    cases x with
    | readings d => simp only [List.cons_append, readingsOf, ih]; split <;> rfl
    | fft d => exact ih

theorem fftsOf_append (c : String) (a b : List Call) : fftsOf c (a ++ b) = fftsOf c a ++ fftsOf c b := by
  induction a with
  | nil => rfl
  | cons x a ih =>
    obtain ⟨c', x⟩ := x
    cases x with
    | fft d => simp only [List.cons_append, fftsOf, ih]; split <;> rfl
    | readings d => exact ih

theorem readingsOf_part (c : String) (l : List Call) : readingsOf c l = readingsOf c (part c .readings l) := by
  induction l with
  | nil => rfl
  | cons x l ih =>
    rw [show x :: l = [x] ++ l from rfl, readingsOf_append, part_append, readingsOf_append, ← ih]
    congr 1
    obtain ⟨c', x⟩ := x
    by_cases hc : c' = c
    · cases x <;> simp [readingsOf, part, about, Data.stream, hc]
    · cases x <;> simp [readingsOf, part, about, hc]

theorem fftsOf_part (c : String) (l : List Call) : fftsOf c l = fftsOf c (part c .fft l) := by
  induction l with
  | nil => rfl
  | cons x l ih =>
    rw [show x :: l = [x] ++ l from rfl, fftsOf_append, part_append, fftsOf_append, ← ih]
    congr 1
    obtain ⟨c', x⟩ := x
    by_cases hc : c' = c
    · cases x <;> simp [fftsOf, part, about, Data.stream, hc]
    · cases x <;> simp [fftsOf, part, about, hc]

theorem mockData_stream (wave : Rat → Rat) (s : Stream) (t : Nat) : Data.stream (mockData wave s t) = s := by cases s <;> rfl

theorem part_tick (wave : Rat → Rat) (d : Dev) (m : MockSt) (s s' : Stream) (now : Nat) (c : String) (hn : (chanIds d).Nodup) (hs : d.subs = 1) :
    part c s (d.mockTick wave m s' now).1 = if s' = s ∧ m.last s ≠ 0 ∧ isOn d c then (loopTimes s.step (m.last s) (roundTo s.step now)).map (fun t => (c, mockData wave s t)) else [] := by
  unfold part
  rw [about_tick wave d m s' now c hn hs]
  by_cases hss : s' = s
  · subst hss
    by_cases h0 : m.last s' = 0
    · simp [h0]
    · rw [if_neg h0]
      by_cases hon : isOn d c
      · rw [if_pos hon, if_pos ⟨rfl, h0, hon⟩, List.filter_eq_self]
        intro x hx
        obtain ⟨t, _, rfl⟩ := List.mem_map.mp hx
        simp [mockData_stream]
      · rw [if_neg hon, if_neg (by simp [hon])]; rfl
  · rw [show (if s' = s ∧ m.last s ≠ 0 ∧ isOn d c = true then (loopTimes s.step (m.last s) (roundTo s.step now)).map (fun t => (c, mockData wave s t)) else []) = [] from if_neg (fun h => hss h.1)]
    rw [List.filter_eq_nil_iff]
    intro x hx
    split at hx
    · cases hx
    · split at hx
      · obtain ⟨t, _, rfl⟩ := List.mem_map.mp hx
        simp [mockData_stream, hss]
      · cases hx

/-- an operation that is no firing of the stream -/
theorem part_other (wave : Rat → Rat) (d : Dev) (m : MockSt) (hb : d.body = .mock m) (s : Stream) (o : DevOp) (ho : ∀ now, o ≠ .tick s now) (c : String) (hn : (chanIds d).Nodup) (hs : d.subs = 1) :
    part c s (d.step wave o).1 = [] := by
  cases o with
  | tick s' now =>
    have hne : s' ≠ s := fun h => ho now (by rw [h])
    simp only [Dev.step, hb]
    split
    · show part c s (d.mockTick wave m s' now).1 = []
      rw [part_tick wave d m s s' now c hn hs, if_neg (by simp [hne])]
    · rfl
  | audio now a b => simp only [Dev.step, hb]; rfl
  | _ => rfl

/-- what an operation that is no firing of the stream does to the stream's state -/
theorem body_other (wave : Rat → Rat) (d : Dev) (m : MockSt) (hb : d.body = .mock m) (s : Stream) (o : DevOp) (ho : ∀ now, o ≠ .tick s now) :
    ∃ m', (d.step wave o).2.body = .mock m' ∧ m'.last s = m.last s ∧ (o ≠ .disconnect → m.running s → m'.running s) ∧ (o ≠ .aligned s → m'.waiting s = m.waiting s) ∧
      (o ≠ .aligned s → m.running s = false → m'.running s = false) := by
  cases o with
  | aligned s' =>
    simp only [Dev.step, hb]
    split
    · refine ⟨_, rfl, rfl, ?_, ?_, ?_⟩
      · intro _ h; show setStream m.running s' true s = true; unfold setStream; split <;> trivial
      · intro h; have hne : s ≠ s' := fun e => h (by rw [e])
        show setStream m.waiting s' false s = _; unfold setStream; rw [if_neg hne]
      · intro h hr; have hne : s ≠ s' := fun e => h (by rw [e])
        show setStream m.running s' true s = _; unfold setStream; rw [if_neg hne]; exact hr
    · exact ⟨m, hb, rfl, fun _ h => h, fun _ => rfl, fun _ h => h⟩
  | tick s' now =>
    have hne : s ≠ s' := fun h => ho now (by rw [h])
    simp only [Dev.step, hb]
    split
    · refine ⟨_, rfl, ?_, ?_, ?_, ?_⟩
      · unfold Dev.mockTick; split <;> (show setStream m.last s' _ s = _; unfold setStream; rw [if_neg hne])
      · intro _ h; unfold Dev.mockTick; split <;> exact h
      · intro _; unfold Dev.mockTick; split <;> rfl
      · intro _ h; unfold Dev.mockTick; split <;> exact h
    · exact ⟨m, hb, rfl, fun _ h => h, fun _ => rfl, fun _ h => h⟩
  | opened => simp only [Dev.step, hb]; exact ⟨m, rfl, rfl, fun _ h => h, fun _ => rfl, fun _ h => h⟩
  | audio now a b => simp only [Dev.step, hb]; exact ⟨m, rfl, rfl, fun _ h => h, fun _ => rfl, fun _ h => h⟩
  | disconnect =>
    simp only [Dev.step, hb]
    exact ⟨m.disconnect, rfl, rfl, fun h => absurd rfl h, fun _ => rfl, fun _ h => by show (m.running s && !m.listed s) = false; rw [h]; rfl⟩
  | control c e => exact ⟨m, hb, rfl, fun _ h => h, fun _ => rfl, fun _ h => h⟩
  | renameChannel c e => exact ⟨m, hb, rfl, fun _ h => h, fun _ => rfl, fun _ h => h⟩
  | renameDevice n => exact ⟨m, hb, rfl, fun _ h => h, fun _ => rfl, fun _ h => h⟩
  | record e => exact ⟨m, hb, rfl, fun _ h => h, fun _ => rfl, fun _ h => h⟩

theorem body_tick (wave : Rat → Rat) (d : Dev) (m : MockSt) (hb : d.body = .mock m) (s : Stream) (now : Nat) (hr : m.running s) :
    ∃ m', (d.step wave (.tick s now)).2.body = .mock m' ∧ m'.last s = roundTo s.step now ∧ m'.running s ∧ m'.waiting s = m.waiting s := by
  simp only [Dev.step, hb, hr, if_true]
  refine ⟨_, rfl, ?_, ?_, ?_⟩
  · unfold Dev.mockTick; split <;> (show setStream m.last s _ s = _; unfold setStream; rw [if_pos rfl])
  · unfold Dev.mockTick; split <;> exact hr
  · unfold Dev.mockTick; split <;> rfl

theorem firings_other (s : Stream) (o : DevOp) (os : List DevOp) (ho : ∀ now, o ≠ .tick s now) : firings s (o :: os) = firings s os := by
  cases o with
  | tick s' now => simp only [firings]; rw [if_neg (fun h => ho now (by rw [h]))]
  | _ => rfl

theorem run_cons (wave : Rat → Rat) (d : Dev) (o : DevOp) (os : List DevOp) : (d.run wave (o :: os)).1 = (d.step wave o).1 ++ ((d.step wave o).2.run wave os).1 := rfl

theorem devRun_append (wave : Rat → Rat) : ∀ (os os' : List DevOp) (d : Dev), (d.run wave (os ++ os')).1 = (d.run wave os).1 ++ ((d.run wave os).2.run wave os').1 ∧ (d.run wave (os ++ os')).2 = ((d.run wave os).2.run wave os').2 := by
  intro os os'
  induction os with
  | nil => intro d; exact ⟨by simp [Dev.run], rfl⟩
  | cons o os ih =>
    intro d
    obtain ⟨h1, h2⟩ := ih (d.step wave o).2
    exact ⟨by rw [List.cons_append, run_cons, h1, run_cons, List.append_assoc]; rfl, h2⟩

theorem stream_on (wave : Rat → Rat) (s : Stream) (hstep : 0 < s.step) (c : String) : ∀ (ops : List DevOp) (d : Dev) (m : MockSt), d.body = .mock m → m.running s → (chanIds d).Nodup → d.subs = 1 → isOn d c →
    StaysOn c ops → .disconnect ∉ ops → s.step ∣ m.last s → (firings s ops).Pairwise (· ≤ ·) → (∀ now ∈ firings s ops, m.last s ≤ roundTo s.step now ∧ roundTo s.step now ≠ 0) →
    part c s (d.run wave ops).1 = (loopTimes s.step (if m.last s = 0 then ((firings s ops).map (roundTo s.step)).headD 0 else m.last s) (((firings s ops).map (roundTo s.step)).getLastD (m.last s))).map
      (fun t => (c, mockData wave s t)) := by
  intro ops
  induction ops with
  | nil =>
    intro d m _ _ _ _ _ _ _ _ _ _
    show [] = _
    rw [loopTimes_ge]
    · rfl
    · show m.last s ≤ _
      split
      · rename_i h; rw [h]; exact Nat.zero_le _
      · exact Nat.le_refl _
  | cons o os ih =>
    intro d m hb hr hn hs hon hst hdis hdvd hmono hlast
    have hn' : (chanIds (d.step wave o).2).Nodup := by rw [step_ids]; exact hn
    have hs' : (d.step wave o).2.subs = 1 := by rw [step_subs]; exact hs
    have hon' : isOn (d.step wave o).2 c := isOn_step wave d o c hon fun e he => hst e (by rw [he]; exact List.mem_cons_self ..)
    have hst' : StaysOn c os := fun e he => hst e (List.mem_cons_of_mem _ he)
    have hdis' : .disconnect ∉ os := fun h => hdis (List.mem_cons_of_mem _ h)
    rw [run_cons, part_append]
    by_cases ho : ∃ now, o = .tick s now
    · obtain ⟨now, rfl⟩ := ho
      obtain ⟨m', b1, b2, b3, _⟩ := body_tick wave d m hb s now hr
      have ef : firings s (.tick s now :: os) = now :: firings s os := by simp [firings]
      rw [ef] at hmono hlast
      rw [List.pairwise_cons] at hmono
      obtain ⟨hl1, hl2⟩ := hlast now (List.mem_cons_self ..)
      have hrec := ih _ m' b1 b3 hn' hs' hon' hst' hdis' (by rw [b2]; exact step_dvd_roundTo _ _) hmono.2 (fun x hx => ⟨by rw [b2]; exact roundTo_mono _ _ _ (hmono.1 x hx), (hlast x (List.mem_cons_of_mem _ hx)).2⟩)
      rw [hrec, b2, if_neg hl2, ef, List.map_cons]
      have e1 : (d.step wave (.tick s now)).1 = (d.mockTick wave m s now).1 := by simp [Dev.step, hb, hr]
      rw [e1, part_tick wave d m s s now c hn hs]
      have eL : (roundTo s.step now :: (firings s os).map (roundTo s.step)).getLastD (m.last s) = ((firings s os).map (roundTo s.step)).getLastD (roundTo s.step now) := by
        rw [List.getLastD_cons]
      rw [eL, List.headD_cons]
      by_cases h0 : m.last s = 0
      · rw [if_neg (by simp [h0]), if_pos h0, List.nil_append]
      · rw [if_pos ⟨rfl, h0, hon⟩, if_neg h0, ← List.map_append, loopTimes_append s.step _ _ _ hstep hl1 ?_ hdvd (step_dvd_roundTo _ _) ?_]
        · cases hf : firings s os with
          | nil => simp
          | cons y ys =>
            rw [List.getLastD_eq_getLast?]
            have hmem : ((y :: ys).map (roundTo s.step)).getLast? = some (roundTo s.step ((y :: ys).getLast (by simp))) := by
              rw [List.getLast?_map, List.getLast?_eq_getLast_of_ne_nil (by simp)]; rfl
            rw [hmem]
            exact roundTo_mono _ _ _ (hmono.1 _ (by rw [hf]; exact List.getLast_mem _))
        · cases hf : firings s os with
          | nil => exact step_dvd_roundTo _ _
          | cons y ys =>
            rw [List.getLastD_eq_getLast?]
            have hmem : ((y :: ys).map (roundTo s.step)).getLast? = some (roundTo s.step ((y :: ys).getLast (by simp))) := by
              rw [List.getLast?_map, List.getLast?_eq_getLast_of_ne_nil (by simp)]; rfl
            rw [hmem]
            exact step_dvd_roundTo _ _
    · have ho' : ∀ now, o ≠ .tick s now := fun now h => ho ⟨now, h⟩
      obtain ⟨m', b1, b2, b3, _, _⟩ := body_other wave d m hb s o ho'
      have ef := firings_other s o os ho'
      rw [ef] at hmono hlast
      rw [part_other wave d m hb s o ho' c hn hs, List.nil_append, ef, ih _ m' b1 (b3 (fun h => hdis (by rw [h]; exact List.mem_cons_self ..)) hr) hn' hs' hon' hst' hdis' (by rw [b2]; exact hdvd) hmono (by rw [b2]; exact hlast), b2]

theorem nearest_unique (step x y z : Nat) (hy : IsNearest step x y) (hz : IsNearest step x z) : y = z := by
  obtain ⟨⟨p, rfl⟩, y1, y2⟩ := hy
  obtain ⟨⟨q, rfl⟩, z1, z2⟩ := hz
  rcases Nat.lt_trichotomy p q with h | h | h
  · obtain ⟨r, rfl⟩ : ∃ r, q = p + 1 + r := ⟨q - p - 1, by omega⟩
    have e : step * (p + 1 + r) = step * p + step + step * r := by rw [Nat.mul_add, Nat.mul_add, Nat.mul_one]
    rw [e] at z1
    omega
  · rw [h]
  · obtain ⟨r, rfl⟩ : ∃ r, p = q + 1 + r := ⟨p - q - 1, by omega⟩
    have e : step * (q + 1 + r) = step * q + step + step * r := by rw [Nat.mul_add, Nat.mul_add, Nat.mul_one]
    rw [e] at y1
    omega

/-- until its timer is started, a stream is silent -/
theorem stream_waiting (wave : Rat → Rat) (s : Stream) (c : String) : ∀ (ops : List DevOp) (d : Dev) (m : MockSt), d.body = .mock m → m.running s = false → (chanIds d).Nodup → d.subs = 1 → isOn d c → StaysOn c ops →
    .aligned s ∉ ops → part c s (d.run wave ops).1 = [] ∧ ∃ m', (d.run wave ops).2.body = .mock m' ∧ m'.running s = false ∧ m'.waiting s = m.waiting s ∧ m'.last s = m.last s ∧
      (chanIds (d.run wave ops).2).Nodup ∧ (d.run wave ops).2.subs = 1 ∧ isOn (d.run wave ops).2 c := by
  intro ops
  induction ops with
  | nil => intro d m hb hr hn hs hon _ _; exact ⟨rfl, m, hb, hr, rfl, rfl, hn, hs, hon⟩
  | cons o os ih =>
    intro d m hb hr hn hs hon hst hal
    have hn' : (chanIds (d.step wave o).2).Nodup := by rw [step_ids]; exact hn
    have hs' : (d.step wave o).2.subs = 1 := by rw [step_subs]; exact hs
    have hon' : isOn (d.step wave o).2 c := isOn_step wave d o c hon fun e he => hst e (by rw [he]; exact List.mem_cons_self ..)
    have hst' : StaysOn c os := fun e he => hst e (List.mem_cons_of_mem _ he)
    have hal' : .aligned s ∉ os := fun h => hal (List.mem_cons_of_mem _ h)
    rw [run_cons, part_append]
    by_cases ho : ∃ now, o = .tick s now
    · obtain ⟨now, rfl⟩ := ho
      have e : d.step wave (.tick s now) = ([], d) := by simp [Dev.step, hb, hr]
      obtain ⟨h1, h2⟩ := ih d m hb hr hn hs hon hst' hal'
      refine ⟨?_, ?_⟩
      · rw [e]; exact h1
      · show ∃ m', ((d.step wave (.tick s now)).2.run wave os).2.body = .mock m' ∧ m'.running s = false ∧ m'.waiting s = m.waiting s ∧ m'.last s = m.last s ∧
          (chanIds ((d.step wave (.tick s now)).2.run wave os).2).Nodup ∧ ((d.step wave (.tick s now)).2.run wave os).2.subs = 1 ∧ isOn ((d.step wave (.tick s now)).2.run wave os).2 c
        rw [e]; exact h2
    · have ho' : ∀ now, o ≠ .tick s now := fun now h => ho ⟨now, h⟩
      have hna : o ≠ .aligned s := fun h => hal (by rw [h]; exact List.mem_cons_self ..)
      obtain ⟨m', b1, b2, _, b4, b5⟩ := body_other wave d m hb s o ho'
      obtain ⟨h1, m2, h2, h3, h4, h5, h6⟩ := ih _ m' b1 (b5 hna hr) hn' hs' hon' hst' hal'
      exact ⟨by rw [h1, part_other wave d m hb s o ho' c hn hs]; rfl, m2, h2, h3, by rw [h4, b4 hna], by rw [h5, b2], h6⟩

theorem digits_inj {a b : Nat} (h : toString a = toString b) : a = b := by
  have h' : (toString a).toList = (toString b).toList := by rw [h]
  rw [Nat.toString_eq_ofList_toDigits, Nat.toString_eq_ofList_toDigits, String.toList_ofList, String.toList_ofList] at h'
  have := congrArg (fun l => Nat.ofDigitChars 10 l 0) h'
  simpa [Nat.ofDigitChars_ten_toDigits] using this

theorem append_inj_left (a b c : String) (h : a ++ c = b ++ c) : a = b := by
  have h' : (a ++ c).toList = (b ++ c).toList := by rw [h]
  rw [String.toList_append, String.toList_append] at h'
  exact String.toList_injective (List.append_cancel_right h')

theorem append_inj_right (a b c : String) (h : c ++ a = c ++ b) : a = b := by
  have h' : (c ++ a).toList = (c ++ b).toList := by rw [h]
  rw [String.toList_append, String.toList_append] at h'
  exact String.toList_injective (List.append_cancel_left h')

theorem channelId_inj_k (dev : String) (j k : Nat) (h : channelId dev j = channelId dev k) : j = k := digits_inj (append_inj_right _ _ _ h)

theorem mock_ids (i : Nat) : chanIds (mockDevice i) = [channelId (mockId i) 1, channelId (mockId i) 2, channelId (mockId i) 3] := rfl

theorem mock_nodup (i : Nat) : (chanIds (mockDevice i)).Nodup := by
  rw [mock_ids]
  have := channelId_inj_k (mockId i)
  simp only [List.nodup_cons, List.mem_cons, List.not_mem_nil, or_false, not_or, List.nodup_nil, not_false_eq_true, and_true]
  exact ⟨⟨fun h => absurd (this _ _ h) (by decide), fun h => absurd (this _ _ h) (by decide)⟩, fun h => absurd (this _ _ h) (by decide)⟩

theorem mock_on (i k : Nat) (hk : k = 1 ∨ k = 2) : isOn (mockDevice i) (channelId (mockId i) k) := by
  have : isOn (mockDevice i) (channelId (mockId i) k) = (decide (channelId (mockId i) 1 = channelId (mockId i) k) || (decide (channelId (mockId i) 2 = channelId (mockId i) k) || false)) := rfl
  rw [this]
  rcases hk with rfl | rfl <;> simp

theorem mock_stream (wave : Rat → Rat) (s : Stream) (i k : Nat) (hk : k = 1 ∨ k = 2) (pre post : List DevOp) (hpre : .aligned s ∉ pre) (hdis : .disconnect ∉ post) (hon : StaysOn (channelId (mockId i) k) (pre ++ post))
    (hclock : (firings s post).Pairwise (· ≤ ·)) (hpos : ∀ now ∈ firings s post, s.step / 2 ≤ now) :
    part (channelId (mockId i) k) s ((mockDevice i).run wave (pre ++ .aligned s :: post)).1 =
      (loopTimes s.step (((firings s post).map (roundTo s.step)).headD 0) (((firings s post).map (roundTo s.step)).getLastD 0)).map (fun t => (channelId (mockId i) k, mockData wave s t)) := by
  have hst : 0 < s.step := by cases s <;> decide
  obtain ⟨h1, m, hb, h3, h4, h5, h6, h7, h8⟩ := stream_waiting wave s (channelId (mockId i) k) pre (mockDevice i) _ rfl rfl (mock_nodup i) rfl (mock_on i k hk) (fun e he => hon e (List.mem_append_left _ he)) hpre
  generalize hd : ((mockDevice i).run wave pre).2 = d at *
  rw [(devRun_append wave _ _ _).1, part_append, h1, List.nil_append, hd, run_cons, part_append, show part _ s (d.step wave (.aligned s)).1 = [] from rfl, List.nil_append]
  have hw : m.waiting s = true := h4
  have eb : (d.step wave (.aligned s)).2.body = .mock (m.align s) := by simp [Dev.step, hb, hw]
  have el : (m.align s).last s = 0 := h5
  rw [stream_on wave s hst _ post _ (m.align s) eb (by show setStream m.running s true s = true; simp [setStream]) (by rw [step_ids]; exact h6) (by rw [step_subs]; exact h7)
    (isOn_step wave d _ _ h8 (by intro e he; cases he)) (fun e he => hon e (List.mem_append_right _ he)) hdis (by rw [el]; exact Nat.dvd_zero _) hclock ?_, el, if_pos rfl]
  intro now hnow
  rw [el]
  refine ⟨Nat.zero_le _, ?_⟩
  have := hpos now hnow
  unfold roundTo
  have : 0 < (now + s.step / 2) / s.step := Nat.div_pos (by cases s <;> (simp only [Stream.step] at *; omega)) hst
  exact Nat.ne_of_gt (Nat.mul_pos this hst)

theorem headD_map_some {β γ : Type} (f : β → γ) (l : List β) (x : β) (z : γ) (h : l.head? = some x) : (l.map f).headD z = f x := by
  cases l with
  | nil => cases h
  | cons y l => obtain rfl : y = x := by simpa using h
                rfl

theorem getLastD_map_some {β γ : Type} (f : β → γ) (l : List β) (x : β) (z : γ) (h : l.getLast? = some x) : (l.map f).getLastD z = f x := by
  rw [List.getLastD_eq_getLast?, List.getLast?_map, h]; rfl

theorem loopTimes_div (step a b : Nat) (h : 0 < step) (ha : step ∣ a) (hb : step ∣ b) : loopTimes step a b = (List.range ((b - a) / step)).map fun n => a + step * n := by
  by_cases hab : a ≤ b
  · obtain ⟨n, hn⟩ : step ∣ b - a := Nat.dvd_sub hb ha
    rw [hn, Nat.mul_div_cancel_left _ h, ← loopTimes_range _ h, ← hn]
    congr 1; omega
  · rw [loopTimes_ge _ _ _ (by omega), show b - a = 0 by omega, Nat.zero_div]; rfl

/-- **C115 (readings)**: while the clock does not go back, a channel of the mock device that is left on gets a packet of readings for every 10 ms from the first firing of the timer to the last, each once and in order,
whenever the timer fires. -/
theorem C115_readings (wave : Rat → Rat) (i k : Nat) (hk : k = 1 ∨ k = 2) (pre post : List DevOp) (hpre : .aligned .readings ∉ pre) (hdis : .disconnect ∉ post) (hon : StaysOn (channelId (mockId i) k) (pre ++ post))
    (hclock : (firings .readings post).Pairwise (· ≤ ·)) (hpos : ∀ now ∈ firings .readings post, 5 ≤ now) (first last a b : Nat) (hfirst : (firings .readings post).head? = some first)
    (hlast : (firings .readings post).getLast? = some last) (ha : IsNearest 10 first a) (hb : IsNearest 10 last b) :
    readingsOf (channelId (mockId i) k) ((mockDevice i).run wave (pre ++ .aligned .readings :: post)).1 =
      (List.range ((b - a) / 10)).map fun n => ⟨(a + 10 * n : Nat), (List.range 20).map fun j : Nat => wave ((a + 10 * n : Nat) + (j : Rat) * (1 / 2)), List.replicate 20 0⟩ := by
  have h := mock_stream wave .readings i k hk pre post hpre hdis hon hclock hpos
  rw [headD_map_some _ _ _ _ hfirst, getLastD_map_some _ _ _ _ hlast] at h
  rw [nearest_unique _ _ _ _ ha (roundTo_nearest 10 first (by decide) (by decide)), nearest_unique _ _ _ _ hb (roundTo_nearest 10 last (by decide) (by decide))]
  rw [readingsOf_part, h]
  change readingsOf _ (List.map _ (loopTimes 10 (roundTo 10 first) (roundTo 10 last))) = _
  rw [loopTimes_div 10 _ _ (by decide) (step_dvd_roundTo _ _) (step_dvd_roundTo _ _), List.map_map]
  generalize (List.range _) = l
  induction l with
  | nil => rfl
  | cons x l ih =>
    rw [List.map_cons, List.map_cons, ← ih]
    simp [readingsOf, mockData]

/-- **C115 (spectra)**: the same for the spectra, every 100 ms. -/
theorem C115_ffts (wave : Rat → Rat) (i k : Nat) (hk : k = 1 ∨ k = 2) (pre post : List DevOp) (hpre : .aligned .fft ∉ pre) (hdis : .disconnect ∉ post) (hon : StaysOn (channelId (mockId i) k) (pre ++ post))
    (hclock : (firings .fft post).Pairwise (· ≤ ·)) (hpos : ∀ now ∈ firings .fft post, 50 ≤ now) (first last a b : Nat) (hfirst : (firings .fft post).head? = some first)
    (hlast : (firings .fft post).getLast? = some last) (ha : IsNearest 100 first a) (hb : IsNearest 100 last b) :
    fftsOf (channelId (mockId i) k) ((mockDevice i).run wave (pre ++ .aligned .fft :: post)).1 =
      (List.range ((b - a) / 100)).map fun n => ⟨(a + 100 * n : Nat), List.replicate 200 0, List.replicate 360 0⟩ := by
  have h := mock_stream wave .fft i k hk pre post hpre hdis hon hclock hpos
  rw [headD_map_some _ _ _ _ hfirst, getLastD_map_some _ _ _ _ hlast] at h
  rw [nearest_unique _ _ _ _ ha (roundTo_nearest 100 first (by decide) (by decide)), nearest_unique _ _ _ _ hb (roundTo_nearest 100 last (by decide) (by decide))]
  rw [fftsOf_part, h]
  change fftsOf _ (List.map _ (loopTimes 100 (roundTo 100 first) (roundTo 100 last))) = _
  rw [loopTimes_div 100 _ _ (by decide) (step_dvd_roundTo _ _) (step_dvd_roundTo _ _), List.map_map]
  generalize (List.range _) = l
  induction l with
  | nil => rfl
  | cons x l ih =>
    rw [List.map_cons, List.map_cons, ← ih]
    simp [fftsOf, mockData]

theorem stream_sorted (wave : Rat → Rat) (s : Stream) (c : String) : ∀ (ops : List DevOp) (d : Dev) (m : MockSt), d.body = .mock m → (chanIds d).Nodup → d.subs = 1 → s.step ∣ m.last s →
    (firings s ops).Pairwise (· ≤ ·) → (∀ now ∈ firings s ops, m.last s ≤ roundTo s.step now) →
    ∃ ts : List Nat, part c s (d.run wave ops).1 = ts.map (fun t => (c, mockData wave s t)) ∧ ts.Pairwise (· < ·) ∧ ∀ t ∈ ts, s.step ∣ t ∧ m.last s ≤ t := by
  intro ops
  induction ops with
  | nil => intro d m _ _ _ _ _ _; exact ⟨[], rfl, List.Pairwise.nil, fun _ h => by cases h⟩
  | cons o os ih =>
    intro d m hb hn hs hdvd hmono hlast
    have hn' : (chanIds (d.step wave o).2).Nodup := by rw [step_ids]; exact hn
    have hs' : (d.step wave o).2.subs = 1 := by rw [step_subs]; exact hs
    by_cases ho : ∃ now, o = .tick s now
    · obtain ⟨now, rfl⟩ := ho
      have ef : firings s (.tick s now :: os) = now :: firings s os := by simp [firings]
      rw [ef] at hmono hlast
      rw [List.pairwise_cons] at hmono
      by_cases hr : m.running s
      · obtain ⟨m', b1, b2, b3, _⟩ := body_tick wave d m hb s now hr
        obtain ⟨ts, t1, t2, t3⟩ := ih _ m' b1 hn' hs' (by rw [b2]; exact step_dvd_roundTo _ _) hmono.2 (fun x hx => by rw [b2]; exact roundTo_mono _ _ _ (hmono.1 x hx))
        have e1 : (d.step wave (.tick s now)).1 = (d.mockTick wave m s now).1 := by simp [Dev.step, hb, hr]
        have hle := hlast now (List.mem_cons_self ..)
        rw [run_cons, part_append, t1, e1, part_tick wave d m s s now c hn hs]
        by_cases h : s = s ∧ m.last s ≠ 0 ∧ isOn d c = true
        · rw [if_pos h]
          refine ⟨loopTimes s.step (m.last s) (roundTo s.step now) ++ ts, (List.map_append ..).symm, ?_, ?_⟩
          · refine List.pairwise_append.mpr ⟨loopTimes_sorted .., t2, fun x hx y hy => ?_⟩
            have h1 := loopTimes_bounds _ _ _ _ hx
            have h2 := (t3 y hy).2
            rw [b2] at h2
            omega
          · intro t ht
            rcases List.mem_append.mp ht with ht | ht
            · exact ⟨loopTimes_dvd _ _ _ hdvd _ ht, (loopTimes_bounds _ _ _ _ ht).1⟩
            · have := t3 t ht
              rw [b2] at this
              exact ⟨this.1, Nat.le_trans hle this.2⟩
        · rw [if_neg h]
          refine ⟨ts, rfl, t2, fun t ht => ?_⟩
          have := t3 t ht
          rw [b2] at this
          exact ⟨this.1, Nat.le_trans hle this.2⟩
      · have e : d.step wave (.tick s now) = ([], d) := by simp [Dev.step, hb, hr]
        obtain ⟨ts, t1, t2, t3⟩ := ih d m hb hn hs hdvd hmono.2 (fun x hx => hlast x (List.mem_cons_of_mem _ hx))
        exact ⟨ts, by rw [run_cons, e]; exact t1, t2, t3⟩
    · have ho' : ∀ now, o ≠ .tick s now := fun now h => ho ⟨now, h⟩
      obtain ⟨m', b1, b2, _, _, _⟩ := body_other wave d m hb s o ho'
      rw [firings_other s o os ho'] at hmono hlast
      obtain ⟨ts, t1, t2, t3⟩ := ih _ m' b1 hn' hs' (by rw [b2]; exact hdvd) hmono (by rw [b2]; exact hlast)
      refine ⟨ts, ?_, t2, by rw [b2] at t3; exact t3⟩
      rw [run_cons, part_append, part_other wave d m hb s o ho' c hn hs, t1]; rfl

theorem readingsOf_map (wave : Rat → Rat) (c : String) (ts : List Nat) : readingsOf c (ts.map fun t => (c, mockData wave .readings t)) =
    ts.map fun t : Nat => ⟨(t : Int), (List.range 20).map fun j : Nat => wave ((t : Rat) + (j : Rat) * (1 / 2)), List.replicate 20 0⟩ := by
  induction ts with
  | nil => rfl
  | cons x l ih => rw [List.map_cons, List.map_cons, ← ih]; simp [readingsOf, mockData]

theorem fftsOf_map (wave : Rat → Rat) (c : String) (ts : List Nat) : fftsOf c (ts.map fun t => (c, mockData wave .fft t)) = ts.map fun t : Nat => ⟨(t : Int), List.replicate 200 0, List.replicate 360 0⟩ := by
  induction ts with
  | nil => rfl
  | cons x l ih => rw [List.map_cons, List.map_cons, ← ih]; simp [fftsOf, mockData]

/-- **C115 (as the database expects it)**: whatever else happens to the mock device – channels switched on and off, disconnected before or after its timers were started –, as long as the clock does not go back every
channel's readings come as C106 requires: 20 at a time, at whole multiples of 10 ms, never the same twice, never going back. -/
theorem C115_proper (wave : Rat → Rat) (i : Nat) (c : String) (ops : List DevOp) (hclock : (firings .readings ops).Pairwise (· ≤ ·)) : Proper (readingsOf c ((mockDevice i).run wave ops).1) := by
  obtain ⟨ts, t1, t2, t3⟩ := stream_sorted wave .readings c ops (mockDevice i) _ rfl (mock_nodup i) rfl (Nat.dvd_zero _) hclock (fun _ _ => Nat.zero_le _)
  rw [readingsOf_part, t1, readingsOf_map]
  refine ⟨?_, ?_, ?_, ?_, ?_⟩
  · rw [List.pairwise_map]; exact t2.imp fun h => by simpa using h
  · intro d hd; obtain ⟨t, ht, rfl⟩ := List.mem_map.mp hd; have := (t3 t ht).1; simp only [Stream.step] at this; show (10 : Int) ∣ (t : Int); omega
  · intro d hd; obtain ⟨t, ht, rfl⟩ := List.mem_map.mp hd; exact Int.natCast_nonneg _
  · intro d hd; obtain ⟨t, ht, rfl⟩ := List.mem_map.mp hd; simp
  · intro d hd; obtain ⟨t, ht, rfl⟩ := List.mem_map.mp hd; simp

/-- and the spectra at whole multiples of 100 ms, never the same twice, never going back -/
theorem C115_ffts_proper (wave : Rat → Rat) (i : Nat) (c : String) (ops : List DevOp) (hclock : (firings .fft ops).Pairwise (· ≤ ·)) :
    (fftsOf c ((mockDevice i).run wave ops).1).Pairwise (fun a b => a.timestamp < b.timestamp) ∧
    ∀ d ∈ fftsOf c ((mockDevice i).run wave ops).1, 100 ∣ d.timestamp ∧ 0 ≤ d.timestamp ∧ d.low.length = 200 ∧ d.high.length = 360 := by
  obtain ⟨ts, t1, t2, t3⟩ := stream_sorted wave .fft c ops (mockDevice i) _ rfl (mock_nodup i) rfl (Nat.dvd_zero _) hclock (fun _ _ => Nat.zero_le _)
  rw [fftsOf_part, t1, fftsOf_map]
  refine ⟨?_, ?_⟩
  · rw [List.pairwise_map]; exact t2.imp fun h => by simpa using h
  · intro d hd
    obtain ⟨t, ht, rfl⟩ := List.mem_map.mp hd
    have := (t3 t ht).1
    simp only [Stream.step] at this
    exact ⟨by show (100 : Int) ∣ (t : Int); omega, Int.natCast_nonneg _, List.length_replicate .., List.length_replicate ..⟩

/-- a mock device none of whose timers runs or will be started -/
theorem silent_run (wave : Rat → Rat) : ∀ (ops : List DevOp) (d : Dev) (m : MockSt), d.body = .mock m → (∀ s, m.running s = false ∧ m.waiting s = false) → (d.run wave ops).1 = [] := by
  intro ops
  induction ops with
  | nil => intro d m _ _; rfl
  | cons o os ih =>
    intro d m hb h
    rw [run_cons]
    have key : (d.step wave o).1 = [] ∧ ∃ m', (d.step wave o).2.body = .mock m' ∧ ∀ s, m'.running s = false ∧ m'.waiting s = false := by
      cases o with
      | aligned s => simp only [Dev.step, hb, (h s).2]; exact ⟨by trivial, m, hb, h⟩
      | tick s now => simp only [Dev.step, hb, (h s).1]; exact ⟨by trivial, m, hb, h⟩
      | opened => simp only [Dev.step, hb]; exact ⟨by trivial, m, rfl, h⟩
      | audio now a b => simp only [Dev.step, hb]; exact ⟨by trivial, m, rfl, h⟩
      | disconnect => simp only [Dev.step, hb]; exact ⟨by trivial, m.disconnect, rfl, fun s => ⟨by show (m.running s && _) = false; rw [(h s).1]; rfl, (h s).2⟩⟩
      | control c e => exact ⟨by trivial, m, hb, h⟩
      | renameChannel c e => exact ⟨by trivial, m, hb, h⟩
      | renameDevice n => exact ⟨by trivial, m, hb, h⟩
      | record e => exact ⟨by trivial, m, hb, h⟩
    obtain ⟨k1, m', k2, k3⟩ := key
    rw [k1, ih _ m' k2 k3]; rfl

/-- timers that run are listed, and a stream whose timer was started does not wait -/
def TInv (m : MockSt) : Prop := ∀ s, (m.running s → m.listed s) ∧ (m.running s → m.waiting s = false)

theorem tinv_run (wave : Rat → Rat) : ∀ (ops : List DevOp) (d : Dev) (m : MockSt), d.body = .mock m → TInv m → ∃ m', (d.run wave ops).2.body = .mock m' ∧ TInv m' ∧ ∀ s, (.aligned s ∈ ops ∨ m.waiting s = false) → m'.waiting s = false := by
  intro ops
  induction ops with
  | nil => intro d m hb h; exact ⟨m, hb, h, fun s hs => by rcases hs with hs | hs; cases hs; exact hs⟩
  | cons o os ih =>
    intro d m hb h
    have key : ∃ m', (d.step wave o).2.body = .mock m' ∧ TInv m' ∧ ∀ s, (o = .aligned s ∨ m.waiting s = false) → m'.waiting s = false := by
      cases o with
      | aligned s =>
        simp only [Dev.step, hb]
        by_cases hw : m.waiting s
        · rw [if_pos hw]
          refine ⟨_, rfl, ?_, ?_⟩
          · intro s'
            show (setStream m.running s true s' = true → setStream m.listed s true s' = true) ∧ (setStream m.running s true s' = true → setStream m.waiting s false s' = false)
            unfold setStream
            by_cases he : s' = s
            · simp [he]
            · simp only [if_neg he]; exact h s'
          · intro s' hs'
            show setStream m.waiting s false s' = false
            unfold setStream
            split
            · rfl
            · rename_i he
              rcases hs' with hs' | hs'
              · exact absurd (by injection hs' with e; exact e.symm) he
              · exact hs'
        · rw [if_neg hw]
          refine ⟨m, hb, h, ?_⟩
          intro s' hs'
          rcases hs' with hs' | hs'
          · injection hs' with e; rw [← e]; simpa using hw
          · exact hs'
      | tick s now =>
        simp only [Dev.step, hb]
        split
        · refine ⟨_, rfl, ?_, ?_⟩
          · unfold Dev.mockTick; split <;> exact h
          · intro s' hs'
            have : m.waiting s' = false := by rcases hs' with hs' | hs'; cases hs'; exact hs'
            unfold Dev.mockTick; split <;> exact this
        · exact ⟨m, hb, h, fun s' hs' => by rcases hs' with hs' | hs'; cases hs'; exact hs'⟩
      | opened => simp only [Dev.step, hb]; exact ⟨m, rfl, h, fun s' hs' => by rcases hs' with hs' | hs'; cases hs'; exact hs'⟩
      | audio now a b => simp only [Dev.step, hb]; exact ⟨m, rfl, h, fun s' hs' => by rcases hs' with hs' | hs'; cases hs'; exact hs'⟩
      | disconnect =>
        simp only [Dev.step, hb]
        refine ⟨m.disconnect, rfl, ?_, fun s' hs' => by rcases hs' with hs' | hs'; cases hs'; exact hs'⟩
        intro s
        constructor
        · intro hr
          have : (m.running s && !m.listed s) = true := hr
          rw [Bool.and_eq_true] at this
          exact (h s).1 this.1
        · intro hr
          have : (m.running s && !m.listed s) = true := hr
          rw [Bool.and_eq_true] at this
          exact (h s).2 this.1
      | control c e => exact ⟨m, hb, h, fun s' hs' => by rcases hs' with hs' | hs'; cases hs'; exact hs'⟩
      | renameChannel c e => exact ⟨m, hb, h, fun s' hs' => by rcases hs' with hs' | hs'; cases hs'; exact hs'⟩
      | renameDevice n => exact ⟨m, hb, h, fun s' hs' => by rcases hs' with hs' | hs'; cases hs'; exact hs'⟩
      | record e => exact ⟨m, hb, h, fun s' hs' => by rcases hs' with hs' | hs'; cases hs'; exact hs'⟩
    obtain ⟨m', k1, k2, k3⟩ := key
    obtain ⟨m2, l1, l2, l3⟩ := ih _ m' k1 k2
    refine ⟨m2, l1, l2, fun s hs => l3 s ?_⟩
    rcases hs with hs | hs
    · rcases List.mem_cons.mp hs with hs | hs
      · exact .inr (k3 s (.inl hs.symm))
      · exact .inl hs
    · exact .inr (k3 s (.inr hs))

/-- **C115 (disconnect)**: a mock device that is disconnected after both its streams were started never sends anything again. -/
theorem C115_disconnect (wave : Rat → Rat) (i : Nat) (pre post : List DevOp) (hpre : ∀ s, .aligned s ∈ pre) :
    ((mockDevice i).run wave (pre ++ .disconnect :: post)).1 = ((mockDevice i).run wave pre).1 := by
  obtain ⟨m, h1, h2, h3⟩ := tinv_run wave pre (mockDevice i) _ rfl (fun s => ⟨fun h => (nomatch h), fun h => (nomatch h)⟩)
  rw [(devRun_append wave _ _ _).1, run_cons]
  generalize ((mockDevice i).run wave pre).2 = d at h1 ⊢
  have e : (d.step wave .disconnect).2.body = .mock m.disconnect := by simp [Dev.step, h1]
  rw [silent_run wave post _ _ e ?_]
  · simp [Dev.step]
  · intro s
    refine ⟨?_, h3 s (.inl (hpre s))⟩
    show (m.running s && !m.listed s) = false
    cases hr : m.running s with
    | false => rfl
    | true => rw [(h2 s).1 hr]; rfl

/-- **C115 (finding: disconnected too early)**: a mock device that is disconnected while it still waits to be aligned starts to send all the same, and goes on for ever: the packets of every 10 ms from the first firing on. -/
theorem C115_disconnect_early (wave : Rat → Rat) (i : Nat) (post : List DevOp) (hdis : .disconnect ∉ post) (hon : StaysOn (channelId (mockId i) 1) post) (hclock : (firings .readings post).Pairwise (· ≤ ·))
    (hpos : ∀ now ∈ firings .readings post, 5 ≤ now) (first last : Nat) (hfirst : (firings .readings post).head? = some first) (hlast : (firings .readings post).getLast? = some last) (hlong : first + 20 ≤ last) :
    readingsOf (channelId (mockId i) 1) ((mockDevice i).run wave ([.disconnect] ++ .aligned .readings :: post)).1 ≠ [] := by
  have ha := roundTo_nearest 10 first (by decide) (by decide)
  have hb := roundTo_nearest 10 last (by decide) (by decide)
  rw [C115_readings wave i 1 (.inl rfl) [.disconnect] post (by simp) hdis (fun e he => hon e (by simpa using he)) hclock hpos first last _ _ hfirst hlast ha hb]
  intro h
  rw [List.map_eq_nil_iff, List.range_eq_nil] at h
  unfold IsNearest at ha hb
  omega

example : readingsOf (channelId (mockId 1) 1) ((mockDevice 1).run (fun x => x) ([.disconnect] ++ .aligned .readings :: [.tick .readings 1003, .tick .readings 1034])).1 ≠ [] :=
  C115_disconnect_early _ 1 [.tick .readings 1003, .tick .readings 1034] (by simp) (by intro e h; simp at h) (by simp [firings]) (by simp [firings]) 1003 1034 rfl rfl (by decide)

example : (readingsOf (channelId (mockId 1) 2) ((mockDevice 1).run (fun x => x) ([] ++ .aligned .readings :: [.tick .readings 1003, .tick .fft 1010, .tick .readings 1014, .tick .readings 1014, .tick .readings 1036])).1).map (·.timestamp)
    = [1000, 1010, 1020, 1030] := by
  rw [C115_readings _ 1 2 (.inr rfl) [] _ (by simp) (by simp) (by intro e h; simp at h) (by simp [firings]) (by simp [firings]) 1003 1036 1000 1040 rfl rfl (by unfold IsNearest; decide) (by unfold IsNearest; decide)]
  rfl

/-- what a running timer sends, for any times -/
theorem part_ticks (wave : Rat → Rat) (s : Stream) (c : String) (l : Nat → List Nat → List Nat) (hl0 : ∀ a, l a [] = []) (hl1 : ∀ a t ts, l a (t :: ts) = loopTimes s.step a (roundTo s.step t) ++ l (roundTo s.step t) ts) :
    ∀ (ts : List Nat) (d : Dev) (m : MockSt), d.body = .mock m → m.running s → (chanIds d).Nodup → d.subs = 1 → isOn d c → m.last s ≠ 0 → (∀ now ∈ ts, roundTo s.step now ≠ 0) →
    part c s (d.run wave (ts.map (DevOp.tick s))).1 = (l (m.last s) ts).map fun t => (c, mockData wave s t) := by
  intro ts
  induction ts with
  | nil => intro d m _ _ _ _ _ _ _; rw [hl0]; rfl
  | cons t ts ih =>
    intro d m hb hr hn hs hon h0 hnz
    obtain ⟨m', b1, b2, b3, _⟩ := body_tick wave d m hb s t hr
    have e1 : (d.step wave (.tick s t)).1 = (d.mockTick wave m s t).1 := by simp [Dev.step, hb, hr]
    rw [List.map_cons, run_cons, part_append, e1, part_tick wave d m s s t c hn hs, if_pos ⟨rfl, h0, hon⟩, ih _ m' b1 b3 (by rw [step_ids]; exact hn) (by rw [step_subs]; exact hs)
      (isOn_step wave d _ c hon (by intro e he; cases he)) (by rw [b2]; exact hnz t (List.mem_cons_self ..)) (fun x hx => hnz x (List.mem_cons_of_mem _ hx)), b2, hl1, List.map_append]

/-- the times sent by a timer that fires at the given times -/
def sentTimes (step : Nat) : Nat → List Nat → List Nat
  | _, [] => []
  | a, t :: ts => loopTimes step a (roundTo step t) ++ sentTimes step (roundTo step t) ts

theorem mock_ticks (wave : Rat → Rat) (s : Stream) (i k : Nat) (hk : k = 1 ∨ k = 2) (t : Nat) (ts : List Nat) (hnz : ∀ now ∈ t :: ts, roundTo s.step now ≠ 0) :
    part (channelId (mockId i) k) s ((mockDevice i).run wave (.aligned s :: (t :: ts).map (DevOp.tick s))).1 = (sentTimes s.step (roundTo s.step t) ts).map fun t => (channelId (mockId i) k, mockData wave s t) := by
  have eb : ((mockDevice i).step wave (.aligned s)).2.body = .mock (MockSt.align ⟨fun _ => true, fun _ => false, fun _ => false, fun _ => 0⟩ s) := rfl
  have hr : (MockSt.align ⟨fun _ => true, fun _ => false, fun _ => false, fun _ => 0⟩ s).running s = true := by simp [MockSt.align, setStream]
  have hn : (chanIds ((mockDevice i).step wave (.aligned s)).2).Nodup := by rw [step_ids]; exact mock_nodup i
  have hs : ((mockDevice i).step wave (.aligned s)).2.subs = 1 := by rw [step_subs]; rfl
  have hon := isOn_step wave (mockDevice i) (.aligned s) _ (mock_on i k hk) (by intro e he; cases he)
  rw [run_cons, part_append, show part _ s ((mockDevice i).step wave (.aligned s)).1 = [] from rfl, List.nil_append]
  generalize ((mockDevice i).step wave (.aligned s)).2 = d at *
  obtain ⟨m', b1, b2, b3, _⟩ := body_tick wave d _ eb s t hr
  have e1 : (d.step wave (.tick s t)).1 = [] := by
    simp only [Dev.step, eb, hr, if_true]
    unfold Dev.mockTick
    split
    · rfl
    · rename_i h; exact absurd rfl h
  rw [List.map_cons, run_cons, e1, List.nil_append, part_ticks wave s _ (sentTimes s.step) (fun _ => rfl) (fun _ _ _ => rfl) ts _ m' b1 b3 (by rw [step_ids]; exact hn) (by rw [step_subs]; exact hs)
    (isOn_step wave d _ _ hon (by intro e he; cases he)) (by rw [b2]; exact hnz t (List.mem_cons_self ..)) (fun x hx => hnz x (List.mem_cons_of_mem _ hx)), b2]

/-- **C115 (finding: clock set back)**: when the clock is set back, packets of the same time are sent again. -/
theorem C115_clock_back (wave : Rat → Rat) (i : Nat) :
    (readingsOf (channelId (mockId i) 1) ((mockDevice i).run wave [.aligned .readings, .tick .readings 1000, .tick .readings 1030, .tick .readings 1010, .tick .readings 1030]).1).map (·.timestamp) =
      [1000, 1010, 1020, 1010, 1020] := by
  have h := mock_ticks wave .readings i 1 (.inl rfl) 1000 [1030, 1010, 1030] (by decide)
  rw [readingsOf_part]
  rw [show [DevOp.aligned .readings, .tick .readings 1000, .tick .readings 1030, .tick .readings 1010, .tick .readings 1030] = .aligned .readings :: [1000, 1030, 1010, 1030].map (DevOp.tick .readings) from rfl]
  rw [h, readingsOf_map, List.map_map]
  have e : sentTimes Stream.readings.step (roundTo Stream.readings.step 1000) [1030, 1010, 1030] = [1000, 1010, 1020, 1010, 1020] := by
    simp [sentTimes, Stream.step, roundTo, loopTimes]
  rw [e]
  rfl

/-! the microphone -/

theorem mic_ids (i : Nat) : chanIds (micDevice i) = [channelId (micId i) 1] := rfl

/-- the first channel has this id -/
def headIs (d : Dev) (c : String) : Prop := ∃ ch, d.info.channels.head? = some (some ch) ∧ ch.id = c ∧ ch.enabled = true

theorem headIs_step (wave : Rat → Rat) (d : Dev) (o : DevOp) (c : String) (h : headIs d c) (ho : ∀ e, o = .control c e → e = true) : headIs (d.step wave o).2 c := by
  have upd : ∀ (c' : String) (f : Chan → Chan), (∀ x, (f x).id = x.id) → (c' = c → ∀ x : Chan, x.enabled → (f x).enabled) → ∀ l : List (Option Chan), (∃ ch, l.head? = some (some ch) ∧ ch.id = c ∧ ch.enabled = true) →
      ∃ ch, (updFirst c' f l).head? = some (some ch) ∧ ch.id = c ∧ ch.enabled = true := by
    intro c' f hid hen l ⟨ch, h1, h2, h3⟩
    cases l with
    | nil => cases h1
    | cons x l =>
      obtain rfl : x = some ch := by simpa using h1
      unfold updFirst
      split
      · rename_i hc
        exact ⟨f ch, rfl, by rw [hid]; exact h2, hen (by rw [← hc, h2]) ch h3⟩
      · exact ⟨ch, rfl, h2, h3⟩
  cases o with
  | aligned s => simp only [Dev.step]; split <;> (try split) <;> exact h
  | tick s now => simp only [Dev.step]; split <;> (try split) <;> exact h
  | opened => simp only [Dev.step]; split <;> exact h
  | audio now a b => simp only [Dev.step]; split <;> (try split) <;> exact h
  | disconnect => simp only [Dev.step]; split <;> exact h
  | control c' e => exact upd c' (fun x => { x with enabled := e }) (fun _ => rfl) (fun hc _ _ => by subst hc; exact ho e rfl) d.info.channels h
  | renameChannel c' n => exact upd c' (fun x => { x with name := n }) (fun _ => rfl) (fun _ _ hx => hx) d.info.channels h
  | renameDevice n => exact h
  | record e => exact h

/-- the calls for one delivery of sound -/
def micPart (c : String) (x : Nat × (Nat → Rat) × (Nat → Rat)) : List Call :=
  ((List.range 10).map fun i => (c, Data.readings (micReadings (x.1 * 100) x.2.1 i))) ++ [(c, .fft (micFft (x.1 * 100) x.2.2))]

theorem micCalls_eq (d : Dev) (c : String) (h : headIs d c) (hs : d.subs = 1) (x : Nat × (Nat → Rat) × (Nat → Rat)) : d.micCalls (x.1 * 100) x.2.1 x.2.2 = micPart c x := by
  obtain ⟨ch, h1, h2, h3⟩ := h
  unfold Dev.micCalls
  rw [h1]
  simp only [h3, if_true, Dev.call, hs, h2]
  unfold micPart
  rw [List.map_eq_flatMap]
  rfl

theorem mic_run (wave : Rat → Rat) (c : String) : ∀ (ops : List DevOp) (d : Dev) (m : MicSt), d.body = .mic m → m.opened = true → m.stopped = false → d.subs = 1 → headIs d c → StaysOn c ops → .disconnect ∉ ops →
    (d.run wave ops).1 = (heard (m.last.map (· / 100)) (audios ops)).flatMap (micPart c) ∨ ∃ r, m.last = some r ∧ ¬ 100 ∣ r := by
  intro ops
  induction ops with
  | nil => intro d m _ _ _ _ _ _ _; exact .inl rfl
  | cons o os ih =>
    intro d m hb ho1 ho2 hs hh hst hdis
    have hst' : StaysOn c os := fun e he => hst e (List.mem_cons_of_mem _ he)
    have hdis' : .disconnect ∉ os := fun h => hdis (List.mem_cons_of_mem _ h)
    have hs' : (d.step wave o).2.subs = 1 := by rw [step_subs]; exact hs
    have hh' : headIs (d.step wave o).2 c := headIs_step wave d o c hh fun e he => hst e (by rw [he]; exact List.mem_cons_self ..)
    rw [run_cons]
    by_cases hdv : ∃ r, m.last = some r ∧ ¬ 100 ∣ r
    · exact .inr hdv
    left
    have other : (d.step wave o).1 = [] → (d.step wave o).2.body = .mic m → audios (o :: os) = audios os → (d.step wave o).1 ++ ((d.step wave o).2.run wave os).1 = (heard (m.last.map (· / 100)) (audios (o :: os))).flatMap (micPart c) := by
      intro e1 e2 e3
      rw [e1, e3, List.nil_append]
      exact (ih _ m e2 ho1 ho2 hs' hh' hst' hdis').resolve_right hdv
    cases o with
    | audio now a b =>
      have e : d.step wave (.audio now a b) = ((d.micAudio m now a b).1, { d with body := .mic (d.micAudio m now a b).2 }) := by simp [Dev.step, hb, ho1, ho2]
      have hr : roundTo 100 now = (now + 50) / 100 * 100 := rfl
      show _ = (heard (m.last.map (· / 100)) ((now, a, b) :: audios os)).flatMap (micPart c)
      unfold heard
      by_cases hl : m.last = some (roundTo 100 now)
      · have e2 : d.micAudio m now a b = ([], m) := by unfold Dev.micAudio; rw [if_pos hl]
        rw [e2] at e
        rw [e]
        have : m.last.map (· / 100) = some ((now + 50) / 100) := by rw [hl, Option.map_some, hr, Nat.mul_div_cancel _ (by decide)]
        rw [if_pos this, List.nil_append]
        exact (ih { d with body := .mic m } m rfl ho1 ho2 hs hh hst' hdis').resolve_right hdv
      · have e2 : d.micAudio m now a b = (d.micCalls (roundTo 100 now) a b, { m with last := some (roundTo 100 now) }) := by unfold Dev.micAudio; rw [if_neg hl]
        rw [e2] at e
        rw [e]
        have : m.last.map (· / 100) ≠ some ((now + 50) / 100) := by
          intro h
          cases hml : m.last with
          | none => rw [hml] at h; cases h
          | some r =>
            rw [hml, Option.map_some] at h
            injection h with h
            apply hl
            have hd : 100 ∣ r := Classical.byContradiction fun hnd => hdv ⟨r, hml, hnd⟩
            rw [hml, hr, ← h, Nat.div_mul_cancel hd]
        rw [if_neg this, List.flatMap_cons]
        have e3 := (ih { d with body := .mic { m with last := some (roundTo 100 now) } } _ rfl ho1 ho2 hs hh hst' hdis').resolve_right (by
          rintro ⟨r, h1, h2⟩
          injection h1 with h1
          exact h2 (h1 ▸ step_dvd_roundTo 100 now))
        have e4 : (Option.map (· / 100) (some (roundTo 100 now))) = some ((now + 50) / 100) := by rw [Option.map_some, hr, Nat.mul_div_cancel _ (by decide)]
        show d.micCalls (roundTo 100 now) a b ++ (Dev.run wave { d with body := .mic { m with last := some (roundTo 100 now) } } os).1 = _
        rw [e3]
        show _ ++ List.flatMap _ (heard (Option.map (· / 100) (some (roundTo 100 now))) _) = _
        rw [e4]
        congr 1
        exact micCalls_eq d c hh hs ((now + 50) / 100, a, b)
    | aligned s => exact other rfl (by simp [Dev.step, hb]) rfl
    | tick s now => exact other (by simp [Dev.step, hb]) (by simp [Dev.step, hb]) rfl
    | opened => exact other rfl (by simp only [Dev.step, hb]; rw [← ho1]) rfl
    | disconnect => exact absurd (List.mem_cons_self ..) hdis
    | control c' e => exact other rfl hb rfl
    | renameChannel c' n => exact other rfl hb rfl
    | renameDevice n => exact other rfl hb rfl
    | record e => exact other rfl hb rfl

/-- until the microphone is there, nothing is sent -/
theorem mic_closed (wave : Rat → Rat) (c : String) : ∀ (ops : List DevOp) (d : Dev) (m : MicSt), d.body = .mic m → m.opened = false → m.stopped = false → m.last = none → d.subs = 1 → headIs d c → StaysOn c ops → .opened ∉ ops →
    (d.run wave ops).1 = [] ∧ (d.run wave ops).2.body = .mic m ∧ (d.run wave ops).2.subs = 1 ∧ headIs (d.run wave ops).2 c := by
  intro ops
  induction ops with
  | nil => intro d m hb _ _ _ hs hh _ _; exact ⟨rfl, hb, hs, hh⟩
  | cons o os ih =>
    intro d m hb ho hsp hl hs hh hst hop
    have e1 : (d.step wave o).1 = [] := by
      cases o with
      | tick s now => simp [Dev.step, hb]
      | audio now a b => simp [Dev.step, hb, ho]
      | _ => rfl
    have e2 : (d.step wave o).2.body = .mic m := by
      cases o with
      | tick s now => simp [Dev.step, hb]
      | audio now a b => simp [Dev.step, hb, ho]
      | aligned s => simp [Dev.step, hb]
      | opened => exact absurd (List.mem_cons_self ..) hop
      | disconnect => simp only [Dev.step, hb]; rw [ho, hsp, ← hsp]; simp [ho, hsp]; cases m; simp_all
      | control c' e => exact hb
      | renameChannel c' n => exact hb
      | renameDevice n => exact hb
      | record e => exact hb
    rw [run_cons, e1, List.nil_append]
    exact ih _ m e2 ho hsp hl (by rw [step_subs]; exact hs) (headIs_step wave d o c hh fun e he => hst e (by rw [he]; exact List.mem_cons_self ..)) (fun e he => hst e (List.mem_cons_of_mem _ he)) (fun h => hop (List.mem_cons_of_mem _ h))

theorem mic_calls (wave : Rat → Rat) (i : Nat) (pre post : List DevOp) (hpre : .opened ∉ pre) (hdis : .disconnect ∉ post) (hon : StaysOn (channelId (micId i) 1) (pre ++ post)) :
    ((micDevice i).run wave (pre ++ .opened :: post)).1 = (heard none (audios post)).flatMap (micPart (channelId (micId i) 1)) := by
  obtain ⟨h1, h2, h3, h4⟩ := mic_closed wave (channelId (micId i) 1) pre (micDevice i) _ rfl rfl rfl rfl rfl ⟨_, rfl, rfl, rfl⟩ (fun e he => hon e (List.mem_append_left _ he)) hpre
  generalize hd : ((micDevice i).run wave pre).2 = d at *
  rw [(devRun_append wave _ _ _).1, h1, List.nil_append, hd, run_cons, show (d.step wave .opened).1 = [] from rfl, List.nil_append]
  have e2 : (d.step wave .opened).2.body = .mic ⟨true, false, none⟩ := by simp [Dev.step, h2]
  exact (mic_run wave _ post _ _ e2 rfl rfl (by rw [step_subs]; exact h3) (headIs_step wave d _ _ h4 (by intro e he; cases he)) (fun e he => hon e (List.mem_append_right _ he)) hdis).resolve_right
    (by rintro ⟨r, h, _⟩; cases h)

/-- **C115 (microphone)**: of what the sound system delivers, each piece in a new tenth of a second becomes ten packets of readings – every twentieth sample, times 50 – of the tenth before. -/
theorem C115_mic (wave : Rat → Rat) (i : Nat) (pre post : List DevOp) (hpre : .opened ∉ pre) (hdis : .disconnect ∉ post) (hon : StaysOn (channelId (micId i) 1) (pre ++ post)) :
    readingsOf (channelId (micId i) 1) ((micDevice i).run wave (pre ++ .opened :: post)).1 = (heard none (audios post)).flatMap (fun x =>
      (List.range 10).map fun n : Nat => ⟨100 * (x.1 : Int) - 100 + 10 * (n : Int), (List.range 20).map fun j : Nat => 50 * x.2.1 (400 * n + 20 * j), List.replicate 20 0⟩) ∧
    fftsOf (channelId (micId i) 1) ((micDevice i).run wave (pre ++ .opened :: post)).1 = (heard none (audios post)).map (fun x => ⟨100 * (x.1 : Int) - 100, (List.range 200).map x.2.2,
      (List.range 360).map fun k : Nat => (((List.range 5).map fun q : Nat => x.2.2 (200 + 5 * k + q)).sum) / 5⟩) := by
  rw [mic_calls wave i pre post hpre hdis hon]
  generalize heard none (audios post) = l
  have part1 : ∀ x, readingsOf (channelId (micId i) 1) (micPart (channelId (micId i) 1) x) =
      (List.range 10).map fun n : Nat => ⟨100 * (x.1 : Int) - 100 + 10 * (n : Int), (List.range 20).map fun j : Nat => 50 * x.2.1 (400 * n + 20 * j), List.replicate 20 0⟩ := by
    intro x
    unfold micPart
    rw [readingsOf_append]
    have : ∀ l : List Nat, readingsOf (channelId (micId i) 1) (l.map fun i_1 => (channelId (micId i) 1, Data.readings (micReadings (x.1 * 100) x.2.1 i_1))) = l.map fun n => micReadings (x.1 * 100) x.2.1 n := by
      intro l
      induction l with
      | nil => rfl
      | cons y l ih => rw [List.map_cons, List.map_cons, ← ih]; simp [readingsOf]
    rw [this, show readingsOf (channelId (micId i) 1) [(channelId (micId i) 1, Data.fft (micFft (x.1 * 100) x.2.2))] = [] from rfl, List.append_nil]
    apply List.map_congr_left
    intro n _
    unfold micReadings
    congr 1
    · push_cast; omega
    · apply List.map_congr_left
      intro j _
      rw [mul_comm, Nat.mul_comm n, Nat.mul_comm j]
  have part2 : ∀ x, fftsOf (channelId (micId i) 1) (micPart (channelId (micId i) 1) x) = [⟨100 * (x.1 : Int) - 100, (List.range 200).map x.2.2,
      (List.range 360).map fun k : Nat => (((List.range 5).map fun q : Nat => x.2.2 (200 + 5 * k + q)).sum) / 5⟩] := by
    intro x
    unfold micPart
    rw [fftsOf_append]
    have : ∀ l : List Nat, fftsOf (channelId (micId i) 1) (l.map fun i_1 => (channelId (micId i) 1, Data.readings (micReadings (x.1 * 100) x.2.1 i_1))) = [] := by
      intro l
      induction l with
      | nil => rfl
      | cons y l ih => rw [List.map_cons]; exact ih
    rw [this, List.nil_append]
    simp only [fftsOf, if_true, micFft]
    congr 2
    · push_cast; omega
    · apply List.map_congr_left
      intro k _
      congr 1
      simp only [show List.range 5 = [0, 1, 2, 3, 4] from rfl, List.map_cons, List.map_nil, List.sum_cons, List.sum_nil, Nat.add_zero]
      ring
  constructor
  · induction l with
    | nil => rfl
    | cons x l ih => rw [List.flatMap_cons, readingsOf_append, ih, part1, List.flatMap_cons]
  · induction l with
    | nil => rfl
    | cons x l ih => rw [List.flatMap_cons, fftsOf_append, ih, part2, List.map_cons]; rfl

theorem heard_tenths : ∀ (l : List (Nat × (Nat → Rat) × (Nat → Rat))) (p : Nat), List.IsChain (fun x y => x ≤ y ∧ y ≤ x + 100) (p :: l.map (·.1)) →
    (heard (some ((p + 50) / 100)) l).map (·.1) = (List.range (((l.map (·.1)).getLastD p + 50) / 100 - (p + 50) / 100)).map (fun n => (p + 50) / 100 + 1 + n) ∧ p ≤ (l.map (·.1)).getLastD p := by
  intro l
  induction l with
  | nil => intro p _; simp [heard]
  | cons x l ih =>
    intro p h
    obtain ⟨now, a, b⟩ := x
    rw [List.map_cons, List.isChain_cons_cons] at h
    obtain ⟨⟨h1, h2⟩, h3⟩ := h
    obtain ⟨i1, i2⟩ := ih now h3
    rw [List.map_cons, List.getLastD_cons]
    refine ⟨?_, Nat.le_trans h1 i2⟩
    unfold heard
    dsimp only at h1 h2 i2 ⊢
    by_cases he : some ((p + 50) / 100) = some ((now + 50) / 100)
    · rw [if_pos he]
      injection he with he
      rw [he]; exact i1
    · rw [if_neg he, List.map_cons, i1]
      have hne : (p + 50) / 100 ≠ (now + 50) / 100 := fun h => he (by rw [h])
      have e : (now + 50) / 100 = (p + 50) / 100 + 1 := by omega
      rw [e]
      have e2 : ((l.map (·.1)).getLastD now + 50) / 100 - (p + 50) / 100 = (((l.map (·.1)).getLastD now + 50) / 100 - ((p + 50) / 100 + 1)) + 1 := by omega
      rw [e2, List.range_succ_eq_map, List.map_cons, List.map_map]
      congr 1
      apply List.map_congr_left
      intro n _
      simp only [Function.comp, Nat.succ_eq_add_one]
      omega

theorem range_tens (g : Nat → Int) (N : Nat) : ((List.range N).flatMap fun n => (List.range 10).map fun k => g (10 * n + k)) = (List.range (10 * N)).map g := by
  induction N with
  | zero => rfl
  | succ N ih =>
    rw [List.range_succ (n := N), List.flatMap_append, ih, Nat.mul_add, Nat.mul_one, List.range_add, List.map_append, List.flatMap_cons, List.flatMap_nil, List.append_nil, List.map_map]
    rfl

/-- **C115 (microphone, no gaps)**: if the sound system delivers at least every 100 ms, the readings of the microphone come every 10 ms without gap, and its spectra every 100 ms. -/
theorem C115_mic_stream (wave : Rat → Rat) (i : Nat) (pre post : List DevOp) (hpre : .opened ∉ pre) (hdis : .disconnect ∉ post) (hon : StaysOn (channelId (micId i) 1) (pre ++ post))
    (first last a b : Nat) (rest : List Nat) (hfirst : (audios post).map (·.1) = first :: rest) (hgap : List.IsChain (fun x y => x ≤ y ∧ y ≤ x + 100) (first :: rest)) (hlast : rest.getLastD first = last)
    (ha : IsNearest 100 first a) (hb : IsNearest 100 last b) :
    (readingsOf (channelId (micId i) 1) ((micDevice i).run wave (pre ++ .opened :: post)).1).map (·.timestamp) = (List.range ((b - a) / 10 + 10)).map (fun n : Nat => (a : Int) - 100 + 10 * (n : Int)) ∧
    (fftsOf (channelId (micId i) 1) ((micDevice i).run wave (pre ++ .opened :: post)).1).map (·.timestamp) = (List.range ((b - a) / 100 + 1)).map (fun n : Nat => (a : Int) - 100 + 100 * (n : Int)) := by
  obtain ⟨h1, h2⟩ := C115_mic wave i pre post hpre hdis hon
  rw [h1, h2]
  have hT : (heard none (audios post)).map (·.1) = (List.range ((last + 50) / 100 - (first + 50) / 100 + 1)).map (fun n => (first + 50) / 100 + n) ∧ first ≤ last := by
    cases hp : audios post with
    | nil => rw [hp] at hfirst; cases hfirst
    | cons x l =>
      obtain ⟨now, x, y⟩ := x
      rw [hp, List.map_cons] at hfirst
      injection hfirst with e1 e2
      dsimp only at e1
      subst e1
      subst e2
      obtain ⟨t1, t2⟩ := heard_tenths l now hgap
      rw [hlast] at t1 t2
      refine ⟨?_, t2⟩
      unfold heard
      rw [if_neg (by simp), List.map_cons, t1, List.range_succ_eq_map, List.map_cons, List.map_map]
      congr 1
      apply List.map_congr_left
      intro n _
      simp only [Function.comp, Nat.succ_eq_add_one]
      omega
  have ea : a = (first + 50) / 100 * 100 := nearest_unique _ _ _ _ ha (roundTo_nearest 100 first (by decide) (by decide))
  have eb : b = (last + 50) / 100 * 100 := nearest_unique _ _ _ _ hb (roundTo_nearest 100 last (by decide) (by decide))
  obtain ⟨hT, hle⟩ := hT
  generalize hF : (first + 50) / 100 = F at *
  generalize hL : (last + 50) / 100 = L at *
  have hFL : F ≤ L := by omega
  constructor
  · rw [List.map_flatMap]
    simp only [List.map_map]
    have e : (heard none (audios post)).flatMap (fun x => (List.range 10).map ((fun d : RPacket Rat => d.timestamp) ∘ fun n : Nat =>
        (⟨100 * (x.1 : Int) - 100 + 10 * (n : Int), (List.range 20).map fun j : Nat => 50 * x.2.1 (400 * n + 20 * j), List.replicate 20 0⟩ : RPacket Rat))) =
        ((heard none (audios post)).map (·.1)).flatMap fun x : Nat => (List.range 10).map fun n : Nat => 100 * (x : Int) - 100 + 10 * (n : Int) := by
      rw [List.flatMap_map]; rfl
    rw [e, hT, List.flatMap_map]
    have e2 : (b - a) / 10 + 10 = 10 * (L - F + 1) := by omega
    rw [e2, ← range_tens]
    apply List.flatMap_congr
    intro n _
    apply List.map_congr_left
    intro k _
    push_cast
    omega
  · rw [List.map_map]
    have e : (heard none (audios post)).map ((fun d : FPacket Rat => d.timestamp) ∘ fun x : Nat × (Nat → Rat) × (Nat → Rat) => (⟨100 * (x.1 : Int) - 100, (List.range 200).map x.2.2,
      (List.range 360).map fun k : Nat => (((List.range 5).map fun q : Nat => x.2.2 (200 + 5 * k + q)).sum) / 5⟩ : FPacket Rat)) = ((heard none (audios post)).map (·.1)).map fun x : Nat => 100 * (x : Int) - 100 := by
      rw [List.map_map]; rfl
    rw [e, hT, List.map_map]
    have e2 : (b - a) / 100 + 1 = L - F + 1 := by omega
    rw [e2]
    apply List.map_congr_left
    intro n _
    simp only [Function.comp]
    push_cast
    omega

example : (readingsOf (channelId (micId 1) 1) ((micDevice 1).run (fun x => x) ([] ++ .opened :: [.audio 1000 (fun _ => 0) (fun _ => 0), .audio 1040 (fun _ => 1) (fun _ => 0), .audio 1093 (fun _ => 0) (fun _ => 0)])).1).map (·.timestamp) =
    (List.range 20).map fun n : Nat => 900 + 10 * (n : Int) :=
  (C115_mic_stream _ 1 [] _ (by simp) (by simp) (by intro e h; simp at h) 1000 1093 1000 1100 [1040, 1093] rfl (by simp) rfl (by unfold IsNearest; decide) (by unfold IsNearest; decide)).1

end Verif.Props
