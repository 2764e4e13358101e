import Mathlib.Tactic.Linarith
import Mathlib.Algebra.Order.Field.Rat
import Verif.Model.UnixClock
/-
C51: the GPS-disciplined clock. C53: waker registration.
-/
namespace Verif.Props

open Verif Wk Uc

/-! ### C53 -/

/-- the slots of a registration that holds the wakers `ws`, in order of registration -/
def slots (n : Nat) (ws : List Nat) : Multi := ws.map some ++ List.replicate (n - ws.length) none

theorem place_slots (n : Nat) (ws : List Nat) (w : Nat) : (slots n ws).place w = if ws.length < n then some (slots n (ws ++ [w]), []) else none := by
  induction ws generalizing n with
  | nil =>
    cases n with
    | zero => rfl
    | succ n => simp [slots, List.replicate_succ, Multi.place, Slot.occupied, Slot.register]
  | cons x ws ih =>
    have h1 : slots n (x :: ws) = some x :: slots (n - 1) ws := by simp [slots, Nat.sub_sub, Nat.add_comm]
    have h2 : slots n (x :: ws ++ [w]) = some x :: slots (n - 1) (ws ++ [w]) := by simp [slots, Nat.sub_sub, Nat.add_comm]
    rw [h1, h2, Multi.place, ih]
    simp only [Slot.occupied, Option.isSome_some, Bool.true_eq_false, if_false, List.length_cons]
    by_cases h : ws.length < n - 1
    · rw [if_pos h, if_pos (by omega)]
      rfl
    · rw [if_neg h, if_neg (by omega)]
      rfl

theorem any_slots (n : Nat) (ws : List Nat) (w : Nat) : (slots n ws).any (fun s => s = some w) = decide (w ∈ ws) := by
  rw [Bool.eq_iff_iff]
  simp [slots, List.any_eq_true]

/-- C53: a registration of `n` places that holds the wakers `ws` accepts a further waker exactly if it is one of them (and then nothing changes) or there is a free place; it wakes nobody -/
theorem C53_register (n : Nat) (ws : List Nat) (w : Nat) :
    (slots n ws).register w = if w ∈ ws then some (slots n ws, []) else if ws.length < n then some (slots n (ws ++ [w]), []) else none := by
  unfold Multi.register
  rw [any_slots]
  by_cases h : w ∈ ws
  · simp [h]
  · simp [h, place_slots]

/-- C53: waking wakes every registered waker once, in order of registration, and empties the registration -/
theorem C53_wake (n : Nat) (ws : List Nat) (h : ws.length ≤ n) : (slots n ws).wake = (slots n [], ws) := by
  unfold Multi.wake slots
  refine Prod.ext ?_ ?_
  · simp only [List.map_append, List.map_map, List.map_replicate, List.map_nil, List.nil_append, List.length_nil, Nat.sub_zero]
    have : ws.map ((fun s => (Slot.wake s).1) ∘ some) = List.replicate ws.length none := by
      induction ws with
      | nil => rfl
      | cons x ws ih => rw [List.map_cons, ih (by simp at h; omega)]; rfl
    rw [this, show (Slot.wake none).1 = none from rfl, List.replicate_append_replicate]
    congr 1
    omega
  · simp only [List.flatMap_append]
    have h1 : ∀ ws : List Nat, (ws.map some).flatMap (fun s => (Slot.wake s).2) = ws := by
      intro ws
      induction ws with
      | nil => rfl
      | cons x ws ih => rw [List.map_cons, List.flatMap_cons, ih]; rfl
    have h2 : ∀ k, (List.replicate k (none : Slot)).flatMap (fun s => (Slot.wake s).2) = [] := by
      intro k
      induction k with
      | zero => rfl
      | succ k ih => rw [List.replicate_succ, List.flatMap_cons, ih]; rfl
    rw [h1, h2, List.append_nil]

/-- what can be done with a registration -/
inductive WOp
  | register (w : Nat)
  | wake

/-- a history: the registration, the tasks woken and the wakers refused -/
def wrun (n : Nat) (l : List WOp) : Multi × List Nat × List Nat := l.foldl (fun s o => match o with
  | .register w => match s.1.register w with
    | some (m, wk) => (m, s.2.1 ++ wk, s.2.2)
    | none => (s.1, s.2.1, s.2.2 ++ [w])
  | .wake => (s.1.wake.1, s.2.1 ++ s.1.wake.2, s.2.2)) (.new n, [], [])

/-- Spec: the wakers waiting after a history: those accepted since the last wake, each once -/
def waiting (n : Nat) : List WOp → List Nat := fun l => l.foldl (fun ws o => match o with
  | .register w => if w ∈ ws ∨ n ≤ ws.length then ws else ws ++ [w]
  | .wake => []) []

theorem wrun_snoc (n : Nat) (l : List WOp) (o : WOp) : wrun n (l ++ [o]) = (match o with
    | .register w => match (wrun n l).1.register w with
      | some (m, wk) => (m, (wrun n l).2.1 ++ wk, (wrun n l).2.2)
      | none => ((wrun n l).1, (wrun n l).2.1, (wrun n l).2.2 ++ [w])
    | .wake => ((wrun n l).1.wake.1, (wrun n l).2.1 ++ (wrun n l).1.wake.2, (wrun n l).2.2)) := by
  unfold wrun
  rw [List.foldl_append]
  cases o <;> rfl

theorem waiting_snoc (n : Nat) (l : List WOp) (o : WOp) : waiting n (l ++ [o]) = (match o with
    | .register w => if w ∈ waiting n l ∨ n ≤ (waiting n l).length then waiting n l else waiting n l ++ [w]
    | .wake => []) := by
  unfold waiting
  rw [List.foldl_append]
  cases o <;> rfl

/-- the state after any history -/
theorem C53_state (n : Nat) (l : List WOp) : (wrun n l).1 = slots n (waiting n l) ∧ (waiting n l).length ≤ n ∧ (waiting n l).Nodup := by
  have key : ∀ l : List WOp, (wrun n l.reverse).1 = slots n (waiting n l.reverse) ∧ (waiting n l.reverse).length ≤ n ∧ (waiting n l.reverse).Nodup := by
    intro l
    induction l with
    | nil => exact ⟨by simp [wrun, waiting, slots, Multi.new], by simp [waiting], by simp [waiting]⟩
    | cons o l ih =>
      obtain ⟨h1, h2, h3⟩ := ih
      rw [List.reverse_cons, wrun_snoc, waiting_snoc]
      cases o with
      | wake =>
        simp only
        rw [h1, C53_wake n _ h2]
        exact ⟨rfl, by simp, by simp⟩
      | register w =>
        simp only
        rw [h1, C53_register]
        by_cases hm : w ∈ waiting n l.reverse
        · rw [if_pos hm, if_pos (.inl hm)]
          exact ⟨rfl, h2, h3⟩
        · rw [if_neg hm]
          by_cases hf : (waiting n l.reverse).length < n
          · rw [if_pos hf, if_neg (by rintro (h | h); exacts [hm h, by omega])]
            refine ⟨rfl, by simp; omega, ?_⟩
            rw [List.nodup_append]
            refine ⟨h3, by simp, ?_⟩
            intro a ha b hb
            rw [List.mem_singleton] at hb
            rintro rfl
            exact hm (hb ▸ ha)
          · rw [if_neg hf, if_pos (.inr (by omega))]
            exact ⟨rfl, h2, h3⟩
  have := key l.reverse
  rwa [List.reverse_reverse] at this

/-- C53: after any history, a wake wakes each waiting task exactly once and nobody else, and afterwards nobody is registered -/
theorem C53_wakes_all (n : Nat) (l : List WOp) : (wrun n (l ++ [.wake])).2.1 = (wrun n l).2.1 ++ waiting n l ∧ (waiting n l).Nodup ∧ waiting n (l ++ [.wake]) = [] := by
  obtain ⟨h1, h2, h3⟩ := C53_state n l
  refine ⟨?_, h3, by rw [waiting_snoc]⟩
  rw [wrun_snoc, h1, C53_wake n _ h2]

/-- C53: after any history, registering is refused exactly if `n` other tasks are waiting -/
theorem C53_refused (n : Nat) (l : List WOp) (w : Nat) :
    (wrun n (l ++ [.register w])).2.2 = (wrun n l).2.2 ++ (if w ∉ waiting n l ∧ (waiting n l).length = n then [w] else []) := by
  obtain ⟨h1, h2, h3⟩ := C53_state n l
  rw [wrun_snoc, h1]
  simp only
  rw [C53_register]
  by_cases hm : w ∈ waiting n l
  · simp [hm]
  · by_cases hf : (waiting n l).length < n
    · rw [if_neg hm, if_pos hf, if_neg (by rintro ⟨_, h⟩; omega)]
      simp
    · rw [if_neg hm, if_neg hf, if_pos ⟨hm, by omega⟩]

/-- C53: a single registration never forgets a waker without waking it -/
theorem C53_single (s : Slot) (w v : Nat) (h : s = some v) : (Slot.register s w).1 = some w ∧ (v = w ∨ v ∈ (Slot.register s w).2) := by
  subst h
  show (if v = w then (some v, []) else (some w, [v]) : Slot × List Nat).1 = some w ∧ (v = w ∨ v ∈ (if v = w then (some v, []) else (some w, [v]) : Slot × List Nat).2)
  split <;> simp_all

example : wrun 2 [.register 5, .register 6, .register 5, .register 7, .wake, .register 7] = ([some 7, none], [5, 6], [7]) := by decide

/-! ### C51 -/

/-- Spec: the last GPS time received before the end of the history, with the time it was received -/
def lastGps : List Op → Option (Rat × Int)
  | [] => none
  | .gps now s :: l => some ((lastGps l).getD (now, s))
  | .pps _ :: l => lastGps l
  | .poll _ :: l => lastGps l

/-- Spec: at the end of the history `l`, a PPS edge at `now` is used, and it marks the second `s` -/
def Marks (l : List Op) (now : Rat) (s : Int) : Prop := match lastGps l with
  | some (g, t) => now - g < 800 ∧ s = t + 1
  | none => now < 800 ∧ s = 1

theorem lastGps_snoc (l : List Op) (o : Op) : lastGps (l ++ [o]) = match o with | .gps now s => some (now, s) | .pps _ => lastGps l | .poll _ => lastGps l := by
  induction l with
  | nil => cases o <;> rfl
  | cons x l ih => cases x <;> cases o <;> simp [lastGps, ih]

theorem crun_snoc (l : List Op) (o : Op) : Clk.run (l ++ [o]) = (Clk.run l).step o := by
  unfold Clk.run
  rw [List.foldl_append]
  rfl

theorem latest_eq (l : List Op) : (Clk.run l).latest = (lastGps l).getD (0, 0) := by
  have key : ∀ l : List Op, (Clk.run l.reverse).latest = (lastGps l.reverse).getD (0, 0) := by
    intro l
    induction l with
    | nil => rfl
    | cons o l ih =>
      rw [List.reverse_cons, crun_snoc, lastGps_snoc]
      cases o with
      | gps now s => rfl
      | pps now =>
        unfold Clk.step Clk.pps
        simp only
        split <;> exact ih
      | poll w =>
        unfold Clk.step Clk.poll
        simp only
        split
        · exact ih
        · split <;> exact ih
  have := key l.reverse
  rwa [List.reverse_reverse] at this

theorem marks_iff (l : List Op) (now : Rat) : (now - (Clk.run l).latest.1 < 800) ↔ ∃ s, Marks l now s := by
  rw [latest_eq]
  unfold Marks
  cases lastGps l with
  | none => simp
  | some p => simp

theorem marks_eq (l : List Op) (now : Rat) (s : Int) (h : Marks l now s) : (Clk.run l).latest.2 + 1 = s := by
  rw [latest_eq]
  unfold Marks at h
  cases hl : lastGps l with
  | none => rw [hl] at h; simp [h.2]
  | some p => rw [hl] at h; simp [h.2]

/-- C51: a PPS edge that marks the second `s` sets the clock to `s` seconds at the edge, and announces that -/
theorem C51_set (l : List Op) (now : Rat) (s : Int) (h : Marks l now s) (t : Rat) :
    (Clk.run (l ++ [.pps now])).ready = true ∧ (Clk.run (l ++ [.pps now])).nowMs t = s * 1000 + (t - now) ∧ (Clk.run (l ++ [.pps now])).convert t = s * 1000 + (t - now) ∧
    (Clk.run (l ++ [.pps now])).published = (Clk.run l).published ++ [(s : Rat) * 1000] := by
  rw [crun_snoc]
  have h1 := (marks_iff l now).2 ⟨s, h⟩
  have h2 := marks_eq l now s h
  unfold Clk.step Clk.pps Clk.ready Clk.nowMs Clk.convert
  simp only [if_pos h1, h2, Option.isSome_some, Option.getD_some, true_and, and_true]
  constructor <;> linarith

/-- C51: nothing else changes it -/
theorem C51_kept (l : List Op) (o : Op) (h : ∀ now s, o = .pps now → ¬ Marks l now s) :
    (Clk.run (l ++ [o])).ready = (Clk.run l).ready ∧ (∀ t, (Clk.run (l ++ [o])).nowMs t = (Clk.run l).nowMs t ∧ (Clk.run (l ++ [o])).convert t = (Clk.run l).convert t) ∧
    (Clk.run (l ++ [o])).published = (Clk.run l).published := by
  have : (Clk.run (l ++ [o])).offset = (Clk.run l).offset ∧ (Clk.run (l ++ [o])).published = (Clk.run l).published := by
    rw [crun_snoc]
    cases o with
    | gps now s => exact ⟨rfl, rfl⟩
    | pps now =>
      unfold Clk.step Clk.pps
      simp only
      rw [if_neg fun hc => by obtain ⟨s, hs⟩ := (marks_iff l now).1 hc; exact h now s rfl hs]
      exact ⟨rfl, rfl⟩
    | poll w =>
      unfold Clk.step Clk.poll
      simp only
      split
      · exact ⟨rfl, rfl⟩
      · split <;> exact ⟨rfl, rfl⟩
  unfold Clk.ready Clk.nowMs Clk.convert
  rw [this.1, this.2]
  exact ⟨rfl, fun t => ⟨rfl, rfl⟩, rfl⟩

/-- C51: before the first edge that is used the clock shows the time since boot -/
theorem C51_not_ready (l : List Op) (h : (Clk.run l).ready = false) (t : Rat) : (Clk.run l).nowMs t = t ∧ (Clk.run l).convert t = t := by
  unfold Clk.ready at h
  unfold Clk.nowMs Clk.convert
  have : (Clk.run l).offset = none := by simpa using h
  rw [this]
  simp

/-- Spec: the history happens in a world where the boot clock reading `t` is the Unix time `t + origin` (in ms): readings do not decrease, GPS times are received during the second they
name, after its beginning, and PPS edges are at whole seconds -/
structure World (origin : Rat) (l : List Op) : Prop where
  gps : ∀ g s, Op.gps g s ∈ l → (s : Rat) * 1000 < g + origin ∧ g + origin < (s + 1) * 1000
  pps : ∀ p, Op.pps p ∈ l → ∃ k : Int, p + origin = k * 1000
  order : l.Pairwise fun x y => ∀ g s p, x = .gps g s → y = .pps p → g ≤ p

/-- C51: in such a world, if a GPS time has been received before the first PPS edge that is used, the clock is never wrong: once ready, it shows the Unix time -/
theorem C51_correct (origin : Rat) (l : List Op) (hw : World origin l) (hf : ∀ m now r, l = m ++ .pps now :: r → lastGps m = none → 800 ≤ now) (h : (Clk.run l).ready = true) (t : Rat) :
    (Clk.run l).nowMs t = t + origin := by
  have key : ∀ l : List Op, World origin l.reverse → (∀ m now r, l.reverse = m ++ .pps now :: r → lastGps m = none → 800 ≤ now) → (Clk.run l.reverse).ready = true →
      (Clk.run l.reverse).nowMs t = t + origin := by
    intro l
    induction l with
    | nil => intro _ _ h; cases h
    | cons o l ih =>
      rw [List.reverse_cons]
      intro hw hf hr
      have hw' : World origin l.reverse := ⟨fun g s h => hw.gps g s (List.mem_append_left _ h), fun p h => hw.pps p (List.mem_append_left _ h), (List.pairwise_append.1 hw.order).1⟩
      have hf' : ∀ m now r, l.reverse = m ++ .pps now :: r → lastGps m = none → 800 ≤ now := fun m now r h => hf m now (r ++ [o]) (by rw [h]; simp)
      by_cases hm : ∃ now s, o = .pps now ∧ Marks l.reverse now s
      · obtain ⟨now, s, rfl, hs⟩ := hm
        rw [(C51_set l.reverse now s hs t).2.1]
        obtain ⟨k, hk⟩ := hw.pps now (by simp)
        unfold Marks at hs
        cases hl : lastGps l.reverse with
        | none =>
          rw [hl] at hs
          have h800 : (800 : Rat) ≤ now := hf l.reverse now [] rfl hl
          have := hs.1
          linarith
        | some p =>
          obtain ⟨g, u⟩ := p
          rw [hl] at hs
          obtain ⟨h1, rfl⟩ := hs
          have hmem : Op.gps g u ∈ l.reverse := by
            clear * - hl
            generalize l.reverse = m at hl
            induction m with
            | nil => cases hl
            | cons x m ih =>
              cases x with
              | gps a b =>
                simp only [lastGps] at hl
                cases hm : lastGps m with
                | none => rw [hm] at hl; simp at hl; simp [hl]
                | some q => rw [hm] at hl; simp at hl; exact .tail _ (ih (by rw [hm, hl]))
              | pps a => exact .tail _ (ih hl)
              | poll a => exact .tail _ (ih hl)
          have hle : g ≤ now := (List.pairwise_append.1 hw.order).2.2 _ hmem _ (List.mem_singleton.2 rfl) g u now rfl rfl
          obtain ⟨h2, h3⟩ := hw'.gps g u hmem
          have hk1 : (u : Rat) < k := by linarith
          have hk2 : (k : Rat) < u + 2 := by linarith
          have e1 : u < k := by exact_mod_cast hk1
          have e2 : k < u + 2 := by exact_mod_cast hk2
          have : k = u + 1 := by omega
          rw [this] at hk
          linarith
      · have hkept := C51_kept l.reverse o fun now s e hs => hm ⟨now, s, e, hs⟩
        rw [(hkept.2.1 t).1]
        exact ih hw' hf' (by rw [← hkept.1]; exact hr)
  have := key l.reverse
  rw [List.reverse_reverse] at this
  exact this hw hf h

/-- C51 (finding): with no GPS time at all, a PPS edge in the first 800 ms after boot sets the clock to one second after 1970 and declares it ready -/
theorem C51_1970 (now : Rat) (h : now < 800) : (Clk.run [.pps now]).ready = true ∧ ∀ t, (Clk.run [.pps now]).nowMs t = 1000 + (t - now) := by
  have hm : Marks [] now 1 := ⟨h, rfl⟩
  refine ⟨(C51_set [] now 1 hm 0).1, fun t => ?_⟩
  have := (C51_set [] now 1 hm t).2.1
  simpa using this

/-- the tasks waiting in a history that has not made the clock ready -/
theorem wait_inv (l : List Op) (h : (Clk.run l).ready = false) : ∃ ws, (Clk.run l).waker = slots 10 ws ∧ ws.length ≤ 10 ∧ ws.Nodup ∧
    (∀ w, w ∈ ws → Op.poll w ∈ l) ∧ ((Clk.run l).panicked = false → ∀ w, Op.poll w ∈ l → w ∈ ws) ∧ ((Clk.run l).panicked = true → ws.length = 10 ∧ ∃ w, Op.poll w ∈ l ∧ w ∉ ws) := by
  have key : ∀ l : List Op, (Clk.run l.reverse).ready = false → ∃ ws, (Clk.run l.reverse).waker = slots 10 ws ∧ ws.length ≤ 10 ∧ ws.Nodup ∧
    (∀ w, w ∈ ws → Op.poll w ∈ l.reverse) ∧ ((Clk.run l.reverse).panicked = false → ∀ w, Op.poll w ∈ l.reverse → w ∈ ws) ∧
    ((Clk.run l.reverse).panicked = true → ws.length = 10 ∧ ∃ w, Op.poll w ∈ l.reverse ∧ w ∉ ws) := by
    intro l
    induction l with
    | nil => intro _; exact ⟨[], rfl, by simp, by simp, by simp, by simp, fun h => by cases h⟩
    | cons o l ih =>
      rw [List.reverse_cons, crun_snoc]
      intro hr
      cases o with
      | gps now s =>
        obtain ⟨ws, h1, h2, h3, h4, h5, h6⟩ := ih hr
        refine ⟨ws, h1, h2, h3, fun w hw => List.mem_append_left _ (h4 w hw), fun hp w hw => h5 hp w ?_, fun hp => ?_⟩
        · rcases List.mem_append.1 hw with hw | hw
          · exact hw
          · simp at hw
        · obtain ⟨e, w, e1, e2⟩ := h6 hp
          exact ⟨e, w, List.mem_append_left _ e1, e2⟩
      | pps now =>
        unfold Clk.step Clk.pps at hr ⊢
        simp only at hr ⊢
        by_cases hc : now - (Clk.run l.reverse).latest.1 < 800
        · rw [if_pos hc] at hr
          cases hr
        · rw [if_neg hc] at hr ⊢
          obtain ⟨ws, h1, h2, h3, h4, h5, h6⟩ := ih hr
          refine ⟨ws, h1, h2, h3, fun w hw => List.mem_append_left _ (h4 w hw), fun hp w hw => h5 hp w ?_, fun hp => ?_⟩
          · rcases List.mem_append.1 hw with hw | hw
            · exact hw
            · simp at hw
          · obtain ⟨e, w, e1, e2⟩ := h6 hp
            exact ⟨e, w, List.mem_append_left _ e1, e2⟩
      | poll v =>
        have hr0 : (Clk.run l.reverse).ready = false := by
          unfold Clk.step Clk.poll at hr
          simp only at hr
          split at hr
          · exact hr
          · split at hr <;> exact hr
        obtain ⟨ws, h1, h2, h3, h4, h5, h6⟩ := ih hr0
        unfold Clk.step Clk.poll
        simp only
        rw [if_neg (by unfold Clk.ready at hr0; simp [hr0]), h1, C53_register]
        by_cases hv : v ∈ ws
        · rw [if_pos hv]
          refine ⟨ws, rfl, h2, h3, fun w hw => List.mem_append_left _ (h4 w hw), fun hp w hw => ?_, fun hp => ?_⟩
          · rcases List.mem_append.1 hw with hw | hw
            · exact h5 hp w hw
            · simp at hw
              exact hw ▸ hv
          · obtain ⟨e, w, e1, e2⟩ := h6 hp
            exact ⟨e, w, List.mem_append_left _ e1, e2⟩
        · rw [if_neg hv]
          by_cases hl : ws.length < 10
          · rw [if_pos hl]
            refine ⟨ws ++ [v], rfl, by simp; omega, ?_, ?_, ?_, ?_⟩
            · rw [List.nodup_append]
              refine ⟨h3, by simp, fun a ha b hb => ?_⟩
              rw [List.mem_singleton] at hb
              rintro rfl
              exact hv (hb ▸ ha)
            · intro w hw
              rcases List.mem_append.1 hw with hw | hw
              · exact List.mem_append_left _ (h4 w hw)
              · simp at hw
                simp [hw]
            · intro hp w hw
              rcases List.mem_append.1 hw with hw | hw
              · exact List.mem_append_left _ (h5 hp w hw)
              · simp at hw
                simp [hw]
            · intro hp
              have := (h6 hp).1
              omega
          · rw [if_neg hl]
            simp only
            refine ⟨ws, rfl, h2, h3, fun w hw => List.mem_append_left _ (h4 w hw), by simp, fun _ => ⟨by omega, v, by simp, hv⟩⟩
  have := key l.reverse
  rw [List.reverse_reverse] at this
  exact this h

/-- C51: up to ten tasks can wait: if at most ten tasks poll, nothing panics, and the first edge that is used wakes each of them, once -/
theorem C51_waiters (l : List Op) (h : (Clk.run l).ready = false) (ts : List Nat) (hlen : ts.length ≤ 10) (hts : ∀ w, Op.poll w ∈ l → w ∈ ts) (now : Rat) (s : Int) (hm : Marks l now s) :
    (Clk.run l).panicked = false ∧ ∃ ws, (Clk.run (l ++ [.pps now])).woken = (Clk.run l).woken ++ ws ∧ ws.Nodup ∧ ∀ w, w ∈ ws ↔ Op.poll w ∈ l := by
  obtain ⟨ws, h1, h2, h3, h4, h5, h6⟩ := wait_inv l h
  have hp : (Clk.run l).panicked = false := by
    cases hp : (Clk.run l).panicked with
    | false => rfl
    | true =>
      obtain ⟨e, w, e1, e2⟩ := h6 hp
      have hsub : (w :: ws).Nodup := List.nodup_cons.2 ⟨e2, h3⟩
      have : (w :: ws).length ≤ ts.length := by
        refine List.Nodup.length_le_of_subset hsub ?_
        intro x hx
        rcases List.mem_cons.1 hx with rfl | hx
        · exact hts _ e1
        · exact hts _ (h4 _ hx)
      simp at this
      omega
  refine ⟨hp, ws, ?_, h3, fun w => ⟨h4 w, h5 hp w⟩⟩
  rw [crun_snoc]
  have hc := (marks_iff l now).2 ⟨s, hm⟩
  unfold Clk.step Clk.pps
  simp only [if_pos hc, h1]
  rw [C53_wake 10 ws h2]

/-- C51 (finding): an eleventh task that waits before the clock is ready panics -/
theorem C51_eleventh : (Clk.run ((List.range 11).map .poll)).panicked = true := by decide +kernel

/-- a world: boot at 1700000000.250; GPS times half-way through the second -/
def demoWorld : List Op := [.poll 3, .gps 250 1700000000, .poll 4, .pps 750, .gps 1250 1700000001, .pps 1750, .pps 2750]

example : World 1700000000250 demoWorld := by
  refine ⟨?_, ?_, ?_⟩
  · intro g s h
    simp [demoWorld] at h
    rcases h with ⟨rfl, rfl⟩ | ⟨rfl, rfl⟩ <;> norm_num
  · intro p h
    simp [demoWorld] at h
    rcases h with rfl | rfl | rfl
    · exact ⟨1700000001, by norm_num⟩
    · exact ⟨1700000002, by norm_num⟩
    · exact ⟨1700000003, by norm_num⟩
  · simp [demoWorld]
    norm_num

/-- its first edge comes after a GPS time -/
example : ∀ m now r, demoWorld = m ++ .pps now :: r → lastGps m = none → 800 ≤ now := by
  intro m now r h hm
  rcases m with _ | ⟨a, _ | ⟨b, m⟩⟩
  · simp [demoWorld] at h
  · simp [demoWorld] at h
  · simp only [demoWorld, List.cons_append, List.cons.injEq] at h
    rw [← h.1, ← h.2.1] at hm
    simp [lastGps] at hm

example : (Clk.run demoWorld).ready = true ∧ (Clk.run demoWorld).nowMs 5000 = 1700000005250 ∧ (Clk.run demoWorld).published = [1700000001000, 1700000002000] ∧ (Clk.run demoWorld).woken = [3, 4] := by
  decide +kernel

end Verif.Props
