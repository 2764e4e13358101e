import Verif.Model.Keyframe
import Mathlib.Tactic.Linarith
import Mathlib.Tactic.Ring
import Mathlib.Tactic.FieldSimp
import Mathlib.Tactic.NormNum
import Mathlib.Algebra.Order.BigOperators.Group.List
import Mathlib.Data.Rat.Defs
import Mathlib.Algebra.Order.Field.Rat

/-!
C125: a key frame animation passes through each of its key frames at its time, and moves from one to the next without a jump.
-/

namespace Verif.Props

open Verif Verif.Keyframe

variable {K F : Type} [Field F] [LinearOrder F] [IsStrictOrderedRing F]

/-- when key frame `i` is due: the durations before it, together -/
def due (a : Animation K F) (i : Nat) : F := (a.durations.take i).sum

/-- what `lerp` is at its ends -/
def Ends (lerp : Lerp K F) : Prop := ∀ a b : K, lerp a b 0 = a ∧ lerp a b 1 = b

/-- an animation that can be played: at least two key frames, one more than there are durations, which are positive -/
structure Playable (a : Animation K F) : Prop where
  some_ : a.durations ≠ []
  len : a.keyframes.length = a.durations.length + 1
  pos : ∀ d ∈ a.durations, 0 < d

theorem due_succ (a : Animation K F) (i : Nat) (d : F) (h : a.durations[i]? = some d) : due a (i + 1) = due a i + d := by
  unfold due
  rw [List.take_add_one, h]
  simp

theorem due_mono {a : Animation K F} (hp : ∀ d ∈ a.durations, 0 < d) {i j : Nat} (h : i < j) (hj : j ≤ a.durations.length) : due a i < due a j := by
  induction j with
  | zero => omega
  | succ j ih =>
    have hd : a.durations[j]? = some a.durations[j] := List.getElem?_eq_getElem (by omega)
    rw [due_succ a j _ hd]
    have h0 := hp a.durations[j] (List.getElem_mem _)
    rcases Nat.lt_or_ge i j with hij | hij
    · have := ih hij (by omega)
      linarith
    · have : i = j := by omega
      subst this
      linarith

theorem walk_spec (ds : List F) (n : Nat) (t : F) :
    match walk ds n t with
    | none => (ds ≠ [] → ds.sum < t)
    | some (i, r, d) => ∃ j, i = n + j ∧ ds[j]? = some d ∧ r = t - (ds.take j).sum ∧ r ≤ d ∧ (j ≠ 0 → 0 < r) := by
  induction ds generalizing n t with
  | nil => simp [walk]
  | cons d ds ih =>
    unfold walk
    split_ifs with h
    · have := ih (n + 1) (t - d)
      revert this
      cases hw : walk ds (n + 1) (t - d) with
      | none =>
        intro this _
        cases ds with
        | nil => simpa using h
        | cons e es =>
          have := this (by simp)
          rw [List.sum_cons]
          linarith
      | some x =>
        obtain ⟨i, r, e⟩ := x
        rintro ⟨j, rfl, hj, hr, hle, hpos⟩
        refine ⟨j + 1, by omega, by simpa using hj, ?_, hle, fun _ => ?_⟩
        · rw [List.take_succ_cons, List.sum_cons, hr]; ring
        · rcases Nat.eq_zero_or_pos j with h0 | h0
          · subst h0
            simp at hr
            rw [hr]; linarith
          · exact hpos (by omega)
    · exact ⟨0, by simp, by simp, by simp, not_lt.mp h, by simp⟩

/-- an animation made with the builder has one key frame more than durations -/
theorem C125_built (steps : List (K × F × Bool)) (last : K) :
    let b := steps.foldl (fun (b : Animation K F) s => if s.2.2 then b.addAbsolute s.1 s.2.1 else b.addKeyframe s.1 s.2.1) new
    (b.finish last).keyframes.length = (b.finish last).durations.length + 1 ∧ (b.finish last).keyframes = steps.map (·.1) ++ [last] := by
  have : ∀ (steps : List (K × F × Bool)) (b : Animation K F), b.keyframes.length = b.durations.length →
      let c := steps.foldl (fun (b : Animation K F) s => if s.2.2 then b.addAbsolute s.1 s.2.1 else b.addKeyframe s.1 s.2.1) b
      c.keyframes.length = c.durations.length ∧ c.keyframes = b.keyframes ++ steps.map (·.1) := by
    intro steps
    induction steps with
    | nil => intro b hb; simpa using hb
    | cons s ss ih =>
      intro b hb
      have := ih (if s.2.2 then b.addAbsolute s.1 s.2.1 else b.addKeyframe s.1 s.2.1)
        (by split_ifs <;> simp [Animation.addAbsolute, Animation.addKeyframe, hb])
      refine ⟨this.1, ?_⟩
      have h2 := this.2
      simp only [List.foldl_cons]
      rw [h2]
      split_ifs <;> simp [Animation.addAbsolute, Animation.addKeyframe]
  have := this steps new (by simp [new])
  simp only [Animation.finish, List.length_append, this.1]
  exact ⟨by simp, by rw [this.2]; simp [new]⟩

/-- while the animation lasts, it shows a point between the two key frames around the time, in proportion to the time since the first. At the
time of a key frame both neighbouring segments say the same. -/
theorem C125_shows (lerp : Lerp K F) (hl : Ends lerp) (a : Animation K F) (h : Playable a) (t : F) (h0 : 0 ≤ t) (ht : t ≤ a.durations.sum) :
    ∃ v, show_ lerp a t = .frame v ∧
      ∀ i k k', a.keyframes[i]? = some k → a.keyframes[i + 1]? = some k' → due a i ≤ t → t ≤ due a (i + 1) →
        v = lerp k k' ((t - due a i) / (due a (i + 1) - due a i)) := by
  have hw := walk_spec a.durations 0 t
  unfold show_
  split
  · rename_i he; exact absurd he h.some_
  · revert hw
    cases hx : walk a.durations 0 t with
    | none => intro hw; exact absurd (hw h.some_) (not_lt.mpr ht)
    | some x =>
      obtain ⟨i, r, d⟩ := x
      rintro ⟨j, hij, hj, hr, hle, hpos⟩
      have hij : i = j := by omega
      subst hij
      have hi : i < a.durations.length := (List.getElem?_eq_some_iff.mp hj).1
      have hk : a.keyframes[i]? = some (a.keyframes[i]'(by rw [h.len]; omega)) := List.getElem?_eq_getElem _
      have hk' : a.keyframes[i + 1]? = some (a.keyframes[i + 1]'(by rw [h.len]; omega)) := List.getElem?_eq_getElem _
      simp only [hk, hk']
      refine ⟨_, rfl, ?_⟩
      have hdp : 0 < d := h.pos d (List.mem_of_getElem? hj)
      have hdue := due_succ a i d hj
      have hrd : r = t - due a i := hr
      have hr0 : 0 ≤ r := by
        by_cases hz : i = 0
        · subst hz; simp [due] at hrd; rw [hrd]; exact h0
        · exact le_of_lt (hpos hz)
      intro m k k' hm hm' hlo hhi
      have hml : m < a.durations.length := by
        have := (List.getElem?_eq_some_iff.mp hm').1
        rw [h.len] at this; omega
      rcases Nat.lt_trichotomy m i with hmi | hmi | hmi
      · -- then `t` is the end of segment `m`, which is the start of segment `i`
        have hle2 : due a (m + 1) ≤ due a i := by
          rcases Nat.lt_or_ge (m + 1) i with hh | hh
          · exact le_of_lt (due_mono h.pos hh (by omega))
          · have : m + 1 = i := by omega
            rw [this]
        have : 0 < r := hpos (by omega)
        linarith
      · subst hmi
        rw [hk] at hm; rw [hk'] at hm'
        cases hm; cases hm'
        rw [hdue, hrd]
        congr 2
        ring
      · have hle2 : due a (i + 1) ≤ due a m := by
          rcases Nat.lt_or_ge (i + 1) m with hh | hh
          · exact le_of_lt (due_mono h.pos hh (by omega))
          · have : i + 1 = m := by omega
            rw [this]
        have hte : t = due a (i + 1) := by linarith
        have hmm : m = i + 1 := by
          rcases Nat.lt_or_ge (i + 1) m with hh | hh
          · have := due_mono h.pos hh (by omega)
            linarith
          · omega
        subst hmm
        have e1 : r / d = 1 := by
          rw [hrd, hte, hdue]
          field_simp
          ring
        rw [e1, (hl _ _).2, hte]
        rw [hk'] at hm; cases hm
        simp [(hl _ _).1]

/-- at the time of a key frame the animation shows that key frame -/
theorem C125_keyframe (lerp : Lerp K F) (hl : Ends lerp) (a : Animation K F) (h : Playable a) (i : Nat) (k : K) (hk : a.keyframes[i]? = some k) :
    show_ lerp a (due a i) = .frame k := by
  have hi : i < a.keyframes.length := (List.getElem?_eq_some_iff.mp hk).1
  rw [h.len] at hi
  have hnn : ∀ j, j ≤ a.durations.length → 0 ≤ due a j := by
    intro j hj
    rcases Nat.eq_zero_or_pos j with rfl | hp
    · simp [due]
    · have := due_mono h.pos hp hj
      simp [due] at this ⊢
      exact le_of_lt this
  have hlen : due a a.durations.length = a.durations.sum := by simp [due]
  have htot : due a i ≤ a.durations.sum := by
    rw [← hlen]
    rcases Nat.lt_or_ge i a.durations.length with hh | hh
    · exact le_of_lt (due_mono h.pos hh le_rfl)
    · have : i = a.durations.length := by omega
      rw [this]
  obtain ⟨v, hv, hall⟩ := C125_shows lerp hl a h (due a i) (hnn i (by omega)) htot
  rw [hv]
  congr 1
  rcases Nat.lt_or_ge i a.durations.length with hh | hh
  · have hk' : a.keyframes[i + 1]? = some (a.keyframes[i + 1]'(by rw [h.len]; omega)) := List.getElem?_eq_getElem _
    rw [hall i k _ hk hk' le_rfl (le_of_lt (due_mono h.pos (by omega) (by omega)))]
    simp [(hl _ _).1]
  · have hie : i = a.durations.length := by omega
    have hpos : 0 < a.durations.length := List.length_pos_iff.mpr h.some_
    obtain ⟨j, rfl⟩ : ∃ j, i = j + 1 := ⟨i - 1, by omega⟩
    have hj : a.keyframes[j]? = some (a.keyframes[j]'(by rw [h.len]; omega)) := List.getElem?_eq_getElem _
    have hlt := due_mono h.pos (show j < j + 1 by omega) (by omega)
    rw [hall j _ k hj hk (le_of_lt hlt) le_rfl, div_self (by intro hc; linarith), (hl _ _).2]

/-- after the last key frame the animation is finished -/
theorem C125_finished (lerp : Lerp K F) (a : Animation K F) (h : Playable a) (t : F) (ht : a.durations.sum < t) : show_ lerp a t = .finished := by
  have hw := walk_spec a.durations 0 t
  unfold show_
  split
  · rename_i he; exact absurd he h.some_
  · revert hw
    cases hx : walk a.durations 0 t with
    | none => intro _; rfl
    | some x =>
      obtain ⟨i, r, d⟩ := x
      rintro ⟨j, hij, hj, hr, hle, hpos⟩
      exfalso
      have hi : j < a.durations.length := (List.getElem?_eq_some_iff.mp hj).1
      have hd := due_succ a j d hj
      have hlen : due a a.durations.length = a.durations.sum := by simp [due]
      have : due a (j + 1) ≤ due a a.durations.length := by
        rcases Nat.lt_or_ge (j + 1) a.durations.length with hh | hh
        · exact le_of_lt (due_mono h.pos hh le_rfl)
        · have : j + 1 = a.durations.length := by omega
          rw [this]
      have hrd : r = t - due a j := hr
      linarith

/-- the player: after frames that took `ds` it shows what is due at their sum -/
theorem C125_run (lerp : Lerp K F) (a : Animation K F) (ds : List F) (n : Nat) (hn : n < ds.length) :
    (Player.run lerp (Player.new a) ds)[n]? = some (show_ lerp a (ds.take (n + 1)).sum) := by
  have : ∀ (ds : List F) (p : Player K F) (n : Nat), n < ds.length →
      (Player.run lerp p ds)[n]? = some (show_ lerp p.animation (p.time + (ds.take (n + 1)).sum)) := by
    intro ds
    induction ds with
    | nil => intro p n hn; simp at hn
    | cons d ds ih =>
      intro p n hn
      cases n with
      | zero => simp [Player.run, Player.update]
      | succ n =>
        simp only [Player.run, List.getElem?_cons_succ]
        rw [ih _ n (by simpa using hn)]
        simp [Player.update, add_assoc]
  simpa [Player.new] using this ds (Player.new a) n hn

/-- finding: the time given to `add_keyframe_absolute` is the time of the *next* key frame; and an animation of one key frame panics -/
theorem C125_absolute (b : Animation K F) (k k' : K) (t : F) :
    let a := (b.addAbsolute k t).finish k'
    b.keyframes.length = b.durations.length → due a (b.durations.length + 1) = t ∧ a.keyframes[b.durations.length + 1]? = some k' ∧
      a.keyframes[b.durations.length]? = some k ∧ due a b.durations.length = b.durations.sum := by
  intro a hb
  simp [a, due, Animation.addAbsolute, Animation.finish, ← hb, List.getElem?_append]

theorem C125_single (lerp : Lerp K F) (k : K) (d : F) : ((Player.new ((new : Animation K F).finish k)).update lerp d).2 = .panic := rfl

/-- numbers: the ends are the ends -/
theorem C125_lerp_num : Ends (lerpNum : Lerp F F) := fun a b => by simp [lerpNum]

/-- three key frames, one second and two seconds apart -/
example : Playable (((new : Animation ℚ ℚ).addKeyframe 0 1).addKeyframe 5 2 |>.finish 9) :=
  ⟨by simp [Animation.addKeyframe, Animation.finish, new], by simp [Animation.addKeyframe, Animation.finish, new],
    by simp [Animation.addKeyframe, Animation.finish, new]⟩

end Verif.Props
