import Verif.Model.AppLayout
/-
C136: the layout of the Ozys app.
-/
namespace Verif.Props
open Verif.AppLayout

/-- there is one Devices tab, it is in the border, and no other tab is -/
def ProperLayout (l : List Tab) : Prop := (l.filter (·.border)) = [⟨"Devices", true⟩] ∧ ∀ t ∈ l, t.name = "Devices" → t.border = true

/-- the stored layout, if it is one, is proper -/
def ProperStored : Stored → Prop
  | .layout l => ProperLayout l
  | _ => True

theorem proper_default : ProperLayout defaultLayout := by
  refine ⟨by decide, ?_⟩
  intro t ht hn
  simp only [defaultLayout, List.mem_cons, List.not_mem_nil, or_false] at ht
  rcases ht with rfl | rfl | rfl <;> simp_all

theorem eraseIdx_split (l : List Tab) (i : Nat) (t : Tab) (h : l[i]? = some t) : ∃ a b, l = a ++ t :: b ∧ l.eraseIdx i = a ++ b := by
  induction l generalizing i with
  | nil => simp at h
  | cons x l ih =>
    cases i with
    | zero => simp only [List.getElem?_cons_zero, Option.some.injEq] at h; exact ⟨[], l, by simp [h], by simp⟩
    | succ i =>
      obtain ⟨a, b, h1, h2⟩ := ih i (by simpa using h)
      exact ⟨x :: a, b, by simp [h1], by simp [h2]⟩

theorem proper_changed {l l' : List Tab} (hp : ProperLayout l) (hb : l'.filter (·.border) = l.filter (·.border)) (hs : ∀ t ∈ l', t ∈ l ∨ t.name ≠ "Devices") : ProperLayout l' := by
  refine ⟨by rw [hb]; exact hp.1, fun t ht hn => ?_⟩
  rcases hs t ht with h | h
  · exact hp.2 t h hn
  · exact absurd hn h

theorem tick_layout (a : App) (now : Nat) : (a.tick now).layout = a.layout := by
  unfold App.tick
  split
  · split <;> rfl
  · rfl

theorem step_proper {a : App} (x : Nat × Ev) (h : ProperLayout a.layout) (hs : ProperStored a.stored) : ProperLayout (a.step x).layout ∧ ProperStored (a.step x).stored := by
  have hs2 : ProperStored (a.tick x.1).stored := by
    unfold App.tick
    split
    · split
      · exact h
      · exact hs
    · exact hs
  have h2 : ProperLayout (a.tick x.1).layout := by rw [tick_layout]; exact h
  unfold App.step
  generalize a.tick x.1 = b at *
  obtain ⟨now, e⟩ := x
  cases e with
  | move i onto =>
    simp only [App.user]
    cases ht : b.layout[i]? with
    | none => exact ⟨h2, hs2⟩
    | some t =>
      simp only
      split
      · rename_i hd
        obtain ⟨p, q, e1, e2⟩ := eraseIdx_split _ _ _ ht
        have hsame : onto = t.border := by
          cases onto <;> cases hb : t.border <;> simp_all [allowDrop]
        refine ⟨?_, hs2⟩
        have et : ({ t with border := onto } : Tab) = t := by rw [hsame]
        show ProperLayout (b.layout.eraseIdx i ++ [{ t with border := onto }])
        rw [et, e2]
        have hmem : ∀ x, x ∈ p ++ q ++ [t] ↔ x ∈ b.layout := by
          intro x
          rw [e1]
          simp only [List.mem_append, List.mem_cons, List.not_mem_nil, or_false]
          grind
        refine ⟨?_, fun x hx hn => h2.2 x ((hmem x).mp hx) hn⟩
        have h3 := h2.1
        rw [e1, List.filter_append, List.filter_cons] at h3
        rw [List.filter_append, List.filter_append]
        cases hb : t.border with
        | false => simpa [hb] using h3
        | true =>
          rw [hb] at h3
          simp only [if_true] at h3
          have hlen := congrArg List.length h3
          simp only [List.length_append, List.length_cons, List.length_nil] at hlen
          have hp0 : p.filter (·.border) = [] := List.length_eq_zero_iff.mp (by omega)
          have hq0 : q.filter (·.border) = [] := List.length_eq_zero_iff.mp (by omega)
          rw [hp0, hq0] at h3 ⊢
          simpa [hb] using h3
      · exact ⟨h2, hs2⟩
  | close i =>
    simp only [App.user]
    cases ht : b.layout[i]? with
    | none => exact ⟨h2, hs2⟩
    | some t =>
      simp only
      split
      · exact ⟨h2, hs2⟩
      · rename_i hd
        obtain ⟨p, q, e1, e2⟩ := eraseIdx_split _ _ _ ht
        have hb : t.border = false := by
          cases hb : t.border with
          | false => rfl
          | true =>
            have : t ∈ b.layout.filter (·.border) := List.mem_filter.mpr ⟨by rw [e1]; simp, hb⟩
            rw [h2.1, List.mem_singleton] at this
            exact absurd (congrArg Tab.name this) hd
        refine ⟨proper_changed h2 ?_ fun x hx => .inl ?_, hs2⟩
        · show (b.layout.eraseIdx i).filter _ = _
          rw [e2, e1]
          simp [hb]
        · change x ∈ b.layout.eraseIdx i at hx
          exact List.mem_of_mem_eraseIdx hx
  | add t =>
    refine And.intro (proper_changed h2 (l' := b.layout ++ [(⟨t.name, false⟩ : Tab)]) ?_ ?_) hs2
    · show (b.layout ++ [(⟨t.name, false⟩ : Tab)]).filter _ = _
      simp
    · intro x hx
      change x ∈ b.layout ++ [(⟨t.name, false⟩ : Tab)] at hx
      rw [List.mem_append, List.mem_singleton] at hx
      rcases hx with hx | hx
      · exact .inl hx
      · right
        rw [hx]
        cases t <;> decide
  | reload =>
    refine ⟨?_, hs2⟩
    show ProperLayout (load b.stored)
    unfold load
    split
    · rename_i l he
      rw [he] at hs2
      exact hs2
    · exact proper_default

/-- **C136** Whatever the user does, from the first start on (nothing stored, or no layout), or from a stored layout of this kind: there is always exactly one Devices tab, it is in the border, and no other tab ever
gets there (nor into the storage). -/
theorem C136_devices (l : List (Nat × Ev)) (s : Stored) (hs : ProperStored s) : ProperLayout ((App.opened s).run l).layout ∧ ProperStored ((App.opened s).run l).stored := by
  have key : ∀ (l : List (Nat × Ev)) (a : App), ProperLayout a.layout → ProperStored a.stored → ProperLayout (a.run l).layout ∧ ProperStored (a.run l).stored := by
    intro l
    induction l with
    | nil => intro a h1 h2; exact ⟨h1, h2⟩
    | cons x l ih => intro a h1 h2; exact ih _ (step_proper x h1 h2).1 (step_proper x h1 h2).2
  refine key l _ ?_ hs
  cases s with
  | layout x => exact hs
  | nothing => exact proper_default
  | junk => exact proper_default

/-- a save is due at most 500 ms after `t`, or what is stored is the layout (the default one, if there is none) -/
def SavedBy (a : App) (t : Nat) : Prop := match a.due with
  | some d => d ≤ t + 500
  | none => load a.stored = a.layout

theorem tick_saved {a : App} {t now : Nat} (h : SavedBy a t) : SavedBy (a.tick now) t := by
  unfold App.tick
  split
  · split
    · rfl
    · exact h
  · exact h

theorem step_saved {a : App} {t : Nat} (x : Nat × Ev) (ht : t ≤ x.1) (h : SavedBy a t) : SavedBy (a.step x) x.1 := by
  have h2 : SavedBy (a.tick x.1) x.1 := by
    have := tick_saved (now := x.1) h
    unfold SavedBy at this ⊢
    generalize a.tick x.1 = b at *
    cases hd : b.due with
    | some d => rw [hd] at this; exact Nat.le_trans this (by omega)
    | none => rw [hd] at this; exact this
  unfold App.step
  generalize a.tick x.1 = b at *
  obtain ⟨now, e⟩ := x
  have hc : ∀ l, SavedBy (b.changed now l) now := fun l => Nat.le_refl _
  cases e with
  | move i onto =>
    simp only [App.user]
    split
    · split
      · exact hc _
      · exact h2
    · exact h2
  | close i =>
    simp only [App.user]
    split
    · split
      · exact h2
      · exact hc _
    · exact h2
  | add t => exact hc _
  | reload => exact (rfl : load b.stored = load b.stored)

/-- **C136** The layout is kept: half a second after whatever the user did last, opening the page anew gives the layout as it was. -/
theorem C136_kept (s : Stored) (l : List (Nat × Ev)) (x : Nat × Ev) (hl : (l ++ [x]).Pairwise (fun a b => a.1 ≤ b.1)) (now : Nat) (hn : x.1 + 500 ≤ now) :
    (((App.opened s).run (l ++ [x])).step (now, .reload)).layout = ((App.opened s).run (l ++ [x])).layout := by
  have key : ∀ (l : List (Nat × Ev)) (a : App) (t : Nat), SavedBy a t → l.Pairwise (fun a b => a.1 ≤ b.1) → (∀ y ∈ l, t ≤ y.1) → SavedBy (a.run l) ((l.getLast?.map (·.1)).getD t) := by
    intro l
    induction l with
    | nil => intro a t h _ _; exact h
    | cons y l ih =>
      intro a t h hp hle
      rw [List.pairwise_cons] at hp
      have := ih (a.step y) y.1 (step_saved y (hle y List.mem_cons_self) h) hp.2 hp.1
      have e : ((y :: l).getLast?.map (·.1)).getD t = (l.getLast?.map (·.1)).getD y.1 := by
        rw [List.getLast?_cons]
        cases l.getLast? <;> rfl
      rw [e]
      exact this
  have h := key (l ++ [x]) (App.opened s) 0 (rfl : load s = load s) hl (fun _ _ => Nat.zero_le _)
  rw [List.getLast?_append] at h
  simp only [List.getLast?_singleton, Option.some_or, Option.map_some, Option.getD_some] at h
  generalize (App.opened s).run (l ++ [x]) = a at *
  unfold App.step
  show load (a.tick now).stored = a.layout
  unfold SavedBy at h
  unfold App.tick
  split at h
  · rename_i d hd
    rw [hd]
    simp only
    rw [if_pos (by omega)]
    rfl
  · rename_i hd
    rw [hd]
    exact h

/-- a tab is added at `t`, and again after each of the gaps -/
def addsEvery (t : Nat) : List Nat → List (Nat × Ev)
  | [] => [(t, .add .webUsb)]
  | g :: gs => (t, .add .webUsb) :: addsEvery (t + g) gs

/-- **C136 (finding)** A change is lost if the page is closed less than half a second later, and as long as the user changes the layout again within every half second nothing is saved: however many tabs are added,
the page opens with the old layout. -/
theorem C136_lost (s : Stored) (t : Nat) (gaps : List Nat) (hg : ∀ g ∈ gaps, g < 500) (now : Nat) (hn : now < t + gaps.sum + 500) :
    (((App.opened s).run (addsEvery t gaps)).step (now, .reload)).layout = load s := by
  have key : ∀ (gaps : List Nat) (t : Nat) (a : App), (∀ g ∈ gaps, g < 500) → (∀ d, a.due = some d → t < d) → (a.run (addsEvery t gaps)).stored = a.stored ∧ (a.run (addsEvery t gaps)).due = some (t + gaps.sum + 500) := by
    intro gaps
    induction gaps with
    | nil =>
      intro t a _ hd
      have ht : a.tick t = a := by
        unfold App.tick
        split
        · rename_i d h
          rw [if_neg (by have := hd d h; omega)]
        · rfl
      simp [addsEvery, App.run, App.step, ht, App.user, App.changed]
    | cons g gs ih =>
      intro t a h hd
      have ht : a.tick t = a := by
        unfold App.tick
        split
        · rename_i d h
          rw [if_neg (by have := hd d h; omega)]
        · rfl
      have hstep : a.step (t, .add .webUsb) = a.changed t (a.layout ++ [⟨TabType.webUsb.name, false⟩]) := by
        simp only [App.step, ht, App.user]
      have hg : g < 500 := h g List.mem_cons_self
      obtain ⟨i1, i2⟩ := ih (t + g) (a.step (t, .add .webUsb)) (fun x hx => h x (List.mem_cons_of_mem _ hx)) (by
        intro d hd2
        rw [hstep] at hd2
        simp only [App.changed, Option.some.injEq] at hd2
        omega)
      refine ⟨?_, ?_⟩
      · show ((a.step (t, .add .webUsb)).run (addsEvery (t + g) gs)).stored = a.stored
        rw [i1, hstep]
        rfl
      · show ((a.step (t, .add .webUsb)).run (addsEvery (t + g) gs)).due = _
        rw [i2, List.sum_cons]
        congr 2
        omega
  obtain ⟨k2, k3⟩ := key gaps t (App.opened s) hg (by intro d h; cases h)
  show load ((App.tick _ now).stored) = load s
  generalize (App.opened s).run (addsEvery t gaps) = a at *
  have ht : a.tick now = a := by
    unfold App.tick
    rw [k3]
    simp only
    rw [if_neg (by omega)]
  rw [ht, k2]
  rfl

/-- moving a graph into the border, and Devices out of it, changes nothing; a graph is closed, and is gone after opening the page anew (cases of C136_devices and C136_kept) -/
example : ((App.opened .nothing).run [(0, .move 1 true), (10, .move 0 false), (20, .close 0), (30, .close 1), (600, .reload)]).layout = [⟨"Devices", true⟩, ⟨"Spectrogram", false⟩] := by decide

/-- opening the page too early brings it back -/
example : ((App.opened .nothing).run [(30, .close 1), (529, .reload)]).layout = defaultLayout := by decide

end Verif.Props
