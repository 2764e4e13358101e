import Verif.Model.StrainGraph
import Verif.Model.StrainPlayer
import Mathlib.Data.List.Nodup
import Mathlib.Tactic.Linarith
import Mathlib.Tactic.Ring
import Mathlib.Tactic.NormNum
/-
C113: the players of the strain graph follow the selection of channels and none is left over. C114: what the strain graph draws.
-/
namespace Verif.Props
open Verif Graph

/-- the selection drawn last -/
def lastDrawn (ops : List GOp) : List Nat := ops.foldl (fun sel o => match o with | .draw s => s | _ => sel) []

/-- the app's use of the graph: no channel is selected twice, and the zoom is not changed after it is disposed of -/
def ProperUse (ops : List GOp) : Prop := (∀ sel, .draw sel ∈ ops → sel.Nodup) ∧ ∀ pre post, ops = pre ++ .dispose :: post → GOp.setMsPerPixel ∉ post

/-- every creation of a player succeeds -/
def AllCreated (ops : List GOp) : Prop := GOp.go false ∉ ops

/-- the pending tasks turn the channels `K` into the channels `S`, and create no player for a channel that has one -/
def Good : (Nat → Prop) → List Task → (Nat → Prop) → Prop
  | K, [], S => ∀ c, K c ↔ S c
  | K, .update a r :: ts, S => a.Nodup ∧ (∀ c ∈ a, ¬ K c) ∧ Good (fun c => (K c ∨ c ∈ a) ∧ c ∉ r) ts S
  | K, .recreate :: ts, S => Good K ts S
  | K, .recreating _ _ :: ts, S => Good K ts S
  | K, .disposeAll :: ts, S => Good K ts S

theorem good_congr : ∀ (ts : List Task) (K K' S S' : Nat → Prop), (∀ c, K c ↔ K' c) → (∀ c, S c ↔ S' c) → Good K ts S → Good K' ts S' := by
  intro ts K K' S S' h1 h2 h
  rw [show K' = K from funext fun c => propext (h1 c).symm, show S' = S from funext fun c => propext (h2 c).symm]
  exact h

theorem good_snoc : ∀ (ts : List Task) (K S : Nat → Prop) (t : Task), (∀ a r, t ≠ .update a r) → Good K ts S → Good K (ts ++ [t]) S := by
  intro ts
  induction ts with
  | nil => intro K S t ht h; cases t with
    | update a r => exact absurd rfl (ht a r)
    | _ => exact h
  | cons u ts ih =>
    intro K S t ht h
    cases u with
    | update a r => exact ⟨h.1, h.2.1, ih _ _ _ ht h.2.2⟩
    | _ => exact ih _ _ _ ht h

theorem good_update : ∀ (ts : List Task) (K S S' : Nat → Prop) (a r : List Nat), a.Nodup → (∀ c ∈ a, ¬ S c) → (∀ c, ((S c ∨ c ∈ a) ∧ c ∉ r) ↔ S' c) → Good K ts S → Good K (ts ++ [.update a r]) S' := by
  intro ts
  induction ts with
  | nil =>
    intro K S S' a r h1 h2 h3 h
    refine ⟨h1, fun c hc => by rw [h c]; exact h2 c hc, fun c => ?_⟩
    show ((K c ∨ c ∈ a) ∧ c ∉ r) ↔ S' c
    rw [h c]; exact h3 c
  | cons u ts ih =>
    intro K S S' a r h1 h2 h3 h
    cases u with
    | update a' r' => exact ⟨h.1, h.2.1, ih _ _ _ _ _ h1 h2 h3 h.2.2⟩
    | _ => exact ih _ _ _ _ _ h1 h2 h3 h

/-- the players made by a task that is in progress -/
def madeBy : List Task → List (Nat × Nat)
  | .recreating _ made :: _ => made
  | _ => []

/-- a task in progress knows the channels -/
def inProgress (keys : List Nat) : List Task → Prop
  | .recreating todo made :: _ => made.map (·.1) ++ todo = keys
  | _ => True

/-- a task that has not begun -/
def notBegun : Task → Prop
  | .recreating _ _ => False
  | _ => True

/-- before the players are disposed of -/
structure GraphInv (g : G) : Prop where
  keys : g.keys.Nodup
  created : g.created = List.range g.created.length
  good : Good (· ∈ g.keys) g.tasks (· ∈ g.selected)
  perm : g.created.Perm (g.players.map (·.2) ++ ((madeBy g.tasks).map (·.2) ++ g.disposals))
  progress : inProgress g.keys g.tasks
  later : ∀ t ∈ g.tasks.tail, notBegun t
  disposing : if g.disposed then ∃ pre, g.tasks = pre ++ [.disposeAll] ∧ Task.disposeAll ∉ pre else Task.disposeAll ∉ g.tasks

/-- after that -/
structure GraphDone (g : G) : Prop where
  disposed : g.disposed = true
  tasks : g.tasks = []
  created : g.created = List.range g.created.length
  perm : g.created.Perm g.disposals

theorem mapSet_new (m : List (Nat × Nat)) (c p : Nat) (h : c ∉ m.map (·.1)) : mapSet m c p = m ++ [(c, p)] := by
  unfold mapSet
  rw [if_neg]
  simp only [List.any_eq_true, not_exists, not_and, beq_iff_eq]
  intro x hx he
  exact h (he ▸ List.mem_map.mpr ⟨x, hx, rfl⟩)

theorem remove_spec : ∀ (cs : List Nat) (g : G), (g.remove cs).selected = g.selected ∧ (g.remove cs).disposed = g.disposed ∧ (g.remove cs).created = g.created ∧
    (g.remove cs).players = g.players.filter (fun x => !cs.contains x.1) ∧ (g.players.map (·.2) ++ g.disposals).Perm ((g.remove cs).players.map (·.2) ++ (g.remove cs).disposals) := by
  intro cs
  induction cs with
  | nil => intro g; refine ⟨rfl, rfl, rfl, ?_, List.Perm.refl _⟩; show g.players = _; simp
  | cons c cs ih =>
    intro g
    obtain ⟨h1, h2, h3, h4, h5⟩ := ih { g with disposals := g.disposals ++ ((g.players.filter fun x => x.1 == c).map (·.2)), players := g.players.filter fun x => !(x.1 == c) }
    refine ⟨h1, h2, h3, ?_, ?_⟩
    · show G.players (G.remove _ cs) = _
      rw [h4, List.filter_filter]
      congr 1
      funext x
      simp only [List.contains_cons, Bool.not_or]
      exact Bool.and_comm _ _
    · refine List.Perm.trans ?_ h5
      have : g.players.Perm ((g.players.filter fun x => x.1 == c) ++ g.players.filter fun x => !(x.1 == c)) := (List.filter_append_perm _ _).symm
      have h6 := (this.map (·.2)).append_right g.disposals
      refine h6.trans ?_
      rw [List.map_append]
      show (List.map _ _ ++ List.map _ _ ++ g.disposals).Perm (List.map _ _ ++ (g.disposals ++ List.map _ _))
      have e := List.perm_append_comm (l₁ := (g.players.filter fun x => x.1 == c).map (·.2)) (l₂ := (g.players.filter fun x => !(x.1 == c)).map (·.2) ++ g.disposals)
      simp only [List.append_assoc] at e ⊢
      exact e

theorem diff_mem (old new : List Nat) (c : Nat) : (c ∈ (diff old new).1 ↔ c ∈ old ∧ c ∉ new) ∧ (c ∈ (diff old new).2 ↔ c ∈ new ∧ c ∉ old) := by
  simp [diff]

theorem range_snoc (l : List Nat) (h : l = List.range l.length) : l ++ [l.length] = List.range (l ++ [l.length]).length := by
  rw [List.length_append, List.length_singleton, List.range_succ, ← h]


theorem graphInv_new : GraphInv G.new := by
  refine { keys := ?_, created := rfl, good := ?_, perm := List.Perm.refl _, progress := trivial, later := ?_, disposing := ?_ }
  · simp [G.keys, G.new]
  · intro c; exact Iff.rfl
  · simp [G.new]
  · simp [G.new]

theorem madeBy_snoc (ts : List Task) (t : Task) (h : notBegun t) : madeBy (ts ++ [t]) = madeBy ts := by
  cases ts with
  | nil => cases t <;> first | rfl | exact absurd h id
  | cons u ts => cases u <;> rfl

theorem inProgress_snoc (k : List Nat) (ts : List Task) (t : Task) (h : notBegun t) : inProgress k (ts ++ [t]) ↔ inProgress k ts := by
  cases ts with
  | nil => cases t <;> first | exact Iff.rfl | exact absurd h id
  | cons u ts => cases u <;> exact Iff.rfl

theorem later_snoc (ts : List Task) (t : Task) (ht : notBegun t) (h : ∀ u ∈ ts.tail, notBegun u) : ∀ u ∈ (ts ++ [t]).tail, notBegun u := by
  intro u hu
  cases ts with
  | nil => cases hu
  | cons x ts =>
    rcases List.mem_append.mp (show u ∈ ts ++ [t] from hu) with hu | hu
    · exact h u hu
    · rw [List.mem_singleton.mp hu]; exact ht

/-- a task is added, before `dispose` -/
theorem graphInv_add {g : G} (h : GraphInv g) (t : Task) (ht : t = .recreate) (hd : g.disposed = false) : GraphInv { g with tasks := g.tasks ++ [t] } := by
  subst ht
  refine ⟨h.keys, h.created, good_snoc _ _ _ _ (by intro a r hc; cases hc) h.good, ?_, (inProgress_snoc _ _ _ (by trivial)).mpr h.progress, later_snoc _ _ (by trivial) h.later, ?_⟩
  · show g.created.Perm (g.players.map (·.2) ++ ((madeBy (g.tasks ++ [Task.recreate])).map (·.2) ++ g.disposals))
    rw [madeBy_snoc _ _ (by trivial)]; exact h.perm
  · have := h.disposing
    rw [hd] at this
    show if g.disposed = true then _ else Task.disposeAll ∉ g.tasks ++ [Task.recreate]
    rw [hd, if_neg (by decide)]
    rw [if_neg (by decide)] at this
    simpa using this

theorem graphInv_draw {g : G} (h : GraphInv g) (sel : List Nat) (hn : sel.Nodup) : GraphInv (g.step (.draw sel)) := by
  unfold G.step
  simp only
  split
  · exact h
  · next hd =>
    have hd' : g.disposed = false := by simpa using hd
    have hdis := h.disposing
    rw [hd', if_neg (by decide)] at hdis
    split
    · refine ⟨h.keys, h.created, ?_, ?_, (inProgress_snoc _ _ _ (by trivial)).mpr h.progress, later_snoc _ _ (by trivial) h.later, ?_⟩
      · refine good_update _ _ (· ∈ g.selected) _ _ _ ?_ ?_ ?_ h.good
        · exact hn.filter _
        · intro c hc; exact ((diff_mem _ _ c).2.mp hc).2
        · intro c
          have h1 := (diff_mem g.selected sel c).1
          have h2 := (diff_mem g.selected sel c).2
          show ((c ∈ g.selected ∨ c ∈ (diff g.selected sel).2) ∧ c ∉ (diff g.selected sel).1) ↔ c ∈ sel
          rw [h1, h2]
          by_cases a : c ∈ g.selected <;> by_cases b : c ∈ sel <;> simp [a, b]
      · show g.created.Perm (g.players.map (·.2) ++ ((madeBy (g.tasks ++ [Task.update (diff g.selected sel).2 (diff g.selected sel).1])).map (·.2) ++ g.disposals))
        rw [madeBy_snoc _ _ (by trivial)]; exact h.perm
      · show if g.disposed = true then _ else Task.disposeAll ∉ g.tasks ++ [Task.update (diff g.selected sel).2 (diff g.selected sel).1]
        rw [hd', if_neg (by decide)]
        simpa using hdis
    · next h0 =>
      refine ⟨h.keys, h.created, ?_, h.perm, h.progress, h.later, ?_⟩
      · refine good_congr _ _ _ _ _ (fun c => Iff.rfl) ?_ h.good
        intro c
        have e1 : (diff g.selected sel).1 = [] := List.length_eq_zero_iff.mp (by omega)
        have e2 : (diff g.selected sel).2 = [] := List.length_eq_zero_iff.mp (by omega)
        have h1 := (diff_mem g.selected sel c).1
        have h2 := (diff_mem g.selected sel c).2
        rw [e1] at h1
        rw [e2] at h2
        simp at h1 h2
        exact ⟨h1, h2⟩
      · show if g.disposed = true then _ else Task.disposeAll ∉ g.tasks
        rw [hd', if_neg (by decide)]; exact hdis

theorem graphInv_dispose {g : G} (h : GraphInv g) : GraphInv (g.step .dispose) := by
  unfold G.step
  simp only
  split
  · exact h
  · next hd =>
    have hd' : g.disposed = false := by simpa using hd
    have hdis := h.disposing
    rw [hd', if_neg (by decide)] at hdis
    refine ⟨h.keys, h.created, good_snoc _ _ _ _ (by intro a r hc; cases hc) h.good, ?_, (inProgress_snoc _ _ _ (by trivial)).mpr h.progress, later_snoc _ _ (by trivial) h.later, ?_⟩
    · show g.created.Perm (g.players.map (·.2) ++ ((madeBy (g.tasks ++ [Task.disposeAll])).map (·.2) ++ g.disposals))
      rw [madeBy_snoc _ _ (by trivial)]; exact h.perm
    · show if true = true then _ else _
      rw [if_pos rfl]
      exact ⟨g.tasks, rfl, hdis⟩

/-- the condition on disposal when the front task is replaced or ends -/
theorem disposing_tail {d : Bool} {t : Task} {ts : List Task} (ht : t ≠ .disposeAll) (h : if d = true then ∃ pre, t :: ts = pre ++ [.disposeAll] ∧ Task.disposeAll ∉ pre else Task.disposeAll ∉ t :: ts) :
    if d = true then ∃ pre, ts = pre ++ [.disposeAll] ∧ Task.disposeAll ∉ pre else Task.disposeAll ∉ ts := by
  cases d with
  | false => simp at h ⊢; exact h.2
  | true =>
    simp only [if_true] at h ⊢
    obtain ⟨pre, h1, h2⟩ := h
    cases pre with
    | nil => simp at h1; exact absurd h1.1 ht
    | cons x pre =>
      simp at h1 h2
      exact ⟨pre, h1.2, h2.2⟩

theorem disposing_cons {d : Bool} {t : Task} {ts : List Task} (ht : t ≠ .disposeAll) (h : if d = true then ∃ pre, ts = pre ++ [.disposeAll] ∧ Task.disposeAll ∉ pre else Task.disposeAll ∉ ts) :
    if d = true then ∃ pre, t :: ts = pre ++ [.disposeAll] ∧ Task.disposeAll ∉ pre else Task.disposeAll ∉ t :: ts := by
  cases d with
  | false => simp at h ⊢; exact ⟨fun e => ht e.symm, h⟩
  | true =>
    simp only [if_true] at h ⊢
    obtain ⟨pre, h1, h2⟩ := h
    exact ⟨t :: pre, by simp [h1], by simp; exact ⟨fun e => ht e.symm, h2⟩⟩

theorem madeBy_fresh {ts : List Task} (h : ∀ t ∈ ts, notBegun t) : madeBy ts = [] := by
  cases ts with
  | nil => rfl
  | cons t ts => have := h t (by simp); cases t <;> first | rfl | exact absurd this id

theorem inProgress_fresh {k : List Nat} {ts : List Task} (h : ∀ t ∈ ts, notBegun t) : inProgress k ts := by
  cases ts with
  | nil => trivial
  | cons t ts => have := h t (by simp); cases t <;> first | trivial | exact absurd this id

theorem graphInv_go {g : G} (h : GraphInv g) : GraphInv (g.go true) ∨ GraphDone (g.go true) := by
  obtain ⟨sel, pl, tasks, dis, cr, dp⟩ := g
  obtain ⟨h1, h2, h3, h4, h5, h6, h7⟩ := h
  simp only [G.keys] at h1 h2 h3 h4 h5 h6 h7
  cases tasks with
  | nil => exact .inl ⟨h1, h2, h3, h4, h5, h6, h7⟩
  | cons t ts =>
    have h6' : ∀ u ∈ ts, notBegun u := h6
    have h6'' : ∀ u ∈ ts.tail, notBegun u := fun u hu => h6' u (List.mem_of_mem_tail hu)
    cases t with
    | update a r =>
      left
      obtain ⟨g1, g2, g3⟩ := h3
      have hdis := disposing_tail (by simp) h7
      cases a with
      | cons c cs =>
        have hc : c ∉ pl.map (·.1) := g2 c (by simp)
        have hfr : (⟨sel, pl, .update (c :: cs) r :: ts, dis, cr, dp⟩ : G).fresh = cr.length := rfl
        unfold G.go
        simp only [if_true, hfr]
        rw [mapSet_new _ _ _ hc]
        refine ⟨?_, range_snoc cr h2, ?_, ?_, trivial, h6', disposing_cons (by simp) hdis⟩
        · show ((pl ++ [(c, cr.length)]).map (·.1)).Nodup
          rw [List.map_append, List.map_singleton]
          refine List.nodup_append.mpr ⟨h1, by simp, ?_⟩
          rintro x hx y hy rfl
          have e : x = c := by simpa using hy
          exact hc (e ▸ hx)
        · show Good (· ∈ (pl ++ [(c, cr.length)]).map (·.1)) (Task.update cs r :: ts) (· ∈ sel)
          have hcs := List.nodup_cons.mp g1
          refine ⟨hcs.2, ?_, ?_⟩
          · intro d hd hm
            rw [List.map_append, List.map_singleton] at hm
            rcases List.mem_append.mp hm with hm | hm
            · exact g2 d (by simp [hd]) hm
            · have e : d = c := List.mem_singleton.mp hm
              exact hcs.1 (e ▸ hd)
          · refine good_congr _ _ _ _ _ ?_ (fun c => Iff.rfl) g3
            intro d
            rw [List.map_append, List.map_singleton]
            simp only [List.mem_append, List.mem_cons, List.not_mem_nil, or_false]
            tauto
        · show (cr ++ [cr.length]).Perm ((pl ++ [(c, cr.length)]).map (·.2) ++ ([] ++ dp))
          have h4' : cr.Perm (pl.map (·.2) ++ dp) := h4
          rw [List.map_append, List.map_singleton, List.nil_append, List.append_assoc]
          refine (h4'.append_right [cr.length]).trans ?_
          rw [List.append_assoc]
          exact List.Perm.append_left _ List.perm_append_comm
      | nil =>
        unfold G.go
        simp only
        obtain ⟨r1, r2, r3, r4, r5⟩ := remove_spec r ⟨sel, pl, .update [] r :: ts, dis, cr, dp⟩
        generalize G.remove _ r = g' at *
        obtain ⟨sel', pl', tasks', dis', cr', dp'⟩ := g'
        simp only at r1 r2 r3 r4 r5
        subst r1 r2 r3 r4
        refine ⟨?_, h2, ?_, ?_, inProgress_fresh h6', h6'', hdis⟩
        · exact h1.sublist ((List.filter_sublist).map _)
        · refine good_congr _ _ _ _ _ ?_ (fun c => Iff.rfl) g3
          intro d
          show ((d ∈ pl.map (·.1) ∨ d ∈ []) ∧ d ∉ r) ↔ d ∈ (pl.filter (fun x => !r.contains x.1)).map (·.1)
          simp only [List.mem_map, List.mem_filter, List.not_mem_nil, or_false]
          constructor
          · rintro ⟨⟨x, hx, rfl⟩, hr⟩; exact ⟨x, ⟨hx, by simpa using hr⟩, rfl⟩
          · rintro ⟨x, ⟨hx, hr⟩, rfl⟩; exact ⟨⟨x, hx, rfl⟩, by simpa using hr⟩
        · show cr'.Perm ((pl.filter (fun x => !r.contains x.1)).map (·.2) ++ ((madeBy ts).map (·.2) ++ dp'))
          rw [madeBy_fresh h6']
          exact List.Perm.trans h4 r5
    | recreate =>
      left
      refine ⟨h1, h2, h3, h4, rfl, h6', disposing_cons (by simp) (disposing_tail (by simp) h7)⟩
    | recreating todo made =>
      left
      have hdis := disposing_tail (by simp) h7
      have h5' : made.map (·.1) ++ todo = pl.map (·.1) := h5
      cases todo with
      | cons c cs =>
        have hfr : (⟨sel, pl, .recreating (c :: cs) made :: ts, dis, cr, dp⟩ : G).fresh = cr.length := rfl
        have hc : c ∉ made.map (·.1) := by
          rw [← h5'] at h1
          intro hm
          exact (List.nodup_append.mp h1).2.2 c hm c (by simp) rfl
        unfold G.go
        simp only [if_true, hfr]
        rw [mapSet_new _ _ _ hc]
        refine ⟨h1, range_snoc cr h2, h3, ?_, ?_, h6', disposing_cons (by simp) hdis⟩
        · show (cr ++ [cr.length]).Perm (pl.map (·.2) ++ ((made ++ [(c, cr.length)]).map (·.2) ++ dp))
          have h4' : cr.Perm (pl.map (·.2) ++ (made.map (·.2) ++ dp)) := h4
          refine (h4'.append_right [cr.length]).trans ?_
          rw [List.append_assoc]
          refine List.Perm.append_left _ ?_
          rw [List.map_append, List.map_singleton, List.append_assoc, List.append_assoc]
          exact List.Perm.append_left _ List.perm_append_comm
        · show (made ++ [(c, cr.length)]).map (·.1) ++ cs = pl.map (·.1)
          rw [← h5']; simp
      | nil =>
        rw [List.append_nil] at h5'
        unfold G.go
        simp only
        refine ⟨?_, h2, ?_, ?_, inProgress_fresh h6', h6'', hdis⟩
        · show (made.map (·.1)).Nodup
          rw [h5']; exact h1
        · show Good (· ∈ made.map (·.1)) ts (· ∈ sel)
          rw [h5']; exact h3
        · show cr.Perm (made.map (·.2) ++ ((madeBy ts).map (·.2) ++ (dp ++ pl.map (·.2))))
          rw [madeBy_fresh h6', List.map_nil, List.nil_append]
          refine List.Perm.trans h4 ?_
          show (pl.map (·.2) ++ (made.map (·.2) ++ dp)).Perm _
          rw [← List.append_assoc (made.map (·.2))]
          exact List.perm_append_comm
    | disposeAll =>
      cases dis with
      | false => simp at h7
      | true =>
        simp only [if_true] at h7
        obtain ⟨pre, e1, e2⟩ := h7
        cases pre with
        | cons x pre => simp at e1 e2; exact absurd e1.1 e2.1
        | nil =>
          simp at e1
          subst e1
          right
          refine ⟨rfl, rfl, h2, ?_⟩
          refine List.Perm.trans h4 ?_
          show (pl.map (·.2) ++ dp).Perm (dp ++ pl.map (·.2))
          exact List.perm_append_comm


theorem graphDone_step {g : G} (h : GraphDone g) (o : GOp) (ho : o ≠ .setMsPerPixel) : g.step o = g := by
  obtain ⟨sel, pl, tasks, dis, cr, dp⟩ := g
  obtain ⟨h1, h2, h3, h4⟩ := h
  simp only at h1 h2
  subst h1 h2
  cases o <;> first | rfl | exact absurd rfl ho

theorem step_disposed (g : G) (o : GOp) : (g.step o).disposed = (g.disposed || (match o with | .dispose => true | _ => false)) := by
  cases o with
  | draw sel => unfold G.step; simp only; split <;> (try split) <;> simp_all
  | setMsPerPixel => simp [G.step]
  | resize => unfold G.step; simp only; split <;> simp_all
  | dispose => unfold G.step; simp only; split <;> simp_all
  | go ok =>
    have hrem : ∀ cs (g : G), (g.remove cs).disposed = g.disposed := fun cs g => (remove_spec cs g).2.1
    simp only [G.step, Bool.or_false]
    unfold G.go
    split <;> (try split) <;> simp [hrem]

theorem graphInv_run : ∀ (ops : List GOp) (g : G), (GraphInv g ∨ GraphDone g) → (g.disposed = true → GOp.setMsPerPixel ∉ ops) → ProperUse ops → AllCreated ops → (GraphInv (g.run ops) ∨ GraphDone (g.run ops)) := by
  intro ops
  induction ops with
  | nil => intro g h _ _ _; exact h
  | cons o ops ih =>
    intro g h hz hp hc
    have hp' : ProperUse ops := ⟨fun sel hs => hp.1 sel (by simp [hs]), fun pre post e => hp.2 (o :: pre) post (by simp [e])⟩
    have hc' : AllCreated ops := fun hm => hc (List.mem_cons_of_mem _ hm)
    show GraphInv ((g.step o).run ops) ∨ GraphDone ((g.step o).run ops)
    refine ih (g.step o) ?_ ?_ hp' hc'
    · rcases h with h | h
      · cases o with
        | draw sel => exact .inl (graphInv_draw h sel (hp.1 sel (by simp)))
        | setMsPerPixel =>
          have hd : g.disposed = false := by
            cases hd : g.disposed with
            | false => rfl
            | true => exact absurd (by simp) (hz hd)
          exact .inl (graphInv_add h _ rfl hd)
        | resize =>
          by_cases hd : g.disposed = true
          · left; unfold G.step; rw [if_pos hd]; exact h
          · left; unfold G.step; rw [if_neg hd]; exact graphInv_add h _ rfl (by simpa using hd)
        | dispose => exact .inl (graphInv_dispose h)
        | go ok =>
          cases ok with
          | false => exact absurd (by simp) hc
          | true => exact graphInv_go h
      · right
        rw [graphDone_step h o (by rintro rfl; exact absurd (by simp) (hz h.disposed))]
        exact h
    · intro hd
      rw [step_disposed] at hd
      cases hg : g.disposed with
      | true => intro hm; exact hz hg (List.mem_cons_of_mem _ hm)
      | false =>
        rw [hg] at hd
        cases o <;> simp at hd
        exact hp.2 [] ops rfl

theorem run_disposed : ∀ (ops : List GOp) (g : G), (g.run ops).disposed = true ↔ (g.disposed = true ∨ GOp.dispose ∈ ops) := by
  intro ops
  induction ops with
  | nil => intro g; simp [G.run]
  | cons o ops ih =>
    intro g
    show ((g.step o).run ops).disposed = true ↔ _
    rw [ih, step_disposed]
    cases o <;> simp

theorem run_selected : ∀ (ops : List GOp) (g : G), g.disposed = false → GOp.dispose ∉ ops →
    (g.run ops).selected = ops.foldl (fun sel o => match o with | .draw s => s | _ => sel) g.selected := by
  intro ops
  induction ops with
  | nil => intro g _ _; rfl
  | cons o ops ih =>
    intro g hg hn
    show ((g.step o).run ops).selected = _
    have ho : o ≠ .dispose := by rintro rfl; simp at hn
    have hd : (g.step o).disposed = false := by rw [step_disposed, hg]; cases o <;> first | rfl | exact absurd rfl ho
    rw [ih (g.step o) hd (fun hm => hn (List.mem_cons_of_mem _ hm)), List.foldl_cons]
    congr 1
    cases o with
    | draw sel => unfold G.step; simp only [hg]; split <;> (try split) <;> simp_all
    | setMsPerPixel => rfl
    | resize => unfold G.step; rw [hg]; rfl
    | dispose => exact absurd rfl ho
    | go ok =>
      have hrem : ∀ cs (g : G), (g.remove cs).selected = g.selected := fun cs g => (remove_spec cs g).1
      simp only [G.step]
      unfold G.go
      split <;> (try split) <;> simp [hrem]

/-- **C113.** However drawing, zooming, resizing and the creation of players interleave: when the graph's tasks are done, exactly the channels drawn last have a player, one each; every other player ever created has
been disposed of once; and if the graph has been disposed of, every player has, once. -/
theorem C113_players (ops : List GOp) (hp : ProperUse ops) (hc : AllCreated ops) (hq : (G.new.run ops).tasks = []) :
    (G.new.run ops).created.Nodup ∧
    (GOp.dispose ∉ ops → (G.new.run ops).keys.Nodup ∧ (∀ c, c ∈ (G.new.run ops).keys ↔ c ∈ lastDrawn ops) ∧ (G.new.run ops).created.Perm ((G.new.run ops).players.map (·.2) ++ (G.new.run ops).disposals)) ∧
    (GOp.dispose ∈ ops → (G.new.run ops).created.Perm (G.new.run ops).disposals) := by
  have hdis := run_disposed ops G.new
  have hsel := run_selected ops G.new rfl
  rcases graphInv_run ops G.new (.inl graphInv_new) (by intro h; cases h) hp hc with h | h
  · refine ⟨?_, fun hn => ?_, fun hd => ?_⟩
    · rw [h.created]; exact List.nodup_range
    · refine ⟨h.keys, ?_, ?_⟩
      · have := h.good
        rw [hq] at this
        intro c
        rw [show lastDrawn ops = (G.new.run ops).selected from (hsel hn).symm]
        exact this c
      · have := h.perm
        rw [hq] at this
        exact this
    · have hd' := hdis.mpr (.inr hd)
      have := h.disposing
      rw [if_pos hd', hq] at this
      obtain ⟨pre, e, _⟩ := this
      simp at e
  · refine ⟨by rw [h.created]; exact List.nodup_range, fun hn => ?_, fun _ => h.perm⟩
    have := hdis.mp h.disposed
    rcases this with h | h
    · cases h
    · exact absurd h hn

theorem graph_run_append (g : G) (a b : List GOp) : g.run (a ++ b) = (g.run a).run b := by
  unfold G.run; exact List.foldl_append

/-- **C113.** If the creations succeed, the tasks come to an end. -/
theorem C113_settles (g : G) : ∃ n, (g.run (List.replicate n (.go true))).tasks = [] := by
  have glue : ∀ (a b : Nat) (g : G), g.run (List.replicate (a + b) (.go true)) = (g.run (List.replicate a (.go true))).run (List.replicate b (.go true)) := by
    intro a b g; rw [List.replicate_add, graph_run_append]
  -- the front task ends
  have rec2 : ∀ (todo : List Nat) (made : List (Nat × Nat)) (ts : List Task) (g : G), g.tasks = .recreating todo made :: ts → ∃ n, (g.run (List.replicate n (.go true))).tasks = ts := by
    intro todo
    induction todo with
    | nil => intro made ts g hg; exact ⟨1, by show (g.go true).tasks = ts; unfold G.go; rw [hg]⟩
    | cons c cs ih =>
      intro made ts g hg
      obtain ⟨n, hn⟩ := ih (mapSet made c g.fresh) ts (g.go true) (by unfold G.go; rw [hg]; rfl)
      exact ⟨1 + n, by rw [glue]; exact hn⟩
  have upd : ∀ (a r : List Nat) (ts : List Task) (g : G), g.tasks = .update a r :: ts → ∃ n, (g.run (List.replicate n (.go true))).tasks = ts := by
    intro a
    induction a with
    | nil => intro r ts g hg; exact ⟨1, by show (g.go true).tasks = ts; unfold G.go; rw [hg]⟩
    | cons c cs ih =>
      intro r ts g hg
      obtain ⟨n, hn⟩ := ih r ts (g.go true) (by unfold G.go; rw [hg]; rfl)
      exact ⟨1 + n, by rw [glue]; exact hn⟩
  have front : ∀ (t : Task) (ts : List Task) (g : G), g.tasks = t :: ts → ∃ n, (g.run (List.replicate n (.go true))).tasks = ts := by
    intro t ts g hg
    cases t with
    | update a r => exact upd a r ts g hg
    | recreating todo made => exact rec2 todo made ts g hg
    | recreate =>
      obtain ⟨n, hn⟩ := rec2 g.keys [] ts (g.go true) (by unfold G.go; rw [hg])
      exact ⟨1 + n, by rw [glue]; exact hn⟩
    | disposeAll => exact ⟨1, by show (g.go true).tasks = ts; unfold G.go; rw [hg]⟩
  have all : ∀ (ts : List Task) (g : G), g.tasks = ts → ∃ n, (g.run (List.replicate n (.go true))).tasks = [] := by
    intro ts
    induction ts with
    | nil => intro g hg; exact ⟨0, hg⟩
    | cons t ts ih =>
      intro g hg
      obtain ⟨n, hn⟩ := front t ts g hg
      obtain ⟨m, hm⟩ := ih _ hn
      exact ⟨n + m, by rw [glue]; exact hm⟩
  exact all g.tasks g rfl

/-- a channel that is selected, has no player, and will not get one -/
def Lost (c : Nat) (g : G) : Prop :=
  c ∈ g.selected ∧ c ∉ g.keys ∧ ∀ t ∈ g.tasks, match t with | .update a _ => c ∉ a | .recreating todo made => c ∉ todo ∧ c ∉ made.map (·.1) | _ => True

theorem mapSet_keys (m : List (Nat × Nat)) (c p d : Nat) : d ∈ (mapSet m c p).map (·.1) → d = c ∨ d ∈ m.map (·.1) := by
  unfold mapSet
  split
  · intro h
    obtain ⟨x, hx, rfl⟩ := List.mem_map.mp h
    obtain ⟨y, hy, rfl⟩ := List.mem_map.mp hx
    split
    · exact .inl rfl
    · exact .inr (List.mem_map.mpr ⟨y, hy, rfl⟩)
  · intro h
    rw [List.map_append] at h
    rcases List.mem_append.mp h with h | h
    · exact .inr h
    · simp at h; exact .inl h

theorem lost_step {c : Nat} {g : G} (h : Lost c g) (o : GOp) (ho : ∀ sel, o = .draw sel → c ∈ sel) : Lost c (g.step o) := by
  obtain ⟨h1, h2, h3⟩ := h
  have add : ∀ (t : Task) (sel : List Nat) (dis : Bool), c ∈ sel → (match t with | .update a _ => c ∉ a | .recreating todo made => c ∉ todo ∧ c ∉ made.map (·.1) | _ => True) →
      Lost c { g with selected := sel, disposed := dis, tasks := g.tasks ++ [t] } := by
    intro t sel dis hs ht
    refine ⟨hs, h2, fun u hu => ?_⟩
    rcases List.mem_append.mp hu with hu | hu
    · exact h3 u hu
    · rw [List.mem_singleton.mp hu]; exact ht
  cases o with
  | draw sel =>
    have hs := ho sel rfl
    unfold G.step
    simp only
    split
    · exact ⟨h1, h2, h3⟩
    · split
      · refine add (.update (diff g.selected sel).2 (diff g.selected sel).1) sel g.disposed hs ?_
        intro hc
        exact ((diff_mem _ _ c).2.mp hc).2 h1
      · exact ⟨hs, h2, h3⟩
  | setMsPerPixel => exact add .recreate g.selected g.disposed h1 trivial
  | resize =>
    unfold G.step
    simp only
    split
    · exact ⟨h1, h2, h3⟩
    · exact add .recreate g.selected g.disposed h1 trivial
  | dispose =>
    unfold G.step
    simp only
    split
    · exact ⟨h1, h2, h3⟩
    · exact add .disposeAll g.selected true h1 trivial
  | go ok =>
    show Lost c (g.go ok)
    obtain ⟨sel, pl, tasks, dis, cr, dp⟩ := g
    simp only [G.keys] at h1 h2 h3
    cases tasks with
    | nil => exact ⟨h1, h2, h3⟩
    | cons t ts =>
      have ht := h3 t (by simp)
      have hts : ∀ u ∈ ts, match u with | .update a _ => c ∉ a | .recreating todo made => c ∉ todo ∧ c ∉ made.map (·.1) | _ => True := fun u hu => h3 u (by simp [hu])
      cases t with
      | update a r =>
        simp only at ht
        cases a with
        | cons d cs =>
          unfold G.go
          simp only
          split
          · refine ⟨h1, ?_, ?_⟩
            · intro hm
              rcases mapSet_keys _ _ _ _ hm with e | hm
              · subst e; simp at ht
              · exact h2 hm
            · intro u hu
              rcases List.mem_cons.mp hu with rfl | hu
              · exact fun hm => ht (by simp [hm])
              · exact hts u hu
          · exact ⟨h1, h2, hts⟩
        | nil =>
          unfold G.go
          simp only
          obtain ⟨r1, r2, r3, r4, r5⟩ := remove_spec r ⟨sel, pl, .update [] r :: ts, dis, cr, dp⟩
          refine ⟨by show c ∈ (G.remove _ r).selected; rw [r1]; exact h1, ?_, hts⟩
          intro hm
          have hm' : c ∈ (G.players (G.remove ⟨sel, pl, .update [] r :: ts, dis, cr, dp⟩ r)).map (·.1) := hm
          rw [r4] at hm'
          obtain ⟨x, hx, rfl⟩ := List.mem_map.mp hm'
          exact h2 (List.mem_map.mpr ⟨x, (List.mem_filter.mp hx).1, rfl⟩)
      | recreate =>
        refine ⟨h1, h2, fun u hu => ?_⟩
        rcases List.mem_cons.mp hu with rfl | hu
        · exact ⟨h2, by simp⟩
        · exact hts u hu
      | recreating todo made =>
        obtain ⟨t1, t2⟩ := ht
        cases todo with
        | cons d cs =>
          unfold G.go
          simp only
          split
          · refine ⟨h1, h2, fun u hu => ?_⟩
            rcases List.mem_cons.mp hu with rfl | hu
            · refine ⟨fun hm => t1 (by simp [hm]), fun hm => ?_⟩
              rcases mapSet_keys _ _ _ _ hm with e | hm
              · subst e; simp at t1
              · exact t2 hm
            · exact hts u hu
          · exact ⟨h1, h2, hts⟩
        | nil => exact ⟨h1, t2, hts⟩
      | disposeAll => exact ⟨h1, h2, hts⟩

/-- **C113 (finding).** A channel selected while the graph is hidden (width 0) is lost: the player cannot be created (its buffer would have no room), and whatever happens afterwards – the graph gets its size, is
zoomed, other channels are selected – the channel gets no player and is not drawn as long as it stays selected. -/
theorem C113_hidden (c : Nat) (ops : List GOp) (h : ∀ sel, .draw sel ∈ ops → c ∈ sel) (v : View) (hv : v.width = 0) :
    Ozys.Player.new (σ := Unit) v.playerOptions.1 (v.playerOptions.2 : Int) = none ∧ c ∉ (G.new.run (.draw [c] :: .go false :: ops)).keys := by
  refine ⟨?_, ?_⟩
  · unfold Ozys.Player.new Ozys.CBuf.new View.playerOptions
    rw [hv]; rfl
  · have key : ∀ (ops : List GOp) (g : G), Lost c g → (∀ sel, .draw sel ∈ ops → c ∈ sel) → Lost c (g.run ops) := by
      intro ops
      induction ops with
      | nil => intro g hg _; exact hg
      | cons o ops ih =>
        intro g hg hd
        exact ih (g.step o) (lost_step hg o (fun sel e => hd sel (by simp [e]))) (fun sel hs => hd sel (by simp [hs]))
    have h0 : Lost c ((G.new.step (.draw [c])).step (.go false)) := by
      refine ⟨?_, ?_, ?_⟩
      · show c ∈ [c]; simp
      · show c ∉ []; simp
      · intro t ht
        have : ((G.new.step (.draw [c])).step (.go false)).tasks = [] := rfl
        rw [this] at ht; cases ht
    exact (key ops _ h0 h).2.1

/-- C113 (finding): a change of zoom after `dispose` – which `setMsPerPixel`, unlike `resize` and `draw`, does not refuse – leaves a player that is never disposed of, and disposes of another one twice -/
theorem C113_zoom_after_dispose : (G.new.run [.draw [7], .go true, .go true, .dispose, .go true, .setMsPerPixel, .go true, .go true, .go true]) = ⟨[7], [(7, 1)], [], true, [0, 1], [0, 0]⟩ := rfl

/-- two channels are selected, one is deselected while its player is being made, the graph is resized in between: the hypotheses of `C113_players` are met -/
example : ProperUse [.draw [1, 2], .go true, .draw [2], .resize, .go true, .go true, .go true, .go true, .go true, .go true] ∧
    AllCreated [.draw [1, 2], .go true, .draw [2], .resize, .go true, .go true, .go true, .go true, .go true, .go true] ∧
    (G.new.run [.draw [1, 2], .go true, .draw [2], .resize, .go true, .go true, .go true, .go true, .go true, .go true]) = ⟨[2], [(2, 2)], [], false, [0, 1, 2], [0, 1]⟩ := by
  refine ⟨⟨?_, ?_⟩, ?_, rfl⟩
  · intro sel h; simp at h; rcases h with rfl | rfl <;> decide
  · intro pre post e hm
    have : GOp.dispose ∈ ([.draw [1, 2], .go true, .draw [2], .resize, .go true, .go true, .go true, .go true, .go true, .go true] : List GOp) := by rw [e]; simp
    simp at this
  · unfold AllCreated; simp

/-- a canvas: the lines of the path, its end, and the lines that have been drawn -/
structure Canvas where
  path : List ((Rat × Rat) × (Rat × Rat))
  pen : Option (Rat × Rat)
  drawn : List ((Rat × Rat) × (Rat × Rat))

/-- what a command does to a canvas (HTML specification) -/
def Canvas.do (k : Canvas) : Cmd → Canvas
  | .beginPath => { k with path := [], pen := none }
  | .moveTo x y => { k with pen := some (x, y) }
  | .lineTo x y => match k.pen with
    | none => { k with pen := some (x, y) }
    | some p => { k with path := k.path ++ [(p, (x, y))], pen := some (x, y) }
  | .stroke => { k with drawn := k.drawn ++ k.path }

/-- neighbours in a list, with no gap between them -/
def neighbours {α : Type} : List (Option α) → List (α × α)
  | some a :: some b :: l => (a, b) :: neighbours (some b :: l)
  | _ :: l => neighbours l
  | [] => []

/-- the placeOf of a reading on the canvas -/
def placeOf (v : View) (start : Rat) (p : Rat × Rat) : Rat × Rat := ((v.x start p.1 : Rat), v.y p.2)

theorem path_lines (v : View) (start : Rat) : ∀ (l : List (Option (Rat × Rat))) (k : Canvas),
    (((v.path start l true).foldl Canvas.do k).do .stroke).drawn = k.drawn ++ k.path ++ (neighbours l).map (fun s => (placeOf v start s.1, placeOf v start s.2)) ∧
    ∀ a, k.pen = some (placeOf v start a) → (((v.path start l false).foldl Canvas.do k).do .stroke).drawn = k.drawn ++ k.path ++ (neighbours (some a :: l)).map (fun s => (placeOf v start s.1, placeOf v start s.2)) := by
  intro l
  induction l with
  | nil =>
    intro k
    refine ⟨?_, fun a _ => ?_⟩
    · show k.drawn ++ k.path = _; simp [neighbours]
    · show k.drawn ++ k.path = _; simp [neighbours]
  | cons x l ih =>
    intro k
    cases x with
    | none =>
      have h : (((v.path start (none :: l) true).foldl Canvas.do k).do .stroke).drawn = k.drawn ++ k.path ++ (neighbours l).map (fun s => (placeOf v start s.1, placeOf v start s.2)) := by
        have := (ih ⟨[], none, k.drawn ++ k.path⟩).1
        simp only [List.append_nil] at this
        exact this
      refine ⟨?_, fun a _ => ?_⟩
      · rw [h]; simp [neighbours]
      · have e : v.path start (none :: l) false = v.path start (none :: l) true := rfl
        rw [e, h]; simp [neighbours]
    | some p =>
      obtain ⟨t, r⟩ := p
      refine ⟨?_, fun a ha => ?_⟩
      · exact (ih ⟨k.path, some (placeOf v start (t, r)), k.drawn⟩).2 (t, r) rfl
      · have hk : (k.do (.lineTo (v.x start t) (v.y r))) = ⟨k.path ++ [(placeOf v start a, placeOf v start (t, r))], some (placeOf v start (t, r)), k.drawn⟩ := by
          unfold Canvas.do
          simp only [ha]
          rfl
        show ((List.foldl Canvas.do (k.do (.lineTo (v.x start t) (v.y r))) (v.path start l false)).do .stroke).drawn = _
        rw [hk, (ih _).2 (t, r) rfl]
        simp [neighbours]

/-- **C114.** For each channel exactly the lines between neighbouring readings are drawn, each once, in order, and none across a gap. -/
theorem C114_lines (v : View) (start : Rat) (readings : List (Option (Rat × Rat))) (k : Canvas) :
    ((v.draw start readings).foldl Canvas.do k).drawn = k.drawn ++ (neighbours readings).map (fun s => (placeOf v start s.1, placeOf v start s.2)) := by
  unfold View.draw
  rw [List.cons_append, List.foldl_cons, List.foldl_append]
  have := (path_lines v start readings (k.do .beginPath)).1
  have e : (k.do .beginPath).drawn ++ (k.do .beginPath).path = k.drawn := by show k.drawn ++ [] = k.drawn; simp
  rw [e] at this
  exact this

/-- the time between two points of the graph's player (C105: duration / count) -/
def pointPeriod (v : View) : Rat := v.playerOptions.1 / v.playerOptions.2

theorem sampleDuration_eq (v : View) (hw : 0 < v.width) : v.sampleDuration = v.msPerPixel := by
  unfold View.sampleDuration View.windowDuration
  have : (v.width : Rat) ≠ 0 := by exact_mod_cast hw.ne'
  field_simp

/-- **C114.** The points shown lie on the canvas, and no two points of a channel in the same column. -/
theorem C114_columns (v : View) (hw : 0 < v.width) (hm : 0 < v.msPerPixel) (now : Rat) :
    (∀ t, v.start now ≤ t → t ≤ v.stop now → 0 ≤ v.x (v.start now) t ∧ v.x (v.start now) t < v.width) ∧
    ∀ t t', t + pointPeriod v ≤ t' → v.x (v.start now) t < v.x (v.start now) t' := by
  have hs := sampleDuration_eq v hw
  have hwq : (0 : Rat) < v.width := by exact_mod_cast hw
  constructor
  · intro t h1 h2
    unfold View.stop at h2
    unfold View.x jsRound
    rw [hs] at h2 ⊢
    generalize v.start now = s at *
    have e1 : 0 ≤ (t - s) / v.msPerPixel := div_nonneg (by linarith) hm.le
    have e2 : (t - s) / v.msPerPixel ≤ v.width - 1 := by
      rw [div_le_iff₀ hm]
      unfold View.windowDuration at h2
      linarith
    refine ⟨Int.floor_nonneg.mpr (by linarith), ?_⟩
    rw [Int.floor_lt]
    push_cast
    linarith
  · intro t t' h
    unfold View.x jsRound
    rw [hs]
    generalize v.start now = s at *
    have hp : v.msPerPixel ≤ pointPeriod v := by
      unfold pointPeriod View.playerOptions View.windowDuration
      rw [le_div_iff₀ hwq]
      linarith
    have : (t - s) / v.msPerPixel + 1 / 2 + 1 ≤ (t' - s) / v.msPerPixel + 1 / 2 := by
      have : (t - s) / v.msPerPixel + 1 = (t - s + v.msPerPixel) / v.msPerPixel := by field_simp
      have h2 : (t - s + v.msPerPixel) / v.msPerPixel ≤ (t' - s) / v.msPerPixel := by
        rw [div_le_div_iff_of_pos_right hm]; linarith
      linarith
    have h3 := Int.floor_le_floor this
    rw [Int.floor_add_one] at h3
    omega

/-- **C114.** The graph keeps as many points as it has columns (`new CircularBuffer(width)`). That is enough: without gaps, and with no point more than 200 ms in the future, every point that has been
pushed out is older than the first time shown. -/
theorem C114_window (v : View) (hw : 0 < v.width) (hm : 0 < v.msPerPixel) (now : Rat) (times : List Rat) (hsp : ∀ i, i + 1 < times.length → times.getD i 0 + pointPeriod v ≤ times.getD (i + 1) 0)
    (hlast : ∀ t ∈ times, t ≤ now + 200) : ∀ t ∈ times.take (times.length - v.width), t < v.start now := by
  have hs := sampleDuration_eq v hw
  have hwq : (0 : Rat) < v.width := by exact_mod_cast hw
  have steps : ∀ k i, i + k < times.length → times.getD i 0 + k * pointPeriod v ≤ times.getD (i + k) 0 := by
    intro k
    induction k with
    | zero => intro i _; simp
    | succ k ih =>
      intro i hi
      have h1 := ih i (by omega)
      have h2 := hsp (i + k) (by omega)
      push_cast
      rw [show i + (k + 1) = i + k + 1 by omega]
      linarith
  intro t ht
  obtain ⟨i, hi, rfl⟩ := List.mem_iff_getElem.mp ht
  have hi' : i < times.length - v.width := by simp at hi; omega
  have h1 := steps v.width i (by omega)
  have h2 : times.getD (i + v.width) 0 ≤ now + 200 := by
    have hl : i + v.width < times.length := by omega
    rw [List.getD_eq_getElem?_getD, List.getElem?_eq_getElem hl]
    exact hlast _ (List.getElem_mem _)
  have e : (v.width : Rat) * pointPeriod v = v.windowDuration + 400 := by
    unfold pointPeriod View.playerOptions
    field_simp
  have e2 : (times.take (times.length - v.width))[i] = times.getD i 0 := by
    rw [List.getElem_take, List.getD_eq_getElem?_getD, List.getElem?_eq_getElem (by omega)]; rfl
  rw [e2]
  have e3 : now - v.windowDuration - 200 < v.start now := by
    unfold View.start View.align
    rw [hs]
    have hf := Int.lt_floor_add_one ((now - v.windowDuration + v.msPerPixel - 200) / v.msPerPixel)
    rw [div_lt_iff₀ hm] at hf
    linarith
  linarith

/-- a graph 800 pixels wide at 10 ms per pixel; a gap; a point in the window -/
example : neighbours [some 1, some 2, none, some 3, some 4, some 5] = [(1, 2), (3, 4), (4, 5)] := rfl

example : pointPeriod ⟨800, 300, 10⟩ = 21 / 2 ∧ View.start ⟨800, 300, 10⟩ 1000003 = 991810 ∧ View.stop ⟨800, 300, 10⟩ 1000003 = 999800 := by
  have h : View.sampleDuration ⟨800, 300, 10⟩ = 10 := sampleDuration_eq _ (by norm_num)
  have hst : View.start ⟨800, 300, 10⟩ 1000003 = 991810 := by
    unfold View.start View.align
    rw [h]
    have : ⌊((1000003 : Rat) - View.windowDuration ⟨800, 300, 10⟩ + 10 - 200) / 10⌋ = 99181 := by
      unfold View.windowDuration; rw [Int.floor_eq_iff]; norm_num
    rw [this]
    norm_num
  refine ⟨?_, hst, ?_⟩
  · unfold pointPeriod View.playerOptions View.windowDuration; norm_num
  · unfold View.stop; rw [hst, h]; unfold View.windowDuration; norm_num

end Verif.Props
