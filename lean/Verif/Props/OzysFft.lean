import Verif.Spec.OzysFft
import Verif.Props.OzysDatabase
/-
C119: the spectra in the database worker of the OZYS app.
-/
namespace Verif.Props
open Verif Verif.Ozys

variable {α : Type}

theorem cameFfts_append (c : String) (a b : List (FOp α)) : cameFfts c (a ++ b) = cameFfts c a ++ cameFfts c b := by
  induction a with
  | nil => rfl
  | cons o a ih => cases o <;> simp only [List.cons_append, cameFfts] <;> first | exact ih | (split <;> simp [ih])

theorem fftsOf_ready (c : String) (a b : List (FOp α)) (id : Nat) : cameFfts c (a ++ [.ready id] ++ b) = cameFfts c a ++ cameFfts c b := by
  rw [cameFfts_append, cameFfts_append]
  show _ ++ [] ++ _ = _
  rw [List.append_nil]

theorem sinceReload_snoc (ops : List (FOp α)) (o : FOp α) : sinceReload (ops ++ [o]) = match o with | .restart => [] | o => sinceReload ops ++ [o] := by
  unfold sinceReload; rw [List.foldl_append]; rfl

theorem fworker_snoc (w : FWorker α) (ops : List (FOp α)) (o : FOp α) : w.run (ops ++ [o]) = (w.run ops).step o := by
  unfold FWorker.run; rw [List.foldl_append]; rfl

theorem fworker_append (w : FWorker α) (a b : List (FOp α)) : w.run (a ++ b) = (w.run a).run b := by
  unfold FWorker.run; rw [List.foldl_append]

theorem fstep_cache (w : FWorker α) (c : String) (o : FOp α) :
    (w.step o).cache c = match o with | .packet c' d => (if c = c' then (w.cache c').addLast d else w.cache c) | .restart => emptyFCache | _ => w.cache c := by
  cases o with
  | packet c' d => rfl
  | commit => show w.commit.cache c = _; unfold FWorker.commit; split <;> rfl
  | query id c' s dur => rfl
  | ready id => show (w.ready id).cache c = _; unfold FWorker.ready; split <;> rfl
  | dispose id => rfl
  | restart => rfl

theorem fsession_snoc (c : String) (ops : List (FOp α)) (o : FOp α) :
    cameFfts c (sinceReload (ops ++ [o])) = match o with | .packet c' d => (if c = c' then cameFfts c (sinceReload ops) ++ [d] else cameFfts c (sinceReload ops)) | .restart => [] | _ => cameFfts c (sinceReload ops) := by
  rw [sinceReload_snoc]
  cases o with
  | packet c' d =>
    simp only [cameFfts_append, cameFfts]
    by_cases h : c' = c
    · simp [h]
    · simp [h, Ne.symm h]
  | commit => simp [cameFfts_append, cameFfts]
  | query id c' s dur => simp [cameFfts_append, cameFfts]
  | ready id => simp [cameFfts_append, cameFfts]
  | dispose id => simp [cameFfts_append, cameFfts]
  | restart => rfl

theorem funopened_run (id : Nat) (ops : List (FOp α)) (h : ∀ o ∈ ops, FUnopened id o) :
    ((FWorker.init (α := α)).run ops).players.filter (·.id = id) = [] ∧ ∀ o ∈ ((FWorker.init (α := α)).run ops).opening, o.id ≠ id := by
  induction ops using List.reverseRecOn with
  | nil => exact ⟨rfl, fun o ho => nomatch ho⟩
  | append_singleton ops o ih =>
    obtain ⟨h1, h2⟩ := ih (fun o ho => h o (List.mem_append_left _ ho))
    have ho := h o (by simp)
    rw [fworker_snoc]
    generalize (FWorker.init (α := α)).run ops = w at h1 h2
    have h1' : ∀ p ∈ w.players, p.id ≠ id := by
      intro p hp hc
      have : p ∈ w.players.filter (·.id = id) := List.mem_filter.mpr ⟨hp, by simpa using hc⟩
      rw [h1] at this; cases this
    suffices hs : (∀ p ∈ (w.step o).players, p.id ≠ id) ∧ ∀ p ∈ (w.step o).opening, p.id ≠ id by
      refine ⟨?_, hs.2⟩
      rw [List.filter_eq_nil_iff]
      intro p hp; have := hs.1 p hp; simpa using this
    cases o with
    | packet c d =>
      refine ⟨?_, h2⟩
      intro p hp
      obtain ⟨q, hq, rfl⟩ := List.mem_map.mp hp
      have := h1' q hq
      split <;> exact this
    | commit =>
      have e1 : w.commit.players = w.players := by unfold FWorker.commit; split <;> rfl
      have e2 : w.commit.opening = w.opening := by unfold FWorker.commit; split <;> rfl
      show (∀ p ∈ w.commit.players, _) ∧ ∀ p ∈ w.commit.opening, _
      rw [e1, e2]; exact ⟨h1', h2⟩
    | query i c s dur =>
      refine ⟨h1', ?_⟩
      intro p hp
      rcases List.mem_append.mp hp with hp | hp
      · exact h2 p hp
      · obtain rfl := List.mem_singleton.mp hp; exact ho
    | ready i =>
      show (∀ p ∈ (w.ready i).players, _) ∧ ∀ p ∈ (w.ready i).opening, _
      unfold FWorker.ready
      split
      · exact ⟨h1', h2⟩
      · rename_i o' hf
        have hm := List.mem_of_find?_eq_some hf
        have hi : o'.id = i := by simpa using List.find?_some hf
        refine ⟨?_, fun p hp => h2 p (List.mem_filter.mp hp).1⟩
        intro p hp
        rcases List.mem_append.mp hp with hp | hp
        · exact h1' p hp
        · obtain rfl := List.mem_singleton.mp hp
          show i ≠ id
          rw [← hi]; exact h2 o' hm
    | dispose i => exact ⟨fun p hp => h1' p (List.mem_filter.mp hp).1, h2⟩
    | restart => exact ⟨fun p hp => absurd hp List.not_mem_nil, fun p hp => absurd hp List.not_mem_nil⟩

/-- while nothing concerns the player, it waits or is given the packets of its channel -/
theorem fquiet_step (w : FWorker α) (id : Nat) (o : FOp α) (ho : FQuiet id o) :
    (w.step o).opening.find? (·.id = id) = w.opening.find? (·.id = id) ∧
    (w.step o).players.filter (·.id = id) = (w.players.filter (·.id = id)).map fun p => { p with packets := p.packets ++ cameFfts p.channel [o] } := by
  have hid : ∀ l : List (FFed α), (l.map fun p => ({ p with packets := p.packets ++ [] } : FFed α)) = l := by
    intro l; induction l with
    | nil => rfl
    | cons p l ih => simp
  cases o with
  | packet c d =>
    refine ⟨rfl, ?_⟩
    show (w.players.map fun p => if p.channel = c then { p with packets := p.packets ++ [d] } else p).filter (·.id = id) = _
    generalize w.players = l
    induction l with
    | nil => rfl
    | cons p l ih =>
      have e : (if p.channel = c then { p with packets := p.packets ++ [d] } else p) = { p with packets := p.packets ++ cameFfts p.channel [.packet c d] } := by
        by_cases hc : p.channel = c
        · simp [cameFfts, hc]
        · simp [cameFfts, hc, Ne.symm hc]
      rw [List.map_cons, e]
      by_cases hp : p.id = id
      · rw [List.filter_cons_of_pos (by simpa using hp), List.filter_cons_of_pos (by simpa using hp), List.map_cons, ih]
      · rw [List.filter_cons_of_neg (by simpa using hp), List.filter_cons_of_neg (by simpa using hp), ih]
  | commit =>
    have e1 : w.commit.players = w.players := by unfold FWorker.commit; split <;> rfl
    have e2 : w.commit.opening = w.opening := by unfold FWorker.commit; split <;> rfl
    refine ⟨by show w.commit.opening.find? _ = _; rw [e2], ?_⟩
    show w.commit.players.filter _ = _
    rw [e1]; exact (hid _).symm
  | query i c s dur =>
    refine ⟨?_, (hid _).symm⟩
    show (w.opening ++ [(⟨i, c, w.query c s dur⟩ : FOpening α)]).find? _ = _
    have ho : i ≠ id := ho
    rw [List.find?_append]
    cases w.opening.find? (·.id = id) <;> simp [ho]
  | ready i =>
    have ho : i ≠ id := ho
    show (w.ready i).opening.find? _ = _ ∧ (w.ready i).players.filter _ = _
    unfold FWorker.ready
    split
    · exact ⟨rfl, (hid _).symm⟩
    · constructor
      · show (w.opening.filter (·.id ≠ i)).find? _ = _
        rw [List.find?_filter]
        congr 1
        funext o
        by_cases h : o.id = id
        · simp [h, Ne.symm ho]
        · simp [h]
      · show (w.players ++ [_]).filter _ = _
        rw [List.filter_append, List.filter_cons_of_neg (by simpa using ho)]
        rw [List.filter_nil, List.append_nil]; exact (hid _).symm
  | dispose i =>
    have ho : i ≠ id := ho
    refine ⟨rfl, ?_⟩
    show (w.players.filter (·.id ≠ i)).filter _ = _
    rw [List.filter_filter]
    refine Eq.trans ?_ (hid _).symm
    congr 1
    funext p
    by_cases h : p.id = id
    · simp [h, Ne.symm ho]
    · simp [h]
  | restart => exact absurd ho (by simp [FQuiet])

theorem fquiet_run (id : Nat) (ops : List (FOp α)) : ∀ (w : FWorker α), (∀ o ∈ ops, FQuiet id o) →
    (w.run ops).opening.find? (·.id = id) = w.opening.find? (·.id = id) ∧
    (w.run ops).players.filter (·.id = id) = (w.players.filter (·.id = id)).map fun p => { p with packets := p.packets ++ cameFfts p.channel ops } := by
  induction ops with
  | nil =>
    intro w _
    refine ⟨rfl, ?_⟩
    show w.players.filter _ = _
    generalize w.players.filter (·.id = id) = l
    induction l with
    | nil => rfl
    | cons p l ih => simp [cameFfts]
  | cons o ops ih =>
    intro w h
    obtain ⟨a1, a2⟩ := fquiet_step w id o (h o (by simp))
    obtain ⟨b1, b2⟩ := ih (w.step o) (fun o ho => h o (List.mem_cons_of_mem _ ho))
    refine ⟨b1.trans a1, ?_⟩
    show ((w.step o).run ops).players.filter _ = _
    rw [b2, a2, List.map_map]
    congr 1
    funext p
    show ({ p with packets := (p.packets ++ cameFfts p.channel [o]) ++ cameFfts p.channel ops } : FFed α) = _
    rw [List.append_assoc, ← cameFfts_append]; rfl

theorem emptyFCache_holds : Holds (emptyFCache : CBuf (FPacket α)) [] := cb_holds_new 5 (by omega)

/-- the cache has the last five spectra since the page was loaded -/
theorem fcache_inv (c : String) (ops : List (FOp α)) :
    Holds (((FWorker.init (α := α)).run ops).cache c) (lastOf 5 (cameFfts c (sinceReload ops))) ∧ (((FWorker.init (α := α)).run ops).cache c).capacity = 5 := by
  induction ops using List.reverseRecOn with
  | nil => exact ⟨emptyFCache_holds, rfl⟩
  | append_singleton ops o ih =>
    rw [fworker_snoc, fsession_snoc, fstep_cache]
    generalize (FWorker.init (α := α)).run ops = w at ih
    obtain ⟨h1, h2⟩ := ih
    cases o with
    | packet c' d =>
      by_cases hc : c = c'
      · subst hc
        simp only [if_true]
        obtain ⟨k1, k2⟩ := cb_addLast h1 d
        rw [h2] at k1 k2
        refine ⟨?_, k2⟩
        unfold lastOf at k1 ⊢
        rw [dq_addLast_suffix 5 (by omega)] at k1
        exact k1
      · simp only [if_neg hc]
        exact ⟨h1, h2⟩
    | restart => exact ⟨emptyFCache_holds, rfl⟩
    | _ => exact ⟨h1, h2⟩

/-! the database -/

/-- what is on its way to the database -/
def fpendingOf (c : String) (w : FWorker α) : List (FPacket α) := w.pending.filterMap fun x => if x.1 = c then some x.2 else none

theorem mem_fpendingOf {c : String} {w : FWorker α} {d : FPacket α} : d ∈ fpendingOf c w ↔ (c, d) ∈ w.pending := by
  unfold fpendingOf
  rw [List.mem_filterMap]
  constructor
  · rintro ⟨⟨c', r'⟩, hx, hx'⟩
    split at hx'
    · rename_i hc
      obtain rfl := Option.some.inj hx'
      have hc : c' = c := hc
      subst hc
      exact hx
    · cases hx'
  · intro h
    exact ⟨_, h, by simp⟩

theorem mem_addFft {l : List (FPacket α)} {r x : FPacket α} : x ∈ addFft l r → x = r ∨ x ∈ l := by
  unfold addFft
  split
  · exact .inr
  · intro h
    rw [← List.takeWhile_append_dropWhile (p := fun y : FPacket α => decide (y.timestamp < r.timestamp)) (l := l), List.mem_append]
    rcases List.mem_append.mp h with h | h
    · exact .inr (.inl h)
    · rcases List.mem_cons.mp h with h | h
      · exact .inl h
      · exact .inr (.inr h)

theorem addFft_keeps {l : List (FPacket α)} {r x : FPacket α} (h : x ∈ l) : x ∈ addFft l r := by
  unfold addFft
  split
  · exact h
  · rw [← List.takeWhile_append_dropWhile (p := fun y : FPacket α => decide (y.timestamp < r.timestamp)) (l := l), List.mem_append] at h
    rcases h with h | h
    · exact List.mem_append_left _ h
    · exact List.mem_append_right _ (List.mem_cons_of_mem _ h)

theorem addFft_key (l : List (FPacket α)) (r : FPacket α) : ∃ x ∈ addFft l r, x.timestamp = r.timestamp := by
  unfold addFft
  split
  · rename_i h
    obtain ⟨x, hx, e⟩ := List.any_eq_true.mp h
    exact ⟨x, hx, by simpa using e⟩
  · exact ⟨r, List.mem_append_right _ (List.mem_cons_self ..), rfl⟩

theorem addFft_sorted {l : List (FPacket α)} (r : FPacket α) (h : l.Pairwise fun a b => a.timestamp < b.timestamp) : (addFft l r).Pairwise fun a b => a.timestamp < b.timestamp := by
  unfold addFft
  split
  · exact h
  · rename_i hn
    have hne : ∀ x ∈ l, x.timestamp ≠ r.timestamp := by
      intro x hx e
      exact hn (List.any_eq_true.mpr ⟨x, hx, by simpa using e⟩)
    induction l with
    | nil => simp
    | cons a l ih =>
      obtain ⟨ha, hl⟩ := List.pairwise_cons.mp h
      have hl' := ih hl (by intro hc; exact hn (by simp at hc ⊢; exact .inr hc)) (fun x hx => hne x (List.mem_cons_of_mem _ hx))
      by_cases hlt : a.timestamp < r.timestamp
      · rw [List.takeWhile_cons_of_pos (by simpa using hlt), List.dropWhile_cons_of_pos (by simpa using hlt), List.cons_append]
        refine List.pairwise_cons.mpr ⟨fun x hx => ?_, hl'⟩
        rcases List.mem_append.mp hx with hx | hx
        · exact ha x ((List.takeWhile_prefix _).subset hx)
        · rcases List.mem_cons.mp hx with rfl | hx
          · exact hlt
          · exact ha x ((List.dropWhile_suffix _).subset hx)
      · rw [List.takeWhile_cons_of_neg (by simpa using hlt), List.dropWhile_cons_of_neg (by simpa using hlt), List.nil_append]
        have := hne a (List.mem_cons_self ..)
        refine List.pairwise_cons.mpr ⟨fun x hx => ?_, h⟩
        rcases List.mem_cons.mp hx with rfl | hx
        · omega
        · have := ha x hx; omega

theorem addFft_last {l : List (FPacket α)} {r : FPacket α} (h : ∀ x ∈ l, x.timestamp < r.timestamp) : addFft l r = l ++ [r] := by
  unfold addFft
  rw [if_neg]
  · have e1 : l.takeWhile (fun x => decide (x.timestamp < r.timestamp)) = l := List.takeWhile_eq_self_iff.mpr (fun x hx => by simpa using h x hx)
    have e2 : l.dropWhile (fun x => decide (x.timestamp < r.timestamp)) = [] := List.dropWhile_eq_nil_iff.mpr (fun x hx => by simpa using h x hx)
    rw [e1, e2]
  · intro hc
    obtain ⟨x, hx, e⟩ := List.any_eq_true.mp hc
    have := h x hx
    have e : x.timestamp = r.timestamp := by simpa using e
    omega

/-- rows and pending adds after a step -/
theorem fstep_db (w : FWorker α) (c : String) (o : FOp α) :
    ((w.step o).rows c, fpendingOf c (w.step o)) = match o with
      | .packet c' d => (w.rows c, if c' = c then fpendingOf c w ++ [d] else fpendingOf c w)
      | .restart => (w.rows c, [])
      | .commit => (match w.pending with
        | [] => (w.rows c, fpendingOf c w)
        | (c', r) :: _ => if c' = c then (addFft (w.rows c) r, (fpendingOf c w).tail) else (w.rows c, fpendingOf c w))
      | _ => (w.rows c, fpendingOf c w) := by
  cases o with
  | packet c' d =>
    show (w.rows c, (w.pending ++ [(c', d)]).filterMap _) = _
    rw [List.filterMap_append]
    by_cases h : c' = c
    · simp [h, fpendingOf]
    · simp [h, fpendingOf]
  | commit =>
    show (w.commit.rows c, fpendingOf c w.commit) = _
    unfold FWorker.commit
    cases hp : w.pending with
    | nil => rfl
    | cons x rest =>
      obtain ⟨c', r⟩ := x
      dsimp only
      by_cases h : c' = c
      · subst h
        simp [fpendingOf, hp, setChannel]
      · simp [fpendingOf, hp, setChannel, h, Ne.symm h]
  | query i c' s dur => rfl
  | ready i =>
    show ((w.ready i).rows c, fpendingOf c (w.ready i)) = _
    unfold FWorker.ready; split <;> rfl
  | dispose i => rfl
  | restart => rfl

/-- the head of the pending adds, if it is of this channel, is the head of those of the channel -/
theorem fpending_head {c : String} {w : FWorker α} {r : FPacket α} {rest : List (String × FPacket α)} (h : w.pending = (c, r) :: rest) : fpendingOf c w = r :: (fpendingOf c w).tail := by
  unfold fpendingOf
  rw [h]; simp

/-- C119: the rows are in the order of time, one per time, and each is a spectrum that came; every spectrum that came since the page was loaded is in the database, or on its way, unless one of the same time is -/
theorem C119_rows (c : String) (ops : List (FOp α)) :
    (((FWorker.init (α := α)).run ops).rows c).Pairwise (fun a b => a.timestamp < b.timestamp) ∧
    (∀ r ∈ ((FWorker.init (α := α)).run ops).rows c, r ∈ cameFfts c ops) ∧
    (∀ d ∈ cameFfts c (sinceReload ops), (c, d) ∈ ((FWorker.init (α := α)).run ops).pending ∨ ∃ r ∈ ((FWorker.init (α := α)).run ops).rows c, r.timestamp = d.timestamp) ∧
    ∀ d, (c, d) ∈ ((FWorker.init (α := α)).run ops).pending → d ∈ cameFfts c (sinceReload ops) := by
  suffices H : (((FWorker.init (α := α)).run ops).rows c).Pairwise (fun a b => a.timestamp < b.timestamp) ∧
      (∀ r ∈ ((FWorker.init (α := α)).run ops).rows c, r ∈ cameFfts c ops) ∧
      (∀ d ∈ cameFfts c (sinceReload ops), d ∈ fpendingOf c ((FWorker.init (α := α)).run ops) ∨ ∃ r ∈ ((FWorker.init (α := α)).run ops).rows c, r.timestamp = d.timestamp) ∧
      (∀ d ∈ fpendingOf c ((FWorker.init (α := α)).run ops), d ∈ cameFfts c (sinceReload ops)) ∧
      ∀ d ∈ cameFfts c (sinceReload ops), d ∈ cameFfts c ops by
    simp only [mem_fpendingOf] at H
    exact ⟨H.1, H.2.1, H.2.2.1, H.2.2.2.1⟩
  induction ops using List.reverseRecOn with
  | nil => exact ⟨List.Pairwise.nil, (fun r hr => nomatch hr), (fun d hd => nomatch hd), (fun d hd => nomatch hd), (fun d hd => nomatch hd)⟩
  | append_singleton ops o ih =>
    rw [fworker_snoc, fsession_snoc, cameFfts_append]
    have hdb := fstep_db ((FWorker.init (α := α)).run ops) c o
    generalize (FWorker.init (α := α)).run ops = w at ih hdb ⊢
    obtain ⟨h1, h2, h3, h4, h5⟩ := ih
    cases o with
    | packet c' d =>
      obtain ⟨e1, e2⟩ := Prod.mk.inj hdb
      rw [e1, e2]
      by_cases hc : c' = c
      · subst hc
        simp only [if_true, cameFfts]
        refine ⟨h1, fun r hr => List.mem_append_left _ (h2 r hr), ?_, ?_, ?_⟩
        · intro x hx
          rcases List.mem_append.mp hx with hx | hx
          · exact (h3 x hx).imp (List.mem_append_left _) id
          · exact .inl (List.mem_append_right _ hx)
        · intro x hx
          rcases List.mem_append.mp hx with hx | hx
          · exact List.mem_append_left _ (h4 x hx)
          · exact List.mem_append_right _ hx
        · intro x hx
          rcases List.mem_append.mp hx with hx | hx
          · exact List.mem_append_left _ (h5 x hx)
          · exact List.mem_append_right _ hx
      · simp only [if_neg hc, if_neg (Ne.symm hc), cameFfts, List.append_nil]
        exact ⟨h1, h2, h3, h4, h5⟩
    | commit =>
      simp only [cameFfts, List.append_nil]
      cases hp : w.pending with
      | nil =>
        simp only [hp] at hdb
        obtain ⟨e1, e2⟩ := Prod.mk.inj hdb
        rw [e1, e2]; exact ⟨h1, h2, h3, h4, h5⟩
      | cons x rest =>
        obtain ⟨c', r⟩ := x
        simp only [hp] at hdb
        by_cases hc : c' = c
        · subst hc
          rw [if_pos rfl] at hdb
          obtain ⟨e1, e2⟩ := Prod.mk.inj hdb
          rw [e1, e2]
          have hh := fpending_head hp
          generalize (fpendingOf c' w).tail = t at hh ⊢
          rw [hh] at h3 h4
          refine ⟨addFft_sorted r h1, ?_, ?_, fun d hd => h4 d (List.mem_cons_of_mem _ hd), h5⟩
          · intro y hy
            rcases mem_addFft hy with rfl | hy
            · exact h5 _ (h4 _ (List.mem_cons_self ..))
            · exact h2 y hy
          · intro d hd
            rcases h3 d hd with hd | ⟨y, hy, e⟩
            · rcases List.mem_cons.mp hd with rfl | hd
              · exact .inr (addFft_key _ _)
              · exact .inl hd
            · exact .inr ⟨y, addFft_keeps hy, e⟩
        · rw [if_neg hc] at hdb
          obtain ⟨e1, e2⟩ := Prod.mk.inj hdb
          rw [e1, e2]; exact ⟨h1, h2, h3, h4, h5⟩
    | query i c' s dur =>
      simp only [cameFfts, List.append_nil]
      exact ⟨h1, h2, h3, h4, h5⟩
    | ready i =>
      simp only [cameFfts, List.append_nil]
      obtain ⟨e1, e2⟩ := Prod.mk.inj hdb
      rw [e1, e2]; exact ⟨h1, h2, h3, h4, h5⟩
    | dispose i =>
      simp only [cameFfts, List.append_nil]
      exact ⟨h1, h2, h3, h4, h5⟩
    | restart =>
      simp only [cameFfts, List.append_nil]
      exact ⟨h1, h2, (fun d hd => nomatch hd), (fun d hd => nomatch hd), (fun d hd => nomatch hd)⟩

/-- C119: what is in the database stays there, also when the page is loaded again -/
theorem C119_kept (c : String) (w : FWorker α) (ops : List (FOp α)) (r : FPacket α) (hr : r ∈ w.rows c) : r ∈ (w.run ops).rows c := by
  induction ops generalizing w with
  | nil => exact hr
  | cons o ops ih =>
    refine ih (w.step o) ?_
    have hdb := congrArg Prod.fst (fstep_db w c o)
    have hdb : (w.step o).rows c = _ := hdb
    rw [hdb]
    cases o with
    | commit =>
      dsimp only
      split
      · exact hr
      · split
        · exact addFft_keeps hr
        · exact hr
    | _ => exact hr

/-! players -/

theorem filterMap_some_fft (l : List (FPacket α)) : (l.map some).filterMap (fun x => x) = l := by
  induction l with
  | nil => rfl
  | cons a l ih => simp

/-- C119: what a player gets: the rows of its range when it asked, the cached spectra after them, then everything that comes -/
theorem C119_feed (c : String) (id : Nat) (start duration : Int) (ops1 ops2 ops3 : List (FOp α)) (h1 : ∀ o ∈ ops1, FUnopened id o) (h2 : ∀ o ∈ ops2, FQuiet id o) (h3 : ∀ o ∈ ops3, FQuiet id o) :
    ((FWorker.init (α := α)).run (ops1 ++ [.query id c start duration] ++ ops2 ++ [.ready id] ++ ops3)).players.filter (·.id = id) =
      [⟨id, c, fillFftPlayer ((((FWorker.init (α := α)).run ops1).rows c).filter fun r => start - 100 ≤ r.timestamp ∧ r.timestamp < start + duration)
        (lastOf 5 (cameFfts c (sinceReload (ops1 ++ [.query id c start duration] ++ ops2)))) ++ cameFfts c ops3⟩] := by
  obtain ⟨p1, p2⟩ := funopened_run id ops1 h1
  have hcache := (fcache_inv c (ops1 ++ [.query id c start duration] ++ ops2)).1
  have htoArray : ((((FWorker.init (α := α)).run (ops1 ++ [.query id c start duration] ++ ops2)).cache c).toArray).filterMap (fun x => x) = lastOf 5 (cameFfts c (sinceReload (ops1 ++ [.query id c start duration] ++ ops2))) := by
    show (CBuf.slice _ 0 _).filterMap (fun x => x) = _
    rw [cb_slice hcache _ _ (by rw [hcache.size]) (Nat.zero_le _), hcache.size, List.take_length, List.drop_zero, filterMap_some_fft]
  rw [fworker_append, fworker_append]
  have hw2 : ((FWorker.init (α := α)).run (ops1 ++ [.query id c start duration] ++ ops2)) = (((FWorker.init (α := α)).run ops1).step (.query id c start duration)).run ops2 := by
    rw [fworker_append, fworker_append]; rfl
  generalize (FWorker.init (α := α)).run ops1 = w1 at p1 p2 hw2 ⊢
  obtain ⟨q1, q2⟩ := fquiet_run id ops2 (w1.step (.query id c start duration)) h2
  rw [← hw2] at q1 q2
  generalize (FWorker.init (α := α)).run (ops1 ++ [.query id c start duration] ++ ops2) = w2 at q1 q2 htoArray ⊢
  have hopen : w2.opening.find? (·.id = id) = some ⟨id, c, w1.query c start duration⟩ := by
    rw [q1]
    show (w1.opening ++ [(⟨id, c, w1.query c start duration⟩ : FOpening α)]).find? _ = _
    have hn : w1.opening.find? (·.id = id) = none := by
      rw [List.find?_eq_none]; intro o ho; have := p2 o ho; simpa using this
    rw [List.find?_append, hn]
    simp
  have hpl : w2.players.filter (·.id = id) = [] := by
    rw [q2]
    show (w1.players.filter (·.id = id)).map _ = []
    rw [p1]; rfl
  have hready : (w2.run [.ready id]).players.filter (·.id = id) = [⟨id, c, fillFftPlayer (w1.query c start duration) (lastOf 5 (cameFfts c (sinceReload (ops1 ++ [.query id c start duration] ++ ops2))))⟩] := by
    show (w2.ready id).players.filter _ = _
    unfold FWorker.ready
    simp only [hopen]
    rw [List.filter_append, hpl, htoArray]
    simp
  rw [(fquiet_run id ops3 _ h3).2, hready]
  rfl

/-- with times that only grow, the rows followed by what is on its way are in the order of time, and older than anything yet to come -/
theorem fdb_order (c : String) (ops : List (FOp α)) (h : InTime (cameFfts c ops)) :
    List.Sublist (((FWorker.init (α := α)).run ops).rows c ++ fpendingOf c ((FWorker.init (α := α)).run ops)) (cameFfts c ops) := by
  induction ops using List.reverseRecOn with
  | nil => exact List.Sublist.refl _
  | append_singleton ops o ih =>
    rw [cameFfts_append] at h ⊢
    have ih := ih ⟨h.1.sublist (List.sublist_append_left _ _), fun d hd => h.2 d (List.mem_append_left _ hd)⟩
    have hA := h.1.sublist (List.sublist_append_left _ _)
    rw [fworker_snoc]
    have hdb := fstep_db ((FWorker.init (α := α)).run ops) c o
    generalize (FWorker.init (α := α)).run ops = w at ih hdb ⊢
    cases o with
    | packet c' d =>
      obtain ⟨e1, e2⟩ := Prod.mk.inj hdb
      rw [e1, e2]
      by_cases hc : c' = c
      · subst hc
        simp only [if_true, cameFfts]
        rw [← List.append_assoc]
        exact List.Sublist.append ih (List.Sublist.refl _)
      · simp only [if_neg hc, cameFfts, List.append_nil]
        exact ih
    | commit =>
      simp only [cameFfts, List.append_nil]
      cases hp : w.pending with
      | nil =>
        simp only [hp] at hdb
        obtain ⟨e1, e2⟩ := Prod.mk.inj hdb
        rw [e1, e2]; exact ih
      | cons x rest =>
        obtain ⟨c', r⟩ := x
        simp only [hp] at hdb
        by_cases hc : c' = c
        · subst hc
          rw [if_pos rfl] at hdb
          obtain ⟨e1, e2⟩ := Prod.mk.inj hdb
          rw [e1, e2]
          have hh := fpending_head hp
          generalize (fpendingOf c' w).tail = t at hh ⊢
          rw [hh] at ih
          have hs := hA.sublist ih
          rw [addFft_last, List.append_assoc]
          · exact ih
          · intro x hx
            exact (List.pairwise_append.mp hs).2.2 x hx r (List.mem_cons_self ..)
        · rw [if_neg hc] at hdb
          obtain ⟨e1, e2⟩ := Prod.mk.inj hdb
          rw [e1, e2]; exact ih
    | restart =>
      simp only [cameFfts, List.append_nil]
      obtain ⟨e1, e2⟩ := Prod.mk.inj hdb
      rw [e1, e2, List.append_nil]
      exact (List.sublist_append_left _ _).trans ih
    | ready i =>
      simp only [cameFfts, List.append_nil]
      obtain ⟨e1, e2⟩ := Prod.mk.inj hdb
      rw [e1, e2]; exact ih
    | _ =>
      simp only [cameFfts, List.append_nil]
      exact ih

theorem fsublist_of_subset : ∀ (l2 l1 : List (FPacket α)), (l1.Pairwise fun a b => a.timestamp < b.timestamp) → (l2.Pairwise fun a b => a.timestamp < b.timestamp) → (∀ x ∈ l1, x ∈ l2) → List.Sublist l1 l2 := by
  intro l2
  induction l2 with
  | nil =>
    intro l1 _ _ h
    cases l1 with
    | nil => exact .slnil
    | cons a l => exact absurd (h a (by simp)) (by simp)
  | cons b l2 ih =>
    intro l1 h1 h2 h
    cases l1 with
    | nil => exact List.nil_sublist _
    | cons a l1 =>
      have h1' := List.pairwise_cons.mp h1
      have h2' := List.pairwise_cons.mp h2
      rcases List.mem_cons.mp (h a (by simp)) with rfl | ha
      · refine List.Sublist.cons_cons _ (ih l1 h1'.2 h2'.2 fun x hx => ?_)
        rcases List.mem_cons.mp (h x (List.mem_cons_of_mem _ hx)) with rfl | hx'
        · have := h1'.1 x hx; omega
        · exact hx'
      · refine List.Sublist.cons _ (ih _ h1 h2'.2 fun x hx => ?_)
        rcases List.mem_cons.mp (h x hx) with rfl | hx'
        · rcases List.mem_cons.mp hx with rfl | hx2
          · have := h2'.1 _ ha; omega
          · have := h1'.1 _ hx2; have := h2'.1 _ ha; omega
        · exact hx'

theorem fsorted_last {l : List (FPacket α)} (h : l.Pairwise fun a b => a.timestamp < b.timestamp) {e : FPacket α} (he : l.getLast? = some e) : ∀ x ∈ l, x.timestamp ≤ e.timestamp := by
  intro x hx
  rcases List.eq_nil_or_concat l with rfl | ⟨l', d, rfl⟩
  · cases he
  · rw [List.concat_eq_append] at *
    obtain rfl : d = e := by simpa using he
    rcases List.mem_append.mp hx with h1 | h1
    · have := (List.pairwise_append.mp h).2.2 x h1 d (by simp); omega
    · obtain rfl := List.mem_singleton.mp h1; omega

theorem fsession_sublist (c : String) (ops : List (FOp α)) : ∃ old, cameFfts c ops = old ++ cameFfts c (sinceReload ops) := by
  induction ops using List.reverseRecOn with
  | nil => exact ⟨[], rfl⟩
  | append_singleton ops o ih =>
    obtain ⟨old, e⟩ := ih
    rw [cameFfts_append, fsession_snoc]
    cases o with
    | packet c' d =>
      by_cases h : c = c'
      · subst h; exact ⟨old, by rw [e]; simp [cameFfts]⟩
      · exact ⟨old, by rw [e]; simp [cameFfts, h, Ne.symm h]⟩
    | restart => exact ⟨cameFfts c ops, by simp [cameFfts]⟩
    | commit => exact ⟨old, by rw [e]; simp [cameFfts]⟩
    | query i c' s dur => exact ⟨old, by rw [e]; simp [cameFfts]⟩
    | ready i => exact ⟨old, by rw [e]; simp [cameFfts]⟩
    | dispose i => exact ⟨old, by rw [e]; simp [cameFfts]⟩

/-- the facts about a new player of channel `c` -/
theorem sinceReload_id (ops : List (FOp α)) (h : ∀ o ∈ ops, o ≠ .restart) : sinceReload ops = ops := by
  induction ops using List.reverseRecOn with
  | nil => rfl
  | append_singleton ops o ih =>
    rw [sinceReload_snoc, ih (fun o ho => h o (List.mem_append_left _ ho))]
    have := h o (by simp)
    cases o <;> first | rfl | exact absurd rfl this


theorem ffill_mem (rows cached : List (FPacket α)) (hs : rows.Pairwise fun a b => a.timestamp < b.timestamp) (hp : ∀ d ∈ cached, 0 ≤ d.timestamp) (x : FPacket α) :
    x ∈ fillFftPlayer rows cached ↔ x ∈ rows ∨ (x ∈ cached ∧ ∀ r ∈ rows, r.timestamp < x.timestamp) := by
  unfold fillFftPlayer
  rw [List.mem_append, List.mem_filter]
  refine or_congr_right (and_congr_right fun hx => ?_)
  have h0 := hp x hx
  cases hl : rows.getLast? with
  | none =>
    have : rows = [] := List.getLast?_eq_none_iff.mp hl
    subst this
    simp; omega
  | some e =>
    have hmem : e ∈ rows := List.mem_of_getLast? hl
    have := fsorted_last hs hl
    simp only [Option.map_some, Option.getD_some, decide_eq_true_eq]
    exact ⟨fun h r hr => by have := this r hr; omega, fun h => h e hmem⟩

theorem ffill_sorted (rows cached : List (FPacket α)) (hs : rows.Pairwise fun a b => a.timestamp < b.timestamp) (hc : cached.Pairwise fun a b => a.timestamp < b.timestamp) :
    (fillFftPlayer rows cached).Pairwise fun a b => a.timestamp < b.timestamp := by
  unfold fillFftPlayer
  refine List.pairwise_append.mpr ⟨hs, hc.filter _, fun a ha b hb => ?_⟩
  have hb := (List.mem_filter.mp hb).2
  cases hl : rows.getLast? with
  | none =>
    have : rows = [] := List.getLast?_eq_none_iff.mp hl
    subst this
    cases ha
  | some e =>
    have := fsorted_last hs hl a ha
    rw [hl] at hb
    simp only [Option.map_some, Option.getD_some, decide_eq_true_eq] at hb
    omega

/-- what a new player is filled with: rows of before, and cached spectra, in the order they came -/
theorem ffill_facts (c : String) (q : FOp α) (hq : cameFfts c [q] = []) (start duration : Int) (ops1 ops2 : List (FOp α)) (hA : InTime (cameFfts c (ops1 ++ [q] ++ ops2))) :
    List.Sublist (fillFftPlayer ((((FWorker.init (α := α)).run ops1).rows c).filter fun r => start - 100 ≤ r.timestamp ∧ r.timestamp < start + duration)
        (lastOf 5 (cameFfts c (sinceReload (ops1 ++ [q] ++ ops2))))) (cameFfts c (ops1 ++ [q] ++ ops2)) ∧
    ∀ x, x ∈ fillFftPlayer ((((FWorker.init (α := α)).run ops1).rows c).filter fun r => start - 100 ≤ r.timestamp ∧ r.timestamp < start + duration)
        (lastOf 5 (cameFfts c (sinceReload (ops1 ++ [q] ++ ops2)))) ↔
      (x ∈ ((FWorker.init (α := α)).run ops1).rows c ∧ start - 100 ≤ x.timestamp ∧ x.timestamp < start + duration) ∨
      (x ∈ lastOf 5 (cameFfts c (sinceReload (ops1 ++ [q] ++ ops2))) ∧
        ∀ r ∈ ((FWorker.init (α := α)).run ops1).rows c, start - 100 ≤ r.timestamp ∧ r.timestamp < start + duration → r.timestamp < x.timestamp) := by
  obtain ⟨r1, r2, _, _⟩ := C119_rows c ops1
  obtain ⟨old, ho⟩ := fsession_sublist c (ops1 ++ [q] ++ ops2)
  have hcs : List.Sublist (lastOf 5 (cameFfts c (sinceReload (ops1 ++ [q] ++ ops2)))) (cameFfts c (ops1 ++ [q] ++ ops2)) := by
    rw [ho]; exact (List.drop_sublist _ _).trans (List.sublist_append_right _ _)
  have hm := ffill_mem ((((FWorker.init (α := α)).run ops1).rows c).filter fun r => start - 100 ≤ r.timestamp ∧ r.timestamp < start + duration)
    (lastOf 5 (cameFfts c (sinceReload (ops1 ++ [q] ++ ops2)))) (r1.filter _) (fun d hd => hA.2 d (hcs.subset hd))
  have hiff : ∀ x, x ∈ fillFftPlayer ((((FWorker.init (α := α)).run ops1).rows c).filter fun r => start - 100 ≤ r.timestamp ∧ r.timestamp < start + duration)
        (lastOf 5 (cameFfts c (sinceReload (ops1 ++ [q] ++ ops2)))) ↔
      (x ∈ ((FWorker.init (α := α)).run ops1).rows c ∧ start - 100 ≤ x.timestamp ∧ x.timestamp < start + duration) ∨
      (x ∈ lastOf 5 (cameFfts c (sinceReload (ops1 ++ [q] ++ ops2))) ∧
        ∀ r ∈ ((FWorker.init (α := α)).run ops1).rows c, start - 100 ≤ r.timestamp ∧ r.timestamp < start + duration → r.timestamp < x.timestamp) := by
    intro x
    rw [hm x]
    simp only [List.mem_filter, decide_eq_true_eq, and_imp]
  refine ⟨fsublist_of_subset _ _ (ffill_sorted _ _ (r1.filter _) (hA.1.sublist hcs)) hA.1 fun x hx => ?_, hiff⟩
  rcases (hiff x).mp hx with ⟨hx, _⟩ | ⟨hx, _⟩
  · rw [cameFfts_append, cameFfts_append]
    exact List.mem_append_left _ (List.mem_append_left _ (r2 x hx))
  · exact hcs.subset hx

/-- C119: with times that only grow, a player gets spectra of its channel only, in the order they came, none twice -/
theorem C119_order (c : String) (id : Nat) (start duration : Int) (ops1 ops2 ops3 : List (FOp α)) (h1 : ∀ o ∈ ops1, FUnopened id o) (h2 : ∀ o ∈ ops2, FQuiet id o) (h3 : ∀ o ∈ ops3, FQuiet id o)
    (hA : InTime (cameFfts c (ops1 ++ [.query id c start duration] ++ ops2 ++ [.ready id] ++ ops3))) :
    ∃ l, ((FWorker.init (α := α)).run (ops1 ++ [.query id c start duration] ++ ops2 ++ [.ready id] ++ ops3)).players.filter (·.id = id) = [⟨id, c, l⟩] ∧
      List.Sublist l (cameFfts c (ops1 ++ [.query id c start duration] ++ ops2 ++ [.ready id] ++ ops3)) := by
  refine ⟨_, C119_feed c id start duration ops1 ops2 ops3 h1 h2 h3, ?_⟩
  have e : cameFfts c (ops1 ++ [.query id c start duration] ++ ops2 ++ [.ready id] ++ ops3) = cameFfts c (ops1 ++ [.query id c start duration] ++ ops2) ++ cameFfts c ops3 := fftsOf_ready c _ _ id
  rw [e] at hA ⊢
  exact List.Sublist.append (ffill_facts c _ rfl start duration ops1 ops2 ⟨hA.1.sublist (List.sublist_append_left _ _), fun d hd => hA.2 d (List.mem_append_left _ hd)⟩).1 (List.Sublist.refl _)

/-- with times that only grow and no reload, the channel is the rows followed by what is on its way -/
theorem fdb_exact (c : String) (ops : List (FOp α)) (h : InTime (cameFfts c ops)) (hnr : ∀ o ∈ ops, o ≠ .restart) :
    cameFfts c ops = ((FWorker.init (α := α)).run ops).rows c ++ fpendingOf c ((FWorker.init (α := α)).run ops) := by
  have hs := fdb_order c ops h
  refine List.Sublist.antisymm (fsublist_of_subset _ _ h.1 (h.1.sublist hs) fun d hd => ?_) hs
  obtain ⟨_, r2, r3, _⟩ := C119_rows c ops
  rw [sinceReload_id ops hnr] at r3
  rcases r3 d hd with hp | ⟨r, hr, e⟩
  · exact List.mem_append_right _ (mem_fpendingOf.mpr hp)
  · obtain rfl : r = d := by
      have hr' := r2 r hr
      have := h.1
      obtain ⟨i, hi, rfl⟩ := List.getElem_of_mem hr'
      obtain ⟨j, hj, rfl⟩ := List.getElem_of_mem hd
      rcases Nat.lt_trichotomy i j with hij | hij | hij
      · have := List.pairwise_iff_getElem.mp this i j hi hj hij; omega
      · subst hij; rfl
      · have := List.pairwise_iff_getElem.mp this j i hj hi hij; omega
    exact List.mem_append_left _ hr

/-- C119: with times that only grow, no reload, and a database that is at most five spectra behind when the player is ready, the player gets every spectrum of its range, and every one that
came after it asked -/
theorem C119_all (c : String) (id : Nat) (start duration : Int) (ops1 ops2 ops3 : List (FOp α)) (h1 : ∀ o ∈ ops1, FUnopened id o) (hnr : ∀ o ∈ ops1, o ≠ .restart) (h2 : ∀ o ∈ ops2, FQuiet id o)
    (h3 : ∀ o ∈ ops3, FQuiet id o) (hA : InTime (cameFfts c (ops1 ++ [.query id c start duration] ++ ops2 ++ [.ready id] ++ ops3)))
    (hrecent : (cameFfts c (ops1 ++ ops2)).length ≤ (((FWorker.init (α := α)).run ops1).rows c).length + 5) :
    ∃ l, ((FWorker.init (α := α)).run (ops1 ++ [.query id c start duration] ++ ops2 ++ [.ready id] ++ ops3)).players.filter (·.id = id) = [⟨id, c, l⟩] ∧
      ∀ d ∈ cameFfts c (ops1 ++ [.query id c start duration] ++ ops2 ++ [.ready id] ++ ops3), (d ∈ cameFfts c ops1 → start - 100 ≤ d.timestamp ∧ d.timestamp < start + duration) → d ∈ l := by
  refine ⟨_, C119_feed c id start duration ops1 ops2 ops3 h1 h2 h3, ?_⟩
  have e : cameFfts c (ops1 ++ [.query id c start duration] ++ ops2 ++ [.ready id] ++ ops3) = cameFfts c (ops1 ++ [.query id c start duration] ++ ops2) ++ cameFfts c ops3 := fftsOf_ready c _ _ id
  have e12 : cameFfts c (ops1 ++ [.query id c start duration] ++ ops2) = cameFfts c ops1 ++ cameFfts c ops2 := by
    rw [cameFfts_append, cameFfts_append]
    show _ ++ [] ++ _ = _
    rw [List.append_nil]
  rw [cameFfts_append] at hrecent
  rw [e] at hA ⊢
  have hA12 : InTime (cameFfts c (ops1 ++ [.query id c start duration] ++ ops2)) := ⟨hA.1.sublist (List.sublist_append_left _ _), fun d hd => hA.2 d (List.mem_append_left _ hd)⟩
  obtain ⟨_, f2⟩ := ffill_facts c (.query id c start duration) rfl start duration ops1 ops2 hA12
  have hses : sinceReload (ops1 ++ [.query id c start duration] ++ ops2) = ops1 ++ [.query id c start duration] ++ ops2 := by
    apply sinceReload_id
    intro o ho
    rcases List.mem_append.mp ho with ho | ho
    · rcases List.mem_append.mp ho with ho | ho
      · exact hnr o ho
      · obtain rfl := List.mem_singleton.mp ho; intro h; cases h
    · have := h2 o ho
      intro hc; subst hc; exact this
  rw [hses] at f2 ⊢
  have hA1 : InTime (cameFfts c ops1) := by
    rw [e12] at hA12
    exact ⟨hA12.1.sublist (List.sublist_append_left _ _), fun d hd => hA12.2 d (List.mem_append_left _ hd)⟩
  have hex := fdb_exact c ops1 hA1 hnr
  intro d hd hrange
  rcases List.mem_append.mp hd with hd | hd
  · refine List.mem_append_left _ ((f2 d).mpr ?_)
    rw [e12] at hd ⊢
    rw [e12] at hA12
    by_cases hrow : d ∈ ((FWorker.init (α := α)).run ops1).rows c
    · exact .inl ⟨hrow, hrange (by rw [hex]; exact List.mem_append_left _ hrow)⟩
    · right
      rw [hex, List.append_assoc] at hd hA12
      rw [hex] at hrecent ⊢
      rw [List.append_assoc]
      generalize ((FWorker.init (α := α)).run ops1).rows c = rows at hd hA12 hrecent hrow ⊢
      generalize fpendingOf c ((FWorker.init (α := α)).run ops1) = pend at hd hA12 hrecent ⊢
      rcases List.mem_append.mp hd with hd | hd
      · exact absurd hd hrow
      · refine ⟨?_, fun r hr _ => (List.pairwise_append.mp hA12.1).2.2 r hr d hd⟩
        unfold lastOf
        rw [List.drop_append_of_le_length]
        · exact List.mem_append_right _ hd
        · simp only [List.length_append] at hrecent ⊢; omega
  · exact List.mem_append_right _ hd

/-- C119 (finding): a spectrum that was not yet in the database when the player asked, and is followed by five others before the player is ready, is missing in the player for ever -/
theorem C119_lost (c : String) (id : Nat) (start duration : Int) (ops1 ops2 ops3 : List (FOp α)) (h1 : ∀ o ∈ ops1, FUnopened id o) (h2 : ∀ o ∈ ops2, FQuiet id o) (h3 : ∀ o ∈ ops3, FQuiet id o)
    (hA : InTime (cameFfts c (ops1 ++ [.query id c start duration] ++ ops2 ++ [.ready id] ++ ops3))) (d : FPacket α) (pre post : List (FPacket α)) (hd : cameFfts c (ops1 ++ ops2) = pre ++ d :: post)
    (hpost : 5 ≤ post.length) (hrow : d ∉ ((FWorker.init (α := α)).run ops1).rows c) :
    ∃ l, ((FWorker.init (α := α)).run (ops1 ++ [.query id c start duration] ++ ops2 ++ [.ready id] ++ ops3)).players.filter (·.id = id) = [⟨id, c, l⟩] ∧ d ∉ l := by
  refine ⟨_, C119_feed c id start duration ops1 ops2 ops3 h1 h2 h3, ?_⟩
  have e : cameFfts c (ops1 ++ [.query id c start duration] ++ ops2 ++ [.ready id] ++ ops3) = cameFfts c (ops1 ++ [.query id c start duration] ++ ops2) ++ cameFfts c ops3 := fftsOf_ready c _ _ id
  have e12 : cameFfts c (ops1 ++ [.query id c start duration] ++ ops2) = cameFfts c (ops1 ++ ops2) := by
    rw [cameFfts_append, cameFfts_append, cameFfts_append]
    show _ ++ [] ++ _ = _
    rw [List.append_nil]
  rw [e] at hA
  have hA12 : InTime (cameFfts c (ops1 ++ [.query id c start duration] ++ ops2)) := ⟨hA.1.sublist (List.sublist_append_left _ _), fun d hd => hA.2 d (List.mem_append_left _ hd)⟩
  obtain ⟨_, f2⟩ := ffill_facts c (.query id c start duration) rfl start duration ops1 ops2 hA12
  obtain ⟨old, hold⟩ := fsession_sublist c (ops1 ++ [.query id c start duration] ++ ops2)
  rw [e12, hd] at hold hA12 hA
  intro hmem
  rcases List.mem_append.mp hmem with hmem | hmem
  · rcases (f2 d).mp hmem with ⟨hr, _⟩ | ⟨hc, _⟩
    · exact hrow hr
    · generalize cameFfts c (sinceReload (ops1 ++ [.query id c start duration] ++ ops2)) = S at hold hc
      have hlen := congrArg List.length hold
      simp only [List.length_append, List.length_cons] at hlen
      have hin : d ∈ (pre ++ d :: post).drop (old.length + (S.length - 5)) := by
        rw [hold, List.drop_append]
        have : old.length + (S.length - 5) - old.length = S.length - 5 := by omega
        rw [this]
        exact List.mem_append_right _ hc
      have hpre : (pre ++ d :: post).drop (pre.length + 1) = post := by
        rw [List.drop_append]
        have : pre.length + 1 - pre.length = 1 := by omega
        rw [this, List.drop_eq_nil_of_le (by omega)]; rfl
      have hsub : d ∈ (pre ++ d :: post).drop (pre.length + 1) := by
        have hk : old.length + (S.length - 5) = (pre.length + 1) + (old.length + (S.length - 5) - (pre.length + 1)) := by omega
        rw [hk, ← List.drop_drop] at hin
        exact List.mem_of_mem_drop hin
      rw [hpre] at hsub
      have := (List.pairwise_cons.mp (List.pairwise_append.mp hA12.1).2.1).1 d hsub
      omega
  · have := (List.pairwise_append.mp hA.1).2.2 d (by simp) d hmem
    omega

/-! witnesses -/

/-- spectrum number `k` -/
def demoFft (k : Nat) : FPacket Nat := ⟨100 * (k : Int), [k], [k]⟩

/-- twelve spectra came, nine are in the database, three on their way; another comes before the answer of the database, one after -/
def demoFft1 : List (FOp Nat) := (List.range 12).map (fun k => .packet "a" (demoFft k)) ++ [.packet "b" (demoFft 3)] ++ List.replicate 9 .commit

/-- while the database answers -/
def demoFft2 : List (FOp Nat) := [.packet "a" (demoFft 12), .packet "b" (demoFft 12), .commit]

/-- afterwards -/
def demoFft3 : List (FOp Nat) := [.packet "a" (demoFft 13)]

/-- the hypotheses of C119_all can be met; the player gets the spectra from 0.4 s on, including those that were on their way -/
example : (∀ o ∈ demoFft1, FUnopened 7 o) ∧ (∀ o ∈ demoFft1, o ≠ .restart) ∧ (∀ o ∈ demoFft2, FQuiet 7 o) ∧ (∀ o ∈ demoFft3, FQuiet 7 o) ∧
    InTime (cameFfts "a" (demoFft1 ++ [.query 7 "a" 500 1000] ++ demoFft2 ++ [.ready 7] ++ demoFft3)) ∧
    (cameFfts "a" (demoFft1 ++ demoFft2)).length ≤ (((FWorker.init (α := Nat)).run demoFft1).rows "a").length + 5 ∧
    ((FWorker.init (α := Nat)).run (demoFft1 ++ [.query 7 "a" 500 1000] ++ demoFft2 ++ [.ready 7] ++ demoFft3)).players.map (fun p => (p.id, p.packets)) =
      [(7, (List.range 10).map fun k => demoFft (k + 4))] := by
  refine ⟨?_, ?_, ?_, ?_, ⟨?_, ?_⟩, ?_, ?_⟩
  · intro o ho
    simp only [demoFft1, List.mem_append, List.mem_map, List.mem_singleton, List.mem_replicate] at ho
    rcases ho with (⟨k, _, rfl⟩ | rfl) | ⟨_, rfl⟩ <;> trivial
  · intro o ho
    simp only [demoFft1, List.mem_append, List.mem_map, List.mem_singleton, List.mem_replicate] at ho
    rcases ho with (⟨k, _, rfl⟩ | rfl) | ⟨_, rfl⟩ <;> (intro h; cases h)
  · intro o ho
    simp only [demoFft2, List.mem_cons, List.not_mem_nil, or_false] at ho
    rcases ho with rfl | rfl | rfl <;> trivial
  · intro o ho
    obtain rfl := List.mem_singleton.mp ho; trivial
  · decide
  · decide
  · decide
  · decide +kernel

/-- the finding happens: twelve spectra, the database has six when the player asks, and eleven when it answers; spectrum 6 is missing -/
def lostFft1 : List (FOp Nat) := (List.range 12).map (fun k => .packet "a" (demoFft k)) ++ List.replicate 6 .commit

example : InTime (cameFfts "a" (lostFft1 ++ [.query 7 "a" 500 1000] ++ List.replicate 6 .commit ++ [.ready 7] ++ demoFft3)) ∧
    cameFfts "a" (lostFft1 ++ List.replicate 6 .commit) = (List.range 6).map demoFft ++ demoFft 6 :: (List.range 5).map (fun k => demoFft (k + 7)) ∧
    demoFft 6 ∉ ((FWorker.init (α := Nat)).run lostFft1).rows "a" ∧
    ((FWorker.init (α := Nat)).run (lostFft1 ++ [.query 7 "a" 500 1000] ++ List.replicate 6 .commit ++ [.ready 7] ++ demoFft3)).players.map (fun p => p.packets) =
      [[4, 5, 7, 8, 9, 10, 11, 13].map demoFft] := by
  refine ⟨⟨by decide, by decide⟩, by decide, by decide +kernel, by decide +kernel⟩

end Verif.Props
