import Verif.Lemmas.Reach
import Verif.Spec.IterHistory
/-
The concurrent iterator against changing directories.
-/
namespace Verif.Vlfs
open Verif Verif.Spec

/-- in a sorted list the entries with an id not above `l` are the first ones -/
theorem sorted_split (l : Nat) : ∀ (es : List FileEntry), es.Pairwise (fun a b => a.id < b.id) → ∀ j (h : j < es.length),
    (es[j].id ≤ l ↔ j < es.countP (fun e => decide (e.id ≤ l))) := by
  intro es
  induction es with
  | nil => intro _ j h; exact absurd h (Nat.not_lt_zero _)
  | cons a es ih =>
    intro hs j h
    rw [List.pairwise_cons] at hs
    rw [List.countP_cons]
    by_cases ha : a.id ≤ l
    · cases j with
      | zero => simp [ha]
      | succ j =>
        have h2 : j < es.length := by simpa using h
        have := ih hs.2 j h2
        simp only [List.getElem_cons_succ, this, ha, decide_true, if_true]
        omega
    · have h0 : es.countP (fun e => decide (e.id ≤ l)) = 0 := by
        rw [List.countP_eq_zero]
        intro b hb
        have := hs.1 b hb
        simp only [decide_eq_true_eq]; omega
      rw [h0]
      simp only [ha, decide_false, Bool.false_eq_true, if_false]
      constructor
      · intro h3
        cases j with
        | zero => exact absurd h3 ha
        | succ j =>
          have h2 : j < es.length := by simpa using h
          have := hs.1 es[j] (List.getElem_mem h2)
          simp only [List.getElem_cons_succ] at h3; omega
      · intro h; omega

/-- what the iterator remembers -/
structure IterInv (f : Nat → Nat → Bool) (es : List FileEntry) (maxId : Nat) (it : ConcIter) (ys : List FileEntry) : Prop where
  old : ∀ y ∈ ys, y.id ≤ maxId
  fresh : it.last = none → ∀ y ∈ ys, ∀ e ∈ es, y.id < e.id
  above : ∀ l i, it.last = some (l, i) → ∀ y ∈ ys, y.id ≤ l
  known : ∀ l i, it.last = some (l, i) → l ≤ maxId
  index : ∀ l i, it.last = some (l, i) → es.countP (fun e => decide (e.id ≤ l)) ≤ i + 1
  seen : ∀ l i, it.last = some (l, i) → ∀ e ∈ es, f e.id e.typ = true → e.id ≤ l → ∃ y ∈ ys, e.id ≤ y.id

theorem walkBack_spec {fl : Flash} {at' : AT} {seq m : Nat} {es : List FileEntry} (h : SlotHolds fl at'.position seq es m)
    (hs : es.Pairwise (fun a b => a.id < b.id)) (it : ConcIter) (l k : Nat) (hk : k = es.countP (fun e => decide (e.id ≤ l))) :
    ∀ i plus, i < es.length → k ≤ i + 1 → plus = es[i + 1]? →
    it.walkBack fl at' l i plus = (.ok es[k]?, match es[k]? with | some e => ⟨some (e.id, k)⟩ | none => it) := by
  have hsp := sorted_split l es hs
  intro i
  induction i with
  | zero =>
    intro plus hi hki hp
    unfold ConcIter.walkBack
    rw [readFileEntry_eq, h.entry 0 hi]
    simp only
    by_cases h0 : es[0].id ≤ l
    · rw [if_pos h0]
      have := (hsp 0 hi).mp h0
      have hk1 : k = 1 := by omega
      subst hp
      subst hk1
      cases hq : es[0 + 1]? with
      | none => have hq : es[1]? = none := hq; simp only [hq]
      | some p => have hq : es[1]? = some p := hq; simp only [hq, Nat.zero_add]
    · rw [if_neg h0]
      have hk0 : k = 0 := by
        have := (hsp 0 hi).not.mp h0; omega
      subst hk0
      rw [List.getElem?_eq_getElem hi]
  | succ i ih =>
    intro plus hi hki hp
    unfold ConcIter.walkBack
    rw [readFileEntry_eq, h.entry (i + 1) hi]
    simp only
    by_cases h0 : es[i + 1].id ≤ l
    · rw [if_pos h0]
      have := (hsp (i + 1) hi).mp h0
      have hk1 : k = i + 1 + 1 := by omega
      rw [hk1]
      subst hp
      cases hq : es[i + 1 + 1]? with
      | none => rfl
      | some p => rfl
    · rw [if_neg h0]
      have := (hsp (i + 1) hi).not.mp h0
      exact ih _ (by omega) (by omega) (List.getElem?_eq_getElem hi).symm

/-- `immediate_next` finds the first entry above the remembered id -/
theorem immediateNext_spec {fs : FS} {es : List FileEntry} (hd : DirInv fs es) {it : ConcIter} {l i : Nat} (hl : it.last = some (l, i))
    (hi : es.countP (fun e => decide (e.id ≤ l)) ≤ i + 1) :
    it.immediateNext fs.dev.flash fs.at' = (.ok es[es.countP (fun e => decide (e.id ≤ l))]?,
      match es[es.countP (fun e => decide (e.id ≤ l))]? with
      | some e => ⟨some (e.id, es.countP (fun e => decide (e.id ≤ l)))⟩
      | none => if es = [] then ⟨none⟩ else it) := by
  have hsp := sorted_split l es hd.sorted
  generalize hk : es.countP (fun e => decide (e.id ≤ l)) = k at hsp hi
  have quick : ∀ plus, plus = es[i + 1]? → it.afterQuick fs.dev.flash fs.at' l i plus = (.ok es[k]?,
      match es[k]? with
      | some e => ⟨some (e.id, k)⟩
      | none => if es = [] then ⟨none⟩ else it) := by
    intro plus hp
    unfold ConcIter.afterQuick
    rw [hd.count]
    by_cases h0 : es.length = 0
    · have : es = [] := List.length_eq_zero_iff.mp h0
      subst this
      simp
    · rw [if_neg h0]
      have hne : es ≠ [] := by intro h; subst h; simp at h0
      by_cases h1 : i + 1 < es.length
      · rw [Nat.min_eq_left (by omega), walkBack_spec hd.holds hd.sorted it l k hk.symm i plus (by omega) hi hp]
        simp only [hne, if_false]
      · have hp2 : plus = none := by rw [hp, List.getElem?_eq_none (by omega)]
        have hkl : k ≤ es.length := by rw [← hk]; exact List.countP_le_length
        rw [walkBack_spec hd.holds hd.sorted it l k hk.symm (min i (es.length - 1)) plus (by omega) (by omega)
          (by rw [hp2, List.getElem?_eq_none]; omega)]
        simp only [hne, if_false]
  unfold ConcIter.immediateNext
  rw [hl]
  simp only
  rw [hd.count]
  by_cases h1 : i + 1 < es.length
  · rw [if_pos h1, readFileEntry_eq, hd.holds.entry (i + 1) h1]
    simp only
    by_cases h2 : es[i + 1].id = l + 1
    · rw [if_pos h2]
      -- the entry behind the last one is the next id, so it is the first one above
      have hki : k = i + 1 := by
        apply Nat.le_antisymm hi
        apply Nat.not_lt.mp
        intro hlt
        have h3 := (hsp k (by omega)).not.mpr (Nat.lt_irrefl _)
        have := (List.pairwise_iff_getElem.mp hd.sorted) k (i + 1) (by omega) h1 hlt
        omega
      subst hki
      rw [List.getElem?_eq_getElem h1]
    · rw [if_neg h2]
      exact quick _ (List.getElem?_eq_getElem h1).symm
  · rw [if_neg h1]
    exact quick _ (by rw [List.getElem?_eq_none (by omega)])

theorem filterLoop_spec {fs : FS} {es : List FileEntry} (hd : DirInv fs es) (filter : FileEntry → Bool) :
    ∀ n k (hk : k < es.length), es.length - k ≤ n →
    ConcIter.filterLoop fs.dev.flash fs.at' filter n es[k] k =
      match (List.range' k (es.length - k)).find? (fun j => match es[j]? with | some e => filter e | none => false) with
      | some j => (.ok es[j]?, ⟨some ((es[j]?.map FileEntry.id).getD 0, j)⟩)
      | none => (.ok none, ⟨some ((es[es.length - 1]?.map FileEntry.id).getD 0, es.length - 1)⟩) := by
  intro n
  induction n with
  | zero => intro k hk h; omega
  | succ n ih =>
    intro k hk h
    have hr : List.range' k (es.length - k) = k :: List.range' (k + 1) (es.length - (k + 1)) := by
      have : es.length - k = (es.length - (k + 1)) + 1 := by omega
      rw [this, List.range'_succ]
    rw [ConcIter.filterLoop, hr, List.find?_cons]
    rw [List.getElem?_eq_getElem hk]
    simp only
    cases hf : filter es[k] with
    | true => simp [List.getElem?_eq_getElem hk]
    | false =>
      simp only [Bool.false_eq_true, if_false]
      rw [hd.count]
      by_cases h1 : k ≥ es.length - 1
      · rw [if_pos h1]
        have hke : k = es.length - 1 := by omega
        have h2 : es.length - (k + 1) = 0 := by omega
        rw [h2]
        simp only [List.range'_zero, List.find?_nil]
        have : es[es.length - 1]? = some es[k] := by rw [← hke]; exact List.getElem?_eq_getElem hk
        rw [this, ← hke]; rfl
      · rw [if_neg h1, readFileEntry_eq, hd.holds.entry (k + 1) (by omega)]
        exact ih (k + 1) (by omega) (by omega)

/-- the result of `next` and the invariant afterwards -/
theorem concNext_spec {f : Nat → Nat → Bool} {fs : FS} {es : List FileEntry} (hd : DirInv fs es) {it : ConcIter} {ys : List FileEntry}
    (hi : IterInv f es fs.at'.maxId it ys) :
    ∃ r it', fs.concNext (onIdTyp f) it = (.ok r, it') ∧ NextAnswer f es ys r ∧
      IterInv f es fs.at'.maxId it' (ys ++ r.toList) := by
  have hsort := List.pairwise_iff_getElem.mp hd.sorted
  -- scanning from index `k` on, everything before being at most the yielded ones or not matching
  have scan : ∀ k (hk : k < es.length), (∀ y ∈ ys, ∀ j (hj : j < es.length), k ≤ j → y.id < es[j].id) →
      (∀ j (hj : j < es.length), j < k → f es[j].id es[j].typ = true → ∃ y ∈ ys, es[j].id ≤ y.id) →
      ∃ r it', ConcIter.filterLoop fs.dev.flash fs.at' (onIdTyp f) (fs.at'.fileCount + 1) es[k] k = (.ok r, it') ∧
        NextAnswer f es ys r ∧ IterInv f es fs.at'.maxId it' (ys ++ r.toList) := by
    intro k hk hab hbe
    rw [hd.count, filterLoop_spec hd (onIdTyp f) (es.length + 1) k hk (by omega)]
    cases hfind : (List.range' k (es.length - k)).find? (fun j => match es[j]? with | some e => onIdTyp f e | none => false) with
    | some j =>
      simp only
      rw [List.find?_eq_some_iff_append] at hfind
      obtain ⟨h1, as, bs, h2, h3⟩ := hfind
      have hjm : j ∈ List.range' k (es.length - k) := by rw [h2]; simp
      rw [List.mem_range'_1] at hjm
      have hj : j < es.length := by omega
      rw [List.getElem?_eq_getElem hj] at h1 ⊢
      simp only at h1
      have hskip : ∀ j' (h : j' < es.length), k ≤ j' → j' < j → f es[j'].id es[j'].typ = false := by
        intro j' h hk' hlt
        have hm : j' ∈ as := by
          have hm : j' ∈ List.range' k (es.length - k) := List.mem_range'_1.mpr ⟨hk', by omega⟩
          have hp := List.pairwise_lt_range' (s := k) (n := es.length - k) (step := 1)
          rw [h2] at hm hp
          rcases List.mem_append.mp hm with h4 | h4
          · exact h4
          · exfalso
            rw [List.pairwise_append] at hp
            rcases List.mem_cons.mp h4 with h5 | h5
            · omega
            · have := (List.pairwise_cons.mp hp.2.1).1 j' h5; omega
        have := h3 j' hm
        rw [List.getElem?_eq_getElem h] at this
        simpa [onIdTyp] using this
      refine ⟨_, _, rfl, ⟨List.getElem_mem hj, h1, ?_, ?_⟩, ?_⟩
      · intro y hy; exact hab y hy j hj hjm.1
      · intro e' he' hf' hy'
        obtain ⟨j', hj', rfl⟩ := List.getElem_of_mem he'
        apply Nat.not_lt.mp
        intro hlt
        have hjj : j' < j := by
          apply Nat.not_le.mp
          intro hle
          rcases Nat.eq_or_lt_of_le hle with h5 | h5
          · subst h5; omega
          · have := hsort j j' hj hj' h5; omega
        by_cases hkj : k ≤ j'
        · rw [hskip j' hj' hkj hjj] at hf'; exact absurd hf' (by simp)
        · obtain ⟨y, hy, hle⟩ := hbe j' hj' (by omega) hf'
          have := hy' y hy; omega
      · simp only [Option.map_some, Option.getD_some, Option.toList_some]
        refine ⟨?_, by simp, ?_, ?_, ?_, ?_⟩
        · intro y hy
          rcases List.mem_append.mp hy with hy | hy
          · exact hi.old y hy
          · rw [List.mem_singleton] at hy; subst hy; exact hd.maxId _ (List.getElem_mem hj)
        · intro l i hl y hy
          injection hl with hl; injection hl with hl1 hl2; subst hl1
          rcases List.mem_append.mp hy with hy | hy
          · exact Nat.le_of_lt (hab y hy j hj hjm.1)
          · rw [List.mem_singleton] at hy; subst hy; exact Nat.le_refl _
        · intro l i hl
          injection hl with hl; injection hl with hl1 hl2; subst hl1
          exact hd.maxId _ (List.getElem_mem hj)
        · intro l i hl
          injection hl with hl; injection hl with hl1 hl2; subst hl1; subst hl2
          apply Nat.not_lt.mp
          intro hlt
          have hle := List.countP_le_length (p := fun e : FileEntry => decide (e.id ≤ es[j].id)) (l := es)
          have h5 := (sorted_split es[j].id es hd.sorted (j + 1) (by omega)).mpr hlt
          have := hsort j (j + 1) hj (by omega) (by omega)
          omega
        · intro l i hl e he hfe hle
          injection hl with hl; injection hl with hl1 hl2; subst hl1
          exact ⟨es[j], by simp, hle⟩
    | none =>
      simp only
      have hne : es.length - 1 < es.length := by omega
      rw [List.getElem?_eq_getElem hne]
      have hnof : ∀ j' (h : j' < es.length), k ≤ j' → f es[j'].id es[j'].typ = false := by
        intro j' h hk'
        have := List.find?_eq_none.mp hfind j' (List.mem_range'_1.mpr ⟨hk', by omega⟩)
        rw [List.getElem?_eq_getElem h] at this
        simpa [onIdTyp] using this
      have hans : ∀ e' ∈ es, f e'.id e'.typ = true → ∃ y ∈ ys, e'.id ≤ y.id := by
        intro e' he' hf'
        obtain ⟨j', hj', rfl⟩ := List.getElem_of_mem he'
        by_cases hkj : k ≤ j'
        · rw [hnof j' hj' hkj] at hf'; exact absurd hf' (by simp)
        · exact hbe j' hj' (by omega) hf'
      refine ⟨_, _, rfl, hans, ?_⟩
      simp only [Option.map_some, Option.getD_some, Option.toList_none, List.append_nil]
      refine ⟨hi.old, by simp, ?_, ?_, ?_, ?_⟩
      · intro l i hl y hy
        injection hl with hl; injection hl with hl1 hl2; subst hl1
        exact Nat.le_of_lt (hab y hy _ hne (by omega))
      · intro l i hl
        injection hl with hl; injection hl with hl1 hl2; subst hl1
        exact hd.maxId _ (List.getElem_mem hne)
      · intro l i hl
        injection hl with hl; injection hl with hl1 hl2; subst hl2
        have := List.countP_le_length (p := fun e : FileEntry => decide (e.id ≤ l)) (l := es)
        omega
      · intro l i hl e he hfe _
        exact hans e he hfe
  unfold FS.concNext
  rcases hlast : it.last with _ | ⟨l, i⟩
  · -- from the start
    by_cases h0 : es = []
    · have hin : it.immediateNext fs.dev.flash fs.at' = (.ok none, it) := by
        unfold ConcIter.immediateNext
        rw [hlast]
        simp only
        rw [hd.count, h0]; simp
      rw [hin]
      refine ⟨none, it, rfl, ?_, by simpa using hi⟩
      intro e he; rw [h0] at he; simp at he
    · have hlen : 0 < es.length := List.length_pos_iff.mpr h0
      have hin : it.immediateNext fs.dev.flash fs.at' = (.ok (some es[0]), ⟨some (es[0].id, 0)⟩) := by
        unfold ConcIter.immediateNext
        rw [hlast]
        simp only
        rw [hd.count, if_pos hlen, readFileEntry_eq, hd.holds.entry 0 hlen]
      rw [hin]
      simp only
      exact scan 0 hlen (fun y hy j hj _ => hi.fresh hlast y hy _ (List.getElem_mem hj)) (fun j hj h => absurd h (Nat.not_lt_zero _))
  · have hin := immediateNext_spec hd hlast (hi.index l i hlast)
    have hsp := sorted_split l es hd.sorted
    generalize es.countP (fun e => decide (e.id ≤ l)) = k at hsp hin
    rw [hin]
    by_cases hk : k < es.length
    · rw [List.getElem?_eq_getElem hk]
      simp only
      refine scan k hk ?_ ?_
      · intro y hy j hj hkj
        have h1 := hi.above l i hlast y hy
        have h2 := (hsp j hj).not.mpr (by omega)
        omega
      · intro j hj hjk hfj
        exact hi.seen l i hlast _ (List.getElem_mem hj) hfj ((hsp j hj).mpr hjk)
    · rw [List.getElem?_eq_none (by omega)]
      simp only
      have hans : NextAnswer f es ys none := by
        intro e' he' hf'
        obtain ⟨j', hj', rfl⟩ := List.getElem_of_mem he'
        exact hi.seen l i hlast _ (List.getElem_mem hj') hf' ((hsp j' hj').mpr (by omega))
      by_cases he : es = []
      · rw [if_pos he]
        refine ⟨none, ⟨none⟩, rfl, hans, ?_⟩
        simp only [Option.toList_none, List.append_nil]
        refine ⟨hi.old, ?_, by simp, by simp, by simp, by simp⟩
        intro _ y _ e h; rw [he] at h; simp at h
      · rw [if_neg he]
        exact ⟨none, it, rfl, hans, by simpa using hi⟩

/-- directory changes made by others -/
theorem IterInv.call {f : Nat → Nat → Bool} {fs fs' : FS} {es es' : List FileEntry} {ids new : List Nat} {it : ConcIter}
    {ys : List FileEntry} (hi : IterInv f es fs.at'.maxId it ys) (hr : ReachInv fs es ids) (hc : Call fs es fs' es' new)
    (hok : countersOk fs) : IterInv f es' fs'.at'.maxId it ys := by
  obtain ⟨m, hrw, hw, _, _, hm, hnew⟩ := call_rewrite hr hc hok
  rw [hrw.maxId]
  -- every file afterwards is an old one with the same id and type, or has a fresh id; no more old ones than before
  have key : (∀ e ∈ es', (∃ x ∈ es, x.id = e.id ∧ x.typ = e.typ) ∨ fs.at'.maxId < e.id) ∧
      ∀ l, l ≤ fs.at'.maxId → es'.countP (fun e => decide (e.id ≤ l)) ≤ es.countP (fun e => decide (e.id ≤ l)) := by
    have app : ∀ e : FileEntry, fs.at'.maxId < e.id → (∀ x ∈ es ++ [e], (∃ y ∈ es, y.id = x.id ∧ y.typ = x.typ) ∨ fs.at'.maxId < x.id) ∧
      ∀ l, l ≤ fs.at'.maxId → (es ++ [e]).countP (fun e => decide (e.id ≤ l)) ≤ es.countP (fun e => decide (e.id ≤ l)) := by
      intro e he
      constructor
      · intro x hx
        rcases List.mem_append.mp hx with hx | hx
        · exact Or.inl ⟨x, hx, rfl, rfl⟩
        · rw [List.mem_singleton] at hx; subst hx; exact Or.inr he
      · intro l hl
        rw [List.countP_append, List.countP_singleton]
        have : ¬ e.id ≤ l := by omega
        simp [this]
    cases hc with
    | create typ e fs' h hc ht => exact app e (hnew e.id (by simp)).1
    | createOpen typ r1 r2 e fs' h hc ht => exact app e (hnew e.id (by simp)).1
    | remove filter n k fs' h =>
      constructor
      · intro e he; exact Or.inl ⟨e, (List.mem_filter.mp he).1, rfl, rfl⟩
      · intro l _; exact List.Sublist.countP_le List.filter_sublist
    | setFirst id first fs' h hf =>
      constructor
      · intro e he
        rw [List.mem_map] at he
        obtain ⟨x, hx, rfl⟩ := he
        refine Or.inl ⟨x, hx, ?_, ?_⟩ <;> split <;> rfl
      · intro l _
        rw [List.countP_map]
        apply Nat.le_of_eq
        congr 1
        funext x
        simp only [Function.comp]
        split <;> rfl
    | rotate typ n r1 r2 e fs' h hc ht =>
      have he := (hnew e.id (by simp)).1
      constructor
      · intro x hx
        rcases List.mem_append.mp hx with hx | hx
        · exact Or.inl ⟨x, (List.mem_filter.mp hx).1, rfl, rfl⟩
        · rw [List.mem_singleton] at hx; subst hx; exact Or.inr he
      · intro l hl
        rw [List.countP_append, List.countP_singleton]
        have : ¬ e.id ≤ l := by omega
        have h2 := List.Sublist.countP_le (p := fun e => decide (e.id ≤ l)) (List.filter_sublist (p := fun x => !amongOldest typ n es x) (l := es))
        simp only [this, decide_false]
        simpa using h2
  obtain ⟨k1, k2⟩ := key
  refine ⟨fun y hy => Nat.le_trans (hi.old y hy) hm, ?_, hi.above, fun l i hl => Nat.le_trans (hi.known l i hl) hm, ?_, ?_⟩
  · intro hn y hy e he
    rcases k1 e he with ⟨x, hx, h1, _⟩ | h1
    · rw [← h1]; exact hi.fresh hn y hy x hx
    · have := hi.old y hy; omega
  · intro l i hl
    exact Nat.le_trans (k2 l (hi.known l i hl)) (hi.index l i hl)
  · intro l i hl e he hf hle
    rcases k1 e he with ⟨x, hx, h1, h2⟩ | h1
    · rw [← h1, ← h2] at hf; rw [← h1] at hle ⊢
      exact hi.seen l i hl x hx hf hle
    · have := hi.known l i hl; omega

theorem iterRun_inv {f : Nat → Nat → Bool} {P : List FileEntry → Prop} {fs : FS} {es : List FileEntry} {ids : List Nat} {it : ConcIter}
    {ys : List FileEntry} (h : IterRun f P fs es ids it ys) :
    Reach fs es ids ∧ IterInv f es fs.at'.maxId it ys ∧ P es := by
  induction h with
  | start hr hp => exact ⟨hr, ⟨by simp, by simp, by simp [ConcIter.new], by simp [ConcIter.new], by simp [ConcIter.new], by simp [ConcIter.new]⟩, hp⟩
  | call _ hc hok hp ih => exact ⟨.call ih.1 hc hok, ih.2.1.call (reach_inv ih.1) hc hok, hp⟩
  | opened _ l ih => exact ⟨.opened ih.1 l, ih.2⟩
  | other _ ha hf hm ih => exact ⟨.other ih.1 ha hf hm, by rw [ha]; exact ih.2.1, ih.2.2⟩
  | next _ h ih =>
    obtain ⟨r, it', h1, _, h3⟩ := concNext_spec (reach_inv ih.1).dir ih.2.1
    rw [h] at h1
    injection h1 with h1 h2
    injection h1 with h1
    subst h1; subst h2
    exact ⟨ih.1, h3, ih.2.2⟩
  | done _ h ih =>
    obtain ⟨r, it', h1, _, h3⟩ := concNext_spec (reach_inv ih.1).dir ih.2.1
    rw [h] at h1
    injection h1 with h1 h2
    injection h1 with h1
    subst h1; subst h2
    exact ⟨ih.1, by simpa using h3, ih.2.2⟩

end Verif.Vlfs
