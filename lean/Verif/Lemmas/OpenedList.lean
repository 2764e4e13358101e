import Verif.Lemmas.SystemUse
/-
The list of open files has no duplicates; a file that is closed is no longer in it.
-/
namespace Verif.Vlfs
open Verif Verif.Spec

/-- the list without its `k`-th element, up to order -/
theorem swapRemove_perm {l : List Nat} {k : Nat} (hk : k < l.length) : (l[k] :: swapRemove l k).Perm l := by
  rcases List.eq_nil_or_concat l with rfl | ⟨m, x, hm⟩
  · simp at hk
  · rw [List.concat_eq_append] at hm
    subst hm
    unfold swapRemove
    rw [List.getLast?_concat]
    simp only
    by_cases h : k < m.length
    · rw [List.set_append_left _ _ h, List.dropLast_concat, List.getElem_append_left h]
      have e : m = m.take k ++ m[k] :: m.drop (k + 1) := by simp
      have es : m.set k x = m.take k ++ x :: m.drop (k + 1) := by
        rw [List.set_eq_take_append_cons_drop, if_pos h]
      rw [es]
      have h1 : (m[k] :: (m.take k ++ x :: m.drop (k + 1))).Perm (m.take k ++ (m[k] :: (m.drop (k + 1) ++ [x]))) := by
        refine (List.Perm.symm List.perm_middle).trans ?_
        refine List.Perm.append_left _ (List.Perm.cons _ ?_)
        exact (List.perm_append_comm (l₁ := [x]))
      refine h1.trans ?_
      have : m.take k ++ (m[k] :: (m.drop (k + 1) ++ [x])) = (m.take k ++ m[k] :: m.drop (k + 1)) ++ [x] := by
        rw [List.append_assoc, List.cons_append]
      rw [this, ← e]
    · have hk' : k = m.length := by rw [List.length_append, List.length_singleton] at hk; omega
      subst hk'
      rw [List.set_append_right _ _ (Nat.le_refl _)]
      simp only [Nat.sub_self, List.set_cons_zero, List.dropLast_concat]
      rw [List.getElem_append_right (Nat.le_refl _)]
      simp only [Nat.sub_self, List.getElem_cons_zero]
      exact (List.perm_append_comm (l₁ := [x]))

theorem markClosed_perm {fs : FS} {id : Nat} (h : id ∈ fs.at'.opened) : (id :: (fs.markClosed id).at'.opened).Perm fs.at'.opened := by
  unfold FS.markClosed
  cases hf : fs.at'.opened.findIdx? (· == id) with
  | none =>
    rw [List.findIdx?_eq_none_iff] at hf
    have := hf id h
    simp at this
  | some k =>
    rw [List.findIdx?_eq_some_iff_getElem] at hf
    obtain ⟨hk, he, _⟩ := hf
    have he : fs.at'.opened[k] = id := by simpa using he
    have := swapRemove_perm hk
    rw [he] at this
    exact this

theorem markClosed_not_mem {fs : FS} {id : Nat} (h : id ∉ fs.at'.opened) : fs.markClosed id = fs := by
  unfold FS.markClosed
  cases hf : fs.at'.opened.findIdx? (· == id) with
  | none => rfl
  | some k =>
    rw [List.findIdx?_eq_some_iff_getElem] at hf
    obtain ⟨hk, he, _⟩ := hf
    have he : fs.at'.opened[k] = id := by simpa using he
    exact absurd (he ▸ List.getElem_mem hk) h

theorem markClosed_nodup {fs : FS} {id : Nat} (h : fs.at'.opened.Nodup) : (fs.markClosed id).at'.opened.Nodup := by
  by_cases hm : id ∈ fs.at'.opened
  · have := (markClosed_perm hm).nodup_iff.mpr h
    exact (List.nodup_cons.mp this).2
  · rw [markClosed_not_mem hm]; exact h

theorem markClosed_gone {fs : FS} {id : Nat} (h : fs.at'.opened.Nodup) : id ∉ (fs.markClosed id).at'.opened := by
  by_cases hm : id ∈ fs.at'.opened
  · have := (markClosed_perm hm).nodup_iff.mpr h
    exact (List.nodup_cons.mp this).1
  · rw [markClosed_not_mem hm]; exact hm

/-- how a step changes the list of open files -/
theorem step_openedList {crc : Bytes → UInt32} {fs fs' : FS} {ks ks' : List Known} (hr : Hist crc fs ks) (hs : Step crc fs ks fs' ks') :
    fs'.at'.opened = fs.at'.opened ∨ (∃ x, x ∉ fs.at'.opened ∧ fs.at'.opened.length < 32 ∧ fs'.at'.opened = fs.at'.opened ++ [x]) ∨
    ∃ x, fs'.at'.opened = (fs.markClosed x).at'.opened := by
  have inv := hist_inv hr
  obtain ⟨files, leak, hf, hsys⟩ := id inv
  subst hf
  have viaCall : ∀ {fs' es' new}, Call fs (files.map (·.e)) fs' es' new → countersOk fs → fs'.at'.opened = fs.at'.opened := by
    intro fs' es' new hc hok
    obtain ⟨m, h1, h2, h3, h4, h5, h6⟩ := call_rewrite hsys.reach hc hok
    exact h1.opened
  cases hs with
  | dir h =>
    have hok := (dirStep_inv inv h).2.2
    obtain ⟨es', new, hc⟩ := dirStep_call hsys h
    exact .inl (viaCall hc hok)
  | createOpen typ r1 r2 e fs' h hcap ht hok =>
    exact .inl (viaCall (.createOpen typ r1 r2 e fs' h (by rw [List.length_map] at hcap ⊢; exact hcap) ht) hok)
  | rotate typ n r1 r2 e fs' h hw hcap ht hok =>
    have hlen : ((files.map (·.e)).filter fun x => !amongOldest typ n (files.map (·.e)) x).length < 2518 := by
      refine Nat.lt_of_le_of_lt (List.length_filter_le _ _) ?_
      rw [List.length_map] at hcap ⊢; exact hcap
    exact .inl (viaCall (.rotate typ n r1 r2 e fs' h hlen ht) hok)
  | openWrite id rng w fs' a b k hk hid hw hdm h hok =>
    subst hid
    rcases step_openWrite inv hk hw hdm hok rng with ⟨_, g⟩ | ⟨_, g⟩ | ⟨_, fs2, g, _⟩ | ⟨g0, g32, w', fs2, g, g1, _⟩
    · rw [g] at h; injection h with h _; exact absurd h (by simp)
    · rw [g] at h; injection h with h _; exact absurd h (by simp)
    · rw [g] at h; injection h with h _; exact absurd h (by simp)
    · rw [g] at h
      injection h with _ h
      subst h
      exact .inr (.inl ⟨_, g0, g32, g1⟩)
  | openWriteErr id rng er fs' hsafe hdm h hok =>
    by_cases hex : ∃ k ∈ files.map (·.k), k.id = id
    · obtain ⟨k, hk, rfl⟩ := hex
      have hno : k.id ∈ fs.at'.opened ∨ k.id ∉ fs.at'.opened := Classical.em _
      cases hw : k.writer with
      | some w =>
        obtain ⟨_, g1, _⟩ := guarded_inUse inv hk (by rw [hw]; rfl) (hsafe k hk rfl (by rw [hw]; rfl))
        rw [g1 rng] at h
        injection h with _ h
        rw [← h]; exact .inl rfl
      | none =>
        obtain ⟨a, b, hab⟩ := List.append_of_mem hk
        rcases step_openWrite inv hab hw (hdm k hk rfl) hok rng with ⟨_, g⟩ | ⟨_, g⟩ | ⟨_, fs2, g, g1, _⟩ | ⟨_, _, w', fs2, g, _⟩
        · rw [g] at h; injection h with _ h; rw [← h]; exact .inl rfl
        · rw [g] at h; injection h with _ h; rw [← h]; exact .inl rfl
        · have hno : k.id ∉ fs.at'.opened := by
            intro hm
            obtain ⟨f, hfm, rfl⟩ := List.mem_map.mp hk
            obtain ⟨j, hj⟩ := hsys.find hfm
            have : fs.openForWrite f.k.id rng = (.error .fileInUse, fs) := by
              unfold FS.openForWrite
              rw [hj]
              simp only
              rw [if_pos ((isOpened_iff fs.at' f.e.id).mpr (by rw [(hsys.ok f hfm).id]; exact hm))]
            rw [this] at g
            injection g with g _
            exact absurd g (by simp)
          have hlen : fs.at'.opened.length < 32 := by
            refine Classical.byContradiction fun hx => ?_
            obtain ⟨f, hfm, rfl⟩ := List.mem_map.mp hk
            obtain ⟨j, hj⟩ := hsys.find hfm
            unfold FS.openForWrite at g
            rw [hj] at g
            simp only at g
            rw [if_neg (fun hx => hno (by rw [← (hsys.ok f hfm).id]; exact (isOpened_iff _ _).mp hx)), markOpened_err hx] at g
            injection g with g _
            exact absurd g (by simp)
          rw [g] at h
          injection h with _ h
          subst h
          exact .inr (.inl ⟨_, hno, hlen, g1⟩)
        · rw [g] at h; injection h with h _; exact absurd h (by simp)
    · rw [step_openWrite_missing inv (fun k hk he => hex ⟨k, hk, he⟩)] at h
      injection h with _ h
      rw [← h]; exact .inl rfl
  | extend rng slice w w' fs' a b k hk hw hm h => exact .inl (congrArg (fun r => r.2.2.at'.opened) h).symm
  | extendErr rng slice er w w' fs' a b k hk hw hm h => exact .inl (congrArg (fun r => r.2.2.at'.opened) h).symm
  | flush r1 r2 w w' fs' a b k hk hw h => exact .inl (congrArg (fun r => r.2.2.at'.opened) h).symm
  | flushErr r1 r2 er w w' fs' a b k hk hw h => exact .inl (congrArg (fun r => r.2.2.at'.opened) h).symm
  | close w a b k hk hw =>
    refine .inr (.inr ⟨w.id, ?_⟩)
    unfold FS.closeWriter FS.markClosed
    simp only
    cases fs.at'.opened.findIdx? (· == w.id) <;> rfl
  | openRead id =>
    by_cases hex : ∃ f ∈ files, f.k.id = id
    · obtain ⟨f, hm, rfl⟩ := hex
      rcases openRead_spec hsys hm with ⟨_, g⟩ | ⟨_, g⟩ | ⟨g0, g32, g⟩ <;> rw [g]
      · exact .inl rfl
      · exact .inl rfl
      · exact .inr (.inl ⟨_, g0, g32, rfl⟩)
    · unfold FS.openForRead
      rw [hsys.find_none (fun f hm he => hex ⟨f, hm, he⟩)]
      exact .inl rfl
  | closeRead r hs => exact .inr (.inr ⟨r.id, rfl⟩)
  | learn c a b k hk hw r fs' ho n hn hr => exact .inl rfl

/-- no file is entered twice in the list of open files -/
theorem hist_nodup {crc : Bytes → UInt32} {fs : FS} {ks : List Known} (h : Hist crc fs ks) : fs.at'.opened.Nodup := by
  induction h with
  | format fl hq =>
    rw [mount_opened (fl := fl) (r := (FS.mount fl).1) (fs := (FS.mount fl).2) rfl]
    exact List.nodup_nil
  | step hr hs ih =>
    rcases step_openedList hr hs with g | ⟨x, g1, _, g2⟩ | ⟨x, g⟩
    · rw [g]; exact ih
    · rw [g2, List.nodup_append]
      refine ⟨ih, by simp, ?_⟩
      intro a ha b hb
      rw [List.mem_singleton] at hb
      subst hb
      intro e
      subst e
      exact g1 ha
    · rw [g]; exact markClosed_nodup ih
  | restart hr hm ih => rw [mount_opened hm]; exact List.nodup_nil
  | loss hr hl hm ih => rw [mount_opened hm]; exact List.nodup_nil
  | lossDir hr hs hi hl hfit hp hm => rw [mount_opened hm]; exact List.nodup_nil
  | lossAlloc hr hs hi hl hfit hp hm => rw [mount_opened hm]; exact List.nodup_nil
  | lossRotate hr typ n r1 r2 e h hw hcap ht hok hi hl hfit hp hm => rw [mount_opened hm]; exact List.nodup_nil

/-- at most 32 files are open -/
theorem hist_openLen {crc : Bytes → UInt32} {fs : FS} {ks : List Known} (h : Hist crc fs ks) : fs.at'.opened.length ≤ 32 := by
  have hm : ∀ {fl : Flash} {r : Except Err Unit} {fs : FS}, FS.mount fl = (r, fs) → fs.at'.opened.length ≤ 32 := by
    intro fl r fs hm
    rw [mount_opened hm]
    decide
  induction h with
  | format fl hq => exact hm (fl := fl) (r := (FS.mount fl).1) (fs := (FS.mount fl).2) rfl
  | step hr hs ih =>
    rename_i fs0 fs' ks0 ks'
    rcases step_openedList hr hs with g | ⟨x, g1, g3, g2⟩ | ⟨x, g⟩
    · rw [g]; exact ih
    · rw [g2, List.length_append]; exact g3
    · rw [g]
      by_cases hx : x ∈ fs0.at'.opened
      · have := (markClosed_perm hx).length_eq
        rw [List.length_cons] at this
        omega
      · rw [markClosed_not_mem hx]; exact ih
  | restart hr h ih => exact hm h
  | loss hr hl h ih => exact hm h
  | lossDir hr hs hi hl hfit hp h => exact hm h
  | lossAlloc hr hs hi hl hfit hp h => exact hm h
  | lossRotate hr typ n r1 r2 e h hw hcap ht hok hi hl hfit hp h => exact hm h

end Verif.Vlfs
