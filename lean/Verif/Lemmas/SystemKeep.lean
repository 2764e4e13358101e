import Verif.Lemmas.SystemUse
/-
A file that is held open for reading is stable: whatever call is made, its entry and its sectors stay.
-/
namespace Verif.Vlfs
open Verif Verif.Spec

theorem step_to {crc : Bytes → UInt32} {fs fs' : FS} {files : List FileSt} {leak : List Nat} {ks' : List Known} (hs : Sys crc fs files leak)
    (hst : Step crc fs (files.map (·.k)) fs' ks') : SysTo crc fs files fs' ks' := by
  have inv : SysInv crc fs (files.map (·.k)) := ⟨files, leak, rfl, hs⟩
  have same : SysTo crc fs files fs (files.map (·.k)) := ⟨files, leak, rfl, hs, Kept.same rfl⟩
  cases hst with
  | dir h =>
    cases h with
    | create typ e fs' hc hcap ht hok => exact sys_create hs hc hcap ht hok
    | remove filter n fs' hc hsafe hok =>
      obtain ⟨n', fs2, g1, _, g3⟩ := sys_remove hs filter hsafe hok
      rw [hc] at g1
      injection g1 with _ g1
      subst g1
      exact g3
  | createOpen typ r1 r2 e fs' h hcap ht hok => exact sys_createOpen hs h hcap ht hok
  | rotate typ n r1 r2 e fs' h hw hcap ht hok =>
    rcases sys_rotate hs typ n r1 r2 hcap ht hok with ⟨e2, fs2, g1, g2⟩ | ⟨⟨fs2, g1⟩, _⟩
    · rw [h] at g1
      injection g1 with g1 g3
      injection g1 with g1
      subst g1 g3
      exact g2
    · rw [h] at g1; injection g1 with g1 _; exact absurd g1 (by simp)
  | openWrite id rng w fs' a b k hk hid hw hdm h hok =>
    subst hid
    rcases sys_openWrite hs hk hw hdm hok rng with ⟨_, g⟩ | ⟨_, g⟩ | ⟨_, fs2, g, _, g2⟩ | ⟨_, _, w', fs2, g, _, g2⟩
    · rw [g] at h; injection h with h _; exact absurd h (by simp)
    · rw [g] at h; injection h with h _; exact absurd h (by simp)
    · rw [g] at h; injection h with h _; exact absurd h (by simp)
    · rw [g] at h
      injection h with h h'
      injection h with h
      subst h h'
      exact g2
  | openWriteErr id rng er fs' hsafe hdm h hok =>
    by_cases hex : ∃ k ∈ files.map (·.k), k.id = id
    · obtain ⟨k, hk, rfl⟩ := hex
      cases hw : k.writer with
      | some w =>
        obtain ⟨_, g1, _⟩ := guarded_inUse inv hk (by rw [hw]; rfl) (hsafe k hk rfl (by rw [hw]; rfl))
        rw [g1 rng] at h
        injection h with _ h
        rw [← h]; exact same
      | none =>
        obtain ⟨a, b, hab⟩ := List.append_of_mem hk
        rcases sys_openWrite hs hab hw (hdm k hk rfl) hok rng with ⟨_, g⟩ | ⟨_, g⟩ | ⟨_, fs2, g, _, g2⟩ | ⟨_, _, w, fs2, g, _⟩
        · rw [g] at h; injection h with _ h; rw [← h]; exact same
        · rw [g] at h; injection h with _ h; rw [← h]; exact same
        · rw [g] at h; injection h with _ h; rw [← h]; exact g2
        · rw [g] at h; injection h with h _; exact absurd h (by simp)
    · rw [step_openWrite_missing inv (fun k hk he => hex ⟨k, hk, he⟩) rng] at h
      injection h with _ h
      rw [← h]; exact same
  | extend rng slice w w' fs' a b k hk hw hm h =>
    rcases sys_extend hs hk hw hm rng slice with ⟨_, g⟩ | ⟨g, _⟩
    · rw [h] at g; exact g
    · rw [h] at g; exact absurd g (by simp)
  | extendErr rng slice er w w' fs' a b k hk hw hm h =>
    rcases sys_extend hs hk hw hm rng slice with ⟨g, _⟩ | ⟨_, _, g⟩
    · rw [h] at g; exact absurd g (by simp)
    · rw [h] at g; exact g
  | flush r1 r2 w w' fs' a b k hk hw h =>
    rcases sys_flush hs hk hw r1 r2 with ⟨_, g⟩ | ⟨g, _⟩
    · rw [h] at g; exact g
    · rw [h] at g; exact absurd g (by simp)
  | flushErr r1 r2 er w w' fs' a b k hk hw h =>
    rcases sys_flush hs hk hw r1 r2 with ⟨g, _⟩ | ⟨_, _, g⟩
    · rw [h] at g; exact absurd g (by simp)
    · rw [h] at g; exact g
  | close w a b k hk hw => exact sys_close hs hk hw
  | openRead id =>
    by_cases hex : ∃ f ∈ files, f.k.id = id
    · obtain ⟨f, hm, rfl⟩ := hex
      rcases openRead_spec hs hm with ⟨_, g⟩ | ⟨_, g⟩ | ⟨_, _, g⟩
      · rw [g]; exact same
      · rw [g]; exact same
      · rw [g]
        exact ⟨files, leak, rfl, hs.opened rfl rfl rfl rfl rfl rfl (fun g _ _ _ hg => List.mem_append_left _ hg), Kept.same rfl⟩
    · unfold FS.openForRead
      rw [hs.find_none (fun f hm he => hex ⟨f, hm, he⟩)]
      exact same
  | closeRead r hr =>
    obtain ⟨m1, m2, m3, m4, m5, m6⟩ := markClosed_fields fs r.id
    refine ⟨files, leak, rfl, hs.opened m3 m4 m5 m6 m2 m1 ?_, Kept.same m1⟩
    intro f hm hw hgd ho
    refine markClosed_mem (fun he => ?_) ho
    rw [hr f.k (List.mem_map.mpr ⟨f, hm, rfl⟩) he hw] at hgd
    exact absurd hgd (by simp)
  | learn c a b k hk hw hdm r fs' ho n hn hr =>
    obtain ⟨as, f, bs, rfl, ha, rfl, hb⟩ := split_files hk
    have hno : f.k.id ∉ fs.at'.opened := by
      rcases openRead_spec hs (f := f) (by simp) with ⟨_, g⟩ | ⟨_, g⟩ | ⟨g1, _, _⟩
      · rw [g] at ho; injection ho with ho _; exact absurd ho (by simp)
      · rw [g] at ho; injection ho with ho _; exact absurd ho (by simp)
      · exact g1
    obtain ⟨hl, -⟩ : Sys crc fs (as ++ ⟨{ f.k with data := c, durable := c, maybe := [] }, f.e, f.segs, f.cur⟩ :: bs) leak ∧ True := ⟨learn_sys hs hw hdm ho hr, trivial⟩
    exact ⟨_, leak, map_split ha hb, hl, kept_update hs (fun _ => hno) fun _ _ _ _ => rfl⟩

end Verif.Vlfs
