import Verif.Lemmas.ConfigCrash
/-
C62: configuration files (flight profile, device configuration).
-/
namespace Verif.Props
open Verif Verif.Vlfs Verif.Spec Verif.Config

/-- all files of the type are closed, have a known content and are not open -/
def AtRest (fs : FS) (ks : List Known) (typ : Nat) : Prop := ∀ k ∈ ks, k.typ = typ → k.writer = none ∧ k.maybe = [] ∧ k.id ∉ fs.at'.opened ∧ k.damaged = false

theorem AtRest.safe {fs : FS} {ks : List Known} {typ : Nat} (h : AtRest fs ks typ) : ∀ k ∈ ks, k.typ = typ → k.safe := by
  intro k hk ht hs
  rw [(h k hk ht).1] at hs
  exact absurd hs (by simp)

theorem canRead_stored {crc : Bytes → UInt32} {fs : FS} {ks : List Known} (hr : CanRead crc fs ks) {typ n : Nat} (ha : AtRest fs ks typ)
    (hlen : fs.at'.opened.length < 32) {b : Option Bytes} (hb : Stores n typ ks b) : Config.read crc n fs typ = (.ok b, fs) := by
  rcases hb with ⟨h, rfl⟩ | ⟨k, h, rfl⟩
  · exact canRead_noConfig hr h
  · obtain ⟨a1, a2, a3, a4⟩ := ha k h.1 h.2.1
    obtain ⟨pre, p1, p2⟩ := canRead_config hr h (n := n) a1 a4 a3 hlen
    rw [a2] at p1
    rw [p2, List.prefix_nil.mp p1, List.append_nil]
    rfl

/-- **C62** Reading returns the beginning of the oldest file of the type, none if there is no file of the type or it is too short; the file system is left
as it was. -/
theorem C62_read {crc : Bytes → UInt32} {fs : FS} {ks : List Known} (hr : Hist crc fs ks) {typ n : Nat} (ha : AtRest fs ks typ)
    (hlen : fs.at'.opened.length < 32) {b : Option Bytes} (hb : Stores n typ ks b) : Config.read crc n fs typ = (.ok b, fs) :=
  canRead_stored (hist_inv hr).canRead ha hlen hb

/-- in every state some configuration, or none, is stored -/
theorem stores_exists (n typ : Nat) (ks : List Known) : ∃ b, Stores n typ ks b := by
  by_cases h : ∀ k ∈ ks, k.typ ≠ typ
  · exact ⟨none, .inl ⟨h, rfl⟩⟩
  · suffices hk : ∃ k, FirstOf ks typ k by
      obtain ⟨k, hk⟩ := hk
      exact ⟨_, .inr ⟨k, hk, rfl⟩⟩
    have : ∃ k ∈ ks, k.typ = typ := by
      refine Classical.byContradiction fun hx => h fun k hk ht => hx ⟨k, hk, ht⟩
    obtain ⟨k, hk, ht⟩ := this
    clear h
    have key : ∀ (m : Nat) (k : Known), k.id ≤ m → k ∈ ks → k.typ = typ → ∃ k, FirstOf ks typ k := by
      intro m
      induction m with
      | zero => exact fun k h0 hk ht => ⟨k, hk, ht, fun k' _ _ => by omega⟩
      | succ m ih =>
        intro k h0 hk ht
        by_cases hx : ∃ k' ∈ ks, k'.typ = typ ∧ k'.id < k.id
        · obtain ⟨k', h1, h2, h3⟩ := hx
          exact ih k' (by omega) h1 h2
        · exact ⟨k, hk, ht, fun k' h1 h2 => Nat.le_of_not_lt fun h3 => hx ⟨k', h1, h2, h3⟩⟩
    exact key k.id k (Nat.le_refl _) hk ht

/-- **C62** A file of the type that is open, or 32 open files, make the configuration read as missing. -/
theorem C62_read_busy {crc : Bytes → UInt32} {fs : FS} {ks : List Known} (hr : Hist crc fs ks) {typ n : Nat} {k : Known} (hf : FirstOf ks typ k)
    (hb : k.id ∈ fs.at'.opened ∨ 32 ≤ fs.at'.opened.length) : Config.read crc n fs typ = (.ok none, fs) := by
  obtain ⟨files, leak, f, hfs, hs, hm, rfl, hfind⟩ := first_some hr hf
  have hid := (hs.ok f hm).id
  unfold Config.read
  rw [hfind]
  simp only
  rw [hid]
  rcases openRead_spec hs hm with ⟨_, g⟩ | ⟨_, g⟩ | ⟨g1, g2, g⟩
  · rw [g]
  · rw [g]
  · rcases hb with hb | hb
    · exact absurd hb g1
    · omega

theorem withoutType_rest {fs : FS} {ks : List Known} {typ : Nat} (h : AtRest fs ks typ) : ∀ k ∈ withoutType typ fs.at'.opened ks, k.typ ≠ typ := by
  intro k hk ht
  obtain ⟨h1, h2⟩ := List.mem_filter.mp hk
  rw [ht] at h2
  simp only [beq_self_eq_true, Bool.not_true, Bool.false_or, decide_eq_true_eq] at h2
  exact (h k h1 ht).2.2.1 h2

/-- **C62** After a successful write the configuration is read back, and all other files are still there with their content. -/
theorem C62_write_read {crc : Bytes → UInt32} {fs fs' : FS} {ks : List Known} (hr : Hist crc fs ks) {typ : Nat} (ha : AtRest fs ks typ)
    (hcap : ks.length < 2518) (ht : typ < 0x4000) (hseq : fs.at'.seq + 3 < 2 ^ 64) (hid : fs.at'.maxId + 2 < 2 ^ 64)
    (hlen : fs.at'.opened.length < 32) (bytes : Bytes) (rng1 : Nat → Nat) (rng2 : Nat → Nat × Nat)
    (hw : Config.write crc fs typ bytes rng1 rng2 = (.ok (), fs')) :
    Config.read crc bytes.length fs' typ = (.ok (some bytes), fs') ∧ fs'.at'.opened = fs.at'.opened ∧
    (∃ id, fs.at'.maxId < id ∧ Hist crc fs' (ks.filter (fun k => !(k.typ == typ)) ++ [⟨id, typ, bytes, bytes, [], none, false, false⟩])) ∧
    ∀ k ∈ ks, k.typ ≠ typ → k.writer = none → k.damaged = false → k.maybe = [] → k.id ∉ fs.at'.opened → ReadsAs crc fs' k.id k.data := by
  have he : withoutType typ fs.at'.opened ks = ks.filter (fun k => !(k.typ == typ)) := by
    refine List.filter_congr fun k hk => ?_
    by_cases h : k.typ = typ
    · simp [h, (ha k hk h).2.2.1]
    · simp [h]
  rcases configWrite_spec hr ha.safe hcap ht hseq hid bytes rng1 rng2 with ⟨fs2, i, g0, g1, g2, g3⟩ | ⟨fs2, g1, _⟩ | ⟨_, _, fs2, _, _, g1⟩ | ⟨fs2, _, g1⟩ <;> rw [hw] at g1
  · injection g1 with _ g1
    subst g1
    rw [he] at g3
    refine ⟨?_, g2, ⟨i, g0, g3⟩, ?_⟩
    · refine C62_read g3 ?_ (by rw [g2]; exact hlen) (.inr ⟨⟨i, typ, bytes, bytes, [], none, false, false⟩, ⟨by simp, rfl, ?_⟩, ?_⟩)
      · intro k hk hkt
        rcases List.mem_append.mp hk with hk | hk
        · have := (List.mem_filter.mp hk).2; simp [hkt] at this
        · rw [List.mem_singleton] at hk
          subst hk
          refine ⟨rfl, rfl, ?_, rfl⟩
          rw [g2]
          intro hx
          have := hist_openIds hr _ hx
          have : i ≤ fs.at'.maxId := this
          omega
      · intro k' hk hkt
        rcases List.mem_append.mp hk with hk | hk
        · have := (List.mem_filter.mp hk).2; simp [hkt] at this
        · rw [List.mem_singleton] at hk; rw [hk]
      · unfold firstBytes; simp
    · intro k hk hkt hkw hkd hkm hko
      obtain ⟨pre, p1, p2⟩ := C10_closed_content g3 (k := k) (List.mem_append_left _ (List.mem_filter.mpr ⟨hk, by simp [hkt]⟩)) hkw hkd (by rw [g2]; exact hko) (by rw [g2]; exact hlen)
      rw [hkm] at p1
      rw [List.prefix_nil.mp p1, List.append_nil] at p2
      exact p2
  · injection g1 with g1 _; exact absurd g1 (by simp)
  · injection g1 with g1 _; exact absurd g1 (by simp)
  · injection g1 with g1 _; exact absurd g1 (by simp)

/-- **C62** Writing fails only when 32 files are open, or when the chip is full: no sector is free after the old configuration was removed, or the
sectors ran out while the new one was being written (then the dropped writer panics). Over the console every failure is a panic. -/
theorem C62_write_fails_only_when {crc : Bytes → UInt32} {fs : FS} {ks : List Known} (hr : Hist crc fs ks) {typ : Nat} (ha : AtRest fs ks typ)
    (hcap : ks.length < 2518) (ht : typ < 0x4000) (hseq : fs.at'.seq + 3 < 2 ^ 64) (hid : fs.at'.maxId + 2 < 2 ^ 64)
    (bytes : Bytes) (rng1 : Nat → Nat) (rng2 : Nat → Nat × Nat) :
    let res := Config.write crc fs typ bytes rng1 rng2
    (res.1 = .ok () ∧ setOverConsole crc fs typ bytes rng1 rng2 = some res.2) ∨
    (setOverConsole crc fs typ bytes rng1 rng2 = none ∧
      ((res.1 = .error .tooManyFilesOpen ∧ 32 ≤ fs.at'.opened.length) ∨
       (res.1 = .error .deviceFull ∧ (fs.removeFiles (ofTyp typ)).2.mng.freeBytes = 0) ∨
       (res.1 = .error .panic ∧ res.2.mng.freeBytes = 0))) := by
  intro res
  rcases configWrite_spec hr ha.safe hcap ht hseq hid bytes rng1 rng2 with ⟨fs2, i, g0, g1, _⟩ | ⟨fs2, g1, g2⟩ | ⟨n, fs1, fs2, g2, g3, g1⟩ | ⟨fs2, g2, g1⟩
  · have h1 : res = _ := g1
    rw [h1]; unfold setOverConsole; rw [g1]
    exact .inl ⟨rfl, rfl⟩
  · have h1 : res = _ := g1
    rw [h1]; unfold setOverConsole; rw [g1]
    exact .inr ⟨rfl, .inl ⟨rfl, g2⟩⟩
  · have h1 : res = _ := g1
    rw [h1]; unfold setOverConsole; rw [g1, g2]
    exact .inr ⟨rfl, .inr (.inl ⟨rfl, g3⟩)⟩
  · have h1 : res = _ := g1
    rw [h1]; unfold setOverConsole; rw [g1]
    exact .inr ⟨rfl, .inr (.inr ⟨rfl, g2⟩)⟩

/-- **C62** Power loss at any point while a configuration is written (any flash operation, torn in any way): the file system starts again, and the configuration reads as the old one, the new one, or
is missing; never as a mixture. -/
theorem C62_power_loss {crc : Bytes → UInt32} {fs : FS} {ks : List Known} (hr : Hist crc fs ks) {typ : Nat} (ha : AtRest fs ks typ)
    (hcap : ks.length < 2517) (ht : typ < 0x4000) (hseq : fs.at'.seq + 3 < 2 ^ 64) (hid : fs.at'.maxId + 2 < 2 ^ 64)
    (bytes : Bytes) (rng1 : Nat → Nat) (rng2 : Nat → Nat × Nat)
    {ops : List FlashOp} {fl' : Flash} (hi : issued fs (Config.write crc fs typ bytes rng1 rng2).2 ops) (hp : CrashImage fs.dev.flash ops fl') :
    ∃ fs'' b, FS.mount fl' = (.ok (), fs'') ∧ Config.read crc bytes.length fs'' typ = (.ok b, fs'') ∧
      (b = none ∨ b = some bytes ∨ Stores bytes.length typ ks b) := by
  obtain ⟨fs'', m1, m2, m3⟩ := configWrite_crash hr ha.safe hcap ht hseq hid bytes rng1 rng2 hi hp
  have hno : ∀ k ∈ (withoutType typ fs.at'.opened ks).map Known.afterLoss, k.typ ≠ typ := by
    intro k hk
    obtain ⟨k0, h1, rfl⟩ := List.mem_map.mp hk
    rw [(afterLoss_id k0).2]
    exact withoutType_rest ha k0 h1
  rcases m3 with m3 | m3 | ⟨k, k1, k2, kd, k3, m3⟩
  · obtain ⟨b, hb⟩ := stores_exists bytes.length typ ks
    have hsame : ∀ k ∈ ks, k.typ = typ → k.afterLoss = k := by
      intro k hk hkt
      unfold Known.afterLoss
      rw [(ha k hk hkt).1]
    refine ⟨fs'', b, m1, canRead_stored m3.disk ?_ (by rw [m2]; decide) ?_, .inr (.inr hb)⟩
    · intro k hk hkt
      obtain ⟨k0, h1, rfl⟩ := List.mem_map.mp hk
      rw [(afterLoss_id k0).2] at hkt
      rw [hsame k0 h1 hkt, m2]
      exact ⟨(ha k0 h1 hkt).1, (ha k0 h1 hkt).2.1, List.not_mem_nil, (ha k0 h1 hkt).2.2.2⟩
    · rcases hb with ⟨h, rfl⟩ | ⟨k, ⟨h1, h2, h3⟩, rfl⟩
      · refine .inl ⟨fun k hk => ?_, rfl⟩
        obtain ⟨k0, h1, rfl⟩ := List.mem_map.mp hk
        rw [(afterLoss_id k0).2]; exact h k0 h1
      · refine .inr ⟨k, ⟨List.mem_map.mpr ⟨k, h1, hsame k h1 h2⟩, h2, fun k' hk' hkt => ?_⟩, rfl⟩
        obtain ⟨k0, g1, rfl⟩ := List.mem_map.mp hk'
        rw [(afterLoss_id k0).2] at hkt
        rw [(afterLoss_id k0).1]
        exact h3 k0 g1 hkt
  · exact ⟨fs'', none, m1, canRead_noConfig m3.disk hno, .inl rfl⟩
  · have hfirst : FirstOf ((withoutType typ fs.at'.opened ks).map Known.afterLoss ++ [k]) typ k := by
      refine ⟨by simp, k1, fun k' hk' hkt => ?_⟩
      rcases List.mem_append.mp hk' with hk' | hk'
      · exact absurd hkt (hno k' hk')
      · rw [List.mem_singleton] at hk'; rw [hk']
    obtain ⟨pre, p1, p2⟩ := canRead_config m3.disk hfirst (n := bytes.length) k2 kd (by rw [m2]; exact List.not_mem_nil) (by rw [m2]; decide)
    refine ⟨fs'', _, m1, p2, ?_⟩
    have hpre : k.data ++ pre <+: bytes := ((List.prefix_append_right_inj _).mpr p1).trans k3
    by_cases hn : bytes.length ≤ (k.data ++ pre).length
    · rw [if_pos hn]
      have : k.data ++ pre = bytes := hpre.eq_of_length (by have := hpre.length_le; omega)
      rw [this, List.take_length]
      exact .inr (.inl rfl)
    · rw [if_neg hn]; exact .inl rfl

/-- **C62** (finding) The update is not atomic: whatever is written, there is a point at which power loss leaves no configuration. -/
theorem C62_update_can_lose_configuration {crc : Bytes → UInt32} {fs : FS} {ks : List Known} (hr : Hist crc fs ks) {typ : Nat} (ha : AtRest fs ks typ)
    (hcap : ks.length < 2517) (ht : typ < 0x4000) (hseq : fs.at'.seq + 3 < 2 ^ 64) (hid : fs.at'.maxId + 2 < 2 ^ 64)
    (bytes : Bytes) (rng1 : Nat → Nat) (rng2 : Nat → Nat × Nat) (n : Nat) :
    ∃ ops fl' fs'', issued fs (Config.write crc fs typ bytes rng1 rng2).2 ops ∧ PageCrash fs.dev.flash ops fl' ∧ FS.mount fl' = (.ok (), fs'') ∧
      Config.read crc n fs'' typ = (.ok none, fs'') := by
  obtain ⟨_, fs1, os1, os2, g1, d1, e1, e2⟩ := configWrite_dev hr ha.safe hcap ht hseq hid bytes rng1 rng2
  have hr1 := hr.step (.dir d1)
  obtain ⟨fs'', m1, _, m3, _⟩ := step_restart (hist_inv hr1)
  refine ⟨os1 ++ os2, fs1.dev.flash, fs'', by show _ = _; rw [e2]; rfl, ?_, m1, configRead_none (.restart hr1 m1) ?_⟩
  · rw [e1]; exact .between os1 os2 rfl
  · intro k hk
    obtain ⟨k0, h1, rfl⟩ := List.mem_map.mp hk
    rw [(afterLoss_id k0).2]
    exact withoutType_rest ha k0 h1

/-- **C62** (finding) An old configuration that is open while a new one is written (it is being pulled over the console) is kept, and once it is
closed it is read instead of the new one. -/
theorem C62_open_old_configuration_wins {crc : Bytes → UInt32} {fs fs' : FS} {ks : List Known} (hr : Hist crc fs ks) {typ n : Nat} {k : Known}
    (hf : FirstOf ks typ k) (hw : k.writer = none) (hdm : k.damaged = false) (hm : k.maybe = []) (ho : k.id ∈ fs.at'.opened) (hsafe : ∀ k ∈ ks, k.typ = typ → k.safe)
    (hcap : ks.length < 2518) (ht : typ < 0x4000) (hseq : fs.at'.seq + 3 < 2 ^ 64) (hid : fs.at'.maxId + 2 < 2 ^ 64) (hlen : fs.at'.opened.length ≤ 32)
    (bytes : Bytes) (rng1 : Nat → Nat) (rng2 : Nat → Nat × Nat) (hwr : Config.write crc fs typ bytes rng1 rng2 = (.ok (), fs')) (r : FileReader) (hrid : r.id = k.id) :
    (Config.read crc n (fs'.closeReader r) typ).1 = .ok (firstBytes n k.data) := by
  rcases configWrite_spec hr hsafe hcap ht hseq hid bytes rng1 rng2 with ⟨fs2, i, g0, g1, g2, g3⟩ | ⟨fs2, g1, _⟩ | ⟨_, _, fs2, _, _, g1⟩ | ⟨fs2, _, g1⟩ <;> rw [hwr] at g1
  case inr.inl => injection g1 with g1 _; exact absurd g1 (by simp)
  case inr.inr.inl => injection g1 with g1 _; exact absurd g1 (by simp)
  case inr.inr.inr => injection g1 with g1 _; exact absurd g1 (by simp)
  injection g1 with _ g1
  subst g1
  have hki : k.id < i := by
    have := hist_openIds hr _ ho
    omega
  have hmem : k ∈ withoutType typ fs.at'.opened ks := List.mem_filter.mpr ⟨hf.1, by simp [ho]⟩
  have hr2 := g3.step (.closeRead r (by
    intro k' hk' hid' hws
    exfalso
    rcases List.mem_append.mp hk' with hk' | hk'
    · have hk1 := (List.mem_filter.mp hk').1
      have : k' = k := by
        obtain ⟨files, leak, hfl, hs⟩ := hist_inv hr
        rw [← hfl] at hk1
        have hk2 := hf.1
        rw [← hfl] at hk2
        obtain ⟨f1, a1, b1⟩ := List.mem_map.mp hk1
        obtain ⟨f2, a2, b2⟩ := List.mem_map.mp hk2
        have : f1.e.id = f2.e.id := by rw [(hs.ok f1 a1).id, (hs.ok f2 a2).id, b1, b2, hid', hrid]
        obtain ⟨as, bs, rfl⟩ := List.append_of_mem a2
        have e12 : f1 = f2 := by
          simp only [List.mem_append, List.mem_cons] at a1
          have hidk : f1.k.id = f2.k.id := by rw [b1, b2, hid', hrid]
          rcases a1 with a1 | a1 | a1
          · exact absurd hidk (hs.idNe (List.mem_append_left _ a1))
          · exact a1
          · exact absurd hidk (hs.idNe (List.mem_append_right _ a1))
        rw [← b1, ← b2, e12]
      rw [this, hw] at hws
      exact absurd hws (by simp)
    · rw [List.mem_singleton] at hk'
      subst hk'
      have : i = r.id := hid'
      omega))
  have hnd := hist_nodup g3
  have hop : fs'.at'.opened = fs.at'.opened := g2
  have hgone : k.id ∉ (fs'.closeReader r).at'.opened := by
    show k.id ∉ (fs'.markClosed r.id).at'.opened
    rw [hrid]; exact markClosed_gone hnd
  have hl2 : (fs'.closeReader r).at'.opened.length < 32 := by
    have hp := (markClosed_perm (fs := fs') (id := r.id) (by rw [hop, hrid]; exact ho)).length_eq
    rw [hop] at hp
    simp only [List.length_cons] at hp
    show (fs'.markClosed r.id).at'.opened.length < 32
    omega
  have hfirst : FirstOf (withoutType typ fs.at'.opened ks ++ [⟨i, typ, bytes, bytes, [], none, false, false⟩]) typ k := by
    refine ⟨List.mem_append_left _ hmem, hf.2.1, fun k' hk' hkt => ?_⟩
    rcases List.mem_append.mp hk' with hk' | hk'
    · exact hf.2.2 k' (List.mem_filter.mp hk').1 hkt
    · rw [List.mem_singleton] at hk'; rw [hk']; exact Nat.le_of_lt hki
  obtain ⟨pre, p1, p2⟩ := configRead_spec hr2 hfirst (n := n) hw hdm hgone hl2
  rw [hm] at p1
  rw [p2, List.prefix_nil.mp p1, List.append_nil]
  rfl

/-- **C62** A configuration of fewer than 252 bytes is always written when fewer than 32 files are open and a sector is free once the old one is removed. -/
theorem C62_small_written {crc : Bytes → UInt32} {fs : FS} {ks : List Known} (hr : Hist crc fs ks) {typ : Nat} (ha : ∀ k ∈ ks, k.typ = typ → k.safe)
    (hcap : ks.length < 2518) (ht : typ < 0x4000) (hseq : fs.at'.seq + 3 < 2 ^ 64) (hid : fs.at'.maxId + 2 < 2 ^ 64) (hlen : fs.at'.opened.length < 32)
    (hfree : 0 < (fs.removeFiles (ofTyp typ)).2.mng.freeBytes) (bytes : Bytes) (h0 : 0 < bytes.length) (hb : bytes.length < 252)
    (rng1 : Nat → Nat) (rng2 : Nat → Nat × Nat) : ∃ fs', Config.write crc fs typ bytes rng1 rng2 = (.ok (), fs') := by
  obtain ⟨n, fs1, e, fs2, g1, d1, g2, d2, hok2, hop, heid, hmng⟩ := configWrite_open hr ha hcap ht hseq hid
  have hr1 := hr.step (.dir d1)
  have hnot : e.id ∉ fs2.at'.opened := by
    rw [hop]; intro hx; have := hist_openIds hr _ hx; omega
  rw [g1] at hfree
  obtain ⟨files, leak, hf, hs⟩ := hist_inv hr1
  have hl : files.length < 2518 := by
    have : files.length = (withoutType typ fs.at'.opened ks).length := by rw [← hf, List.length_map]
    rw [this]
    exact Nat.lt_of_le_of_lt (List.length_filter_le ..) hcap
  obtain ⟨q1, q2⟩ := dirStep_counters hr d1
  obtain ⟨c1, _, s2⟩ := create_sys hs g2 hl ht (dirStep_inv (hist_inv hr1) d2).2.2
  obtain ⟨new, fs3, o1, _, s3⟩ := openWrite_fresh (bs := []) s2 rfl rfl c1 hnot (by rw [hop]; exact hlen) hok2 (by rw [hmng]; exact hfree) rng1
  obtain ⟨first, f1, f2⟩ := s3.wst rfl
  obtain ⟨t1, _, _⟩ := extend_small f2 rng2 bytes h0 (by simpa using hb)
  have o1 : fs2.openForWrite e.id rng1 = (.ok (FileWriter.new new e.id), fs3) := o1
  unfold Config.write
  simp only [g1, g2, o1]
  obtain ⟨x, w', fs4, hx⟩ : ∃ x w' fs4, fs3.extendWriter crc (FileWriter.new new e.id) rng2 bytes = (x, w', fs4) := ⟨_, _, _, rfl⟩
  have : x = .ok () := by
    have h1 : (fs3.extendWriter crc (FileWriter.new new e.id) rng2 bytes).1 = .ok () := t1
    rw [hx] at h1; exact h1
  subst this
  rw [hx]
  exact ⟨_, rfl⟩

/-- a stored configuration is replaced: the hypotheses of the theorems above and of the ones below are met -/
theorem config_demo (crc : Bytes → UInt32) : ∃ fs fs', Hist crc fs [⟨1, 5, [1, 2, 3], [1, 2, 3], [], none, false, false⟩] ∧
    AtRest fs [⟨1, 5, [1, 2, 3], [1, 2, 3], [], none, false, false⟩] 5 ∧ fs.at'.opened = [] ∧ fs.at'.seq = 3 ∧ fs.at'.maxId = 1 ∧
    Config.write crc fs 5 [4, 5, 6, 7] (fun _ => 0) (fun _ => (0, 0)) = (.ok (), fs') := by
  obtain ⟨fs, s, hr, ho, hs, h4, h5⟩ := demo_closed crc
  have ha : AtRest fs [⟨1, 5, [1, 2, 3], [1, 2, 3], [], none, false, false⟩] 5 := by
    intro k hk _
    rw [List.mem_singleton] at hk
    subst hk
    rw [ho]
    exact ⟨rfl, rfl, List.not_mem_nil, rfl⟩
  have hfree : 0 < (fs.removeFiles (ofTyp 5)).2.mng.freeBytes := by
    refine Nat.lt_of_lt_of_le ?_ (remove_free hs (fun _ t => t == 5) (fun k hk h => ?_) ⟨by rw [h4]; decide, by rw [h5]; decide⟩)
    · rw [(freeBytes_eq hs.inv).1]; simp [FileSt.own, secs]
    · exact ha.safe k hk (by simpa using h)
  obtain ⟨fs', hw⟩ := C62_small_written hr ha.safe (by decide) (by decide) (by rw [h4]; decide) (by rw [h5]; decide) (by rw [ho]; decide) hfree [4, 5, 6, 7] (by decide) (by decide)
    (fun _ => 0) (fun _ => (0, 0))
  exact ⟨fs, fs', hr, ha, ho, h4, h5, hw⟩

theorem damaged_none (crc : Bytes → UInt32) (fs fs1 : FS) (typ n : Nat) (e : FileEntry) (l : List Nat) (hf : fs.findFirstFile (ofTyp typ) = .ok (some e))
    (ho : fs.openForRead e.id = (.ok (FileReader.new e.first e.id), fs1)) (hfl : fs1.dev = fs.dev) (hc : Chain fs.dev.flash e.first l) (hl : l.length ≤ 16384)
    (hn : (l.map (sectorLength fs.dev.flash)).sum ≤ n) (hbad : ∃ a, Item.bad a ∈ fileItems crc fs.dev.flash l) :
    (Config.read crc n fs typ).1 = .ok none := by
  have hR := RInv_new (crc := crc) hc e.id
  obtain ⟨b, r', h1, _, h3⟩ := readExact_spec n (n + 1) _ _ _ [] hR (by omega) (by simp) (by simp)
  rw [read_eq hf ho (by rw [hfl]; exact h1) rfl]
  cases b with
  | none => rfl
  | some d =>
    exfalso
    obtain ⟨g1, g2⟩ := h3 d rfl
    have := (fileItems_count crc fs.dev.flash l).2 hbad
    have g2 := g2.length_le
    rw [List.nil_append] at g2
    omega

theorem stored_length {crc : Bytes → UInt32} {fl : Flash} {o : Option Nat} {l : List (Nat × Bytes)} (h : Stored crc fl o l) :
    ((secs l).map (sectorLength fl)).sum = (bytesOf l).length := by
  induction h with
  | nil => rfl
  | cons s D next l h ht ih =>
    show sectorLength fl s + ((secs l).map (sectorLength fl)).sum = (D ++ bytesOf l).length
    rw [ih, List.length_append]
    congr 1
    obtain ⟨n, h1, h2⟩ := h.size
    unfold sectorLength
    rw [h1]
    rcases h2 with ⟨h2, h3⟩ | ⟨h2, h3⟩
    · simp only; rw [if_pos h3, h2]
    · simp only; rw [h2, h3]; rfl

theorem chain_same {fl : Flash} {o : Option Nat} {l : List Nat} (h : Chain fl o l) : ∀ {l' : List Nat}, Chain fl o l' → l' = l := by
  induction h with
  | nil => intro l' h'; cases h'; rfl
  | cons s next l hm ht ih =>
    intro l' h'
    cases h' with
    | cons _ next' l'' hm' ht' =>
      rw [hm] at hm'
      injection hm' with hm'
      subst hm'
      rw [ih ht']

theorem find_dir {fs : FS} {es : List FileEntry} (hd : DirInv fs es) {e : FileEntry} (he : e ∈ es) : ∃ j, fs.findFileEntry e.id = .ok (some (e, j)) := by
  rcases findFileEntry_spec hd.holds hd.sorted hd.count e.id with ⟨j, hj, h1, h2⟩ | ⟨hne, _⟩
  · refine ⟨j, ?_⟩
    rw [h2, sorted_unique hd.sorted (List.getElem_mem hj) he h1]
  · exact absurd rfl (hne e he)

/-- the same file system over a chip with other content -/
def onChip (fs : FS) (fl : Flash) : FS := { fs with dev := { fs.dev with flash := fl } }

/-- what the damaged chip looks like to `find_first_file` and to the reader -/
theorem damaged_setup {crc : Bytes → UInt32} {fs : FS} {ks : List Known} (hr : Hist crc fs ks) {typ : Nat} {k : Known} (hf : FirstOf ks typ k)
    (hw : k.writer = none) (hdm : k.damaged = false) (hm : k.maybe = []) (ho : k.id ∉ fs.at'.opened) (hlen : fs.at'.opened.length < 32) (fl' : Flash)
    (hlow : ∀ a, a < 32 * 4096 → fs.dev.flash a = fl' a) {e : FileEntry} {l : List Nat} (he : fs.findFirstFile (ofTyp typ) = .ok (some e))
    (hl : Chain fs.dev.flash e.first l) (htail : ∀ s ∈ l, ∀ i, 4080 ≤ i → i < 4096 → fs.dev.flash (s * 4096 + i) = fl' (s * 4096 + i))
    (hbad : ∃ a, Item.bad a ∈ fileItems crc fl' l) :
    ∃ fs1, (onChip fs fl').findFirstFile (ofTyp typ) = .ok (some e) ∧ (onChip fs fl').openForRead e.id = (.ok (FileReader.new e.first e.id), fs1) ∧ fs1.dev = (onChip fs fl').dev ∧
      Chain fl' e.first l ∧ l.length ≤ 16384 ∧ (l.map (sectorLength fl')).sum = k.data.length := by
  obtain ⟨files, leak, f, hfs, hs, hmem, rfl, hfind⟩ := first_some hr hf
  rw [hfind] at he
  injection he with he
  injection he with he
  subst he
  have hst := ((hs.ok f hmem).closed hw hdm)
  obtain ⟨pre, hpre, hdat⟩ := hst.2
  rw [hm] at hpre
  have hl' := chain_same hst.1.chain hl
  subst hl'
  have hdir : DirInv (onChip fs fl') (files.map (·.e)) := hs.reach.dir.congr (fs' := onChip fs fl') hlow rfl rfl rfl rfl
  have hfind' : (onChip fs fl').findFirstFile (ofTyp typ) = .ok (some f.e) := by
    rw [findFirst_dir hdir]; rw [findFirst_dir hs.reach.dir] at hfind; exact hfind
  have hid := (hs.ok f hmem).id
  have hread : ∀ s ∈ secs f.segs, ∀ o n, 4080 ≤ o → o + n ≤ 4096 → fs.dev.flash.read (s * 4096 + o) n = fl'.read (s * 4096 + o) n := by
    intro s hsm o n h1 h2
    refine List.map_congr_left fun i hi => ?_
    rw [List.mem_range] at hi
    have := htail s hsm (o + i) (by omega) (by omega)
    rw [Nat.add_assoc]
    exact this
  have hc' : Chain fl' f.e.first (secs f.segs) := by
    refine Chain.congr hl fun s hsm => ?_
    have := hread s hsm 4088 8 (by omega) (by omega)
    rw [show s * 4096 + 4096 - 8 = s * 4096 + 4088 by omega]
    exact this
  have hlen' : ((secs f.segs).map (sectorLength fl')).sum = f.k.data.length := by
    have h1 : (secs f.segs).map (sectorLength fl') = (secs f.segs).map (sectorLength fs.dev.flash) := by
      refine List.map_congr_left fun s hsm => ?_
      unfold sectorLength
      rw [hread s hsm 4080 8 (by omega) (by omega)]
    rw [h1, stored_length hst.1]
    rw [List.prefix_nil.mp hpre, List.append_nil] at hdat
    rw [hdat]
  have hown := hs.own_data hmem
  unfold FileSt.own at hown
  rw [hw] at hown
  refine ⟨{ onChip fs fl' with at' := { fs.at' with opened := fs.at'.opened ++ [f.e.id] } }, hfind', ?_, rfl, hc', data_length hown.1 hown.2, hlen'⟩
  obtain ⟨j, hj⟩ := find_dir hdir (List.mem_map.mpr ⟨f, hmem, rfl⟩)
  unfold FS.openForRead
  rw [hj]
  simp only
  rw [if_neg (fun hx => ho (by rw [← hid]; exact (isOpened_iff _ _).mp hx)), markOpened_ok (fs := onChip fs fl') hlen]
  rfl

/-- **C62** A damaged configuration is not used: if data of the file that holds the configuration was altered on the chip (`fl'`; directory and the
last 16 bytes of its sectors, which hold the length and the next sector, are intact), and a page fails its checksum, reading returns none. -/
theorem C62_damaged_none {crc : Bytes → UInt32} {fs : FS} {ks : List Known} (hr : Hist crc fs ks) {typ : Nat} {k : Known} (hf : FirstOf ks typ k)
    (hw : k.writer = none) (hdm : k.damaged = false) (hm : k.maybe = []) (ho : k.id ∉ fs.at'.opened) (hlen : fs.at'.opened.length < 32) (fl' : Flash)
    (hlow : ∀ a, a < 32 * 4096 → fs.dev.flash a = fl' a) {e : FileEntry} {l : List Nat} (he : fs.findFirstFile (ofTyp typ) = .ok (some e))
    (hl : Chain fs.dev.flash e.first l) (htail : ∀ s ∈ l, ∀ i, 4080 ≤ i → i < 4096 → fs.dev.flash (s * 4096 + i) = fl' (s * 4096 + i))
    (hbad : ∃ a, Item.bad a ∈ fileItems crc fl' l) :
    (Config.read crc k.data.length (onChip fs fl') typ).1 = .ok none := by
  obtain ⟨fs1, h1, h2, h3, h4, h5, h6⟩ := damaged_setup hr hf hw hdm hm ho hlen fl' hlow he hl htail hbad
  exact damaged_none crc (onChip fs fl') fs1 typ k.data.length e l h1 h2 h3 h4 h5 (by rw [← h6]; exact Nat.le_refl _) hbad

/-- the configuration is replaced and read back -/
example (crc : Bytes → UInt32) : ∃ fs fs' : FS, (Config.read crc 3 fs 5).1 = .ok (some [1, 2, 3]) ∧
    Config.write crc fs 5 [4, 5, 6, 7] (fun _ => 0) (fun _ => (0, 0)) = (.ok (), fs') ∧ (Config.read crc 4 fs' 5).1 = .ok (some [4, 5, 6, 7]) := by
  obtain ⟨fs, fs', hr, ha, ho, h4, h5, hw⟩ := config_demo crc
  refine ⟨fs, fs', ?_, hw, ?_⟩
  · rw [C62_read hr ha (by rw [ho]; decide) (b := some [1, 2, 3]) (.inr ⟨_, ⟨List.mem_singleton.mpr rfl, rfl, fun k hk _ => ?_⟩, rfl⟩)]
    rw [List.mem_singleton] at hk
    rw [hk]
  · have := (C62_write_read hr ha (by decide) (by decide) (by rw [h4]; decide) (by rw [h5]; decide) (by rw [ho]; decide) _ _ _ hw).1
    exact congrArg Prod.fst this

/-- power loss while it is replaced: the hypotheses are met, and one possible outcome is that there is no configuration -/
example (crc : Bytes → UInt32) : ∃ fs ops fl' fs'', (Config.read crc 3 fs 5).1 = .ok (some [1, 2, 3]) ∧
    issued fs (Config.write crc fs 5 [4, 5, 6, 7] (fun _ => 0) (fun _ => (0, 0))).2 ops ∧ PageCrash fs.dev.flash ops fl' ∧ FS.mount fl' = (.ok (), fs'') ∧
    (Config.read crc 4 fs'' 5).1 = .ok none ∧
    ∃ fs3 b, FS.mount fl' = (.ok (), fs3) ∧ Config.read crc 4 fs3 5 = (.ok b, fs3) ∧ (b = none ∨ b = some [4, 5, 6, 7] ∨
      Stores 4 5 [⟨1, 5, [1, 2, 3], [1, 2, 3], [], none, false, false⟩] b) := by
  obtain ⟨fs, fs', hr, ha, ho, h4, h5, hw⟩ := config_demo crc
  obtain ⟨ops, fl', fs'', g1, g2, g3, g4⟩ := C62_update_can_lose_configuration hr ha (by decide) (by decide) (by rw [h4]; decide) (by rw [h5]; decide) [4, 5, 6, 7]
    (fun _ => 0) (fun _ => (0, 0)) 4
  refine ⟨fs, ops, fl', fs'', ?_, g1, g2, g3, by rw [g4], ?_⟩
  · rw [C62_read hr ha (by rw [ho]; decide) (b := some [1, 2, 3]) (.inr ⟨_, ⟨List.mem_singleton.mpr rfl, rfl, fun k hk _ => ?_⟩, rfl⟩)]
    rw [List.mem_singleton] at hk
    rw [hk]
  · exact C62_power_loss hr ha (by decide) (by decide) (by rw [h4]; decide) (by rw [h5]; decide) [4, 5, 6, 7] _ _ g1 g2.crashImage

/-- the old configuration is being read while the new one is written: afterwards the old one is still in effect -/
example (crc : Bytes → UInt32) : ∃ fs fs1 fs2 : FS, ∃ r, fs.openForRead 1 = (.ok r, fs1) ∧
    Config.write crc fs1 5 [4, 5, 6, 7] (fun _ => 0) (fun _ => (0, 0)) = (.ok (), fs2) ∧ (Config.read crc 3 (fs2.closeReader r) 5).1 = .ok (some [1, 2, 3]) := by
  obtain ⟨fs, s, hr, ho, hsys, h4, h5⟩ := demo_closed crc
  rcases openRead_spec hsys (f := ⟨⟨1, 5, [1, 2, 3], [1, 2, 3], [], none, false, false⟩, ⟨1, 5, some s⟩, [(s, [1, 2, 3])], []⟩) (by simp) with ⟨g, _⟩ | ⟨g, _⟩ | ⟨_, _, g⟩
  · rw [ho] at g; exact absurd g (by simp)
  · rw [ho] at g; exact absurd g (by simp)
  · have hr' := hr.step (Step.openRead (crc := crc) 1)
    rw [g] at hr'
    have hs2 : Sys crc { fs with at' := { fs.at' with opened := fs.at'.opened ++ [1] } }
        [⟨⟨1, 5, [1, 2, 3], [1, 2, 3], [], none, false, false⟩, ⟨1, 5, some s⟩, [(s, [1, 2, 3])], []⟩] [] :=
      hsys.opened rfl rfl rfl rfl rfl rfl (fun g _ _ _ hg => List.mem_append_left _ hg)
    have hsafe : ∀ k ∈ [(⟨1, 5, [1, 2, 3], [1, 2, 3], [], none, false, false⟩ : Known)], k.typ = 5 → k.safe := by
      intro k hk _
      rw [List.mem_singleton] at hk
      subst hk
      intro h; exact absurd h (by simp)
    have hq : fs.at'.seq + 3 < 2 ^ 64 := by rw [h4]; decide
    have hi : fs.at'.maxId + 2 < 2 ^ 64 := by rw [h5]; decide
    have hfree : 0 < (FS.removeFiles { fs with at' := { fs.at' with opened := fs.at'.opened ++ [1] } } (ofTyp 5)).2.mng.freeBytes := by
      refine Nat.lt_of_lt_of_le ?_ (remove_free hs2 (fun _ t => t == 5) (fun k hk h => hsafe k hk (by simpa using h))
        ⟨Nat.lt_of_le_of_lt (Nat.add_le_add_left (by decide) _) hq, Nat.lt_of_le_of_lt (Nat.add_le_add_left (by decide) _) hi⟩)
      rw [(freeBytes_eq hs2.inv).1]; simp [FileSt.own, secs]
    obtain ⟨fs2, hw⟩ := C62_small_written hr' hsafe (by decide) (by decide) hq hi (by simp [ho]) hfree [4, 5, 6, 7] (by decide) (by decide) (fun _ => 0) (fun _ => (0, 0))
    refine ⟨fs, _, fs2, _, g, hw, ?_⟩
    refine C62_open_old_configuration_wins hr' (k := ⟨1, 5, [1, 2, 3], [1, 2, 3], [], none, false, false⟩) ⟨List.mem_singleton.mpr rfl, rfl, fun k hk _ => ?_⟩ rfl rfl rfl (by simp)
      hsafe (by decide) (by decide) hq hi (by simp [ho]) _ _ _ hw _ rfl
    rw [List.mem_singleton] at hk
    rw [hk]

/-- a checksum for the example: the first byte -/
def firstCrc (b : Bytes) : UInt32 := (b.getD 0 0).toUInt32

/-- the first byte of the stored configuration changes on the chip -/
example : ∃ fs fl', (Config.read firstCrc 3 fs 5).1 = .ok (some [1, 2, 3]) ∧ (Config.read firstCrc 3 (onChip fs fl') 5).1 = .ok none := by
  obtain ⟨fs, s, hr, ho, hs, h4, h5⟩ := demo_closed firstCrc
  have hin : 32 ≤ s := ((hs.own_data (f := ⟨⟨1, 5, [1, 2, 3], [1, 2, 3], [], none, false, false⟩, ⟨1, 5, some s⟩, [(s, [1, 2, 3])], []⟩) (by simp)).2 s (by simp [FileSt.own, secs])).1
  have hfirst : FirstOf [⟨1, 5, [1, 2, 3], [1, 2, 3], [], none, false, false⟩] 5 ⟨1, 5, [1, 2, 3], [1, 2, 3], [], none, false, false⟩ :=
    ⟨List.mem_singleton.mpr rfl, rfl, fun k hk _ => by rw [List.mem_singleton] at hk; rw [hk]⟩
  have ha : AtRest fs [⟨1, 5, [1, 2, 3], [1, 2, 3], [], none, false, false⟩] 5 := by
    intro k hk _
    rw [List.mem_singleton] at hk
    subst hk
    rw [ho]
    exact ⟨rfl, rfl, List.not_mem_nil, rfl⟩
  have hfl := hs.ok ⟨⟨1, 5, [1, 2, 3], [1, 2, 3], [], none, false, false⟩, ⟨1, 5, some s⟩, [(s, [1, 2, 3])], []⟩ (by simp)
  have hst := (hfl.closed rfl rfl).1
  refine ⟨fs, fun a => if a = s * 4096 then 9 else fs.dev.flash a, ?_, ?_⟩
  · rw [C62_read hr ha (by rw [ho]; decide) (b := some [1, 2, 3]) (.inr ⟨_, hfirst, rfl⟩)]
  · refine C62_damaged_none hr hfirst rfl rfl rfl (by rw [ho]; exact List.not_mem_nil) (by rw [ho]; decide) _ ?_ (e := ⟨1, 5, some s⟩) (l := [s]) ?_ hst.chain ?_ ?_
    · intro a h
      rw [if_neg (by omega)]
    · rw [findFirst_dir hs.reach.dir]; rfl
    · intro x hx i h1 h2
      rw [List.mem_singleton] at hx
      subst hx
      rw [if_neg (by omega)]
    · have hit := hst.items
      have hlen : sectorLength fs.dev.flash s = 3 := stored_length hst
      generalize hg : (fun a => if a = s * 4096 then (9 : UInt8) else fs.dev.flash a) = g
      have hread : ∀ a n, s * 4096 < a → Flash.read g a n = fs.dev.flash.read a n := by
        intro a n h
        refine List.map_congr_left fun i _ => ?_
        rw [← hg]
        exact if_neg (by omega)
      have hlen' : sectorLength g s = 3 := by
        rw [← hlen]
        unfold sectorLength
        rw [hread _ _ (by omega)]
      have h1 : fileItems firstCrc g [s] = pageItems firstCrc g s 3 0 := by
        unfold fileItems sectorItems
        rw [List.flatMap_cons, hlen']
        simp [List.range_succ]
      have h2 : fileItems firstCrc fs.dev.flash [s] = pageItems firstCrc fs.dev.flash s 3 0 := by
        unfold fileItems sectorItems
        rw [List.flatMap_cons, hlen]
        simp [List.range_succ]
      have hit : fileItems firstCrc fs.dev.flash [s] = [.byte 1, .byte 2, .byte 3] := hit
      rw [h2] at hit
      refine ⟨s * 4096 + 256 * 0, ?_⟩
      rw [h1]
      have e0 : fs.dev.flash (s * 4096) = 1 := by
        unfold pageItems at hit
        simp only at hit
        split at hit
        · have : (Flash.read fs.dev.flash (s * 4096 + 256 * 0) (min (3 - 252 * 0) 252)).map Item.byte = _ := hit
          simp [Flash.read, List.range_succ] at this
          exact this.1
        · simp at hit
      have hc : (firstCrc (fs.dev.flash.read (s * 4096 + 256 * 0) 4)).toNat = beNat (fs.dev.flash.read (s * 4096 + 256 * 0 + 4) 4) := by
        refine Classical.byContradiction fun hne => ?_
        unfold pageItems at hit
        simp only at hit
        split at hit
        · rename_i hx; exact hne hx
        · simp at hit
      have c1 : firstCrc (fs.dev.flash.read (s * 4096 + 256 * 0) 4) = 1 := by
        simp [firstCrc, Flash.read, List.range_succ, e0]
      have c2 : firstCrc (Flash.read g (s * 4096 + 256 * 0) 4) = 9 := by
        simp [firstCrc, Flash.read, List.range_succ, ← hg]
      unfold pageItems
      simp only
      rw [if_neg]
      · simp
      · intro hx
        have hx : (firstCrc (Flash.read g (s * 4096 + 256 * 0) 4)).toNat = beNat (Flash.read g (s * 4096 + 256 * 0 + 4) 4) := hx
        rw [hread (s * 4096 + 256 * 0 + 4) 4 (by omega), ← hc, c1, c2] at hx
        exact absurd hx (by decide)

end Verif.Props
