import Verif.Model.FileTypes
import Verif.Props.ConfigFile
import Verif.Model.CalibrationFile
/-
C86: the file with the calibration parameters.
-/
namespace Verif.Props
open Verif Verif.Vlfs Verif.Spec Verif.Config Verif.CalFile

theorem word_le (w : UInt32) (pre post : Bytes) : word (pre ++ le w ++ post) pre.length = w := by
  have h : ∀ i, (pre ++ le w ++ post).getD (pre.length + i) 0 = (le w ++ post).getD i 0 := by
    intro i
    rw [List.append_assoc]
    rw [List.getD_eq_getElem?_getD, List.getD_eq_getElem?_getD, List.getElem?_append_right (by omega), Nat.add_sub_cancel_left]
  unfold word
  rw [show pre.length = pre.length + 0 from rfl, h 0, show pre.length + 0 + 1 = pre.length + 1 from rfl, h 1, show pre.length + 0 + 2 = pre.length + 2 from rfl, h 2,
    show pre.length + 0 + 3 = pre.length + 3 from rfl, h 3]
  have hw := w.toNat_lt
  apply UInt32.toNat_inj.mp
  simp only [le, List.cons_append, List.nil_append, List.getD_cons_zero, List.getD_cons_succ]
  rw [UInt32.toNat_ofNat']
  simp only [UInt8.toNat_ofNat']
  omega

theorem flat_length (ws : List UInt32) : (ws.flatMap le).length = 4 * ws.length := by
  induction ws with
  | nil => rfl
  | cons w ws ih => rw [List.flatMap_cons, List.length_append, ih]; simp only [le, List.length_cons, List.length_nil]; omega

theorem word_flat : ∀ (ws : List UInt32) (k : Nat), k < ws.length → word (ws.flatMap le) (4 * k) = ws.getD k 0 := by
  intro ws k hk
  obtain ⟨a, b, rfl, h1⟩ : ∃ a b, ws = a ++ b ∧ a.length = k := ⟨ws.take k, ws.drop k, (List.take_append_drop _ _).symm, by rw [List.length_take]; omega⟩
  rw [List.length_append] at hk
  obtain ⟨w, b, rfl⟩ : ∃ w b', b = w :: b' := by cases b with | nil => simp at hk; omega | cons w b => exact ⟨w, b, rfl⟩
  have := word_le w (a.flatMap le) (b.flatMap le)
  rw [flat_length, h1] at this
  rw [List.flatMap_append, List.flatMap_cons, ← List.append_assoc, this]
  simp [List.getD_eq_getElem?_getD, ← h1]

/-- the floats in the order in which they are stored -/
def allWords (p : Params) : List UInt32 := vecWords p.b_a ++ matWords p.K_ga ++ vecWords p.b_g ++ matWords p.accMat ++ matWords p.gyroMat ++ vecWords p.accVariance ++ vecWords p.gyroVariance

theorem serialize_words (p : Params) : serialize p = (allWords p).flatMap le := by unfold serialize allWords; simp only [List.flatMap_append]

theorem serialize_length (p : Params) : (serialize p).length = 156 := by rw [serialize_words, flat_length]; rfl

/-- **C86** The parameters are stored bit for bit: what is read from the bytes is what was written. -/
theorem C86_round_trip (p : Params) : deserialize (serialize p) = p := by
  have h : ∀ k, k < 39 → word (serialize p) (4 * k) = (allWords p).getD k 0 := fun k hk => by
    rw [serialize_words]; exact word_flat _ k hk
  have hv : ∀ (o : Nat) (v : Vec3), o + 2 < 39 → (∀ i : Fin 3, (allWords p).getD (o + i.val) 0 = v i) → vecAt (serialize p) (4 * o) = v := by
    intro o v ho hi
    funext i
    unfold vecAt
    rw [← hi i, ← h _ (by omega), Nat.mul_add]
  have hm : ∀ (o : Nat) (m : Mat3), o + 8 < 39 → (∀ i j : Fin 3, (allWords p).getD (o + (3 * j.val + i.val)) 0 = m i j) → matAt (serialize p) (4 * o) = m := by
    intro o m ho hi
    funext i j
    unfold matAt
    rw [← hi i j, ← h _ (by omega), Nat.mul_add 4 o]
  have c3 : ∀ {q : Fin 3 → Prop}, q 0 → q 1 → q 2 → ∀ i, q i := by
    intro q h0 h1 h2 i
    match i with
    | 0 => exact h0
    | 1 => exact h1
    | 2 => exact h2
  refine Params.ext ?_ ?_ ?_ ?_ ?_ ?_ ?_
  · exact hv 0 _ (by decide) (c3 rfl rfl rfl)
  · exact hm 3 _ (by decide) (c3 (c3 rfl rfl rfl) (c3 rfl rfl rfl) (c3 rfl rfl rfl))
  · exact hv 12 _ (by decide) (c3 rfl rfl rfl)
  · exact hm 15 _ (by decide) (c3 (c3 rfl rfl rfl) (c3 rfl rfl rfl) (c3 rfl rfl rfl))
  · exact hm 24 _ (by decide) (c3 (c3 rfl rfl rfl) (c3 rfl rfl rfl) (c3 rfl rfl rfl))
  · exact hv 33 _ (by decide) (c3 rfl rfl rfl)
  · exact hv 36 _ (by decide) (c3 rfl rfl rfl)

/-- what reading gives, from the content of the oldest file of the type -/
def fromContent (c : Bytes) : Except Err (Option Params) := if 156 ≤ c.length then .ok (some (deserialize (c.take 156))) else .error .panic

theorem canRead_cal {crc : Bytes → UInt32} {fs : FS} {ks : List Known} (hr : CanRead crc fs ks) {k : Known} (h : FirstOf ks fileType k)
    (hw : k.writer = none) (hdm : k.damaged = false) (hno : k.id ∉ fs.at'.opened) (hlen : fs.at'.opened.length < 32) :
    ∃ pre, pre <+: k.maybe ∧ (CalFile.read crc fs).1 = fromContent (k.data ++ pre) ∧ (156 ≤ (k.data ++ pre).length → (CalFile.read crc fs).2 = fs) := by
  obtain ⟨files, f, hf, hs, hm, rfl, hfind⟩ := canRead_some hr h
  obtain ⟨pre, hpre, hR, hlen2⟩ := hs.stream f hm hw hdm
  refine ⟨pre, hpre, ?_⟩
  obtain ⟨r', c', g1, g2, _⟩ := readSlice_spec 156 hR (by omega)
  have hid := readSlice_id crc fs.dev.flash (FileReader.new f.e.first f.k.id) 156
  rw [g1] at hid
  have q := hs.opens f hm hno hlen
  unfold CalFile.read
  rw [hfind]
  simp only
  rw [hs.id f hm, q]
  simp only
  rw [g1, (consume_map _ _).1]
  simp only [fromContent, List.length_take]
  by_cases hl : 156 ≤ (f.k.data ++ pre).length
  · rw [if_pos hl, if_pos (by omega)]
    refine ⟨rfl, fun _ => ?_⟩
    unfold FS.closeReader
    have hid : r'.id = f.k.id := hid
    rw [hid]
    exact open_close hno
  · rw [if_neg hl, if_neg (by omega)]
    exact ⟨rfl, fun h => absurd h hl⟩

theorem calRead_spec {crc : Bytes → UInt32} {fs : FS} {ks : List Known} (hr : Hist crc fs ks) {k : Known} (h : FirstOf ks fileType k)
    (hw : k.writer = none) (hdm : k.damaged = false) (hno : k.id ∉ fs.at'.opened) (hlen : fs.at'.opened.length < 32) :
    ∃ pre, pre <+: k.maybe ∧ (CalFile.read crc fs).1 = fromContent (k.data ++ pre) ∧ (156 ≤ (k.data ++ pre).length → (CalFile.read crc fs).2 = fs) :=
  canRead_cal (hist_inv hr).canRead h hw hdm hno hlen

theorem canRead_noCal {crc : Bytes → UInt32} {fs : FS} {ks : List Known} (hr : CanRead crc fs ks) (h : ∀ k ∈ ks, k.typ ≠ fileType) : CalFile.read crc fs = (.ok none, fs) := by
  unfold CalFile.read
  rw [canRead_none hr h]

theorem calRead_none {crc : Bytes → UInt32} {fs : FS} {ks : List Known} (hr : Hist crc fs ks) (h : ∀ k ∈ ks, k.typ ≠ fileType) : CalFile.read crc fs = (.ok none, fs) := by
  unfold CalFile.read
  rw [first_none hr h]

/-- `o` is what the files say about the calibration: nothing if there is no file of the type, else what the oldest one contains -/
def CalStores (ks : List Known) (o : Except Err (Option Params)) : Prop :=
  ((∀ k ∈ ks, k.typ ≠ fileType) ∧ o = .ok none) ∨ ∃ k, FirstOf ks fileType k ∧ o = fromContent k.data

theorem canRead_calStored {crc : Bytes → UInt32} {fs : FS} {ks : List Known} (hr : CanRead crc fs ks) (ha : AtRest fs ks fileType) (hlen : fs.at'.opened.length < 32)
    {o : Except Err (Option Params)} (ho : CalStores ks o) : (CalFile.read crc fs).1 = o := by
  rcases ho with ⟨h, rfl⟩ | ⟨k, h, rfl⟩
  · rw [canRead_noCal hr h]
  · obtain ⟨a1, a2, a3, a4⟩ := ha k h.1 h.2.1
    obtain ⟨pre, p1, p2, _⟩ := canRead_cal hr h a1 a4 a3 hlen
    rw [a2] at p1
    rw [p2, List.prefix_nil.mp p1, List.append_nil]

/-- **C86** What reading returns: none if there is no file of the type; the parameters in the oldest file of the type; if that is shorter than
156 bytes, a panic. -/
theorem C86_read {crc : Bytes → UInt32} {fs : FS} {ks : List Known} (hr : Hist crc fs ks) (ha : AtRest fs ks fileType) (hlen : fs.at'.opened.length < 32)
    {o : Except Err (Option Params)} (ho : CalStores ks o) : (CalFile.read crc fs).1 = o :=
  canRead_calStored (hist_inv hr).canRead ha hlen ho

/-- **C86** After the program has stored the parameters they are read back, all of them. -/
theorem C86_save_read {crc : Bytes → UInt32} {fs fs' : FS} {ks : List Known} (hr : Hist crc fs ks) (ha : AtRest fs ks fileType)
    (hcap : ks.length < 2518) (hseq : fs.at'.seq + 3 < 2 ^ 64) (hid : fs.at'.maxId + 2 < 2 ^ 64) (hlen : fs.at'.opened.length < 32)
    (p : Params) (rng1 : Nat → Nat) (rng2 : Nat → Nat × Nat) (hw : CalFile.save crc fs p rng1 rng2 = some fs') :
    CalFile.read crc fs' = (.ok (some p), fs') := by
  have hw' : Config.write crc fs fileType (serialize p) rng1 rng2 = (.ok (), fs') := by
    unfold CalFile.save at hw
    obtain ⟨x, g, hx⟩ : ∃ x g, Config.write crc fs fileType (serialize p) rng1 rng2 = (x, g) := ⟨_, _, rfl⟩
    rw [hx] at hw
    cases x with
    | error e => cases hw
    | ok u => cases hw; exact hx
  obtain ⟨_, g2, ⟨i, g0, g3⟩, _⟩ := C62_write_read hr ha hcap (by decide) hseq hid hlen _ _ _ hw'
  have hfirst : FirstOf (ks.filter (fun k => !(k.typ == fileType)) ++ [⟨i, fileType, serialize p, serialize p, [], none, false, false⟩]) fileType
      ⟨i, fileType, serialize p, serialize p, [], none, false, false⟩ := by
    refine ⟨by simp, rfl, fun k' hk hkt => ?_⟩
    rcases List.mem_append.mp hk with hk | hk
    · have := (List.mem_filter.mp hk).2; simp [hkt] at this
    · rw [List.mem_singleton] at hk; rw [hk]
  obtain ⟨pre, p1, p2, p3⟩ := calRead_spec g3 hfirst rfl rfl (by
    rw [g2]
    intro hx
    have := hist_openIds hr _ hx
    have : i ≤ fs.at'.maxId := this
    omega) (by rw [g2]; exact hlen)
  have p1 : pre = [] := List.prefix_nil.mp p1
  subst p1
  simp only [List.append_nil] at p2 p3
  unfold fromContent at p2
  rw [if_pos (by rw [serialize_length]), List.take_of_length_le (by rw [serialize_length]), C86_round_trip] at p2
  exact Prod.ext p2 (p3 (by rw [serialize_length]))

/-- in every state there is something to read -/
theorem calStores_exists (ks : List Known) : ∃ o, CalStores ks o := by
  obtain ⟨b, hb⟩ := stores_exists 0 fileType ks
  rcases hb with ⟨h, _⟩ | ⟨k, h, _⟩
  · exact ⟨_, .inl ⟨h, rfl⟩⟩
  · exact ⟨_, .inr ⟨k, h, rfl⟩⟩

/-- **C86** Power loss at any point (any flash operation, torn in any way) while the parameters are stored: reading gives the old ones, the new ones, none, or panics; never a mixture. -/
theorem C86_power_loss {crc : Bytes → UInt32} {fs : FS} {ks : List Known} (hr : Hist crc fs ks) (ha : AtRest fs ks fileType)
    (hcap : ks.length < 2517) (hseq : fs.at'.seq + 3 < 2 ^ 64) (hid : fs.at'.maxId + 2 < 2 ^ 64)
    (p : Params) (rng1 : Nat → Nat) (rng2 : Nat → Nat × Nat)
    {ops : List FlashOp} {fl' : Flash} (hi : issued fs (Config.write crc fs fileType (serialize p) rng1 rng2).2 ops) (hp : CrashImage fs.dev.flash ops fl') :
    ∃ fs'', FS.mount fl' = (.ok (), fs'') ∧
      ((CalFile.read crc fs'').1 = .ok none ∨ (CalFile.read crc fs'').1 = .ok (some p) ∨ CalStores ks (CalFile.read crc fs'').1 ∨ (CalFile.read crc fs'').1 = .error .panic) := by
  obtain ⟨fs'', m1, m2, m3⟩ := configWrite_crash hr ha.safe hcap (by decide) hseq hid (serialize p) rng1 rng2 hi hp
  have hno : ∀ k ∈ (withoutType fileType fs.at'.opened ks).map Known.afterLoss, k.typ ≠ fileType := by
    intro k hk
    obtain ⟨k0, h1, rfl⟩ := List.mem_map.mp hk
    rw [(afterLoss_id k0).2]
    exact withoutType_rest ha k0 h1
  refine ⟨fs'', m1, ?_⟩
  rcases m3 with m3 | m3 | ⟨k, k1, k2, kd, k3, m3⟩
  · obtain ⟨o, ho⟩ := calStores_exists ks
    have hsame : ∀ k ∈ ks, k.typ = fileType → k.afterLoss = k := by
      intro k hk hkt
      unfold Known.afterLoss
      rw [(ha k hk hkt).1]
    have : (CalFile.read crc fs'').1 = o := by
      refine canRead_calStored m3.disk ?_ (by rw [m2]; decide) ?_
      · intro k hk hkt
        obtain ⟨k0, h1, rfl⟩ := List.mem_map.mp hk
        rw [(afterLoss_id k0).2] at hkt
        rw [hsame k0 h1 hkt, m2]
        exact ⟨(ha k0 h1 hkt).1, (ha k0 h1 hkt).2.1, List.not_mem_nil, (ha k0 h1 hkt).2.2.2⟩
      · rcases ho with ⟨h, rfl⟩ | ⟨k, ⟨h1, h2, h3⟩, rfl⟩
        · refine .inl ⟨fun k hk => ?_, rfl⟩
          obtain ⟨k0, h1, rfl⟩ := List.mem_map.mp hk
          rw [(afterLoss_id k0).2]; exact h k0 h1
        · refine .inr ⟨k, ⟨List.mem_map.mpr ⟨k, h1, hsame k h1 h2⟩, h2, fun k' hk' hkt => ?_⟩, rfl⟩
          obtain ⟨k0, g1, rfl⟩ := List.mem_map.mp hk'
          rw [(afterLoss_id k0).2] at hkt
          rw [(afterLoss_id k0).1]
          exact h3 k0 g1 hkt
    rw [this]
    exact .inr (.inr (.inl ho))
  · rw [canRead_noCal m3.disk hno]; exact .inl rfl
  · have hfirst : FirstOf ((withoutType fileType fs.at'.opened ks).map Known.afterLoss ++ [k]) fileType k := by
      refine ⟨by simp, k1, fun k' hk' hkt => ?_⟩
      rcases List.mem_append.mp hk' with hk' | hk'
      · exact absurd hkt (hno k' hk')
      · rw [List.mem_singleton] at hk'; rw [hk']
    obtain ⟨pre, p1, p2, _⟩ := canRead_cal m3.disk hfirst k2 kd (by rw [m2]; exact List.not_mem_nil) (by rw [m2]; decide)
    rw [p2]
    have hpre : k.data ++ pre <+: serialize p := ((List.prefix_append_right_inj _).mpr p1).trans k3
    have hl := serialize_length p
    unfold fromContent
    by_cases hn : 156 ≤ (k.data ++ pre).length
    · rw [if_pos hn]
      have : k.data ++ pre = serialize p := hpre.eq_of_length (by have := hpre.length_le; omega)
      rw [this, List.take_of_length_le (by omega), C86_round_trip]
      exact .inr (.inl rfl)
    · rw [if_neg hn]; exact .inr (.inr (.inr rfl))

/-- **C86** (finding) Whatever is stored, there is a point at which power loss leaves a file system that starts, but on which reading the parameters
panics. -/
theorem C86_power_loss_panics {crc : Bytes → UInt32} {fs : FS} {ks : List Known} (hr : Hist crc fs ks) (ha : AtRest fs ks fileType)
    (hcap : ks.length < 2517) (hseq : fs.at'.seq + 3 < 2 ^ 64) (hid : fs.at'.maxId + 2 < 2 ^ 64)
    (p : Params) (rng1 : Nat → Nat) (rng2 : Nat → Nat × Nat) :
    ∃ ops fl' fs'', issued fs (Config.write crc fs fileType (serialize p) rng1 rng2).2 ops ∧ PageCrash fs.dev.flash ops fl' ∧ FS.mount fl' = (.ok (), fs'') ∧
      (CalFile.read crc fs'').1 = .error .panic := by
  obtain ⟨_, fs1, e, fs2, os1, os2, os3, g1, d1, e1, d2, e2, e3⟩ := configWrite_dev2 hr ha.safe hcap (by decide) hseq hid (serialize p) rng1 rng2
  have hr2 := (hr.step (.dir d1)).step (.dir d2)
  obtain ⟨fs'', m1, m2, m3, _⟩ := step_restart (hist_inv hr2)
  have hr3 := Hist.restart hr2 m1
  refine ⟨os1 ++ os2 ++ os3, fs2.dev.flash, fs'', by show _ = _; rw [e3]; rfl, ?_, m1, ?_⟩
  · rw [e2]; exact .between (os1 ++ os2) os3 rfl
  · refine C86_read hr3 ?_ (by rw [m3]; decide) (.inr ⟨⟨e, fileType, [], [], [], none, false, false⟩, ⟨?_, rfl, ?_⟩, rfl⟩)
    · intro k hk hkt
      rw [List.map_append] at hk
      rcases List.mem_append.mp hk with hk | hk
      · obtain ⟨k0, h1, rfl⟩ := List.mem_map.mp hk
        rw [(afterLoss_id k0).2] at hkt
        exact absurd hkt (withoutType_rest ha k0 h1)
      · rw [List.map_singleton, List.mem_singleton] at hk
        subst hk
        rw [m3]
        exact ⟨rfl, rfl, List.not_mem_nil, rfl⟩
    · rw [List.map_append]; exact List.mem_append_right _ (by rw [List.map_singleton]; exact List.mem_singleton.mpr rfl)
    · intro k hk hkt
      rw [List.map_append] at hk
      rcases List.mem_append.mp hk with hk | hk
      · obtain ⟨k0, h1, rfl⟩ := List.mem_map.mp hk
        rw [(afterLoss_id k0).2] at hkt
        exact absurd hkt (withoutType_rest ha k0 h1)
      · rw [List.map_singleton, List.mem_singleton] at hk
        subst hk
        exact Nat.le_refl _

/-- **C86** (finding) If the file is open, or 32 files are, reading panics. -/
theorem C86_read_busy {crc : Bytes → UInt32} {fs : FS} {ks : List Known} (hr : Hist crc fs ks) {k : Known} (hf : FirstOf ks fileType k)
    (hb : k.id ∈ fs.at'.opened ∨ 32 ≤ fs.at'.opened.length) : (CalFile.read crc fs).1 = .error .panic := by
  obtain ⟨files, leak, f, hfs, hs, hm, rfl, hfind⟩ := first_some hr hf
  have hid := (hs.ok f hm).id
  unfold CalFile.read
  rw [hfind]
  simp only
  rw [hid]
  rcases openRead_spec hs hm with ⟨_, g⟩ | ⟨_, g⟩ | ⟨g1, g2, g⟩
  · rw [g]
  · rw [g]
  · rcases hb with hb | hb
    · exact absurd hb g1
    · omega

/-- **C86** (finding) If a page of the stored parameters fails its checksum (directory, length and next sector are intact), reading panics. -/
theorem C86_damaged_panics {crc : Bytes → UInt32} {fs : FS} {ks : List Known} (hr : Hist crc fs ks) {k : Known} (hf : FirstOf ks fileType k)
    (hw : k.writer = none) (hdm : k.damaged = false) (hm : k.maybe = []) (hsize : k.data.length = 156) (ho : k.id ∉ fs.at'.opened) (hlen : fs.at'.opened.length < 32) (fl' : Flash)
    (hlow : ∀ a, a < 32 * 4096 → fs.dev.flash a = fl' a) {e : FileEntry} {l : List Nat} (he : fs.findFirstFile (ofTyp fileType) = .ok (some e))
    (hl : Chain fs.dev.flash e.first l) (htail : ∀ s ∈ l, ∀ i, 4080 ≤ i → i < 4096 → fs.dev.flash (s * 4096 + i) = fl' (s * 4096 + i))
    (hbad : ∃ a, Item.bad a ∈ fileItems crc fl' l) :
    (CalFile.read crc (onChip fs fl')).1 = .error .panic := by
  obtain ⟨fs1, h1, h2, h3, h4, h5, h6⟩ := damaged_setup hr hf hw hdm hm ho hlen fl' hlow he hl htail hbad
  obtain ⟨r', c', g1, _, _⟩ := readSlice_spec (crc := crc) 156 (RInv_new (crc := crc) h4 e.id) (by omega)
  unfold CalFile.read
  rw [h1]
  simp only
  rw [h2]
  simp only
  rw [h3]
  have g1 : FileReader.readSlice crc (onChip fs fl').dev.flash (FileReader.new e.first e.id) 156 = _ := g1
  rw [g1]
  simp only
  rw [if_neg]
  have h7 := (fileItems_count crc fl' l).2 hbad
  have h8 := congrArg List.length (consume_byteItems (fileItems crc fl' l) 156).1
  rw [List.length_append] at h8
  omega

/-- parameters for the examples: all bit patterns different -/
def demoParams : Params := ⟨fun i => UInt32.ofNat (100 + i), fun i j => UInt32.ofNat (1000 + 10 * i + j), fun i => UInt32.ofNat (200 + i), fun i j => UInt32.ofNat (2000 + 10 * i + j),
  fun i j => UInt32.ofNat (3000 + 10 * i + j), fun i => UInt32.ofNat (300 + i), fun _ => 0x7fc00001⟩

/-- a chip with another file, on which the parameters are stored -/
theorem cal_demo (crc : Bytes → UInt32) : ∃ fs fs', Hist crc fs [⟨1, 5, [1, 2, 3], [1, 2, 3], [], none, false, false⟩] ∧
    AtRest fs [⟨1, 5, [1, 2, 3], [1, 2, 3], [], none, false, false⟩] fileType ∧ fs.at'.opened = [] ∧ fs.at'.seq = 3 ∧ fs.at'.maxId = 1 ∧
    CalFile.save crc fs demoParams (fun _ => 0) (fun _ => (0, 0)) = some fs' := by
  obtain ⟨fs, s, hr, ho, hs, h4, h5⟩ := demo_closed crc
  have ha : AtRest fs [⟨1, 5, [1, 2, 3], [1, 2, 3], [], none, false, false⟩] fileType := by
    intro k hk ht
    rw [List.mem_singleton] at hk
    subst hk
    exact absurd ht (by decide)
  have hfree : 0 < (fs.removeFiles (ofTyp fileType)).2.mng.freeBytes := by
    refine Nat.lt_of_lt_of_le ?_ (remove_free hs (fun _ t => t == fileType) (fun k hk h => ?_) ⟨by rw [h4]; decide, by rw [h5]; decide⟩)
    · rw [(freeBytes_eq hs.inv).1]; simp [FileSt.own, secs]
    · exact ha.safe k hk (by simpa using h)
  obtain ⟨fs', hw⟩ := C62_small_written hr ha.safe (by decide) (by decide) (by rw [h4]; decide) (by rw [h5]; decide) (by rw [ho]; decide) hfree (serialize demoParams)
    (by rw [serialize_length]; decide) (by rw [serialize_length]; decide) (fun _ => 0) (fun _ => (0, 0))
  exact ⟨fs, fs', hr, ha, ho, h4, h5, by unfold CalFile.save; rw [hw]⟩

/-- stored and read back; and the hypotheses of the power loss theorems are met -/
example (crc : Bytes → UInt32) : ∃ fs fs' : FS, (CalFile.read crc fs).1 = .ok none ∧ CalFile.save crc fs demoParams (fun _ => 0) (fun _ => (0, 0)) = some fs' ∧
    CalFile.read crc fs' = (.ok (some demoParams), fs') ∧
    ∃ ops fl' fs'', issued fs (Config.write crc fs fileType (serialize demoParams) (fun _ => 0) (fun _ => (0, 0))).2 ops ∧ PageCrash fs.dev.flash ops fl' ∧ FS.mount fl' = (.ok (), fs'') ∧
      (CalFile.read crc fs'').1 = .error .panic ∧
      ∃ fs3, FS.mount fl' = (.ok (), fs3) ∧ ((CalFile.read crc fs3).1 = .ok none ∨ (CalFile.read crc fs3).1 = .ok (some demoParams) ∨
        CalStores [⟨1, 5, [1, 2, 3], [1, 2, 3], [], none, false, false⟩] (CalFile.read crc fs3).1 ∨ (CalFile.read crc fs3).1 = .error .panic) := by
  obtain ⟨fs, fs', hr, ha, ho, h4, h5, hw⟩ := cal_demo crc
  obtain ⟨ops, fl', fs'', g1, g2, g3, g4⟩ := C86_power_loss_panics hr ha (by decide) (by rw [h4]; decide) (by rw [h5]; decide) demoParams (fun _ => 0) (fun _ => (0, 0))
  refine ⟨fs, fs', ?_, hw, C86_save_read hr ha (by decide) (by rw [h4]; decide) (by rw [h5]; decide) (by rw [ho]; decide) _ _ _ hw, ops, fl', fs'', g1, g2, g3, g4,
    C86_power_loss hr ha (by decide) (by rw [h4]; decide) (by rw [h5]; decide) demoParams _ _ g1 g2.crashImage⟩
  exact C86_read hr ha (by rw [ho]; decide) (.inl ⟨fun k hk ht => by rw [List.mem_singleton] at hk; subst hk; exact absurd ht (by decide), rfl⟩)

/-- the first byte of every data page of the chip changes -/
def firstBytesChanged (fl : Flash) : Flash := fun a => if a % 256 = 0 ∧ 32 * 4096 ≤ a then fl a + 1 else fl a

theorem changed_bad (fl : Flash) (l : List Nat) (hl : ∀ s ∈ l, 32 ≤ s) (b : UInt8) (hb : Item.byte b ∈ fileItems firstCrc fl l) :
    ∃ a, Item.bad a ∈ fileItems firstCrc (firstBytesChanged fl) l := by
  unfold fileItems at hb ⊢
  rw [List.mem_flatMap] at hb
  obtain ⟨s, hs, hb⟩ := hb
  have h32 := hl s hs
  have hsame : ∀ a n, 256 * (a / 256) < a → a + n ≤ 256 * (a / 256) + 256 → Flash.read (firstBytesChanged fl) a n = fl.read a n := by
    intro a n h1 h2
    refine List.map_congr_left fun i hi => ?_
    rw [List.mem_range] at hi
    exact if_neg (by omega)
  have hlen : sectorLength (firstBytesChanged fl) s = sectorLength fl s := by
    unfold sectorLength
    rw [hsame _ _ (by omega) (by omega)]
  unfold sectorItems at hb
  rw [List.mem_flatMap] at hb
  obtain ⟨p, hp, hb⟩ := hb
  rw [List.mem_range] at hp
  refine ⟨s * 4096 + 256 * p, List.mem_flatMap.mpr ⟨s, hs, ?_⟩⟩
  unfold sectorItems
  rw [hlen]
  refine List.mem_flatMap.mpr ⟨p, List.mem_range.mpr hp, ?_⟩
  unfold pageItems at hb ⊢
  simp only at hb ⊢
  generalize hk : min (sectorLength fl s - 252 * p) 252 = k at hb ⊢
  have hk0 : 0 < k := by omega
  generalize hpd : (k + 3) / 4 * 4 = pd at hb ⊢
  have hpd0 : 0 < pd ∧ pd ≤ 252 := by omega
  have hfirst : ∀ f : Flash, firstCrc (f.read (s * 4096 + 256 * p) pd) = (f (s * 4096 + 256 * p)).toUInt32 := by
    intro f
    obtain ⟨m, rfl⟩ : ∃ m, pd = m + 1 := ⟨pd - 1, by omega⟩
    simp [firstCrc, Flash.read, List.range_succ_eq_map]
  split at hb
  · rename_i hc
    rw [hfirst] at hc
    rw [if_neg]
    · simp
    · rw [hfirst, hsame _ _ (by omega) (by omega), ← hc]
      have : firstBytesChanged fl (s * 4096 + 256 * p) = fl (s * 4096 + 256 * p) + 1 := if_pos (by omega)
      rw [this]
      generalize fl (s * 4096 + 256 * p) = x
      rw [UInt8.toNat_toUInt32, UInt8.toNat_toUInt32, UInt8.toNat_add]
      have := x.toNat_lt
      have : (1 : UInt8).toNat = 1 := rfl
      omega
  · simp at hb

/-- the file is open, or damaged: the hypotheses of the last two theorems are met -/
example : ∃ fs fl' fs' r id, CalFile.read firstCrc fs = (.ok (some demoParams), fs) ∧ (CalFile.read firstCrc (onChip fs fl')).1 = .error .panic ∧
    fs.openForRead id = (.ok r, fs') ∧ (CalFile.read firstCrc fs').1 = .error .panic := by
  obtain ⟨fs, fs', hr, ha, ho, h4, h5, hw⟩ := cal_demo firstCrc
  have hread := C86_save_read hr ha (by decide) (by rw [h4]; decide) (by rw [h5]; decide) (by rw [ho]; decide) _ _ _ hw
  have hw' : Config.write firstCrc fs fileType (serialize demoParams) (fun _ => 0) (fun _ => (0, 0)) = (.ok (), fs') := by
    unfold CalFile.save at hw
    obtain ⟨x, g, hx⟩ : ∃ x g, Config.write firstCrc fs fileType (serialize demoParams) (fun _ => 0) (fun _ => (0, 0)) = (x, g) := ⟨_, _, rfl⟩
    rw [hx] at hw
    cases x with
    | error e => cases hw
    | ok u => cases hw; exact hx
  obtain ⟨_, g2, ⟨i, g0, g3⟩, _⟩ := C62_write_read hr ha (by decide) (by decide) (by rw [h4]; decide) (by rw [h5]; decide) (by rw [ho]; decide) _ _ _ hw'
  have hfirst : FirstOf ([(⟨1, 5, [1, 2, 3], [1, 2, 3], [], none, false, false⟩ : Known)].filter (fun k => !(k.typ == fileType)) ++ [⟨i, fileType, serialize demoParams, serialize demoParams, [], none, false, false⟩])
      fileType ⟨i, fileType, serialize demoParams, serialize demoParams, [], none, false, false⟩ := by
    refine ⟨by simp, rfl, fun k' hk hkt => ?_⟩
    rcases List.mem_append.mp hk with hk | hk
    · have := (List.mem_filter.mp hk).2; simp [hkt] at this
    · rw [List.mem_singleton] at hk; rw [hk]
  obtain ⟨files, leak, f, hfs, hs, hm, hk, hfind⟩ := first_some g3 hfirst
  have hst := (hs.ok f hm).closed (by rw [hk]) (by rw [hk])
  have hown := hs.own_data hm
  unfold FileSt.own at hown
  rw [hk] at hown
  have hop : fs'.at'.opened = [] := by rw [g2, ho]
  have hbytes : bytesOf f.segs = serialize demoParams := by
    obtain ⟨pre, p1, p2⟩ := hst.2
    rw [hk] at p1 p2
    rw [p2, List.prefix_nil.mp p1, List.append_nil]
  have hid := (hs.ok f hm).id
  rcases openRead_spec hs hm with ⟨q, _⟩ | ⟨q, _⟩ | ⟨_, _, q⟩
  · rw [hop] at q; exact absurd q List.not_mem_nil
  · rw [hop] at q; exact absurd q (by decide)
  refine ⟨fs', firstBytesChanged fs'.dev.flash, _, _, _, hread, ?_, q, ?_⟩
  · refine C86_damaged_panics g3 hfirst rfl rfl rfl (serialize_length _) (by rw [hop]; exact List.not_mem_nil) (by rw [hop]; decide) _ ?_ hfind hst.1.chain ?_ ?_
    · intro a h
      exact (if_neg (by omega)).symm
    · intro s hs i h1 h2
      exact (if_neg (by omega)).symm
    · refine changed_bad _ _ (fun s hs => (hown.2 s hs).1) ((serialize demoParams).getD 0 0) ?_
      rw [hst.1.items, hbytes]
      exact List.mem_map.mpr ⟨_, by decide +kernel, rfl⟩
  · have hr' := g3.step (Step.openRead (crc := firstCrc) f.k.id)
    rw [q] at hr'
    refine C86_read_busy hr' hfirst (.inl ?_)
    rw [hk]
    simp

/-- C86: the file has the type reserved for calibration parameters, which no other kind of file has -/
theorem C86_type : ("CALIBRATION_FILE_TYPE", fileType) ∈ FileTypes.table ∧ ∀ x ∈ FileTypes.table, x.2 = fileType → x.1 = "CALIBRATION_FILE_TYPE" := by decide

end Verif.Props
