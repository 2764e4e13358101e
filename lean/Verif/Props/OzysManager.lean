import Verif.Props.OzysDevices
/-
C115, second part: the manager of the devices of the OZYS app.
-/
namespace Verif.Props
open Verif Verif.Ozys

/-! the manager -/

theorem toDigits_no_dash (n : Nat) : ∀ ch ∈ Nat.toDigits 10 n, ch ≠ '-' := by
  intro ch hch he
  have := Nat.isDigit_of_mem_toDigits (by decide) (by decide) hch
  rw [he] at this
  exact absurd this (by decide)

theorem toString_toList (n : Nat) : (toString n).toList = Nat.toDigits 10 n := by rw [Nat.toString_eq_ofList_toDigits, String.toList_ofList]

theorem channelId_inj (dev dev' : String) (j k : Nat) (h : channelId dev j = channelId dev' k) : dev = dev' ∧ j = k := by
  have h' : (channelId dev j).toList = (channelId dev' k).toList := by rw [h]
  unfold channelId at h'
  simp only [String.toList_append, toString_toList] at h'
  have hr := congrArg (fun l => l.reverse.takeWhile (fun ch => ch != '-')) h'
  have key : ∀ (l : List Char) (n : Nat), ((l ++ "-channel-".toList ++ Nat.toDigits 10 n).reverse.takeWhile fun ch => ch != '-') = (Nat.toDigits 10 n).reverse := by
    intro l n
    rw [List.reverse_append, List.takeWhile_append_of_pos (by intro ch hch; simpa using toDigits_no_dash n ch (List.mem_reverse.mp hch)), List.reverse_append]
    rw [show ("-channel-".toList).reverse = '-' :: "-channel".toList.reverse from by decide]
    rw [List.cons_append, List.takeWhile_cons_of_neg (by decide), List.append_nil]
  simp only [key] at hr
  have e1 : j = k := by
    have := congrArg (fun l => Nat.ofDigitChars 10 l.reverse 0) hr
    simpa [Nat.ofDigitChars_ten_toDigits] using this
  refine ⟨?_, e1⟩
  subst e1
  exact append_inj_left _ _ _ (append_inj_left _ _ _ h)

/-- which device: mock or microphone, and its number -/
abbrev Ident := Bool × Nat

/-- id of a device -/
def identId (k : Ident) : String := if k.1 then mockId k.2 else micId k.2

/-- ids of its channels -/
def identChans (k : Ident) : List String := if k.1 then [channelId (mockId k.2) 1, channelId (mockId k.2) 2, channelId (mockId k.2) 3] else [channelId (micId k.2) 1]

theorem identId_inj (k k' : Ident) (h : identId k = identId k') : k = k' := by
  obtain ⟨b, i⟩ := k
  obtain ⟨b', i'⟩ := k'
  have ne : ∀ i j, mockId i ≠ micId j := by
    intro i j h
    have h' : (mockId i).toList = (micId j).toList := by rw [h]
    unfold mockId micId at h'
    simp only [String.toList_append] at h'
    rw [show "mock-ozys-".toList = 'm' :: 'o' :: "ck-ozys-".toList from by decide, show "mic-ozys-".toList = 'm' :: 'i' :: "c-ozys-".toList from by decide] at h'
    simp at h'
  cases b <;> cases b'
  · have e : i = i' := digits_inj (append_inj_right _ _ "mic-ozys-" h)
    rw [e]
  · exact absurd h.symm (ne _ _)
  · exact absurd h (ne _ _)
  · have e : i = i' := digits_inj (append_inj_right _ _ "mock-ozys-" h)
    rw [e]

theorem identChans_mem (k : Ident) (c : String) (h : c ∈ identChans k) : ∃ j, c = channelId (identId k) j := by
  obtain ⟨b, i⟩ := k
  cases b
  · exact ⟨1, List.mem_singleton.mp h⟩
  · simp only [identChans, if_true, List.mem_cons, List.not_mem_nil, or_false] at h
    rcases h with h | h | h
    · exact ⟨1, h⟩
    · exact ⟨2, h⟩
    · exact ⟨3, h⟩

theorem identChans_inj (k k' : Ident) (c : String) (h : c ∈ identChans k) (h' : c ∈ identChans k') : k = k' := by
  obtain ⟨j, hj⟩ := identChans_mem k c h
  obtain ⟨j', hj'⟩ := identChans_mem k' c h'
  exact identId_inj _ _ (channelId_inj _ _ _ _ (hj ▸ hj')).1

theorem identChans_nodup (k : Ident) : (identChans k).Nodup := by
  obtain ⟨b, i⟩ := k
  cases b
  · exact (List.nodup_cons.mpr ⟨List.not_mem_nil, List.nodup_nil⟩)
  · exact mock_nodup i

/-- what is true of the manager at all times -/
structure MgrInv (w : Mgr) (ks : List Ident) : Prop where
  len : w.objs.length = ks.length
  nodup : ks.Nodup
  devs : ∀ (r : Nat) (k : Ident) (d : Dev), ks[r]? = some k → w.objs[r]? = some d → d.info.id = identId k ∧ chanIds d = identChans k ∧ d.subs = 1
  mocks : ∀ i, (true, i) ∈ ks → i < w.mockI
  mics : ∀ i, (false, i) ∈ ks → i < w.micI
  dnodup : w.devices.Nodup
  dlt : ∀ r ∈ w.devices, r < w.objs.length

theorem mgrinv_init : MgrInv Mgr.init [] := ⟨rfl, List.nodup_nil, fun r k d h => (by simp at h), fun i h => (by cases h), fun i h => (by cases h), List.nodup_nil, fun r h => (by cases h)⟩

theorem mgrinv_devStep (wave : Rat → Rat) (w : Mgr) (ks : List Ident) (h : MgrInv w ks) (r : Nat) (o : DevOp) : MgrInv (w.devStep wave r o).2 ks := by
  unfold Mgr.devStep
  cases hd : w.objs[r]? with
  | none => exact h
  | some d =>
    refine ⟨by show (w.objs.set r _).length = _; rw [List.length_set]; exact h.len, h.nodup, ?_, h.mocks, h.mics, h.dnodup, fun r' hr' => by show r' < (w.objs.set r _).length; rw [List.length_set]; exact h.dlt r' hr'⟩
    intro r' k d' hk hd'
    change (w.objs.set r (d.step wave o).2)[r']? = some d' at hd'
    rw [List.getElem?_set] at hd'
    split at hd'
    · rename_i he
      subst he
      split at hd'
      · injection hd' with hd'
        obtain ⟨a1, a2, a3⟩ := h.devs _ _ _ hk hd
        subst hd'
        exact ⟨by rw [step_devId]; exact a1, by rw [step_ids]; exact a2, by rw [step_subs]; exact a3⟩
      · cases hd'
    · exact h.devs _ _ _ hk hd'

theorem mgrinv_add (w : Mgr) (ks : List Ident) (h : MgrInv w ks) (k : Ident) (d : Dev) (h1 : d.info.id = identId k) (h2 : chanIds d = identChans k) (h3 : d.subs = 0) (w' : Mgr) (hk : k ∉ ks)
    (e1 : w'.objs = (w.addDevice d).objs) (e2 : w'.devices = (w.addDevice d).devices) (hm : ∀ i, (true, i) ∈ ks ++ [k] → i < w'.mockI) (hm2 : ∀ i, (false, i) ∈ ks ++ [k] → i < w'.micI) : MgrInv w' (ks ++ [k]) := by
  refine ⟨by rw [e1]; simp [Mgr.addDevice, h.len], ?_, ?_, hm, hm2, ?_, ?_⟩
  · exact List.nodup_append.mpr ⟨h.nodup, (List.nodup_cons.mpr ⟨List.not_mem_nil, List.nodup_nil⟩), fun a ha b hb hab => hk (by rw [List.mem_singleton] at hb; rw [← hb, ← hab]; exact ha)⟩
  · intro r k' d' hk' hd'
    rw [e1] at hd'
    change (w.objs ++ [{ d with subs := d.subs + 1 }])[r]? = some d' at hd'
    by_cases hr : r < ks.length
    · rw [List.getElem?_append_left hr] at hk'
      rw [List.getElem?_append_left (by rw [h.len]; exact hr)] at hd'
      exact h.devs _ _ _ hk' hd'
    · rw [List.getElem?_append_right (by omega)] at hk'
      rw [List.getElem?_append_right (by rw [h.len]; omega)] at hd'
      have hr0 : r - ks.length = 0 := by
        have := List.getElem?_eq_some_iff.mp hk'
        obtain ⟨hlt, _⟩ := this
        simp at hlt; omega
      rw [hr0] at hk'
      rw [h.len, hr0] at hd'
      obtain rfl : k = k' := by simpa using hk'
      obtain rfl : { d with subs := d.subs + 1 } = d' := by simpa using hd'
      exact ⟨h1, h2, by show d.subs + 1 = 1; rw [h3]⟩
  · rw [e2]
    exact List.nodup_append.mpr ⟨h.dnodup, (List.nodup_cons.mpr ⟨List.not_mem_nil, List.nodup_nil⟩), fun a ha b hb hab => by rw [List.mem_singleton] at hb; have := h.dlt a ha; omega⟩
  · intro r hr
    rw [e2] at hr
    rw [e1]
    show r < (w.objs ++ [_]).length
    rw [List.length_append]
    rcases List.mem_append.mp hr with hr | hr
    · have := h.dlt r hr; omega
    · rw [List.mem_singleton] at hr; simp; omega

theorem mgrinv_erase (w : Mgr) (ks : List Ident) (h : MgrInv w ks) (l : List Nat) (hl : l.Sublist w.devices) : MgrInv { w with devices := l } ks :=
  ⟨h.len, h.nodup, h.devs, h.mocks, h.mics, h.dnodup.sublist hl, fun r hr => h.dlt r (hl.subset hr)⟩

theorem devStep_devices (wave : Rat → Rat) (w : Mgr) (r : Nat) (o : DevOp) : (w.devStep wave r o).2.devices = w.devices := by
  unfold Mgr.devStep; split <;> rfl

theorem mgrinv_step (wave : Rat → Rat) (w : Mgr) (ks : List Ident) (h : MgrInv w ks) (o : MgrOp) : ∃ l, MgrInv (w.step wave o).2 (ks ++ l) := by
  cases o with
  | addMock =>
    refine ⟨[(true, w.mockI)], mgrinv_add w ks h (true, w.mockI) (newMock w.mockI) rfl rfl rfl _ (fun hm => by have := h.mocks _ hm; omega) rfl rfl ?_ ?_⟩
    · intro i hi
      show i < w.mockI + 1
      rcases List.mem_append.mp hi with hi | hi
      · have := h.mocks i hi; omega
      · simp at hi; omega
    · intro i hi
      rcases List.mem_append.mp hi with hi | hi
      · exact h.mics i hi
      · simp at hi
  | addMic =>
    refine ⟨[(false, w.micI)], mgrinv_add w ks h (false, w.micI) (newMic w.micI) rfl rfl rfl _ (fun hm => by have := h.mics _ hm; omega) rfl rfl ?_ ?_⟩
    · intro i hi
      rcases List.mem_append.mp hi with hi | hi
      · exact h.mocks i hi
      · simp at hi
    · intro i hi
      show i < w.micI + 1
      rcases List.mem_append.mp hi with hi | hi
      · have := h.mics i hi; omega
      · simp at hi; omega
  | dev r o => exact ⟨[], by rw [List.append_nil]; exact mgrinv_devStep wave w ks h r o⟩
  | disconnect id =>
    refine ⟨[], ?_⟩
    rw [List.append_nil]
    show MgrInv (w.disconnectDevice wave id) ks
    unfold Mgr.disconnectDevice
    split
    · exact h
    · rename_i r _
      exact mgrinv_erase _ ks (mgrinv_devStep wave w ks h r .disconnect) (w.devices.erase r) (by rw [devStep_devices]; exact List.erase_sublist)
  | disconnectAll =>
    refine ⟨[], ?_⟩
    rw [List.append_nil]
    have : ∀ (l : List Nat) (w : Mgr), MgrInv w ks → MgrInv (l.foldl (fun w r => (w.devStep wave r .disconnect).2) w) ks := by
      intro l
      induction l with
      | nil => intro w h; exact h
      | cons r l ih => intro w h; exact ih _ (mgrinv_devStep wave w ks h r _)
    have h2 := this w.devices w h
    exact ⟨h2.len, h2.nodup, h2.devs, h2.mocks, h2.mics, List.nodup_nil, fun r hr => by cases hr⟩

theorem mgrinv_run (wave : Rat → Rat) : ∀ (ops : List MgrOp) (w : Mgr) (ks : List Ident), MgrInv w ks → ∃ l, MgrInv (w.run wave ops).2 (ks ++ l) := by
  intro ops
  induction ops with
  | nil => intro w ks h; exact ⟨[], by rw [List.append_nil]; exact h⟩
  | cons o os ih =>
    intro w ks h
    obtain ⟨l, hl⟩ := mgrinv_step wave w ks h o
    obtain ⟨l', hl'⟩ := ih _ _ hl
    exact ⟨l ++ l', by rw [← List.append_assoc]; exact hl'⟩

theorem mem_chanIds (d : Dev) (ch : Chan) (h : some ch ∈ d.info.channels) : ch.id ∈ chanIds d :=
  List.mem_map.mpr ⟨ch, List.mem_filterMap.mpr ⟨some ch, h, rfl⟩, rfl⟩

theorem mgrinv_get {w : Mgr} {ks : List Ident} (h : MgrInv w ks) {r : Nat} {d : Dev} (hd : w.objs[r]? = some d) : ∃ k, ks[r]? = some k ∧ d.info.id = identId k ∧ chanIds d = identChans k ∧ d.subs = 1 := by
  have hlt : r < ks.length := by rw [← h.len]; exact (List.getElem?_eq_some_iff.mp hd).1
  exact ⟨ks[r], List.getElem?_eq_getElem hlt, h.devs r _ d (List.getElem?_eq_getElem hlt) hd⟩

theorem idx_of_nodup {β : Type} {l : List β} (h : l.Nodup) {i j : Nat} {x : β} (hi : l[i]? = some x) (hj : l[j]? = some x) : i = j := by
  exact (List.getElem?_inj (List.getElem?_eq_some_iff.mp hi).1 h).mp (hi.trans hj.symm)

/-- **C115 (ids)**: whatever was added, no two devices have the same id, and no two channels, of the same or different devices, either. -/
theorem C115_ids (wave : Rat → Rat) (ops : List MgrOp) (r r' : Nat) (d d' : Dev) (hd : (Mgr.init.run wave ops).2.objs[r]? = some d) (hd' : (Mgr.init.run wave ops).2.objs[r']? = some d') :
    (d.info.id = d'.info.id → r = r') ∧
    ∀ (j j' : Nat) (ch ch' : Chan), d.info.channels[j]? = some (some ch) → d'.info.channels[j']? = some (some ch') → ch.id = ch'.id → r = r' ∧ j = j' := by
  obtain ⟨ks, h⟩ := mgrinv_run wave ops Mgr.init [] mgrinv_init
  rw [List.nil_append] at h
  obtain ⟨k, k1, k2, k3, _⟩ := mgrinv_get h hd
  obtain ⟨k', k1', k2', k3', _⟩ := mgrinv_get h hd'
  refine ⟨fun he => ?_, fun j j' ch ch' hj hj' he => ?_⟩
  · have : k = k' := identId_inj _ _ (by rw [← k2, ← k2', he])
    subst this
    exact idx_of_nodup h.nodup k1 k1'
  · have m1 : ch.id ∈ identChans k := k3 ▸ mem_chanIds d ch (List.mem_of_getElem? hj)
    have m2 : ch.id ∈ identChans k' := k3' ▸ he ▸ mem_chanIds d' ch' (List.mem_of_getElem? hj')
    have hkk := identChans_inj _ _ _ m1 m2
    subst hkk
    have hrr := idx_of_nodup h.nodup k1 k1'
    subst hrr
    rw [hd] at hd'
    injection hd' with hd'
    subst hd'
    refine ⟨rfl, ?_⟩
    have hn : (chanIds d).Nodup := by rw [k3]; exact identChans_nodup k
    -- two places with the same id
    clear k1 k1' k2 k2' k3 k3' m1 m2 hd
    unfold chanIds at hn
    revert j j' hj hj' hn
    generalize d.info.channels = l
    induction l with
    | nil => intro j j' hj; simp at hj
    | cons x l ih =>
      intro j j' hj hj' hn
      have tail : ((l.filterMap fun x => x).map (·.id)).Nodup := by
        cases x with
        | none => exact hn
        | some x => exact (List.nodup_cons.mp hn).2
      have memtail : ∀ (q : Nat) (y : Chan), l[q]? = some (some y) → y.id ∈ (l.filterMap fun x => x).map (·.id) := fun q y hq => List.mem_map.mpr ⟨y, List.mem_filterMap.mpr ⟨some y, List.mem_of_getElem? hq, rfl⟩, rfl⟩
      cases j with
      | zero =>
        cases j' with
        | zero => rfl
        | succ j' =>
          obtain rfl : x = some ch := by simpa using hj
          have := memtail j' ch' (by simpa using hj')
          rw [← he] at this
          exact absurd this (List.nodup_cons.mp hn).1
      | succ j =>
        cases j' with
        | zero =>
          obtain rfl : x = some ch' := by simpa using hj'
          have := memtail j ch (by simpa using hj)
          rw [he] at this
          exact absurd this (List.nodup_cons.mp hn).1
        | succ j' => rw [ih j j' (by simpa using hj) (by simpa using hj') tail]

/-- **C115 (lookup)**: `getDeviceAndChannel` finds exactly the channel of that id of a listed device. -/
theorem C115_lookup (wave : Rat → Rat) (ops : List MgrOp) (c : String) (r : Nat) (ch : Chan) :
    (Mgr.init.run wave ops).2.lookup c = some (r, ch) ↔ r ∈ (Mgr.init.run wave ops).2.devices ∧ ∃ d, (Mgr.init.run wave ops).2.objs[r]? = some d ∧ some ch ∈ d.info.channels ∧ ch.id = c := by
  have hids := fun r r' d d' => C115_ids wave ops r r' d d'
  generalize (Mgr.init.run wave ops).2 = w at *
  unfold Mgr.lookup
  constructor
  · intro h
    obtain ⟨r', hr', h⟩ := List.exists_of_findSome?_eq_some h
    cases hd : w.objs[r']? with
    | none => rw [hd] at h; cases h
    | some d =>
      rw [hd] at h
      simp only [Option.map_eq_some_iff] at h
      obtain ⟨ch', h1, h2⟩ := h
      injection h2 with e1 e2
      subst e1 e2
      have hm := List.mem_of_find?_eq_some h1
      obtain ⟨x, hx, rfl⟩ := List.mem_filterMap.mp hm
      exact ⟨hr', d, hd, hx, by simpa using List.find?_some h1⟩
  · rintro ⟨hr, d, hd, hm, rfl⟩
    have hmem : ch ∈ d.info.channels.filterMap id := List.mem_filterMap.mpr ⟨some ch, hm, rfl⟩
    cases hf : w.devices.findSome? (fun r => match w.objs[r]? with
      | some d => ((d.info.channels.filterMap id).find? fun c => c.id = ch.id).map fun ch => (r, ch)
      | none => none) with
    | none =>
      have := List.findSome?_eq_none_iff.mp hf r hr
      rw [hd] at this
      simp only [Option.map_eq_none_iff] at this
      have := List.find?_eq_none.mp this ch hmem
      simp at this
    | some x =>
      obtain ⟨r', hr', h⟩ := List.exists_of_findSome?_eq_some hf
      cases hd' : w.objs[r']? with
      | none => rw [hd'] at h; cases h
      | some d' =>
        rw [hd'] at h
        simp only [Option.map_eq_some_iff] at h
        obtain ⟨ch', h1, rfl⟩ := h
        have hm' := List.mem_of_find?_eq_some h1
        have hid : ch'.id = ch.id := by simpa using List.find?_some h1
        obtain ⟨x, hx, rfl⟩ := List.mem_filterMap.mp hm'
        obtain ⟨j, hj⟩ := List.getElem?_of_mem hm
        obtain ⟨j', hj'⟩ := List.getElem?_of_mem hx
        obtain ⟨e1, e2⟩ := (hids r r' d d' hd hd').2 j j' ch ch' hj hj' hid.symm
        subst e1 e2
        rw [hd] at hd'
        injection hd' with hd'
        subst hd'
        rw [hj] at hj'
        injection hj' with hj'
        injection hj' with hj'
        rw [hj']

/-- **C115 (active channels)**: the active channels are those of listed devices that are connected and on. -/
theorem C115_active (w : Mgr) (r : Nat) (ch : Chan) : (r, ch) ∈ w.activeChannels ↔ r ∈ w.devices ∧ ∃ d, w.objs[r]? = some d ∧ some ch ∈ d.info.channels ∧ ch.enabled = true := by
  unfold Mgr.activeChannels
  rw [List.mem_flatMap]
  constructor
  · rintro ⟨r', hr', h⟩
    cases hd : w.objs[r']? with
    | none => rw [hd] at h; cases h
    | some d =>
      rw [hd] at h
      obtain ⟨ch', h1, h2⟩ := List.mem_map.mp h
      injection h2 with e1 e2
      subst e1 e2
      obtain ⟨h3, h4⟩ := List.mem_filter.mp h1
      obtain ⟨x, hx, rfl⟩ := List.mem_filterMap.mp h3
      exact ⟨hr', d, hd, hx, h4⟩
  · rintro ⟨hr, d, hd, hm, he⟩
    refine ⟨r, hr, ?_⟩
    rw [hd]
    exact List.mem_map.mpr ⟨ch, List.mem_filter.mpr ⟨List.mem_filterMap.mpr ⟨some ch, hm, rfl⟩, he⟩, rfl⟩

/-- **C115 (removal)**: disconnecting takes exactly the device of that id off the list, and leaves all others as they are. -/
theorem C115_remove (wave : Rat → Rat) (ops : List MgrOp) (id : String) (r : Nat) (d : Dev) (hd : (Mgr.init.run wave ops).2.objs[r]? = some d) :
    (r ∈ ((Mgr.init.run wave ops).2.step wave (.disconnect id)).2.devices ↔ r ∈ (Mgr.init.run wave ops).2.devices ∧ d.info.id ≠ id) ∧
    (d.info.id ≠ id → ((Mgr.init.run wave ops).2.step wave (.disconnect id)).2.objs[r]? = some d) := by
  have hids := fun r r' d d' => C115_ids wave ops r r' d d'
  obtain ⟨ks, hw⟩ := mgrinv_run wave ops Mgr.init [] mgrinv_init
  rw [List.nil_append] at hw
  generalize (Mgr.init.run wave ops).2 = w at *
  show (r ∈ (w.disconnectDevice wave id).devices ↔ _) ∧ (_ → (w.disconnectDevice wave id).objs[r]? = some d)
  unfold Mgr.disconnectDevice
  cases hf : w.devices.find? fun r => (w.objs[r]?).any fun d => d.info.id = id with
  | none =>
    refine ⟨⟨fun h => ⟨h, fun he => ?_⟩, fun h => h.1⟩, fun _ => hd⟩
    have := List.find?_eq_none.mp hf r h
    rw [hd] at this
    simp [he] at this
  | some q =>
    have hq := List.find?_some hf
    have hqm := List.mem_of_find?_eq_some hf
    cases hdq : w.objs[q]? with
    | none => rw [hdq] at hq; cases hq
    | some dq =>
      rw [hdq] at hq
      have hqid : dq.info.id = id := by simpa using hq
      have key : d.info.id = id ↔ r = q := by
        constructor
        · intro he; exact (hids r q d dq hd hdq).1 (by rw [he, hqid])
        · intro he; subst he; rw [hd] at hdq; injection hdq with hdq; rw [hdq]; exact hqid
      refine ⟨?_, ?_⟩
      · show r ∈ w.devices.erase q ↔ _
        rw [hw.dnodup.mem_erase_iff]
        constructor
        · rintro ⟨h1, h2⟩; exact ⟨h2, fun he => h1 (key.mp he)⟩
        · rintro ⟨h1, h2⟩; exact ⟨fun he => h2 (key.mpr he), h1⟩
      · intro hne
        show (w.devStep wave q .disconnect).2.objs[r]? = some d
        unfold Mgr.devStep
        rw [hdq]
        show (w.objs.set q _)[r]? = some d
        rw [List.getElem?_set_ne (fun he => hne (key.mpr he.symm))]
        exact hd

/-! what reaches the database -/

theorem mem_call {d : Dev} {c : String} {x : Data} {y : Call} (h : y ∈ d.call c x) : y.1 = c := by
  unfold Dev.call at h; rw [List.eq_of_mem_replicate h]

/-- a device only makes calls about its own channels -/
theorem calls_own (wave : Rat → Rat) (d : Dev) (o : DevOp) (x : Call) (h : x ∈ (d.step wave o).1) : x.1 ∈ chanIds d := by
  have live : ∀ ch ∈ d.info.live, ch.id ∈ chanIds d := fun ch hch => List.mem_map.mpr ⟨ch, (List.mem_filter.mp hch).1, rfl⟩
  cases o with
  | tick s now =>
    simp only [Dev.step] at h
    split at h
    · split at h
      · unfold Dev.mockTick at h
        split at h
        · cases h
        · obtain ⟨t, _, h⟩ := List.mem_flatMap.mp h
          obtain ⟨ch, hch, h⟩ := List.mem_flatMap.mp h
          rw [mem_call h]; exact live ch hch
      · cases h
    · cases h
  | audio now a b =>
    simp only [Dev.step] at h
    split at h
    · split at h
      · unfold Dev.micAudio at h
        split at h
        · cases h
        · change x ∈ d.micCalls _ _ _ at h
          unfold Dev.micCalls at h
          split at h
          · rename_i ch hch
            have hm : ch.id ∈ chanIds d := mem_chanIds d ch (List.mem_of_mem_head? hch)
            split at h
            · rcases List.mem_append.mp h with h | h
              · obtain ⟨_, _, h⟩ := List.mem_flatMap.mp h; rw [mem_call h]; exact hm
              · rw [mem_call h]; exact hm
            · cases h
          · cases h
      · cases h
    · cases h
  | _ => cases h

theorem about_nil_of {c : String} {l : List Call} (h : ∀ x ∈ l, x.1 ≠ c) : about c l = [] := by
  unfold about
  rw [List.filter_eq_nil_iff]
  intro x hx
  simpa using h x hx

theorem mgr_run_cons (wave : Rat → Rat) (w : Mgr) (o : MgrOp) (os : List MgrOp) : (w.run wave (o :: os)).1 = (w.step wave o).1 ++ ((w.step wave o).2.run wave os).1 := rfl

theorem mgr_run_append (wave : Rat → Rat) : ∀ (os os' : List MgrOp) (w : Mgr), (w.run wave (os ++ os')).1 = (w.run wave os).1 ++ ((w.run wave os).2.run wave os').1 := by
  intro os os'
  induction os with
  | nil => intro w; rfl
  | cons o os ih =>
    intro w
    rw [List.cons_append, mgr_run_cons, ih, mgr_run_cons, List.append_assoc]
    rfl

/-- objects stay, with their channels -/
theorem objs_stay (wave : Rat → Rat) (w : Mgr) (o : MgrOp) (r : Nat) (d : Dev) (h : w.objs[r]? = some d) : ∃ d', (w.step wave o).2.objs[r]? = some d' ∧ chanIds d' = chanIds d := by
  have dev : ∀ (w : Mgr) (q : Nat) (o : DevOp) (d : Dev), w.objs[r]? = some d → ∃ d', (w.devStep wave q o).2.objs[r]? = some d' ∧ chanIds d' = chanIds d := by
    intro w q o d h
    unfold Mgr.devStep
    cases hq : w.objs[q]? with
    | none => exact ⟨d, h, rfl⟩
    | some dq =>
      show ∃ d', (w.objs.set q _)[r]? = some d' ∧ _
      by_cases he : q = r
      · subst he
        rw [h] at hq
        injection hq with hq
        subst hq
        exact ⟨_, by rw [List.getElem?_set_self (List.getElem?_eq_some_iff.mp h).1], step_ids wave d o⟩
      · exact ⟨d, by rw [List.getElem?_set_ne he]; exact h, rfl⟩
  have add : ∀ d0, (w.addDevice d0).objs[r]? = some d := by
    intro d0
    show (w.objs ++ _)[r]? = some d
    rw [List.getElem?_append_left (List.getElem?_eq_some_iff.mp h).1]; exact h
  cases o with
  | addMock => exact ⟨d, add _, rfl⟩
  | addMic => exact ⟨d, add _, rfl⟩
  | dev q o => exact dev w q o d h
  | disconnect id =>
    show ∃ d', (w.disconnectDevice wave id).objs[r]? = some d' ∧ _
    unfold Mgr.disconnectDevice
    split
    · exact ⟨d, h, rfl⟩
    · rename_i q _; exact dev w q .disconnect d h
  | disconnectAll =>
    show ∃ d', (w.disconnectAll wave).objs[r]? = some d' ∧ _
    unfold Mgr.disconnectAll
    show ∃ d', (w.devices.foldl (fun w r => (w.devStep wave r .disconnect).2) w).objs[r]? = some d' ∧ _
    generalize w.devices = l
    clear add
    induction l generalizing w d with
    | nil => exact ⟨d, h, rfl⟩
    | cons q l ih =>
      obtain ⟨d1, h1, h2⟩ := dev w q .disconnect d h
      obtain ⟨d2, h3, h4⟩ := ih _ d1 h1
      exact ⟨d2, h3, by rw [h4, h2]⟩

/-- every call is about a channel of one of the objects -/
theorem calls_objs (wave : Rat → Rat) : ∀ (ops : List MgrOp) (w : Mgr) (x : Call), x ∈ (w.run wave ops).1 → ∃ (r : Nat) (d : Dev), (w.run wave ops).2.objs[r]? = some d ∧ x.1 ∈ chanIds d := by
  intro ops
  have stay : ∀ (ops : List MgrOp) (w : Mgr) (r : Nat) (d : Dev), w.objs[r]? = some d → ∃ d', (w.run wave ops).2.objs[r]? = some d' ∧ chanIds d' = chanIds d := by
    intro ops
    induction ops with
    | nil => intro w r d h; exact ⟨d, h, rfl⟩
    | cons o os ih =>
      intro w r d h
      obtain ⟨d1, h1, h2⟩ := objs_stay wave w o r d h
      obtain ⟨d2, h3, h4⟩ := ih _ r d1 h1
      exact ⟨d2, h3, by rw [h4, h2]⟩
  induction ops with
  | nil => intro w x h; cases h
  | cons o os ih =>
    intro w x h
    rw [mgr_run_cons] at h
    rcases List.mem_append.mp h with h | h
    · cases o with
      | dev r o =>
        change x ∈ (w.devStep wave r o).1 at h
        unfold Mgr.devStep at h
        cases hd : w.objs[r]? with
        | none => rw [hd] at h; cases h
        | some d =>
          rw [hd] at h
          simp only at h
          split at h
          · cases h
          · obtain ⟨d1, h1, h2⟩ := objs_stay wave w (.dev r o) r d hd
            obtain ⟨d2, h3, h4⟩ := stay os _ r d1 h1
            exact ⟨r, d2, h3, by rw [h4, h2]; exact calls_own wave d o x h⟩
      | _ => cases h
    · exact ih _ x h

theorem mgr_terminated (wave : Rat → Rat) (w : Mgr) (o : MgrOp) (ho : o ≠ .disconnectAll) (h : w.terminated = false) : (w.step wave o).2.terminated = false := by
  have dev : ∀ r o, (w.devStep wave r o).2.terminated = false := by intro r o; unfold Mgr.devStep; split <;> exact h
  cases o with
  | addMock => exact h
  | addMic => exact h
  | dev r o => exact dev r o
  | disconnect id => show (w.disconnectDevice wave id).terminated = false; unfold Mgr.disconnectDevice; split; exact h; exact dev _ _
  | disconnectAll => exact absurd rfl ho

/-- from when it is there, what reaches the database about a channel of a device is what the device sends in what happens to it -/
theorem deliver_run (wave : Rat → Rat) (r : Nat) (c : String) : ∀ (ops : List MgrOp) (w : Mgr) (ks : List Ident) (d : Dev), MgrInv w ks → w.terminated = false → w.objs[r]? = some d → c ∈ chanIds d → .disconnectAll ∉ ops →
    about c (w.run wave ops).1 = about c (d.run wave (devOps d.info.id r (decide (r ∈ w.devices)) ops)).1 := by
  intro ops
  induction ops with
  | nil => intro w ks d _ _ _ _ _; rfl
  | cons o os ih =>
    intro w ks d hw ht hd hc hno
    have hno' : .disconnectAll ∉ os := fun h => hno (List.mem_cons_of_mem _ h)
    have hoa : o ≠ .disconnectAll := fun h => hno (by rw [h]; exact List.mem_cons_self ..)
    obtain ⟨l, hw'⟩ := mgrinv_step wave w ks hw o
    have ht' := mgr_terminated wave w o hoa ht
    have hlt := (List.getElem?_eq_some_iff.mp hd).1
    rw [mgr_run_cons, about_append]
    cases o with
    | addMock =>
      have hd' : (w.step wave .addMock).2.objs[r]? = some d := by show (w.objs ++ _)[r]? = _; rw [List.getElem?_append_left hlt]; exact hd
      rw [ih _ _ d hw' ht' hd' hc hno']
      have : decide (r ∈ (w.step wave .addMock).2.devices) = decide (r ∈ w.devices) := by
        show decide (r ∈ w.devices ++ [w.objs.length]) = _
        simp; omega
      rw [this]; rfl
    | addMic =>
      have hd' : (w.step wave .addMic).2.objs[r]? = some d := by show (w.objs ++ _)[r]? = _; rw [List.getElem?_append_left hlt]; exact hd
      rw [ih _ _ d hw' ht' hd' hc hno']
      have : decide (r ∈ (w.step wave .addMic).2.devices) = decide (r ∈ w.devices) := by
        show decide (r ∈ w.devices ++ [w.objs.length]) = _
        simp; omega
      rw [this]; rfl
    | dev q o =>
      have hdv : (w.step wave (.dev q o)).2.devices = w.devices := devStep_devices wave w q o
      by_cases hq : q = r
      · subst hq
        have e : w.step wave (.dev q o) = ((d.step wave o).1, { w with objs := w.objs.set q (d.step wave o).2 }) := by
          show w.devStep wave q o = _
          unfold Mgr.devStep
          rw [hd]
          simp [ht]
        have hd' : (w.step wave (.dev q o)).2.objs[q]? = some (d.step wave o).2 := by rw [e]; exact List.getElem?_set_self hlt
        rw [ih _ _ _ hw' ht' hd' (by rw [step_ids]; exact hc) hno', hdv, step_devId, e]
        have : devOps d.info.id q (decide (q ∈ w.devices)) (.dev q o :: os) = o :: devOps d.info.id q (decide (q ∈ w.devices)) os := by simp [devOps]
        rw [this, run_cons, about_append]
      · have hd' : (w.step wave (.dev q o)).2.objs[r]? = some d := by
          show (w.devStep wave q o).2.objs[r]? = _
          unfold Mgr.devStep
          split
          · exact hd
          · show (w.objs.set q _)[r]? = _; rw [List.getElem?_set_ne hq]; exact hd
        have e0 : about c (w.step wave (.dev q o)).1 = [] := by
          apply about_nil_of
          intro x hx hxc
          change x ∈ (w.devStep wave q o).1 at hx
          unfold Mgr.devStep at hx
          cases hdq : w.objs[q]? with
          | none => rw [hdq] at hx; cases hx
          | some dq =>
            rw [hdq] at hx
            simp only [ht] at hx
            have hx' := calls_own wave dq o x hx
            rw [hxc] at hx'
            obtain ⟨k, k1, _, k3, _⟩ := mgrinv_get hw hd
            obtain ⟨k', k1', _, k3', _⟩ := mgrinv_get hw hdq
            have := identChans_inj k k' c (k3 ▸ hc) (k3' ▸ hx')
            subst this
            exact hq (idx_of_nodup hw.nodup k1' k1)
        rw [e0, List.nil_append, ih _ _ d hw' ht' hd' hc hno', hdv]
        have : devOps d.info.id r (decide (r ∈ w.devices)) (.dev q o :: os) = devOps d.info.id r (decide (r ∈ w.devices)) os := by simp [devOps, hq]
        rw [this]
    | disconnect id =>
      rw [show (w.step wave (.disconnect id)).1 = [] from rfl, show about c [] = [] from rfl, List.nil_append]
      have hstep : (w.step wave (.disconnect id)).2 = w.disconnectDevice wave id := rfl
      cases hf : w.devices.find? fun r => (w.objs[r]?).any fun d => d.info.id = id with
      | none =>
        have e : w.disconnectDevice wave id = w := by unfold Mgr.disconnectDevice; rw [hf]
        have hne : ¬ (id = d.info.id ∧ decide (r ∈ w.devices) = true) := by
          rintro ⟨h1, h2⟩
          have := List.find?_eq_none.mp hf r (by simpa using h2)
          rw [hd] at this
          simp [h1] at this
        rw [hstep, e] at hw' ht' ⊢
        rw [ih w _ d hw' ht' hd hc hno']
        have : devOps d.info.id r (decide (r ∈ w.devices)) (.disconnect id :: os) = devOps d.info.id r (decide (r ∈ w.devices)) os := by simp only [devOps]; rw [if_neg hne]
        rw [this]
      | some q =>
        have hq := List.find?_some hf
        have hqm := List.mem_of_find?_eq_some hf
        cases hdq : w.objs[q]? with
        | none => rw [hdq] at hq; cases hq
        | some dq =>
          rw [hdq] at hq
          have hqid : dq.info.id = id := by simpa using hq
          have e : w.disconnectDevice wave id = { w with objs := w.objs.set q (dq.step wave .disconnect).2, devices := w.devices.erase q } := by
            unfold Mgr.disconnectDevice
            rw [hf]
            show { (w.devStep wave q .disconnect).2 with devices := w.devices.erase q } = _
            unfold Mgr.devStep
            rw [hdq]
          rw [hstep, e] at hw' ht' ⊢
          by_cases hqr : q = r
          · subst hqr
            rw [hd] at hdq
            injection hdq with hdq
            subst hdq
            have hd' : (w.objs.set q (d.step wave .disconnect).2)[q]? = some (d.step wave .disconnect).2 := List.getElem?_set_self hlt
            rw [ih _ _ _ hw' ht' hd' (by rw [step_ids]; exact hc) hno', step_devId]
            have e2 : decide (q ∈ w.devices.erase q) = false := by
              simp only [decide_eq_false_iff_not]
              exact fun h => (hw.dnodup.mem_erase_iff.mp h).1 rfl
            have e3 : devOps d.info.id q (decide (q ∈ w.devices)) (.disconnect id :: os) = .disconnect :: devOps d.info.id q false os := by
              simp only [devOps]; rw [if_pos ⟨hqid.symm, by simpa using hqm⟩]
            show about c (Dev.run wave _ (devOps d.info.id q (decide (q ∈ w.devices.erase q)) os)).1 = _
            rw [e2, e3, run_cons]
            rfl
          · have hd' : (w.objs.set q (dq.step wave .disconnect).2)[r]? = some d := by rw [List.getElem?_set_ne hqr]; exact hd
            rw [ih _ _ d hw' ht' hd' hc hno']
            have hne : d.info.id ≠ id := by
              intro he
              obtain ⟨k, k1, k2, _⟩ := mgrinv_get hw hd
              obtain ⟨k', k1', k2', _⟩ := mgrinv_get hw hdq
              have : k = k' := identId_inj _ _ (by rw [← k2, ← k2', he, hqid])
              subst this
              exact hqr (idx_of_nodup hw.nodup k1' k1)
            have e2 : decide (r ∈ w.devices.erase q) = decide (r ∈ w.devices) := by
              rw [decide_eq_decide]
              exact ⟨fun h => (hw.dnodup.mem_erase_iff.mp h).2, fun h => hw.dnodup.mem_erase_iff.mpr ⟨fun h' => hqr h'.symm, h⟩⟩
            have e3 : devOps d.info.id r (decide (r ∈ w.devices)) (.disconnect id :: os) = devOps d.info.id r (decide (r ∈ w.devices)) os := by
              simp only [devOps]; rw [if_neg (fun h => hne h.1.symm)]
            show about c (Dev.run wave _ (devOps d.info.id r (decide (r ∈ w.devices.erase q)) os)).1 = _
            rw [e2, e3]
    | disconnectAll => exact absurd rfl hoa

theorem mgr_counts (wave : Rat → Rat) : ∀ (ops : List MgrOp) (w : Mgr), .disconnectAll ∉ ops → w.terminated = false → (w.run wave ops).2.terminated = false ∧ (w.run wave ops).2.objs.length = w.objs.length + added ops ∧
    (w.run wave ops).2.mockI = w.mockI + addedMocks ops ∧ (w.run wave ops).2.micI = w.micI + addedMics ops := by
  intro ops
  have dev : ∀ (w : Mgr) r o, (w.devStep wave r o).2.objs.length = w.objs.length ∧ (w.devStep wave r o).2.mockI = w.mockI ∧ (w.devStep wave r o).2.micI = w.micI := by
    intro w r o; unfold Mgr.devStep; split
    · exact ⟨rfl, rfl, rfl⟩
    · exact ⟨List.length_set .., rfl, rfl⟩
  induction ops with
  | nil => intro w _ h; exact ⟨h, rfl, rfl, rfl⟩
  | cons o os ih =>
    intro w hno ht
    have hoa : o ≠ .disconnectAll := fun h => hno (by rw [h]; exact List.mem_cons_self ..)
    obtain ⟨i1, i2, i3, i4⟩ := ih (w.step wave o).2 (fun h => hno (List.mem_cons_of_mem _ h)) (mgr_terminated wave w o hoa ht)
    refine ⟨i1, ?_⟩
    show ((w.step wave o).2.run wave os).2.objs.length = _ ∧ ((w.step wave o).2.run wave os).2.mockI = _ ∧ ((w.step wave o).2.run wave os).2.micI = _
    rw [i2, i3, i4]
    cases o with
    | addMock =>
      have a : (w.step wave .addMock).2.objs.length = w.objs.length + 1 := by show (w.objs ++ [_]).length = _; simp
      have b : (w.step wave .addMock).2.mockI = w.mockI + 1 := rfl
      have c : (w.step wave .addMock).2.micI = w.micI + 0 := rfl
      rw [a, b, c]
      simp only [added, addedMocks, addedMics]; omega
    | addMic =>
      have a : (w.step wave .addMic).2.objs.length = w.objs.length + 1 := by show (w.objs ++ [_]).length = _; simp
      have b : (w.step wave .addMic).2.mockI = w.mockI + 0 := rfl
      have c : (w.step wave .addMic).2.micI = w.micI + 1 := rfl
      rw [a, b, c]
      simp only [added, addedMocks, addedMics]; omega
    | dev r o => obtain ⟨a, b, c⟩ := dev w r o; simp only [Mgr.step, added, addedMocks, addedMics]; omega
    | disconnect id =>
      have : (w.disconnectDevice wave id).objs.length = w.objs.length ∧ (w.disconnectDevice wave id).mockI = w.mockI ∧ (w.disconnectDevice wave id).micI = w.micI := by
        unfold Mgr.disconnectDevice
        split
        · exact ⟨rfl, rfl, rfl⟩
        · rename_i r _; exact dev w r .disconnect
      obtain ⟨a, b, c⟩ := this
      simp only [Mgr.step, added, addedMocks, addedMics]; omega
    | disconnectAll => exact absurd rfl hoa

theorem about_before (wave : Rat → Rat) (ops : List MgrOp) (k : Ident) (c : String) (hc : c ∈ identChans k) (hk : ∀ ks, MgrInv (Mgr.init.run wave ops).2 ks → k ∉ ks) : about c (Mgr.init.run wave ops).1 = [] := by
  apply about_nil_of
  intro x hx hxc
  obtain ⟨r, d, hd, hm⟩ := calls_objs wave ops Mgr.init x hx
  obtain ⟨ks, h⟩ := mgrinv_run wave ops Mgr.init [] mgrinv_init
  rw [List.nil_append] at h
  obtain ⟨k', k1, _, k3, _⟩ := mgrinv_get h hd
  rw [hxc, k3] at hm
  have := identChans_inj k k' c hc hm
  subst this
  exact hk ks h (List.mem_of_getElem? k1)

theorem readingsOf_about (c : String) (l : List Call) : readingsOf c l = readingsOf c (about c l) := by
  rw [readingsOf_part, readingsOf_part c (about c l)]
  congr 1
  unfold part about
  rw [List.filter_filter]
  simp

theorem fftsOf_about (c : String) (l : List Call) : fftsOf c l = fftsOf c (about c l) := by
  rw [fftsOf_part, fftsOf_part c (about c l)]
  congr 1
  unfold part about
  rw [List.filter_filter]
  simp

/-- **C115 (delivery, mock device)**: what reaches the database about a channel of the i-th mock device is what that device sends in what happens to it, neither more nor less, whatever other devices do. -/
theorem C115_deliver_mock (wave : Rat → Rat) (ops1 ops2 : List MgrOp) (h1 : .disconnectAll ∉ ops1) (h2 : .disconnectAll ∉ ops2) (k : Nat) (hk : k = 1 ∨ k = 2 ∨ k = 3) :
    let i := addedMocks ops1 + 1
    let c := channelId (mockId i) k
    let sent := ((mockDevice i).run wave (devOps (mockId i) (added ops1) true ops2)).1
    readingsOf c (Mgr.init.run wave (ops1 ++ .addMock :: ops2)).1 = readingsOf c sent ∧ fftsOf c (Mgr.init.run wave (ops1 ++ .addMock :: ops2)).1 = fftsOf c sent := by
  intro i c sent
  obtain ⟨c1, c2, c3, _⟩ := mgr_counts wave ops1 Mgr.init h1 rfl
  obtain ⟨ks, hw⟩ := mgrinv_run wave ops1 Mgr.init [] mgrinv_init
  rw [List.nil_append] at hw
  have hi : (Mgr.init.run wave ops1).2.mockI = i := by rw [c3]; show 1 + _ = _; omega
  have hr : (Mgr.init.run wave ops1).2.objs.length = added ops1 := by rw [c2]; exact Nat.zero_add _
  have hcm : c ∈ identChans (true, i) := by
    show c ∈ [channelId (mockId i) 1, channelId (mockId i) 2, channelId (mockId i) 3]
    rcases hk with rfl | rfl | rfl <;> simp [c]
  have hbefore : about c (Mgr.init.run wave ops1).1 = [] := about_before wave ops1 (true, i) c hcm fun ks' h' hm => by have := h'.mocks _ hm; omega
  have key : about c (Mgr.init.run wave (ops1 ++ .addMock :: ops2)).1 = about c sent := by
    rw [mgr_run_append, about_append, hbefore, List.nil_append, mgr_run_cons, about_append, show about c ((Mgr.init.run wave ops1).2.step wave .addMock).1 = [] from rfl, List.nil_append]
    generalize (Mgr.init.run wave ops1).2 = w at *
    obtain ⟨l, hw'⟩ := mgrinv_step wave w ks hw .addMock
    have hd : (w.step wave .addMock).2.objs[added ops1]? = some (mockDevice i) := by
      show (w.objs ++ [_])[added ops1]? = _
      rw [← hr, List.getElem?_append_right (Nat.le_refl _), Nat.sub_self, ← hi]; rfl
    rw [deliver_run wave (added ops1) c ops2 _ _ _ hw' (mgr_terminated wave w _ (by simp) c1) hd (by rw [mock_ids]; exact hcm) h2]
    have : decide (added ops1 ∈ (w.step wave .addMock).2.devices) = true := by
      show decide (added ops1 ∈ w.devices ++ [w.objs.length]) = true
      rw [hr]; simp
    rw [this]
    rfl
  exact ⟨by rw [readingsOf_about, key, ← readingsOf_about], by rw [fftsOf_about, key, ← fftsOf_about]⟩

/-- **C115 (delivery, microphone)** -/
theorem C115_deliver_mic (wave : Rat → Rat) (ops1 ops2 : List MgrOp) (h1 : .disconnectAll ∉ ops1) (h2 : .disconnectAll ∉ ops2) :
    let i := addedMics ops1 + 1
    let c := channelId (micId i) 1
    let sent := ((micDevice i).run wave (devOps (micId i) (added ops1) true ops2)).1
    readingsOf c (Mgr.init.run wave (ops1 ++ .addMic :: ops2)).1 = readingsOf c sent ∧ fftsOf c (Mgr.init.run wave (ops1 ++ .addMic :: ops2)).1 = fftsOf c sent := by
  intro i c sent
  obtain ⟨c1, c2, _, c3⟩ := mgr_counts wave ops1 Mgr.init h1 rfl
  obtain ⟨ks, hw⟩ := mgrinv_run wave ops1 Mgr.init [] mgrinv_init
  rw [List.nil_append] at hw
  have hi : (Mgr.init.run wave ops1).2.micI = i := by rw [c3]; show 1 + _ = _; omega
  have hr : (Mgr.init.run wave ops1).2.objs.length = added ops1 := by rw [c2]; exact Nat.zero_add _
  have hcm : c ∈ identChans (false, i) := List.mem_singleton.mpr rfl
  have hbefore : about c (Mgr.init.run wave ops1).1 = [] := about_before wave ops1 (false, i) c hcm fun ks' h' hm => by have := h'.mics _ hm; omega
  have key : about c (Mgr.init.run wave (ops1 ++ .addMic :: ops2)).1 = about c sent := by
    rw [mgr_run_append, about_append, hbefore, List.nil_append, mgr_run_cons, about_append, show about c ((Mgr.init.run wave ops1).2.step wave .addMic).1 = [] from rfl, List.nil_append]
    generalize (Mgr.init.run wave ops1).2 = w at *
    obtain ⟨l, hw'⟩ := mgrinv_step wave w ks hw .addMic
    have hd : (w.step wave .addMic).2.objs[added ops1]? = some (micDevice i) := by
      show (w.objs ++ [_])[added ops1]? = _
      rw [← hr, List.getElem?_append_right (Nat.le_refl _), Nat.sub_self, ← hi]; rfl
    rw [deliver_run wave (added ops1) c ops2 _ _ _ hw' (mgr_terminated wave w _ (by simp) c1) hd (by rw [mic_ids]; exact hcm) h2]
    have : decide (added ops1 ∈ (w.step wave .addMic).2.devices) = true := by
      show decide (added ops1 ∈ w.devices ++ [w.objs.length]) = true
      rw [hr]; simp
    rw [this]
    rfl
  exact ⟨by rw [readingsOf_about, key, ← readingsOf_about], by rw [fftsOf_about, key, ← fftsOf_about]⟩

/-- **C115 (after the manager is gone)**: once all devices are disconnected, nothing reaches the database any more, not even from devices whose timers still run. -/
theorem C115_terminated (wave : Rat → Rat) (w : Mgr) (ops : List MgrOp) : ((w.step wave .disconnectAll).2.run wave ops).1 = [] ∧ (w.step wave .disconnectAll).2.activeChannels = [] := by
  refine ⟨?_, rfl⟩
  have dev : ∀ (w : Mgr) r o, w.terminated = true → (w.devStep wave r o).1 = [] ∧ (w.devStep wave r o).2.terminated = true := by
    intro w r o h; unfold Mgr.devStep; split
    · exact ⟨rfl, h⟩
    · exact ⟨by simp [h], h⟩
  have : ∀ (ops : List MgrOp) (w : Mgr), w.terminated = true → (w.run wave ops).1 = [] := by
    intro ops
    induction ops with
    | nil => intro w _; rfl
    | cons o os ih =>
      intro w h
      have key : (w.step wave o).1 = [] ∧ (w.step wave o).2.terminated = true := by
        cases o with
        | addMock => exact ⟨rfl, h⟩
        | addMic => exact ⟨rfl, h⟩
        | dev r o => exact dev w r o h
        | disconnect id =>
          refine ⟨rfl, ?_⟩
          show (w.disconnectDevice wave id).terminated = true
          unfold Mgr.disconnectDevice
          split
          · exact h
          · rename_i r _; exact (dev w r .disconnect h).2
        | disconnectAll => exact ⟨rfl, rfl⟩
      rw [mgr_run_cons, key.1, ih _ key.2]; rfl
  exact this ops _ rfl

/-- two devices, each channel as if alone -/
example : (readingsOf (channelId (mockId 1) 1) (Mgr.init.run (fun x => x) ([] ++ .addMock :: [.dev 0 (.aligned .readings), .addMock, .dev 1 (.aligned .readings), .dev 0 (.tick .readings 1000), .dev 1 (.tick .readings 1003),
    .dev 0 (.tick .readings 1020), .disconnect (mockId 1), .dev 0 (.tick .readings 1040), .disconnect "x"])).1).map (·.timestamp) = [1000, 1010] := by
  have h0 := (C115_deliver_mock (fun x => x) [] [.dev 0 (.aligned .readings), .addMock, .dev 1 (.aligned .readings), .dev 0 (.tick .readings 1000), .dev 1 (.tick .readings 1003), .dev 0 (.tick .readings 1020),
      .disconnect (mockId 1), .dev 0 (.tick .readings 1040), .disconnect "x"] (by simp) (by simp) 1 (.inl rfl)).1
  simp only [addedMocks, added, Nat.zero_add] at h0
  rw [h0]
  have e : devOps (mockId 1) 0 true [.dev 0 (.aligned .readings), .addMock, .dev 1 (.aligned .readings), .dev 0 (.tick .readings 1000), .dev 1 (.tick .readings 1003), .dev 0 (.tick .readings 1020),
      .disconnect (mockId 1), .dev 0 (.tick .readings 1040), .disconnect "x"] = [.aligned .readings, .tick .readings 1000, .tick .readings 1020, .disconnect, .tick .readings 1040] := by simp [devOps]
  show (readingsOf (channelId (mockId 1) 1) ((mockDevice 1).run _ (devOps (mockId 1) 0 true _)).1).map (·.timestamp) = _
  rw [e]
  have hrun : ((mockDevice 1).run (fun x => x) [.aligned .readings, .tick .readings 1000, .tick .readings 1020, .disconnect, .tick .readings 1040]).1 = ((mockDevice 1).run (fun x => x) [.aligned .readings, .tick .readings 1000, .tick .readings 1020]).1 := by
    rw [show [DevOp.aligned .readings, .tick .readings 1000, .tick .readings 1020, .disconnect, .tick .readings 1040] = [.aligned .readings, .tick .readings 1000, .tick .readings 1020] ++ [.disconnect, .tick .readings 1040] from rfl,
      (devRun_append _ _ _ _).1]
    rw [show (Dev.run (fun x => x) ((mockDevice 1).run (fun x => x) [.aligned .readings, .tick .readings 1000, .tick .readings 1020]).2 [.disconnect, .tick .readings 1040]).1 = [] from rfl, List.append_nil]
  rw [hrun, show [DevOp.aligned .readings, .tick .readings 1000, .tick .readings 1020] = [] ++ .aligned .readings :: [.tick .readings 1000, .tick .readings 1020] from rfl]
  rw [C115_readings (fun x => x) 1 1 (.inl rfl) [] [.tick .readings 1000, .tick .readings 1020] (by simp) (by simp) (by intro e h; simp at h) (by simp [firings]) (by simp [firings]) 1000 1020 1000 1020 rfl rfl
    (by unfold IsNearest; decide) (by unfold IsNearest; decide)]
  rfl

/-- **C115 (into the database)**: with the clock not going back, every whole tenth of a second between the first and the last firing of the timer of a mock device ends up in the database (C106), for each channel left on. -/
theorem C115_stored (wave : Rat → Rat) (i k : Nat) (hk : k = 1 ∨ k = 2) (pre post : List DevOp) (hpre : .aligned .readings ∉ pre) (hdis : .disconnect ∉ post) (hon : StaysOn (channelId (mockId i) k) (pre ++ post))
    (hclock : (firings .readings (pre ++ post)).Pairwise (· ≤ ·)) (hpos : ∀ now ∈ firings .readings post, 5 ≤ now) (first last a b : Nat) (hfirst : (firings .readings post).head? = some first)
    (hlast : (firings .readings post).getLast? = some last) (ha : IsNearest 10 first a) (hb : IsNearest 10 last b)
    (db : List (WOp Rat)) (hdb : arrived (channelId (mockId i) k) db = readingsOf (channelId (mockId i) k) ((mockDevice i).run wave (pre ++ .aligned .readings :: post)).1) (hnr : ∀ o ∈ db, o ≠ .restart)
    (t : Nat) (ht : 100 ∣ t) (hta : a ≤ t) (htb : t + 100 ≤ b) :
    ∃ r : Row Rat, r.timestamp = t ∧ (r ∈ ((Worker.init (α := Rat)).run 0 db).rows (channelId (mockId i) k) ∨ (channelId (mockId i) k, r) ∈ ((Worker.init (α := Rat)).run 0 db).pending) := by
  have hfa : ∀ l l' : List DevOp, firings .readings (l ++ l') = firings .readings l ++ firings .readings l' := by
    intro l l'
    induction l with
    | nil => rfl
    | cons o l ih =>
      cases o with
      | tick s now => simp only [List.cons_append, firings, ih]; split <;> rfl
      | _ => exact ih
  have hmono : (firings .readings (pre ++ .aligned .readings :: post)).Pairwise (· ≤ ·) := by rw [hfa] at hclock ⊢; exact hclock
  have hP : Proper (arrived (channelId (mockId i) k) db) := by rw [hdb]; exact C115_proper wave i _ _ hmono
  have hsr : sinceRestart db = db := sinceRestart_id db hnr
  refine C106_stored 0 (channelId (mockId i) k) db hP t (by omega) ?_
  intro n hn
  rw [hsr, hdb, C115_readings wave i k hk pre post hpre hdis hon (by rw [hfa] at hclock; exact (List.pairwise_append.mp hclock).2.1) hpos first last a b hfirst hlast ha hb]
  have ha10 : 10 ∣ a := ha.1
  have hb10 : 10 ∣ b := hb.1
  refine ⟨_, List.mem_map.mpr ⟨(t - a) / 10 + n, List.mem_range.mpr (by omega), rfl⟩, ?_⟩
  show ((a + 10 * ((t - a) / 10 + n) : Nat) : Int) = t + 10 * (n : Int)
  omega

example (wave : Rat → Rat) : ∃ db : List (WOp Rat), ∃ r : Row Rat, r.timestamp = 1000 ∧
    (r ∈ ((Worker.init (α := Rat)).run 0 db).rows (channelId (mockId 1) 1) ∨ (channelId (mockId 1) 1, r) ∈ ((Worker.init (α := Rat)).run 0 db).pending) := by
  refine ⟨(readingsOf (channelId (mockId 1) 1) ((mockDevice 1).run wave ([] ++ .aligned .readings :: [.tick .readings 1000, .tick .readings 1060, .tick .readings 1102])).1).map (fun d => .packet (channelId (mockId 1) 1) d),
    C115_stored wave 1 1 (.inl rfl) [] [.tick .readings 1000, .tick .readings 1060, .tick .readings 1102] (by simp) (by simp) (by intro e h; simp at h) (by simp [firings]) (by simp [firings]) 1000 1102 1000 1100 rfl rfl
      (by unfold IsNearest; decide) (by unfold IsNearest; decide) _ ?_ ?_ 1000 (by decide) (by decide) (by decide)⟩
  · generalize readingsOf _ _ = l
    induction l with
    | nil => rfl
    | cons d l ih => rw [List.map_cons, arrived, if_pos rfl, ih]
  · intro o ho
    obtain ⟨d, _, rfl⟩ := List.mem_map.mp ho
    simp

end Verif.Props
