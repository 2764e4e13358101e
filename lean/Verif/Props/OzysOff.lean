import Verif.Props.OzysDevices
/- C115, continued: channels switched off, channels changed, the microphone disconnected. -/
namespace Verif.Props
open Verif.Ozys

/-- the devices there are -/
def IsDevice (d : Dev) : Prop := ∃ i, d = mockDevice i ∨ d = micDevice i

theorem device_nodup {d : Dev} (h : IsDevice d) : (chanIds d).Nodup := by
  obtain ⟨i, rfl | rfl⟩ := h
  · exact mock_nodup i
  · rw [mic_ids]; simp

theorem run_nodup (wave : Rat → Rat) : ∀ (ops : List DevOp) (d : Dev), (chanIds d).Nodup → (chanIds (d.run wave ops).2).Nodup
  | [], _, h => h
  | o :: os, d, h => run_nodup wave os (d.step wave o).2 (by rw [step_ids]; exact h)

theorem updFirst_map (c : String) (f : Chan → Chan) : ∀ l : List (Option Chan), ((l.filterMap fun x => x).map (·.id)).Nodup → updFirst c f l = l.map (Option.map fun x => if x.id = c then f x else x) := by
  intro l
  induction l with
  | nil => intro _; rfl
  | cons x l ih =>
    intro h
    cases x with
    | none => rw [updFirst, ih (by simpa using h)]; rfl
    | some x =>
      have h' : (x.id :: (l.filterMap fun x => x).map (·.id)).Nodup := by simpa using h
      obtain ⟨h1, h2⟩ := List.nodup_cons.mp h'
      rw [updFirst]
      split
      · rename_i hx
        rw [List.map_cons, Option.map_some, if_pos hx]
        congr 1
        symm
        rw [List.map_congr_left (g := id)]
        · simp
        · intro y hy
          cases y with
          | none => rfl
          | some y =>
            have : y.id ≠ c := by
              rintro e
              exact h1 (List.mem_map.mpr ⟨y, List.mem_filterMap.mpr ⟨some y, hy, rfl⟩, by rw [e, hx]⟩)
            simp [this]
      · rename_i hx
        rw [ih h2, List.map_cons, Option.map_some, if_neg hx]

/-- **C115 (channels)**: whatever happened to a device before, `controlChannel` and `renameChannel` change that one channel in that one respect, and leave every other channel, and the place of every channel, as it is. -/
theorem C115_channels (wave : Rat → Rat) (d : Dev) (hd : IsDevice d) (ops : List DevOp) (c : String) (e : Bool) (n : String) :
    (d.run wave (ops ++ [.control c e])).2.info = { (d.run wave ops).2.info with channels := (d.run wave ops).2.info.channels.map (Option.map fun x => if x.id = c then { x with enabled := e } else x) } ∧
    (d.run wave (ops ++ [.renameChannel c n])).2.info = { (d.run wave ops).2.info with channels := (d.run wave ops).2.info.channels.map (Option.map fun x => if x.id = c then { x with name := n } else x) } := by
  have hn := run_nodup wave ops d (device_nodup hd)
  rw [(devRun_append wave _ _ _).2, (devRun_append wave _ _ _).2]
  constructor
  · rw [← updFirst_map c (fun x => { x with enabled := e }) _ hn]; rfl
  · rw [← updFirst_map c (fun x => { x with name := n }) _ hn]; rfl

/-- nothing else changes the channels of a device -/
theorem step_channels (wave : Rat → Rat) (d : Dev) (o : DevOp) (h1 : ∀ c e, o ≠ .control c e) (h2 : ∀ c n, o ≠ .renameChannel c n) : (d.step wave o).2.info.channels = d.info.channels := by
  cases o with
  | aligned s => simp only [Dev.step]; split <;> (try split) <;> rfl
  | tick s now => simp only [Dev.step]; split <;> (try split) <;> rfl
  | opened => simp only [Dev.step]; split <;> rfl
  | audio now a b => simp only [Dev.step]; split <;> (try split) <;> rfl
  | disconnect => simp only [Dev.step]; split <;> rfl
  | control c e => exact absurd rfl (h1 c e)
  | renameChannel c n => exact absurd rfl (h2 c n)
  | renameDevice n => rfl
  | record e => rfl

/-- **C115 (channels, otherwise)**: nothing else that happens to a device – timers, sound, recording, its name, its disconnection – changes a channel. -/
theorem C115_channels_kept (wave : Rat → Rat) (d : Dev) (ops : List DevOp) (o : DevOp) (h1 : ∀ c e, o ≠ .control c e) (h2 : ∀ c n, o ≠ .renameChannel c n) :
    (d.run wave (ops ++ [o])).2.info.channels = (d.run wave ops).2.info.channels := by
  rw [(devRun_append wave _ _ _).2]
  exact step_channels wave _ o h1 h2

/-- a channel is off -/
def Off (d : Dev) (c : String) : Prop := ∀ x, some x ∈ d.info.channels → x.id = c → x.enabled = false

theorem off_step (wave : Rat → Rat) (d : Dev) (o : DevOp) (c : String) (hn : (chanIds d).Nodup) (h : Off d c) (ho : o ≠ .control c true) : Off (d.step wave o).2 c := by
  intro x hx hc
  by_cases h1 : ∃ c' e, o = .control c' e
  · obtain ⟨c', e, rfl⟩ := h1
    have hx' : some x ∈ updFirst c' (fun x => { x with enabled := e }) d.info.channels := hx
    rw [updFirst_map _ _ _ hn] at hx'
    obtain ⟨y, hy, hyx⟩ := List.mem_map.mp hx'
    cases y with
    | none => cases hyx
    | some y =>
      have hyx' : (if y.id = c' then { y with enabled := e } else y) = x := by simpa using hyx
      split at hyx'
      · rename_i hy'
        subst hyx'
        cases e with
        | false => rfl
        | true => exact absurd (by rw [← hc, ← hy']) ho
      · subst hyx'; exact h _ hy hc
  by_cases h2 : ∃ c' n, o = .renameChannel c' n
  · obtain ⟨c', n, rfl⟩ := h2
    have hx' : some x ∈ updFirst c' (fun x => { x with name := n }) d.info.channels := hx
    rw [updFirst_map _ _ _ hn] at hx'
    obtain ⟨y, hy, hyx⟩ := List.mem_map.mp hx'
    cases y with
    | none => cases hyx
    | some y =>
      have hyx' : (if y.id = c' then { y with name := n } else y) = x := by simpa using hyx
      split at hyx'
      · subst hyx'; exact h y hy hc
      · subst hyx'; exact h y hy hc
  · rw [step_channels wave d o (fun c e h => h1 ⟨c, e, h⟩) (fun c e h => h2 ⟨c, e, h⟩)] at hx
    exact h x hx hc

theorem off_generate (wave : Rat → Rat) (d : Dev) (s : Stream) (t : Nat) (c : String) (h : Off d c) : ∀ x ∈ d.generate wave s t, x.1 ≠ c := by
  intro x hx
  obtain ⟨ch, hch, hx⟩ := List.mem_flatMap.mp hx
  obtain ⟨_, rfl⟩ := List.mem_replicate.mp hx
  intro e
  obtain ⟨h1, h2⟩ := List.mem_filter.mp hch
  obtain ⟨y, hy, rfl⟩ := List.mem_filterMap.mp h1
  rw [h ch hy e] at h2; cases h2

theorem off_mic (d : Dev) (ts : Nat) (a b : Nat → Rat) (c : String) (h : Off d c) : ∀ x ∈ d.micCalls ts a b, x.1 ≠ c := by
  intro x hx
  unfold Dev.micCalls at hx
  split at hx
  · rename_i ch hch
    have hm : some ch ∈ d.info.channels := List.mem_of_mem_head? (by rw [hch]; rfl)
    split at hx
    · rename_i he
      have hid : x.1 = ch.id := by
        rcases List.mem_append.mp hx with hx | hx
        · obtain ⟨_, _, hx⟩ := List.mem_flatMap.mp hx
          obtain ⟨_, rfl⟩ := List.mem_replicate.mp hx; rfl
        · obtain ⟨_, rfl⟩ := List.mem_replicate.mp hx; rfl
      rw [hid]
      intro e
      rw [h ch hm e] at he; cases he
    · simp at hx
  · simp at hx

theorem off_quiet (wave : Rat → Rat) (d : Dev) (o : DevOp) (c : String) (h : Off d c) : ∀ x ∈ (d.step wave o).1, x.1 ≠ c := by
  intro x hx
  cases o with
  | tick s now =>
    simp only [Dev.step] at hx
    split at hx
    · split at hx
      · unfold Dev.mockTick at hx
        split at hx
        · simp at hx
        · obtain ⟨t, _, hx⟩ := List.mem_flatMap.mp hx
          exact off_generate wave d s t c h x hx
      · simp at hx
    · simp at hx
  | audio now a b =>
    simp only [Dev.step] at hx
    split at hx
    · split at hx
      · unfold Dev.micAudio at hx
        split at hx
        · simp at hx
        · exact off_mic d _ a b c h x hx
      · simp at hx
    · simp at hx
  | _ => simp [Dev.step] at hx

/-- **C115 (off)**: a channel that is switched off sends nothing until it is switched on again, whatever else happens. -/
theorem C115_off (wave : Rat → Rat) (d : Dev) (hd : IsDevice d) (pre post : List DevOp) (c : String) (hon : .control c true ∉ post) :
    ((d.run wave (pre ++ .control c false :: post)).1.filter fun x => x.1 = c) = (d.run wave pre).1.filter fun x => x.1 = c := by
  have hn := run_nodup wave pre d (device_nodup hd)
  rw [(devRun_append wave _ _ _).1, List.filter_append]
  generalize (d.run wave pre).2 = d' at hn
  have key : ∀ (ops : List DevOp) (d : Dev), (chanIds d).Nodup → Off d c → .control c true ∉ ops → ((d.run wave ops).1.filter fun x => x.1 = c) = [] := by
    intro ops
    induction ops with
    | nil => intro d _ _ _; rfl
    | cons o ops ih =>
      intro d hn ho hc
      rw [Dev.run, List.filter_append, ih _ (by rw [step_ids]; exact hn) (off_step wave d o c hn ho (fun e => hc (by rw [e]; simp))) (fun h => hc (List.mem_cons_of_mem _ h)), List.append_nil, List.filter_eq_nil_iff]
      intro x hx
      simpa using off_quiet wave d o c ho x hx
  have hoff : Off (d'.step wave (.control c false)).2 c := by
    intro x hx hc
    have hx' : some x ∈ updFirst c (fun x => { x with enabled := false }) d'.info.channels := hx
    rw [updFirst_map _ _ _ hn] at hx'
    obtain ⟨y, hy, hyx⟩ := List.mem_map.mp hx'
    cases y with
    | none => cases hyx
    | some y =>
      have hyx' : (if y.id = c then { y with enabled := false } else y) = x := by simpa using hyx
      split at hyx'
      · subst hyx'; rfl
      · subst hyx'; contradiction
  rw [Dev.run, List.filter_append, key post _ (by rw [step_ids]; exact hn) hoff hon]
  simp [Dev.step]

example (wave : Rat → Rat) : (((mockDevice 1).run wave ([.aligned .readings, .tick .readings 1000, .tick .readings 1010] ++ .control (channelId (mockId 1) 1) false :: [.tick .readings 1020])).1.filter fun x => x.1 = channelId (mockId 1) 1) =
    ((mockDevice 1).run wave [.aligned .readings, .tick .readings 1000, .tick .readings 1010]).1.filter fun x => x.1 = channelId (mockId 1) 1 :=
  C115_off wave _ ⟨1, .inl rfl⟩ _ _ _ (by simp)

/-- **C115 (microphone disconnected)**: a microphone that is disconnected after it was opened never sends anything again. -/
theorem C115_mic_disconnect (wave : Rat → Rat) (i : Nat) (pre post : List DevOp) (hpre : .opened ∈ pre) :
    ((micDevice i).run wave (pre ++ .disconnect :: post)).1 = ((micDevice i).run wave pre).1 := by
  have inv : ∀ (ops : List DevOp) (d : Dev) (m : MicSt), d.body = .mic m → ∃ m' : MicSt, (d.run wave ops).2.body = .mic m' ∧ (m.opened = true ∨ .opened ∈ ops → m'.opened = true) ∧ (m.stopped = true → m'.stopped = true) := by
    intro ops
    induction ops with
    | nil => intro d m h; exact ⟨m, h, fun h => by simpa using h, id⟩
    | cons o ops ih =>
      intro d m h
      obtain ⟨m1, h1, h2, h3⟩ : ∃ m1 : MicSt, (d.step wave o).2.body = .mic m1 ∧ (m.opened = true ∨ o = .opened → m1.opened = true) ∧ (m.stopped = true → m1.stopped = true) := by
        cases o with
        | aligned s => exact ⟨m, by simp [Dev.step, h], by simp, id⟩
        | tick s now => exact ⟨m, by simp [Dev.step, h], by simp, id⟩
        | opened => exact ⟨{ m with opened := true }, by simp [Dev.step, h], by simp, id⟩
        | audio now a b =>
          simp only [Dev.step, h]
          split
          · refine ⟨(d.micAudio m now a b).2, rfl, ?_, ?_⟩ <;> (unfold Dev.micAudio; split <;> simp)
          · exact ⟨m, h, by simp, id⟩
        | disconnect => exact ⟨{ m with stopped := m.stopped || m.opened }, by simp [Dev.step, h], by simp, by simp; exact .inl⟩
        | control c e => exact ⟨m, h, by simp, id⟩
        | renameChannel c e => exact ⟨m, h, by simp, id⟩
        | renameDevice n => exact ⟨m, h, by simp, id⟩
        | record e => exact ⟨m, h, by simp, id⟩
      obtain ⟨m', k1, k2, k3⟩ := ih _ m1 h1
      refine ⟨m', k1, fun hh => k2 ?_, fun hh => k3 (h3 hh)⟩
      rcases hh with hh | hh
      · exact .inl (h2 (.inl hh))
      · rcases List.mem_cons.mp hh with hh | hh
        · exact .inl (h2 (.inr hh.symm))
        · exact .inr hh
  have silent : ∀ (ops : List DevOp) (d : Dev) (m : MicSt), d.body = .mic m → m.stopped = true → (d.run wave ops).1 = [] := by
    intro ops
    induction ops with
    | nil => intro d m _ _; rfl
    | cons o ops ih =>
      intro d m h hs
      obtain ⟨m1, h1, _, h3⟩ := inv [o] d m h
      have h1' : (d.step wave o).2.body = .mic m1 := h1
      rw [Dev.run, ih _ m1 h1' (h3 hs), List.append_nil]
      cases o <;> simp [Dev.step, h, hs]
  rw [(devRun_append wave _ _ _).1]
  obtain ⟨m, h1, h2, _⟩ := inv pre (micDevice i) _ rfl
  generalize ((micDevice i).run wave pre).2 = d at h1
  rw [Dev.run, silent post _ { m with stopped := m.stopped || m.opened } (by simp [Dev.step, h1]) (by simp [h2 (.inr hpre)])]
  simp [Dev.step]

example (wave : Rat → Rat) (a b : Nat → Rat) : ((micDevice 1).run wave ([.opened, .audio 1000 a b] ++ .disconnect :: [.audio 1100 a b])).1 = ((micDevice 1).run wave [.opened, .audio 1000 a b]).1 :=
  C115_mic_disconnect wave 1 _ _ (by simp)

end Verif.Props
