import Verif.Model.StartUp
/-
C99: what starts, depending on configuration, USB and self test.
-/
namespace Verif.Props
open Verif Verif.StartUp Vlp

/-- the radio parameters the radio chip accepts -/
def RadioValid (l : Lora) : Prop := 5 ≤ l.sf ∧ l.sf ≤ 12 ∧ l.bw ∈ [7810, 10420, 15630, 20830, 31250, 41670, 62500, 125000, 250000, 500000] ∧ 5 ≤ l.cr ∧ l.cr ≤ 8

theorem loraOk_iff (l : Lora) : loraOk l = true ↔ RadioValid l := by
  have h1 : sfOk l.sf = true ↔ 5 ≤ l.sf ∧ l.sf ≤ 12 := by unfold sfOk; simp [List.contains_iff_mem]; omega
  have h2 : crOk l.cr = true ↔ 5 ≤ l.cr ∧ l.cr ≤ 8 := by unfold crOk; simp [List.contains_iff_mem]; omega
  unfold loraOk RadioValid
  rw [Bool.and_eq_true, Bool.and_eq_true, h1, h2]
  unfold bwOk
  rw [List.contains_iff_mem]
  constructor
  · rintro ⟨⟨⟨a, b⟩, c⟩, d, f⟩; exact ⟨a, b, c, d, f⟩
  · rintro ⟨a, b, c, d, f⟩; exact ⟨⟨⟨a, b⟩, c⟩, d, f⟩

/-- the parachute channels can be watched by different continuity devices; channels 2 and 3 share one -/
def Watchable (a b : Pyro) : Prop := a ≠ b ∧ ¬ (a = .pyro2 ∧ b = .pyro3) ∧ ¬ (a = .pyro3 ∧ b = .pyro2)

theorem watchable_iff (a b : Pyro) : Watchable a b ↔ Gt.contDev a ≠ Gt.contDev b := by
  cases a <;> cases b <;> simp [Watchable, Gt.contDev]

theorem usb_iff (e : Env) : usbConnected e = true ↔ ∃ t, e.usbMs = some t ∧ t < 500 := by
  unfold usbConnected
  cases e.usbMs <;> simp

/-! ### carrying out steps -/

theorem exec_unwrap (held : List Dev) (ok : Bool) (ss : List Step) : exec held (unwrap ok ++ ss) = if ok = true then exec held ss else ⟨[], .panicked, false⟩ := by
  cases ok <;> rfl

theorem exec_await (held : List Dev) (ss : List Step) : exec held (.await :: ss) = { exec held ss with awaited := true } := rfl

theorem exec_claim {held held' : List Dev} {ds : List Dev} (h : claim held ds = some held') (ss : List Step) : exec held (.claim ds :: ss) = exec held' ss := by
  conv => lhs; unfold exec
  simp only [h]

theorem exec_claim_none {held : List Dev} {ds : List Dev} (h : claim held ds = none) (ss : List Step) : exec held (.claim ds :: ss) = ⟨[], .panicked, false⟩ := by
  conv => lhs; unfold exec
  simp only [h]

/-- all devices of the self test can be reset -/
def resetsOk (e : Env) : Bool := e.resetOk .lowG && e.resetOk .highG && e.resetOk .baro && e.resetOk .mag

theorem resetsOk_iff (e : Env) : resetsOk e = true ↔ ∀ s, e.resetOk s = true := by
  unfold resetsOk
  simp only [Bool.and_eq_true]
  constructor
  · rintro ⟨⟨⟨a, b⟩, c⟩, d⟩ s; cases s <;> assumption
  · intro h; exact ⟨⟨⟨h _, h _⟩, h _⟩, h _⟩

/-- the devices held when the self test begins -/
def heldA : List Dev := [.indicators, .flash, .crc, .usb, .serial, .buzzer, .gps, .gpsPps, .sysReset]

theorem exec_selfTest (e : Env) (ss : List Step) : exec heldA (selfTest e ++ ss) = if resetsOk e = true then { exec heldA ss with awaited := true } else ⟨[], .panicked, true⟩ := by
  have hclaim : claim heldA [.lowG, .highG, .baro, .mag] = some ([.mag, .baro, .highG, .lowG] ++ heldA) := by decide
  have hfree : ([.mag, .baro, .highG, .lowG] ++ heldA : List Dev).filter (fun d => !([.lowG, .highG, .baro, .mag] : List Dev).contains d) = heldA := by decide
  unfold selfTest
  simp only [List.append_assoc, List.cons_append, List.nil_append]
  rw [exec_claim hclaim]
  simp only [exec_await, exec_unwrap]
  have hf : ∀ ss, exec ([.mag, .baro, .highG, .lowG] ++ heldA) (.free [.lowG, .highG, .baro, .mag] :: ss) = exec heldA ss := by
    intro ss
    show exec (List.filter _ _) ss = _
    rw [hfree]
  rw [hf]
  unfold resetsOk
  cases e.resetOk .lowG <;> cases e.resetOk .highG <;> cases e.resetOk .baro <;> cases e.resetOk .mag <;> rfl

/-- what happens after the self test -/
def tailA (e : Env) (c : Config) (p : Profile) : List Step :=
  .await :: (unwrap e.filesOk ++ .claim [.arming, .lowG, .baro, .lora, .camera, .canBus] :: (unwrap (loraOk c.lora) ++ (contClaims p.main p.drogue ++ [.run .avionics])))

theorem exec_cont (held : List Dev) (hh : ∀ d, Dev.pyro d ∉ held) (a b : Pyro) (m : Mode) :
    exec held (contClaims a b ++ [.run m]) = if Gt.contDev a = Gt.contDev b then ⟨[], .panicked, false⟩ else ⟨[], .running m, true⟩ := by
  have h1 : claim held [.pyro (Gt.contDev a)] = some (.pyro (Gt.contDev a) :: held) := by simp [claim, hh]
  show exec held (.claim [.pyro (Gt.contDev a)] :: .claim [.pyro (Gt.contDev b)] :: [.run m]) = _
  rw [exec_claim h1]
  by_cases h : Gt.contDev a = Gt.contDev b
  · have h2 : claim (.pyro (Gt.contDev a) :: held) [.pyro (Gt.contDev b)] = none := by simp [claim, h]
    rw [exec_claim_none h2, if_pos h]
  · have h2 : claim (.pyro (Gt.contDev a) :: held) [.pyro (Gt.contDev b)] = some (.pyro (Gt.contDev b) :: .pyro (Gt.contDev a) :: held) := by
      simp [claim, hh, Ne.symm h]
    rw [exec_claim h2, if_neg h]
    rfl

theorem exec_tailA (e : Env) (c : Config) (p : Profile) : exec heldA (tailA e c p) =
    if e.filesOk = true ∧ loraOk c.lora = true ∧ Gt.contDev p.main ≠ Gt.contDev p.drogue then ⟨[], .running .avionics, true⟩ else ⟨[], .panicked, true⟩ := by
  unfold tailA
  rw [exec_await, exec_unwrap]
  have hclaim : claim heldA [.arming, .lowG, .baro, .lora, .camera, .canBus] = some ([.canBus, .camera, .lora, .baro, .lowG, .arming] ++ heldA) := by decide
  rw [exec_claim hclaim, exec_unwrap, exec_cont _ (by simp [heldA])]
  cases e.filesOk <;> cases loraOk c.lora <;> by_cases h : Gt.contDev p.main = Gt.contDev p.drogue <;> simp [h]

theorem start_stop (e : Env) (hu : usbConnected e = true) (ss : List Step) : exec mainHeld (stopIfUsb e ++ ss) = ⟨[], .halted [1000, 1000] [0, 1000, 1000, 0] [], true⟩ := by
  unfold stopIfUsb
  rw [if_pos hu]
  rfl

/-- the tones of the self test -/
def testTones : TestResult → List (Nat × Nat × Nat)
  | .ok => [(2000, 50, 150), (2000, 50, 150), (3000, 50, 150), (3000, 50, 150)]
  | .partialFailed => [(2000, 50, 150), (2000, 50, 150), (3000, 50, 150), (2000, 50, 150)]
  | .failed => [(2000, 50, 150), (2000, 50, 150), (3000, 50, 150), (3000, 50, 150)]

/-- start of the flight software -/
theorem start_avionics (e : Env) (c : Config) (hc : config e = some c) (hm : c.mode = .avionics) (hu : usbConnected e = false) : start e =
    match e.profile with
    | none => ⟨[], .halted [333, 666] [0, 333, 333, 333] [0, 666, 333, 0], true⟩
    | some p =>
      if resetsOk e = true then
        if testResult e = .failed then ⟨testTones .failed, .halted [200, 200] [] [], true⟩
        else ⟨testTones (testResult e), if e.filesOk = true ∧ loraOk c.lora = true ∧ Gt.contDev p.main ≠ Gt.contDev p.drogue then .running .avionics else .panicked, true⟩
      else ⟨[], .panicked, true⟩ := by
  unfold start mainSteps
  simp only [hc, hm, stopIfUsb, hu, Bool.false_eq_true, if_false, List.nil_append]
  unfold avionics
  cases hp : e.profile with
  | none => rfl
  | some p =>
    simp only
    have h1 : exec mainHeld (.claim [.indicators] :: .await :: (selfTest e ++ (announce (testResult e) ++ tailA e c p))) =
        { exec heldA (selfTest e ++ (announce (testResult e) ++ tailA e c p)) with awaited := true } := rfl
    have h2 : [.claim [.indicators], .await] ++ (selfTest e ++ announce (testResult e) ++ [.await] ++ unwrap e.filesOk ++ [.claim [.arming, .lowG, .baro, .lora, .camera, .canBus]] ++
        unwrap (loraOk c.lora) ++ contClaims p.main p.drogue ++ [.run .avionics]) = .claim [.indicators] :: .await :: (selfTest e ++ (announce (testResult e) ++ tailA e c p)) := by
      simp [tailA, List.append_assoc]
    rw [h2, h1, exec_selfTest]
    have ht : ∀ (f m q : Nat) (ss : List Step), exec heldA (.tone f m q :: ss) = ⟨(f, m, q) :: (exec heldA ss).tones, (exec heldA ss).final, (exec heldA ss).awaited⟩ := fun _ _ _ _ => rfl
    by_cases hr : resetsOk e = true
    · rw [if_pos hr, if_pos hr]
      cases htr : testResult e with
      | ok =>
        simp only [announce, List.cons_append, List.nil_append, ht, exec_tailA, testTones]
        split <;> simp_all
      | partialFailed =>
        simp only [announce, List.cons_append, List.nil_append, ht, exec_tailA, testTones]
        split <;> simp_all
      | failed => rfl
    · rw [if_neg hr, if_neg hr]

theorem start_gcm (e : Env) (c : Config) (hc : config e = some c) (hm : c.mode = .gcm) :
    start e = if loraOk c.lora = true then ⟨[], .running .gcm, true⟩ else ⟨[], .panicked, false⟩ := by
  unfold start mainSteps
  simp only [hc, hm, gcm]
  have : ∀ ss, exec mainHeld (.claim [.lora, .indicators] :: ss) = exec ([.indicators, .lora] ++ mainHeld) ss := fun _ => rfl
  rw [List.append_assoc]
  show exec mainHeld (.claim [.lora, .indicators] :: (unwrap (loraOk c.lora) ++ [.run .gcm])) = _
  rw [this, exec_unwrap]
  rfl

theorem start_groundTest (e : Env) (c : Config) (d m : Pyro) (hc : config e = some c) (hm : c.mode = .groundTest d m) (hu : usbConnected e = false) : start e =
    ⟨[], if e.filesOk = true ∧ e.resetOk .baro = true ∧ loraOk c.lora = true ∧ Gt.contDev m ≠ Gt.contDev d then .running (.groundTest d m) else .panicked, true⟩ := by
  unfold start mainSteps
  simp only [hc, hm, stopIfUsb, hu, Bool.false_eq_true, if_false, List.nil_append]
  unfold groundTest
  have h0 : ∀ ss, exec mainHeld (.claim [.lora, .baro, .arming, .indicators, .canBus] :: .await :: ss) =
      { exec ([.canBus, .indicators, .arming, .baro, .lora] ++ mainHeld) ss with awaited := true } := fun _ => rfl
  simp only [List.append_assoc, List.cons_append, List.nil_append]
  rw [h0, exec_unwrap, exec_await, exec_unwrap, exec_unwrap, exec_cont _ (by simp [mainHeld])]
  cases e.filesOk <;> cases e.resetOk .baro <;> cases loraOk c.lora <;> by_cases h : Gt.contDev m = Gt.contDev d <;> simp [h]

theorem start_vacuum (e : Env) (c : Config) (hc : config e = some c) (hm : c.mode = .vacuum) (hu : usbConnected e = false) : start e =
    match e.profile with
    | none => ⟨[], .halted [333, 666] [0, 333, 333, 333] [0, 666, 333, 0], true⟩
    | some _ => ⟨[], if e.filesOk = true then .running .vacuum else .panicked, true⟩ := by
  unfold start mainSteps
  simp only [hc, hm, stopIfUsb, hu, Bool.false_eq_true, if_false, List.nil_append]
  unfold vacuum
  cases e.profile with
  | none => rfl
  | some p => cases e.filesOk <;> rfl

theorem start_none (e : Env) (hc : config e = none) : start e = ⟨[], .halted [333, 666] [0, 333, 333, 333] [0, 666, 333, 0], true⟩ := by
  unfold start mainSteps
  simp only [hc]
  rfl

theorem start_usb (e : Env) (c : Config) (hc : config e = some c) (hm : c.mode ≠ .gcm) (hu : usbConnected e = true) : start e = ⟨[], .halted [1000, 1000] [0, 1000, 1000, 0] [], true⟩ := by
  unfold start mainSteps
  simp only [hc]
  cases h : c.mode with
  | gcm => exact absurd h hm
  | avionics => exact start_stop e hu _
  | groundTest d m => exact start_stop e hu _
  | vacuum => exact start_stop e hu _

theorem testResult_ne_failed (e : Env) : testResult e ≠ .failed ↔ e.readOk .lowG = true ∧ e.readOk .highG = true ∧ e.readOk .baro = true := by
  unfold testResult
  cases e.readOk .lowG <;> cases e.readOk .highG <;> cases e.readOk .baro <;> cases e.readOk .mag <;> decide

theorem not_usb (e : Env) : usbConnected e = false ↔ ¬ ∃ t, e.usbMs = some t ∧ t < 500 := by
  rw [← usb_iff, Bool.not_eq_true]

/-- **C99** the flight software runs exactly if: the configuration says so, USB was not connected in the first 500 ms, there is a flight profile, all four sensors could be reset, the three
critical ones read, the log files created, the radio parameters are valid, and the two parachute channels do not share a continuity device -/
theorem C99_flight_iff (e : Env) : (start e).final = .running .avionics ↔
    ∃ c p, config e = some c ∧ c.mode = .avionics ∧ (¬ ∃ t, e.usbMs = some t ∧ t < 500) ∧ e.profile = some p ∧ (∀ s, e.resetOk s = true) ∧
      e.readOk .lowG = true ∧ e.readOk .highG = true ∧ e.readOk .baro = true ∧ e.filesOk = true ∧ RadioValid c.lora ∧ Watchable p.main p.drogue := by
  constructor
  · intro h
    cases hc : config e with
    | none => rw [start_none e hc] at h; simp at h
    | some c =>
      by_cases hg : c.mode = .gcm
      · rw [start_gcm e c hc hg] at h
        split at h <;> simp at h
      · cases hu : usbConnected e with
        | true => rw [start_usb e c hc hg hu] at h; simp at h
        | false =>
          cases hm : c.mode with
          | gcm => exact absurd hm hg
          | groundTest d m => rw [start_groundTest e c d m hc hm hu] at h; simp only at h; split at h <;> simp at h
          | vacuum =>
            rw [start_vacuum e c hc hm hu] at h
            split at h
            · simp at h
            · simp only at h; split at h <;> simp at h
          | avionics =>
            rw [start_avionics e c hc hm hu] at h
            cases hp : e.profile with
            | none => rw [hp] at h; simp at h
            | some p =>
              rw [hp] at h
              simp only at h
              split at h
              · rename_i hr
                split at h
                · simp at h
                · rename_i ht
                  simp only at h
                  split at h
                  · rename_i hx
                    obtain ⟨r1, r2, r3⟩ := (testResult_ne_failed e).mp ht
                    exact ⟨c, p, rfl, hm, (not_usb e).mp hu, rfl, (resetsOk_iff e).mp hr, r1, r2, r3, hx.1, (loraOk_iff _).mp hx.2.1, (watchable_iff _ _).mpr hx.2.2⟩
                  · simp at h
              · simp at h
  · rintro ⟨c, p, hc, hm, hu, hp, hr, r1, r2, r3, hf, hl, hw⟩
    rw [start_avionics e c hc hm ((not_usb e).mpr hu), hp]
    simp only
    rw [if_pos ((resetsOk_iff e).mpr hr), if_neg ((testResult_ne_failed e).mpr ⟨r1, r2, r3⟩)]
    simp only
    rw [if_pos ⟨hf, (loraOk_iff _).mpr hl, (watchable_iff _ _).mp hw⟩]

/-- **C99** the ground test, which can fire a parachute, runs exactly if the configuration says so, USB was not connected in the first 500 ms, the log files could be created, the barometer reset, the radio
parameters are valid, and the two channels do not share a continuity device -/
theorem C99_ground_test_iff (e : Env) (d m : Pyro) : (start e).final = .running (.groundTest d m) ↔
    ∃ c, config e = some c ∧ c.mode = .groundTest d m ∧ (¬ ∃ t, e.usbMs = some t ∧ t < 500) ∧ e.filesOk = true ∧ e.resetOk .baro = true ∧ RadioValid c.lora ∧ Watchable m d := by
  constructor
  · intro h
    cases hc : config e with
    | none => rw [start_none e hc] at h; simp at h
    | some c =>
      by_cases hg : c.mode = .gcm
      · rw [start_gcm e c hc hg] at h
        split at h <;> simp at h
      · cases hu : usbConnected e with
        | true => rw [start_usb e c hc hg hu] at h; simp at h
        | false =>
          cases hm : c.mode with
          | gcm => exact absurd hm hg
          | avionics =>
            rw [start_avionics e c hc hm hu] at h
            split at h
            · simp at h
            · split at h
              · split at h
                · simp at h
                · simp only at h; split at h <;> simp at h
              · simp at h
          | vacuum =>
            rw [start_vacuum e c hc hm hu] at h
            split at h
            · simp at h
            · simp only at h; split at h <;> simp at h
          | groundTest d' m' =>
            rw [start_groundTest e c d' m' hc hm hu] at h
            simp only at h
            split at h
            · rename_i hx
              injection h with h
              injection h with h1 h2
              subst h1; subst h2
              exact ⟨c, rfl, hm, (not_usb e).mp hu, hx.1, hx.2.1, (loraOk_iff _).mp hx.2.2.1, (watchable_iff _ _).mpr hx.2.2.2⟩
            · simp at h
  · rintro ⟨c, hc, hm, hu, hf, hr, hl, hw⟩
    rw [start_groundTest e c d m hc hm ((not_usb e).mpr hu)]
    simp only
    rw [if_pos ⟨hf, hr, (loraOk_iff _).mpr hl, (watchable_iff _ _).mp hw⟩]

/-- **C99** a device that was connected to USB at boot runs nothing but the ground station: every other mode halts with its own lamp pattern, silently, and the consoles can be used -/
theorem C99_usb (e : Env) (hu : ∃ t, e.usbMs = some t ∧ t < 500) (c : Config) (hc : config e = some c) (hm : c.mode ≠ .gcm) :
    start e = ⟨[], .halted [1000, 1000] [0, 1000, 1000, 0] [], true⟩ := start_usb e c hc hm ((usb_iff e).mpr hu)

/-- **C99** without a configuration no mode runs, and the consoles can be used to store one; a compiled-in configuration takes precedence over the stored one -/
theorem C99_config (e : Env) : (e.override = none → e.stored = none → start e = ⟨[], .halted [333, 666] [0, 333, 333, 333] [0, 666, 333, 0], true⟩) ∧
    (∀ c x, e.override = some c → start e = start { e with stored := x }) := by
  constructor
  · intro h1 h2
    exact start_none e (by unfold config; rw [h1, h2])
  · intro c x h
    have hc : config e = some c := by unfold config; rw [h]
    have hc2 : config { e with stored := x } = some c := by unfold config; simp only [h]
    unfold start mainSteps
    rw [hc, hc2]
    rfl

/-- **C99** in whatever mode, no claim of a device fails except that of a shared continuity device: start-up panics only if one of the named causes is there -/
theorem C99_panics (e : Env) (h : (start e).final = .panicked) : e.filesOk = false ∨ (∃ s, e.resetOk s = false) ∨
    (∃ c, config e = some c ∧ ¬ RadioValid c.lora) ∨ (∃ p, e.profile = some p ∧ ¬ Watchable p.main p.drogue) ∨ ∃ c d m, config e = some c ∧ c.mode = .groundTest d m ∧ ¬ Watchable m d := by
  by_cases hf : e.filesOk = false
  · exact .inl hf
  have hf : e.filesOk = true := by simpa using hf
  by_cases hr : ∃ s, e.resetOk s = false
  · exact .inr (.inl hr)
  have hr : ∀ s, e.resetOk s = true := fun s => by
    cases hs : e.resetOk s with
    | true => rfl
    | false => exact absurd ⟨s, hs⟩ hr
  refine .inr (.inr ?_)
  cases hc : config e with
  | none => rw [start_none e hc] at h; simp at h
  | some c =>
    by_cases hl : RadioValid c.lora
    · refine .inr ?_
      have hl' := (loraOk_iff _).mpr hl
      by_cases hg : c.mode = .gcm
      · rw [start_gcm e c hc hg, if_pos hl'] at h; simp at h
      · cases hu : usbConnected e with
        | true => rw [start_usb e c hc hg hu] at h; simp at h
        | false =>
          cases hm : c.mode with
          | gcm => exact absurd hm hg
          | avionics =>
            rw [start_avionics e c hc hm hu] at h
            cases hp : e.profile with
            | none => rw [hp] at h; simp at h
            | some p =>
              rw [hp] at h
              simp only at h
              rw [if_pos ((resetsOk_iff e).mpr hr)] at h
              split at h
              · simp at h
              · simp only at h
                refine .inl ⟨p, rfl, fun hw => ?_⟩
                rw [if_pos ⟨hf, hl', (watchable_iff _ _).mp hw⟩] at h
                simp at h
          | vacuum =>
            rw [start_vacuum e c hc hm hu] at h
            split at h
            · simp at h
            · simp [hf] at h
          | groundTest d m =>
            refine .inr ⟨c, d, m, rfl, hm, fun hw => ?_⟩
            rw [start_groundTest e c d m hc hm hu] at h
            simp only at h
            rw [if_pos ⟨hf, hr _, hl', (watchable_iff _ _).mp hw⟩] at h
            simp at h
    · exact .inl ⟨c, rfl, hl⟩

/-- **C99 (finding)** a self test that failed sounds exactly like one that passed (only the lamps differ) -/
theorem C99_same_melody (e e' : Env) (c c' : Config) (p p' : Profile) (hc : config e = some c) (hm : c.mode = .avionics) (hu : usbConnected e = false) (hp : e.profile = some p)
    (hc' : config e' = some c') (hm' : c'.mode = .avionics) (hu' : usbConnected e' = false) (hp' : e'.profile = some p') (hr : ∀ s, e.resetOk s = true) (hr' : ∀ s, e'.resetOk s = true)
    (ht : testResult e = .ok) (ht' : testResult e' = .failed) : (start e).tones = (start e').tones ∧ (start e').final = .halted [200, 200] [] [] := by
  rw [start_avionics e c hc hm hu, start_avionics e' c' hc' hm' hu', hp, hp']
  simp only
  rw [if_pos ((resetsOk_iff e).mpr hr), if_pos ((resetsOk_iff e').mpr hr'), if_pos ht', if_neg (by rw [ht]; decide), ht]
  exact ⟨rfl, rfl⟩

/-- **C99 (finding)** the magnetometer is meant to be optional (a failed reading of it is tolerated), but if it cannot be reset, the flight computer panics -/
theorem C99_mag_panics (e : Env) (c : Config) (p : Profile) (hc : config e = some c) (hm : c.mode = .avionics) (hu : usbConnected e = false) (hp : e.profile = some p) (h : e.resetOk .mag = false) :
    (start e).final = .panicked := by
  rw [start_avionics e c hc hm hu, hp]
  simp only
  rw [if_neg (by rw [resetsOk_iff]; intro g; rw [g] at h; simp at h)]

/-- **C99 (finding)** a ground station whose stored radio parameters are invalid panics at every start before the consoles have run, with or without USB, so the parameters cannot be corrected through them -/
theorem C99_gcm_lockout (e : Env) (c : Config) (hc : config e = some c) (hm : c.mode = .gcm) (h : ¬ RadioValid c.lora) : start e = ⟨[], .panicked, false⟩ := by
  rw [start_gcm e c hc hm, if_neg (by rw [loraOk_iff]; exact h)]

/-- **C99** in all other cases the consoles get to run -/
theorem C99_console (e : Env) (h : ∀ c, config e = some c → c.mode = .gcm → RadioValid c.lora) : (start e).awaited = true := by
  cases hc : config e with
  | none => rw [start_none e hc]
  | some c =>
    by_cases hg : c.mode = .gcm
    · rw [start_gcm e c hc hg, if_pos ((loraOk_iff _).mpr (h c hc hg))]
    · cases hu : usbConnected e with
      | true => rw [start_usb e c hc hg hu]
      | false =>
        cases hm : c.mode with
        | gcm => exact absurd hm hg
        | groundTest d m => rw [start_groundTest e c d m hc hm hu]
        | vacuum => rw [start_vacuum e c hc hm hu]; cases e.profile <;> rfl
        | avionics =>
          rw [start_avionics e c hc hm hu]
          cases e.profile with
          | none => rfl
          | some p =>
            simp only
            split
            · split <;> rfl
            · rfl

/-! ### The hypotheses can be met -/

/-- an environment in which the flight software runs; with USB after 100 ms it does not; with channels 2 and 3 it panics -/
example : let l : Lora := ⟨915000000, 9, 250000, 8, 22⟩
    let e : Env := ⟨none, some ⟨.avionics, l⟩, some 600, some ⟨.pyro1, .pyro2⟩, fun _ => true, fun _ => true, true⟩
    (start e).final = .running .avionics ∧ (start { e with usbMs := some 100 }).final = .halted [1000, 1000] [0, 1000, 1000, 0] [] ∧
    (start { e with profile := some ⟨.pyro2, .pyro3⟩ }).final = .panicked ∧ (start { e with readOk := fun s => decide (s ≠ .baro) }).final = .halted [200, 200] [] [] ∧
    testResult { e with readOk := fun s => decide (s ≠ .baro) } = .failed ∧ testResult e = .ok := by decide +kernel

example : ¬ RadioValid ⟨915000000, 13, 250000, 8, 22⟩ ∧ RadioValid ⟨915000000, 12, 250000, 8, 22⟩ := by
  unfold RadioValid; decide

end Verif.Props
