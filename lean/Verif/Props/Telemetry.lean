import Verif.Model.Telemetry
import Verif.Props.FixedPoint
import Verif.Props.Radio
/-
C37 telemetry packet fields.
-/
namespace Verif.Props

open Verif.Vlp Verif.Fix Verif.Fc

/-- a value cut to a range -/
def clampTo (f : Factory) : Flt → ℚ
  | .nan => 0
  | .inf neg => if neg then f.min else f.max
  | .fin q => max f.min (min q f.max)

/-- the order of floats without NaN -/
def fltLe : Flt → Flt → Prop
  | .nan, _ => False
  | _, .nan => False
  | .inf true, _ => True
  | _, .inf false => True
  | .fin p, .fin q => p ≤ q
  | _, _ => False

/-- the factories of the telemetry packet have the widths of its fields -/
theorem C37_widths : batteryVFac.bits = 12 ∧ temperatureFac.bits = 11 ∧ freeSpaceFac.bits = 11 ∧ altitudeFac.bits = 10 ∧ airSpeedFac.bits = 9 := by decide +kernel

theorem tf_mem : ∀ f ∈ [batteryVFac, temperatureFac, freeSpaceFac, altitudeFac, airSpeedFac], f ∈ f32Factories ++ f64Factories := by
  intro f hf
  simp only [List.mem_cons, List.not_mem_nil, or_false] at hf
  rcases hf with h | h | h | h | h <;> subst h <;> simp [f32Factories, batteryVFac, temperatureFac, freeSpaceFac, altitudeFac, airSpeedFac]

/-- an analogue value other than NaN is encoded, within the error of its factory -/
theorem analog {f : Factory} (hf : f ∈ f32Factories ++ f64Factories) {rnd : ℚ → ℚ} (hr : Rounding rnd (1 / 2 ^ 24) 24) {v : Flt} (hv : v ≠ .nan) :
    ∃ k, f.toFixedCapped rnd v = some k ∧ k < 2 ^ f.bits ∧ |f.toFloat rnd k - clampTo f v| ≤ f.maxError := by
  have hV := (C31_valid f hf).1
  have hlt := hV.range
  have key : ∀ q, f.min ≤ q → q ≤ f.max → (f.toFixed rnd (.fin q)).join = f.toFixedCapped rnd v → clampTo f v = q →
      ∃ k, f.toFixedCapped rnd v = some k ∧ k < 2 ^ f.bits ∧ |f.toFloat rnd k - clampTo f v| ≤ f.maxError := by
    intro q h1 h2 he hc
    obtain ⟨k, hk, hl, herr⟩ := C31_firmware hf hr h1 h2
    refine ⟨k, ?_, hl, by rw [hc]; exact herr⟩
    rw [← he, hk]; rfl
  cases v with
  | nan => exact absurd rfl hv
  | inf neg =>
    cases neg with
    | true => exact key f.min (le_refl _) hlt.le (C31_capped hV rnd 0).2.1.symm rfl
    | false => exact key f.max hlt.le (le_refl _) (C31_capped hV rnd 0).2.2.symm rfl
  | fin q => exact key (max f.min (min q f.max)) (le_max_left _ _) (max_le hlt.le (min_le_right _ _)) (C31_capped hV rnd q).1.symm rfl

/-- the arguments without NaN -/
def noNaN (v : Values) : Prop :=
  v.batteryV ≠ .nan ∧ v.temperature ≠ .nan ∧ v.altitude ≠ .nan ∧ v.maxAltitude ≠ .nan ∧ v.backupMaxAltitude ≠ .nan ∧ v.airSpeed ≠ .nan ∧
    v.maxAirSpeed ≠ .nan ∧ v.backupMaxAirSpeed ≠ .nan

theorem fc_round (s : FcState) : (FcState.ofU8 (BitVec.ofNat 3 s.toU8).toNat).getD .disArmed = s := by cases s <;> rfl

/-- C37: what a packet made from `v` reports: flags, states and up to 31 satellites exactly, analogue values cut to their range within the error of
their factory -/
structure Reports (rnd : ℚ → ℚ) (v : Values) (t : Telemetry) : Prop where
  unixClockReady : t.unixClockReady = v.unixClockReady
  satellites : t.numOfFixSatellites.toNat = v.numOfFixSatellites % 32
  hardwareArmed : t.hardwareArmed = v.hardwareArmed
  softwareArmed : t.softwareArmed = v.softwareArmed
  mainContinuity : t.pyroMainContinuity = v.pyroMainContinuity
  drogueContinuity : t.pyroDrogueContinuity = v.pyroDrogueContinuity
  coreState : t.coreState = v.flightCoreState
  backupCoreState : t.backupCoreState = v.backupFlightCoreState
  drogueDeployed : t.drogueDeployed = v.drogueDeployed
  mainDeployed : t.mainDeployed = v.mainDeployed
  batteryV : |batteryVFac.toFloat rnd t.batteryV.toNat - clampTo batteryVFac v.batteryV| ≤ 0.001
  temperature : |temperatureFac.toFloat rnd t.temperature.toNat - clampTo temperatureFac v.temperature| ≤ 0.1
  freeSpace : |freeSpaceFac.toFloat rnd t.diskFreeSpace.toNat - clampTo freeSpaceFac (.fin (rnd v.freeSpace))| ≤ 40960
  altitude : |altitudeFac.toFloat rnd t.altitude.toNat - clampTo altitudeFac v.altitude| ≤ 5
  maxAltitude : |altitudeFac.toFloat rnd t.maxAltitude.toNat - clampTo altitudeFac v.maxAltitude| ≤ 5
  backupMaxAltitude : |altitudeFac.toFloat rnd t.backupMaxAltitude.toNat - clampTo altitudeFac v.backupMaxAltitude| ≤ 5
  airSpeed : |airSpeedFac.toFloat rnd t.airSpeed.toNat - clampTo airSpeedFac v.airSpeed| ≤ 2
  maxAirSpeed : |airSpeedFac.toFloat rnd t.maxAirSpeed.toNat - clampTo airSpeedFac v.maxAirSpeed| ≤ 2
  backupMaxAirSpeed : |airSpeedFac.toFloat rnd t.backupMaxAirSpeed.toNat - clampTo airSpeedFac v.backupMaxAirSpeed| ≤ 2
  position : ∀ p, v.latLon = some p → ¬ (isZero p.1 = true ∧ isZero p.2 = true) → t.position = some p
  noPosition : v.latLon = none → t.position = none

/-- C37: without NaN a packet is made and reports the given values -/
theorem C37_fields {rnd : ℚ → ℚ} (hr : Rounding rnd (1 / 2 ^ 24) 24) (rnd64 : ℚ → ℚ) (v : Values) (hv : noNaN v) :
    ∃ t, Telemetry.new rnd rnd64 v = some t ∧ Reports rnd v t := by
  obtain ⟨h1, h2, h4, h5, h6, h7, h8, h9⟩ := hv
  have hm := tf_mem
  obtain ⟨w1, w2, w3, w4, w5⟩ := C37_widths
  obtain ⟨k1, e1, l1, r1⟩ := analog (hm batteryVFac (by simp)) hr h1
  obtain ⟨k2, e2, l2, r2⟩ := analog (hm temperatureFac (by simp)) hr h2
  obtain ⟨k3, e3, l3, r3⟩ := analog (hm freeSpaceFac (by simp)) hr (v := .fin (rnd v.freeSpace)) (by simp)
  obtain ⟨k4, e4, l4, r4⟩ := analog (hm altitudeFac (by simp)) hr h4
  obtain ⟨k5, e5, l5, r5⟩ := analog (hm altitudeFac (by simp)) hr h5
  obtain ⟨k6, e6, l6, r6⟩ := analog (hm altitudeFac (by simp)) hr h6
  obtain ⟨k7, e7, l7, r7⟩ := analog (hm airSpeedFac (by simp)) hr h7
  obtain ⟨k8, e8, l8, r8⟩ := analog (hm airSpeedFac (by simp)) hr h8
  obtain ⟨k9, e9, l9, r9⟩ := analog (hm airSpeedFac (by simp)) hr h9
  rw [w1] at l1; rw [w2] at l2; rw [w3] at l3; rw [w4] at l4 l5 l6; rw [w5] at l7 l8 l9
  have bv : ∀ {w k : ℕ}, k < 2 ^ w → (BitVec.ofNat w k).toNat = k := fun {w k} h => by rw [BitVec.toNat_ofNat, Nat.mod_eq_of_lt h]
  refine ⟨?t, ?made, ?rep⟩
  case made =>
    unfold Telemetry.new
    refine bind_step e1 ?_
    refine bind_step e2 ?_
    refine bind_step e3 ?_
    refine bind_step e4 ?_
    refine bind_step e5 ?_
    refine bind_step e6 ?_
    refine bind_step e7 ?_
    refine bind_step e8 ?_
    refine bind_step e9 ?_
    rfl
  constructor
  case unixClockReady => rfl
  case satellites => simp only [BitVec.toNat_ofNat, Nat.reducePow]
  case hardwareArmed => rfl
  case softwareArmed => rfl
  case mainContinuity => rfl
  case drogueContinuity => rfl
  case coreState => exact fc_round _
  case backupCoreState => exact fc_round _
  case drogueDeployed => rfl
  case mainDeployed => rfl
  case batteryV => simp only [bv l1]; exact r1
  case temperature => simp only [bv l2]; exact r2
  case freeSpace => simp only [bv l3]; exact r3
  case altitude => simp only [bv l4]; exact r4
  case maxAltitude => simp only [bv l5]; exact r5
  case backupMaxAltitude => simp only [bv l6]; exact r6
  case airSpeed => simp only [bv l7]; exact r7
  case maxAirSpeed => simp only [bv l8]; exact r8
  case backupMaxAirSpeed => simp only [bv l9]; exact r9
  case position =>
    intro p hp hz
    simp only [Telemetry.position, hp, Option.getD_some]
    rw [if_neg (by simpa using hz)]
  case noPosition =>
    intro hp
    simp only [Telemetry.position, hp, Option.getD_none]
    rfl

/-- C37: the timestamp is reported in whole seconds (saturating, but in range here) -/
theorem C37_timestamp {rnd rnd64 : ℚ → ℚ} {u : ℚ} (hr : Rounding rnd64 u 53) {v : Values} {t : Telemetry} (h : Telemetry.new rnd rnd64 v = some t) {ms : ℚ} (hms : v.timestamp = .fin ms)
    (h0 : 0 ≤ ms) (h1 : rnd64 (ms / 1000) < 2 ^ 32) : t.timestampMs rnd64 ≤ ms + u * ms ∧ ms - u * ms - 1000 < t.timestampMs rnd64 := by
  have ht : t.timestamp = BitVec.ofNat 32 (castU32 (div1000 rnd64 v.timestamp)) := by
    unfold Telemetry.new at h
    obtain ⟨_, _, h⟩ := bind_inv h
    obtain ⟨_, _, h⟩ := bind_inv h
    obtain ⟨_, _, h⟩ := bind_inv h
    obtain ⟨_, _, h⟩ := bind_inv h
    obtain ⟨_, _, h⟩ := bind_inv h
    obtain ⟨_, _, h⟩ := bind_inv h
    obtain ⟨_, _, h⟩ := bind_inv h
    obtain ⟨_, _, h⟩ := bind_inv h
    obtain ⟨_, _, h⟩ := bind_inv h
    rw [← Option.some.inj h]
  have hx0 : 0 ≤ rnd64 (ms / 1000) := by
    have := hr.mono 0 (ms / 1000) (by positivity)
    have h0' := hr.int 0 (by positivity)
    simp only [Nat.cast_zero] at h0'
    rwa [h0'] at this
  have herr := hr.err (ms / 1000)
  rw [hms] at ht
  generalize hx : rnd64 (ms / 1000) = x at *
  have hc : castU32 (div1000 rnd64 (.fin ms)) = ⌊x⌋.toNat := by
    simp only [div1000, castU32, hx]
    rw [if_neg (by linarith), min_eq_left]
    have : ⌊x⌋ < 2 ^ 32 := by rw [Int.floor_lt]; push_cast; exact h1
    omega
  have hfl : (0 : ℤ) ≤ ⌊x⌋ := Int.floor_nonneg.mpr hx0
  have hlt : ⌊x⌋.toNat < 2 ^ 32 := by
    have : ⌊x⌋ < 2 ^ 32 := by rw [Int.floor_lt]; push_cast; exact h1
    omega
  have hn : t.timestamp.toNat = ⌊x⌋.toNat := by rw [ht, hc, BitVec.toNat_ofNat, Nat.mod_eq_of_lt hlt]
  have hms' : t.timestampMs rnd64 = ⌊x⌋.toNat * 1000 := by
    unfold Telemetry.timestampMs
    rw [hn]
    have := hr.int (⌊x⌋.toNat * 1000) (by omega)
    push_cast at this
    exact this
  have hq : ((⌊x⌋.toNat : ℕ) : ℚ) = (⌊x⌋ : ℚ) := by
    have : ((⌊x⌋.toNat : ℤ) : ℚ) = (⌊x⌋ : ℚ) := by rw [Int.toNat_of_nonneg hfl]
    exact_mod_cast this
  rw [hms', hq]
  have f1 := Int.floor_le x
  have f2 := Int.lt_floor_add_one x
  have e1 : |ms / 1000| = ms / 1000 := abs_of_nonneg (by positivity)
  rw [e1, abs_le] at herr
  constructor
  · have := herr.2; linarith
  · have := herr.1; linarith

/-- C37: what the ground station gets is what the rocket packed, even with four wrong bytes -/
theorem C37_received {x : Ext} (hx : x.Laws) {key : Bytes} {snd rcv : Builder} (hs : Reach x key snd) (hrcv : Reach x key rcv) {rnd : ℚ → ℚ} (hr : Rounding rnd (1 / 2 ^ 24) 24)
    (rnd64 : ℚ → ℚ) (v : Values) (hv : noNaN v) (now : ℕ) :
    ∃ t buf, Telemetry.new rnd rnd64 v = some t ∧ (snd.serializeDownlink x now (.telemetry t)).1 = .ok buf ∧ buf.length = 43 ∧
      ∀ (got : Bytes) (later air : ℕ), got.length = 43 → byteErrors buf got ≤ 4 →
        ∃ t', rcv.deserializeDownlink x later air got = .ok (.telemetry t') ∧ Reports rnd v t' := by
  obtain ⟨t, ht, hrep⟩ := C37_fields hr rnd64 v hv
  obtain ⟨buf, h1, h2, _, h4⟩ := C35_downlink hx hs hrcv now (.telemetry t)
  have h2 : buf.length = 43 := h2
  refine ⟨t, buf, ht, h1, h2, ?_⟩
  intro got later air hg he
  exact ⟨t, h4 got later air (by rw [hg, h2]) (by rw [h2]; exact he), hrep⟩

/-- C37 (finding): NaN in an analogue value panics -/
theorem C37_nan_panics (rnd rnd64 : ℚ → ℚ) (v : Values) (h : v.altitude = .nan) : Telemetry.new rnd rnd64 v = none := by
  have : altitudeFac.toFixedCapped rnd v.altitude = none := by rw [h]; rfl
  unfold Telemetry.new
  rw [this]
  cases batteryVFac.toFixedCapped rnd v.batteryV <;> cases temperatureFac.toFixedCapped rnd v.temperature <;>
    cases freeSpaceFac.toFixedCapped rnd (.fin (rnd v.freeSpace)) <;> rfl

/-- C37 (finding): a position exactly on the equator and the zero meridian is reported as missing -/
theorem C37_null_island {rnd rnd64 : ℚ → ℚ} {v : Values} {t : Telemetry} (h : Telemetry.new rnd rnd64 v = some t) (hp : v.latLon = some (0#64, 0#64)) : t.position = none := by
  have ht : t.latLon = v.latLon.getD (0#64, 0#64) := by
    unfold Telemetry.new at h
    obtain ⟨_, _, h⟩ := bind_inv h
    obtain ⟨_, _, h⟩ := bind_inv h
    obtain ⟨_, _, h⟩ := bind_inv h
    obtain ⟨_, _, h⟩ := bind_inv h
    obtain ⟨_, _, h⟩ := bind_inv h
    obtain ⟨_, _, h⟩ := bind_inv h
    obtain ⟨_, _, h⟩ := bind_inv h
    obtain ⟨_, _, h⟩ := bind_inv h
    obtain ⟨_, _, h⟩ := bind_inv h
    rw [← Option.some.inj h]
  unfold Telemetry.position
  rw [ht, hp]
  rfl

/-! ### the maxima -/

theorem fltLe_refl {a : Flt} (h : a ≠ .nan) : fltLe a a := by
  match a with
  | .nan => exact absurd rfl h
  | .inf true => trivial
  | .inf false => trivial
  | .fin q => exact le_refl q

theorem not_le_nan (a : Flt) : ¬ fltLe a .nan := by
  match a with
  | .nan => exact id
  | .inf true => exact id
  | .inf false => exact id
  | .fin _ => exact id

theorem fltLe_trans {a b c : Flt} (h1 : fltLe a b) (h2 : fltLe b c) : fltLe a c := by
  match a, b, c with
  | .nan, _, _ => exact h1
  | .inf true, _, .nan => exact absurd h2 (not_le_nan _)
  | .inf true, _, .inf _ => trivial
  | .inf true, _, .fin _ => trivial
  | .inf false, .inf false, _ => exact h2
  | .inf false, .inf true, _ => exact absurd h1 (by simp [fltLe])
  | .inf false, .fin _, _ => exact absurd h1 (by simp [fltLe])
  | .inf false, .nan, _ => exact absurd h1 (by simp [fltLe])
  | .fin p, .fin q, .fin r => exact le_trans (show p ≤ q from h1) h2
  | .fin p, .nan, _ => exact absurd h1 (by simp [fltLe])
  | .fin p, .inf true, _ => exact absurd h1 (by simp [fltLe])
  | .fin p, .inf false, .inf false => trivial
  | .fin p, .inf false, .inf true => exact absurd h2 (by simp [fltLe])
  | .fin p, .inf false, .fin _ => exact absurd h2 (by simp [fltLe])
  | .fin p, .inf false, .nan => exact absurd h2 (by simp [fltLe])
  | .fin p, .fin q, .inf true => exact absurd h2 (by simp [fltLe])
  | .fin p, .fin q, .inf false => trivial
  | .fin p, .fin q, .nan => exact absurd h2 (by simp [fltLe])

theorem fmax_le (a : Flt) {b : Flt} (h : b ≠ .nan) : fltLe b (fmax a b) := by
  match a, b with
  | _, .nan => exact absurd rfl h
  | .nan, .inf true => trivial
  | .nan, .inf false => trivial
  | .nan, .fin q => exact le_refl q
  | .inf true, .inf true => trivial
  | .inf true, .inf false => trivial
  | .inf true, .fin q => exact le_refl q
  | .inf false, .inf true => trivial
  | .inf false, .inf false => trivial
  | .inf false, .fin q => trivial
  | .fin p, .inf true => trivial
  | .fin p, .inf false => trivial
  | .fin p, .fin q => exact le_max_right p q

theorem fmax_nan {a b : Flt} (h : b ≠ .nan) : fmax a b ≠ .nan := by
  intro he
  have := fmax_le a h
  rw [he] at this
  exact not_le_nan b this

theorem le_fmax {a : Flt} (b : Flt) (h : a ≠ .nan) : fltLe a (fmax a b) := by
  match a, b with
  | .nan, _ => exact absurd rfl h
  | .inf true, .nan => trivial
  | .inf false, .nan => trivial
  | .fin q, .nan => exact le_refl q
  | .inf true, .inf true => trivial
  | .inf true, .inf false => trivial
  | .inf true, .fin q => trivial
  | .inf false, .inf true => trivial
  | .inf false, .inf false => trivial
  | .inf false, .fin q => trivial
  | .fin p, .inf true => exact le_refl p
  | .fin p, .inf false => trivial
  | .fin p, .fin q => exact le_max_left p q

theorem fmax_or (a b : Flt) : fmax a b = a ∨ fmax a b = b := by
  match a, b with
  | .nan, b => exact .inr rfl
  | .inf true, .nan => exact .inl rfl
  | .inf false, .nan => exact .inl rfl
  | .fin q, .nan => exact .inl rfl
  | .inf true, .inf true => exact .inl rfl
  | .inf true, .inf false => exact .inr rfl
  | .inf true, .fin q => exact .inr rfl
  | .inf false, .inf true => exact .inl rfl
  | .inf false, .inf false => exact .inl rfl
  | .inf false, .fin q => exact .inl rfl
  | .fin p, .inf true => exact .inl rfl
  | .fin p, .inf false => exact .inr rfl
  | .fin p, .fin q =>
    rcases max_choice p q with h | h
    · exact .inl (by simp only [fmax, h])
    · exact .inr (by simp only [fmax, h])

/-- the states after a sequence of updates, and what the public fields were after each of them -/
inductive Updated : BuilderState → List PubState → Prop
  | init : Updated BuilderState.init []
  | update {s : BuilderState} {hist : List PubState} (f : PubState → PubState) : Updated s hist → Updated (s.update f) (hist ++ [f s.pub])

/-- C37: each maximum is the largest of zero and the values that were set (NaN aside) -/
theorem C37_max {s : BuilderState} {hist : List PubState} (h : Updated s hist) :
    (s.maxAltitude ≠ .nan ∧ (s.maxAltitude = .fin 0 ∨ ∃ p ∈ hist, p.altitude = s.maxAltitude) ∧ fltLe (.fin 0) s.maxAltitude ∧
      ∀ p ∈ hist, p.altitude ≠ .nan → fltLe p.altitude s.maxAltitude) ∧
    (s.maxAirSpeed ≠ .nan ∧ (s.maxAirSpeed = .fin 0 ∨ ∃ p ∈ hist, p.airSpeed = s.maxAirSpeed) ∧ fltLe (.fin 0) s.maxAirSpeed ∧
      ∀ p ∈ hist, p.airSpeed ≠ .nan → fltLe p.airSpeed s.maxAirSpeed) ∧
    (s.backupMaxAltitude ≠ .nan ∧ (s.backupMaxAltitude = .fin 0 ∨ ∃ p ∈ hist, p.backupAltitude = s.backupMaxAltitude) ∧ fltLe (.fin 0) s.backupMaxAltitude ∧
      ∀ p ∈ hist, p.backupAltitude ≠ .nan → fltLe p.backupAltitude s.backupMaxAltitude) ∧
    (s.backupMaxAirSpeed ≠ .nan ∧ (s.backupMaxAirSpeed = .fin 0 ∨ ∃ p ∈ hist, p.backupAirSpeed = s.backupMaxAirSpeed) ∧ fltLe (.fin 0) s.backupMaxAirSpeed ∧
      ∀ p ∈ hist, p.backupAirSpeed ≠ .nan → fltLe p.backupAirSpeed s.backupMaxAirSpeed) := by
  have step : ∀ (g : PubState → Flt) (m : Flt) (hist : List PubState) (new : PubState),
      (m ≠ .nan ∧ (m = .fin 0 ∨ ∃ p ∈ hist, g p = m) ∧ fltLe (.fin 0) m ∧ ∀ p ∈ hist, g p ≠ .nan → fltLe (g p) m) →
      (fmax (g new) m ≠ .nan ∧ (fmax (g new) m = .fin 0 ∨ ∃ p ∈ hist ++ [new], g p = fmax (g new) m) ∧ fltLe (.fin 0) (fmax (g new) m) ∧
        ∀ p ∈ hist ++ [new], g p ≠ .nan → fltLe (g p) (fmax (g new) m)) := by
    rintro g m hist new ⟨h1, h2, h3, h4⟩
    refine ⟨fmax_nan h1, ?_, fltLe_trans h3 (fmax_le _ h1), ?_⟩
    · rcases fmax_or (g new) m with h | h
      · exact .inr ⟨new, by simp, h.symm⟩
      · rw [h]
        rcases h2 with h2 | ⟨p, hp, he⟩
        · exact .inl h2
        · exact .inr ⟨p, by simp [hp], he⟩
    · intro p hp hn
      rcases List.mem_append.mp hp with hp | hp
      · exact fltLe_trans (h4 p hp hn) (fmax_le _ h1)
      · rw [List.mem_singleton] at hp
        subst hp
        exact le_fmax _ hn
  induction h with
  | init =>
    have : (Flt.fin 0) ≠ .nan ∧ ((Flt.fin 0) = .fin 0 ∨ ∃ p ∈ ([] : List PubState), p.altitude = Flt.fin 0) ∧ fltLe (.fin 0) (.fin 0) := ⟨by simp, .inl rfl, le_refl (0 : ℚ)⟩
    refine ⟨⟨by simp [BuilderState.init], .inl rfl, le_refl (0 : ℚ), by simp⟩, ⟨by simp [BuilderState.init], .inl rfl, le_refl (0 : ℚ), by simp⟩,
      ⟨by simp [BuilderState.init], .inl rfl, le_refl (0 : ℚ), by simp⟩, ⟨by simp [BuilderState.init], .inl rfl, le_refl (0 : ℚ), by simp⟩⟩
  | @update s hist f _ ih =>
    obtain ⟨a, b, c, d⟩ := ih
    exact ⟨step PubState.altitude _ hist (f s.pub) a, step PubState.airSpeed _ hist (f s.pub) b, step PubState.backupAltitude _ hist (f s.pub) c,
      step PubState.backupAirSpeed _ hist (f s.pub) d⟩

/-- C37: the maxima never decrease -/
theorem C37_max_grows {s : BuilderState} {hist : List PubState} (h : Updated s hist) (f : PubState → PubState) :
    fltLe s.maxAltitude (s.update f).maxAltitude ∧ fltLe s.maxAirSpeed (s.update f).maxAirSpeed ∧ fltLe s.backupMaxAltitude (s.update f).backupMaxAltitude ∧
      fltLe s.backupMaxAirSpeed (s.update f).backupMaxAirSpeed := by
  obtain ⟨a, b, c, d⟩ := C37_max h
  exact ⟨fmax_le _ a.1, fmax_le _ b.1, fmax_le _ c.1, fmax_le _ d.1⟩

/-- a larger value never gets a smaller code, capped -/
theorem capped_mono {f : Factory} (hf : f ∈ f32Factories ++ f64Factories) {rnd : ℚ → ℚ} (hr : Rounding rnd (1 / 2 ^ 24) 24) {v w : Flt} (h : fltLe v w) {j k : ℕ}
    (hj : f.toFixedCapped rnd v = some j) (hk : f.toFixedCapped rnd w = some k) : j ≤ k := by
  have hV := (C31_valid f hf).1
  have hlt := hV.range
  have key : ∀ {v : Flt} {j : ℕ}, v ≠ .nan → f.toFixedCapped rnd v = some j → f.toFixed rnd (.fin (clampTo f v)) = some (some j) := by
    intro v j hv hj
    have hq : (f.toFixed rnd (.fin (clampTo f v))).join = f.toFixedCapped rnd v := by
      cases v with
      | nan => exact absurd rfl hv
      | inf neg =>
        cases neg with
        | true => exact (C31_capped hV rnd 0).2.1.symm
        | false => exact (C31_capped hV rnd 0).2.2.symm
      | fin q => exact (C31_capped hV rnd q).1.symm
    rw [hj] at hq
    cases hx : f.toFixed rnd (.fin (clampTo f v)) with
    | none => rw [hx] at hq; exact absurd hq (by simp)
    | some o => rw [hx] at hq; exact congrArg some hq
  have hc : clampTo f v ≤ clampTo f w := by
    match v, w with
    | .nan, _ => exact absurd h (by simp [fltLe])
    | .inf true, .nan => exact absurd h (by simp [fltLe])
    | .inf false, .nan => exact absurd h (by simp [fltLe])
    | .fin _, .nan => exact absurd h (by simp [fltLe])
    | .inf true, .inf true => exact le_refl _
    | .inf true, .inf false => exact hlt.le
    | .inf true, .fin q => exact le_max_left _ _
    | .inf false, .inf true => exact absurd h (by simp [fltLe])
    | .inf false, .inf false => exact le_refl _
    | .inf false, .fin q => exact absurd h (by simp [fltLe])
    | .fin p, .inf true => exact absurd h (by simp [fltLe])
    | .fin p, .inf false => exact max_le hlt.le (min_le_right _ _)
    | .fin p, .fin q =>
      have h : p ≤ q := h
      exact max_le_max (le_refl _) (min_le_min h (le_refl _))
  have hv : v ≠ .nan := by rintro rfl; exact absurd h (by simp [fltLe])
  have hw : w ≠ .nan := by
    rintro rfl
    match v with
    | .nan => exact absurd h (by simp [fltLe])
    | .inf true => exact absurd h (by simp [fltLe])
    | .inf false => exact absurd h (by simp [fltLe])
    | .fin _ => exact absurd h (by simp [fltLe])
  exact C31_monotone hV hr (by norm_num) (C31_valid f hf).2 hc (key hv hj) (key hw hk)

theorem new_max {rnd rnd64 : ℚ → ℚ} {v : Values} {t : Telemetry} (h : Telemetry.new rnd rnd64 v = some t) :
    ∃ a b c d, altitudeFac.toFixedCapped rnd v.maxAltitude = some a ∧ t.maxAltitude = BitVec.ofNat 10 a ∧
      altitudeFac.toFixedCapped rnd v.backupMaxAltitude = some b ∧ t.backupMaxAltitude = BitVec.ofNat 10 b ∧
      airSpeedFac.toFixedCapped rnd v.maxAirSpeed = some c ∧ t.maxAirSpeed = BitVec.ofNat 9 c ∧
      airSpeedFac.toFixedCapped rnd v.backupMaxAirSpeed = some d ∧ t.backupMaxAirSpeed = BitVec.ofNat 9 d := by
  unfold Telemetry.new at h
  obtain ⟨_, _, h⟩ := bind_inv h
  obtain ⟨_, _, h⟩ := bind_inv h
  obtain ⟨_, _, h⟩ := bind_inv h
  obtain ⟨_, _, h⟩ := bind_inv h
  obtain ⟨a, ha, h⟩ := bind_inv h
  obtain ⟨b, hb, h⟩ := bind_inv h
  obtain ⟨_, _, h⟩ := bind_inv h
  obtain ⟨c, hc, h⟩ := bind_inv h
  obtain ⟨d, hd, h⟩ := bind_inv h
  have h := Option.some.inj h
  exact ⟨a, b, c, d, ha, by rw [← h], hb, by rw [← h], hc, by rw [← h], hd, by rw [← h]⟩

/-- C37: of two packets made one after the other, however many updates are in between, the later one does not report smaller maxima -/
theorem C37_reported_max_grows {rnd rnd64 : ℚ → ℚ} (hr : Rounding rnd (1 / 2 ^ 24) 24) {s : BuilderState} {hist : List PubState} (h : Updated s hist)
    (fs : List (PubState → PubState)) {r1 r2 : Bool} {n1 n2 : Flt} {t1 t2 : Telemetry} (h1 : s.createPacket rnd rnd64 r1 n1 = some t1)
    (h2 : (fs.foldl BuilderState.update s).createPacket rnd rnd64 r2 n2 = some t2) :
    t1.maxAltitude.toNat ≤ t2.maxAltitude.toNat ∧ t1.backupMaxAltitude.toNat ≤ t2.backupMaxAltitude.toNat ∧ t1.maxAirSpeed.toNat ≤ t2.maxAirSpeed.toNat ∧
      t1.backupMaxAirSpeed.toNat ≤ t2.backupMaxAirSpeed.toNat := by
  have grow : ∀ (fs : List (PubState → PubState)) {s : BuilderState} {hist : List PubState}, Updated s hist →
      fltLe s.maxAltitude (fs.foldl BuilderState.update s).maxAltitude ∧ fltLe s.maxAirSpeed (fs.foldl BuilderState.update s).maxAirSpeed ∧
      fltLe s.backupMaxAltitude (fs.foldl BuilderState.update s).backupMaxAltitude ∧ fltLe s.backupMaxAirSpeed (fs.foldl BuilderState.update s).backupMaxAirSpeed := by
    intro fs
    induction fs with
    | nil =>
      intro s hist h
      obtain ⟨a, b, c, d⟩ := C37_max h
      exact ⟨fltLe_refl a.1, fltLe_refl b.1, fltLe_refl c.1, fltLe_refl d.1⟩
    | cons f fs ih =>
      intro s hist h
      obtain ⟨a, b, c, d⟩ := C37_max_grows h f
      obtain ⟨a', b', c', d'⟩ := ih (Updated.update f h)
      exact ⟨fltLe_trans a a', fltLe_trans b b', fltLe_trans c c', fltLe_trans d d'⟩
  obtain ⟨g1, g2, g3, g4⟩ := grow fs h
  obtain ⟨a, b, c, d, ha, ha', hb, hb', hc, hc', hd, hd'⟩ := new_max h1
  obtain ⟨a2, b2, c2, d2, ka, ka', kb, kb', kc, kc', kd, kd'⟩ := new_max h2
  have hm := tf_mem
  obtain ⟨_, _, _, w4, w5⟩ := C37_widths
  have lt : ∀ {f : Factory}, f ∈ f32Factories ++ f64Factories → ∀ {v : Flt} {k : ℕ}, f.toFixedCapped rnd v = some k → k < 2 ^ f.bits := by
    intro f hf v k hk
    by_cases hv : v = .nan
    · rw [hv] at hk; exact absurd hk (by simp [(C31_nan_panics f rnd).2])
    · obtain ⟨k', hk', hl, _⟩ := analog hf hr hv
      rw [hk] at hk'
      rw [Option.some.inj hk']; exact hl
  have bv : ∀ {w k : ℕ}, k < 2 ^ w → (BitVec.ofNat w k).toNat = k := fun {w k} h => by rw [BitVec.toNat_ofNat, Nat.mod_eq_of_lt h]
  have hA := hm altitudeFac (by simp)
  have hS := hm airSpeedFac (by simp)
  refine ⟨?_, ?_, ?_, ?_⟩
  · rw [ha', ka', bv (w4 ▸ lt hA ha), bv (w4 ▸ lt hA ka)]; exact capped_mono hA hr g1 ha ka
  · rw [hb', kb', bv (w4 ▸ lt hA hb), bv (w4 ▸ lt hA kb)]; exact capped_mono hA hr g3 hb kb
  · rw [hc', kc', bv (w5 ▸ lt hS hc), bv (w5 ▸ lt hS kc)]; exact capped_mono hS hr g2 hc kc
  · rw [hd', kd', bv (w5 ▸ lt hS hd), bv (w5 ▸ lt hS kd)]; exact capped_mono hS hr g4 hd kd

/-- a packet after two updates, in exact arithmetic: altitudes 1200 then 800 -/
example : (((BuilderState.init.update fun p => { p with altitude := .fin 1200 }).update fun p => { p with altitude := .fin 800, softwareArmed := true }).createPacket id id true (.fin 5400)).map
    (fun t => (t.softwareArmed, t.maxAltitude.toNat, t.altitude.toNat, t.timestampMs id)) = some (true, 261, 181, 5000) := by
  decide +kernel

end Verif.Props
