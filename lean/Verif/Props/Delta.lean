import Verif.Spec.DeltaRun
import Verif.Props.FixedPoint
/-
C30: delta encoding does not accumulate error.
-/
namespace Verif.Delta
open Verif Verif.Fix Verif.Props

theorem run_close {T D : Type} {dt : Deltable T D} {chain close : T → T → Prop} (h : OneStep dt chain close) :
    ∀ (ins : List (Bool × T)) (last : Option T),
    (∀ l, last = some l → ∃ p, close p l ∧ Chained chain (p :: ins.map (·.2))) → Chained chain (ins.map (·.2)) →
    ∃ es, encodeAll dt last ins = some es ∧ List.Forall₂ (fun v o => ∃ w, o = some w ∧ close v w) (ins.map (·.2)) (decodeAll dt last es)
  | [], _, _, _ => ⟨[], rfl, .nil⟩
  | (nd, v) :: ins, last, hl, hc => by
    have hc' : Chained chain (ins.map (·.2)) := by
      cases ins with
      | nil => trivial
      | cons a l => exact hc.2
    -- the full value is pushed
    have full : ∃ es, encodeAll dt (some v) ins = some es ∧
        List.Forall₂ (fun v o => ∃ w, o = some w ∧ close v w) (ins.map (·.2)) (decodeAll dt (some v) es) :=
      run_close h ins (some v) (fun l hl' => by injection hl' with hl'; subst hl'; exact ⟨v, h.refl v, hc⟩) hc'
    obtain ⟨es, he, hd⟩ := full
    have hfull : List.Forall₂ (fun v o => ∃ w, o = some w ∧ close v w) (v :: ins.map (·.2)) (decodeAll dt last (.full v :: es)) :=
      .cons ⟨v, rfl, h.refl v⟩ hd
    cases nd with
    | true =>
      refine ⟨.full v :: es, ?_, hfull⟩
      simp only [encodeAll, pushNoDelta, if_true, he]
    | false =>
      cases last with
      | none =>
        refine ⟨.full v :: es, ?_, hfull⟩
        simp [encodeAll, push, he]
      | some l =>
        cases hs : dt.subtract v l with
        | none =>
          refine ⟨.full v :: es, ?_, hfull⟩
          simp [encodeAll, push, he, hs]
        | some d =>
          obtain ⟨p, hp, hch⟩ := hl l rfl
          obtain ⟨w, hw, hcl⟩ := h.step p l v d hp hch.1 hs
          obtain ⟨es', he', hd'⟩ := run_close h ins (some w) (fun l hl' => by injection hl' with hl'; subst hl'; exact ⟨v, hcl, hc⟩) hc'
          refine ⟨.delta d :: es', ?_, ?_⟩
          · simp [encodeAll, push, hw, he', hs]
          · have h1 : unPush dt (some l) (.delta d) = (some w, some w) := by simp [unPush, hw]
            refine .cons ⟨w, by rw [h1], hcl⟩ ?_
            rw [h1]; exact hd'

theorem chained_true {T : Type} : ∀ l : List T, Chained (fun _ _ => True) l
  | [] => trivial
  | [_] => trivial
  | _ :: _ :: _ => ⟨trivial, chained_true _⟩

/-- the reconstruction error of one delta, from the errors of its operations -/
theorem delta_error {v l d tf w E B u η : ℚ} (hη0 : 0 ≤ η) (hη : η ≤ 1 / 2) (hu : 0 ≤ u)
    (h1 : |d - (v - l)| ≤ η * |v - l|) (h2 : |d| ≤ B) (h3 : |tf - d| ≤ E) (h4 : |w - (l + tf)| ≤ u * |l + tf|) :
    |w - v| ≤ (1 + u) * (E + 2 * η * B) + u * |v| := by
  have hx : |v - l| ≤ 2 * B := by
    have : |v - l| ≤ |d| + |d - (v - l)| := by
      have := abs_sub_abs_le_abs_sub (v - l) d
      rw [abs_sub_comm (v - l) d] at this
      linarith
    have h0 := abs_nonneg (v - l)
    nlinarith
  have ht : |l + tf - v| ≤ E + 2 * η * B := by
    have e : l + tf - v = (tf - d) + (d - (v - l)) := by ring
    rw [e]
    have := abs_add_le (tf - d) (d - (v - l))
    nlinarith
  have hlt : |l + tf| ≤ |v| + (E + 2 * η * B) := by
    have e : l + tf = v + (l + tf - v) := by ring
    calc |l + tf| = |v + (l + tf - v)| := by rw [← e]
      _ ≤ |v| + |l + tf - v| := abs_add_le _ _
      _ ≤ _ := by linarith
  have e : w - v = (w - (l + tf)) + (l + tf - v) := by ring
  rw [e]
  have := abs_add_le (w - (l + tf)) (l + tf - v)
  nlinarith

/-- specification: `w` differs from `v` by at most the maximum error of one delta (1% slack) plus the float resolution `u` of the value -/
def Near (f : Factory) (u : ℚ) (v w : ℚ) : Prop := |w - v| ≤ 1.01 * f.maxError + u * |v|

theorem toFixed_inv {f : Factory} {rnd : ℚ → ℚ} {q : ℚ} {k : ℕ} (h : f.toFixed rnd (.fin q) = some (some k)) : f.min ≤ q ∧ q ≤ f.max := by
  unfold Factory.toFixed at h
  simp only at h
  split at h
  · simp at h
  · next hc => rw [not_or, not_lt, not_lt] at hc; exact hc

/-- u of single and double precision -/
def u32 : ℚ := 1 / 2 ^ 24
def u64 : ℚ := 1 / 2 ^ 53

theorem near_refl {f : Factory} (hf : f ∈ f32Factories ++ f64Factories) {u : ℚ} (hu : 0 ≤ u) (v : ℚ) : Near f u v v := by
  have := (C31_valid f hf).1.err
  unfold Near
  rw [sub_self, abs_zero]
  have h2 := abs_nonneg v
  positivity

theorem firmware_step {f : Factory} (hf : f ∈ f32Factories ++ f64Factories) {rnd : ℚ → ℚ} (hr : Rounding rnd u32 24)
    {v l d w : ℚ} {k : ℕ} {u η : ℚ} (hη0 : 0 ≤ η) (hη : η ≤ 1 / 2 ^ 22) (hu : 0 ≤ u) (hu' : u ≤ u32)
    (h1 : |d - (v - l)| ≤ η * |v - l|) (hk : f.toFixed rnd (.fin d) = some (some k)) (h4 : |w - (l + f.toFloat rnd k)| ≤ u * |l + f.toFloat rnd k|) :
    Near f u v w := by
  obtain ⟨a, b⟩ := toFixed_inv hk
  obtain ⟨k', hk', _, he⟩ := C31_firmware hf hr a b
  rw [hk] at hk'
  injection hk' with hk'; injection hk' with hk'; subst hk'
  have hB : |d| ≤ max |f.min| |f.max| := abs_le_max_abs_abs a b
  have := delta_error hη0 (hη.trans (by norm_num)) hu h1 hB he h4
  refine this.trans ?_
  have hb : ∀ f ∈ f32Factories ++ f64Factories, (1 + 1 / 2 ^ 24 : ℚ) * (f.maxError + 2 * (1 / 2 ^ 22) * max |f.min| |f.max|) ≤ 1.01 * f.maxError := by
    decide +kernel
  have hb := hb f hf
  have hE := (C31_valid f hf).1.err
  have hM : 0 ≤ max |f.min| |f.max| := le_trans (abs_nonneg _) (le_max_left _ _)
  have : (1 + u) * (f.maxError + 2 * η * max |f.min| |f.max|) ≤ (1 + 1 / 2 ^ 24 : ℚ) * (f.maxError + 2 * (1 / 2 ^ 22) * max |f.min| |f.max|) := by
    apply mul_le_mul
    · have := hu'; unfold u32 at this; linarith
    · have := mul_le_mul_of_nonneg_right hη hM
      linarith
    · positivity
    · norm_num
  linarith

theorem oneStep_scalar {f : Factory} (hf : f ∈ f32Factories ++ f64Factories) {rnd : ℚ → ℚ} (hr : Rounding rnd u32 24) :
    OneStep (scalar f rnd) (fun _ _ => True) (Near f u32) where
  refl v := near_refl hf (by norm_num [u32]) v
  step p l v d _ _ hs := by
    refine ⟨_, rfl, ?_⟩
    unfold scalar at hs
    simp only at hs
    split at hs
    · next k hk =>
      injection hs with hs; subst hs
      exact firmware_step hf hr (η := u32) (by norm_num [u32]) (by norm_num [u32]) (by norm_num [u32]) (le_refl _) (hr.err _) hk (hr.err _)
    · simp at hs

theorem oneStep_latLon {rnd rnd64 : ℚ → ℚ} (hr : Rounding rnd u32 24) (hr64 : Rounding rnd64 u64 53) :
    OneStep (latLon rnd rnd64) (fun _ _ => True) (Near (slope 0.01 100 0.000005) u64) where
  refl v := near_refl (by simp [f32Factories]) (by norm_num [u64]) v
  step p l v d _ _ hs := by
    refine ⟨_, rfl, ?_⟩
    unfold latLon at hs
    simp only at hs
    split at hs
    · next k hk =>
      injection hs with hs; subst hs
      refine firmware_step (by simp [f32Factories]) hr (η := 1 / 2 ^ 22) (by norm_num) (by norm_num) (by norm_num [u64]) (by norm_num [u64, u32]) ?_ hk (hr64.err _)
      have h1 := hr64.err (v - l)
      have h2 := hr.err (rnd64 (v - l))
      have h3 : |rnd64 (v - l)| ≤ |v - l| + |rnd64 (v - l) - (v - l)| := by
        have := abs_add_le (v - l) (rnd64 (v - l) - (v - l))
        rwa [add_sub_cancel] at this
      have h4 := abs_add_le (rnd (rnd64 (v - l)) - rnd64 (v - l)) (rnd64 (v - l) - (v - l))
      rw [sub_add_sub_cancel] at h4
      have h0 := abs_nonneg (v - l)
      unfold u64 at h1
      unfold u32 at h2
      norm_num at h1 h2 ⊢
      linarith
    · simp at hs

theorem oneStep_prod {T D T' D' : Type} {a : Deltable T D} {b : Deltable T' D'} {ca : T → T → Prop} {cb : T' → T' → Prop}
    {na : T → T → Prop} {nb : T' → T' → Prop} (ha : OneStep a ca na) (hb : OneStep b cb nb) :
    OneStep (prod a b) (fun p v => ca p.1 v.1 ∧ cb p.2 v.2) (fun v w => na v.1 w.1 ∧ nb v.2 w.2) where
  refl v := ⟨ha.refl _, hb.refl _⟩
  step p l v d hc hch hs := by
    unfold prod at hs ⊢
    simp only at hs ⊢
    split at hs
    · next x y hx hy =>
      injection hs with hs; subst hs
      obtain ⟨w, h1, h2⟩ := ha.step p.1 l.1 v.1 x hc.1 hch.1 hx
      obtain ⟨w', h1', h2'⟩ := hb.step p.2 l.2 v.2 y hc.2 hch.2 hy
      exact ⟨(w, w'), by rw [h1, h1'], h2, h2'⟩
    · simp at hs

theorem OneStep.mono {T D : Type} {dt : Deltable T D} {chain chain' close : T → T → Prop} (h : OneStep dt chain close) (hc : ∀ a b, chain' a b → chain a b) :
    OneStep dt chain' close := ⟨h.refl, fun p l v d h1 h2 h3 => h.step p l v d h1 (hc _ _ h2) h3⟩

/-- all fields of a float triple are near -/
def Near3 (f : Factory) (v w : ℚ × ℚ × ℚ) : Prop := Near f u32 v.1 w.1 ∧ Near f u32 v.2.1 w.2.1 ∧ Near f u32 v.2.2 w.2.2

theorem oneStep_triple {f : Factory} (hf : f ∈ f32Factories ++ f64Factories) {rnd : ℚ → ℚ} (hr : Rounding rnd u32 24) :
    OneStep (triple f rnd) (fun _ _ => True) (Near3 f) :=
  (oneStep_prod (oneStep_scalar hf hr) (oneStep_prod (oneStep_scalar hf hr) (oneStep_scalar hf hr))).mono (fun _ _ _ => ⟨trivial, trivial, trivial⟩)

/-- specification: an optional field is kept as it is or within the error of its delta -/
def NearOpt (f : Factory) : Option ℚ → Option ℚ → Prop
  | some v, some w => Near f u32 v w
  | none, none => True
  | _, _ => False

/-- specification: a reconstructed GPS reading has the exact time and satellite count, and the other fields within their error -/
structure NearGps (v w : Gps) : Prop where
  time : w.timestamp = v.timestamp
  sats : w.sats = v.sats
  pos : (v.latLon = none ∧ w.latLon = none) ∨ ∃ a b a' b', v.latLon = some (a, b) ∧ w.latLon = some (a', b') ∧
    Near (slope 0.01 100 0.000005) u64 a a' ∧ Near (slope 0.01 100 0.000005) u64 b b'
  alt : NearOpt (slope 400 100 0.5) v.altitude w.altitude
  hdop : NearOpt (minmax 0 1 0.1) v.hdop w.hdop
  vdop : NearOpt (minmax 0 1 0.1) v.vdop w.vdop
  pdop : NearOpt (minmax 0 1 0.1) v.pdop w.pdop

/-- GPS time does not go backwards (a missing time counts as no information) -/
def GpsChain (p v : Gps) : Prop := (∀ a b, p.timestamp = some a → v.timestamp = some b → a ≤ b)

theorem nearOpt_refl {f : Factory} (hf : f ∈ f32Factories ++ f64Factories) (v : Option ℚ) : NearOpt f v v := by
  cases v with
  | none => trivial
  | some v => exact near_refl hf (by norm_num [u32]) v

theorem opt_step {f : Factory} (hf : f ∈ f32Factories ++ f64Factories) {rnd : ℚ → ℚ} (hr : Rounding rnd u32 24) {v l : Option ℚ} {d : ℕ}
    (h : subOpt f rnd v l = some d) : ∃ w, addOpt f rnd l d = some w ∧ NearOpt f v (some w) := by
  unfold subOpt at h
  split at h
  · next v l =>
    exact (oneStep_scalar hf hr).step l l v d ((oneStep_scalar hf hr).refl l) trivial h
  · simp at h

theorem sats_exact {n l d : ℕ} (h : subSats n l = some d) : addSats l d = n := by
  unfold subSats at h
  unfold addSats
  split at h
  · injection h with h; subst h; simp; omega
  · split at h
    · injection h with h; subst h; simp; omega
    · split at h
      · injection h with h; subst h; simp; split <;> omega
      · split at h
        · injection h with h; subst h; simp; split <;> omega
        · simp at h

theorem oneStep_gps {rnd rnd64 : ℚ → ℚ} (hr : Rounding rnd u32 24) (hr64 : Rounding rnd64 u64 53) : OneStep (gps rnd rnd64) GpsChain NearGps where
  refl v := by
    refine ⟨rfl, rfl, ?_, nearOpt_refl (by simp [f32Factories]) _, nearOpt_refl (by simp [f32Factories]) _, nearOpt_refl (by simp [f32Factories]) _, nearOpt_refl (by simp [f32Factories]) _⟩
    cases h : v.latLon with
    | none => exact .inl ⟨rfl, rfl⟩
    | some x => exact .inr ⟨x.1, x.2, x.1, x.2, rfl, rfl, near_refl (by simp [f32Factories]) (by norm_num [u64]) _, near_refl (by simp [f32Factories]) (by norm_num [u64]) _⟩
  step p l v d hc hch hs := by
    unfold gps at hs
    simp only at hs
    split at hs
    · next t t' ht ht' =>
      split at hs
      · simp at hs
      · next hle =>
        split at hs
        · next s lat lon lat' lon' alt e1 e2 e3 e4 =>
          split at hs
          · next klat klon h vv pp g1 g2 g3 g4 g5 =>
            injection hs with hs
            subst hs
            have htime : t' ≤ t := hch t' t (by rw [← hc.time, ht']) ht
            obtain ⟨wa, a1, a2⟩ := opt_step (by simp [f32Factories]) hr e4
            obtain ⟨wh, b1, b2⟩ := opt_step (by simp [f32Factories]) hr g3
            obtain ⟨wv, c1, c2⟩ := opt_step (by simp [f32Factories]) hr g4
            obtain ⟨wp, d1, d2⟩ := opt_step (by simp [f32Factories]) hr g5
            obtain ⟨w1, p1, p2⟩ := (oneStep_latLon hr hr64).step lat' lat' lat klat ((oneStep_latLon hr hr64).refl _) trivial g1
            obtain ⟨w2, q1, q2⟩ := (oneStep_latLon hr hr64).step lon' lon' lon klon ((oneStep_latLon hr hr64).refl _) trivial g2
            refine ⟨⟨some t, some (w1, w2), some wa, v.sats, some wh, some wv, some wp⟩, ?_, ?_⟩
            · unfold gps
              simp only [ht', e3, a1, b1, c1, d1, p1, q1, sats_exact e1]
              congr 3
              omega
            · refine ⟨ht.symm, rfl, .inr ⟨lat, lon, w1, w2, e2, rfl, p2, q2⟩, a2, b2, c2, d2⟩
          · simp at hs
        · simp at hs
    · simp at hs

end Verif.Delta

namespace Verif.Props
open Verif Verif.Fix Verif.Delta

/-- **C30** For every kind of data whose single deltas are faithful (`OneStep`), a run of any length is: the encoder never panics, the decoder
returns a value for every item, and every value is `close` to the value pushed — with the guarantee of a single delta. -/
theorem C30_no_accumulation {T D : Type} {dt : Deltable T D} {chain close : T → T → Prop} (h : OneStep dt chain close) (ins : List (Bool × T))
    (hc : Chained chain (ins.map (·.2))) :
    ∃ es, encodeAll dt none ins = some es ∧ List.Forall₂ (fun v o => ∃ w, o = some w ∧ close v w) (ins.map (·.2)) (decodeAll dt none es) :=
  run_close h ins none (fun _ h => by simp at h) hc

/-- **C30** ADC readings: any sequence, single precision. -/
theorem C30_adc {rnd : ℚ → ℚ} (hr : Rounding rnd u32 24) (ins : List (Bool × ℚ)) :
    ∃ es, encodeAll (adc rnd) none ins = some es ∧
      List.Forall₂ (fun v o => ∃ w, o = some w ∧ |w - v| ≤ 1.01 * 0.002 + u32 * |v|) (ins.map (·.2)) (decodeAll (adc rnd) none es) :=
  C30_no_accumulation (oneStep_scalar (by simp [f32Factories]) hr) ins (chained_true _)

/-- **C30** barometer readings (temperature, pressure) -/
theorem C30_baro {rnd : ℚ → ℚ} (hr : Rounding rnd u32 24) (ins : List (Bool × (ℚ × ℚ))) :
    ∃ es, encodeAll (baro rnd) none ins = some es ∧
      List.Forall₂ (fun v o => ∃ w, o = some w ∧ |w.1 - v.1| ≤ 1.01 * 0.05 + u32 * |v.1| ∧ |w.2 - v.2| ≤ 1.01 * 1 + u32 * |v.2|)
        (ins.map (·.2)) (decodeAll (baro rnd) none es) :=
  C30_no_accumulation ((oneStep_prod (oneStep_scalar (by simp [f32Factories]) hr) (oneStep_scalar (by simp [f32Factories]) hr)).mono
    (fun _ _ (_ : True) => ⟨trivial, trivial⟩)) ins (chained_true _)

/-- **C30** IMU readings (acceleration, angular rate) -/
theorem C30_imu {rnd : ℚ → ℚ} (hr : Rounding rnd u32 24) (ins : List (Bool × ((ℚ × ℚ × ℚ) × (ℚ × ℚ × ℚ)))) :
    ∃ es, encodeAll (imu rnd) none ins = some es ∧
      List.Forall₂ (fun v o => ∃ w, o = some w ∧ Near3 (slope 100 5 0.01) v.1 w.1 ∧ Near3 (slope 100 5 0.01) v.2 w.2)
        (ins.map (·.2)) (decodeAll (imu rnd) none es) :=
  C30_no_accumulation ((oneStep_prod (oneStep_triple (by simp [f32Factories]) hr) (oneStep_triple (by simp [f32Factories]) hr)).mono
    (fun _ _ (_ : True) => ⟨trivial, trivial⟩)) ins (chained_true _)

/-- **C30** magnetometer readings -/
theorem C30_mag {rnd : ℚ → ℚ} (hr : Rounding rnd u32 24) (ins : List (Bool × (ℚ × ℚ × ℚ))) :
    ∃ es, encodeAll (mag rnd) none ins = some es ∧
      List.Forall₂ (fun v o => ∃ w, o = some w ∧ Near3 (slope 0.5 5 0.0001) v w) (ins.map (·.2)) (decodeAll (mag rnd) none es) :=
  C30_no_accumulation (oneStep_triple (by simp [f32Factories]) hr) ins (chained_true _)

/-- **C30** GPS readings, as long as GPS time does not go backwards -/
theorem C30_gps {rnd rnd64 : ℚ → ℚ} (hr : Rounding rnd u32 24) (hr64 : Rounding rnd64 u64 53) (ins : List (Bool × Gps)) (hc : Chained GpsChain (ins.map (·.2))) :
    ∃ es, encodeAll (gps rnd rnd64) none ins = some es ∧
      List.Forall₂ (fun v o => ∃ w, o = some w ∧ NearGps v w) (ins.map (·.2)) (decodeAll (gps rnd rnd64) none es) :=
  C30_no_accumulation (oneStep_gps hr hr64) ins hc

/-- a GPS reading at time `t` -/
def gpsAt (t : ℤ) : Gps := ⟨some t, some (43, -80), some 90, 8, some 1, some 1, some 1⟩

/-- **C30** (finding) When GPS time goes back by one second the delta wraps: the reading is reconstructed 256 s late, and every
following reading logged as a delta stays late (here 1000, 999, 1000, 999 come back as 1000, 1255, 1256, 1511); each further step back adds another 256 s. -/
theorem C30_gps_time_backwards :
    (encodeAll (gps id id) none [(false, gpsAt 1000), (false, gpsAt 999), (false, gpsAt 1000), (false, gpsAt 999)]).map
        (fun es => (decodeAll (gps id id) none es).map (fun o => o.bind (·.timestamp))) =
      some [some 1000, some 1255, some 1256, some 1511] := by
  decide +kernel

/-- the hypotheses are met: three ADC readings, the second one as a delta, the third one too far away -/
example : encodeAll (adc id) none [(false, 20), (false, 20.05), (false, 25)] = some [.full 20, .delta 95, .full 25] := by
  have h1 : (adc id).subtract 20.05 20 = some 95 := by decide +kernel
  have h2 : (adc id).addDelta 20 95 = some (20 + (0.2 * 95 / 127 - 0.1)) := by decide +kernel
  have h3 : (adc id).subtract 25 (20 + (0.2 * 95 / 127 - 0.1)) = none := by decide +kernel
  simp [encodeAll, push, h1, h2, h3]

end Verif.Props
