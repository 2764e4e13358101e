import Verif.Spec.Radio
import Verif.Lemmas.Codec
import Verif.Props.BitSlice
/-
Writing and reading the radio packets.
-/
namespace Verif.Vlp

open Verif.Bit

theorem codec_bool : Codec Prim.bool := good_bool.codec
theorem codec_uint (n : Nat) : Codec (Prim.uint n) := (good_uint n).codec
theorem codec_latlon : Codec (Prim.uint 64).pair := Codec.pair (codec_uint 64) (Nat.le_refl 64)

theorem bind_step {α β : Type} {o : Option α} {f : α → Option β} {a : α} {res : Option β} (h : o = some a) (h2 : f a = res) : (o >>= f) = res := by
  rw [h]; exact h2

/-- reading a field whose encoding is next -/
theorem readU_ok {m : Nat} {r : Reader} (hi : RInv m r) {α : Type} {p : Prim α} {v : α} {seg rest : List Bool} (hs : Seg p v seg)
    (hp : r.pend = seg ++ rest) : ∃ r', readU p r = some (v, r') ∧ RInv m r' ∧ r'.pend = rest := by
  have hl : p.len ≤ r.lenBits := by rw [← hi.pend_length, hp, List.length_append, hs.1]; omega
  obtain ⟨h1, h2, h3⟩ := read_inv hi p hl v (by rw [hp]; exact hs.2 rest)
  refine ⟨_, ?_, h2, ?_⟩
  · unfold readU; rw [h1]
  · rw [h3, hp, ← hs.1, List.drop_left]

set_option linter.unusedSimpArgs false in
/-- the bits of a telemetry packet: writing it succeeds and reading them gives the packet back -/
theorem telemetry_ok {n : Nat} {w : Writer} (hd : w.data.length = 8 * n) (hf : w.len + 269 ≤ 8 * n) (t : Telemetry) :
    ∃ w' seg, t.serialize w = some w' ∧ wbits w' = wbits w ++ seg ∧ w'.len = w.len + 269 ∧ w'.data.length = 8 * n ∧ seg.length = 269 ∧
      ∀ {m : Nat} {r : Reader} {rest : List Bool}, RInv m r → r.pend = seg ++ rest → Telemetry.deserialize r = some t := by
  obtain ⟨w1, s1, e1, g1, b1, l1, d1⟩ := write_ok codec_bool hd (by simp only [Prim.bool]; omega) t.unixClockReady
  obtain ⟨w2, s2, e2, g2, b2, l2, d2⟩ := write_ok (codec_uint 32) d1 (by rw [l1]; simp only [Prim.bool, Prim.uint, Prim.pair]; omega) t.timestamp
  obtain ⟨w3, s3, e3, g3, b3, l3, d3⟩ := write_ok (codec_uint 5) d2 (by rw [l2, l1]; simp only [Prim.bool, Prim.uint, Prim.pair]; omega) t.numOfFixSatellites
  obtain ⟨w4, s4, e4, g4, b4, l4, d4⟩ := write_ok codec_latlon d3 (by rw [l3, l2, l1]; simp only [Prim.bool, Prim.uint, Prim.pair]; omega) t.latLon
  obtain ⟨w5, s5, e5, g5, b5, l5, d5⟩ := write_ok (codec_uint 12) d4 (by rw [l4, l3, l2, l1]; simp only [Prim.bool, Prim.uint, Prim.pair]; omega) t.batteryV
  obtain ⟨w6, s6, e6, g6, b6, l6, d6⟩ := write_ok (codec_uint 11) d5 (by rw [l5, l4, l3, l2, l1]; simp only [Prim.bool, Prim.uint, Prim.pair]; omega) t.temperature
  obtain ⟨w7, s7, e7, g7, b7, l7, d7⟩ := write_ok codec_bool d6 (by rw [l6, l5, l4, l3, l2, l1]; simp only [Prim.bool, Prim.uint, Prim.pair]; omega) t.hardwareArmed
  obtain ⟨w8, s8, e8, g8, b8, l8, d8⟩ := write_ok codec_bool d7 (by rw [l7, l6, l5, l4, l3, l2, l1]; simp only [Prim.bool, Prim.uint, Prim.pair]; omega) t.softwareArmed
  obtain ⟨w9, s9, e9, g9, b9, l9, d9⟩ := write_ok (codec_uint 11) d8 (by rw [l8, l7, l6, l5, l4, l3, l2, l1]; simp only [Prim.bool, Prim.uint, Prim.pair]; omega) t.diskFreeSpace
  obtain ⟨w10, s10, e10, g10, b10, l10, d10⟩ := write_ok codec_bool d9 (by rw [l9, l8, l7, l6, l5, l4, l3, l2, l1]; simp only [Prim.bool, Prim.uint, Prim.pair]; omega) t.pyroMainContinuity
  obtain ⟨w11, s11, e11, g11, b11, l11, d11⟩ := write_ok codec_bool d10 (by rw [l10, l9, l8, l7, l6, l5, l4, l3, l2, l1]; simp only [Prim.bool, Prim.uint, Prim.pair]; omega) t.pyroDrogueContinuity
  obtain ⟨w12, s12, e12, g12, b12, l12, d12⟩ := write_ok (codec_uint 10) d11 (by rw [l11, l10, l9, l8, l7, l6, l5, l4, l3, l2, l1]; simp only [Prim.bool, Prim.uint, Prim.pair]; omega) t.altitude
  obtain ⟨w13, s13, e13, g13, b13, l13, d13⟩ := write_ok (codec_uint 10) d12 (by rw [l12, l11, l10, l9, l8, l7, l6, l5, l4, l3, l2, l1]; simp only [Prim.bool, Prim.uint, Prim.pair]; omega) t.maxAltitude
  obtain ⟨w14, s14, e14, g14, b14, l14, d14⟩ := write_ok (codec_uint 10) d13 (by rw [l13, l12, l11, l10, l9, l8, l7, l6, l5, l4, l3, l2, l1]; simp only [Prim.bool, Prim.uint, Prim.pair]; omega) t.backupMaxAltitude
  obtain ⟨w15, s15, e15, g15, b15, l15, d15⟩ := write_ok (codec_uint 9) d14 (by rw [l14, l13, l12, l11, l10, l9, l8, l7, l6, l5, l4, l3, l2, l1]; simp only [Prim.bool, Prim.uint, Prim.pair]; omega) t.airSpeed
  obtain ⟨w16, s16, e16, g16, b16, l16, d16⟩ := write_ok (codec_uint 9) d15 (by rw [l15, l14, l13, l12, l11, l10, l9, l8, l7, l6, l5, l4, l3, l2, l1]; simp only [Prim.bool, Prim.uint, Prim.pair]; omega) t.maxAirSpeed
  obtain ⟨w17, s17, e17, g17, b17, l17, d17⟩ := write_ok (codec_uint 9) d16 (by rw [l16, l15, l14, l13, l12, l11, l10, l9, l8, l7, l6, l5, l4, l3, l2, l1]; simp only [Prim.bool, Prim.uint, Prim.pair]; omega) t.backupMaxAirSpeed
  obtain ⟨w18, s18, e18, g18, b18, l18, d18⟩ := write_ok (codec_uint 3) d17 (by rw [l17, l16, l15, l14, l13, l12, l11, l10, l9, l8, l7, l6, l5, l4, l3, l2, l1]; simp only [Prim.bool, Prim.uint, Prim.pair]; omega) t.flightCoreState
  obtain ⟨w19, s19, e19, g19, b19, l19, d19⟩ := write_ok (codec_uint 3) d18 (by rw [l18, l17, l16, l15, l14, l13, l12, l11, l10, l9, l8, l7, l6, l5, l4, l3, l2, l1]; simp only [Prim.bool, Prim.uint, Prim.pair]; omega) t.backupFlightCoreState
  obtain ⟨w20, s20, e20, g20, b20, l20, d20⟩ := write_ok codec_bool d19 (by rw [l19, l18, l17, l16, l15, l14, l13, l12, l11, l10, l9, l8, l7, l6, l5, l4, l3, l2, l1]; simp only [Prim.bool, Prim.uint, Prim.pair]; omega) t.drogueDeployed
  obtain ⟨w21, s21, e21, g21, b21, l21, d21⟩ := write_ok codec_bool d20 (by rw [l20, l19, l18, l17, l16, l15, l14, l13, l12, l11, l10, l9, l8, l7, l6, l5, l4, l3, l2, l1]; simp only [Prim.bool, Prim.uint, Prim.pair]; omega) t.mainDeployed
  refine ⟨w21, s1 ++ (s2 ++ (s3 ++ (s4 ++ (s5 ++ (s6 ++ (s7 ++ (s8 ++ (s9 ++ (s10 ++ (s11 ++ (s12 ++ (s13 ++ (s14 ++ (s15 ++ (s16 ++ (s17 ++ (s18 ++ (s19 ++ (s20 ++ (s21)))))))))))))))))))), ?_, ?_, ?_, d21, ?_, ?_⟩
  · unfold Telemetry.serialize
    refine bind_step e1 ?_
    refine bind_step e2 ?_
    refine bind_step e3 ?_
    refine bind_step e4 ?_
    refine bind_step e5 ?_
    refine bind_step e6 ?_
    refine bind_step e7 ?_
    refine bind_step e8 ?_
    refine bind_step e9 ?_
    refine bind_step e10 ?_
    refine bind_step e11 ?_
    refine bind_step e12 ?_
    refine bind_step e13 ?_
    refine bind_step e14 ?_
    refine bind_step e15 ?_
    refine bind_step e16 ?_
    refine bind_step e17 ?_
    refine bind_step e18 ?_
    refine bind_step e19 ?_
    refine bind_step e20 ?_
    exact e21
  · rw [b21, b20, b19, b18, b17, b16, b15, b14, b13, b12, b11, b10, b9, b8, b7, b6, b5, b4, b3, b2, b1]; simp only [List.append_assoc]
  · rw [l21, l20, l19, l18, l17, l16, l15, l14, l13, l12, l11, l10, l9, l8, l7, l6, l5, l4, l3, l2, l1]; simp only [Prim.bool, Prim.uint, Prim.pair]
  · simp only [List.length_append, g1.1, g2.1, g3.1, g4.1, g5.1, g6.1, g7.1, g8.1, g9.1, g10.1, g11.1, g12.1, g13.1, g14.1, g15.1, g16.1, g17.1, g18.1, g19.1, g20.1, g21.1]; simp only [Prim.bool, Prim.uint, Prim.pair]
  · intro m r rest hi hp
    simp only [List.append_assoc] at hp
    obtain ⟨r1, q1, i1, p1⟩ := readU_ok hi g1 hp
    obtain ⟨r2, q2, i2, p2⟩ := readU_ok i1 g2 p1
    obtain ⟨r3, q3, i3, p3⟩ := readU_ok i2 g3 p2
    obtain ⟨r4, q4, i4, p4⟩ := readU_ok i3 g4 p3
    obtain ⟨r5, q5, i5, p5⟩ := readU_ok i4 g5 p4
    obtain ⟨r6, q6, i6, p6⟩ := readU_ok i5 g6 p5
    obtain ⟨r7, q7, i7, p7⟩ := readU_ok i6 g7 p6
    obtain ⟨r8, q8, i8, p8⟩ := readU_ok i7 g8 p7
    obtain ⟨r9, q9, i9, p9⟩ := readU_ok i8 g9 p8
    obtain ⟨r10, q10, i10, p10⟩ := readU_ok i9 g10 p9
    obtain ⟨r11, q11, i11, p11⟩ := readU_ok i10 g11 p10
    obtain ⟨r12, q12, i12, p12⟩ := readU_ok i11 g12 p11
    obtain ⟨r13, q13, i13, p13⟩ := readU_ok i12 g13 p12
    obtain ⟨r14, q14, i14, p14⟩ := readU_ok i13 g14 p13
    obtain ⟨r15, q15, i15, p15⟩ := readU_ok i14 g15 p14
    obtain ⟨r16, q16, i16, p16⟩ := readU_ok i15 g16 p15
    obtain ⟨r17, q17, i17, p17⟩ := readU_ok i16 g17 p16
    obtain ⟨r18, q18, i18, p18⟩ := readU_ok i17 g18 p17
    obtain ⟨r19, q19, i19, p19⟩ := readU_ok i18 g19 p18
    obtain ⟨r20, q20, i20, p20⟩ := readU_ok i19 g20 p19
    obtain ⟨r21, q21, i21, p21⟩ := readU_ok i20 g21 p20
    unfold Telemetry.deserialize
    refine bind_step q1 ?_
    refine bind_step q2 ?_
    refine bind_step q3 ?_
    refine bind_step q4 ?_
    refine bind_step q5 ?_
    refine bind_step q6 ?_
    refine bind_step q7 ?_
    refine bind_step q8 ?_
    refine bind_step q9 ?_
    refine bind_step q10 ?_
    refine bind_step q11 ?_
    refine bind_step q12 ?_
    refine bind_step q13 ?_
    refine bind_step q14 ?_
    refine bind_step q15 ?_
    refine bind_step q16 ?_
    refine bind_step q17 ?_
    refine bind_step q18 ?_
    refine bind_step q19 ?_
    refine bind_step q20 ?_
    refine bind_step q21 ?_
    rfl

/-- the packets of the form timestamp only -/
theorem ts_ok {n : Nat} {w : Writer} (hd : w.data.length = 8 * n) (hf : w.len + 64 ≤ 8 * n) (t : F64) :
    ∃ w' seg, w.write (Prim.uint 64) t = some w' ∧ wbits w' = wbits w ++ seg ∧ w'.len = w.len + 64 ∧ w'.data.length = 8 * n ∧
      ∀ {m : Nat} {r : Reader} {rest : List Bool}, RInv m r → r.pend = seg ++ rest → ∃ r', readU (Prim.uint 64) r = some (t, r') := by
  obtain ⟨w', s, e, g, b, l, d⟩ := write_ok (codec_uint 64) hd hf t
  refine ⟨w', s, e, b, l, d, ?_⟩
  intro m r rest hi hp
  obtain ⟨r', h, _, _⟩ := readU_ok hi g hp
  exact ⟨r', h⟩

/-- a timestamp and another field -/
theorem ts2_ok {n : Nat} {w : Writer} {α : Type} {p : Prim α} (hc : Codec p) (hd : w.data.length = 8 * n) (hf : w.len + (64 + p.len) ≤ 8 * n) (t : F64) (v : α) :
    ∃ w' seg, ((w.write (Prim.uint 64) t).bind fun w => w.write p v) = some w' ∧ wbits w' = wbits w ++ seg ∧ w'.len = w.len + (64 + p.len) ∧
      w'.data.length = 8 * n ∧
      ∀ {m : Nat} {r : Reader} {rest : List Bool}, RInv m r → r.pend = seg ++ rest →
        ∃ r' r'', readU (Prim.uint 64) r = some (t, r') ∧ readU p r' = some (v, r'') := by
  obtain ⟨w1, s1, e1, g1, b1, l1, d1⟩ := write_ok (codec_uint 64) hd (by simp only [Prim.uint]; omega) t
  obtain ⟨w2, s2, e2, g2, b2, l2, d2⟩ := write_ok hc d1 (by rw [l1]; simp only [Prim.uint]; omega) v
  refine ⟨w2, s1 ++ s2, by rw [e1]; exact e2, by rw [b2, b1, List.append_assoc], by rw [l2, l1, Nat.add_assoc]; rfl, d2, ?_⟩
  intro m r rest hi hp
  rw [List.append_assoc] at hp
  obtain ⟨r1, q1, i1, p1⟩ := readU_ok hi g1 hp
  obtain ⟨r2, q2, i2, p2⟩ := readU_ok i1 g2 p1
  exact ⟨r1, r2, q1, q2⟩

theorem pyro_u8 (p : Pyro) : Pyro.ofU8 p.toU8 = some p := by cases p <;> decide

/-- the bits of an uplink packet: writing it succeeds and reading them gives the packet back -/
theorem uplink_ok {n : Nat} {w : Writer} (hd : w.data.length = 8 * n) (hf : w.len + 72 ≤ 8 * n) (p : Uplink) :
    ∃ w' seg, p.serialize w = some w' ∧ wbits w' = wbits w ++ seg ∧ w'.len = w.len + Uplink.bitsOf p.tag ∧ w'.data.length = 8 * n ∧
      ∀ {m : Nat} {r : Reader} {rest : List Bool}, RInv m r → r.pend = seg ++ rest → Uplink.deserialize p.tag r = .ok p := by
  cases p with
  | verticalCalibration t =>
    obtain ⟨w', s, e, b, l, d, k⟩ := ts_ok hd (by omega) t
    refine ⟨w', s, e, b, l, d, fun hi hp => ?_⟩
    obtain ⟨r', h⟩ := k hi hp
    simp [Uplink.deserialize, Uplink.tag, h]
  | reset t =>
    obtain ⟨w', s, e, b, l, d, k⟩ := ts_ok hd (by omega) t
    refine ⟨w', s, e, b, l, d, fun hi hp => ?_⟩
    obtain ⟨r', h⟩ := k hi hp
    simp [Uplink.deserialize, Uplink.tag, h]
  | deleteLogs t =>
    obtain ⟨w', s, e, b, l, d, k⟩ := ts_ok hd (by omega) t
    refine ⟨w', s, e, b, l, d, fun hi hp => ?_⟩
    obtain ⟨r', h⟩ := k hi hp
    simp [Uplink.deserialize, Uplink.tag, h]
  | manualTrigger t =>
    obtain ⟨w', s, e, b, l, d, k⟩ := ts_ok hd (by omega) t
    refine ⟨w', s, e, b, l, d, fun hi hp => ?_⟩
    obtain ⟨r', h⟩ := k hi hp
    simp [Uplink.deserialize, Uplink.tag, h]
  | softArm t a =>
    obtain ⟨w', s, e, b, l, d, k⟩ := ts2_ok codec_bool hd (by simp only [Prim.bool]; omega) t a
    refine ⟨w', s, e, b, l, d, fun hi hp => ?_⟩
    obtain ⟨r', r'', h, h'⟩ := k hi hp
    simp [Uplink.deserialize, Uplink.tag, h, h']
  | lowPowerMode t a =>
    obtain ⟨w', s, e, b, l, d, k⟩ := ts2_ok codec_bool hd (by simp only [Prim.bool]; omega) t a
    refine ⟨w', s, e, b, l, d, fun hi hp => ?_⟩
    obtain ⟨r', r'', h, h'⟩ := k hi hp
    simp [Uplink.deserialize, Uplink.tag, h, h']
  | groundTestDeploy t p =>
    obtain ⟨w', s, e, b, l, d, k⟩ := ts2_ok (codec_uint 8) hd (by simp only [Prim.uint]; omega) t p.toU8
    refine ⟨w', s, e, b, l, d, fun hi hp => ?_⟩
    obtain ⟨r', r'', h, h'⟩ := k hi hp
    simp [Uplink.deserialize, Uplink.tag, h, h', pyro_u8]

/-- the bits of a downlink packet -/
theorem downlink_ok {n : Nat} {w : Writer} (hd : w.data.length = 8 * n) (hf : w.len + 269 ≤ 8 * n) (p : Downlink) :
    ∃ w' seg, p.serialize w = some w' ∧ wbits w' = wbits w ++ seg ∧ w'.len = w.len + Downlink.bitsOf p.tag ∧ w'.data.length = 8 * n ∧
      ∀ {m : Nat} {r : Reader} {rest : List Bool}, RInv m r → r.pend = seg ++ rest → Downlink.deserialize p.tag r = .ok p := by
  cases p with
  | ack t =>
    obtain ⟨w', s, e, b, l, d, k⟩ := ts_ok hd (by omega) t
    refine ⟨w', s, e, b, l, d, fun hi hp => ?_⟩
    obtain ⟨r', h⟩ := k hi hp
    simp [Downlink.deserialize, Downlink.tag, h]
  | telemetry t =>
    obtain ⟨w', s, e, b, l, d, _, k⟩ := telemetry_ok hd hf t
    refine ⟨w', s, e, b, l, d, fun hi hp => ?_⟩
    simp [Downlink.deserialize, Downlink.tag, k hi hp]

theorem allBytes_length (w : Writer) : w.allBytes.length = (w.len + 7) / 8 := bitsBytes_length _ _

/-- the length identity behind the split of a packet -/
theorem ecc_split (n : Nat) : eccFromTotal (n + eccFromData n) = eccFromData n := by
  unfold eccFromTotal eccFromData; omega

theorem frame_ok {x : Ext} (hx : x.Laws) {data : Bytes} (trailer : Bytes) (h : data.length + 1 + (data.length + 1) / 4 ≤ maxSize) :
    frame x data trailer = some (data ++ [crc8 (data ++ trailer)] ++ x.ecc ((data.length + 1) / 4) (data ++ [crc8 (data ++ trailer)])) := by
  unfold frame extend
  rw [if_pos (by simp only [List.length_nil]; omega)]
  simp only [List.nil_append]
  rw [if_pos (by simp only [List.length_cons, List.length_nil]; omega)]
  simp only
  rw [if_pos ?_]
  · rw [List.length_append, List.length_singleton]; rfl
  · rw [hx.ecc_len]; simp only [List.length_append, List.length_singleton, eccFromData]; omega

theorem unframe_ok {x : Ext} (hx : x.Laws) {data trailer : Bytes} (hl : data.length ≤ maxSize) {reader : Reader} (hr : reader.buffer.length = 8 * maxSize)
    {m : Bytes} (hm : m.length = data.length + 1 + (data.length + 1) / 4)
    (he : byteErrors (data ++ [crc8 (data ++ trailer)] ++ x.ecc ((data.length + 1) / 4) (data ++ [crc8 (data ++ trailer)])) m ≤ (data.length + 1) / 4 / 2)
    {n : Nat} {tag : BitVec n} {seg rest : List Bool} (hs : Seg (Prim.uint n) tag seg) (hb : bytesBits data = seg ++ rest) :
    ∃ r, unframe x reader n m trailer = .ok (tag, r) ∧ RInv maxSize r ∧ r.pend = rest := by
  have hm49 : maxSize = 49 := rfl
  have e1 : eccFromTotal m.length = (data.length + 1) / 4 := by rw [hm]; exact ecc_split (data.length + 1)
  have hc : x.correct (eccFromTotal m.length) m = some (data ++ [crc8 (data ++ trailer)]) := by
    rw [e1]
    refine hx.fixes _ _ _ ?_ ?_ he
    · rw [List.length_append, List.length_singleton]; omega
    · rw [List.length_append, List.length_singleton]; omega
  have hi0 : RInv maxSize (clearReader reader) := ⟨hr, Nat.le_refl 0, Nat.zero_le _, rfl⟩
  have hrep : ∃ r1, (clearReader reader).replenish data = some r1 := by
    unfold Reader.replenish
    have hl0 : (clearReader reader).lenBits = 0 := rfl
    have hb0 : (clearReader reader).buffer.length = 8 * maxSize := hr
    simp only [hl0, hb0]
    rw [if_neg (by omega)]
    exact ⟨_, rfl⟩
  obtain ⟨r1, hr1⟩ := hrep
  obtain ⟨i1, p1⟩ := replenish_inv hi0 hr1
  have hp0 : (clearReader reader).pend = [] := by
    unfold clearReader Reader.pend; simp only [Nat.sub_self, List.take_zero]
  rw [hp0, List.nil_append, hb] at p1
  obtain ⟨r2, q2, i2, p2⟩ := readU_ok i1 hs p1
  refine ⟨r2, ?_, i2, p2⟩
  unfold unframe
  simp only [hc]
  rw [if_neg (by rw [List.length_append, List.length_singleton]; omega)]
  rw [List.dropLast_concat, List.getLast?_concat]
  rw [Option.getD_some, if_pos rfl, hr1]
  simp only [q2]

theorem mapIdx_length {α β : Type} (f : Nat → α → β) (l : List α) : (l.mapIdx f).length = l.length := List.length_mapIdx

theorem process_length (x : Ext) (key nonce data : Bytes) : (x.process key nonce data).length = data.length := List.length_mapIdx

theorem process_process (x : Ext) (key nonce data : Bytes) : x.process key nonce (x.process key nonce data) = data := by
  unfold Ext.process
  rw [List.mapIdx_mapIdx]
  apply List.ext_getElem
  · rw [List.length_mapIdx]
  · intro i h1 h2
    rw [List.getElem_mapIdx]
    simp only [Function.comp_apply]
    rw [UInt8.xor_assoc, UInt8.xor_self, UInt8.xor_zero]

theorem errs_xor (f : Nat → UInt8) (a b : Bytes) :
    byteErrors (a.mapIdx fun i x => x ^^^ f i) (b.mapIdx fun i x => x ^^^ f i) = byteErrors a b := by
  induction a generalizing b f with
  | nil => cases b <;> rfl
  | cons y ys ih =>
    cases b with
    | nil => simp [byteErrors]
    | cons z zs =>
      simp only [List.mapIdx_cons]
      have h := ih (fun i => f (i + 1)) zs
      unfold byteErrors at h ⊢
      simp only [List.zip_cons_cons, List.countP_cons]
      rw [h]
      have hz : ((y ^^^ f 0) != (z ^^^ f 0)) = (y != z) := by
        rw [Bool.eq_iff_iff]
        simp only [bne_iff_ne, ne_eq]
        constructor
        · intro hn he; exact hn (by rw [he])
        · intro hn he; exact hn (by
            have := congrArg (· ^^^ f 0) he
            simpa only [UInt8.xor_assoc, UInt8.xor_self, UInt8.xor_zero] using this)
      rw [hz]

/-- encryption does not multiply byte errors -/
theorem process_errors (x : Ext) (key nonce a b : Bytes) : byteErrors (x.process key nonce a) (x.process key nonce b) = byteErrors a b := errs_xor _ a b

theorem byteErrors_self (a : Bytes) : byteErrors a a = 0 := by
  induction a with
  | nil => rfl
  | cons y ys ih => unfold byteErrors at ih ⊢; simp only [List.zip_cons_cons, List.countP_cons, ih, bne_self_eq_false, Bool.false_eq_true, if_false]

theorem nonce_const (now : Nat) : getNonce now = List.replicate 8 0x69 := rfl
theorem past_const (now air : Nat) : getPastNonce now air = [List.replicate 8 0x69] := rfl

theorem readU_uint {m : Nat} {r : Reader} (hi : RInv m r) {B : List Bool} {off : Nat} (n : Nat) (hp : r.pend = B.drop off) (h : off + n ≤ B.length) :
    ∃ r', readU (Prim.uint n) r = some (field B off n, r') ∧ RInv m r' ∧ r'.pend = B.drop (off + n) := by
  have hl : r.lenBits = B.length - off := by rw [← hi.pend_length, hp, List.length_drop]
  obtain ⟨h1, h2, h3⟩ := read_inv hi (Prim.uint n) (by rw [hl]; simp only [Prim.uint]; omega) (field B off n)
    (by rw [hp]; simp only [Prim.uint]; rw [if_neg (by rw [List.length_drop]; omega)]; rfl)
  refine ⟨_, ?_, h2, ?_⟩
  · unfold readU; rw [h1]
  · rw [h3, hp, List.drop_drop]; rfl

theorem readU_bool {m : Nat} {r : Reader} (hi : RInv m r) {B : List Bool} {off : Nat} (hp : r.pend = B.drop off) (h : off + 1 ≤ B.length) :
    ∃ r', readU Prim.bool r = some (flag B off, r') ∧ RInv m r' ∧ r'.pend = B.drop (off + 1) := by
  have hl : r.lenBits = B.length - off := by rw [← hi.pend_length, hp, List.length_drop]
  obtain ⟨h1, h2, h3⟩ := read_inv hi Prim.bool (by rw [hl]; simp only [Prim.bool]; omega) (flag B off)
    (by rw [hp]; simp only [Prim.bool, flag]; rw [List.head?_drop, List.getD_eq_getElem?_getD, List.getElem?_eq_getElem (by omega)]; rfl)
  refine ⟨_, ?_, h2, ?_⟩
  · unfold readU; rw [h1]
  · rw [h3, hp, List.drop_drop]; rfl

theorem readU_latlon {m : Nat} {r : Reader} (hi : RInv m r) {B : List Bool} {off : Nat} (hp : r.pend = B.drop off) (h : off + 128 ≤ B.length) :
    ∃ r', readU (Prim.uint 64).pair r = some ((field B off 64, field B (off + 64) 64), r') ∧ RInv m r' ∧ r'.pend = B.drop (off + 128) := by
  have hl : r.lenBits = B.length - off := by rw [← hi.pend_length, hp, List.length_drop]
  obtain ⟨h1, h2, h3⟩ := read_inv hi (Prim.uint 64).pair (by rw [hl]; simp only [Prim.pair]; omega) (field B off 64, field B (off + 64) 64)
    (by
      have hA : (Prim.uint 64).read ((B.drop off).take 64) = some (field B off 64) := by
        simp only [Prim.uint]
        rw [if_neg (by simp only [List.length_take, List.length_drop]; omega), List.take_take]; rfl
      have hB : (Prim.uint 64).read ((B.drop off).drop 64) = some (field B (off + 64) 64) := by
        simp only [Prim.uint]
        rw [if_neg (by simp only [List.length_drop]; omega), List.drop_drop]; rfl
      rw [hp]
      simp only [Prim.pair]
      rw [if_neg (show ¬ (B.drop off).length < (Prim.uint 64).len by simp only [List.length_drop, Prim.uint]; omega), show (Prim.uint 64).len = 64 from rfl, hA, hB])
  refine ⟨_, ?_, h2, ?_⟩
  · unfold readU; rw [h1]
  · rw [h3, hp, List.drop_drop]; rfl

/-- a field is only read when its bits are there -/
theorem readU_pos {m : Nat} {r r' : Reader} (hi : RInv m r) {α : Type} {p : Prim α} {v : α} (h : readU p r = some (v, r')) :
    RInv m r' ∧ r.lenBits = p.len + r'.lenBits := by
  unfold readU at h
  split at h
  · next v' r'' hr =>
    injection h with h
    injection h with h1 h2
    subst h2
    unfold Reader.read at hr
    split at hr
    · injection hr with hr; injection hr with h1 _; exact absurd h1 (by simp)
    · next hl =>
      split at hr
      · injection hr with hr; injection hr with h1 h2
        subst h2
        have := hi.order
        have hl2 : ¬ r.stop - r.start < p.len := hl
        refine ⟨⟨hi.len, by simp only; omega, hi.stop, hi.align⟩, ?_⟩
        simp only [Reader.lenBits]; omega
      · exact absurd hr (by simp)
  · exact absurd h (by simp)

theorem readU_short {r : Reader} {α : Type} {p : Prim α} (h : r.lenBits < p.len) : readU p r = none := by
  unfold readU Reader.read; rw [if_pos h]

theorem bind_inv {α β : Type} {o : Option α} {f : α → Option β} {b : β} (h : (o >>= f) = some b) : ∃ a, o = some a ∧ f a = some b := by
  cases o with
  | none => exact absurd h (by simp)
  | some a => exact ⟨a, rfl, h⟩

/-- a telemetry packet is only read when its bits are there -/
theorem telemetry_pos {m : Nat} {r : Reader} (hi : RInv m r) {t : Telemetry} (h : Telemetry.deserialize r = some t) : 269 ≤ r.lenBits := by
  unfold Telemetry.deserialize at h
  obtain ⟨⟨v1, r1⟩, e1, h⟩ := bind_inv h
  obtain ⟨i1, l1⟩ := readU_pos hi e1
  obtain ⟨⟨v2, r2⟩, e2, h⟩ := bind_inv h
  obtain ⟨i2, l2⟩ := readU_pos i1 e2
  obtain ⟨⟨v3, r3⟩, e3, h⟩ := bind_inv h
  obtain ⟨i3, l3⟩ := readU_pos i2 e3
  obtain ⟨⟨v4, r4⟩, e4, h⟩ := bind_inv h
  obtain ⟨i4, l4⟩ := readU_pos i3 e4
  obtain ⟨⟨v5, r5⟩, e5, h⟩ := bind_inv h
  obtain ⟨i5, l5⟩ := readU_pos i4 e5
  obtain ⟨⟨v6, r6⟩, e6, h⟩ := bind_inv h
  obtain ⟨i6, l6⟩ := readU_pos i5 e6
  obtain ⟨⟨v7, r7⟩, e7, h⟩ := bind_inv h
  obtain ⟨i7, l7⟩ := readU_pos i6 e7
  obtain ⟨⟨v8, r8⟩, e8, h⟩ := bind_inv h
  obtain ⟨i8, l8⟩ := readU_pos i7 e8
  obtain ⟨⟨v9, r9⟩, e9, h⟩ := bind_inv h
  obtain ⟨i9, l9⟩ := readU_pos i8 e9
  obtain ⟨⟨v10, r10⟩, e10, h⟩ := bind_inv h
  obtain ⟨i10, l10⟩ := readU_pos i9 e10
  obtain ⟨⟨v11, r11⟩, e11, h⟩ := bind_inv h
  obtain ⟨i11, l11⟩ := readU_pos i10 e11
  obtain ⟨⟨v12, r12⟩, e12, h⟩ := bind_inv h
  obtain ⟨i12, l12⟩ := readU_pos i11 e12
  obtain ⟨⟨v13, r13⟩, e13, h⟩ := bind_inv h
  obtain ⟨i13, l13⟩ := readU_pos i12 e13
  obtain ⟨⟨v14, r14⟩, e14, h⟩ := bind_inv h
  obtain ⟨i14, l14⟩ := readU_pos i13 e14
  obtain ⟨⟨v15, r15⟩, e15, h⟩ := bind_inv h
  obtain ⟨i15, l15⟩ := readU_pos i14 e15
  obtain ⟨⟨v16, r16⟩, e16, h⟩ := bind_inv h
  obtain ⟨i16, l16⟩ := readU_pos i15 e16
  obtain ⟨⟨v17, r17⟩, e17, h⟩ := bind_inv h
  obtain ⟨i17, l17⟩ := readU_pos i16 e17
  obtain ⟨⟨v18, r18⟩, e18, h⟩ := bind_inv h
  obtain ⟨i18, l18⟩ := readU_pos i17 e18
  obtain ⟨⟨v19, r19⟩, e19, h⟩ := bind_inv h
  obtain ⟨i19, l19⟩ := readU_pos i18 e19
  obtain ⟨⟨v20, r20⟩, e20, h⟩ := bind_inv h
  obtain ⟨i20, l20⟩ := readU_pos i19 e20
  obtain ⟨⟨v21, r21⟩, e21, _⟩ := bind_inv h
  obtain ⟨i21, l21⟩ := readU_pos i20 e21
  simp only [Prim.bool, Prim.uint, Prim.pair] at l1 l2 l3 l4 l5 l6 l7 l8 l9 l10 l11 l12 l13 l14 l15 l16 l17 l18 l19 l20 l21
  omega

theorem telemetry_parse {m : Nat} {r : Reader} (hi : RInv m r) {B : List Bool} (hp : r.pend = B.drop 1) (h : 270 ≤ B.length) :
    Telemetry.deserialize r = some (parseTelemetry B) := by
  obtain ⟨r1, q1, i1, p1⟩ := readU_bool hi hp (by omega)
  obtain ⟨r2, q2, i2, p2⟩ := readU_uint i1 32 p1 (by omega)
  obtain ⟨r3, q3, i3, p3⟩ := readU_uint i2 5 p2 (by omega)
  obtain ⟨r4, q4, i4, p4⟩ := readU_latlon i3 p3 (by omega)
  obtain ⟨r5, q5, i5, p5⟩ := readU_uint i4 12 p4 (by omega)
  obtain ⟨r6, q6, i6, p6⟩ := readU_uint i5 11 p5 (by omega)
  obtain ⟨r7, q7, i7, p7⟩ := readU_bool i6 p6 (by omega)
  obtain ⟨r8, q8, i8, p8⟩ := readU_bool i7 p7 (by omega)
  obtain ⟨r9, q9, i9, p9⟩ := readU_uint i8 11 p8 (by omega)
  obtain ⟨r10, q10, i10, p10⟩ := readU_bool i9 p9 (by omega)
  obtain ⟨r11, q11, i11, p11⟩ := readU_bool i10 p10 (by omega)
  obtain ⟨r12, q12, i12, p12⟩ := readU_uint i11 10 p11 (by omega)
  obtain ⟨r13, q13, i13, p13⟩ := readU_uint i12 10 p12 (by omega)
  obtain ⟨r14, q14, i14, p14⟩ := readU_uint i13 10 p13 (by omega)
  obtain ⟨r15, q15, i15, p15⟩ := readU_uint i14 9 p14 (by omega)
  obtain ⟨r16, q16, i16, p16⟩ := readU_uint i15 9 p15 (by omega)
  obtain ⟨r17, q17, i17, p17⟩ := readU_uint i16 9 p16 (by omega)
  obtain ⟨r18, q18, i18, p18⟩ := readU_uint i17 3 p17 (by omega)
  obtain ⟨r19, q19, i19, p19⟩ := readU_uint i18 3 p18 (by omega)
  obtain ⟨r20, q20, i20, p20⟩ := readU_bool i19 p19 (by omega)
  obtain ⟨r21, q21, i21, p21⟩ := readU_bool i20 p20 (by omega)
  unfold Telemetry.deserialize
  refine bind_step q1 ?_
  refine bind_step q2 ?_
  refine bind_step q3 ?_
  refine bind_step q4 ?_
  refine bind_step q5 ?_
  refine bind_step q6 ?_
  refine bind_step q7 ?_
  refine bind_step q8 ?_
  refine bind_step q9 ?_
  refine bind_step q10 ?_
  refine bind_step q11 ?_
  refine bind_step q12 ?_
  refine bind_step q13 ?_
  refine bind_step q14 ?_
  refine bind_step q15 ?_
  refine bind_step q16 ?_
  refine bind_step q17 ?_
  refine bind_step q18 ?_
  refine bind_step q19 ?_
  refine bind_step q20 ?_
  refine bind_step q21 ?_
  rfl
/-- reading an uplink packet depends only on the bits, and is as laid out in `parseUplink` -/
theorem uplink_parse {m : Nat} {r : Reader} (hi : RInv m r) {B : List Bool} (hp : r.pend = B.drop 4) :
    Uplink.deserialize (field B 0 4) r = parseUplink B := by
  have hl : r.lenBits = B.length - 4 := by rw [← hi.pend_length, hp, List.length_drop]
  have hcase : ∀ t : BitVec 4, t.toNat ≤ 6 → t = 0#4 ∨ t = 1#4 ∨ t = 2#4 ∨ t = 3#4 ∨ t = 4#4 ∨ t = 5#4 ∨ t = 6#4 := by decide
  unfold parseUplink
  simp only
  generalize field B 0 4 = tag
  by_cases h6 : 6 < tag.toNat
  · rw [if_pos h6]
    have hne : ∀ t : BitVec 4, 6 < t.toNat → t ≠ 0#4 ∧ t ≠ 1#4 ∧ t ≠ 2#4 ∧ t ≠ 3#4 ∧ t ≠ 4#4 ∧ t ≠ 5#4 ∧ t ≠ 6#4 := by decide
    obtain ⟨h0, h1, h2, h3, h4, h5, h6'⟩ := hne tag h6
    unfold Uplink.deserialize
    rw [if_neg h0, if_neg h1, if_neg h2, if_neg h3, if_neg h4, if_neg h5, if_neg h6']
  · rw [if_neg h6]
    by_cases h64 : B.length < 4 + 64
    · have hs : readU (Prim.uint 64) r = none := readU_short (by rw [hl]; simp only [Prim.uint]; omega)
      have hb : 64 ≤ Uplink.bitsOf tag := by
        unfold Uplink.bitsOf
        by_cases h : tag = 1#4 ∨ tag = 2#4
        · rw [if_pos h]; omega
        · rw [if_neg h]
          by_cases h' : tag = 5#4
          · rw [if_pos h']; omega
          · rw [if_neg h']; omega
      rw [if_pos (by omega)]
      rcases hcase tag (by omega) with h | h | h | h | h | h | h <;> subst h <;> simp [Uplink.deserialize, hs]
    · obtain ⟨r1, q1, i1, p1⟩ := readU_uint hi 64 hp (by omega)
      have hl1 : r1.lenBits = B.length - 68 := by rw [← i1.pend_length, p1, List.length_drop]
      rcases hcase tag (by omega) with h | h | h | h | h | h | h <;> subst h
      · simp [Uplink.deserialize, q1, Uplink.bitsOf, h64]
      · by_cases h1 : B.length < 4 + 65
        · have hs : readU Prim.bool r1 = none := readU_short (by rw [hl1]; simp only [Prim.bool]; omega)
          simp [Uplink.deserialize, q1, hs, Uplink.bitsOf, h1]
        · obtain ⟨r2, q2, _, _⟩ := readU_bool i1 p1 (by omega)
          simp [Uplink.deserialize, q1, q2, Uplink.bitsOf, h1]
      · by_cases h1 : B.length < 4 + 65
        · have hs : readU Prim.bool r1 = none := readU_short (by rw [hl1]; simp only [Prim.bool]; omega)
          simp [Uplink.deserialize, q1, hs, Uplink.bitsOf, h1]
        · obtain ⟨r2, q2, _, _⟩ := readU_bool i1 p1 (by omega)
          simp [Uplink.deserialize, q1, q2, Uplink.bitsOf, h1]
      · simp [Uplink.deserialize, q1, Uplink.bitsOf, h64]
      · simp [Uplink.deserialize, q1, Uplink.bitsOf, h64]
      · by_cases h1 : B.length < 4 + 72
        · have hs : readU (Prim.uint 8) r1 = none := readU_short (by rw [hl1]; simp only [Prim.uint]; omega)
          simp [Uplink.deserialize, q1, hs, Uplink.bitsOf, h1]
        · obtain ⟨r2, q2, _, _⟩ := readU_uint i1 8 p1 (by omega)
          have e68 : 4 + 64 = 68 := rfl
          rw [e68] at q2
          simp only [Uplink.deserialize, q1, q2]
          generalize field B 68 8 = b
          have hpy : ∀ b : BitVec 8, (b = 1#8 ∧ b.toNat = 1) ∨ (b = 2#8 ∧ b.toNat = 2) ∨ (b = 3#8 ∧ b.toNat = 3) ∨
              (Pyro.ofU8 b = none ∧ b.toNat ≠ 1 ∧ b.toNat ≠ 2 ∧ b.toNat ≠ 3) := by decide
          rcases hpy b with ⟨h, h'⟩ | ⟨h, h'⟩ | ⟨h, h'⟩ | ⟨h, h1', h2', h3'⟩
          · rw [h]; simp [Uplink.bitsOf, h1, Pyro.ofU8]
          · rw [h]; simp [Uplink.bitsOf, h1, Pyro.ofU8]
          · rw [h]; simp [Uplink.bitsOf, h1, Pyro.ofU8]
          · rw [h]; simp [Uplink.bitsOf, h1]
      · simp [Uplink.deserialize, q1, Uplink.bitsOf, h64]

theorem downlink_parse {m : Nat} {r : Reader} (hi : RInv m r) {B : List Bool} (hB : 0 < B.length) (hp : r.pend = B.drop 1) :
    Downlink.deserialize (field B 0 1) r = parseDownlink B := by
  have hl : r.lenBits = B.length - 1 := by rw [← hi.pend_length, hp, List.length_drop]
  have hf : field B 0 1 = 0#1 ↔ flag B 0 = false := by
    cases B with
    | nil => exact absurd hB (by simp)
    | cons b bs => cases b <;> simp [field, flag, leNat]
  unfold parseDownlink Downlink.deserialize
  by_cases h0 : field B 0 1 = 0#1
  · rw [if_pos h0, hf.mp h0]
    simp only [Bool.false_eq_true, if_false]
    by_cases h : B.length < 65
    · rw [readU_short (by rw [hl]; simp only [Prim.uint]; omega), if_pos h]
    · obtain ⟨r1, q1, _, _⟩ := readU_uint hi 64 hp (by omega)
      rw [q1, if_neg h]
  · have h1 : flag B 0 = true := by
      cases hx : flag B 0 with
      | true => rfl
      | false => exact absurd (hf.mpr hx) h0
    rw [if_neg h0, if_pos h1]
    by_cases h : B.length < 270
    · rw [if_pos h]
      cases ht : Telemetry.deserialize r with
      | none => rfl
      | some t => have := telemetry_pos hi ht; omega
    · rw [telemetry_parse hi hp (by omega), if_neg h]

/-- error correction and checksum of any received byte string -/
theorem unframe_spec {x : Ext} (hx : x.Laws) {reader : Reader} (hr : reader.buffer.length = 8 * maxSize) {buf trailer : Bytes} (h8 : 8 < buf.length)
    (h49 : buf.length ≤ maxSize) (n : Nat) (hn : n ≤ 8) :
    (x.correct (eccFromTotal buf.length) buf = none ∧ unframe x reader n buf trailer = .err) ∨
    ∃ d, x.correct (eccFromTotal buf.length) buf = some d ∧ d ≠ [] ∧ 1 ≤ d.dropLast.length ∧
      ((crc8 (d.dropLast ++ trailer) ≠ d.getLast?.getD 0 ∧ unframe x reader n buf trailer = .err) ∨
       (crc8 (d.dropLast ++ trailer) = d.getLast?.getD 0 ∧
        ∃ r, unframe x reader n buf trailer = .ok (field (bytesBits d.dropLast) 0 n, r) ∧ RInv maxSize r ∧ r.pend = (bytesBits d.dropLast).drop n)) := by
  cases hc : x.correct (eccFromTotal buf.length) buf with
  | none => exact .inl ⟨rfl, by unfold unframe; rw [hc]⟩
  | some d =>
    right
    have hl := hx.correct_len _ _ _ hc
    have hl2 : 8 ≤ d.length := by unfold eccFromTotal at hl; omega
    have hdl : d.dropLast.length = d.length - 1 := List.length_dropLast
    refine ⟨d, rfl, by intro h; rw [h] at hl2; simp at hl2, by omega, ?_⟩
    by_cases hcrc : crc8 (d.dropLast ++ trailer) = d.getLast?.getD 0
    · right
      refine ⟨hcrc, ?_⟩
      have hi0 : RInv maxSize (clearReader reader) := ⟨hr, Nat.le_refl 0, Nat.zero_le _, rfl⟩
      have hrep : ∃ r1, (clearReader reader).replenish d.dropLast = some r1 := by
        unfold Reader.replenish
        have hl0 : (clearReader reader).lenBits = 0 := rfl
        have hb0 : (clearReader reader).buffer.length = 8 * maxSize := hr
        simp only [hl0, hb0]
        rw [if_neg (by omega)]
        exact ⟨_, rfl⟩
      obtain ⟨r1, hr1⟩ := hrep
      obtain ⟨i1, p1⟩ := replenish_inv hi0 hr1
      have hp0 : (clearReader reader).pend = [] := by
        unfold clearReader Reader.pend; simp only [Nat.sub_self, List.take_zero]
      rw [hp0, List.nil_append] at p1
      have p1' : r1.pend = (bytesBits d.dropLast).drop 0 := by rw [p1, List.drop_zero]
      obtain ⟨r2, q2, i2, p2⟩ := readU_uint i1 n p1' (by rw [bytesBits_length]; omega)
      refine ⟨r2, ?_, i2, by rw [p2, Nat.zero_add]⟩
      unfold unframe
      simp only [hc]
      rw [if_neg (by omega), if_pos hcrc, hr1]
      simp only [q2]
    · left
      refine ⟨hcrc, ?_⟩
      unfold unframe
      simp only [hc]
      rw [if_neg (by omega), if_neg hcrc]

end Verif.Vlp
