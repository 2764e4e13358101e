import Verif.Lemmas.Vlp
import Verif.Lemmas.Mds
/-
C35 radio packet framing, C36 malformed radio packets, C68 replayed commands.
-/
namespace Verif.Props

open Verif.Vlp Verif.Bit

/-! ### builders -/

theorem new_keys (x : Ext) (key : Bytes) :
    (Builder.new x key).uplinkKey = key ∧ (Builder.new x key).downlinkKey = x.process key (List.replicate 8 0) (List.replicate 32 0) := by
  simp only [Builder.new, and_self]

theorem new_writer (x : Ext) (key : Bytes) : (Builder.new x key).writer.data.length = 8 * maxSize := by
  unfold Builder.new Writer.new; simp only [List.length_replicate]

theorem new_reader (x : Ext) (key : Bytes) : (Builder.new x key).reader.buffer.length = 8 * maxSize := by
  unfold Builder.new Reader.new; simp only [List.length_replicate]

/-- what every reachable builder has in common -/
theorem radio_reach {x : Ext} {key : Bytes} {b : Builder} (h : Reach x key b) :
    b.uplinkKey = key ∧ b.downlinkKey = x.process key (List.replicate 8 0) (List.replicate 32 0) ∧ b.writer.data.length = 8 * maxSize ∧
      b.reader.buffer.length = 8 * maxSize := by
  induction h with
  | new => exact ⟨(new_keys x key).1, (new_keys x key).2, new_writer x key, new_reader x key⟩
  | @up b now p _ ih =>
    obtain ⟨h1, h2, h3, h4⟩ := ih
    have hd : b.writer.clear.data.length = 8 * maxSize := h3
    obtain ⟨w1, s1, e1, g1, b1, l1, d1⟩ := write_ok (codec_uint 4) hd (by simp only [Writer.clear, Prim.uint, maxSize]; omega) p.tag
    have hl1 : w1.len = 4 := by rw [l1]; rfl
    obtain ⟨w2, s2, e2, b2, l2, d2, _⟩ := uplink_ok d1 (by rw [hl1]; simp only [maxSize]; omega) p
    have e : (b.writer.clear.write (Prim.uint 4) p.tag).bind p.serialize = some w2 := by rw [e1]; exact e2
    unfold Builder.serializeUplink
    simp only [e]
    split <;> exact ⟨h1, h2, d2, h4⟩
  | @down b now p _ ih =>
    obtain ⟨h1, h2, h3, h4⟩ := ih
    have hd : b.writer.clear.data.length = 8 * maxSize := h3
    obtain ⟨w1, s1, e1, g1, b1, l1, d1⟩ := write_ok (codec_uint 1) hd (by simp only [Writer.clear, Prim.uint, maxSize]; omega) p.tag
    have hl1 : w1.len = 1 := by rw [l1]; rfl
    obtain ⟨w2, s2, e2, b2, l2, d2, _⟩ := downlink_ok d1 (by rw [hl1]; simp only [maxSize]; omega) p
    have e : (b.writer.clear.write (Prim.uint 1) p.tag).bind p.serialize = some w2 := by rw [e1]; exact e2
    unfold Builder.serializeDownlink
    simp only [e]
    split <;> exact ⟨h1, h2, d2, h4⟩
  | received r _ hr ih => exact ⟨ih.1, ih.2.1, ih.2.2.1, hr⟩

/-! ### C35 -/

/-- C35: the receiver splits a packet as the sender joined it, for every data length -/
theorem C35_split (n : Nat) : eccFromTotal (n + eccFromData n) = eccFromData n := ecc_split n

/-- number of bytes of an uplink packet on the air -/
def uplinkSize : Uplink → Nat
  | .groundTestDeploy _ _ => 13
  | _ => 12

/-- number of bytes of a downlink packet on the air -/
def downlinkSize : Downlink → Nat
  | .ack _ => 12
  | .telemetry _ => 43

theorem uplinkBits (p : Uplink) : (4 + Uplink.bitsOf p.tag + 7) / 8 + 1 + ((4 + Uplink.bitsOf p.tag + 7) / 8 + 1) / 4 = uplinkSize p := by
  cases p <;> simp [Uplink.bitsOf, Uplink.tag, uplinkSize]

theorem downlinkBits (p : Downlink) : (1 + Downlink.bitsOf p.tag + 7) / 8 + 1 + ((1 + Downlink.bitsOf p.tag + 7) / 8 + 1) / 4 = downlinkSize p := by
  cases p <;> simp [Downlink.bitsOf, Downlink.tag, downlinkSize]

theorem uplinkEcc (p : Uplink) : ((4 + Uplink.bitsOf p.tag + 7) / 8 + 1) / 4 = 2 := by cases p <;> simp [Uplink.bitsOf, Uplink.tag]

theorem downlinkEcc (p : Downlink) : ((1 + Downlink.bitsOf p.tag + 7) / 8 + 1) / 4 = downlinkSize p / 5 := by cases p <;> simp [Downlink.bitsOf, Downlink.tag, downlinkSize]

/-- C35, uplink: whatever both sides did before, serializing a command succeeds; it has 12 or 13 bytes; and the receiver with the same key gets exactly this
command, at any time, even if one byte was changed on the way -/
theorem C35_uplink {x : Ext} (hx : x.Laws) {key : Bytes} {snd rcv : Builder} (hs : Reach x key snd) (hr : Reach x key rcv) (now : Nat) (p : Uplink) :
    ∃ buf, (snd.serializeUplink x now p).1 = .ok buf ∧ buf.length = uplinkSize p ∧ buf.length ≤ maxSize ∧
      ∀ (got : Bytes) (later airTime : Nat), got.length = buf.length → byteErrors buf got ≤ 1 → rcv.deserializeUplink x later airTime got = .ok p := by
  obtain ⟨s1, _, s3, _⟩ := radio_reach hs
  obtain ⟨r1, _, _, r4⟩ := radio_reach hr
  have hd : snd.writer.clear.data.length = 8 * maxSize := s3
  obtain ⟨w1, g1, e1, k1, b1, l1, d1⟩ := write_ok (codec_uint 4) hd (by simp only [Writer.clear, Prim.uint, maxSize]; omega) p.tag
  have hl1 : w1.len = 4 := by rw [l1]; rfl
  obtain ⟨w2, g2, e2, b2, l2, d2, rd⟩ := uplink_ok d1 (by rw [hl1]; simp only [maxSize]; omega) p
  have e : (snd.writer.clear.write (Prim.uint 4) p.tag).bind p.serialize = some w2 := by rw [e1]; exact e2
  have hlen : w2.allBytes.length = (4 + Uplink.bitsOf p.tag + 7) / 8 := by rw [allBytes_length, l2, hl1]
  have hsz := uplinkBits p
  have hecc := uplinkEcc p
  have hsm : uplinkSize p ≤ 13 := by cases p <;> simp [uplinkSize]
  have hlg : 8 < uplinkSize p := by cases p <;> simp [uplinkSize]
  have hfr := frame_ok hx (data := w2.allBytes) [] (by rw [hlen, hsz]; simp only [maxSize]; omega)
  obtain ⟨pad, hpad, _, _⟩ := all_ok d2 (by rw [l2, hl1]; simp only [maxSize]; omega)
  have hw : wbits w2 = g1 ++ g2 := by
    rw [b2, b1]
    have : wbits snd.writer.clear = [] := by unfold wbits Writer.clear; simp only [List.take_zero]
    rw [this, List.nil_append]
  rw [hw, List.append_assoc] at hpad
  refine ⟨x.process snd.uplinkKey (getNonce now) (w2.allBytes ++ [crc8 (w2.allBytes ++ [])] ++ x.ecc ((w2.allBytes.length + 1) / 4) (w2.allBytes ++ [crc8 (w2.allBytes ++ [])])), ?_, ?_, ?_, ?_⟩
  · unfold Builder.serializeUplink
    simp only [e, hfr]
  · rw [process_length, List.length_append, List.length_append, List.length_singleton, hx.ecc_len, hlen, hsz]
  · rw [process_length, List.length_append, List.length_append, List.length_singleton, hx.ecc_len, hlen, hsz]; simp only [maxSize]; omega
  · intro got later air hgl hge
    rw [process_length, List.length_append, List.length_append, List.length_singleton, hx.ecc_len] at hgl
    have hgl' : got.length = uplinkSize p := by rw [hgl, hlen, hsz]
    unfold Builder.deserializeUplink
    rw [if_neg (by omega), past_const]
    unfold uplinkLoop
    rw [r1]
    rw [s1, nonce_const] at hge
    have hpe := process_errors x key (List.replicate 8 0x69)
      (x.process key (List.replicate 8 0x69) (w2.allBytes ++ [crc8 (w2.allBytes ++ [])] ++ x.ecc ((w2.allBytes.length + 1) / 4) (w2.allBytes ++ [crc8 (w2.allBytes ++ [])]))) got
    rw [process_process] at hpe
    obtain ⟨r, hu, hi, hp⟩ := unframe_ok hx (data := w2.allBytes) (trailer := []) (by rw [hlen]; simp only [maxSize]; omega) r4
      (m := x.process key (List.replicate 8 0x69) got) (by rw [process_length, hgl]) (by rw [hpe, hlen, hecc] ; rw [hlen, hecc] at hge; exact hge) k1 hpad
    rw [hu]
    simp only
    rw [rd hi hp]

/-- C35, downlink: as for the uplink; an acknowledgement has 12 bytes, a telemetry packet 43; one byte out of ten may be changed on the way
(1 of an acknowledgement, 4 of a telemetry packet) -/
theorem C35_downlink {x : Ext} (hx : x.Laws) {key : Bytes} {snd rcv : Builder} (hs : Reach x key snd) (hr : Reach x key rcv) (now : Nat) (p : Downlink) :
    ∃ buf, (snd.serializeDownlink x now p).1 = .ok buf ∧ buf.length = downlinkSize p ∧ buf.length ≤ maxSize ∧
      ∀ (got : Bytes) (later airTime : Nat), got.length = buf.length → byteErrors buf got ≤ buf.length / 10 → rcv.deserializeDownlink x later airTime got = .ok p := by
  obtain ⟨_, s2, s3, _⟩ := radio_reach hs
  obtain ⟨_, r2, _, r4⟩ := radio_reach hr
  have hd : snd.writer.clear.data.length = 8 * maxSize := s3
  obtain ⟨w1, g1, e1, k1, b1, l1, d1⟩ := write_ok (codec_uint 1) hd (by simp only [Writer.clear, Prim.uint, maxSize]; omega) p.tag
  have hl1 : w1.len = 1 := by rw [l1]; rfl
  obtain ⟨w2, g2, e2, b2, l2, d2, rd⟩ := downlink_ok d1 (by rw [hl1]; simp only [maxSize]; omega) p
  have e : (snd.writer.clear.write (Prim.uint 1) p.tag).bind p.serialize = some w2 := by rw [e1]; exact e2
  have hlen : w2.allBytes.length = (1 + Downlink.bitsOf p.tag + 7) / 8 := by rw [allBytes_length, l2, hl1]
  have hsz := downlinkBits p
  have hecc := downlinkEcc p
  have hsm : downlinkSize p ≤ 43 := by cases p <;> simp [downlinkSize]
  have hlg : 8 < downlinkSize p := by cases p <;> simp [downlinkSize]
  generalize htr : x.process key (List.replicate 8 0) (List.replicate 32 0) ++ List.replicate 8 0x69 = tr
  have hfr := frame_ok hx (data := w2.allBytes) tr (by rw [hlen, hsz]; simp only [maxSize]; omega)
  obtain ⟨pad, hpad, _, _⟩ := all_ok d2 (by rw [l2, hl1]; simp only [maxSize]; omega)
  have hw : wbits w2 = g1 ++ g2 := by
    rw [b2, b1]
    have : wbits snd.writer.clear = [] := by unfold wbits Writer.clear; simp only [List.take_zero]
    rw [this, List.nil_append]
  rw [hw, List.append_assoc] at hpad
  refine ⟨w2.allBytes ++ [crc8 (w2.allBytes ++ tr)] ++ x.ecc ((w2.allBytes.length + 1) / 4) (w2.allBytes ++ [crc8 (w2.allBytes ++ tr)]), ?_, ?_, ?_, ?_⟩
  · unfold Builder.serializeDownlink
    simp only [e, nonce_const, s2, htr, hfr]
  · rw [List.length_append, List.length_append, List.length_singleton, hx.ecc_len, hlen, hsz]
  · rw [List.length_append, List.length_append, List.length_singleton, hx.ecc_len, hlen, hsz]; simp only [maxSize]; omega
  · intro got later air hgl hge
    rw [List.length_append, List.length_append, List.length_singleton, hx.ecc_len] at hgl
    rw [List.length_append, List.length_append, List.length_singleton, hx.ecc_len] at hge
    have hgl' : got.length = downlinkSize p := by rw [hgl, hlen, hsz]
    unfold Builder.deserializeDownlink
    rw [if_neg (by omega), past_const]
    unfold downlinkLoop
    rw [r2, htr]
    obtain ⟨r, hu, hi, hp⟩ := unframe_ok hx (data := w2.allBytes) (trailer := tr) (by rw [hlen]; simp only [maxSize]; omega) r4
      (m := got) hgl (by
        have : (w2.allBytes.length + 1 + (w2.allBytes.length + 1) / 4) / 10 = (w2.allBytes.length + 1) / 4 / 2 := by
          rw [hlen, hsz, hecc]; omega
        rw [← this]; exact hge) k1 hpad
    rw [hu]
    simp only
    rw [rd hi hp]

/-! ### C36 -/

/-- what a received uplink packet turns into -/
theorem uplink_eq {x : Ext} (hx : x.Laws) {key : Bytes} {b : Builder} (hb : Reach x key b) (now air : Nat) (buf : Bytes) (h49 : buf.length ≤ maxSize) :
    b.deserializeUplink x now air buf =
      if buf.length ≤ 8 then .err
      else match x.correct (buf.length / 5) (x.process key (List.replicate 8 0x69) buf) with
        | none => .err
        | some d => if crc8 d.dropLast = d.getLast?.getD 0 then parseUplink (bytesBits d.dropLast) else .err := by
  obtain ⟨r1, _, _, r4⟩ := radio_reach hb
  unfold Builder.deserializeUplink
  by_cases h8 : buf.length ≤ 8
  · rw [if_pos h8, if_pos h8]
  · rw [if_neg h8, if_neg h8, past_const]
    unfold uplinkLoop
    rw [r1]
    have hl := process_length x key (List.replicate 8 0x69) buf
    generalize hpb : x.process key (List.replicate 8 0x69) buf = pb at hl ⊢
    have he : eccFromTotal pb.length = buf.length / 5 := by rw [hl]; rfl
    rcases unframe_spec hx r4 (buf := pb) (trailer := []) (by omega) (by omega) 4 (by omega) with ⟨h1, h2⟩ | ⟨d, h1, hne, hlen, h2⟩
    · rw [he] at h1
      rw [h1, h2]
      simp only [uplinkLoop]
    · rw [he] at h1
      rw [h1]
      simp only
      rw [List.append_nil] at h2
      rcases h2 with ⟨hc, h2⟩ | ⟨hc, r, h2, hi, hp⟩
      · rw [if_neg hc, h2]
        simp only [uplinkLoop]
      · rw [if_pos hc, h2]
        simp only [uplinkLoop]
        rw [uplink_parse hi hp]
        cases parseUplink (bytesBits d.dropLast) <;> rfl

/-- what a received downlink packet turns into -/
theorem downlink_eq {x : Ext} (hx : x.Laws) {key : Bytes} {b : Builder} (hb : Reach x key b) (now air : Nat) (buf : Bytes) (h49 : buf.length ≤ maxSize) :
    b.deserializeDownlink x now air buf =
      if buf.length ≤ 8 then .err
      else match x.correct (buf.length / 5) buf with
        | none => .err
        | some d =>
          if crc8 (d.dropLast ++ (x.process key (List.replicate 8 0) (List.replicate 32 0) ++ List.replicate 8 0x69)) = d.getLast?.getD 0 then
            parseDownlink (bytesBits d.dropLast)
          else .err := by
  obtain ⟨_, r2, _, r4⟩ := radio_reach hb
  unfold Builder.deserializeDownlink
  by_cases h8 : buf.length ≤ 8
  · rw [if_pos h8, if_pos h8]
  · rw [if_neg h8, if_neg h8, past_const]
    unfold downlinkLoop
    rw [r2]
    generalize x.process key (List.replicate 8 0) (List.replicate 32 0) ++ List.replicate 8 0x69 = tr
    have he : eccFromTotal buf.length = buf.length / 5 := rfl
    rcases unframe_spec hx r4 (buf := buf) (trailer := tr) (by omega) (by omega) 1 (by omega) with ⟨h1, h2⟩ | ⟨d, h1, hne, hlen, h2⟩
    · rw [he] at h1
      rw [h1, h2]
      simp only [downlinkLoop]
    · rw [he] at h1
      rw [h1]
      simp only
      rcases h2 with ⟨hc, h2⟩ | ⟨hc, r, h2, hi, hp⟩
      · rw [if_neg hc, h2]
        simp only [downlinkLoop]
      · rw [if_pos hc, h2]
        simp only [downlinkLoop]
        rw [downlink_parse hi (by rw [bytesBits_length]; omega) hp]
        cases parseDownlink (bytesBits d.dropLast) <;> rfl

/-- the receiver of a command panics exactly for these bits -/
theorem parseUplink_panic (bits : List Bool) : parseUplink bits = .panic ↔
    (field bits 0 4).toNat ≤ 6 ∧ (bits.length < 4 + Uplink.bitsOf (field bits 0 4) ∨
      (field bits 0 4).toNat = 5 ∧ (field bits 68 8).toNat ∉ [1, 2, 3]) := by
  unfold parseUplink
  simp only
  generalize field bits 0 4 = tag
  by_cases h6 : 6 < tag.toNat
  · rw [if_pos h6]; simp only [reduceCtorEq, false_iff, not_and]; omega
  · rw [if_neg h6]
    by_cases hl : bits.length < 4 + Uplink.bitsOf tag
    · rw [if_pos hl]; simp only [true_iff]; exact ⟨by omega, .inl hl⟩
    · rw [if_neg hl]
      by_cases h5 : tag.toNat = 5
      · rw [h5]
        simp only [Nat.reduceLeDiff, hl, false_or, true_and]
        generalize (field bits 68 8).toNat = b
        match b with
        | 0 => simp
        | 1 => simp
        | 2 => simp
        | 3 => simp
        | n + 4 => simp
      · have hr : ¬ (tag.toNat ≤ 6 ∧ (bits.length < 4 + Uplink.bitsOf tag ∨ tag.toNat = 5 ∧ (field bits 68 8).toNat ∉ [1, 2, 3])) := by
          rintro ⟨_, h | ⟨h, _⟩⟩
          · exact hl h
          · exact h5 h
        simp only [hr, iff_false]
        generalize tag.toNat = k at h5 h6
        match k with
        | 0 => simp
        | 1 => simp
        | 2 => simp
        | 3 => simp
        | 4 => simp
        | 5 => exact absurd rfl h5
        | n + 6 => simp

theorem parseDownlink_panic (bits : List Bool) : parseDownlink bits = .panic ↔ bits.length < (if flag bits 0 then 270 else 65) := by
  unfold parseDownlink
  cases flag bits 0 with
  | true =>
    simp only [if_true]
    by_cases h : bits.length < 270
    · rw [if_pos h]; simp [h]
    · rw [if_neg h]; simp [h]
  | false =>
    simp only [Bool.false_eq_true, if_false]
    by_cases h : bits.length < 65
    · rw [if_pos h]; simp [h]
    · rw [if_neg h]; simp [h]

/-- C36, uplink: for every byte string the radio can deliver, the rocket panics exactly when the string passes error correction and checksum, names a known
packet type, and is either too short for this type or a ground-test command for a pyro channel that does not exist -/
theorem C36_uplink {x : Ext} (hx : x.Laws) {key : Bytes} {b : Builder} (hb : Reach x key b) (now air : Nat) (buf : Bytes) (h49 : buf.length ≤ maxSize) :
    b.deserializeUplink x now air buf = .panic ↔
      8 < buf.length ∧ ∃ d c, x.correct (buf.length / 5) (x.process key (List.replicate 8 0x69) buf) = some (d ++ [c]) ∧ c = crc8 d ∧
        (field (bytesBits d) 0 4).toNat ≤ 6 ∧
        (8 * d.length < 4 + Uplink.bitsOf (field (bytesBits d) 0 4) ∨
          (field (bytesBits d) 0 4).toNat = 5 ∧ (field (bytesBits d) 68 8).toNat ∉ [1, 2, 3]) := by
  rw [uplink_eq hx hb now air buf h49]
  by_cases h8 : buf.length ≤ 8
  · rw [if_pos h8]; simp only [reduceCtorEq, false_iff, not_and]; intro h; omega
  · rw [if_neg h8]
    have h8' : 8 < buf.length := by omega
    cases hc : x.correct (buf.length / 5) (x.process key (List.replicate 8 0x69) buf) with
    | none =>
      simp only [reduceCtorEq, false_and, exists_const, and_false]
    | some d =>
      have hl := hx.correct_len _ _ _ hc
      rw [process_length] at hl
      have hd : d ≠ [] := by intro h; rw [h, List.length_nil] at hl; omega
      have hdd := List.dropLast_concat_getLast hd
      have hgl : d.getLast?.getD 0 = d.getLast hd := by rw [List.getLast?_eq_some_getLast hd]; rfl
      simp only
      constructor
      · intro h
        by_cases hcrc : crc8 d.dropLast = d.getLast?.getD 0
        · rw [if_pos hcrc] at h
          obtain ⟨p1, p2⟩ := (parseUplink_panic _).mp h
          rw [bytesBits_length] at p2
          exact ⟨h8', d.dropLast, d.getLast hd, by rw [hdd], by rw [← hgl, hcrc], p1, p2⟩
        · rw [if_neg hcrc] at h; exact absurd h (by simp)
      · rintro ⟨_, d', c, he, hcrc, p1, p2⟩
        injection he with he
        subst he
        rw [List.dropLast_concat, List.getLast?_concat, Option.getD_some, if_pos hcrc.symm]
        exact (parseUplink_panic _).mpr ⟨p1, by rw [bytesBits_length]; exact p2⟩

/-- C36, downlink: the ground station panics exactly when the string passes error correction and checksum and is too short for its packet type -/
theorem C36_downlink {x : Ext} (hx : x.Laws) {key : Bytes} {b : Builder} (hb : Reach x key b) (now air : Nat) (buf : Bytes) (h49 : buf.length ≤ maxSize) :
    b.deserializeDownlink x now air buf = .panic ↔
      8 < buf.length ∧ ∃ d c, x.correct (buf.length / 5) buf = some (d ++ [c]) ∧
        c = crc8 (d ++ (x.process key (List.replicate 8 0) (List.replicate 32 0) ++ List.replicate 8 0x69)) ∧
        8 * d.length < (if flag (bytesBits d) 0 then 270 else 65) := by
  rw [downlink_eq hx hb now air buf h49]
  by_cases h8 : buf.length ≤ 8
  · rw [if_pos h8]; simp only [reduceCtorEq, false_iff, not_and]; intro h; omega
  · rw [if_neg h8]
    have h8' : 8 < buf.length := by omega
    cases hc : x.correct (buf.length / 5) buf with
    | none =>
      simp only [reduceCtorEq, false_and, exists_const, and_false]
    | some d =>
      have hl := hx.correct_len _ _ _ hc
      have hd : d ≠ [] := by intro h; rw [h, List.length_nil] at hl; omega
      have hdd := List.dropLast_concat_getLast hd
      have hgl : d.getLast?.getD 0 = d.getLast hd := by rw [List.getLast?_eq_some_getLast hd]; rfl
      simp only
      constructor
      · intro h
        split at h
        · next hcrc =>
          have p2 := (parseDownlink_panic _).mp h
          rw [bytesBits_length] at p2
          exact ⟨h8', d.dropLast, d.getLast hd, by rw [hdd], by rw [← hgl, hcrc], p2⟩
        · exact absurd h (by simp)
      · rintro ⟨_, d', c, he, hcrc, p2⟩
        injection he with he
        subst he
        rw [List.dropLast_concat, List.getLast?_concat, Option.getD_some, if_pos hcrc.symm]
        exact (parseDownlink_panic _).mpr (by rw [bytesBits_length]; exact p2)

/-- C36: too short strings and strings that fail error correction or checksum are refused -/
theorem C36_refused {x : Ext} (hx : x.Laws) {key : Bytes} {b : Builder} (hb : Reach x key b) (now air : Nat) (buf : Bytes) (h49 : buf.length ≤ maxSize)
    (h : buf.length ≤ 8 ∨ x.correct (buf.length / 5) (x.process key (List.replicate 8 0x69) buf) = none ∨
      ∃ d c, x.correct (buf.length / 5) (x.process key (List.replicate 8 0x69) buf) = some (d ++ [c]) ∧ c ≠ crc8 d) :
    b.deserializeUplink x now air buf = .err := by
  rw [uplink_eq hx hb now air buf h49]
  by_cases h8 : buf.length ≤ 8
  · rw [if_pos h8]
  · rw [if_neg h8]
    rcases h with h | h | ⟨d, c, h, hc⟩
    · exact absurd h h8
    · rw [h]
    · rw [h]
      simp only
      rw [List.dropLast_concat, List.getLast?_concat, Option.getD_some, if_neg (fun e => hc e.symm)]

/-- the frame around any data, as the other side would build it -/
theorem uplink_of_data {x : Ext} (hx : x.Laws) {key : Bytes} {b : Builder} (hb : Reach x key b) (now air : Nat) (d : Bytes) (h8 : 8 < d.length + 1 + (d.length + 1) / 4)
    (h49 : d.length + 1 + (d.length + 1) / 4 ≤ maxSize) :
    b.deserializeUplink x now air (x.process key (List.replicate 8 0x69) (d ++ [crc8 d] ++ x.ecc ((d.length + 1) / 4) (d ++ [crc8 d]))) =
      parseUplink (bytesBits d) := by
  have hl : (x.process key (List.replicate 8 0x69) (d ++ [crc8 d] ++ x.ecc ((d.length + 1) / 4) (d ++ [crc8 d]))).length = d.length + 1 + (d.length + 1) / 4 := by
    rw [process_length, List.length_append, List.length_append, List.length_singleton, hx.ecc_len]
  rw [uplink_eq hx hb now air _ (by rw [hl]; exact h49), hl, if_neg (by omega), process_process]
  have e : (d.length + 1 + (d.length + 1) / 4) / 5 = (d.length + 1) / 4 := ecc_split (d.length + 1)
  have hm : maxSize = 49 := rfl
  rw [e, hx.fixes _ (d ++ [crc8 d]) _ (by rw [List.length_append, List.length_singleton]; omega) (by
    rw [List.length_append, List.length_append, List.length_singleton, hx.ecc_len]) (by rw [byteErrors_self]; exact Nat.zero_le _)]
  simp only
  rw [List.dropLast_concat, List.getLast?_concat, Option.getD_some, if_pos rfl]

/-- C36 does not hold: for every key, a ten-byte packet makes the rocket panic (a valid frame around seven zero bytes) -/
theorem C36_short_packet_panics {x : Ext} (hx : x.Laws) (key : Bytes) : ∃ buf : Bytes, buf.length = 10 ∧
    ∀ (b : Builder), Reach x key b → ∀ now air, b.deserializeUplink x now air buf = .panic := by
  refine ⟨x.process key (List.replicate 8 0x69) (List.replicate 7 0 ++ [crc8 (List.replicate 7 0)] ++ x.ecc 2 (List.replicate 7 0 ++ [crc8 (List.replicate 7 0)])), ?_, ?_⟩
  · rw [process_length, List.length_append, List.length_append, hx.ecc_len]; rfl
  · intro b hb now air
    have := uplink_of_data hx hb now air (List.replicate 7 0) (by decide) (by decide)
    rw [List.length_replicate] at this
    rw [this]
    decide +kernel

/-- C36 does not hold: for every key, a frame of a complete ground-test command for pyro channel 0 makes the rocket panic -/
theorem C36_bad_pyro_panics {x : Ext} (hx : x.Laws) (key : Bytes) : ∃ buf : Bytes, buf.length = 13 ∧
    ∀ (b : Builder), Reach x key b → ∀ now air, b.deserializeUplink x now air buf = .panic := by
  refine ⟨x.process key (List.replicate 8 0x69) ((5 :: List.replicate 9 0) ++ [crc8 (5 :: List.replicate 9 0)] ++ x.ecc 2 ((5 :: List.replicate 9 0) ++ [crc8 (5 :: List.replicate 9 0)])), ?_, ?_⟩
  · rw [process_length, List.length_append, List.length_append, hx.ecc_len]; rfl
  · intro b hb now air
    have := uplink_of_data hx hb now air (5 :: List.replicate 9 0) (by decide) (by decide)
    rw [List.length_cons, List.length_replicate] at this
    rw [this]
    decide +kernel

/-! ### C68 -/

/-- C68: what a received byte string turns into depends on nothing but the bytes and the key: not on the time, nor on what was received before -/
theorem C68_stateless {x : Ext} (hx : x.Laws) {key : Bytes} {b b' : Builder} (hb : Reach x key b) (hb' : Reach x key b') (now air now' air' : Nat) (buf : Bytes)
    (h49 : buf.length ≤ maxSize) : b.deserializeUplink x now air buf = b'.deserializeUplink x now' air' buf := by
  rw [uplink_eq hx hb now air buf h49, uplink_eq hx hb' now' air' buf h49]

/-- C68: a recorded command is accepted again at any later time, by every rocket with this key -/
theorem C68_replay {x : Ext} (hx : x.Laws) {key : Bytes} {ground rocket : Builder} (hg : Reach x key ground) (hr : Reach x key rocket) (sent : Nat) (p : Uplink) {frame : Bytes}
    (hf : (ground.serializeUplink x sent p).1 = .ok frame) (later air : Nat) : rocket.deserializeUplink x later air frame = .ok p := by
  obtain ⟨buf, h1, _, _, h4⟩ := C35_uplink hx hg hr sent p
  rw [hf] at h1
  injection h1 with h1
  rw [h1]
  exact h4 buf later air rfl (by rw [byteErrors_self]; omega)

/-- the assumptions can be met, with a pair of builders that already exchanged packets -/
example : ∃ x : Ext, x.Laws ∧ ∃ b, Reach x (List.replicate 32 7) b ∧ b.writer.len = 69 :=
  ⟨mdsExt fun k n i => (k.getD (i % 32) 0) + (n.getD (i % 8) 0), mds_laws _, _, .up 5 (.softArm 0 true) .new, by
    have hd : (Builder.new (mdsExt fun k n i => (k.getD (i % 32) 0) + (n.getD (i % 8) 0)) (List.replicate 32 7)).writer.clear.data.length = 8 * maxSize := List.length_replicate
    obtain ⟨w1, s1, e1, g1, b1, l1, d1⟩ := write_ok (codec_uint 4) hd (by simp only [Writer.clear, Prim.uint, maxSize]; omega) (Uplink.softArm 0 true).tag
    have hl1 : w1.len = 4 := by rw [l1]; rfl
    obtain ⟨w2, s2, e2, b2, l2, d2, _⟩ := uplink_ok d1 (by rw [hl1]; simp only [maxSize]; omega) (Uplink.softArm 0 true)
    have e : (Builder.new (mdsExt fun k n i => (k.getD (i % 32) 0) + (n.getD (i % 8) 0)) (List.replicate 32 7)).writer.clear.write (Prim.uint 4) (Uplink.softArm 0 true).tag = some w1 := e1
    unfold Builder.serializeUplink
    rw [e]
    simp only [Option.bind_some, e2]
    have : w2.len = 69 := by rw [l2, hl1]; rfl
    split <;> exact this⟩

end Verif.Props
