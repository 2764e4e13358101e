import Verif.Spec.TaggedStream
/-
C32: the tagged record stream.
-/
namespace Verif.Tagged
variable {α : Type}

theorem readLoop_eq (sched : Nat → Nat) : ∀ (fuel n : Nat) (s : Src), n ≤ fuel →
    ∃ t, s.readLoop sched fuel n = if n ≤ s.data.length then (some (s.data.take n), ⟨s.data.drop n, t⟩) else (none, ⟨[], t⟩) := by
  intro fuel
  induction fuel with
  | zero =>
    intro n s h
    obtain rfl : n = 0 := by omega
    exact ⟨s.tick, by simp [Src.readLoop]⟩
  | succ fuel ih =>
    intro n s h
    unfold Src.readLoop
    by_cases hn : n = 0
    · subst hn; exact ⟨s.tick, by simp⟩
    · simp only [if_neg hn]
      by_cases hm : min (max 1 (sched s.tick)) (min n s.data.length) = 0
      · have hl : s.data.length = 0 := by omega
        have hd : s.data = [] := List.length_eq_zero_iff.mp hl
        refine ⟨s.tick + 1, ?_⟩
        rw [if_pos hm, if_neg (by omega), hd]
      · rw [if_neg hm]
        generalize hmm : min (max 1 (sched s.tick)) (min n s.data.length) = m at *
        obtain ⟨t, ht⟩ := ih (n - m) ⟨s.data.drop m, s.tick + 1⟩ (by omega)
        rw [ht]
        refine ⟨t, ?_⟩
        simp only [List.length_drop, List.drop_drop]
        by_cases hle : n ≤ s.data.length
        · rw [if_pos (by omega), if_pos hle]
          simp only [Prod.mk.injEq, Option.some.injEq]
          refine ⟨?_, by rw [show m + (n - m) = n by omega]⟩
          rw [show n = m + (n - m) by omega, List.take_add, show m + (n - m) - m = n - m by omega]
        · rw [if_neg (by omega), if_neg hle]

theorem readExact_eq (sched : Nat → Nat) (n : Nat) (s : Src) :
    ∃ t, s.readExact sched n = if n ≤ s.data.length then (some (s.data.take n), ⟨s.data.drop n, t⟩) else (none, ⟨[], t⟩) :=
  readLoop_eq sched n n s (Nat.le_refl _)

theorem find_of_mem : ∀ {l : List (Variant α)} {k : Variant α}, (l.map Variant.tag).Nodup → k ∈ l → (l.find? fun x => x.tag == k.tag) = some k
  | x :: l, k, hnd, hk => by
    rw [List.map_cons, List.nodup_cons] at hnd
    rw [List.find?_cons]
    rcases List.mem_cons.mp hk with h | h
    · subst h; simp
    · have hne : x.tag ≠ k.tag := fun e => hnd.1 (e ▸ List.mem_map.mpr ⟨k, h, rfl⟩)
      have hb : (x.tag == k.tag) = false := by simpa using hne
      rw [hb]
      exact find_of_mem hnd.2 h

theorem pick_some {e : Enum α} (he : e.Ok) (v : α) :
    ∃ k b, e.pick v = some (k, b) ∧ k ∈ e.variants ∧ b.length = k.size ∧ k.de b = v ∧ e.find k.tag = some k := by
  have hs : (e.pick v).isSome := by
    obtain ⟨k, hk, hsome⟩ := he.total v
    rw [Enum.pick, List.findSome?_isSome_iff]
    exact ⟨k, hk, by simpa using hsome⟩
  obtain ⟨⟨k, b⟩, hp⟩ := Option.isSome_iff_exists.mp hs
  obtain ⟨k', hk', hv⟩ := List.exists_of_findSome?_eq_some hp
  cases hb : k'.ser v with
  | none => rw [hb] at hv; exact absurd hv (by simp)
  | some b' =>
    rw [hb] at hv
    simp only [Option.map_some, Option.some.injEq, Prod.mk.injEq] at hv
    obtain ⟨rfl, rfl⟩ := hv
    obtain ⟨h1, h2⟩ := he.codec k' hk' v b' hb
    exact ⟨k', b', hp, hk', h1, h2, find_of_mem he.tags hk'⟩

theorem write_ok {e : Enum α} (he : e.Ok) {w : Writer} (hw : w.buf.length = e.bufLen) (v : α) :
    ∃ w', w.write e v = some w' ∧ w'.buf.length = e.bufLen ∧ w'.sink = w.sink ++ e.bytes v := by
  obtain ⟨k, b, hp, hk, hl, _, _⟩ := pick_some he v
  have hr := he.room k hk
  unfold Writer.write Enum.writeToBuffer Enum.bytes
  simp only [hp]
  rw [if_neg (by omega)]
  simp only [List.length_cons, List.length_append, List.length_drop]
  rw [if_neg (by omega)]
  refine ⟨_, rfl, ?_, ?_⟩
  · simp only [List.length_cons, List.length_append, List.length_drop]; omega
  · simp only [List.take_succ_cons]
    rw [List.take_append_of_le_length (by omega), List.take_of_length_le (by omega)]

theorem writeAll_ok {e : Enum α} (he : e.Ok) : ∀ (vs : List α) {w : Writer}, w.buf.length = e.bufLen →
    ∃ w', w.writeAll e vs = some w' ∧ w'.sink = w.sink ++ vs.flatMap e.bytes
  | [], w, _ => ⟨w, rfl, by simp⟩
  | v :: vs, w, hw => by
    obtain ⟨w1, h1, h2, h3⟩ := write_ok he hw v
    obtain ⟨w2, h4, h5⟩ := writeAll_ok he vs h2
    refine ⟨w2, ?_, ?_⟩
    · unfold Writer.writeAll; rw [h1]; exact h4
    · rw [h5, h3, List.flatMap_cons, List.append_assoc]

theorem readNext_record {e : Enum α} (he : e.Ok) (sched : Nat → Nat) (v : α) (rest : Bytes) (s : Src) (hs : s.data = e.bytes v ++ rest) :
    ∃ t, e.readNext sched s = some (some v, ⟨rest, t⟩) := by
  obtain ⟨k, b, hp, hk, hl, hd, hf⟩ := pick_some he v
  have hr := he.room k hk
  rw [Enum.bytes, hp] at hs
  simp only at hs
  unfold Enum.readNext
  rw [if_neg (by omega)]
  obtain ⟨t1, h1⟩ := readExact_eq sched 1 s
  rw [h1, hs]
  rw [if_pos (by simp)]
  simp only [List.cons_append, List.take_succ_cons, List.drop_succ_cons, List.drop_zero, hf]
  rw [if_neg (by omega)]
  obtain ⟨t2, h2⟩ := readExact_eq sched k.size ⟨b ++ rest, t1⟩
  rw [h2]
  simp only
  rw [if_pos (by simp; omega), List.take_append_of_le_length (by omega), List.take_of_length_le (by omega), List.drop_append_of_le_length (by omega),
    List.drop_of_length_le (by omega)]
  exact ⟨t2, by simp [hd]⟩

theorem readNext_cut {e : Enum α} (he : e.Ok) (sched : Nat → Nat) (v : α) (n : Nat) (s : Src) (hs : s.data = (e.bytes v).take n) (hn : n < (e.bytes v).length) :
    ∃ s', e.readNext sched s = some (none, s') := by
  obtain ⟨k, b, hp, hk, hl, hd, hf⟩ := pick_some he v
  have hr := he.room k hk
  rw [Enum.bytes, hp] at hs hn
  simp only [List.length_cons] at hs hn
  unfold Enum.readNext
  rw [if_neg (by omega)]
  obtain ⟨t1, h1⟩ := readExact_eq sched 1 s
  rw [h1, hs]
  cases n with
  | zero => simp
  | succ n =>
    rw [if_pos (by simp)]
    simp only [List.take_succ_cons, List.drop_succ_cons, List.drop_zero, hf]
    rw [if_neg (by omega)]
    obtain ⟨t2, h2⟩ := readExact_eq sched k.size ⟨b.take n, t1⟩
    rw [h2]
    simp only [List.length_take]
    rw [if_neg (by omega)]
    exact ⟨_, rfl⟩

theorem bytes_pos {e : Enum α} (he : e.Ok) (v : α) : 0 < (e.bytes v).length := by
  obtain ⟨k, b, hp, _⟩ := pick_some he v
  rw [Enum.bytes, hp]; simp

/-- where a reader of the first `cut` bytes of the stream of `vs` is -/
theorem run_at {e : Enum α} (he : e.Ok) {sched : Nat → Nat} {vs : List α} {cut : Nat} {s : Src} {outs : List α}
    (h : ReadRun e sched ((vs.flatMap e.bytes).take cut) s outs) :
    ∃ rest, vs = outs ++ rest ∧ (outs.flatMap e.bytes).length ≤ max cut 0 ∧ s.data = (rest.flatMap e.bytes).take (cut - (outs.flatMap e.bytes).length) := by
  induction h with
  | start => exact ⟨vs, rfl, by simp, by simp⟩
  | @next s s' outs v _ hr ih =>
    obtain ⟨rest, h1, h2, h3⟩ := ih
    cases rest with
    | nil =>
      have : s.data = [] := by rw [h3]; simp
      unfold Enum.readNext at hr
      split at hr
      · exact absurd hr (by simp)
      · obtain ⟨t, ht⟩ := readExact_eq sched 1 s
        rw [ht, this, if_neg (by simp)] at hr
        exact absurd hr (by simp)
    | cons x rest =>
      generalize hL : (outs.flatMap e.bytes).length = L at *
      rw [List.flatMap_cons] at h3
      by_cases hc : (e.bytes x).length ≤ cut - L
      · rw [List.take_append, List.take_of_length_le hc] at h3
        obtain ⟨t, ht⟩ := readNext_record he sched x _ s h3
        rw [ht] at hr
        simp only [Option.some.injEq, Prod.mk.injEq] at hr
        obtain ⟨rfl, rfl⟩ := hr
        have hp := bytes_pos he x
        refine ⟨rest, by rw [h1]; simp, ?_, ?_⟩
        · rw [List.flatMap_append, List.length_append, hL]; simp only [List.flatMap_cons, List.flatMap_nil, List.append_nil]; omega
        · rw [List.flatMap_append, List.length_append, hL]; simp only [List.flatMap_cons, List.flatMap_nil, List.append_nil]
          rw [show cut - (L + (e.bytes x).length) = cut - L - (e.bytes x).length by omega]
      · rw [List.take_append_of_le_length (by omega)] at h3
        obtain ⟨s'', ht⟩ := readNext_cut he sched x _ s h3 (by omega)
        rw [ht] at hr
        exact absurd hr (by simp)

/-- a two-variant stream for the witnesses: one-byte and two-byte records, 4-byte buffer -/
def demo : Enum (UInt8 ⊕ (UInt8 × UInt8)) where
  variants :=
    [⟨0, 1, fun v => match v with | .inl a => some [a] | _ => none, fun b => .inl (b.headD 0)⟩,
     ⟨1, 2, fun v => match v with | .inr (a, c) => some [a, c] | _ => none, fun b => .inr (b.headD 0, (b.drop 1).headD 0)⟩]
  bufLen := 4

theorem demo_ok : demo.Ok where
  tags := by decide
  total := by
    intro v
    rcases v with a | ⟨a, c⟩
    · exact ⟨_, List.mem_cons_self, rfl⟩
    · exact ⟨_, List.mem_cons_of_mem _ List.mem_cons_self, rfl⟩
  codec := by
    intro k hk v b hb
    simp only [demo, List.mem_cons, List.not_mem_nil, or_false] at hk
    rcases hk with rfl | rfl
    · rcases v with a | ⟨a, c⟩
      · simp only [Option.some.injEq] at hb; subst hb; exact ⟨rfl, rfl⟩
      · exact absurd hb (by simp)
    · rcases v with a | ⟨a, c⟩
      · exact absurd hb (by simp)
      · simp only [Option.some.injEq] at hb; subst hb; exact ⟨rfl, rfl⟩
  room := by
    intro k hk
    simp only [demo, List.mem_cons, List.not_mem_nil, or_false] at hk
    rcases hk with rfl | rfl <;> decide
  pos := by decide

end Verif.Tagged

namespace Verif.Props
open Verif Verif.Tagged
variable {α : Type}

/-- **C32** Writing never panics. Reading back the stream cut at any byte gives, in order, exactly the records that are completely inside the cut
(`k` of them), whatever chunks the underlying reader returns, and then reports the end; the reader never panics. -/
theorem C32_stream {e : Enum α} (he : e.Ok) (vs : List α) :
    ∃ w, (Writer.new e).writeAll e vs = some w ∧
      (∀ cut sched s outs, ReadRun e sched (w.sink.take cut) s outs → outs <+: vs ∧ (∃ r, e.readNext sched s = some r) ∧
        ∀ s', e.readNext sched s = some (none, s') →
          (∀ wk, (Writer.new e).writeAll e (vs.take outs.length) = some wk → wk.sink.length ≤ cut) ∧
            (outs.length < vs.length → ∀ wk, (Writer.new e).writeAll e (vs.take (outs.length + 1)) = some wk → cut < wk.sink.length)) := by
  obtain ⟨w, h1, h2⟩ := writeAll_ok he vs (w := Writer.new e) (by simp [Writer.new])
  have h2' : w.sink = vs.flatMap e.bytes := by rw [h2]; simp [Writer.new]
  refine ⟨w, h1, fun cut sched s outs hr => ?_⟩
  rw [h2'] at hr
  obtain ⟨rest, a1, a2, a3⟩ := run_at he hr
  have hrest : ∀ r, rest = r → (r = [] ∧ ∃ s', e.readNext sched s = some (none, s')) ∨
      (∃ x r', r = x :: r' ∧ (((e.bytes x).length ≤ cut - (outs.flatMap e.bytes).length ∧ ∃ s', e.readNext sched s = some (some x, s')) ∨
        (cut - (outs.flatMap e.bytes).length < (e.bytes x).length ∧ ∃ s', e.readNext sched s = some (none, s')))) := by
    intro r hre
    subst hre
    cases rest with
    | nil =>
      refine .inl ⟨rfl, ?_⟩
      unfold Enum.readNext
      rw [if_neg (by have := he.pos; omega)]
      obtain ⟨t, ht⟩ := readExact_eq sched 1 s
      rw [ht, a3, if_neg (by simp)]
      exact ⟨_, rfl⟩
    | cons x r' =>
      refine .inr ⟨x, r', rfl, ?_⟩
      rw [List.flatMap_cons] at a3
      by_cases hc : (e.bytes x).length ≤ cut - (outs.flatMap e.bytes).length
      · rw [List.take_append, List.take_of_length_le hc] at a3
        obtain ⟨t, ht⟩ := readNext_record he sched x _ s a3
        exact .inl ⟨hc, _, ht⟩
      · rw [List.take_append_of_le_length (by omega)] at a3
        obtain ⟨s'', ht⟩ := readNext_cut he sched x _ s a3 (by omega)
        exact .inr ⟨by omega, _, ht⟩
  refine ⟨⟨rest, a1.symm⟩, ?_, fun s' hn => ?_⟩
  · rcases hrest _ rfl with ⟨_, s', h⟩ | ⟨x, r', _, ⟨_, s', h⟩ | ⟨_, s', h⟩⟩ <;> exact ⟨_, h⟩
  · have hlen : ∀ l wk, (Writer.new e).writeAll e l = some wk → wk.sink = l.flatMap e.bytes := by
      intro l wk h
      obtain ⟨wk', k1, k2⟩ := writeAll_ok he l (w := Writer.new e) (by simp [Writer.new])
      rw [k1] at h; injection h with h; subst h
      rw [k2]; simp [Writer.new]
    refine ⟨fun wk hwk => ?_, fun hlt wk hwk => ?_⟩
    · rw [hlen _ _ hwk]; simp only [a1, List.take_left']; omega
    · rw [hlen _ _ hwk]
      rcases hrest _ rfl with ⟨hz, _⟩ | ⟨x, r', hx, ⟨_, s'', h⟩ | ⟨hc, _⟩⟩
      · rw [a1, hz] at hlt; simp at hlt
      · rw [h] at hn; exact absurd hn (by simp)
      · subst hx
        simp only [a1]
        rw [List.take_append, List.take_of_length_le (by omega), show outs.length + 1 - outs.length = 1 by omega, List.flatMap_append, List.length_append]
        simp only [List.take_succ_cons, List.take_zero, List.flatMap_cons, List.flatMap_nil, List.append_nil]
        omega

/-- **C32** Nothing is invented: whatever the bytes are, a returned record is the decoding of a known tag followed by the whole payload of that
tag's size, and exactly these bytes are consumed. -/
theorem C32_no_invention {e : Enum α} {sched : Nat → Nat} {s s' : Src} {v : α} (h : e.readNext sched s = some (some v, s')) :
    ∃ k ∈ e.variants, ∃ payload, s.data = k.tag :: payload ++ s'.data ∧ payload.length = k.size ∧ v = k.de payload := by
  unfold Enum.readNext at h
  split at h
  · exact absurd h (by simp)
  obtain ⟨t1, h1⟩ := readExact_eq sched 1 s
  rw [h1] at h
  cases hd : s.data with
  | nil => rw [hd, if_neg (by simp)] at h; exact absurd h (by simp)
  | cons t rest =>
    rw [hd, if_pos (by simp)] at h
    simp only [List.take_succ_cons, List.drop_succ_cons, List.drop_zero] at h
    cases hf : e.find t with
    | none => rw [hf] at h; exact absurd h (by simp)
    | some k =>
      rw [hf] at h
      simp only at h
      split at h
      · exact absurd h (by simp)
      obtain ⟨t2, h2⟩ := readExact_eq sched k.size ⟨rest, t1⟩
      rw [h2] at h
      simp only at h
      by_cases hl : k.size ≤ rest.length
      · rw [if_pos hl] at h
        simp only [Option.some.injEq, Prod.mk.injEq] at h
        obtain ⟨rfl, rfl⟩ := h
        have hmem := List.mem_of_find?_eq_some hf
        have htag : k.tag = t := by simpa using List.find?_some hf
        refine ⟨k, hmem, rest.take k.size, ?_, by rw [List.length_take]; omega, rfl⟩
        rw [htag, List.cons_append, List.take_append_drop]
      · rw [if_neg hl] at h; exact absurd h (by simp)

/-- **C32** An unknown tag ends the stream. -/
theorem C32_unknown_tag {e : Enum α} (he : e.Ok) (sched : Nat → Nat) {s : Src} {t : UInt8} {rest : Bytes} (hs : s.data = t :: rest)
    (ht : ∀ k ∈ e.variants, k.tag ≠ t) : ∃ s', e.readNext sched s = some (none, s') := by
  have hf : e.find t = none := by
    rw [Enum.find, List.find?_eq_none]
    intro k hk; simpa using ht k hk
  unfold Enum.readNext
  rw [if_neg (by have := he.pos; omega)]
  obtain ⟨t1, h1⟩ := readExact_eq sched 1 s
  rw [h1, hs, if_pos (by simp)]
  simp only [List.take_succ_cons, List.drop_succ_cons, List.drop_zero, hf]
  exact ⟨_, rfl⟩

/-- **C32** The same for a record in a buffer: what `write_to_buffer` put there is read back whatever follows it, a shorter piece or an unknown tag
gives nothing, and only the empty buffer panics. -/
theorem C32_buffer {e : Enum α} (he : e.Ok) (v : α) (buf : Bytes) (hb : buf.length = e.bufLen) :
    (∃ n buf', e.writeToBuffer v buf = some (n, buf') ∧ n ≤ buf'.length ∧ buf'.length = e.bufLen ∧ (∀ junk, e.fromBuffer (buf'.take n ++ junk) = some (some v)) ∧
      ∀ m, 0 < m → m < n → e.fromBuffer (buf'.take m) = some none) ∧
    (∀ b, e.fromBuffer b = none ↔ b = []) := by
  obtain ⟨k, b, hp, hk, hl, hd, hf⟩ := pick_some he v
  have hr := he.room k hk
  constructor
  · refine ⟨k.size + 1, k.tag :: (b ++ buf.drop (1 + b.length)), ?_, ?_, ?_, fun junk => ?_, fun m h0 hm => ?_⟩
    · unfold Enum.writeToBuffer
      simp only [hp]
      rw [if_neg (by omega)]
    · simp only [List.length_cons, List.length_append]; omega
    · simp only [List.length_cons, List.length_append, List.length_drop]; omega
    · rw [List.take_succ_cons, List.take_append_of_le_length (by omega), List.take_of_length_le (by omega)]
      simp only [List.cons_append, Enum.fromBuffer, hf, List.length_cons, List.length_append, List.drop_succ_cons, List.drop_zero]
      rw [if_neg (by omega), List.take_append_of_le_length (by omega), List.take_of_length_le (by omega), hd]
    · obtain ⟨j, rfl⟩ : ∃ j, m = j + 1 := ⟨m - 1, by omega⟩
      rw [List.take_succ_cons]
      simp only [Enum.fromBuffer, hf, List.length_cons, List.length_take, List.length_append]
      rw [if_pos (by omega)]
  · intro b
    cases b with
    | nil => simp [Enum.fromBuffer]
    | cons t b =>
      simp only [Enum.fromBuffer]
      split
      · split <;> simp
      · simp

/-- the hypotheses are met: two records of different kinds, cut inside the second one -/
example : demo.Ok ∧ (∃ w, (Writer.new demo).writeAll demo [.inl 7, .inr (8, 9)] = some w ∧ w.sink = [0, 7, 1, 8, 9]) ∧
    ∃ s, ReadRun demo (fun _ => 1) [0, 7, 1, 8] s [.inl 7] ∧ ∃ s', demo.readNext (fun _ => 1) s = some (none, s') := by
  refine ⟨demo_ok, ?_, ?_⟩
  · obtain ⟨w, h1, h2⟩ := writeAll_ok demo_ok [.inl 7, .inr (8, 9)] (w := Writer.new demo) (by simp [Writer.new])
    exact ⟨w, h1, h2⟩
  · exact ⟨_, .next (.start) (by rfl), _, rfl⟩

end Verif.Props
