import Verif.Model.FlashIo
/-
C100: transfers of any length over the flash driver.
-/
namespace Verif.Props
open Verif Verif.FlashIo

/-- what byte `i` of a long read is, on a driver that uses the scratch bytes: the five bytes in front of every 4 KiB boundary that is followed by a further chunk are the command of that chunk -/
def longReadByte (fl : Flash) (c : Nat → Vector UInt8 5) (addr len i : Nat) : UInt8 :=
  let next := (i / 4096 + 1) * 4096
  if next < len ∧ next ≤ i + 5 then ((c (addr + next)).toList).getD (i + 5 - next) 0 else fl (addr + i)

theorem flashIo_scratch_length (d : Driver) (a : Nat) (old : Bytes) (h : old.length = 5) : (d.scratch a old).length = 5 := by
  unfold Driver.scratch
  split
  · exact h
  · simp

theorem flashIo_read4k {fl : Flash} {d : Driver} {addr len off : Nat} {buf : Bytes} (h : off + 5 + len ≤ buf.length) :
    ∃ b, read4k fl d addr len off buf = some b ∧ b.length = buf.length ∧
      ∀ j, b.getD j 0 = if off ≤ j ∧ j < off + 5 then (d.scratch addr ((buf.drop off).take 5)).getD (j - off) 0
        else if off + 5 ≤ j ∧ j < off + 5 + len then fl (addr + (j - (off + 5))) else buf.getD j 0 := by
  have hs : (d.scratch addr ((buf.drop off).take 5)).length = 5 := flashIo_scratch_length _ _ _ (by simp; omega)
  refine ⟨_, if_pos h, ?_, ?_⟩
  · simp only [List.length_append, List.length_take, List.length_drop, hs, Flash.read_length]; omega
  · intro j
    simp only [List.getD_eq_getElem?_getD]
    by_cases h1 : j < off
    · rw [if_neg (by omega), if_neg (by omega), List.append_assoc, List.append_assoc, List.getElem?_append_left (by simp; omega), List.getElem?_take_of_lt h1]
    · by_cases h2 : j < off + 5
      · rw [if_pos (by omega), List.append_assoc, List.append_assoc, List.getElem?_append_right (by simp; omega), List.getElem?_append_left (by rw [hs]; simp; omega)]
        congr 2; simp; omega
      · rw [if_neg (by omega)]
        by_cases h3 : j < off + 5 + len
        · rw [if_pos (by omega), List.append_assoc, List.getElem?_append_right (by simp [hs]; omega), List.getElem?_append_left (by simp [hs, Flash.read_length]; omega),
            Flash.read_getElem? _ _ _ _ (by simp [hs]; omega)]
          simp only [Option.getD_some, List.length_append, List.length_take, hs]
          congr 2; omega
        · rw [if_neg (by omega), List.getElem?_append_right (by simp [hs, Flash.read_length]; omega), List.getElem?_drop]
          congr 2; simp [hs, Flash.read_length]; omega

/-- the loop of `read`, byte for byte -/
theorem flashIo_readLoop (fl : Flash) (d : Driver) (addr len : Nat) : ∀ n done buf, len - done ≤ n → 4096 ∣ done → len + 5 ≤ buf.length → ∃ b, readLoop fl d addr len done buf = some b ∧ b.length = buf.length ∧
    (∀ j, j < done → b.getD j 0 = buf.getD j 0) ∧
    (∀ k, done ≤ k → k < len → 4096 ∣ k → d.command ≠ none → ∀ i, i < 5 → b.getD (k + i) 0 = (d.scratch (addr + k) []).getD i 0) ∧
    (done < len → d.command = none → ∀ i, i < 5 → b.getD (done + i) 0 = buf.getD (done + i) 0) ∧
    (∀ i, done ≤ i → i < len → (d.command = none ∨ ¬ ((i / 4096 + 1) * 4096 < len ∧ (i / 4096 + 1) * 4096 ≤ i + 5)) → b.getD (i + 5) 0 = fl (addr + i)) ∧
    (len ≤ done → b = buf) := by
  intro n
  induction n with
  | zero =>
    intro done buf hn _ _
    rw [readLoop, dif_neg (by omega)]
    exact ⟨buf, rfl, rfl, fun _ _ => rfl, fun k h1 h2 => by omega, fun h => by omega, fun i h1 h2 => by omega, fun _ => rfl⟩
  | succ n ih =>
    intro done buf hn hd hl
    by_cases hlt : done < len
    · rw [readLoop, dif_pos hlt]
      have sc : ∀ a old old', d.command ≠ none → d.scratch a old = d.scratch a old' := by
        intro a old old' h; unfold Driver.scratch; split <;> simp_all
      by_cases hbig : len - done > 4096
      · simp only [if_pos hbig]
        obtain ⟨b1, e1, l1, g1⟩ := flashIo_read4k (fl := fl) (d := d) (addr := addr + done) (len := 4096) (off := done) (buf := buf) (by omega)
        rw [e1]; simp only []
        obtain ⟨b, e, l, p1, p2, p3, p4, _⟩ := ih (done + 4096) b1 (by omega) (by omega) (by omega)
        refine ⟨b, e, by omega, ?_, ?_, ?_, ?_, fun h => by omega⟩
        · intro j hj; rw [p1 j (by omega), g1, if_neg (by omega), if_neg (by omega)]
        · intro k k1 k2 k3 k4 i hi
          rcases Nat.lt_or_ge done k with h | h
          · exact p2 k (by omega) k2 k3 k4 i hi
          · have : k = done := by omega
            subst this
            rw [p1 _ (by omega), g1, if_pos (by omega), show k + i - k = i by omega, sc _ _ [] k4]
        · intro _ hc i hi
          rw [p1 _ (by omega), g1, if_pos (by omega)]
          unfold Driver.scratch; rw [hc]
          simp only [List.getD_eq_getElem?_getD, List.getElem?_take, List.getElem?_drop]
          rw [if_pos (by omega)]; congr 2; omega
        · intro i i1 i2 i3
          rcases Nat.lt_or_ge i (done + 4096) with h | h
          · have hdiv : i / 4096 = done / 4096 := by omega
            by_cases hi : i + 5 < done + 4096
            · rw [p1 _ (by omega), g1, if_neg (by omega), if_pos (by omega)]; congr 1; omega
            · rcases i3 with i3 | i3
              · have := p3 (by omega) i3 (i + 5 - (done + 4096)) (by omega)
                rw [show done + 4096 + (i + 5 - (done + 4096)) = i + 5 by omega] at this
                rw [this, g1, if_neg (by omega), if_pos (by omega)]; congr 1; omega
              · omega
          · exact p4 i h i2 i3
      · simp only [if_neg hbig]
        obtain ⟨b1, e1, l1, g1⟩ := flashIo_read4k (fl := fl) (d := d) (addr := addr + done) (len := len - done) (off := done) (buf := buf) (by omega)
        rw [e1]; simp only []
        rw [readLoop, dif_neg (by omega)]
        refine ⟨b1, rfl, l1, ?_, ?_, ?_, ?_, fun h => by omega⟩
        · intro j hj; rw [g1, if_neg (by omega), if_neg (by omega)]
        · intro k k1 k2 k3 k4 i hi
          have : k = done := by omega
          subst this
          rw [g1, if_pos (by omega), show k + i - k = i by omega, sc _ _ [] k4]
        · intro _ hc i hi
          rw [g1, if_pos (by omega)]
          unfold Driver.scratch; rw [hc]
          simp only [List.getD_eq_getElem?_getD, List.getElem?_take, List.getElem?_drop]
          rw [if_pos (by omega)]; congr 2; omega
        · intro i i1 i2 _
          rw [g1, if_neg (by omega), if_pos (by omega)]; congr 1; omega
    · rw [readLoop, dif_neg hlt]
      exact ⟨buf, rfl, rfl, fun _ _ => rfl, fun k h1 h2 => by omega, fun h => by omega, fun i h1 h2 => by omega, fun _ => rfl⟩

theorem flashIo_read_ext {fl : Flash} {d : Driver} {addr len : Nat} {buf : Bytes} {f : Nat → UInt8} (hl : len + 5 ≤ buf.length)
    (h : ∀ b, readLoop fl d addr len 0 buf = some b → ∀ i, i < len → b.getD (i + 5) 0 = f i) : read fl d addr len buf = some ((List.range len).map f) := by
  obtain ⟨b, e, l, _⟩ := flashIo_readLoop fl d addr len len 0 buf (by omega) (by omega) hl
  have h := h b e
  unfold FlashIo.read
  rw [e]
  simp only [Option.some.injEq]
  apply List.ext_getElem?
  intro i
  by_cases hi : i < len
  · rw [List.getElem?_take_of_lt hi, List.getElem?_drop, List.getElem?_map, List.getElem?_range hi]
    have := h i hi
    rw [List.getD_eq_getElem?_getD, List.getElem?_eq_getElem (by omega)] at this
    rw [List.getElem?_eq_getElem (by omega)]
    simp only [Option.getD_some] at this
    simp only [Option.map_some, Option.some.injEq]
    rw [← this]; congr 1; omega
  · rw [List.getElem?_eq_none (by simp; omega), List.getElem?_eq_none (by simp; omega)]

/-- **C100** a read of at most 4 KiB gives exactly the content of the chip, whatever the driver does with its scratch bytes and whatever was in the buffer -/
theorem C100_read (fl : Flash) (d : Driver) (addr len : Nat) (buf : Bytes) (h : len ≤ 4096) (hl : len + 5 ≤ buf.length) : read fl d addr len buf = some (fl.read addr len) := by
  rw [flashIo_read_ext (f := fun i => fl (addr + i)) hl]
  · rfl
  · intro b e i hi
    obtain ⟨b', e', _, _, _, _, p, _⟩ := flashIo_readLoop fl d addr len len 0 buf (by omega) (by omega) hl
    rw [e] at e'; cases e'
    exact p i (by omega) hi (.inr (by omega))

/-- **C100** on a driver that leaves the scratch bytes alone (the simulations), reads of any length are exact -/
theorem C100_read_simulated (fl : Flash) (d : Driver) (hd : d.command = none) (addr len : Nat) (buf : Bytes) (hl : len + 5 ≤ buf.length) : read fl d addr len buf = some (fl.read addr len) := by
  rw [flashIo_read_ext (f := fun i => fl (addr + i)) hl]
  · rfl
  · intro b e i hi
    obtain ⟨b', e', _, _, _, _, p, _⟩ := flashIo_readLoop fl d addr len len 0 buf (by omega) (by omega) hl
    rw [e] at e'; cases e'
    exact p i (by omega) hi (.inl hd)

/-- **C100 (finding)** on a driver that uses the scratch bytes, a longer read returns, in front of every 4 KiB boundary with more data behind it, the five bytes of the next chunk's command instead of the content;
everything else is exact -/
theorem C100_read_long (fl : Flash) (c : Nat → Vector UInt8 5) (addr len : Nat) (buf : Bytes) (hl : len + 5 ≤ buf.length) :
    read fl ⟨some c⟩ addr len buf = some ((List.range len).map (longReadByte fl c addr len)) := by
  apply flashIo_read_ext hl
  intro b e i hi
  obtain ⟨b', e', _, _, p2, _, p, _⟩ := flashIo_readLoop fl ⟨some c⟩ addr len len 0 buf (by omega) (by omega) hl
  rw [e] at e'; cases e'
  unfold longReadByte
  simp only []
  split
  · rename_i hc
    have := p2 ((i / 4096 + 1) * 4096) (by omega) hc.1 (by omega) (by simp) (i + 5 - (i / 4096 + 1) * 4096) (by omega)
    rw [show (i / 4096 + 1) * 4096 + (i + 5 - (i / 4096 + 1) * 4096) = i + 5 by omega] at this
    rw [this]; rfl
  · rename_i hc; exact p i (by omega) hi (.inr hc)

/-- **C100 (finding)** so a read of 4097 bytes of a blank chip does not give 4097 bytes 0xFF -/
theorem C100_read_long_wrong : ∃ (fl : Flash) (c : Nat → Vector UInt8 5) (buf : Bytes), 4097 + 5 ≤ buf.length ∧ read fl ⟨some c⟩ 0 4097 buf ≠ some (fl.read 0 4097) := by
  refine ⟨fun _ => 0xFF, fun _ => .replicate 5 0x03, List.replicate 4102 0, by rw [List.length_replicate]; omega, ?_⟩
  rw [C100_read_long _ _ _ _ _ (by rw [List.length_replicate]; omega)]
  intro h
  have := congrArg (fun o : Option Bytes => (o.getD [])[4095]?) h
  simp only [Option.getD_some] at this
  rw [List.getElem?_map, List.getElem?_range (by omega), Flash.read_getElem? _ _ _ _ (by omega)] at this
  revert this
  decide

/-- **C100** a buffer that is too small for its chunk is never overrun: the call panics -/
theorem C100_read_small (fl : Flash) (d : Driver) (addr len : Nat) (buf : Bytes) (h0 : 0 < len) (hl : buf.length < len + 5) : read fl d addr len buf = none := by
  have key : ∀ n done buf, len - done ≤ n → done < len → buf.length < len + 5 → readLoop fl d addr len done buf = none := by
    intro n
    induction n with
    | zero => intro done buf h1 h2; omega
    | succ n ih =>
      intro done buf h1 h2 h3
      rw [readLoop, dif_pos h2]
      by_cases hbig : len - done > 4096
      · simp only [if_pos hbig]
        by_cases hfit : done + 5 + 4096 ≤ buf.length
        · obtain ⟨b1, e1, l1, _⟩ := flashIo_read4k (fl := fl) (d := d) (addr := addr + done) (len := 4096) (off := done) (buf := buf) hfit
          rw [e1]; exact ih _ _ (by omega) (by omega) (by omega)
        · rw [show read4k fl d (addr + done) 4096 done buf = none from if_neg hfit]
      · simp only [if_neg hbig]
        rw [show read4k fl d (addr + done) (len - done) done buf = none from if_neg (by omega)]
  unfold FlashIo.read
  rw [key len 0 buf (by omega) h0 hl]

/-- the data of page `k` of a buffer -/
def pageOf (buf : Bytes) (k : Nat) : Bytes := (buf.drop (5 + 256 * k)).take 256

theorem flashIo_write256 {d : Driver} {addr off : Nat} {buf : Bytes} (h : off + 261 ≤ buf.length) :
    ∃ b, write256 d addr off buf = some (.page addr ((buf.drop (off + 5)).take 256), b) ∧ b.length = buf.length ∧ b.drop (off + 5) = buf.drop (off + 5) := by
  have hs : (d.scratch addr ((buf.drop off).take 5)).length = 5 := flashIo_scratch_length _ _ _ (by simp; omega)
  refine ⟨_, if_pos h, ?_, ?_⟩
  · simp only [List.length_append, List.length_take, List.length_drop, hs]; omega
  · rw [List.drop_append_of_le_length (by simp [hs]; omega), List.drop_eq_nil_of_le (by simp [hs]; omega)]; rfl

theorem flashIo_writeLoop (d : Driver) (addr n : Nat) : ∀ m k buf, m = n - k → k ≤ n → 256 * n + 5 ≤ buf.length →
    writeLoop d addr (256 * n) (256 * k) buf = some ((List.range' k m).map fun j => .page (addr + 256 * j) (pageOf buf j)) := by
  intro m
  induction m with
  | zero => intro k buf h1 h2 _; rw [writeLoop, dif_neg (by omega)]; rfl
  | succ m ih =>
    intro k buf h1 h2 h3
    rw [writeLoop, dif_pos (by omega)]
    obtain ⟨b, e, l, g⟩ := flashIo_write256 (d := d) (addr := addr + 256 * k) (off := 256 * k) (buf := buf) (by omega)
    rw [e]; simp only []
    rw [show 256 * k + (if 256 * n - 256 * k > 256 then 256 else 256 * n - 256 * k) = 256 * (k + 1) by split <;> omega, ih (k + 1) b (by omega) (by omega) (by omega)]
    simp only [List.range'_succ, List.map_cons, Option.some.injEq]
    congr 1
    · rw [pageOf, show 256 * k + 5 = 5 + 256 * k by omega]
    · apply List.map_congr_left
      intro j hj
      have hj := List.mem_range'_1.mp hj
      have : b.drop (5 + 256 * j) = buf.drop (5 + 256 * j) := by
        have := congrArg (List.drop (256 * (j - k))) g
        rw [List.drop_drop, List.drop_drop] at this
        rw [show 5 + 256 * j = 256 * k + 5 + 256 * (j - k) by omega]; exact this
      rw [pageOf, this, pageOf]

/-- **C100** a write of whole pages issues exactly the page programs with the data of the buffer, in order, on every driver: the scratch bytes of a page overwrite only data that is already stored -/
theorem C100_write (d : Driver) (addr n : Nat) (buf : Bytes) (hl : 256 * n + 5 ≤ buf.length) :
    write d addr (256 * n) buf = some ((List.range n).map fun j => .page (addr + 256 * j) (pageOf buf j)) := by
  have := flashIo_writeLoop d addr n n 0 buf (by omega) (by omega) hl
  rw [Nat.mul_zero] at this
  rw [write, this, List.range_eq_range']

/-- **C100** so writing whole pages to an erased area and reading them back gives the data, on any driver -/
theorem C100_write_read (fl : Flash) (d : Driver) (addr n : Nat) (buf rbuf : Bytes) (hl : 256 * n + 5 ≤ buf.length) (hr : 256 * n + 5 ≤ rbuf.length) (hn : 256 * n ≤ 4096)
    (he : ∀ i, i < 256 * n → fl (addr + i) = 0xFF) : ∃ ops, write d addr (256 * n) buf = some ops ∧ read (applyOps fl ops) d addr (256 * n) rbuf = some ((buf.drop 5).take (256 * n)) := by
  refine ⟨_, C100_write d addr n buf hl, ?_⟩
  rw [C100_read _ _ _ _ _ hn hr]
  have key : ∀ m, m ≤ n → ∀ i, applyOps fl ((List.range m).map fun j => FlashOp.page (addr + 256 * j) (pageOf buf j)) (addr + i) = if i < 256 * m then buf.getD (5 + i) 0xFF else fl (addr + i) := by
    intro m
    induction m with
    | zero => intro _ i; rw [if_neg (by omega)]; rfl
    | succ m ih =>
      intro hm i
      rw [List.range_succ, List.map_append, applyOps_append]
      show (if addr + 256 * m ≤ addr + i ∧ addr + i < addr + 256 * m + 256 then _ &&& (pageOf buf m).getD (addr + i - (addr + 256 * m)) 0xFF else _) = _
      rw [ih (by omega) i]
      by_cases h1 : addr + 256 * m ≤ addr + i ∧ addr + i < addr + 256 * m + 256
      · rw [if_pos h1, if_neg (by omega), if_pos (by omega), he i (by omega), pageOf]
        simp only [List.getD_eq_getElem?_getD]
        rw [List.getElem?_take_of_lt (by omega), List.getElem?_drop, show 5 + 256 * m + (addr + i - (addr + 256 * m)) = 5 + i by omega]
        have : ∀ x : UInt8, (0xFF : UInt8) &&& x = x := by
          intro x; apply UInt8.eq_of_toBitVec_eq; show (255#8 : BitVec 8) &&& x.toBitVec = x.toBitVec; exact BitVec.allOnes_and (w := 8)
        exact this _
      · rw [if_neg h1]
        by_cases h2 : i < 256 * m
        · rw [if_pos h2, if_pos (by omega)]
        · rw [if_neg h2, if_neg (by omega)]
  congr 1
  apply List.ext_getElem?
  intro i
  by_cases hi : i < 256 * n
  · rw [Flash.read_getElem? _ _ _ _ hi, key n (by omega) i, if_pos hi, List.getElem?_take_of_lt hi, List.getElem?_drop, List.getD_eq_getElem?_getD, List.getElem?_eq_getElem (by omega)]
    rfl
  · rw [List.getElem?_eq_none (by rw [Flash.read_length]; omega), List.getElem?_eq_none (by simp; omega)]

/-- **C100 (finding)** a length that is not a multiple of 256 still programs whole pages: what lies behind the data in the buffer is stored too -/
theorem C100_write_odd (d : Driver) (addr : Nat) (buf : Bytes) (h : 261 ≤ buf.length) : write d addr 1 buf = some [.page addr (pageOf buf 0)] := by
  rw [write, writeLoop, dif_pos (by omega)]
  obtain ⟨b, e, _⟩ := flashIo_write256 (d := d) (addr := addr + 0) (off := 0) (buf := buf) (by omega)
  rw [e]; simp only []
  rw [writeLoop, dif_neg (by decide)]
  rfl

/-! ### The hypotheses can be met -/

/-- 4096 bytes into a buffer of 4101, a driver that uses the scratch bytes -/
example : read (fun a => UInt8.ofNat a) ⟨some fun _ => .replicate 5 0x03⟩ 4096 4096 (List.replicate 4101 0) = some (Flash.read (fun a => UInt8.ofNat a) 4096 4096) :=
  C100_read _ _ _ _ _ (by omega) (by rw [List.length_replicate]; omega)

end Verif.Props
