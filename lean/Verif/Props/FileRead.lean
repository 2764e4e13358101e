import Verif.Lemmas.Reader
import Verif.Lemmas.Stored
/-
C09: corrupted pages are reported, never returned.
-/
namespace Verif.Props
open Verif Verif.Vlfs Verif.Spec

/-! ### Specification -/

/-- The first `n` bytes of the page at `addr` are covered by a matching CRC: the four bytes behind them (after padding
to a multiple of four) are the CRC of the padded data. -/
def CrcMatches (crc : Bytes → UInt32) (fl : Flash) (addr n : Nat) : Prop :=
  (crc (fl.read addr ((n + 3) / 4 * 4))).toNat = beNat (fl.read (addr + (n + 3) / 4 * 4) 4)

/-- a byte that is stored in a page of the chip, within a part of the page that is covered by a matching CRC -/
def FromGoodPage (crc : Bytes → UInt32) (fl : Flash) (b : UInt8) : Prop :=
  ∃ page n i, page % 256 = 0 ∧ n ≤ 252 ∧ i < n ∧ CrcMatches crc fl page n ∧ b = fl (page + i)

/-! ### Any content of the chip -/

private def RGood (crc : Bytes → UInt32) (fl : Flash) (r : FileReader) : Prop :=
  ∀ b ∈ r.ahead, FromGoodPage crc fl b

private theorem readPage_good {crc : Bytes → UInt32} {fl : Flash} {r : FileReader} (s : Nat) (u : Option Nat)
    (h : RGood crc fl r) : RGood crc fl (r.readPage crc fl (s * 4096) u).2 ∧
      (∀ a, (r.readPage crc fl (s * 4096) u).1 = .ok (.corruptedPage a) → a % 256 = 0 ∧ ∃ n, n ≤ 252 ∧ ¬ CrcMatches crc fl a n) := by
  obtain ⟨sec, page, len, rl, id, ahead⟩ := r
  simp only [FileReader.readPage]
  generalize hl : (page == 15) = isLast
  have hn : pageLen u isLast ≤ 252 := by
    unfold pageLen; cases u <;> cases isLast <;> simp <;> omega
  have hn2 : isLast = true → pageLen u isLast ≤ 236 := by
    intro h; subst h; unfold pageLen; cases u <;> simp; omega
  generalize pageLen u isLast = n at hn hn2
  generalize hR : (if isLast = true then 256 else (n + 3) / 4 * 4 + 4) = R
  have hR1 : (n + 3) / 4 * 4 + 4 ≤ R := by
    rw [← hR]; split
    · rename_i h; have := hn2 h; omega
    · omega
  have hp256 : PAGE_SIZE = 256 := rfl
  have e1 : (fl.read (s * 4096 + page * PAGE_SIZE) R).take ((n + 3) / 4 * 4) = fl.read (s * 4096 + page * PAGE_SIZE) ((n + 3) / 4 * 4) :=
    Flash.read_take _ _ _ _ (by omega)
  have e2 : ((fl.read (s * 4096 + page * PAGE_SIZE) R).drop ((n + 3) / 4 * 4)).take 4
      = fl.read (s * 4096 + page * PAGE_SIZE + (n + 3) / 4 * 4) 4 := by
    rw [Flash.read_drop _ _ _ _ (by omega), Flash.read_take _ _ _ _ (by omega)]
  have e3 : (fl.read (s * 4096 + page * PAGE_SIZE) R).take n = fl.read (s * 4096 + page * PAGE_SIZE) n :=
    Flash.read_take _ _ _ _ (by omega)
  rw [e1, e2, e3]
  have hal : (s * 4096 + page * PAGE_SIZE) % 256 = 0 := by rw [hp256]; omega
  have good : ∀ r' : FileReader,
      let res := (if (crc (fl.read (s * 4096 + page * PAGE_SIZE) ((n + 3) / 4 * 4))).toNat ≠
        beNat (fl.read (s * 4096 + page * PAGE_SIZE + (n + 3) / 4 * 4) 4) then
          ((Except.ok (ReadStatus.corruptedPage (s * 4096 + page * PAGE_SIZE)) : Except Err ReadStatus), { r' with ahead := [] })
        else (.ok .ok, { r' with ahead := fl.read (s * 4096 + page * PAGE_SIZE) n }))
      RGood crc fl res.2 ∧ (∀ a, res.1 = .ok (.corruptedPage a) → a % 256 = 0 ∧ ∃ n, n ≤ 252 ∧ ¬ CrcMatches crc fl a n) := by
    intro r'
    simp only
    split
    · rename_i hne
      refine ⟨fun b hb => by simp at hb, ?_⟩
      intro a ha
      injection ha with ha; injection ha with ha
      subst ha
      exact ⟨hal, n, hn, hne⟩
    · rename_i heq
      have heq := Decidable.not_not.mp heq
      refine ⟨fun b hb => ?_, fun a ha => by simp at ha⟩
      simp only [Flash.read, List.mem_map, List.mem_range] at hb
      obtain ⟨i, hi, rfl⟩ := hb
      exact ⟨_, n, i, hal, hn, hi, heq, rfl⟩
  split
  · split
    · exact ⟨h, fun a ha => by simp at ha⟩
    · exact good _
  · exact good ⟨sec, page + 1, len, rl + n, id, ahead⟩

private theorem readNextPage_good {crc : Bytes → UInt32} {fl : Flash} {r : FileReader} (h : RGood crc fl r) :
    RGood crc fl (r.readNextPage crc fl).2 ∧
      (∀ a, (r.readNextPage crc fl).1 = .ok (.corruptedPage a) → a % 256 = 0 ∧ ∃ n, n ≤ 252 ∧ ¬ CrcMatches crc fl a n) := by
  have hnil : ∀ r' : FileReader, r'.ahead = [] → RGood crc fl r' := fun r' h b hb => by rw [h] at hb; simp at hb
  unfold FileReader.readNextPage
  split
  · exact ⟨hnil _ rfl, fun a ha => by simp at ha⟩
  · rename_i s hs
    simp only
    split
    · exact ⟨h, fun a ha => by simp at ha⟩
    · have h2 : RGood crc fl (if r.length = .notRead then { r with length := readLength fl (s * SECTOR_SIZE) } else r) := by
        split
        · exact h
        · exact h
      generalize (if r.length = .notRead then { r with length := readLength fl (s * SECTOR_SIZE) } else r) = r2 at h2
      split
      · split
        · split
          · exact ⟨h2, fun a ha => by simp at ha⟩
          · exact ⟨hnil _ rfl, fun a ha => by simp at ha⟩
        · exact readPage_good s _ h2
      · exact readPage_good s _ h2

private theorem readLoop_good {crc : Bytes → UInt32} {fl : Flash} : ∀ (fuel : Nat) (r : FileReader) (length : Nat) (acc : Bytes),
    RGood crc fl r → (∀ b ∈ acc, FromGoodPage crc fl b) →
    RGood crc fl (r.readLoop crc fl fuel length acc).2 ∧
    (∀ bs st, (r.readLoop crc fl fuel length acc).1 = .ok (bs, st) →
      (∀ b ∈ bs, FromGoodPage crc fl b) ∧
      (∀ a, st = .corruptedPage a → a % 256 = 0 ∧ ∃ n, n ≤ 252 ∧ ¬ CrcMatches crc fl a n)) := by
  intro fuel
  induction fuel with
  | zero =>
    intro r length acc h _
    exact ⟨h, fun bs st hx => by simp [FileReader.readLoop] at hx⟩
  | succ fuel ih =>
    intro r length acc h hacc
    rw [FileReader.readLoop]
    split
    · split
      · have hp := readNextPage_good h
        cases hres : r.readNextPage crc fl with
        | mk res r' =>
        rw [hres] at hp
        cases res with
        | error e => exact ⟨hp.1, fun bs st hx => by simp at hx⟩
        | ok st =>
          cases st with
          | ok => exact ih _ _ _ hp.1 hacc
          | endOfFile =>
            refine ⟨hp.1, fun bs st hx => ?_⟩
            simp at hx
            obtain ⟨rfl, rfl⟩ := hx
            exact ⟨hacc, fun a ha => by simp at ha⟩
          | corruptedPage a =>
            refine ⟨hp.1, fun bs st hx => ?_⟩
            simp at hx
            obtain ⟨rfl, rfl⟩ := hx
            refine ⟨hacc, fun a' ha => ?_⟩
            injection ha with ha; subst ha
            exact hp.2 _ rfl
      · simp only
        split
        · refine ih _ _ _ (fun b hb => by simp at hb) ?_
          intro b hb
          rcases List.mem_append.mp hb with hb | hb
          · exact hacc b hb
          · exact h b hb
        · refine ih _ _ _ (fun b hb => h b (List.mem_of_mem_drop hb)) ?_
          intro b hb
          rcases List.mem_append.mp hb with hb | hb
          · exact hacc b hb
          · exact h b (List.mem_of_mem_take hb)
    · refine ⟨h, fun bs st hx => ?_⟩
      simp at hx
      obtain ⟨rfl, rfl⟩ := hx
      exact ⟨hacc, fun a ha => by simp at ha⟩

/-- **C09 (a)**: whatever the chip contains, and whatever sectors it links: every byte returned by any of a sequence of
reads comes from a page with a matching CRC, and every page reported as corrupted does have a CRC that does not match. -/
theorem returned_bytes_from_good_pages (crc : Bytes → UInt32) (fl : Flash) (first : Option Nat) (id : Nat) (ns : List Nat) :
    ∀ bs st, .ok (bs, st) ∈ reads crc fl (FileReader.new first id) ns →
      (∀ b ∈ bs, FromGoodPage crc fl b) ∧
      (∀ a, st = .corruptedPage a → a % 256 = 0 ∧ ∃ n, n ≤ 252 ∧ ¬ CrcMatches crc fl a n) := by
  have key : ∀ (ns : List Nat) (r : FileReader), RGood crc fl r → ∀ bs st, .ok (bs, st) ∈ reads crc fl r ns →
      (∀ b ∈ bs, FromGoodPage crc fl b) ∧
      (∀ a, st = .corruptedPage a → a % 256 = 0 ∧ ∃ n, n ≤ 252 ∧ ¬ CrcMatches crc fl a n) := by
    intro ns
    induction ns with
    | nil => intro r _ bs st h; simp [reads] at h
    | cons n ns ih =>
      intro r hr bs st h
      have hl := readLoop_good maxReads r n [] hr (by simp)
      rw [reads, List.mem_cons] at h
      rcases h with h | h
      · exact hl.2 bs st h.symm
      · exact ih _ hl.1 bs st h
  exact key ns _ (fun b hb => by simp [FileReader.new] at hb)

/-! ### Files whose sectors can be followed -/

/-- **C09 (b)**: for a file whose sector chain can be followed to its end, any sequence of reads delivers exactly the
stream of the file's pages: the data of every page whose CRC matches in order, and for every page whose CRC does not
match one report in place of its data. No read fails in any other way. -/
theorem reads_deliver_stream (crc : Bytes → UInt32) (fl : Flash) (first : Option Nat) (l : List Nat) (h : Chain fl first l)
    (hl : l.length ≤ 16384) (id : Nat) (ns : List Nat) :
    reads crc fl (FileReader.new first id) ns = (consumes (fileItems crc fl l) ns).map .ok := by
  have key : ∀ (ns : List Nat) (r : FileReader) (items : List Item) (c : Nat), RInv crc fl r items c → c ≤ 999990 →
      reads crc fl r ns = (consumes items ns).map .ok := by
    intro ns
    induction ns with
    | nil => intros; rfl
    | cons n ns ih =>
      intro r items c hr hc
      obtain ⟨r', c', h1, h2, h3⟩ := readSlice_spec n hr hc
      rw [reads, consumes, List.map_cons, h1]
      simp only
      rw [ih r' _ c' h2 (by omega)]
  exact key ns _ _ _ (RInv_new h id) (by omega)

/-! ### Example: a file of 300 bytes whose second page has been damaged -/

/-- a checksum for the examples -/
def demoCrc (b : Bytes) : UInt32 := b.foldl (fun a x => a * 31 + x.toNat.toUInt32) 7

/-- 300 bytes written to sector 40, then one byte of the second page flips -/
def demoDamaged : Flash :=
  let r := (FileWriter.new 40 1).extendLoop demoCrc (fun _ => (0, 0)) 3 SectorsMng.new ⟨fun _ => 0xFF, []⟩
    ((List.range 300).map UInt8.ofNat)
  let fl := (r.2.1.close demoCrc r.2.2.2).flash
  fun a => if a = 40 * 4096 + 256 + 3 then fl a ^^^ 1 else fl a

example : Chain demoDamaged (some 40) [40] := .cons 40 0xFFFF [] (by decide +kernel) .nil

/-- reading 100 bytes three times: the third read hits the damaged page after 52 bytes -/
example : (consumes (fileItems demoCrc demoDamaged [40]) [100, 100, 100, 100]).map (fun r => (r.1.length, r.2))
    = [(100, .ok), (100, .ok), (52, .corruptedPage (40 * 4096 + 256)), (0, .endOfFile)] := by decide +kernel

end Verif.Props
