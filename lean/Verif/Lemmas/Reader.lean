import Verif.Spec.FileStream
/-
The reader delivers the stream of Verif/Spec/FileStream.lean.
-/
namespace Verif.Vlfs
open Verif Verif.Spec

theorem Flash.read_take (fl : Flash) (a n k : Nat) (h : k ≤ n) : (fl.read a n).take k = fl.read a k := by
  obtain ⟨m, rfl⟩ : ∃ m, n = k + m := ⟨n - k, by omega⟩
  rw [Flash.read_add, List.take_left' (Flash.read_length ..)]

theorem Flash.read_drop (fl : Flash) (a n k : Nat) (h : k ≤ n) : (fl.read a n).drop k = fl.read (a + k) (n - k) := by
  obtain ⟨m, rfl⟩ : ∃ m, n = k + m := ⟨n - k, by omega⟩
  rw [Flash.read_add, List.drop_left' (Flash.read_length ..), Nat.add_sub_cancel_left]

/-- pages `p`, `p+1`, ... of a sector -/
def pagesFrom (crc : Bytes → UInt32) (fl : Flash) (s n p : Nat) : List Item :=
  (List.range' p ((n + 251) / 252 - p)).flatMap (pageItems crc fl s n)

theorem pagesFrom_zero (crc : Bytes → UInt32) (fl : Flash) (s : Nat) :
    pagesFrom crc fl s (sectorLength fl s) 0 = sectorItems crc fl s := by
  unfold pagesFrom sectorItems
  rw [List.range_eq_range', Nat.sub_zero]

theorem pagesFrom_nil (crc : Bytes → UInt32) (fl : Flash) (s n p : Nat) (h : n ≤ 252 * p) : pagesFrom crc fl s n p = [] := by
  unfold pagesFrom
  rw [show (n + 251) / 252 - p = 0 by omega]; rfl

theorem pagesFrom_cons (crc : Bytes → UInt32) (fl : Flash) (s n p : Nat) (h : 252 * p < n) :
    pagesFrom crc fl s n p = pageItems crc fl s n p ++ pagesFrom crc fl s n (p + 1) := by
  unfold pagesFrom
  rw [show (n + 251) / 252 - p = ((n + 251) / 252 - (p + 1)) + 1 by omega, List.range'_succ, List.flatMap_cons]

/-- what a reader has still to read from the chip, and a bound on the number of loop iterations left -/
inductive RPend (crc : Bytes → UInt32) (fl : Flash) : FileReader → List Item → Nat → Prop
  | eof (r : FileReader) (hs : r.sector = none) : RPend crc fl r [] 0
  | fresh (r : FileReader) (s : Nat) (l : List Nat) (hs : r.sector = some s) (hp : r.page = 0) (hl : r.length = .notRead)
      (hr : r.readLen = 0) (hc : Chain fl (some s) (s :: l)) : RPend crc fl r (fileItems crc fl (s :: l)) (40 * (l.length + 1))
  | inside (r : FileReader) (s : Nat) (l : List Nat) (hs : r.sector = some s) (hp : r.page ≤ 15)
      (hl : (r.length = .read (sectorLength fl s) ∧ r.readLen = min (252 * r.page) (sectorLength fl s)) ∨
        (r.length = .unknown ∧ sectorLength fl s = 4016))
      (hc : Chain fl (some s) (s :: l)) :
      RPend crc fl r (pagesFrom crc fl s (sectorLength fl s) r.page ++ fileItems crc fl l) (40 * l.length + 38 - 2 * r.page)

theorem sectorLength_le (fl : Flash) (s : Nat) : sectorLength fl s ≤ 4016 := by
  unfold sectorLength
  split
  · omega
  · split <;> omega

/-- the state after moving to the next sector -/
theorem RPend.setSector (crc : Bytes → UInt32) (fl : Flash) (r : FileReader) (next : Nat) (l : List Nat)
    (hc : Chain fl (if next = 0xFFFF then none else some next) l) (ah : Bytes) :
    RPend crc fl { r.setSector next with ahead := ah } (fileItems crc fl l) (40 * l.length) := by
  by_cases h : next = 0xFFFF
  · rw [if_pos h] at hc
    cases hc
    exact .eof _ (by simp [FileReader.setSector, h])
  · rw [if_neg h] at hc
    cases hc with
    | cons _ n2 l hm ht =>
      exact .fresh _ next l (by simp [FileReader.setSector, h]) rfl rfl rfl (.cons next n2 l hm ht)

theorem chain_next {fl : Flash} {s : Nat} {l : List Nat} (hc : Chain fl (some s) (s :: l)) :
    ∃ next, mostCommonU16 (fl.read (s * 4096 + 4096 - 8) 8) = some next ∧ Chain fl (if next = 0xFFFF then none else some next) l := by
  cases hc with
  | cons _ next l h ht => exact ⟨next, h, ht⟩

theorem lastPage_tail (s : Nat) : s * 4096 + 256 * 15 + (PAGE_SIZE - 8) = s * 4096 + 4096 - 8 := by
  have : PAGE_SIZE - 8 = 248 := by decide
  rw [this]; omega

/-- outcome of `read_next_page` -/
def PageOut (crc : Bytes → UInt32) (fl : Flash) (items : List Item) (c : Nat) (res : Except Err ReadStatus × FileReader) : Prop :=
  (res.1 = .ok .ok ∧ ∃ items' c', RPend crc fl res.2 items' c' ∧ items = res.2.ahead.map .byte ++ items' ∧ c' + 2 ≤ c) ∨
  (∃ a, res.1 = .ok (.corruptedPage a) ∧ ∃ items' c', RPend crc fl res.2 items' c' ∧ res.2.ahead = [] ∧ items = .bad a :: items' ∧ c' ≤ c)

theorem readPage_spec {crc : Bytes → UInt32} {fl : Flash} {r : FileReader} {s : Nat} {l : List Nat} {u : Option Nat} (hs : r.sector = some s) (hp : r.page ≤ 15)
    (hl : (r.length = .read (sectorLength fl s) ∧ r.readLen = min (252 * r.page) (sectorLength fl s) ∧
        u = some (sectorLength fl s - r.readLen)) ∨
        (r.length = .unknown ∧ sectorLength fl s = 4016 ∧ u = none))
    (hc : Chain fl (some s) (s :: l)) (hlt : 252 * r.page < sectorLength fl s) :
    PageOut crc fl (pagesFrom crc fl s (sectorLength fl s) r.page ++ fileItems crc fl l) (40 * l.length + 38 - 2 * r.page)
      (r.readPage crc fl (s * SECTOR_SIZE) u) := by
  have hle := sectorLength_le fl s
  generalize hN : sectorLength fl s = n at *
  have hn : pageLen u (r.page == 15) = min (n - 252 * r.page) 252 := by
    unfold pageLen
    rcases hl with ⟨_, h2, rfl⟩ | ⟨_, h2, rfl⟩
    · simp only [h2]
      by_cases h : r.page = 15
      · simp [h]; omega
      · have : ¬ r.page == 15 := by simpa using h
        simp only [this]; simp; omega
    · by_cases h : r.page = 15
      · simp [h]; omega
      · have : ¬ r.page == 15 := by simpa using h
        simp only [this]; simp; omega
  rw [pagesFrom_cons _ _ _ _ _ hlt, List.append_assoc]
  unfold FileReader.readPage
  simp only [hn]
  generalize hk : min (n - 252 * r.page) 252 = k at *
  have hk1 : k ≤ 252 := by omega
  have hpad : (k + 3) / 4 * 4 ≤ 252 := by omega
  have hkp : k ≤ (k + 3) / 4 * 4 := by omega
  have hpad15 : r.page = 15 → (k + 3) / 4 * 4 ≤ 236 := by omega
  have haddr : s * SECTOR_SIZE + r.page * PAGE_SIZE = s * 4096 + 256 * r.page := by omegac
  rw [haddr]
  -- the parts of the page that are looked at
  have hlen : (k + 3) / 4 * 4 + 4 ≤ (if (r.page == 15) = true then 256 else (k + 3) / 4 * 4 + 4) := by
    split <;> omega
  have ht : ∀ j, j ≤ (k + 3) / 4 * 4 → (fl.read (s * 4096 + 256 * r.page) (if (r.page == 15) = true then 256 else (k + 3) / 4 * 4 + 4)).take j
      = fl.read (s * 4096 + 256 * r.page) j := fun j hj => Flash.read_take _ _ _ _ (by omega)
  have hd : ((fl.read (s * 4096 + 256 * r.page) (if (r.page == 15) = true then 256 else (k + 3) / 4 * 4 + 4)).drop ((k + 3) / 4 * 4)).take 4
      = fl.read (s * 4096 + 256 * r.page + (k + 3) / 4 * 4) 4 := by
    rw [Flash.read_drop _ _ _ _ (by omega), Flash.read_take _ _ _ _ (by omega)]
  rw [hd, ht _ (Nat.le_refl _), ht _ hkp]
  have hpi : pageItems crc fl s n r.page =
      if (crc (fl.read (s * 4096 + 256 * r.page) ((k + 3) / 4 * 4))).toNat = beNat (fl.read (s * 4096 + 256 * r.page + (k + 3) / 4 * 4) 4)
      then (fl.read (s * 4096 + 256 * r.page) k).map .byte else [.bad (s * 4096 + 256 * r.page)] := by
    unfold pageItems
    simp only [hk]
  rw [hpi]
  -- the state after the page
  have fin : ∀ (r2 : FileReader) items' c', (∀ ah, RPend crc fl { r2 with ahead := ah } items' c') → c' + 2 ≤ 40 * l.length + 38 - 2 * r.page →
      pagesFrom crc fl s n (r.page + 1) ++ fileItems crc fl l = items' →
      PageOut crc fl ((if (crc (fl.read (s * 4096 + 256 * r.page) ((k + 3) / 4 * 4))).toNat = beNat (fl.read (s * 4096 + 256 * r.page + (k + 3) / 4 * 4) 4)
          then (fl.read (s * 4096 + 256 * r.page) k).map .byte else [.bad (s * 4096 + 256 * r.page)]) ++
          (pagesFrom crc fl s n (r.page + 1) ++ fileItems crc fl l)) (40 * l.length + 38 - 2 * r.page)
        (if (crc (fl.read (s * 4096 + 256 * r.page) ((k + 3) / 4 * 4))).toNat ≠ beNat (fl.read (s * 4096 + 256 * r.page + (k + 3) / 4 * 4) 4)
          then (.ok (.corruptedPage (s * 4096 + 256 * r.page)), { r2 with ahead := [] })
          else (.ok .ok, { r2 with ahead := fl.read (s * 4096 + 256 * r.page) k })) := by
    intro r2 items' c' hR hcost hit
    rw [hit]
    by_cases hcrc : (crc (fl.read (s * 4096 + 256 * r.page) ((k + 3) / 4 * 4))).toNat = beNat (fl.read (s * 4096 + 256 * r.page + (k + 3) / 4 * 4) 4)
    · rw [if_pos hcrc, if_neg (by simpa using hcrc)]
      exact Or.inl ⟨rfl, items', c', hR _, rfl, hcost⟩
    · rw [if_neg hcrc, if_pos hcrc]
      exact Or.inr ⟨_, rfl, items', c', hR _, rfl, rfl, by omega⟩
  by_cases h15 : r.page = 15
  · have hb : (r.page == 15) = true := by simp [h15]
    simp only [hb, if_true]
    obtain ⟨next, hnx, hcn⟩ := chain_next hc
    have : (fl.read (s * 4096 + 256 * r.page) 256).drop (PAGE_SIZE - 8) = fl.read (s * 4096 + 4096 - 8) 8 := by
      rw [Flash.read_drop _ _ _ _ (by omegac), h15]
      have e1 : s * 4096 + 256 * 15 + (PAGE_SIZE - 8) = s * 4096 + 4096 - 8 := lastPage_tail s
      have e2 : 256 - (PAGE_SIZE - 8) = 8 := by decide
      rw [e1, e2]
    rw [this, hnx]
    simp only
    refine fin _ _ (40 * l.length) (fun ah => RPend.setSector crc fl _ next l hcn ah) (by omega) ?_
    rw [pagesFrom_nil _ _ _ _ _ (by omega), List.nil_append]
  · have hb : (r.page == 15) = false := by simp [h15]
    simp only [hb, Bool.false_eq_true, if_false]
    have := fin { r with readLen := r.readLen + k, page := r.page + 1 } (pagesFrom crc fl s n (r.page + 1) ++ fileItems crc fl l)
      (40 * l.length + 38 - 2 * (r.page + 1)) (fun ah => ?_) (by omega) rfl
    · exact this
    · have := RPend.inside (crc := crc) (fl := fl) { r with readLen := r.readLen + k, page := r.page + 1, ahead := ah } s l hs
        (by show r.page + 1 ≤ 15; omega) (by
          rw [hN]
          rcases hl with ⟨h1, h2, _⟩ | ⟨h1, h2, _⟩
          · left; exact ⟨h1, by show r.readLen + k = min (252 * (r.page + 1)) n; omega⟩
          · right; exact ⟨h1, h2⟩) hc
      rw [hN] at this
      exact this

theorem readNextPage_spec {crc : Bytes → UInt32} {fl : Flash} {r : FileReader} {items : List Item} {c : Nat}
    (h : RPend crc fl r items c) :
    (items = [] ∧ r.readNextPage crc fl = (.ok .endOfFile, { r with ahead := [] }) ∧ RPend crc fl { r with ahead := [] } [] 0) ∨
    PageOut crc fl items c (r.readNextPage crc fl) := by
  -- a sector that has been read completely
  have jump : ∀ (r : FileReader) (s : Nat) (l : List Nat), Chain fl (some s) (s :: l) → ∀ c, 40 * l.length + 2 ≤ c →
      PageOut crc fl (fileItems crc fl l) c
        (match mostCommonU16 (fl.read (s * SECTOR_SIZE + SECTOR_SIZE - 8) 8) with
          | none => (.error .panic, r)
          | some next => (.ok .ok, { r.setSector next with ahead := [] })) := by
    intro r s l hc c hcost
    obtain ⟨next, hnx, hcn⟩ := chain_next hc
    have hnx' : mostCommonU16 (fl.read (s * SECTOR_SIZE + SECTOR_SIZE - 8) 8) = some next := hnx
    rw [hnx']
    exact Or.inl ⟨rfl, _, _, RPend.setSector crc fl r next l hcn [], rfl, hcost⟩
  cases h with
  | eof hs =>
    left
    refine ⟨rfl, ?_, .eof _ hs⟩
    unfold FileReader.readNextPage
    rw [hs]
  | fresh s l hs hp hl hr hc =>
    right
    obtain ⟨rs, rp, rl, rr, rid, rah⟩ := r
    simp only at hs hp hl hr
    subst hs hp hl hr
    unfold FileReader.readNextPage
    simp only [ne_eq, not_true_eq_false, and_false, if_false, if_true]
    have hit : fileItems crc fl (s :: l) = pagesFrom crc fl s (sectorLength fl s) 0 ++ fileItems crc fl l := by
      rw [pagesFrom_zero]; rfl
    rw [hit]
    have hRL : readLength fl (s * SECTOR_SIZE) = .read (sectorLength fl s) ∨
        (readLength fl (s * SECTOR_SIZE) = .unknown ∧ sectorLength fl s = 4016) := by
      unfold readLength sectorLength
      rw [show s * SECTOR_SIZE + SECTOR_SIZE - 8 - 8 = s * 4096 + 4080 by omegac]
      cases mostCommonU16 (fl.read (s * 4096 + 4080) 8) with
      | none => right; exact ⟨rfl, rfl⟩
      | some n =>
        left
        by_cases h : n ≤ 4016
        · simp [h]
        · simp [h]
    have weaken : ∀ res, PageOut crc fl (pagesFrom crc fl s (sectorLength fl s) 0 ++ fileItems crc fl l) (40 * l.length + 38 - 2 * 0) res →
        PageOut crc fl (pagesFrom crc fl s (sectorLength fl s) 0 ++ fileItems crc fl l) (40 * (l.length + 1)) res := by
      intro res this
      rcases this with ⟨h1, i, c', h2, h3, h4⟩ | ⟨a, h1, i, c', h2, h3, h4, h5⟩
      · exact Or.inl ⟨h1, i, c', h2, h3, by omega⟩
      · exact Or.inr ⟨a, h1, i, c', h2, h3, h4, by omega⟩
    rcases hRL with h | ⟨h, h4⟩
    · rw [h]
      simp only [Nat.sub_zero]
      by_cases h0 : sectorLength fl s = 0
      · rw [if_pos h0, pagesFrom_nil _ _ _ _ _ (by omega), List.nil_append]
        exact jump _ s l hc _ (by omega)
      · rw [if_neg h0]
        exact weaken _ (readPage_spec (crc := crc) (r := ⟨some s, 0, .read (sectorLength fl s), 0, rid, rah⟩) (u := some (sectorLength fl s)) rfl
          (Nat.zero_le _) (Or.inl ⟨rfl, by simp, by simp⟩) hc (by show 252 * 0 < _; omega))
    · rw [h]
      simp only
      exact weaken _ (readPage_spec (crc := crc) (r := ⟨some s, 0, .unknown, 0, rid, rah⟩) (u := none) rfl
          (Nat.zero_le _) (Or.inr ⟨rfl, h4, rfl⟩) hc (by show 252 * 0 < _; omega))
  | inside s l hs hp hl hc =>
    right
    unfold FileReader.readNextPage
    rw [hs]
    have hnn : r.length ≠ .notRead := by
      rcases hl with ⟨h, _⟩ | ⟨h, _⟩ <;> rw [h] <;> simp
    simp only [hnn, false_and, if_false]
    rcases hl with ⟨h1, h2⟩ | ⟨h1, h2⟩
    · rw [h1]
      simp only
      by_cases h0 : sectorLength fl s - r.readLen = 0
      · rw [if_pos h0, pagesFrom_nil _ _ _ _ _ (by omega), List.nil_append]
        exact jump _ s l hc _ (by omega)
      · rw [if_neg h0]
        exact readPage_spec hs hp (Or.inl ⟨h1, h2, rfl⟩) hc (by omega)
    · rw [h1]
      simp only
      exact readPage_spec hs hp (Or.inr ⟨h1, h2, rfl⟩) hc (by omega)

theorem consume_bytes (d : Bytes) (items : List Item) (n : Nat) (h : d.length ≤ n) :
    consume (d.map .byte ++ items) n = (d ++ (consume items (n - d.length)).1, (consume items (n - d.length)).2) := by
  induction d generalizing n with
  | nil => simp
  | cons b d ih =>
    cases n with
    | zero => simp at h
    | succ n =>
      rw [List.map_cons, List.cons_append, consume, ih n (by simpa using h)]
      simp

theorem consume_bytes_part (d : Bytes) (items : List Item) (n : Nat) (h : n ≤ d.length) :
    consume (d.map .byte ++ items) n = (d.take n, .ok, (d.drop n).map .byte ++ items) := by
  induction d generalizing n with
  | nil =>
    have : n = 0 := by simpa using h
    subst this
    simp [consume]
  | cons b d ih =>
    cases n with
    | zero => simp [consume]
    | succ n => simp [consume, ih n (by simpa using h)]

theorem consume_zero (items : List Item) : consume items 0 = ([], .ok, items) := by
  cases items <;> simp [consume]

/-- what a reader delivers: read-ahead bytes, then what is pending -/
def RInv (crc : Bytes → UInt32) (fl : Flash) (r : FileReader) (items : List Item) (c : Nat) : Prop :=
  ∃ its, RPend crc fl r its c ∧ items = r.ahead.map .byte ++ its

theorem readLoop_spec {crc : Bytes → UInt32} {fl : Flash} : ∀ (fuel : Nat) (r : FileReader) (its : List Item) (c length : Nat) (acc : Bytes),
    RPend crc fl r its c → acc.length ≤ length → c + 2 + (if r.ahead = [] then 0 else 1) ≤ fuel →
    ∃ r' c', FileReader.readLoop crc fl fuel r length acc =
        (.ok (acc ++ (consume (r.ahead.map .byte ++ its) (length - acc.length)).1,
              (consume (r.ahead.map .byte ++ its) (length - acc.length)).2.1), r') ∧
      RInv crc fl r' (consume (r.ahead.map .byte ++ its) (length - acc.length)).2.2 c' ∧ c' ≤ c := by
  intro fuel
  induction fuel with
  | zero => intro r its c length acc _ _ h; exact absurd h (by omega)
  | succ fuel ih =>
    intro r its c length acc hR hacc hf
    rw [FileReader.readLoop]
    by_cases h1 : acc.length < length
    · rw [if_pos h1]
      by_cases h2 : r.ahead.length = 0
      · rw [if_pos h2]
        have hnil : r.ahead = [] := List.length_eq_zero_iff.mp h2
        rw [hnil, List.map_nil, List.nil_append]
        rw [if_pos hnil] at hf
        obtain ⟨n, hn⟩ : ∃ n, length - acc.length = n + 1 := ⟨length - acc.length - 1, by omega⟩
        rcases readNextPage_spec hR with ⟨he, hres, hR'⟩ | ⟨hres, its', c', hR', hit, hc⟩ | ⟨a, hres, its', c', hR', hah, hit, hc⟩
        · subst he
          rw [hres, hn]
          refine ⟨_, 0, by simp [consume], ⟨[], hR', by simp [consume]⟩, by omega⟩
        · generalize hq : r.readNextPage crc fl = q at *
          obtain ⟨q1, q2⟩ := q
          simp only at hres
          subst hres
          simp only
          obtain ⟨r', c'', h3, h4, h5⟩ := ih q2 its' c' length acc hR' hacc (by split <;> omega)
          rw [hit]
          exact ⟨r', c'', h3, h4, by omega⟩
        · generalize hq : r.readNextPage crc fl = q at *
          obtain ⟨q1, q2⟩ := q
          simp only at hres
          subst hres
          simp only
          rw [hit, hn]
          simp only at hah
          refine ⟨q2, c', by simp [consume], ⟨its', hR', by simp [consume, hah]⟩, hc⟩
      · rw [if_neg h2]
        have hne : r.ahead ≠ [] := fun h => h2 (by rw [h]; rfl)
        rw [if_neg hne] at hf
        have hset : ∀ ah, RPend crc fl { r with ahead := ah } its c := by
          intro ah
          cases hR with
          | eof hs => exact .eof _ hs
          | fresh s l a b c d e => exact .fresh _ s l a b c d e
          | inside s l a b c d => exact .inside { r with ahead := ah } s l a b c d
        simp only
        by_cases h3 : r.ahead.length ≤ length - acc.length
        · rw [if_pos h3]
          obtain ⟨r', c'', h4, h5, h6⟩ := ih { r with ahead := [] } its c length (acc ++ r.ahead) (hset []) (by rw [List.length_append]; omega)
            (by show c + 2 + (if ([] : Bytes) = [] then 0 else 1) ≤ fuel; rw [if_pos rfl]; omega)
          rw [consume_bytes _ _ _ h3]
          simp only [List.map_nil, List.nil_append, List.length_append, Nat.sub_sub] at h4 h5 ⊢
          rw [h4]
          exact ⟨r', c'', by rw [List.append_assoc], h5, h6⟩
        · rw [if_neg h3]
          have hlen : acc.length + (length - acc.length) = length := by omega
          rw [consume_bytes_part _ _ _ (by omega)]
          have e : ¬ (acc ++ r.ahead.take (length - acc.length)).length < length := by
            rw [List.length_append, List.length_take]; omega
          cases fuel with
          | zero => omega
          | succ f =>
            rw [FileReader.readLoop, if_neg e]
            exact ⟨_, c, rfl, ⟨its, hset _, rfl⟩, Nat.le_refl _⟩
    · rw [if_neg h1]
      have e : length - acc.length = 0 := by omega
      rw [e, consume_zero]
      exact ⟨r, c, by simp, ⟨its, hR, rfl⟩, by omega⟩

theorem maxReads_eq : maxReads = 1000000 := by unfold maxReads; rfl

theorem readSlice_spec {crc : Bytes → UInt32} {fl : Flash} {r : FileReader} {items : List Item} {c : Nat} (n : Nat)
    (h : RInv crc fl r items c) (hc : c ≤ 999990) :
    ∃ r' c', r.readSlice crc fl n = (.ok ((consume items n).1, (consume items n).2.1), r') ∧
      RInv crc fl r' (consume items n).2.2 c' ∧ c' ≤ c := by
  obtain ⟨its, hR, rfl⟩ := h
  have := readLoop_spec maxReads r its c n [] hR (by simp) (by rw [maxReads_eq]; split <;> omega)
  simpa [FileReader.readSlice] using this

theorem RInv_new {crc : Bytes → UInt32} {fl : Flash} {first : Option Nat} {l : List Nat} (h : Chain fl first l) (id : Nat) :
    RInv crc fl (FileReader.new first id) (fileItems crc fl l) (40 * l.length) := by
  cases h with
  | nil => exact ⟨[], .eof _ rfl, rfl⟩
  | cons s next l hm ht => exact ⟨_, .fresh _ s l rfl rfl rfl rfl (.cons s next l hm ht), rfl⟩

end Verif.Vlfs
