import Verif.Lemmas.Writer
/-
Appending, flushing and closing, together with the sector manager.
-/
namespace Verif.Vlfs
open Verif Verif.Spec

theorem SectorsMng.Inv.perm {m : SectorsMng} {out out' : List Nat} (h : m.Inv out) (hp : out.Perm out') : m.Inv out' := by
  have hp2 : (out ++ m.ahead ++ m.asyncAhead).Perm (out' ++ m.ahead ++ m.asyncAhead) := (hp.append_right _).append_right _
  refine ⟨h.map, ?_, hp2.nodup_iff.mp h.nodup, ?_, h.lenA, h.lenB⟩
  · intro x hx; rw [h.used x hx, hp2.mem_iff]
  · intro x hx; exact h.range x (hp2.mem_iff.mpr hx)

/-- A file being written: its completed sectors `segs`, the bytes `D` in the current sector, the sectors `rest` that
belong to others, and the sector manager. -/
structure WSt (crc : Bytes → UInt32) (rest : List Nat) (first : Nat) (segs : List (Nat × Bytes)) (w : FileWriter) (D : Bytes)
    (m : SectorsMng) (dev : Dev) : Prop where
  chain : Segs crc dev.flash first segs w.sector
  winv : WInv crc dev.flash w D
  inv : m.Inv (rest ++ (secs segs ++ [w.sector]))
  blank : AheadBlank m dev.flash

/-- A sequence of flash operations of a writer that had completed `segs`: which sectors it may touch, and what the file
contains when it is interrupted. -/
structure Tr (crc : Bytes → UInt32) (rest : List Nat) (first : Nat) (segs : List (Nat × Bytes)) (data : Bytes) (fl : Flash)
    (os : List FlashOp) (own : List Nat) : Prop where
  touch : ∀ o ∈ os, ∀ a, o.touches a → InData (a / 4096) ∧ a / 4096 ∉ rest ∧ a / 4096 ∉ secs segs
  crash : ∀ fl', CrashImage fl os fl' → ∃ l, Stored crc fl' (some first) l ∧ bytesOf segs <+: bytesOf l ∧ bytesOf l <+: data ∧
    secs l <+: own
  ok : OpsOk fl os

theorem secs_prefix {a b : List (Nat × Bytes)} (h : a <+: b) : secs a <+: secs b := h.map _
theorem bytesOf_append (a b : List (Nat × Bytes)) : bytesOf (a ++ b) = bytesOf a ++ bytesOf b := List.flatMap_append
theorem bytesOf_prefix {a b : List (Nat × Bytes)} (h : a <+: b) : bytesOf a <+: bytesOf b := by
  obtain ⟨c, rfl⟩ := h; rw [bytesOf_append]; exact List.prefix_append ..

theorem Tr.append {crc : Bytes → UInt32} {rest : List Nat} {first : Nat} {segs segs2 : List (Nat × Bytes)} {data : Bytes} {fl : Flash}
    {os1 os2 : List FlashOp} {own1 own2 : List Nat} (h1 : Tr crc rest first segs data fl os1 own1)
    (h2 : Tr crc rest first segs2 data (applyOps fl os1) os2 own2) (hs : segs <+: segs2) (ho : own1 <+: own2) :
    Tr crc rest first segs data fl (os1 ++ os2) own2 := by
  refine ⟨?_, ?_, opsOk_append h1.ok h2.ok⟩
  · intro o hm a ha
    rcases List.mem_append.mp hm with hm | hm
    · exact h1.touch o hm a ha
    · obtain ⟨a1, a2, a3⟩ := h2.touch o hm a ha
      exact ⟨a1, a2, fun hx => a3 ((secs_prefix hs).subset hx)⟩
  · intro fl' hc
    rcases crash_append hc with hc | hc
    · obtain ⟨l, b1, b2, b3, b4⟩ := h1.crash fl' hc
      exact ⟨l, b1, b2, b3, b4.trans ho⟩
    · obtain ⟨l, b1, b2, b3, b4⟩ := h2.crash fl' hc
      exact ⟨l, b1, (bytesOf_prefix hs).trans b2, b3, b4⟩

theorem Tr.mono {crc : Bytes → UInt32} {rest : List Nat} {first : Nat} {segs : List (Nat × Bytes)} {data data' : Bytes} {fl : Flash}
    {os : List FlashOp} {own own' : List Nat} (h : Tr crc rest first segs data fl os own) (hd : data <+: data') (ho : own <+: own') :
    Tr crc rest first segs data' fl os own' :=
  ⟨h.touch, fun fl' hc => by
    obtain ⟨l, b1, b2, b3, b4⟩ := h.crash fl' hc
    exact ⟨l, b1, b2, b3.trans hd, b4.trans ho⟩, h.ok⟩

theorem sameSector_of {f g : Flash} {s : Nat} (h : ∀ a, a / 4096 = s → g a = f a) : SameSector f g s := by
  intro j hj
  exact (h (s * 4096 + j) (by omega)).symm

/-- the completed sectors are intact and the current one has no length yet: the file reads as its completed sectors -/
theorem stored_open {crc : Bytes → UInt32} {fl fl' : Flash} {first : Nat} {segs : List (Nat × Bytes)} {cur : Nat}
    (h : Segs crc fl first segs cur) (hs : ∀ s ∈ secs segs, SameSector fl fl' s)
    (hb : ∀ j, 4080 ≤ j → j < 4096 → fl' (cur * 4096 + j) = 0xFF) : Stored crc fl' (some first) (segs ++ [(cur, [])]) :=
  (h.congr hs).stored (Stored.last (secHolds_blank hb))

theorem bytesOf_open (segs : List (Nat × Bytes)) (cur : Nat) : bytesOf (segs ++ [(cur, [])]) = bytesOf segs := by
  rw [bytesOf_append]; simp
theorem bytesOf_snoc (segs : List (Nat × Bytes)) (cur : Nat) (D : Bytes) : bytesOf (segs ++ [(cur, D)]) = bytesOf segs ++ D := by
  rw [bytesOf_append]; simp
theorem secs_snoc (segs : List (Nat × Bytes)) (cur : Nat) (D : Bytes) : secs (segs ++ [(cur, D)]) = secs segs ++ [cur] := by
  simp

theorem WBuf.fields {crc : Bytes → UInt32} {fl : Flash} {w : FileWriter} {D : Bytes} {k : Nat} (h : WBuf crc fl w D k) :
    ∀ j, 4080 ≤ j → j < 4096 → fl (w.sector * 4096 + j) = 0xFF := by
  intro j h1 h2
  have := h.k15
  exact h.blank j (by omega) h2

/-- operations that do not touch the file: interrupted, the file reads as its completed sectors -/
theorem Tr.foreign {crc : Bytes → UInt32} {rest : List Nat} {first : Nat} {segs : List (Nat × Bytes)} {w : FileWriter} {D data : Bytes}
    {fl : Flash} {os : List FlashOp} (hs : Segs crc fl first segs w.sector) (hw : WInv crc fl w D)
    (ht : ∀ o ∈ os, ∀ a, o.touches a → InData (a / 4096) ∧ a / 4096 ∉ rest ++ (secs segs ++ [w.sector]))
    (hok : OpsOk fl os) (hd : bytesOf segs <+: data) :
    Tr crc rest first segs data fl os (secs segs ++ [w.sector]) := by
  refine ⟨?_, ?_, hok⟩
  · intro o ho a ha
    obtain ⟨h1, h2⟩ := ht o ho a ha
    simp only [List.mem_append, List.mem_singleton, not_or] at h2
    exact ⟨h1, h2.1, h2.2.1⟩
  · intro fl' hc
    have same : ∀ a, a / 4096 ∈ secs segs ++ [w.sector] → fl' a = fl a := by
      intro a ha
      refine crash_untouched hc fun o ho hx => ?_
      exact (ht o ho a hx).2 (List.mem_append_right _ ha)
    refine ⟨segs ++ [(w.sector, [])], stored_open hs ?_ ?_, ?_, ?_, ?_⟩
    · intro s hm
      exact sameSector_of fun a ha => same a (by rw [ha]; exact List.mem_append_left _ hm)
    · intro j h1 h2
      rw [same _ (by rw [show (w.sector * 4096 + j) / 4096 = w.sector by omega]; simp)]
      exact hw.fields j h1 h2
    · rw [bytesOf_open]; exact List.prefix_rfl
    · rw [bytesOf_open]; exact hd
    · rw [secs_snoc]; exact List.prefix_rfl

theorem erase_touch {m : SectorsMng} {out : List Nat} (h : m.Inv out) {r : EraseRegion} (hr : RegionFree m r) {a : Nat}
    (ha : (FlashOp.erase r.address (r.len * SECTOR_SIZE)).touches a) : InData (a / 4096) ∧ a / 4096 ∉ out := by
  have h1 : r.address ≤ a ∧ a < r.address + r.len * 4096 := ha
  have h2 : r.address = (r.first + 32) * 4096 := rfl
  rw [h2] at h1
  have hins : r.first + r.len ≤ 16352 := hr.inside
  have hd : InData (a / 4096) := by
    constructor
    · show 32 ≤ a / 4096; omega
    · show a / 4096 < 16384; omega
  refine ⟨hd, fun hm => ?_⟩
  have h3 := (h.used _ hd).mpr (by simp [hm])
  rw [hr.clear _ (by omega) (by omega)] at h3
  exact absurd h3 (by decide)

/-- claiming a sector does not disturb a file being written -/
theorem claim_step {crc : Bytes → UInt32} {rest : List Nat} {first : Nat} {segs : List (Nat × Bytes)} {w : FileWriter} {D : Bytes}
    {m : SectorsMng} {dev : Dev} (h : WSt crc rest first segs w D m dev) (r1 r2 : Nat) :
    (∃ x m1 os, m.claim r1 r2 dev = (.ok x, m1, dev.ops os) ∧ InData x ∧ m1.Inv (x :: (rest ++ (secs segs ++ [w.sector]))) ∧
      AheadBlank m1 (applyOps dev.flash os) ∧
      (∀ j, j < 4096 → applyOps dev.flash os (x * 4096 + j) = 0xFF) ∧
      Segs crc (applyOps dev.flash os) first segs w.sector ∧ WInv crc (applyOps dev.flash os) w D ∧
      (∀ o ∈ os, ∀ a, o.touches a → InData (a / 4096) ∧ a / 4096 ∉ rest ++ (secs segs ++ [w.sector])) ∧ OpsOk dev.flash os) ∨
    (m.claim r1 r2 dev = (.error .deviceFull, m, dev) ∧ (rest ++ (secs segs ++ [w.sector])).length = 16352) := by
  rcases claim_spec h.inv r1 r2 dev h.blank with ⟨x, h1, h2, h3, h4, h5, h6, h7, os, h8, h9⟩ | ⟨h1, h2⟩
  · left
    have ht : ∀ o ∈ os, ∀ a, o.touches a → InData (a / 4096) ∧ a / 4096 ∉ rest ++ (secs segs ++ [w.sector]) := by
      intro o ho a ha
      obtain ⟨r, hr, rfl⟩ := h9 o ho
      exact erase_touch h.inv hr ha
    have same : ∀ a, a / 4096 ∈ secs segs ++ [w.sector] → applyOps dev.flash os a = dev.flash a :=
      fun a ha => applyOps_untouched fun o ho hx => (ht o ho a hx).2 (List.mem_append_right _ ha)
    have hss : ∀ s ∈ secs segs ++ [w.sector], SameSector dev.flash (applyOps dev.flash os) s :=
      fun s hs => sameSector_of fun a ha => same a (by rw [ha]; exact hs)
    have e8 : (m.claim r1 r2 dev).2.2.flash = applyOps dev.flash os := by rw [h8]; rfl
    rw [e8] at h5 h6
    refine ⟨x, (m.claim r1 r2 dev).2.1, os, ?_, h4, h2, h6, h5, ?_, ?_, ht, opsOk_erases h9 _⟩
    · rw [← h1, ← h8]
    · exact h.chain.congr fun s hs => hss s (List.mem_append_left _ hs)
    · exact WBuf.congr h.winv (hss _ (by simp))
  · right
    exact ⟨h1, h2⟩

theorem perm_claim (rest a : List Nat) (cur x : Nat) : (x :: (rest ++ (a ++ [cur]))).Perm (rest ++ ((a ++ [cur]) ++ [x])) := by
  have := List.perm_append_comm (l₁ := [x]) (l₂ := rest ++ (a ++ [cur]))
  simpa [List.append_assoc] using this

/-- finishing the current sector and moving on to a claimed one -/
theorem finish_step {crc : Bytes → UInt32} {rest : List Nat} {first : Nat} {segs : List (Nat × Bytes)} {w : FileWriter} {D : Bytes}
    {m : SectorsMng} {dev : Dev} {next : Nat} (hs : Segs crc dev.flash first segs w.sector) (hw : WInv crc dev.flash w D)
    (hinv : m.Inv (next :: (rest ++ (secs segs ++ [w.sector])))) (hb : AheadBlank m dev.flash)
    (hnb : ∀ j, j < 4096 → dev.flash (next * 4096 + j) = 0xFF) :
    ∃ os, w.flushTo crc next dev = (⟨blankPage, 0, 0, w.sector, w.id⟩, dev.ops os) ∧
      WSt crc rest first (segs ++ [(w.sector, D)]) ⟨blankPage, 0, 0, next, w.id⟩ [] m (dev.ops os) ∧
      Tr crc rest first segs (bytesOf segs ++ D) dev.flash os (secs (segs ++ [(w.sector, D)]) ++ [next]) := by
  have hin : InData next := hinv.range next (by simp)
  have hlt : next < 16384 := hin.2
  have hnd := hinv.nodup
  rw [List.append_assoc, List.nodup_append] at hnd
  have hnd2 := hnd.1
  rw [List.nodup_cons, List.nodup_append, List.nodup_append] at hnd2
  simp only [List.mem_append, List.mem_singleton, not_or] at hnd2
  obtain ⟨⟨n1, n2, n3⟩, n4, ⟨n5, n6, n7⟩, n8⟩ := hnd2
  have hcur : w.sector ∉ secs segs := fun hx => n7 w.sector hx w.sector rfl rfl
  have hcurR : w.sector ∉ rest := fun hx => n8 w.sector hx w.sector (.inr rfl) rfl
  have hcurD : InData w.sector := hinv.range _ (by simp)
  obtain ⟨os, hf⟩ := flushTo_spec hw (next := next) (by omega)
  have unt : ∀ fl', CrashImage dev.flash os fl' → ∀ s, s ≠ w.sector → SameSector dev.flash fl' s := by
    intro fl' hc s hne
    refine sameSector_of fun a ha => crash_untouched hc fun o ho hx => ?_
    exact hne (ha.symm.trans (hf.touch o ho a hx))
  have hdone := crash_done dev.flash os
  have hblank : ∀ fl', CrashImage dev.flash os fl' → ∀ j, j < 4096 → fl' (next * 4096 + j) = 0xFF := by
    intro fl' hc j hj
    rw [← unt fl' hc next n3 j hj, hnb j hj]
  have hsegs : ∀ fl', CrashImage dev.flash os fl' → Segs crc fl' first segs w.sector := by
    intro fl' hc
    refine hs.congr fun s hsm => unt fl' hc s ?_
    intro he
    rw [he] at hsm
    exact hcur hsm
  refine ⟨os, hf.res, ⟨?_, ?_, ?_, ?_⟩, ?_, ?_, hf.ok hcurD.2⟩
  · exact (hsegs _ hdone).snoc hf.done (show next ≠ 0xFFFF by omega)
  · exact WInv.new _ rfl rfl rfl (hblank _ hdone)
  · rw [secs_snoc]
    exact hinv.perm (perm_claim ..)
  · intro x hx j hj
    have hxw : x ≠ w.sector := by
      intro he
      have := hnd.2.2 w.sector (by simp) x (by simpa using hx)
      exact this he.symm
    have hj' : j < 4096 := hj
    show applyOps dev.flash os (x * 4096 + j) = 0xFF
    rw [← unt _ hdone x hxw j hj']
    exact hb x hx j hj
  · intro o ho a ha
    have := hf.touch o ho a ha
    rw [this]
    exact ⟨hcurD, hcurR, hcur⟩
  · intro fl' hc
    have hsg := hsegs fl' hc
    cases hf.crash fl' hc with
    | empty hx =>
      refine ⟨segs ++ [(w.sector, [])], hsg.stored (Stored.last hx), ?_, ?_, ?_⟩
      · rw [bytesOf_open]; exact List.prefix_rfl
      · rw [bytesOf_open]; exact List.prefix_append ..
      · rw [secs_snoc, secs_snoc]; exact List.prefix_append ..
    | noNext hx =>
      refine ⟨segs ++ [(w.sector, D)], hsg.stored (Stored.last hx), ?_, ?_, ?_⟩
      · rw [bytesOf_snoc]; exact List.prefix_append ..
      · rw [bytesOf_snoc]; exact List.prefix_rfl
      · exact List.prefix_append ..
    | full hx =>
      refine ⟨segs ++ [(w.sector, D), (next, [])], hsg.stored (Stored.last2 hx (by omega) (secHolds_blank fun j _ h2 => hblank fl' hc j h2)), ?_, ?_, ?_⟩
      · rw [bytesOf_append]; exact List.prefix_append ..
      · rw [bytesOf_append]; simp
      · simp

/-- the result of a call of a writer -/
structure CallSpec (crc : Bytes → UInt32) (rest : List Nat) (first : Nat) (segs : List (Nat × Bytes)) (w : FileWriter) (D : Bytes)
    (dev : Dev) (slice : Bytes) (r : WRes) (segs' : List (Nat × Bytes)) (D' : Bytes) (os : List FlashOp) (pre : Bytes) : Prop where
  st : WSt crc rest first segs' r.2.1 D' r.2.2.1 r.2.2.2
  ops : r.2.2.2 = dev.ops os
  id : r.2.1.id = w.id
  segsPre : segs <+: segs'
  ownPre : secs segs ++ [w.sector] <+: secs segs' ++ [r.2.1.sector]
  taken : pre <+: slice
  data : bytesOf segs' ++ D' = bytesOf segs ++ D ++ pre
  res : (r.1 = .ok () ∧ pre = slice) ∨ (r.1 = .error .deviceFull ∧ (rest ++ (secs segs' ++ [r.2.1.sector])).length = 16352)
  tr : Tr crc rest first segs (bytesOf segs ++ D ++ slice) dev.flash os (secs segs' ++ [r.2.1.sector])

/-- nothing happened to the chip -/
theorem Tr.nil {crc : Bytes → UInt32} {rest : List Nat} {first : Nat} {segs : List (Nat × Bytes)} {w : FileWriter} {D data : Bytes}
    {fl : Flash} (hs : Segs crc fl first segs w.sector) (hw : WInv crc fl w D) (hd : bytesOf segs <+: data) :
    Tr crc rest first segs data fl [] (secs segs ++ [w.sector]) :=
  Tr.foreign hs hw (by simp) trivial hd

theorem extendLoop_zero (crc : Bytes → UInt32) (rng : Nat → Nat × Nat) (fuel : Nat) (w : FileWriter) (m : SectorsMng) (dev : Dev) :
    FileWriter.extendLoop crc rng (fuel + 1) w m dev [] = (.ok (), w, m, dev) := by
  rw [FileWriter.extendLoop]; simp

/-- a full page that is not the last is written out -/
theorem page_step {crc : Bytes → UInt32} {rest : List Nat} {first : Nat} {segs : List (Nat × Bytes)} {w : FileWriter} {D : Bytes} {k : Nat}
    {m : SectorsMng} {dev : Dev} (hs : Segs crc dev.flash first segs w.sector) (hw : WBuf crc dev.flash w D k)
    (hinv : m.Inv (rest ++ (secs segs ++ [w.sector]))) (hb : AheadBlank m dev.flash)
    (hp : D.length = 252 * k + 252) (hk : k < 15) :
    WSt crc rest first segs { w with buffer := blankPage, offset := 0 } D m (dev.ops [pageOp crc w]) ∧
      Tr crc rest first segs (bytesOf segs ++ D) dev.flash [pageOp crc w] (secs segs ++ [w.sector]) := by
  have hpa := hw.pageAddress (by omega)
  have ht : ∀ o ∈ [pageOp crc w], ∀ a, o.touches a → a / 4096 = w.sector ∧ ∃ j, j < 3840 ∧ a = w.sector * 4096 + j := by
    intro o ho a ha
    rw [List.mem_singleton.mp ho] at ha
    have : w.pageAddress ≤ a ∧ a < w.pageAddress + 256 := ha
    rw [hpa] at this
    exact ⟨by omega, a - w.sector * 4096, by omega, by omega⟩
  have hnd := hinv.nodup
  rw [List.append_assoc, List.nodup_append] at hnd
  have hnd2 := hnd.1
  rw [List.nodup_append, List.nodup_append] at hnd2
  obtain ⟨n4, ⟨n5, n6, n7⟩, n8⟩ := hnd2
  have hcur : w.sector ∉ secs segs := fun hx => n7 w.sector hx w.sector (by simp) rfl
  have hcurR : w.sector ∉ rest := fun hx => n8 w.sector hx w.sector (by simp) rfl
  have hcurD : InData w.sector := hinv.range _ (by simp)
  have unt : ∀ fl', CrashImage dev.flash [pageOp crc w] fl' → ∀ s, s ≠ w.sector → SameSector dev.flash fl' s := by
    intro fl' hc s hne
    refine sameSector_of fun a ha => crash_untouched hc fun o ho hx => ?_
    exact hne (ha.symm.trans (ht o ho a hx).1)
  have hss : ∀ fl', CrashImage dev.flash [pageOp crc w] fl' → ∀ s ∈ secs segs, SameSector dev.flash fl' s :=
    fun fl' hc s hsm => unt fl' hc s fun he => hcur (he ▸ hsm)
  have hdone := crash_done dev.flash [pageOp crc w]
  have hok : OpsOk dev.flash [pageOp crc w] := by
    refine opsOk_one ?_
    unfold pageOp
    rw [hpa]
    have hoff := hw.offset
    have hbl : w.buffer.length = 256 := by
      rw [hw.buffer, bufOf_length _ (by rw [List.length_drop]; omega)]
    refine opOk_page hcurD.2 (by omega) ?_ (fun i hi => by rw [Nat.add_assoc]; exact hw.blank _ (by omega) (by omega))
    rw [put_length _ _ _ (by rw [beBytes_length]; omega)]; omega
  refine ⟨⟨?_, ?_, hinv, ?_⟩, ?_, ?_, hok⟩
  · exact hs.congr (hss _ hdone)
  · have := hw.page hp hk
    show WBuf crc _ _ D (D.length / 252)
    rw [show D.length / 252 = k + 1 by omega]
    exact this
  · intro x hx j hj
    have hxw : x ≠ w.sector := by
      intro he
      exact hnd.2.2 w.sector (by simp) x (by simpa using hx) he.symm
    have hj' : j < 4096 := hj
    show applyOps dev.flash _ (x * 4096 + j) = 0xFF
    rw [← unt _ hdone x hxw j hj']
    exact hb x hx j hj
  · intro o ho a ha
    rw [(ht o ho a ha).1]
    exact ⟨hcurD, hcurR, hcur⟩
  · intro fl' hc
    refine ⟨segs ++ [(w.sector, [])], stored_open hs (hss fl' hc) ?_, ?_, ?_, ?_⟩
    · intro j h1 h2
      rw [crash_untouched hc, hw.fields j h1 h2]
      intro o ho hx
      obtain ⟨_, i, hi, he⟩ := ht o ho _ hx
      omega
    · rw [bytesOf_open]; exact List.prefix_rfl
    · rw [bytesOf_open]; exact List.prefix_append ..
    · rw [secs_snoc]; exact List.prefix_rfl

theorem extendLoop_spec' {crc : Bytes → UInt32} {rng : Nat → Nat × Nat} {rest : List Nat} {first : Nat} : ∀ (fuel : Nat) (segs : List (Nat × Bytes))
    (w : FileWriter) (D : Bytes) (m : SectorsMng) (dev : Dev) (slice : Bytes), WSt crc rest first segs w D m dev →
    slice.length + 1 + (if D.length = 4016 then 1 else 0) ≤ fuel →
    ∃ segs' D' os pre, CallSpec crc rest first segs w D dev slice (FileWriter.extendLoop crc rng fuel w m dev slice) segs' D' os pre := by
  intro fuel
  induction fuel with
  | zero => exact fun _ _ _ _ _ _ _ h => absurd h (by omega)
  | succ fuel ih =>
    intro segs w D m dev slice h hf
    have hw := h.winv
    obtain ⟨k, hk⟩ : ∃ k, k = D.length / 252 := ⟨_, rfl⟩
    have hwk : WBuf crc dev.flash w D k := hk ▸ hw
    have hoff := hwk.offset
    have hlen := hwk.len
    have hmax := hwk.max
    have hlo := hwk.lo
    by_cases h0 : slice.length > 0
    · rw [FileWriter.extendLoop, if_pos h0]
      have hwl : decide (w.len ≥ 252 * 15) = decide (k = 15) := by
        have : (w.len ≥ 252 * 15) ↔ k = 15 := by omega
        simp only [this]
      have hfree : 256 - w.offset - (if decide (k = 15) = true then 8 + 8 + 4 else 4) = (if k = 15 then 4016 else 252 * k + 252) - D.length := by
        by_cases h15 : k = 15
        · simp only [h15, decide_true, if_true]; omega
        · simp only [h15, decide_false, if_false]
          simp; omega
      simp only [hwl, hfree]
      by_cases hfit : slice.length < (if k = 15 then 4016 else 252 * k + 252) - D.length
      · rw [if_pos hfit]
        have hle : (if k = 15 then 4016 else 252 * k + 252) ≤ 252 * k + 252 ∧ (if k = 15 then 4016 else 252 * k + 252) ≤ 4016 := by
          split
          · omega
          · have := hwk.k15; omega
        refine ⟨segs, D ++ slice, [], slice, ⟨⟨h.chain, ?_, h.inv, h.blank⟩, (Dev.ops_nil _).symm, rfl, List.prefix_rfl, List.prefix_rfl,
          List.prefix_rfl, by simp, .inl ⟨rfl, rfl⟩, ?_⟩⟩
        · have := hwk.append slice (by omega) (by omega)
          show WBuf crc _ _ (D ++ slice) ((D ++ slice).length / 252)
          rw [List.length_append, show (D.length + slice.length) / 252 = k by split at hfit <;> omega]
          exact this
        · exact Tr.nil (w := w) h.chain h.winv (by rw [List.append_assoc]; exact List.prefix_append ..)
      · rw [if_neg hfit]
        by_cases h15 : k = 15
        · -- the sector is full
          subst h15
          simp only [if_true, decide_true] at hfit ⊢
          generalize hn : 4016 - D.length = n at hfit ⊢
          have htl : (slice.take n).length = n := by rw [List.length_take]; omega
          have hw1 := hwk.append (slice.take n) (by omega) (by omega)
          rw [htl] at hw1
          have hDl : (D ++ slice.take n).length = 4016 := by rw [List.length_append, htl]; omega
          generalize hw1e : ({ w with buffer := put w.buffer w.offset (slice.take n), offset := w.offset + n, len := w.len + n } : FileWriter) = w1 at hw1
          have hws : w1.sector = w.sector := by rw [← hw1e]
          have hwid : w1.id = w.id := by rw [← hw1e]
          have hst1 : WSt crc rest first segs w1 (D ++ slice.take n) m dev := by
            refine ⟨by rw [hws]; exact h.chain, ?_, by rw [hws]; exact h.inv, h.blank⟩
            show WBuf crc _ _ _ ((D ++ slice.take n).length / 252)
            rw [hDl]; exact hw1
          rcases claim_step hst1 (rng fuel).1 (rng fuel).2 with ⟨x, m1, os1, c1, c2, c3, c4, c5, c6, c7, c8, c9⟩ | ⟨c1, c2⟩
          · rw [c1]
            simp only
            obtain ⟨os2, f1, f2, f3⟩ := finish_step (dev := dev.ops os1) c6 c7 c3 c4 c5
            have hlast : ((w1.writeMeta x).writePage crc (w1.writeMeta x).pageAddress (some (w1.writeMeta x).offset) (dev.ops os1))
                = ({ w1 with buffer := blankPage, offset := 0 }, (dev.ops os1).ops os2) := by
              have h2 := f1
              unfold FileWriter.flushTo at h2
              have hl1 := hw1.len
              rw [hDl] at hl1
              have ho1 := hw1.offset
              rw [hDl] at ho1
              have hil : w1.isLastDataPage = true := by unfold FileWriter.isLastDataPage; exact decide_eq_true (by omega)
              rw [if_neg (by omega)] at h2
              simp only [hil, if_true] at h2
              have e1 : (w1.writeMeta x).pageAddress = w1.pageAddress := rfl
              have e2 : (w1.writeMeta x).offset = w1.offset := rfl
              rw [e1, e2]
              have e3 : (w1.offset + 3) / 4 * 4 = w1.offset := by omega
              rw [e3] at h2
              injection h2 with h3 h4
              exact Prod.ext rfl h4
            rw [hlast]
            simp only
            have key := ih (segs ++ [(w1.sector, D ++ slice.take n)]) ⟨blankPage, 0, 0, x, w1.id⟩ [] m1 ((dev.ops os1).ops os2)
              (slice.drop n) f2 (by
                rw [List.length_drop, List.length_nil, if_neg (by omega)]
                by_cases hD : D.length = 4016
                · rw [if_pos hD] at hf; omega
                · rw [if_neg hD] at hf; omega)
            obtain ⟨segs', D', os3, pre, k1⟩ := key
            have hsp : segs <+: segs ++ [(w1.sector, D ++ slice.take n)] := List.prefix_append ..
            refine ⟨segs', D', os1 ++ (os2 ++ os3), slice.take n ++ pre, ⟨k1.st, ?_, ?_, hsp.trans k1.segsPre, ?_, ?_, ?_, ?_, ?_⟩⟩
            · exact k1.ops.trans (by rw [Dev.ops_ops, Dev.ops_ops])
            · exact k1.id.trans hwid
            · refine List.IsPrefix.trans ?_ k1.ownPre
              rw [secs_snoc, hws]; exact List.prefix_append ..
            · obtain ⟨q, hq⟩ := k1.taken
              exact ⟨q, by rw [List.append_assoc, hq, List.take_append_drop]⟩
            · rw [k1.data, bytesOf_snoc]; simp
            · rcases k1.res with ⟨r1, r2⟩ | ⟨r1, r2⟩
              · exact .inl ⟨r1, by rw [r2, List.take_append_drop]⟩
              · exact .inr ⟨r1, r2⟩
            · have t1 : Tr crc rest first segs (bytesOf segs ++ D ++ slice) dev.flash os1 (secs segs ++ [w1.sector]) :=
                Tr.foreign hst1.chain hst1.winv c8 c9 (by rw [List.append_assoc]; exact List.prefix_append ..)
              have hd1 : bytesOf segs ++ (D ++ slice.take n) <+: bytesOf segs ++ D ++ slice := by
                refine ⟨slice.drop n, ?_⟩
                simp
              have t2 := f3.mono hd1 List.prefix_rfl
              have t3 : Tr crc rest first (segs ++ [(w1.sector, D ++ slice.take n)]) (bytesOf segs ++ D ++ slice) ((dev.ops os1).ops os2).flash os3 _ :=
                k1.tr.mono (by rw [bytesOf_snoc]; simp) List.prefix_rfl
              have t23 := Tr.append t2 t3 (List.prefix_append ..) k1.ownPre
              refine Tr.append t1 t23 List.prefix_rfl ?_
              refine List.IsPrefix.trans ?_ k1.ownPre
              rw [secs_snoc]; exact List.prefix_append ..
          · rw [c1]
            simp only
            refine ⟨segs, D ++ slice.take n, [], slice.take n, ⟨hst1, (Dev.ops_nil _).symm, hwid, List.prefix_rfl, by rw [hws]; exact List.prefix_rfl,
              List.take_prefix .., by simp, .inr ⟨rfl, c2⟩, ?_⟩⟩
            show Tr crc rest first segs _ dev.flash [] (secs segs ++ [w1.sector])
            exact Tr.nil hst1.chain hst1.winv (by rw [List.append_assoc]; exact List.prefix_append ..)
        · -- a full page
          simp only [h15, decide_false, if_false] at hfit ⊢
          have hkb : k < 15 := by have := hwk.k15; omega
          generalize hn : 252 * k + 252 - D.length = n at hfit ⊢
          have hnpos : 0 < n := by omega
          have htl : (slice.take n).length = n := by rw [List.length_take]; omega
          have hw1 := hwk.append (slice.take n) (by omega) (by omega)
          rw [htl] at hw1
          have hDl : (D ++ slice.take n).length = 252 * k + 252 := by rw [List.length_append, htl]; omega
          generalize hw1e : ({ w with buffer := put w.buffer w.offset (slice.take n), offset := w.offset + n, len := w.len + n } : FileWriter) = w1 at hw1
          have hws : w1.sector = w.sector := by rw [← hw1e]
          have hwid : w1.id = w.id := by rw [← hw1e]
          obtain ⟨p1, p2⟩ := page_step (m := m) (dev := dev) (rest := rest) (segs := segs) (by rw [hws]; exact h.chain) hw1 (by rw [hws]; exact h.inv) h.blank hDl hkb
          have hpage : w1.writePage crc w1.pageAddress (some w1.offset) dev = ({ w1 with buffer := blankPage, offset := 0 }, dev.ops [pageOp crc w1]) := by
            have ho1 := hw1.offset
            rw [hDl] at ho1
            have e3 : (w1.offset + 3) / 4 * 4 = w1.offset := by omega
            unfold pageOp
            rw [e3]
            rfl
          simp only [Bool.false_eq_true, if_false]
          have hwo : w.offset + n = w1.offset := by rw [← hw1e]
          rw [hwo, hpage]
          simp only
          obtain ⟨segs', D', os3, pre, k1⟩ := ih segs _ _ m _ (slice.drop n) p1 (by
            rw [List.length_drop, hDl, if_neg (by omega)]; rw [if_neg (by omega)] at hf; omega)
          refine ⟨segs', D', [pageOp crc w1] ++ os3, slice.take n ++ pre, ⟨k1.st, ?_, ?_, k1.segsPre, ?_, ?_, ?_, ?_, ?_⟩⟩
          · exact k1.ops.trans (by rw [Dev.ops_ops])
          · exact k1.id.trans hwid
          · rw [← hws]; exact k1.ownPre
          · obtain ⟨q, hq⟩ := k1.taken
            exact ⟨q, by rw [List.append_assoc, hq, List.take_append_drop]⟩
          · rw [k1.data]; simp
          · rcases k1.res with ⟨r1, r2⟩ | ⟨r1, r2⟩
            · exact .inl ⟨r1, by rw [r2, List.take_append_drop]⟩
            · exact .inr ⟨r1, r2⟩
          · have hd1 : bytesOf segs ++ (D ++ slice.take n) <+: bytesOf segs ++ D ++ slice := ⟨slice.drop n, by simp⟩
            refine Tr.append (p2.mono hd1 List.prefix_rfl) (k1.tr.mono ?_ List.prefix_rfl) List.prefix_rfl k1.ownPre
            simp
    · have : slice = [] := List.eq_nil_of_length_eq_zero (by omega)
      subst this
      rw [extendLoop_zero]
      exact ⟨segs, D, [], [], ⟨h, (Dev.ops_nil _).symm, rfl, List.prefix_rfl, List.prefix_rfl, List.prefix_rfl, by simp, .inl ⟨rfl, rfl⟩,
        Tr.nil h.chain h.winv (by rw [List.append_assoc]; exact List.prefix_append ..)⟩⟩

/-- `extend_from_slice` -/
theorem extend_call {crc : Bytes → UInt32} {rest : List Nat} {first : Nat} {segs : List (Nat × Bytes)} {w : FileWriter} {D : Bytes}
    {m : SectorsMng} {dev : Dev} (h : WSt crc rest first segs w D m dev) (rng : Nat → Nat × Nat) (slice : Bytes) :
    ∃ segs' D' os pre, CallSpec crc rest first segs w D dev slice (w.extend crc m dev rng slice) segs' D' os pre :=
  extendLoop_spec' _ segs w D m dev slice h (by split <;> omega)

/-- `extend_from_slice` that fits into the first page of a sector -/
theorem extend_small {crc : Bytes → UInt32} {rest : List Nat} {first : Nat} {segs : List (Nat × Bytes)} {w : FileWriter} {D : Bytes}
    {m : SectorsMng} {dev : Dev} (h : WSt crc rest first segs w D m dev) (rng : Nat → Nat × Nat) (slice : Bytes)
    (h0 : 0 < slice.length) (hfit : D.length + slice.length < 252) :
    (w.extend crc m dev rng slice).1 = .ok () ∧ (w.extend crc m dev rng slice).2.2 = (m, dev) ∧
    CallSpec crc rest first segs w D dev slice (w.extend crc m dev rng slice) segs (D ++ slice) [] slice := by
  have hw := h.winv
  have hwk : WBuf crc dev.flash w D 0 := by
    have : D.length / 252 = 0 := by omega
    rw [← this]; exact hw
  have hoff := hwk.offset
  have hlen := hwk.len
  have e : w.extend crc m dev rng slice = (.ok (), { w with buffer := put w.buffer w.offset slice, offset := w.offset + slice.length, len := w.len + slice.length }, m, dev) := by
    unfold FileWriter.extend
    rw [FileWriter.extendLoop, if_pos h0]
    have hd : decide (w.len ≥ 252 * 15) = false := by simp; omega
    simp only [hd]
    rw [if_pos (by simp; omega)]
  rw [e]
  refine ⟨rfl, rfl, ⟨⟨h.chain, ?_, h.inv, h.blank⟩, (Dev.ops_nil _).symm, rfl, List.prefix_rfl, List.prefix_rfl,
          List.prefix_rfl, by simp, .inl ⟨rfl, rfl⟩, ?_⟩⟩
  · have := hwk.append slice (by omega) (by omega)
    show WBuf crc _ _ (D ++ slice) ((D ++ slice).length / 252)
    rw [List.length_append, show (D.length + slice.length) / 252 = 0 by omega]
    exact this
  · exact Tr.nil (w := w) h.chain h.winv (by rw [List.append_assoc]; exact List.prefix_append ..)

/-- `flush` -/
theorem flush_call_len {crc : Bytes → UInt32} {rest : List Nat} {first : Nat} {segs : List (Nat × Bytes)} {w : FileWriter} {D : Bytes}
    {m : SectorsMng} {dev : Dev} (h : WSt crc rest first segs w D m dev) (r1 r2 : Nat) :
    ∃ segs' D' os, CallSpec crc rest first segs w D dev [] (w.flush crc m dev r1 r2) segs' D' os [] ∧
      ((w.flush crc m dev r1 r2).1 = .ok () → D' = []) ∧ segs'.length ≤ segs.length + 1 := by
  have hlen := h.winv.len
  unfold FileWriter.flush
  by_cases h0 : w.len = 0
  · rw [if_pos h0]
    exact ⟨segs, D, [], ⟨h, (Dev.ops_nil _).symm, rfl, List.prefix_rfl, List.prefix_rfl, List.prefix_rfl, by simp, .inl ⟨rfl, rfl⟩,
      Tr.nil h.chain h.winv (by rw [List.append_assoc]; exact List.prefix_append ..)⟩, fun _ => List.eq_nil_of_length_eq_zero (by omega), by omega⟩
  · rw [if_neg h0]
    rcases claim_step h r1 r2 with ⟨x, m1, os1, c1, c2, c3, c4, c5, c6, c7, c8, c9⟩ | ⟨c1, c2⟩
    · rw [c1]
      simp only
      obtain ⟨os2, f1, f2, f3⟩ := finish_step (dev := dev.ops os1) c6 c7 c3 c4 c5
      rw [f1]
      simp only
      refine ⟨segs ++ [(w.sector, D)], [], os1 ++ os2, ⟨f2, by rw [Dev.ops_ops], rfl, List.prefix_append .., ?_, List.prefix_rfl, ?_, .inl ⟨rfl, rfl⟩, ?_⟩, fun _ => rfl, by simp⟩
      · rw [secs_snoc]; exact List.prefix_append ..
      · rw [bytesOf_snoc]
      · refine Tr.append (Tr.foreign h.chain h.winv c8 c9 (by rw [List.append_assoc]; exact List.prefix_append ..)) (f3.mono (by simp) List.prefix_rfl) List.prefix_rfl ?_
        rw [secs_snoc]; exact List.prefix_append ..
    · rw [c1]
      simp only
      exact ⟨segs, D, [], ⟨h, (Dev.ops_nil _).symm, rfl, List.prefix_rfl, List.prefix_rfl, List.prefix_rfl, by simp, .inr ⟨rfl, c2⟩,
        Tr.nil h.chain h.winv (by rw [List.append_assoc]; exact List.prefix_append ..)⟩, fun hx => by simp at hx, by omega⟩

theorem flush_call {crc : Bytes → UInt32} {rest : List Nat} {first : Nat} {segs : List (Nat × Bytes)} {w : FileWriter} {D : Bytes}
    {m : SectorsMng} {dev : Dev} (h : WSt crc rest first segs w D m dev) (r1 r2 : Nat) :
    ∃ segs' D' os, CallSpec crc rest first segs w D dev [] (w.flush crc m dev r1 r2) segs' D' os [] ∧
      ((w.flush crc m dev r1 r2).1 = .ok () → D' = []) := by
  obtain ⟨segs', D', os, h1, h2, _⟩ := flush_call_len h r1 r2
  exact ⟨segs', D', os, h1, h2⟩

/-- `close` -/
theorem close_call {crc : Bytes → UInt32} {rest : List Nat} {first : Nat} {segs : List (Nat × Bytes)} {w : FileWriter} {D : Bytes}
    {m : SectorsMng} {dev : Dev} (h : WSt crc rest first segs w D m dev) :
    ∃ os, w.close crc dev = dev.ops os ∧ Stored crc (applyOps dev.flash os) (some first) (segs ++ [(w.sector, D)]) ∧
      AheadBlank m (applyOps dev.flash os) ∧
      Tr crc rest first segs (bytesOf segs ++ D) dev.flash os (secs segs ++ [w.sector]) := by
  have hnd := h.inv.nodup
  rw [List.append_assoc, List.nodup_append] at hnd
  have hnd2 := hnd.1
  rw [List.nodup_append, List.nodup_append] at hnd2
  obtain ⟨n4, ⟨n5, n6, n7⟩, n8⟩ := hnd2
  have hcur : w.sector ∉ secs segs := fun hx => n7 w.sector hx w.sector (by simp) rfl
  have hcurR : w.sector ∉ rest := fun hx => n8 w.sector hx w.sector (by simp) rfl
  have hcurD : InData w.sector := h.inv.range _ (by simp)
  obtain ⟨os, hf⟩ := flushTo_spec h.winv (next := 0xFFFF) (by omega)
  have unt : ∀ fl', CrashImage dev.flash os fl' → ∀ s, s ≠ w.sector → SameSector dev.flash fl' s := by
    intro fl' hc s hne
    refine sameSector_of fun a ha => crash_untouched hc fun o ho hx => ?_
    exact hne (ha.symm.trans (hf.touch o ho a hx))
  have hdone := crash_done dev.flash os
  have hsegs : ∀ fl', CrashImage dev.flash os fl' → Segs crc fl' first segs w.sector := by
    intro fl' hc
    exact h.chain.congr fun s hsm => unt fl' hc s fun he => hcur (he ▸ hsm)
  refine ⟨os, ?_, ?_, ?_, ?_, ?_, hf.ok hcurD.2⟩
  · unfold FileWriter.close; rw [hf.res]
  · exact (hsegs _ hdone).stored (Stored.last hf.done)
  · intro x hx j hj
    have hxw : x ≠ w.sector := by
      intro he
      exact hnd.2.2 w.sector (by simp) x (by simpa using hx) he.symm
    have hj' : j < 4096 := hj
    show applyOps dev.flash os (x * 4096 + j) = 0xFF
    rw [← unt _ hdone x hxw j hj']
    exact h.blank x hx j hj
  · intro o ho a ha
    rw [hf.touch o ho a ha]
    exact ⟨hcurD, hcurR, hcur⟩
  · intro fl' hc
    have hsg := hsegs fl' hc
    have hcl : ∀ D', bytesOf segs <+: bytesOf (segs ++ [(w.sector, D')]) ∧ secs (segs ++ [(w.sector, D')]) <+: secs segs ++ [w.sector] :=
      fun D' => ⟨by rw [bytesOf_snoc]; exact List.prefix_append .., by rw [secs_snoc]; exact List.prefix_rfl⟩
    cases hf.crash fl' hc with
    | empty hx =>
      exact ⟨segs ++ [(w.sector, [])], hsg.stored (Stored.last hx), (hcl _).1, by rw [bytesOf_open]; exact List.prefix_append .., (hcl _).2⟩
    | noNext hx =>
      exact ⟨segs ++ [(w.sector, D)], hsg.stored (Stored.last hx), (hcl _).1, by rw [bytesOf_snoc]; exact List.prefix_rfl, (hcl _).2⟩
    | full hx =>
      exact ⟨segs ++ [(w.sector, D)], hsg.stored (Stored.last hx), (hcl _).1, by rw [bytesOf_snoc]; exact List.prefix_rfl, (hcl _).2⟩

end Verif.Vlfs
