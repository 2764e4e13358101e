import Verif.Model.DebugFlashUi
import Mathlib.Tactic.SplitIfs

/-!
# C137 – the debug flash page: what it shows before *resume* is what it does
-/

namespace Verif.Props.DebugFlashUi
open Verif.DebugFlashUi

/-! ## Specification -/

/-- What the driver of the file system sends: a page write carries exactly 256 bytes, and lies within
the chip. -/
def Proper : Req → Prop
  | .write a d => d.length = 256 ∧ (∀ v ∈ d, v < 256) ∧ a + 256 ≤ flashSize
  | _ => True

/-- The byte a request leaves at `x`, if it touches it: `0xff` for an erase of 4, 32 or 64 KiB from its
address, the corresponding byte for a write. -/
def leaves (x : Nat) : Req → Option Nat
  | .erase4 a => if a ≤ x ∧ x < a + 4 * 1024 then some 255 else none
  | .erase32 a => if a ≤ x ∧ x < a + 32 * 1024 then some 255 else none
  | .erase64 a => if a ≤ x ∧ x < a + 64 * 1024 then some 255 else none
  | .read _ _ => none
  | .write a d => if a ≤ x then d[x - a]? else none

/-- The byte at `x` after a history, most recent request first: that of the last request touching it,
and 0 if there is none. -/
def byteAfter (x : Nat) (newestFirst : List Req) : Nat := (newestFirst.findSome? (leaves x)).getD 0

/-! ## Proofs -/

theorem eraseFrom_at (k : Nat) : ∀ (m : Mem) (a i x : Nat), x < flashSize →
    eraseFrom m a i k x = if a + i ≤ x ∧ x < a + i + k then 255 else m x := by
  induction k with
  | zero => intro m a i x _; simp only [eraseFrom]; split_ifs with h <;> [omega; rfl]
  | succ k ih =>
    intro m a i x hx
    simp only [eraseFrom]
    rw [ih _ _ _ _ hx]
    unfold storeByte
    by_cases h1 : a + (i + 1) ≤ x ∧ x < a + (i + 1) + k
    · rw [if_pos h1, if_pos (by omega)]
    · rw [if_neg h1]
      by_cases h2 : x = a + i
      · subst h2
        rw [if_pos hx, if_pos (by omega)]
        simp
      · rw [if_neg (by omega : ¬ (a + i ≤ x ∧ x < a + i + (k + 1)))]
        split_ifs <;> simp [h2]

/-- One proper request, served from any page: every byte of the chip is what the request leaves there,
or unchanged. -/
theorem serve_at (p : Page) (r : Req) (hr : Proper r) (x : Nat) (hx : x < flashSize) :
    (p.serve r).1.flash x = (leaves x r).getD (p.flash x) := by
  cases r with
  | erase4 a =>
    simp only [Page.serve, Page.receive, Page.resume, leaves, eraseFrom_at _ _ _ _ _ hx]
    split_ifs <;> first | rfl | omega
  | erase32 a =>
    simp only [Page.serve, Page.receive, Page.resume, leaves, eraseFrom_at _ _ _ _ _ hx]
    split_ifs <;> first | rfl | omega
  | erase64 a =>
    simp only [Page.serve, Page.receive, Page.resume, leaves, eraseFrom_at _ _ _ _ _ hx]
    split_ifs <;> first | rfl | omega
  | read a n => rfl
  | write a d =>
    obtain ⟨hl, hb, hs⟩ := hr
    have hfit : a + d.length ≤ flashSize := by omega
    simp only [Page.serve, Page.receive, Page.resume, setBytes, if_pos hfit, leaves]
    by_cases h : a ≤ x
    · simp only [if_pos h]
      cases hd : d[x - a]? with
      | none => rfl
      | some v =>
        have := hb v (List.mem_of_getElem? hd)
        simp [Nat.mod_eq_of_lt this]
    · simp [h]

theorem serve_pending (p : Page) (r : Req) (hr : Proper r) : (p.serve r).1.pending = none := by
  cases r with
  | write a d =>
    obtain ⟨hl, hb, hs⟩ := hr
    have hfit : a + d.length ≤ flashSize := by omega
    simp only [Page.serve, Page.receive, Page.resume, setBytes, if_pos hfit]
  | _ => rfl

/-- **C137 (preview).** Whatever the chip contains and whichever proper request is pending, the byte the
page shows as "current" for any address of the chip before *resume* is the byte that is there after it. -/
theorem C137_preview (p : Page) (r : Req) (hp : p.pending = some r) (hr : Proper r)
    (x : Nat) (hx : x < flashSize) :
    p.currentByte x = some (p.resume.1.prevByte x) := by
  have hserve : p.resume = p.serve r := by
    cases p; simp only at hp; subst hp; rfl
  rw [hserve]
  unfold Page.prevByte
  rw [if_pos hx, serve_at p r hr x hx]
  unfold Page.currentByte Page.prevByte
  rw [hp]
  simp only [if_pos hx]
  cases r with
  | erase4 a =>
    by_cases h : a ≤ x ∧ x < a + 4096
    · simp [requestRange, leaves, h]
    · rw [show leaves x (.erase4 a) = none from if_neg (by omega)]
      exact if_neg h
  | erase32 a =>
    by_cases h : a ≤ x ∧ x < a + 32768
    · simp [requestRange, leaves, h]
    · rw [show leaves x (.erase32 a) = none from if_neg (by omega)]
      exact if_neg h
  | erase64 a =>
    by_cases h : a ≤ x ∧ x < a + 65536
    · simp [requestRange, leaves, h]
    · rw [show leaves x (.erase64 a) = none from if_neg (by omega)]
      exact if_neg h
  | read a n => simp only [leaves]; split_ifs <;> rfl
  | write a d =>
    obtain ⟨hl, hb, hs⟩ := hr
    simp only [requestRange, leaves]
    by_cases h1 : a ≤ x
    · by_cases h2 : x < a + 256
      · have : x - a < d.length := by omega
        simp [h1, h2, List.getElem?_eq_getElem this]
      · have : d.length ≤ x - a := by omega
        simp [h1, h2, List.getElem?_eq_none this]
    · simp [h1]

theorem serveAll_at (x : Nat) (hx : x < flashSize) : ∀ (rs : List Req) (p : Page),
    (∀ r ∈ rs, Proper r) →
    (p.serveAll rs).flash x = (rs.reverse.findSome? (leaves x)).getD (p.flash x) := by
  intro rs
  induction rs with
  | nil => intro p _; rfl
  | cons r rs ih =>
    intro p h
    simp only [Page.serveAll, List.reverse_cons, List.findSome?_append]
    rw [ih _ (fun q hq => h q (List.mem_cons_of_mem _ hq)),
      serve_at p r (h r List.mem_cons_self) x hx]
    cases rs.reverse.findSome? (leaves x) with
    | some v => rfl
    | none => cases hl : leaves x r <;> simp [hl]

/-- **C137 (read back).** After any history of proper requests on a fresh page, a read within the chip
answers, for every address in turn, the byte of the last request that touched it (0 if none did). -/
theorem C137_read_back (rs : List Req) (h : ∀ r ∈ rs, Proper r) (a n : Nat)
    (hn : a + n ≤ flashSize) :
    ((Page.fresh.serveAll rs).serve (.read a n)).2
      = some (.bytes ((List.range n).map fun i => byteAfter (a + i) rs.reverse)) := by
  simp only [Page.serve, Page.receive, Page.resume, readBytes]
  have e : min (a + n) flashSize - min a flashSize = n := by omega
  rw [e]
  congr 2
  apply List.map_congr_left
  intro i hi
  rw [List.mem_range] at hi
  exact serveAll_at (a + i) (by omega) rs Page.fresh h

/-- **C137 (every request is answered).** A proper request that is resumed gets exactly one answer, and
nothing is pending afterwards – so a second click does and sends nothing. -/
theorem C137_answered (p : Page) (r : Req) (hr : Proper r) :
    (p.serve r).2.isSome ∧ (p.serve r).1.resume = ((p.serve r).1, none) := by
  refine ⟨?_, ?_⟩
  · cases r with
    | write a d =>
      obtain ⟨hl, hb, hs⟩ := hr
      have hfit : a + d.length ≤ flashSize := by omega
      simp only [Page.serve, Page.receive, Page.resume, setBytes, if_pos hfit]; rfl
    | _ => rfl
  · have := serve_pending p r hr
    unfold Page.resume
    rw [this]

/-- **C137 (finding: the pending request is a single slot).** A request that arrives before the previous
one is resumed replaces it: the page then behaves as if the first had never been sent – it is neither
executed nor answered. -/
theorem C137_replaced (p : Page) (r₁ r₂ : Req) :
    (p.receive r₁).serve r₂ = p.serve r₂ := rfl

/-- **C137 (finding: a write past the end wedges the page).** The `RangeError` leaves the request pending
and unanswered, however often *resume* is clicked, although its preview shows the new bytes. -/
theorem C137_wedged (p : Page) (a : Nat) (d : List Nat) (h : flashSize < a + d.length) (clicks : Nat) :
    Nat.iterate (fun q : Page => q.resume.1) clicks (p.receive (.write a d)) = p.receive (.write a d)
      ∧ ((p.receive (.write a d)).resume).2 = none := by
  have hr : (p.receive (.write a d)).resume = (p.receive (.write a d), none) := by
    simp only [Page.receive, Page.resume, setBytes, if_neg (by omega : ¬ a + d.length ≤ flashSize)]
  refine ⟨?_, by rw [hr]⟩
  induction clicks with
  | zero => rfl
  | succ k ih => rw [Function.iterate_succ_apply, hr]; exact ih

/-- **C137 (finding: not a NOR chip).** On a NOR chip a write can only clear bits (the byte after it is a
submask of the byte before). Here a write stores its bytes outright: over any chip, writing zeros and then
ones gives ones, so a driver that forgets to erase is not caught. -/
theorem C137_not_nor (p : Page) (a x : Nat) (ha : a + 256 ≤ flashSize) (h1 : a ≤ x) (h2 : x < a + 256) :
    let zero := (p.serve (.write a (List.replicate 256 0))).1
    zero.flash x = 0 ∧ (zero.serve (.write a (List.replicate 256 255))).1.flash x = 255 := by
  have pr : ∀ v, v < 256 → Proper (.write a (List.replicate 256 v)) := by
    intro v hv
    refine ⟨List.length_replicate, ?_, ha⟩
    intro w hw; rw [List.eq_of_mem_replicate hw]; exact hv
  have hx : x < flashSize := by omega
  refine ⟨?_, ?_⟩
  · rw [serve_at _ _ (pr 0 (by omega)) x hx]
    have : x - a < 256 := by omega
    simp [leaves, h1, this, -List.reduceReplicate]
  · rw [serve_at _ _ (pr 255 (by omega)) x hx]
    have : x - a < 256 := by omega
    simp [leaves, h1, this, -List.reduceReplicate]

/-! ## Examples -/

/-- A history: erase the first sector, write a page of 7s at 256, and erase the block from 512. -/
def exampleHistory : List Req := [.erase4 0, .write 256 (List.replicate 256 7), .erase32 512]

/-- The example's requests are all proper, so the hypotheses of `C137_read_back` are met. -/
example : ∀ r ∈ exampleHistory, Proper r := by
  intro r hr
  simp only [exampleHistory, List.mem_cons, List.not_mem_nil, or_false] at hr
  rcases hr with rfl | rfl | rfl
  · trivial
  · refine ⟨List.length_replicate, ?_, by decide⟩
    intro v hv; rw [List.eq_of_mem_replicate hv]; omega
  · trivial

/-- Its bytes: erased, written, erased again further on, and untouched past the block. -/
example : byteAfter 3 exampleHistory.reverse = 255 ∧ byteAfter 300 exampleHistory.reverse = 7
    ∧ byteAfter 5000 exampleHistory.reverse = 255 ∧ byteAfter 40000 exampleHistory.reverse = 0 := by
  simp [byteAfter, exampleHistory, leaves, -List.reduceReplicate]

/-- Reading before anything was written answers zeros – a real erased chip would answer `0xff`. -/
example : (Page.fresh.serve (.read 10 3)).2 = some (.bytes [0, 0, 0]) := by
  have := C137_read_back [] (by simp) 10 3 (by decide)
  simpa [Page.serveAll, byteAfter, List.range_succ] using this

/-- A write that ends past the chip, as in `C137_wedged`. -/
example : flashSize < (flashSize - 128) + (List.replicate 256 7).length := by
  rw [List.length_replicate]; decide

end Verif.Props.DebugFlashUi
