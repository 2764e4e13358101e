import Verif.Model.LoraKey
import Verif.Spec.LoraKey
/-
C109: the radio key as text is JSON for the key, and for nothing else.
-/
namespace Verif.Props
open Verif LoraKey Json

/-- reading character by character: the number being read and the numbers before it -/
def scan : Option Nat × List Nat → Char → Option Nat × List Nat
  | (cur, l), c =>
    if c.isDigit then (some (10 * cur.getD 0 + digit c), l)
    else if c == ',' || c == ']' then (none, l ++ cur.toList) else (cur, l)

theorem scan_ws (a : List Char) (h : ∀ c ∈ a, isWs c = true) (s : Option Nat × List Nat) : a.foldl scan s = s := by
  induction a generalizing s with
  | nil => rfl
  | cons c a ih =>
    rw [List.foldl_cons]
    have e : scan s c = s := by
      have := h c List.mem_cons_self
      simp only [isWs, Bool.or_eq_true, beq_iff_eq] at this
      rcases this with ((rfl | rfl) | rfl) | rfl <;> rfl
    rw [e]
    exact ih (fun c hc => h c (List.mem_cons_of_mem _ hc)) s

theorem scan_digits (d : List Char) (h : ∀ c ∈ d, c.isDigit = true) (n : Nat) (l : List Nat) : d.foldl scan (some n, l) = (some (d.foldl (fun n c => 10 * n + digit c) n), l) := by
  induction d generalizing n with
  | nil => rfl
  | cons c d ih =>
    rw [List.foldl_cons, List.foldl_cons, ← ih (fun c hc => h c (List.mem_cons_of_mem _ hc))]
    congr 1
    simp [scan, h c List.mem_cons_self]

theorem scan_number {d : List Char} {n : Nat} (h : Number d n) (l : List Nat) : d.foldl scan (none, l) = (some n, l) := by
  obtain ⟨h1, h2, _, h4⟩ := h
  cases d with
  | nil => exact absurd rfl h2
  | cons c d =>
    rw [List.foldl_cons]
    have e : scan (none, l) c = (some (10 * 0 + digit c), l) := by simp [scan, h1 c List.mem_cons_self]
    rw [e, scan_digits d (fun c hc => h1 c (List.mem_cons_of_mem _ hc)), ← h4]
    rfl

theorem scan_elements {t : List Char} {ns : List Nat} (h : Elements t ns) (l : List Nat) : (t ++ [']']).foldl scan (none, l) = (none, l ++ ns) := by
  induction h generalizing l with
  | one ha hd hb =>
    simp only [List.foldl_append, scan_ws _ ha, scan_number hd, scan_ws _ hb]
    rfl
  | more ha hd hb _ ih =>
    simp only [List.append_assoc, List.cons_append]
    simp only [List.foldl_append, scan_ws _ ha, scan_number hd, scan_ws _ hb, List.foldl_cons]
    have e : ∀ n, scan (some n, l) ',' = (none, l ++ [n]) := fun _ => rfl
    simp only [List.foldl_append, List.foldl_cons, List.foldl_nil] at ih ⊢
    rw [e, ih]
    simp

theorem scan_arr {t : List Char} {ns : List Nat} (h : Arr t ns) : t.foldl scan (none, []) = (none, ns) := by
  cases h with
  | empty ha =>
    rw [List.cons_append, List.foldl_cons, List.foldl_append]
    have e : scan (none, []) '[' = (none, []) := rfl
    rw [e, scan_ws _ ha]
    rfl
  | full h =>
    rw [List.cons_append, List.foldl_cons]
    exact scan_elements h []

/-- the digits of every byte are a JSON number (all 256 of them) -/
theorem decimal_number (b : UInt8) : Number (decimal b) b.toNat := by
  have : ∀ n : Fin 256, (∀ c ∈ Nat.toDigits 10 n.val, c.isDigit = true) ∧ Nat.toDigits 10 n.val ≠ [] ∧ ((Nat.toDigits 10 n.val).head? = some '0' → Nat.toDigits 10 n.val = ['0']) ∧
      Json.value (Nat.toDigits 10 n.val) = n.val := by decide +kernel
  obtain ⟨h1, h2, h3, h4⟩ := this ⟨b.toNat, b.toNat_lt⟩
  exact ⟨h1, h2, h3, h4⟩

/-- the text of the bytes from index `i` -/
theorem formatLoop_elements (n i : Nat) (l : Bytes) (acc : List Char) (h : l ≠ []) (hn : i + l.length = n) :
    ∃ t, formatLoop n i l acc = acc ++ t ∧ ∀ a : List Char, (∀ c ∈ a, isWs c = true) → Elements (a ++ t) (l.map UInt8.toNat) := by
  induction l generalizing i acc with
  | nil => exact absurd rfl h
  | cons b l ih =>
    cases l with
    | nil =>
      refine ⟨decimal b, ?_, fun a ha => ?_⟩
      · simp only [formatLoop]
        rw [if_neg (by simp at hn; omega)]
      · have := Elements.one (b := []) ha (decimal_number b) (by simp)
        simpa using this
    | cons b' l =>
      obtain ⟨t, h1, h2⟩ := ih (i + 1) (acc ++ decimal b ++ [','] ++ [' ']) (by simp) (by simp at hn ⊢; omega)
      refine ⟨decimal b ++ ',' :: ' ' :: t, ?_, fun a ha => ?_⟩
      · rw [formatLoop, if_pos (by simp at hn; omega), h1]
        simp
      · have := Elements.more (b := []) ha (decimal_number b) (by simp) (h2 [' '] (by decide))
        simpa using this

/-- C109: the text is a JSON array, and the key is the only list it denotes: every JSON reader gets the 32 bytes of the key from it -/
theorem C109_text (key : Bytes) : Arr (format key) (key.map UInt8.toNat) ∧ ∀ l, Arr (format key) l → l = key.map UInt8.toNat := by
  have h : Arr (format key) (key.map UInt8.toNat) := by
    cases key with
    | nil => exact Arr.empty (a := []) (by simp)
    | cons b key =>
      obtain ⟨t, h1, h2⟩ := formatLoop_elements (b :: key).length 0 (b :: key) ['['] (by simp) (by simp)
      unfold format
      rw [h1]
      exact Arr.full (h2 [] (by simp))
  refine ⟨h, fun l hl => ?_⟩
  have h1 := scan_arr h
  have h2 := scan_arr hl
  rw [h1] at h2
  exact (congrArg Prod.snd h2).symm

/-- C109: the values are those of an array of 32 bytes -/
theorem C109_values (key : Bytes) (h : key.length = 32) (l : List Nat) (hl : Arr (format key) l) : l.length = 32 ∧ ∀ n ∈ l, n < 256 := by
  rw [(C109_text key).2 l hl]
  refine ⟨by simpa using h, fun n hn => ?_⟩
  obtain ⟨b, _, rfl⟩ := List.mem_map.mp hn
  exact b.toNat_lt

/-- C109: different keys have different texts -/
theorem C109_distinct (k k' : Bytes) (h : format k = format k') : k = k' := by
  have h1 := (C109_text k').2 _ (h ▸ (C109_text k).1)
  have : ∀ a b : Bytes, a.map UInt8.toNat = b.map UInt8.toNat → a = b := by
    intro a
    induction a with
    | nil => intro b hb; cases b with | nil => rfl | cons => cases hb
    | cons x a ih =>
      intro b hb
      cases b with
      | nil => cases hb
      | cons y b =>
        rw [List.map_cons, List.map_cons] at hb
        obtain ⟨e1, e2⟩ := List.cons.inj hb
        rw [UInt8.toNat_inj.mp e1, ih b e2]
  exact this k k' h1

example : format [0, 7, 10, 255] = "[0, 7, 10, 255]".toList := by decide +kernel

end Verif.Props
