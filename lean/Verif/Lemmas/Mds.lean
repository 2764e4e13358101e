import Verif.Spec.Radio
import Mathlib.FieldTheory.Finite.GaloisField
import Mathlib.LinearAlgebra.Lagrange
/-
The assumptions about the Reed-Solomon crate can be met: the code of the values of a polynomial over the field with 256 elements.
-/
namespace Verif.Vlp

open Polynomial

noncomputable section

abbrev F := GaloisField 2 8

theorem card_F : Nat.card F = 256 := by rw [GaloisField.card 2 8 (by decide)]; decide

instance : Finite F := Nat.finite_of_card_ne_zero (by rw [card_F]; decide)

/-- the field elements, numbered -/
def pt : Fin 256 ≃ F := (Finite.equivFinOfCardEq card_F).symm

/-- the byte as a field element -/
def elt (b : UInt8) : F := pt b.toFin

def byte (f : F) : UInt8 := UInt8.ofFin (pt.symm f)

theorem byte_elt (b : UInt8) : byte (elt b) = b := by simp [byte, elt]

theorem elt_byte (f : F) : elt (byte f) = f := by simp [byte, elt]

/-- the `i`-th point -/
def node (i : ℕ) : F := pt (Fin.ofNat 256 i)

theorem node_inj (k : ℕ) (hk : k ≤ 256) : Set.InjOn node (Finset.range k) := by
  intro i hi j hj h
  have h := pt.injective h
  simp only [Finset.coe_range, Set.mem_Iio] at hi hj
  have := congrArg Fin.val h
  simp only [Fin.ofNat] at this
  omega

def poly (d : Bytes) : F[X] := Lagrange.interpolate (Finset.range d.length) node fun i => elt (d.getD i 0)

def eccOf (n : ℕ) (d : Bytes) : Bytes := (List.range n).map fun j => byte ((poly d).eval (node (d.length + j)))

theorem word_get {n : ℕ} {d : Bytes} (h : d.length + n ≤ 255) {i : ℕ} (hi : i < d.length + n) :
    (d ++ eccOf n d)[i]? = some (byte ((poly d).eval (node i))) := by
  by_cases hd : i < d.length
  · rw [List.getElem?_append_left hd, List.getElem?_eq_getElem hd, poly,
      Lagrange.eval_interpolate_at_node _ (node_inj _ (by omega)) (Finset.mem_range.mpr hd), byte_elt]
    simp [List.getD_eq_getElem?_getD, hd]
  · rw [List.getElem?_append_right (by omega), eccOf, List.getElem?_map, List.getElem?_range (by omega)]
    simp only [Option.map_some]
    congr 4; omega

theorem errs_count (a b : Bytes) (h : a.length = b.length) : byteErrors a b = (List.range a.length).countP fun i => a[i]? != b[i]? := by
  induction a generalizing b with
  | nil => simp [byteErrors]
  | cons x xs ih =>
    cases b with
    | nil => simp at h
    | cons y ys =>
      have := ih ys (by simpa using h)
      unfold byteErrors at this ⊢
      simp only [List.zip_cons_cons, List.countP_cons, List.length_cons, List.range_succ_eq_map, List.countP_map, this]
      congr 1

theorem countP_card (n : ℕ) (p : ℕ → Bool) : (List.range n).countP p = ((Finset.range n).filter fun i => p i = true).card := by
  induction n with
  | zero => rfl
  | succ n ih =>
    rw [List.range_succ, List.countP_append, ih, Finset.range_add_one, Finset.filter_insert]
    by_cases h : p n = true
    · rw [if_pos h, Finset.card_insert_of_notMem (by simp)]; simp [h]
    · rw [if_neg h]; simp [h]

theorem errs_tri (a b c : Bytes) (h : a.length = b.length) (h2 : b.length = c.length) : byteErrors a c ≤ byteErrors a b + byteErrors c b := by
  induction a generalizing b c with
  | nil => simp [byteErrors]
  | cons x xs ih =>
    cases b with
    | nil => simp at h
    | cons y ys =>
      cases c with
      | nil => simp at h2
      | cons z zs =>
        have := ih ys zs (by simpa using h) (by simpa using h2)
        unfold byteErrors at this ⊢
        simp only [List.zip_cons_cons, List.countP_cons]
        by_cases h1 : x = y
        · by_cases h3 : z = y
          · simp [h1, h3]; exact this
          · have : (x != z) = true := by rw [h1]; simp; exact fun h => h3 h.symm
            simp [h1, h3]; split <;> omega
        · simp [h1]; split <;> split <;> omega

theorem decode_unique {n : ℕ} {d d' : Bytes} (hl : d.length = d'.length) (h : d.length + n ≤ 255)
    (he : byteErrors (d ++ eccOf n d) (d' ++ eccOf n d') ≤ n) : d = d' := by
  have hw : (d ++ eccOf n d).length = d.length + n := by simp [eccOf]
  have hw' : (d' ++ eccOf n d').length = d.length + n := by simp [eccOf, hl]
  rw [errs_count _ _ (by rw [hw, hw']), hw, countP_card] at he
  set E := (Finset.range (d.length + n)).filter fun i => ((d ++ eccOf n d)[i]? != (d' ++ eccOf n d')[i]?) = true with hE
  have hcard : d.length ≤ ((Finset.range (d.length + n)) \ E).card := by
    have := Finset.le_card_sdiff E (Finset.range (d.length + n))
    rw [Finset.card_range] at this
    omega
  have hp : poly d = poly d' := by
    refine Polynomial.eq_of_degrees_lt_of_eval_index_eq ((Finset.range (d.length + n)) \ E) (v := node) ?_ ?_ ?_ ?_
    · exact (node_inj 256 (le_refl _)).mono (by
        intro i hi
        have := (Finset.mem_sdiff.mp (Finset.mem_coe.mp hi)).1
        simp only [Finset.mem_range, Finset.coe_range, Set.mem_Iio] at this ⊢
        omega)
    · refine lt_of_lt_of_le (Lagrange.degree_interpolate_lt _ (node_inj _ (by omega))) ?_
      rw [Finset.card_range]; exact_mod_cast hcard
    · refine lt_of_lt_of_le (Lagrange.degree_interpolate_lt _ (node_inj _ (by omega))) ?_
      rw [Finset.card_range, ← hl]; exact_mod_cast hcard
    · intro i hi
      obtain ⟨h1, h2⟩ := Finset.mem_sdiff.mp hi
      have hi' := Finset.mem_range.mp h1
      have heq : (d ++ eccOf n d)[i]? = (d' ++ eccOf n d')[i]? := by
        by_contra hne
        exact h2 (Finset.mem_filter.mpr ⟨h1, by simpa using hne⟩)
      rw [word_get h hi', word_get (by omega) (by omega)] at heq
      have := congrArg elt (Option.some.inj heq)
      rwa [elt_byte, elt_byte] at this
  apply List.ext_getElem hl
  intro i h1 h2
  have a1 := word_get (n := n) h (i := i) (by omega)
  have a2 := word_get (n := n) (d := d') (by omega) (i := i) (by omega)
  rw [List.getElem?_append_left h1, List.getElem?_eq_getElem h1] at a1
  rw [List.getElem?_append_left h2, List.getElem?_eq_getElem h2, ← hp] at a2
  exact Option.some.inj (a1.trans a2.symm)

open Classical in
/-- nearest code word decoding with this code; an arbitrary key stream -/
def mdsExt (ks : Bytes → Bytes → ℕ → UInt8) : Ext where
  ecc := eccOf
  correct n m :=
    if h : ∃ d : Bytes, d.length = m.length - n ∧ byteErrors (d ++ eccOf n d) m ≤ n / 2 then some h.choose else none
  keystream := ks

/-- the assumptions can be met -/
theorem mds_laws (ks : Bytes → Bytes → ℕ → UInt8) : (mdsExt ks).Laws where
  ecc_len n d := by simp [mdsExt, eccOf]
  correct_len n m d h := by
    simp only [mdsExt] at h
    split at h
    · next hx => rw [← Option.some.inj h]; exact hx.choose_spec.1
    · exact absurd h (by simp)
  fixes n d m hl hm he := by
    have hx : ∃ d : Bytes, d.length = m.length - n ∧ byteErrors (d ++ eccOf n d) m ≤ n / 2 := ⟨d, by omega, he⟩
    simp only [mdsExt, dif_pos hx]
    congr 1
    obtain ⟨c1, c2⟩ := hx.choose_spec
    generalize hx.choose = d' at c1 c2 ⊢
    have e : ∀ d : Bytes, (d ++ eccOf n d).length = d.length + n := by intro d; simp [eccOf]
    refine decode_unique (n := n) (by omega) (by omega) ?_
    have he' : byteErrors (d ++ eccOf n d) m ≤ n / 2 := he
    have := errs_tri (d' ++ eccOf n d') m (d ++ eccOf n d) (by rw [e]; omega) (by rw [e]; omega)
    omega

end

end Verif.Vlp
