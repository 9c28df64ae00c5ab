import Verif.Lemmas.Utils
import Verif.Spec.Utils
import Verif.Spec.Shape
import Mathlib.Analysis.Real.Pi.Bounds

/-!
# Numerical helpers

* C55: angle normalisation in degrees.
* C56: angle normalisation in radians on arrays.
* C57: clamping.
* C58: dispersion helpers.
-/

set_option autoImplicit false

namespace Micropol

/-! ## C55 -/

/-- C55: representatives are unique, so C55_normalised determines the result. -/
theorem C55_unique {half a r r' : ℝ} (h0 : 0 < half) (h : IsRepresentative half a r)
    (h' : IsRepresentative half a r') : r = r' := by
  obtain ⟨h1, h2, k, rfl⟩ := h
  obtain ⟨h1', h2', k', rfl⟩ := h'
  have hk : k = k' := by
    have e1 : (2 * half) * ((k : ℝ) - k') < (2 * half) * 1 := by linarith
    have e2 : (2 * half) * ((k' : ℝ) - k) < (2 * half) * 1 := by linarith
    have e3 := lt_of_mul_lt_mul_left e1 (by linarith)
    have e4 := lt_of_mul_lt_mul_left e2 (by linarith)
    have e5 : k - k' < 1 := by exact_mod_cast e3
    have e6 : k' - k < 1 := by exact_mod_cast e4
    omega
  rw [hk]

/-- C55: `normalize2pi` terminates on every list and gives, entry by entry, the representative in (-90, 90]. -/
theorem C55_normalised (l : List ℝ) :
    ∃ r, normalize2pi (.list l) = .ok r ∧ List.Forall₂ (IsRepresentative 90) l r := by
  choose g hg using normalizeAngle_ok
  refine ⟨l.map g, ?_, ?_⟩
  · unfold normalize2pi
    exact mapM_ok (fun a _ => (hg a).1)
  · rw [List.forall₂_map_right_iff, List.forall₂_same]
    intro a _
    obtain ⟨-, h1, h2, k, hk⟩ := hg a
    exact ⟨h1, h2, k, by linarith⟩

/-- C55: a number is treated as a list of one angle. -/
theorem C55_number (a : ℝ) : normalize2pi (.number a) = normalize2pi (.list [a]) := rfl

/-- C55: angles already in (-90, 90] are left alone; hence normalising twice is normalising once. -/
theorem C55_fixed (l : List ℝ) (h : ∀ a ∈ l, -90 < a ∧ a ≤ 90) : normalize2pi (.list l) = .ok l := by
  obtain ⟨r, hr, hf⟩ := C55_normalised l
  rw [hr]
  congr 1
  clear hr
  induction hf with
  | nil => rfl
  | cons hab _ ih =>
    rename_i a b l' r' _
    have h0 := h a (by simp)
    rw [ih (fun c hc => h c (by simp [hc])),
      C55_unique (a := a) (by norm_num) hab ⟨h0.1, h0.2, 0, by simp⟩]

theorem C55_idempotent (l r : List ℝ) (h : normalize2pi (.list l) = .ok r) : normalize2pi (.list r) = .ok r := by
  obtain ⟨r', hr, hf⟩ := C55_normalised l
  rw [hr] at h
  injection h with h
  subst h
  apply C55_fixed
  intro a ha
  obtain ⟨i, hi, rfl⟩ := List.mem_iff_getElem.1 ha
  have := (List.forall₂_iff_get.1 hf).2 i (by rw [hf.length_eq]; exact hi) hi
  exact ⟨this.1, this.2.1⟩

example : normalize2pi (.list [135, -90, 720]) = .ok [-45, 90, 0] := by
  obtain ⟨r, hr, hf⟩ := C55_normalised [135, -90, 720]
  rw [hr]
  congr 1
  cases hf with
  | cons h1 hf =>
    cases hf with
    | cons h2 hf =>
      cases hf with
      | cons h3 hf =>
        cases hf
        rw [C55_unique (by norm_num) h1 (r' := -45) ⟨by norm_num, by norm_num, -1, by norm_num⟩,
          C55_unique (by norm_num) h2 (r' := 90) ⟨by norm_num, by norm_num, 1, by norm_num⟩,
          C55_unique (by norm_num) h3 (r' := 0) ⟨by norm_num, by norm_num, -4, by norm_num⟩]

/-! ## C56 -/

/-- C56: `normalize2piarray` terminates on every array and gives, pixel by pixel, the representative in
(-π/2, π/2]. -/
theorem C56_normalised (A : Img ℝ) :
    ∃ B, normalize2piarray A = .ok B ∧ B.SameShape A ∧
      ∀ y x, y < A.h → x < A.w → IsRepresentative (Real.pi / 2) (A.px y x) (B.px y x) := by
  obtain ⟨B, h1, h2, h3, h4⟩ := array_down (Real.pi / 2) Real.pi Real.pi_pos A
  obtain ⟨C, g1, g2, g3, g4⟩ := array_up (-Real.pi / 2) Real.pi Real.pi_pos B
  refine ⟨C, ?_, ⟨g2.trans h2, g3.trans h3⟩, ?_⟩
  · unfold normalize2piarray
    rw [h1, Py.ok_bind, g1]
  · intro y x hy hx
    obtain ⟨k, e1, e2, e3⟩ := h4 y x hy hx
    obtain ⟨m, f1, f2, f3⟩ := g4 y x (by rw [h2]; exact hy) (by rw [h3]; exact hx)
    refine ⟨by linarith, ?_, (m : ℤ) - k, ?_⟩
    · rcases f3 with rfl | f3
      · rw [f1]; simpa using e2
      · linarith
    · rw [f1, e1]
      push_cast
      ring

/-- C56: hence arrays already in range are unchanged. -/
theorem C56_fixed (A : Img ℝ) (h : ∀ y x, y < A.h → x < A.w → -(Real.pi / 2) < A.px y x ∧ A.px y x ≤ Real.pi / 2) :
    normalize2piarray A = .ok A := by
  obtain ⟨B, h1, h2, h3⟩ := C56_normalised A
  rw [h1]
  congr 1
  refine Img.ext_px h2.1 h2.2 ?_
  intro y x hy hx
  have hy : y < A.h := h2.1 ▸ hy
  have hx : x < A.w := h2.2 ▸ hx
  exact C55_unique (by have := Real.pi_pos; linarith) (h3 y x hy hx) ⟨(h y x hy hx).1, (h y x hy hx).2, 0, by simp⟩

example : ∃ B, normalize2piarray (Img.const 2 3 (5 * Real.pi / 4)) = .ok B ∧ B.px 1 2 = Real.pi / 4 := by
  obtain ⟨B, h1, -, h3⟩ := C56_normalised (Img.const 2 3 (5 * Real.pi / 4))
  refine ⟨B, h1, ?_⟩
  have := h3 1 2 (by decide) (by decide)
  rw [show (Img.const 2 3 (5 * Real.pi / 4)).px 1 2 = 5 * Real.pi / 4 from Img.ofFn_px (by decide) (by decide)] at this
  have hp := Real.pi_pos
  exact C55_unique (by linarith) this ⟨by linarith, by linarith, -1, by push_cast; ring⟩

/-! ## C57 -/

/-- C57, for bounds different from 0: every pixel is clamped to `[lo, hi]`.  Missing from the full property: a bound
equal to 0, see `C57_zero_bound`. -/
theorem C57_clamped_partial (A : Img ℝ) (lo hi : ℝ) (hlo : lo ≠ 0) (hhi : hi ≠ 0) (hle : lo ≤ hi) :
    (fixData A lo hi).SameShape A ∧
    ∀ y x, y < A.h → x < A.w → (fixData A lo hi).px y x = max lo (min (A.px y x) hi) := by
  unfold fixData
  rw [if_neg (not_not.2 ⟨hlo, hhi⟩)]
  refine ⟨⟨rfl, rfl⟩, ?_⟩
  intro y x hy hx
  dsimp only
  rw [Img.map_px _ (A.map _) (by exact hy) (by exact hx), Img.map_px _ _ hy hx]
  by_cases h1 : A.px y x > lo
  · rw [if_pos h1]
    by_cases h2 : A.px y x < hi
    · rw [if_pos h2, min_eq_left h2.le, max_eq_right h1.le]
    · rw [if_neg h2, min_eq_right (not_lt.1 h2), max_eq_right hle]
  · rw [if_neg h1]
    have h1 := not_lt.1 h1
    rw [min_eq_left (h1.trans hle), max_eq_left h1]
    by_cases h2 : lo < hi
    · rw [if_pos h2]
    · rw [if_neg h2, le_antisymm hle (not_lt.1 h2)]

/-- C57, violation: with a bound equal to 0 (for example "clip negative pixels") nothing is clamped. -/
theorem C57_zero_bound (A : Img ℝ) (lo hi : ℝ) (h : lo = 0 ∨ hi = 0) : fixData A lo hi = A := by
  unfold fixData
  rw [if_pos]
  rintro ⟨h1, h2⟩
  rcases h with h | h
  · exact h1 h
  · exact h2 h

theorem C57_full_claim_false :
    ∃ (A : Img ℝ) (lo hi : ℝ), lo ≤ hi ∧ 0 < A.h ∧ 0 < A.w ∧ (fixData A lo hi).px 0 0 ≠ max lo (min (A.px 0 0) hi) := by
  refine ⟨Img.const 1 1 (-5), 0, 10, by norm_num, by decide, by decide, ?_⟩
  rw [C57_zero_bound _ _ _ (Or.inl rfl)]
  rw [show (Img.const 1 1 (-5 : ℝ)).px 0 0 = -5 from Img.ofFn_px (by decide) (by decide)]
  norm_num

example : (fixData (Img.const 2 2 7) 1 5).px 1 1 = 5 := by
  rw [(C57_clamped_partial _ 1 5 (by norm_num) (by norm_num) (by norm_num)).2 1 1 (by decide) (by decide),
    show (Img.const 2 2 (7 : ℝ)).px 1 1 = 7 from Img.ofFn_px (by decide) (by decide)]
  norm_num

/-! ## C58 -/

open Finset in
/-- C58: for non-empty data both values exist; they lie symmetrically around the arithmetic mean, at `n` times the
root mean square deviation. -/
theorem C58_symmetric (A : Img ℝ) (hh : 0 < A.h) (hw : 0 < A.w) (n : ℝ) (hn : 0 ≤ n) :
    ∃ lo hi mean, meanMinusStd A n = .ok lo ∧ meanPlusStd A n = .ok hi ∧
      mean * (A.h * A.w : ℝ) = ∑ y ∈ range A.h, ∑ x ∈ range A.w, A.px y x ∧
      lo ≤ mean ∧ mean ≤ hi ∧ mean - lo = hi - mean ∧
      (hi - mean) ^ 2 * (A.h * A.w : ℝ) =
        n ^ 2 * ∑ y ∈ range A.h, ∑ x ∈ range A.w, (A.px y x - mean) ^ 2 := by
  obtain ⟨s, hs, h0, hsq⟩ := npStd_sq hh hw
  have hm := npMean_real hh hw
  unfold meanMinusStd meanPlusStd
  rw [hm, hs]
  refine ⟨_, _, (∑ y ∈ range A.h, ∑ x ∈ range A.w, A.px y x) / ((A.h * A.w : Nat) : ℝ), rfl, rfl,
    ?_, ?_, ?_, ?_, ?_⟩
  · have hne : ((A.h * A.w : Nat) : ℝ) ≠ 0 := by
      have : 0 < A.h * A.w := Nat.mul_pos hh hw
      exact_mod_cast this.ne'
    rw [← Nat.cast_mul, div_mul_cancel₀ _ hne]
  · have := mul_nonneg hn h0
    linarith
  · have := mul_nonneg hn h0
    linarith
  · ring
  · rw [← hsq, Nat.cast_mul]
    ring

/-- C58: constant data give the constant twice. -/
theorem C58_constant (h w : Nat) (hh : 0 < h) (hw : 0 < w) (c n : ℝ) :
    meanMinusStd (Img.const h w c) n = .ok c ∧ meanPlusStd (Img.const h w c) n = .ok c := by
  have hne : ((h * w : Nat) : ℝ) ≠ 0 := by
    have : 0 < h * w := Nat.mul_pos hh hw
    exact_mod_cast this.ne'
  have hconst : ∀ c : ℝ, npMean (Img.const h w c) = .ok c := by
    intro c
    rw [npMean_real (by exact hh) (by exact hw)]
    congr 1
    have : (∑ y ∈ Finset.range h, ∑ x ∈ Finset.range w, (Img.const h w c).px y x) = ((h * w : Nat) : ℝ) * c := by
      have : ∀ y ∈ Finset.range h, (∑ x ∈ Finset.range w, (Img.const h w c).px y x) = w * c := by
        intro y hy
        rw [Finset.sum_congr rfl (g := fun _ => c)
          (fun x hx => Img.ofFn_px (Finset.mem_range.1 hy) (Finset.mem_range.1 hx))]
        simp
      rw [Finset.sum_congr rfl this]
      simp
      ring
    show (∑ y ∈ Finset.range h, ∑ x ∈ Finset.range w, (Img.const h w c).px y x) / ((h * w : Nat) : ℝ) = c
    rw [this]
    field_simp
  have hstd : npStd (Img.const h w c) = .ok 0 := by
    unfold npStd
    rw [hconst, Py.ok_bind]
    have : (Img.const h w c).map (fun v => (v - c) * (v - c)) = Img.const h w 0 := by
      refine Img.ext_px rfl rfl ?_
      intro y x (hy : y < h) (hx : x < w)
      rw [Img.map_px _ _ (by exact hy) (by exact hx)]
      unfold Img.const
      rw [Img.ofFn_px hy hx, Img.ofFn_px hy hx]
      ring
    rw [this, hconst, Py.ok_bind, Real.sqrt_zero]
    rfl
  unfold meanMinusStd meanPlusStd
  rw [hconst, hstd]
  constructor
  · show Except.ok (c - n * 0) = _
    rw [mul_zero, sub_zero]
  · show Except.ok (c + n * 0) = _
    rw [mul_zero, add_zero]

/-- C58: both commute with `v ↦ a v + b`, `a ≥ 0`. -/
theorem C58_affine (A : Img ℝ) (hh : 0 < A.h) (hw : 0 < A.w) (n a b : ℝ) (ha : 0 ≤ a) (lo hi : ℝ)
    (hlo : meanMinusStd A n = .ok lo) (hhi : meanPlusStd A n = .ok hi) :
    meanMinusStd (A.map (fun v => a * v + b)) n = .ok (a * lo + b) ∧
    meanPlusStd (A.map (fun v => a * v + b)) n = .ok (a * hi + b) := by
  obtain ⟨s, hs, -⟩ := npStd_ok hh hw
  have hm := npMean_real hh hw
  unfold meanMinusStd at hlo ⊢
  unfold meanPlusStd at hhi ⊢
  rw [hm, hs] at hlo hhi
  rw [npMean_affine hh hw hm a b, npStd_affine hh hw hs a b ha]
  injection hlo with hlo
  injection hhi with hhi
  constructor
  · show Except.ok _ = _
    rw [← hlo]
    congr 1
    ring
  · show Except.ok _ = _
    rw [← hhi]
    congr 1
    ring

/-- C58: empty data have no mean. -/
theorem C58_empty (A : Img ℝ) (h : A.h = 0 ∨ A.w = 0) (n : ℝ) :
    meanMinusStd A n = .error .notFinite ∧ meanPlusStd A n = .error .notFinite := by
  unfold meanMinusStd meanPlusStd npMean
  rw [if_pos h]
  exact ⟨rfl, rfl⟩

example : ∃ lo hi mean, meanMinusStd (Img.ofFn 1 2 (fun _ x => (x : ℝ))) 3 = .ok lo ∧
    meanPlusStd (Img.ofFn 1 2 (fun _ x => (x : ℝ))) 3 = .ok hi ∧ mean * 2 = 1 ∧ lo ≤ mean ∧ mean ≤ hi := by
  obtain ⟨lo, hi, mean, h1, h2, h3, h4, h5, -, -⟩ := C58_symmetric (Img.ofFn 1 2 (fun _ x => (x : ℝ))) (by decide)
    (by decide) 3 (by norm_num)
  refine ⟨lo, hi, mean, h1, h2, ?_, h4, h5⟩
  norm_num [Img.ofFn_px', Finset.sum_range_succ] at h3
  exact h3

end Micropol
