import Verif.Model.NrgfCall
import Verif.Props.Nrgf
import Verif.Props.Occulter

/-!
# C98: the optional arguments of the ring filter

The documentation promises the middle of the image for a missing centre and 0 for a missing radius.  The code looks for the
occulter instead and then forgets also the values that were given.
-/

set_option autoImplicit false

namespace Micropol

open Finset

theorem farthest_exists {h w : Nat} (hh : 0 < h) (hw : 0 < w) (c : ℝ × ℝ) : ∃ M, IsFarthest h w c M := by
  have hne' : (range h ×ˢ range w).Nonempty := ⟨(0, 0), by simp [hh, hw]⟩
  obtain ⟨q, hq, hmax⟩ := Finset.exists_max_image (range h ×ˢ range w)
    (fun q => ((q.1 : ℝ) - c.1) ^ 2 + ((q.2 : ℝ) - c.2) ^ 2) hne'
  simp only [Finset.mem_product, Finset.mem_range] at hq hmax
  have hs : Real.sqrt (((q.1 : ℝ) - c.1) ^ 2 + ((q.2 : ℝ) - c.2) ^ 2) ^ 2 = ((q.1 : ℝ) - c.1) ^ 2 + ((q.2 : ℝ) - c.2) ^ 2 :=
    Real.sq_sqrt (by positivity)
  refine ⟨_, ⟨q.1, q.2, hq.1, hq.2, Real.sqrt_nonneg _, hs⟩, ?_⟩
  intro y x hy hx
  rw [hs]
  exact hmax (y, x) ⟨hy, hx⟩

theorem isTrunc_int (n : ℤ) : IsTrunc (n : ℝ) n := ⟨le_rfl, by linarith, by nlinarith [sq_nonneg (n : ℝ)]⟩

theorem nrgfPosition_missing {fit : SigmoidFit} {A : Img ℝ} {y x : Option ℝ} {r : Option Int}
    (h : y = none ∨ x = none ∨ r = none) :
    nrgfPosition fit A y x r = findOcculterPosition fit A .sigmoid 4 >>= fun p => .ok ((p.1 : ℝ), (p.2.1 : ℝ), p.2.2) := by
  unfold nrgfPosition
  rcases y with _ | y <;> rcases x with _ | x <;> rcases r with _ | r <;> first | rfl | (simp at h)

/-- C98: with centre and radius given they are used as they are, no search is made, and C63 says what the result is. -/
theorem C98_given (fit : SigmoidFit) (A : Img ℝ) (y x : ℝ) (r : Int) (step : Nat) (tm tout : ℝ × ℝ) :
    nrgfCall fit A (some y) (some x) (some r) step tm tout = nrgf A y x r step tm tout := by
  show (if 0 ≤ (step : Int) then nrgf A y x r (step : Int).toNat tm tout else nrgfDown A y x r (-(step : Int)).toNat tm tout) = _
  rw [if_pos (Int.natCast_nonneg step)]
  rfl

/-- C98: if any of the three is missing, none of the given ones matters. -/
theorem C98_given_ignored (fit : SigmoidFit) (A : Img ℝ) (y y' x x' : Option ℝ) (r r' : Option Int) (step : Int) (tm tout : ℝ × ℝ)
    (h : y = none ∨ x = none ∨ r = none) (h' : y' = none ∨ x' = none ∨ r' = none) :
    nrgfCall fit A y x r step tm tout = nrgfCall fit A y' x' r' step tm tout := by
  unfold nrgfCall
  rw [nrgfPosition_missing h, nrgfPosition_missing h']

/-- C98: if any of the three is missing and the occulter is found, the call is the one with the position that was found. -/
theorem C98_found (fit : SigmoidFit) (A : Img ℝ) (y x : Option ℝ) (r : Option Int) (step : Int) (tm tout : ℝ × ℝ)
    (h : y = none ∨ x = none ∨ r = none) {cy cx rad : Int} (hf : findOcculterPosition fit A .sigmoid 4 = .ok (cy, cx, rad)) :
    nrgfCall fit A y x r step tm tout = nrgfCall fit A (some cy) (some cx) (some rad) step tm tout := by
  unfold nrgfCall
  rw [nrgfPosition_missing h, hf]
  rfl

/-- C98: if any of the three is missing and the search fails, so does the call. -/
theorem C98_not_found (fit : SigmoidFit) (A : Img ℝ) (y x : Option ℝ) (r : Option Int) (step : Int) (tm tout : ℝ × ℝ)
    (h : y = none ∨ x = none ∨ r = none) {e : PyErr} (hf : findOcculterPosition fit A .sigmoid 4 = .error e) :
    nrgfCall fit A y x r step tm tout = .error e := by
  unfold nrgfCall
  rw [nrgfPosition_missing h, hf]
  rfl

/-- C98: an image with fewer than 8 rows or columns is never accepted with a missing argument, even if the centre is given. -/
theorem C98_small (fit : SigmoidFit) (A : Img ℝ) (hs : A.h < 8 ∨ A.w < 8) (y x : Option ℝ) (r : Option Int) (step : Int)
    (tm tout : ℝ × ℝ) (h : y = none ∨ x = none ∨ r = none) : ∀ B, nrgfCall fit A y x r step tm tout ≠ .ok B := by
  intro B hB
  rcases hp : findOcculterPosition fit A .sigmoid 4 with e | p
  · rw [C98_not_found fit A y x r step tm tout h hp] at hB
    cases hB
  · exact C85_small fit hs 4 p hp

/-- C98: the same small image is accepted when all three are given. -/
theorem C98_small_given (fit : SigmoidFit) (A : Img ℝ) (hh : 0 < A.h) (hw : 0 < A.w) (y x : ℝ) (r : Int) (step : Nat)
    (hstep : 0 < step) (tm tout : ℝ × ℝ) :
    ∃ B, nrgfCall fit A (some y) (some x) (some r) step tm tout = .ok B ∧ B.SameShape A := by
  obtain ⟨M, hM⟩ := farthest_exists hh hw (((pyInt y : ℤ) : ℝ), ((pyInt x : ℤ) : ℝ))
  obtain ⟨B, hB, hS, _⟩ := C63_pixels A y x _ _ (pyInt_trunc y) (pyInt_trunc x) r step hstep tm tout M hM _ (pyInt_trunc M)
  exact ⟨B, by rw [C98_given]; exact hB, hS⟩

/-- C98: the step 0 is refused whatever the position. -/
theorem C98_zero_step (fit : SigmoidFit) (A : Img ℝ) (y x : Option ℝ) (r : Option Int) (tm tout : ℝ × ℝ) :
    ∀ B, nrgfCall fit A y x r 0 tm tout ≠ .ok B := by
  intro B hB
  unfold nrgfCall at hB
  obtain ⟨p, _, hB⟩ := Py.bind_eq_ok.1 hB
  rw [if_pos le_rfl] at hB
  unfold nrgf at hB
  obtain ⟨R, _, hB⟩ := Py.bind_eq_ok.1 hB
  rw [if_pos (show Int.toNat 0 = 0 from rfl)] at hB
  cases hB

open Classical in
theorem nrgfBodyDown_same (A : Img ℝ) (c tm tout : ℝ × ℝ) (s : Nat) (r : Int) :
    nrgfBodyDown A (mapPolarCoordinates A.h A.w c).1 (sectorCondition (mapPolarCoordinates A.h A.w c).2 tm)
      (sectorCondition (mapPolarCoordinates A.h A.w c).2 tout) s r (Img.zeros A.h A.w) = .ok (Img.zeros A.h A.w) := by
  have hno : ∀ (t : ℝ × ℝ) y x, y < A.h → x < A.w →
      (logicalAnd (ringCondition (mapPolarCoordinates A.h A.w c).1 (r : ℝ) ((r : ℝ) - (s : ℝ)))
        (sectorCondition (mapPolarCoordinates A.h A.w c).2 t)).px y x = false := by
    intro t y x hy hx
    have hs : (0 : ℝ) ≤ s := Nat.cast_nonneg s
    unfold logicalAnd ringCondition
    rw [Img.ofFn_px (by exact hy) (by exact hx), Img.ofFn_px (by exact hy) (by exact hx)]
    rw [Bool.and_eq_false_iff, Bool.and_eq_false_iff, decide_eq_false_iff_not, decide_eq_false_iff_not]
    left
    by_cases h : (mapPolarCoordinates A.h A.w c).1.px y x > r
    · right; linarith
    · left; exact h
  have hemp : ¬ (truePixels (logicalAnd (ringCondition (mapPolarCoordinates A.h A.w c).1 (r : ℝ) ((r : ℝ) - (s : ℝ)))
        (sectorCondition (mapPolarCoordinates A.h A.w c).2 tm))).Nonempty := by
    rintro ⟨q, hq⟩
    unfold truePixels at hq
    simp only [Finset.mem_filter, Finset.mem_product, Finset.mem_range] at hq
    rw [hno tm q.1 q.2 hq.1.1 hq.1.2] at hq
    exact absurd hq.2 (by decide)
  unfold nrgfBodyDown
  dsimp only
  rw [meanWhere_none hemp]
  dsimp only
  rw [npWhere_zero rfl rfl]
  congr 1
  refine Img.ofFn_congr ?_
  intro y x hy hx
  rw [hno tout y x hy hx]
  exact (if_neg (by decide)).trans (Img.ofFn_px hy hx)

/-- C98: with a negative step no pixel is in any ring: the result is an image of zeros, without a complaint. -/
theorem C98_negative_step (fit : SigmoidFit) (A : Img ℝ) (hh : 0 < A.h) (hw : 0 < A.w) (y x : ℝ) (r : Int) (step : Int)
    (hstep : step < 0) (tm tout : ℝ × ℝ) :
    ∃ B, nrgfCall fit A (some y) (some x) (some r) step tm tout = .ok B ∧ B.SameShape A ∧
      ∀ i j, i < A.h → j < A.w → B.px i j = 0 := by
  refine ⟨Img.zeros A.h A.w, ?_, ⟨rfl, rfl⟩, fun i j hi hj => Img.ofFn_px hi hj⟩
  show (if 0 ≤ step then _ else nrgfDown A y x r (-step).toNat tm tout) = _
  rw [if_neg (by omega)]
  obtain ⟨M, hM⟩ := farthest_exists hh hw (((pyInt y : ℤ) : ℝ), ((pyInt x : ℤ) : ℝ))
  unfold nrgfDown
  dsimp only
  rw [rhoMax_ok hM, Py.ok_bind]
  unfold forList
  generalize pyRangeDown r (pyInt M) (-step).toNat = l
  induction l with
  | nil => rfl
  | cons a l ih =>
    rw [List.foldlM_cons, nrgfBodyDown_same, Py.ok_bind]
    exact ih

/-- C98: with the default step the pixels at most as far as the radius, and those farther than the largest whole distance (the
corners, in general), are 0 however bright they are; all the others are normalised with their ring. -/
theorem C98_covered (fit : SigmoidFit) (A : Img ℝ) (cy cx r : Int) (tm : ℝ × ℝ) (M : ℝ)
    (hM : IsFarthest A.h A.w ((cy : ℝ), (cx : ℝ)) M) (R : ℤ) (hR : IsTrunc M R) :
    ∃ B, nrgfCall fit A (some cy) (some cx) (some r) 1 tm (0, 360) = .ok B ∧ B.SameShape A ∧
      ∀ i j, i < A.h → j < A.w → ∀ ρ : ℝ, 0 ≤ ρ → ρ ^ 2 = ((i : ℝ) - cy) ^ 2 + ((j : ℝ) - cx) ^ 2 →
        (ρ ≤ r ∨ R < ρ → B.px i j = 0) ∧
        (∀ n : Int, r ≤ n → n < R → (n : ℝ) < ρ → ρ ≤ n + 1 → ∀ μ σ,
          IsMean (regionPixels A.h A.w (cy, cx) ((n : ℝ), (n : ℝ) + 1) tm) A.px μ →
          IsStd (regionPixels A.h A.w (cy, cx) ((n : ℝ), (n : ℝ) + 1) tm) A.px σ → 0 < σ → B.px i j = (A.px i j - μ) / σ) := by
  obtain ⟨B, hB, hS, h1, h2⟩ := C63_pixels A cy cx cy cx (isTrunc_int cy) (isTrunc_int cx) r 1 one_pos tm (0, 360) M hM R hR
  refine ⟨B, (C98_given fit A cy cx r 1 tm (0, 360)).trans hB, hS, ?_⟩
  intro i j hi hj ρ hρ0 hρ
  have hs : Real.sqrt (((j : ℝ) - cx) ^ 2 + ((i : ℝ) - cy) ^ 2) = ρ := by
    rw [add_comm, ← hρ, Real.sqrt_sq hρ0]
  constructor
  · intro h
    refine h2 i j hi hj ?_
    intro k hk hreg
    rw [region_iff] at hreg
    dsimp only at hreg
    rw [hs] at hreg
    obtain ⟨⟨g1, g2⟩, _⟩ := hreg
    push_cast at g1 g2 hk
    rcases h with h | h
    · have : (0 : ℝ) ≤ k := Nat.cast_nonneg k
      linarith
    · have : ((r + (k + 1) : Int) : ℝ) ≤ R := by exact_mod_cast (by omega : r + (k + 1) ≤ R)
      push_cast at this
      linarith
  · intro n hrn hnR hn1 hn2 μ σ hμ hσ h0
    obtain ⟨k, hk⟩ : ∃ k : Nat, n = r + k := ⟨(n - r).toNat, by omega⟩
    have e1 : ((r + (k : Int) * ((1 : Nat) : Int) : Int) : ℝ) = (n : ℝ) := by rw [hk]; push_cast; ring
    have e2 : ((r + ((k : Int) + 1) * ((1 : Nat) : Int) : Int) : ℝ) = (n : ℝ) + 1 := by rw [hk]; push_cast; ring
    have := h1 k (by rw [hk] at hnR; push_cast; omega) i j hi hj
    rw [e1, e2] at this
    refine (this ?_).1 μ σ hμ hσ h0
    rw [region_iff]
    dsimp only
    rw [hs]
    exact ⟨⟨hn1, hn2⟩, pyMod_range _ (by norm_num)⟩

/-- C98, what holds of the documented defaults: for an image with exact edges and a fit that finds
exact solutions, the result of the call without position is the filter around the truncated
middle of the shifted edges, outside their truncated half distance: everything nearer is 0.  What is missing is the promise itself:
middle of the image and radius 0 (`C98_full_claim_false`). -/
theorem C98_defaults_partial {fit : SigmoidFit} (hfit : fit.FindsExact) {A : Img ℝ} (hh : 8 ≤ A.h) (hw : 8 ≤ A.w)
    {top bottom left right : ℝ} (hE : HasEdges A top bottom left right) (y x : Option ℝ) (r : Option Int)
    (h : y = none ∨ x = none ∨ r = none) (tm : ℝ × ℝ) :
    ∃ cy cx rad B, IsTrunc ((top + 1 + bottom) / 2) cy ∧ IsTrunc ((left + 1 + right) / 2) cx ∧
      IsTrunc ((|bottom - (top + 1)| / 2 + |right - (left + 1)| / 2) / 2) rad ∧
      nrgfCall fit A y x r 1 tm (0, 360) = .ok B ∧ B.SameShape A ∧
      nrgf A cy cx rad 1 tm (0, 360) = .ok B ∧
      ∀ i j, i < A.h → j < A.w → ((i : ℝ) - cy) ^ 2 + ((j : ℝ) - cx) ^ 2 ≤ (rad : ℝ) ^ 2 → B.px i j = 0 := by
  obtain ⟨cy, cx, rad, hf, g1, g2, g3⟩ := C85_edges hfit hh hw hE 4
  obtain ⟨M, hM⟩ := farthest_exists (h := A.h) (w := A.w) (by omega) (by omega) ((cy : ℝ), (cx : ℝ))
  obtain ⟨B, hB, hS, hz⟩ := C98_covered fit A cy cx rad tm M hM _ (pyInt_trunc M)
  refine ⟨cy, cx, rad, B, g1, g2, g3, (C98_found fit A y x r 1 tm (0, 360) h hf).trans hB, hS,
    (C98_given fit A cy cx rad 1 tm (0, 360)).symm.trans hB, ?_⟩
  intro i j hi hj hd
  have h0 : (0 : ℝ) ≤ ((i : ℝ) - cy) ^ 2 + ((j : ℝ) - cx) ^ 2 := by positivity
  have hrad : (0 : ℝ) ≤ rad := by
    by_contra hc
    push Not at hc
    have hw0 : 0 ≤ (|bottom - (top + 1)| / 2 + |right - (left + 1)| / 2) / 2 := by positivity
    obtain ⟨t1, t2, t3⟩ := g3
    have hz : (|bottom - (top + 1)| / 2 + |right - (left + 1)| / 2) / 2 = 0 := by
      rcases hw0.eq_or_lt with h | h
      · exact h.symm
      · nlinarith
    rw [hz, abs_zero] at t1
    exact absurd (abs_nonpos_iff.1 t1) hc.ne
  refine (hz i j hi hj (Real.sqrt (((i : ℝ) - cy) ^ 2 + ((j : ℝ) - cx) ^ 2)) (Real.sqrt_nonneg _) (Real.sq_sqrt h0)).1 (Or.inl ?_)
  rw [← Real.sqrt_sq hrad]
  exact Real.sqrt_le_sqrt hd

theorem region_mem_unit {h w : Nat} {c : ℤ} {y x : Nat} (hy : y < h) (hx : x < w)
    (hd : ((x : ℝ) - c) ^ 2 + ((y : ℝ) - c) ^ 2 = 1) :
    (y, x) ∈ regionPixels h w ((c : ℝ), (c : ℝ)) (0, 1) (0, 360) := by
  unfold regionPixels
  simp only [Finset.mem_filter, Finset.mem_product, Finset.mem_range]
  refine ⟨⟨hy, hx⟩, ?_⟩
  rw [region_iff]
  dsimp only
  rw [hd, Real.sqrt_one]
  exact ⟨⟨one_pos, le_rfl⟩, pyMod_range _ (by norm_num)⟩

/-- C98: the documented defaults are false.  For an image of 16 × 16 pixels with exact edges at rows and columns 4 and 11 the call
without position is not the filter around the middle of the image from radius 0. -/
theorem C98_full_claim_false : ∃ (fit : SigmoidFit) (A : Img ℝ), fit.FindsExact ∧ A.HasShape 16 16 ∧ HasEdges A 4 11 4 11 ∧
    (∀ y x r, (y = none ∨ x = none ∨ r = none) → ∃ B, nrgfCall fit A y x r 1 (0, 360) (0, 360) = .ok B) ∧
    nrgfCall fit A none none none 1 (0, 360) (0, 360) ≠
      nrgfCall fit A (some ((16 : ℝ) / 2)) (some ((16 : ℝ) / 2)) (some 0) 1 (0, 360) (0, 360) := by
  have hE := crossImage_edges (n := 16) (by omega) 4 11
  refine ⟨exSigmoidFit, crossImage 16 4 11, exSigmoidFit_exact, ⟨rfl, rfl⟩, hE, ?_, ?_⟩
  · intro y x r h
    obtain ⟨_, _, _, B, _, _, _, hB, _⟩ := C98_defaults_partial exSigmoidFit_exact (by show 8 ≤ 16; omega) (by show 8 ≤ 16; omega) hE
      y x r h (0, 360)
    exact ⟨B, hB⟩
  obtain ⟨cy, cx, rad, B, g1, g2, g3, hB, hS, _, hz⟩ := C98_defaults_partial exSigmoidFit_exact (by show 8 ≤ 16; omega)
    (by show 8 ≤ 16; omega) hE none none none (Or.inl rfl) (0, 360)
  have ecy : cy = 8 := trunc_unique g1 (by refine ⟨?_, ?_, ?_⟩ <;> norm_num [abs_of_nonneg])
  have ecx : cx = 8 := trunc_unique g2 (by refine ⟨?_, ?_, ?_⟩ <;> norm_num [abs_of_nonneg])
  have erad : rad = 3 := trunc_unique g3 (by refine ⟨?_, ?_, ?_⟩ <;> norm_num [abs_of_nonneg])
  subst ecy ecx erad
  rw [hB]
  intro hc
  obtain ⟨M, hM⟩ := farthest_exists (h := 16) (w := 16) (by omega) (by omega) (((8 : ℤ) : ℝ), ((8 : ℤ) : ℝ))
  have hR : (0 : Int) < pyInt M := by
    obtain ⟨⟨_, _, _, _, hM0, _⟩, hmax⟩ := hM
    have h1 := hmax 0 8 (by omega) (by omega)
    norm_num at h1
    have hM1 : 8 ≤ M := by nlinarith
    obtain ⟨t1, t2, t3⟩ := pyInt_trunc M
    by_contra hn
    push Not at hn
    have hn' : (pyInt M : ℝ) ≤ 0 := by exact_mod_cast hn
    rw [abs_of_nonneg hM0] at t1 t2
    rw [abs_of_nonpos hn'] at t2
    nlinarith
  have hB' : nrgf (crossImage 16 4 11) ((16 : ℝ) / 2) ((16 : ℝ) / 2) 0 1 (0, 360) (0, 360) = .ok B :=
    (C98_given exSigmoidFit (crossImage 16 4 11) _ _ 0 1 (0, 360) (0, 360)).symm.trans hc.symm
  have ht : IsTrunc ((16 : ℝ) / 2) 8 := by refine ⟨?_, ?_, ?_⟩ <;> norm_num [abs_of_nonneg]
  have ering : ((((0 : Int) + ((0 : Nat) : Int) * ((1 : Nat) : Int) : Int) : ℝ),
      (((0 : Int) + (((0 : Nat) : Int) + 1) * ((1 : Nat) : Int) : Int) : ℝ)) = ((0 : ℝ), (1 : ℝ)) := by norm_num
  have m1 := region_mem_unit (h := 16) (w := 16) (c := 8) (y := 8) (x := 7) (by omega) (by omega) (by norm_num)
  have m2 := region_mem_unit (h := 16) (w := 16) (c := 8) (y := 8) (x := 9) (by omega) (by omega) (by norm_num)
  obtain ⟨μ, σ, hμ, hσ⟩ := isStd_exists ⟨_, m1⟩ (crossImage 16 4 11).px
  have hσ0 : 0 < σ := by
    rcases hσ.1.eq_or_lt with h | h
    · exfalso
      obtain ⟨_, ν, _, hsq⟩ := hσ
      rw [← h] at hsq
      have hsum : ∑ q ∈ regionPixels 16 16 (((8 : ℤ) : ℝ), ((8 : ℤ) : ℝ)) (0, 1) (0, 360), ((crossImage 16 4 11).px q.1 q.2 - ν) ^ 2 = 0 := by
        rw [← hsq]; ring
      have hall := (Finset.sum_eq_zero_iff_of_nonneg (fun q _ => sq_nonneg _)).1 hsum
      have a1 := hall _ m1
      have a2 := hall _ m2
      have p1 : (crossImage 16 4 11).px 8 7 = 0 + (1 - 0) / (1 + Real.exp (-(-1 * (((7 : Nat) : ℝ) - 4)))) := by
        unfold crossImage
        rw [Img.ofFn_px (by omega) (by omega), if_neg (by omega), if_pos (by omega), if_pos (by omega)]
      have p2 : (crossImage 16 4 11).px 8 9 = 0 + (1 - 0) / (1 + Real.exp (-(1 * (((9 : Nat) : ℝ) - 11)))) := by
        unfold crossImage
        rw [Img.ofFn_px (by omega) (by omega), if_neg (by omega), if_pos (by omega), if_neg (by omega)]
      dsimp only at a1 a2
      have e12 : (crossImage 16 4 11).px 8 7 = (crossImage 16 4 11).px 8 9 := by
        have b1 := pow_eq_zero_iff (two_ne_zero) |>.1 a1
        have b2 := pow_eq_zero_iff (two_ne_zero) |>.1 a2
        linarith
      rw [p1, p2] at e12
      have q1 := Real.exp_pos (-(-1 * (((7 : Nat) : ℝ) - 4)))
      have q2 := Real.exp_pos (-(1 * (((9 : Nat) : ℝ) - 11)))
      have : Real.exp (-(-1 * (((7 : Nat) : ℝ) - 4))) = Real.exp (-(1 * (((9 : Nat) : ℝ) - 11))) := by
        simp only [zero_add, sub_zero] at e12
        rw [div_eq_div_iff (by positivity) (by positivity)] at e12
        linarith
      have := Real.exp_injective this
      norm_num at this
    · exact h
  have hn := C63_ring_normalised (crossImage 16 4 11) _ _ 8 8 ht ht 0 1 one_pos (0, 360) M hM _ (pyInt_trunc M) B hB' 0
    (by simpa using hR) σ (by rw [ering]; exact hσ) hσ0
  rw [ering] at hn
  obtain ⟨hn1, hn2⟩ := hn
  have hz' : IsStd (regionPixels 16 16 (((8 : ℤ) : ℝ), ((8 : ℤ) : ℝ)) (0, 1) (0, 360)) B.px 0 := by
    refine ⟨le_rfl, 0, hn1, ?_⟩
    rw [Finset.sum_eq_zero]
    · ring
    · intro q hq
      unfold regionPixels at hq
      simp only [Finset.mem_filter, Finset.mem_product, Finset.mem_range] at hq
      obtain ⟨⟨hy, hx⟩, hreg⟩ := hq
      rw [region_iff] at hreg
      have hle := hreg.1.2
      dsimp only at hle
      rw [Real.sqrt_le_one] at hle
      rw [hz q.1 q.2 hy hx (by push_cast at hle ⊢; linarith)]
      ring
  exact zero_ne_one (isStd_unique hz' hn2)

/-- The hypotheses are met: a fit that finds exact solutions and a large enough image with exact edges; one argument missing. -/
example : exSigmoidFit.FindsExact ∧ 8 ≤ (crossImage 16 4 11).h ∧ 8 ≤ (crossImage 16 4 11).w ∧
    HasEdges (crossImage 16 4 11) 4 11 4 11 ∧ ((some (2 : ℝ)) = none ∨ (some (3 : ℝ)) = none ∨ (none : Option Int) = none) :=
  ⟨exSigmoidFit_exact, by show 8 ≤ 16; omega, by show 8 ≤ 16; omega, crossImage_edges (by omega) 4 11, Or.inr (Or.inr rfl)⟩

/-- The search can fail: on an image of 4 × 4 pixels. -/
example (fit : SigmoidFit) : findOcculterPosition fit (Img.const 4 4 1) .sigmoid 4 = .error .typeError := by
  unfold findOcculterPosition findOcculterSigmoid halfEdge
  rfl

end Micropol
