import Verif.Model.Nrgf
import Verif.Spec.Nrgf
import Verif.Lemmas.Roi
import Mathlib.Algebra.BigOperators.Field
import Mathlib.Algebra.BigOperators.Ring.Finset
import Mathlib.Algebra.Order.BigOperators.Group.Finset

/-! # Auxiliary facts about the ring filter -/

set_option autoImplicit false

namespace Micropol

open Finset

theorem isMean_unique {S : Finset (Nat × Nat)} {f : Nat → Nat → ℝ} {μ ν : ℝ} (h : IsMean S f μ) (h' : IsMean S f ν) :
    μ = ν := by
  obtain ⟨hne, h1⟩ := h
  obtain ⟨-, h2⟩ := h'
  have hc : (S.card : ℝ) ≠ 0 := by exact_mod_cast (Finset.card_pos.2 hne).ne'
  exact mul_right_cancel₀ hc (h1.trans h2.symm)

theorem isStd_unique {S : Finset (Nat × Nat)} {f : Nat → Nat → ℝ} {σ τ : ℝ} (h : IsStd S f σ) (h' : IsStd S f τ) :
    σ = τ := by
  obtain ⟨h0, μ, hμ, h1⟩ := h
  obtain ⟨g0, ν, hν, g1⟩ := h'
  rw [← isMean_unique hμ hν] at g1
  have hc : (S.card : ℝ) ≠ 0 := by exact_mod_cast (Finset.card_pos.2 hμ.1).ne'
  have : σ ^ 2 = τ ^ 2 := mul_right_cancel₀ hc (h1.trans g1.symm)
  exact (pow_left_inj₀ h0 g0 (by norm_num)).1 this

theorem isStd_exists {S : Finset (Nat × Nat)} (hne : S.Nonempty) (f : Nat → Nat → ℝ) :
    ∃ μ σ, IsMean S f μ ∧ IsStd S f σ := by
  have hc : (S.card : ℝ) ≠ 0 := by exact_mod_cast (Finset.card_pos.2 hne).ne'
  have hm : IsMean S f ((∑ q ∈ S, f q.1 q.2) / (S.card : ℝ)) := ⟨hne, by field_simp⟩
  refine ⟨_, Real.sqrt ((∑ q ∈ S, (f q.1 q.2 - (∑ q ∈ S, f q.1 q.2) / (S.card : ℝ)) ^ 2) / (S.card : ℝ)), hm,
    Real.sqrt_nonneg _, _, hm, ?_⟩
  rw [Real.sq_sqrt (div_nonneg (Finset.sum_nonneg (fun _ _ => sq_nonneg _)) (Nat.cast_nonneg _)), div_mul_cancel₀ _ hc]

theorem meanWhere_some {A : Img ℝ} {M : Img Bool} {μ : ℝ} (h : IsMean (truePixels M) A.px μ) :
    meanWhere A M = some μ := by
  have hc : (truePixels M).card ≠ 0 := (Finset.card_pos.2 h.1).ne'
  have hc' : ((truePixels M).card : ℝ) ≠ 0 := by exact_mod_cast hc
  unfold meanWhere
  rw [if_neg hc, ← h.2]
  congr 1
  field_simp

theorem stdWhere_some {A : Img ℝ} {M : Img Bool} {σ : ℝ} (h : IsStd (truePixels M) A.px σ) :
    stdWhere A M = some σ := by
  obtain ⟨h0, μ, hμ, h1⟩ := h
  have hc : (truePixels M).card ≠ 0 := (Finset.card_pos.2 hμ.1).ne'
  have hc' : ((truePixels M).card : ℝ) ≠ 0 := by exact_mod_cast hc
  unfold stdWhere
  rw [meanWhere_some hμ]
  dsimp only
  rw [← h1]
  congr 1
  rw [mul_div_assoc, div_self hc', mul_one, Real.sqrt_sq h0]

theorem meanWhere_none {A : Img ℝ} {M : Img Bool} (h : ¬ (truePixels M).Nonempty) : meanWhere A M = none := by
  unfold meanWhere
  rw [if_pos (by rw [Finset.card_eq_zero]; exact Finset.not_nonempty_iff_eq_empty.1 h)]

/-- The value given tout a pixel of the ring, in terms of the statistics of the ring. -/
noncomputable def ringValue (S : Finset (Nat × Nat)) (f : Nat → Nat → ℝ) (v : ℝ) : ℝ :=
  open Classical in
  if h : ∃ μ σ, IsMean S f μ ∧ IsStd S f σ ∧ 0 < σ then (v - h.choose) / h.choose_spec.choose else 0

theorem ringValue_pos {S : Finset (Nat × Nat)} {f : Nat → Nat → ℝ} {μ σ : ℝ} (hμ : IsMean S f μ) (hσ : IsStd S f σ)
    (h0 : 0 < σ) (v : ℝ) : ringValue S f v = (v - μ) / σ := by
  have hex : ∃ μ σ, IsMean S f μ ∧ IsStd S f σ ∧ 0 < σ := ⟨μ, σ, hμ, hσ, h0⟩
  unfold ringValue
  rw [dif_pos hex]
  have e1 := isMean_unique hex.choose_spec.choose_spec.1 hμ
  have e2 := isStd_unique hex.choose_spec.choose_spec.2.1 hσ
  exact congrArg₂ (fun a b => (v - a) / b) e1 e2

theorem ringValue_zero {S : Finset (Nat × Nat)} {f : Nat → Nat → ℝ} (h : ∀ σ, IsStd S f σ → σ = 0) (v : ℝ) :
    ringValue S f v = 0 := by
  unfold ringValue
  rw [dif_neg]
  rintro ⟨μ, σ, -, h1, h2⟩
  exact h2.ne' (h σ h1)

theorem npWhere_zero {M : Img Bool} {B : Img ℝ} (hh : M.h = B.h) (hw : M.w = B.w) :
    npWhere M (Img.const 1 1 0) B = .ok (Img.ofFn B.h B.w (fun y x => if M.px y x then 0 else B.px y x)) := by
  have hb : ∀ a, bdim 1 a = .ok a := by
    intro a; unfold bdim; split_ifs <;> simp_all
  unfold npWhere
  rw [show (Img.const 1 1 (0 : ℝ)).h = 1 from rfl, show (Img.const 1 1 (0 : ℝ)).w = 1 from rfl, hb, hb, Py.ok_bind,
    Py.ok_bind, hh, hw, bdim_self, bdim_self, Py.ok_bind, Py.ok_bind, Py.pure_eq]
  congr 1
  refine Img.ofFn_congr ?_
  intro y x hy hx
  have e : (Img.const 1 1 (0 : ℝ)).px (bidx 1 y) (bidx 1 x) = 0 := Img.ofFn_px (by simp [bidx]) (by simp [bidx])
  rw [bidx_of_lt hy, bidx_of_lt hx, e]

section
variable (A : Img ℝ) (c : ℝ × ℝ) (tm tout : ℝ × ℝ) (step : Nat)

theorem ringAnd_px (r : Int) (t : ℝ × ℝ) {y x : Nat} (hy : y < A.h) (hx : x < A.w) :
    (logicalAnd (ringCondition (mapPolarCoordinates A.h A.w c).1 (r : ℝ) ((r : ℝ) + (step : ℝ)))
      (sectorCondition (mapPolarCoordinates A.h A.w c).2 t)).px y x = true ↔
    InRegion c ((r : ℝ), (r : ℝ) + (step : ℝ)) t y x := by
  rw [region_iff]
  unfold logicalAnd ringCondition sectorCondition mapPolarCoordinates
  dsimp only [Img.ofFn_h, Img.ofFn_w]
  rw [Img.ofFn_px hy hx, Img.ofFn_px hy hx, Img.ofFn_px hy hx, Img.ofFn_px hy hx, Img.ofFn_px hy hx]
  simp only [Bool.and_eq_true, decide_eq_true_iff]

theorem ring_pixels (r : Int) (t : ℝ × ℝ) :
    truePixels (logicalAnd (ringCondition (mapPolarCoordinates A.h A.w c).1 (r : ℝ) ((r : ℝ) + (step : ℝ)))
      (sectorCondition (mapPolarCoordinates A.h A.w c).2 t))
      = regionPixels A.h A.w c ((r : ℝ), (r : ℝ) + (step : ℝ)) t := by
  unfold truePixels regionPixels
  ext q
  simp only [Finset.mem_filter, Finset.mem_product, Finset.mem_range]
  constructor
  · rintro ⟨⟨h1, h2⟩, h3⟩
    exact ⟨⟨h1, h2⟩, (ringAnd_px A c step r t h1 h2).1 h3⟩
  · rintro ⟨⟨h1, h2⟩, h3⟩
    exact ⟨⟨h1, h2⟩, (ringAnd_px A c step r t h1 h2).2 h3⟩

open Classical in
theorem nrgfBody_ok (r : Int) (B : Img ℝ) (hh : B.h = A.h) (hw : B.w = A.w) :
    nrgfBody A (mapPolarCoordinates A.h A.w c).1 (sectorCondition (mapPolarCoordinates A.h A.w c).2 tm)
      (sectorCondition (mapPolarCoordinates A.h A.w c).2 tout) step r B
    = .ok (Img.ofFn A.h A.w (fun y x => if InRegion c ((r : ℝ), (r : ℝ) + (step : ℝ)) tout y x
        then ringValue (regionPixels A.h A.w c ((r : ℝ), (r : ℝ) + (step : ℝ)) tm) A.px (A.px y x)
        else B.px y x)) := by
  have hS := ring_pixels A c step r tm
  have hpx : ∀ y x, y < A.h → x < A.w → _ := fun y x hy hx => ringAnd_px A c step r tout (y := y) (x := x) hy hx
  unfold nrgfBody
  dsimp only
  generalize hM1 : logicalAnd (ringCondition (mapPolarCoordinates A.h A.w c).1 (r : ℝ) ((r : ℝ) + (step : ℝ)))
    (sectorCondition (mapPolarCoordinates A.h A.w c).2 tm) = M1 at hS
  generalize hM2 : logicalAnd (ringCondition (mapPolarCoordinates A.h A.w c).1 (r : ℝ) ((r : ℝ) + (step : ℝ)))
    (sectorCondition (mapPolarCoordinates A.h A.w c).2 tout) = M2 at hpx
  have m2h : M2.h = A.h := by rw [← hM2]; rfl
  have m2w : M2.w = A.w := by rw [← hM2]; rfl
  rw [← hS]
  have zero : (∀ σ, IsStd (truePixels M1) A.px σ → σ = 0) → npWhere M2 (Img.const 1 1 0) B
      = .ok (Img.ofFn A.h A.w (fun y x => if InRegion c ((r : ℝ), (r : ℝ) + (step : ℝ)) tout y x
        then ringValue (truePixels M1) A.px (A.px y x) else B.px y x)) := by
    intro h0
    rw [npWhere_zero (m2h.trans hh.symm) (m2w.trans hw.symm), hh, hw]
    congr 1
    refine Img.ofFn_congr ?_
    intro y x hy hx
    by_cases hc : InRegion c ((r : ℝ), (r : ℝ) + (step : ℝ)) tout y x
    · rw [if_pos ((hpx y x hy hx).2 hc), if_pos hc, ringValue_zero h0]
    · rw [if_neg (fun h => hc ((hpx y x hy hx).1 h)), if_neg hc]
  by_cases hne : (truePixels M1).Nonempty
  · obtain ⟨μ, σ, hμ, hσ⟩ := isStd_exists hne A.px
    rw [meanWhere_some hμ, stdWhere_some hσ]
    dsimp only
    by_cases h0 : σ > 0
    · rw [if_pos h0, npWhere_ok (by exact hh.symm) (by exact hw.symm) (m2h.trans hh.symm) (m2w.trans hw.symm), hh, hw]
      congr 1
      refine Img.ofFn_congr ?_
      intro y x hy hx
      by_cases hc : InRegion c ((r : ℝ), (r : ℝ) + (step : ℝ)) tout y x
      · rw [if_pos ((hpx y x hy hx).2 hc), if_pos hc, ringValue_pos hμ hσ h0, Img.map_px _ _ hy hx]
      · rw [if_neg (fun h => hc ((hpx y x hy hx).1 h)), if_neg hc]
    · rw [if_neg h0]
      apply zero
      intro τ hτ
      rw [isStd_unique hτ hσ]
      exact le_antisymm (not_lt.1 h0) hσ.1
  · rw [meanWhere_none hne]
    apply zero
    rintro σ ⟨-, μ, hμ, -⟩
    exact absurd hμ.1 hne

end

theorem rhoMax_ok {h w : Nat} {c : ℝ × ℝ} {M : ℝ} (hM : IsFarthest h w c M) :
    rhoMax (mapPolarCoordinates h w c).1 = .ok (pyInt M) := by
  obtain ⟨⟨y, x, hy, hx, h0, hsq⟩, hmax⟩ := hM
  have hne : (range (mapPolarCoordinates h w c).1.h ×ˢ range (mapPolarCoordinates h w c).1.w).Nonempty :=
    ⟨(y, x), by simp [mapPolarCoordinates, hy, hx]⟩
  have hpx : ∀ y x, y < h → x < w → (mapPolarCoordinates h w c).1.px y x
      = Real.sqrt (((x : ℝ) - c.2) ^ 2 + ((y : ℝ) - c.1) ^ 2) := by
    intro y x hy hx
    unfold mapPolarCoordinates
    dsimp only
    rw [Img.ofFn_px hy hx]
  unfold rhoMax
  rw [dif_pos hne]
  congr 2
  apply le_antisymm
  · apply Finset.sup'_le
    intro q hq
    simp only [Finset.mem_product, Finset.mem_range] at hq
    rw [hpx q.1 q.2 hq.1 hq.2]
    rw [← Real.sqrt_sq h0]
    apply Real.sqrt_le_sqrt
    have := hmax q.1 q.2 hq.1 hq.2
    linarith
  · have : M = (mapPolarCoordinates h w c).1.px y x := by
      rw [hpx y x hy hx, show ((x : ℝ) - c.2) ^ 2 + ((y : ℝ) - c.1) ^ 2 = M ^ 2 by rw [hsq]; ring, Real.sqrt_sq h0]
    rw [this]
    exact Finset.le_sup' (fun q : Nat × Nat => (mapPolarCoordinates h w c).1.px q.1 q.2)
      (show (y, x) ∈ _ by simp [mapPolarCoordinates, hy, hx])

end Micropol
