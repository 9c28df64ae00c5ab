import Verif.Model.Errors
import Verif.Spec.Errors
import Verif.Lemmas.Demodulate
import Verif.Props.Demodulate
import Verif.Props.Polarization
import Mathlib.Analysis.SpecialFunctions.Complex.LogDeriv
import Mathlib.Analysis.SpecialFunctions.Sqrt
import Mathlib.Analysis.Complex.RealDeriv

/-!
# C65, C66: errors of the Stokes vector and of the polarization parameters
-/

set_option autoImplicit false

namespace Micropol

noncomputable section

open Finset

/-! ## Helper facts -/

theorem elementwise6_ok {f : ℝ → ℝ → ℝ → ℝ → ℝ → ℝ → NanReal} {S sigma : Fin 3 → Img ℝ} {h w : ℕ}
    (hS : ∀ i, (S i).HasShape h w) (hs : ∀ i, (sigma i).HasShape h w) :
    ∃ E, elementwise6 f S sigma = .ok E ∧ E.HasShape h w ∧ ∀ y x, y < h → x < w →
      E.px y x = f ((S 0).px y x) ((S 1).px y x) ((S 2).px y x) ((sigma 0).px y x) ((sigma 1).px y x) ((sigma 2).px y x) := by
  unfold elementwise6
  rw [(hS 0).1, (hS 0).2, (hs 0).1, (hs 0).2, bdim_self, bdim_self, Py.ok_bind, Py.ok_bind, Py.pure_eq]
  refine ⟨_, rfl, ⟨rfl, rfl⟩, ?_⟩
  intro y x hy hx
  rw [Img.ofFn_px hy hx]
  have e1 : bidx h y = y := by unfold bidx; split <;> omega
  have e2 : bidx w x = x := by unfold bidx; split <;> omega
  dsimp only
  rw [e1, e2]

/-- The pixel functions of `pB`, `DoLP` and `AoLP`. -/
theorem pB_pixelFn {f : ℝ → ℝ → ℝ → ℝ} (hf : IsPixelFn (fun S => .ok (pB S)) f) (I Q U : ℝ) : f I Q U = Real.sqrt (Q * Q + U * U) := by
  obtain ⟨A, hA, hp⟩ := hf ![Img.const 1 1 I, Img.const 1 1 Q, Img.const 1 1 U] 1 1 (by intro i; fin_cases i <;> exact ⟨rfl, rfl⟩)
  injection hA with hA
  have h1 := hp 0 0 (by norm_num) (by norm_num)
  rw [← hA, pB_px (by intro i; fin_cases i <;> exact ⟨rfl, rfl⟩) (by exact Nat.zero_lt_one) (by exact Nat.zero_lt_one)] at h1
  exact h1.symm

theorem AoLP_pixelFn {f : ℝ → ℝ → ℝ → ℝ} (hf : IsPixelFn (fun S => .ok (AoLP S)) f) (I Q U : ℝ) : f I Q U = Complex.arg ⟨Q, U⟩ / 2 := by
  obtain ⟨A, hA, hp⟩ := hf ![Img.const 1 1 I, Img.const 1 1 Q, Img.const 1 1 U] 1 1 (by intro i; fin_cases i <;> exact ⟨rfl, rfl⟩)
  injection hA with hA
  have h1 := hp 0 0 (by norm_num) (by norm_num)
  rw [← hA, AoLP_px (by intro i; fin_cases i <;> exact ⟨rfl, rfl⟩) (by exact Nat.zero_lt_one) (by exact Nat.zero_lt_one)] at h1
  exact h1.symm

theorem DoLP_pixelFn {f : ℝ → ℝ → ℝ → ℝ} (hf : IsPixelFn DoLP f) (I Q U : ℝ) :
    f I Q U = if I = 0 then 0 else Real.sqrt (Q * Q + U * U) / I := by
  have hsh : SameShape ![Img.const 1 1 I, Img.const 1 1 Q, Img.const 1 1 U] := by intro i; fin_cases i <;> exact ⟨rfl, rfl⟩
  obtain ⟨A, hA, hp⟩ := hf ![Img.const 1 1 I, Img.const 1 1 Q, Img.const 1 1 U] 1 1 (by intro i; fin_cases i <;> exact ⟨rfl, rfl⟩)
  obtain ⟨D, hD, _, _, hDp⟩ := C19_total _ hsh
  rw [hA] at hD
  cases hD
  have h1 := hp 0 0 (by norm_num) (by norm_num)
  have h2 := hDp 0 0 (by exact Nat.zero_lt_one) (by exact Nat.zero_lt_one)
  rw [pB_px hsh (by exact Nat.zero_lt_one) (by exact Nat.zero_lt_one)] at h2
  have h1' : A.px 0 0 = f I Q U := h1
  rw [← h1']
  split
  · exact h2.1 (by assumption)
  · exact h2.2 (by assumption)

theorem hasDerivAt_pB_Q (Q U : ℝ) (h : Q * Q + U * U ≠ 0) :
    HasDerivAt (fun t => Real.sqrt (t * t + U * U)) (Q / Real.sqrt (Q * Q + U * U)) Q := by
  have h1 : HasDerivAt (fun t : ℝ => t * t + U * U) (1 * Q + Q * 1) Q :=
    ((hasDerivAt_id Q).mul (hasDerivAt_id Q)).add_const _
  have h2 := h1.sqrt h
  convert h2 using 1
  ring

theorem hasDerivAt_pB_U (Q U : ℝ) (h : Q * Q + U * U ≠ 0) :
    HasDerivAt (fun t => Real.sqrt (Q * Q + t * t)) (U / Real.sqrt (Q * Q + U * U)) U := by
  have h1 := hasDerivAt_pB_Q U Q (by rwa [add_comm])
  simp only [add_comm (_ * _) (Q * Q)] at h1
  exact h1

theorem hasDerivAt_arg_Q (Q U : ℝ) (h : 0 < Q ∨ U ≠ 0) :
    HasDerivAt (fun t => Complex.arg ⟨t, U⟩) (-U / (Q * Q + U * U)) Q := by
  have h1 : HasDerivAt (fun t : ℝ => (t : ℂ) + ((U : ℝ) : ℂ) * Complex.I) 1 Q := by
    have : HasDerivAt (fun t : ℝ => (t : ℂ)) 1 Q := Complex.ofRealCLM.hasDerivAt
    exact this.add_const _
  have h2 := h1.clog_real (by
    rw [Complex.mem_slitPlane_iff]
    simpa using h)
  have h3 := Complex.imCLM.hasFDerivAt.comp_hasDerivAt Q h2
  have e : (fun t : ℝ => Complex.arg ⟨t, U⟩) = (Complex.imCLM ∘ fun t : ℝ => Complex.log ((t : ℂ) + ((U : ℝ) : ℂ) * Complex.I)) := by
    funext t
    simp only [Function.comp, Complex.imCLM_apply, Complex.log_im]
    congr 1
    apply Complex.ext <;> simp
  rw [e]
  refine HasDerivAt.congr_deriv h3 ?_
  rw [Complex.imCLM_apply, Complex.div_im, Complex.normSq_apply]
  simp [neg_div]

theorem hasDerivAt_arg_U (Q U : ℝ) (h : 0 < Q ∨ U ≠ 0) :
    HasDerivAt (fun t => Complex.arg ⟨Q, t⟩) (Q / (Q * Q + U * U)) U := by
  have h1 : HasDerivAt (fun t : ℝ => ((Q : ℝ) : ℂ) + (t : ℂ) * Complex.I) (1 * Complex.I) U := by
    have : HasDerivAt (fun t : ℝ => (t : ℂ)) 1 U := Complex.ofRealCLM.hasDerivAt
    exact (this.mul_const Complex.I).const_add _
  have h2 := h1.clog_real (by
    rw [Complex.mem_slitPlane_iff]
    simpa using h)
  have h3 := Complex.imCLM.hasFDerivAt.comp_hasDerivAt U h2
  have e : (fun t : ℝ => Complex.arg ⟨Q, t⟩) = (Complex.imCLM ∘ fun t : ℝ => Complex.log (((Q : ℝ) : ℂ) + (t : ℂ) * Complex.I)) := by
    funext t
    simp only [Function.comp, Complex.imCLM_apply, Complex.log_im]
    congr 1
    apply Complex.ext <;> simp
  rw [e]
  refine HasDerivAt.congr_deriv h3 ?_
  rw [Complex.imCLM_apply, Complex.div_im, Complex.normSq_apply]
  simp

theorem sumsq_ne {Q U : ℝ} (h : Q ≠ 0 ∨ U ≠ 0) : Q * Q + U * U ≠ 0 := by
  intro h0
  have h1 := mul_self_nonneg Q
  have h2 := mul_self_nonneg U
  rcases h with h | h
  · exact h (mul_self_eq_zero.1 (by linarith))
  · exact h (mul_self_eq_zero.1 (by linarith))

/-! ## C65 -/

/-- The error of `pB` is the propagated one wherever there is polarization, and not finite elsewhere. -/
theorem C65_pB {f : ℝ → ℝ → ℝ → ℝ} (hf : IsPixelFn (fun S => .ok (pB S)) f) {S sigma : Fin 3 → Img ℝ} {h w : ℕ}
    (hS : ∀ i, (S i).HasShape h w) (hs : ∀ i, (sigma i).HasShape h w) :
    ∃ E, errorOnPB S sigma = .ok E ∧ E.HasShape h w ∧ ∀ y x, y < h → x < w →
      ((S 1).px y x ≠ 0 ∨ (S 2).px y x ≠ 0 → ∃ s : ℝ, E.px y x = some s ∧ GaussianError f ((S 0).px y x) ((S 1).px y x) ((S 2).px y x)
        ((sigma 0).px y x) ((sigma 1).px y x) ((sigma 2).px y x) s) ∧
      ((S 1).px y x = 0 ∧ (S 2).px y x = 0 → E.px y x = none) := by
  obtain ⟨E, h1, h2, h3⟩ := elementwise6_ok (f := pBError) hS hs
  refine ⟨E, h1, h2, ?_⟩
  intro y x hy hx
  rw [h3 y x hy hx]
  generalize (S 0).px y x = I
  generalize (S 1).px y x = Q
  generalize (S 2).px y x = U
  generalize (sigma 0).px y x = sI
  generalize (sigma 1).px y x = sQ
  generalize (sigma 2).px y x = sU
  have hfe : f = fun _ Q U => Real.sqrt (Q * Q + U * U) := by
    funext I Q U
    exact pB_pixelFn hf I Q U
  subst hfe
  constructor
  · intro hne
    have hn := sumsq_ne hne
    have hpos : 0 ≤ Q * Q + U * U := add_nonneg (mul_self_nonneg _) (mul_self_nonneg _)
    refine ⟨_, if_neg hn, Real.sqrt_nonneg _, 0, _, _, hasDerivAt_const _ _, hasDerivAt_pB_Q Q U hn, hasDerivAt_pB_U Q U hn, ?_⟩
    rw [Real.sq_sqrt, div_pow, div_pow, Real.sq_sqrt hpos]
    · field_simp
      ring
    · apply div_nonneg _ hpos
      nlinarith [mul_self_nonneg (Q * sQ), mul_self_nonneg (U * sU)]
  · rintro ⟨rfl, rfl⟩
    exact if_pos (by simp)

/-- The error of `DoLP` is the propagated one wherever there is polarization and the intensity is not 0, and not finite
elsewhere. -/
theorem C65_DoLP {f : ℝ → ℝ → ℝ → ℝ} (hf : IsPixelFn DoLP f) {S sigma : Fin 3 → Img ℝ} {h w : ℕ}
    (hS : ∀ i, (S i).HasShape h w) (hs : ∀ i, (sigma i).HasShape h w) :
    ∃ E, errorOnDoLP S sigma = .ok E ∧ E.HasShape h w ∧ ∀ y x, y < h → x < w →
      ((S 0).px y x ≠ 0 → (S 1).px y x ≠ 0 ∨ (S 2).px y x ≠ 0 → ∃ s : ℝ, E.px y x = some s ∧
        GaussianError f ((S 0).px y x) ((S 1).px y x) ((S 2).px y x) ((sigma 0).px y x) ((sigma 1).px y x) ((sigma 2).px y x) s) ∧
      ((S 0).px y x = 0 ∨ (S 1).px y x = 0 ∧ (S 2).px y x = 0 → E.px y x = none) := by
  obtain ⟨E, h1, h2, h3⟩ := elementwise6_ok (f := dolpError) hS hs
  refine ⟨E, h1, h2, ?_⟩
  intro y x hy hx
  rw [h3 y x hy hx]
  generalize (S 0).px y x = I
  generalize (S 1).px y x = Q
  generalize (S 2).px y x = U
  generalize (sigma 0).px y x = sI
  generalize (sigma 1).px y x = sQ
  generalize (sigma 2).px y x = sU
  have hfe : f = fun I Q U => if I = 0 then 0 else Real.sqrt (Q * Q + U * U) / I := by
    funext I Q U
    exact DoLP_pixelFn hf I Q U
  subst hfe
  constructor
  · intro hI hne
    have hn := sumsq_ne hne
    have hpos : 0 < Q * Q + U * U := lt_of_le_of_ne (add_nonneg (mul_self_nonneg _) (mul_self_nonneg _)) (Ne.symm hn)
    have hp : 0 < Real.sqrt (Q * Q + U * U) := Real.sqrt_pos.2 hpos
    have hsq : Real.sqrt (Q * Q + U * U) ^ 2 = Q * Q + U * U := Real.sq_sqrt hpos.le
    refine ⟨_, if_neg ?_, Real.sqrt_nonneg _, -Real.sqrt (Q * Q + U * U) / I ^ 2, Q / Real.sqrt (Q * Q + U * U) / I,
      U / Real.sqrt (Q * Q + U * U) / I, ?_, ?_, ?_, ?_⟩
    · rintro (h0 | h0)
      · rcases mul_self_eq_zero.1 h0 |> mul_eq_zero.1 with h0 | h0
        · exact hI h0
        · exact hp.ne' h0
      · exact hI (mul_self_eq_zero.1 h0)
    · have h4 : HasDerivAt (fun t => Real.sqrt (Q * Q + U * U) / t) (-Real.sqrt (Q * Q + U * U) / I ^ 2) I := by
        have := (hasDerivAt_inv hI).const_mul (Real.sqrt (Q * Q + U * U))
        refine (this.congr_deriv (by ring)).congr_of_eventuallyEq ?_
        exact Filter.Eventually.of_forall fun t => div_eq_mul_inv _ _
      refine h4.congr_of_eventuallyEq ?_
      filter_upwards [isOpen_ne.mem_nhds hI] with t ht
      rw [if_neg ht]
    · simp only [if_neg hI]
      exact (hasDerivAt_pB_Q Q U hn).div_const I
    · simp only [if_neg hI]
      exact (hasDerivAt_pB_U Q U hn).div_const I
    · rw [Real.sq_sqrt]
      · generalize Real.sqrt (Q * Q + U * U) = p at hp
        have := hp.ne'
        have h1 : (-p / I ^ 2) ^ 2 = (p / (I * I)) * (p / (I * I)) := by rw [← sq, ← sq, neg_div, neg_sq]
        rw [h1]
        have h2 : (Q / p / I) ^ 2 = Q ^ 2 / ((I * p) * (I * p)) := by rw [div_div, div_pow]; ring
        have h3 : (U / p / I) ^ 2 = U ^ 2 / ((I * p) * (I * p)) := by rw [div_div, div_pow]; ring
        rw [h2, h3]
        ring
      · apply add_nonneg
        · apply div_nonneg _ (mul_self_nonneg _)
          nlinarith [mul_self_nonneg (Q * sQ), mul_self_nonneg (U * sU)]
        · have := mul_self_nonneg (Real.sqrt (Q * Q + U * U) / (I * I) * sI)
          linarith
  · rintro (rfl | ⟨rfl, rfl⟩)
    · exact if_pos (by simp)
    · exact if_pos (by simp)

/-- The error of `AoLP` is the propagated one where Q ≠ 0, except on the branch cut (Q < 0, U = 0) where the angle jumps.
Missing from the claim: Q = 0 with U ≠ 0, see `C65_AoLP_zero_Q`. -/
theorem C65_AoLP_partial {f : ℝ → ℝ → ℝ → ℝ} (hf : IsPixelFn (fun S => .ok (AoLP S)) f) {S sigma : Fin 3 → Img ℝ} {h w : ℕ}
    (hS : ∀ i, (S i).HasShape h w) (hs : ∀ i, (sigma i).HasShape h w) :
    ∃ E, errorOnAoLP S sigma = .ok E ∧ E.HasShape h w ∧ ∀ y x, y < h → x < w →
      (0 < (S 1).px y x ∨ (S 1).px y x ≠ 0 ∧ (S 2).px y x ≠ 0 → ∃ s : ℝ, E.px y x = some s ∧
        GaussianError f ((S 0).px y x) ((S 1).px y x) ((S 2).px y x) ((sigma 0).px y x) ((sigma 1).px y x) ((sigma 2).px y x) s) ∧
      ((S 1).px y x < 0 → (S 2).px y x = 0 → ∃ s : ℝ, E.px y x = some s ∧ 0 ≤ s ∧
        s * (2 * |(S 1).px y x|) = |(sigma 2).px y x|) := by
  obtain ⟨E, h1, h2, h3⟩ := elementwise6_ok (f := aolpError) hS hs
  refine ⟨E, h1, h2, ?_⟩
  intro y x hy hx
  rw [h3 y x hy hx]
  generalize (S 0).px y x = I
  generalize (S 1).px y x = Q
  generalize (S 2).px y x = U
  generalize (sigma 0).px y x = sI
  generalize (sigma 1).px y x = sQ
  generalize (sigma 2).px y x = sU
  have hfe : f = fun _ Q U => Complex.arg ⟨Q, U⟩ / 2 := by
    funext I Q U
    exact AoLP_pixelFn hf I Q U
  subst hfe
  have hden : Q ≠ 0 → ¬ (Q * Q = 0 ∨ 4 * Q * Q * (1 + (U * U / (Q * Q))) * (1 + (U * U / (Q * Q))) = 0) := by
    intro hQ
    have hq : 0 < Q * Q := lt_of_le_of_ne (mul_self_nonneg Q) (Ne.symm (mul_self_ne_zero.2 hQ))
    have h4 : 0 < 1 + U * U / (Q * Q) := by
      have := div_nonneg (mul_self_nonneg U) hq.le
      linarith
    rintro (h0 | h0)
    · exact hq.ne' h0
    · have : 0 < 4 * (Q * Q) * (1 + U * U / (Q * Q)) * (1 + U * U / (Q * Q)) := by positivity
      rw [← mul_assoc] at this
      exact this.ne' h0
  constructor
  · intro hc
    have hQ : Q ≠ 0 := by
      rcases hc with hc | hc
      · exact hc.ne'
      · exact hc.1
    have hsl : 0 < Q ∨ U ≠ 0 := by tauto
    have hn : Q * Q + U * U ≠ 0 := sumsq_ne (Or.inl hQ)
    refine ⟨_, if_neg (hden hQ), Real.sqrt_nonneg _, 0, _, _, hasDerivAt_const _ _, (hasDerivAt_arg_Q Q U hsl).div_const 2,
      (hasDerivAt_arg_U Q U hsl).div_const 2, ?_⟩
    rw [Real.sq_sqrt]
    · have e : 1 + U * U / (Q * Q) = (Q * Q + U * U) / (Q * Q) := by field_simp
      rw [e]
      field_simp
      ring
    · have hq : 0 ≤ Q * Q := mul_self_nonneg Q
      have hu : 0 ≤ U * U := mul_self_nonneg U
      have h5 : 0 ≤ 1 + U * U / (Q * Q) := by
        have := div_nonneg hu hq
        linarith
      apply div_nonneg
      · have a1 := mul_self_nonneg sU
        have a2 : 0 ≤ sQ * sQ * U * U / (Q * Q) := by
          apply div_nonneg _ hq
          nlinarith [mul_self_nonneg (sQ * U)]
        linarith
      · have : 0 ≤ 4 * (Q * Q) * (1 + U * U / (Q * Q)) * (1 + U * U / (Q * Q)) := by positivity
        rw [← mul_assoc] at this
        exact this
  · intro hQ hU
    subst hU
    refine ⟨_, if_neg (hden hQ.ne), Real.sqrt_nonneg _, ?_⟩
    have e : (sU * sU + sQ * sQ * 0 * 0 / (Q * Q)) / (4 * Q * Q * (1 + 0 * 0 / (Q * Q)) * (1 + 0 * 0 / (Q * Q))) = (sU / (2 * Q)) ^ 2 := by
      have := hQ.ne
      field_simp
      ring
    rw [e, Real.sqrt_sq_eq_abs, abs_div, abs_mul]
    have : |Q| ≠ 0 := abs_ne_zero.2 hQ.ne
    simp only [abs_two]
    field_simp

/-- Violation: where Q = 0 and U ≠ 0 the angle is differentiable but its error is reported as NaN. -/
theorem C65_AoLP_zero_Q {f : ℝ → ℝ → ℝ → ℝ} (hf : IsPixelFn (fun S => .ok (AoLP S)) f) {S sigma : Fin 3 → Img ℝ} {h w : ℕ}
    (hS : ∀ i, (S i).HasShape h w) (hs : ∀ i, (sigma i).HasShape h w) {y x : ℕ} (hy : y < h) (hx : x < w)
    (hQ : (S 1).px y x = 0) (hU : (S 2).px y x ≠ 0) :
    ∃ E, errorOnAoLP S sigma = .ok E ∧ E.px y x = none ∧
      ∃ s : ℝ, GaussianError f ((S 0).px y x) ((S 1).px y x) ((S 2).px y x) ((sigma 0).px y x) ((sigma 1).px y x) ((sigma 2).px y x) s := by
  obtain ⟨E, h1, h2, h3⟩ := elementwise6_ok (f := aolpError) hS hs
  refine ⟨E, h1, ?_, ?_⟩
  · rw [h3 y x hy hx, hQ]
    exact if_pos (by simp)
  · have hfe : f = fun _ Q U => Complex.arg ⟨Q, U⟩ / 2 := by
      funext I Q U
      exact AoLP_pixelFn hf I Q U
    subst hfe
    refine ⟨Real.sqrt (0 ^ 2 * (sigma 0).px y x ^ 2 + _ ^ 2 * (sigma 1).px y x ^ 2 + _ ^ 2 * (sigma 2).px y x ^ 2), Real.sqrt_nonneg _, 0,
      _, _, hasDerivAt_const _ _, (hasDerivAt_arg_Q _ _ (Or.inr hU)).div_const 2, (hasDerivAt_arg_U _ _ (Or.inr hU)).div_const 2,
      Real.sq_sqrt (by positivity)⟩

/-- The pixel functions used above exist. -/
example : (∃ f, IsPixelFn (fun S => .ok (pB S)) f) ∧ (∃ f, IsPixelFn (fun S => .ok (AoLP S)) f) ∧ (∃ f, IsPixelFn DoLP f) := by
  have hsame : ∀ (S : Fin 3 → Img ℝ) (h w : ℕ), (∀ i, (S i).HasShape h w) → SameShape S := by
    intro S h w hS i
    rw [(hS i).1, (hS i).2, (hS 0).1, (hS 0).2]
    exact ⟨rfl, rfl⟩
  refine ⟨⟨fun _ Q U => Real.sqrt (Q * Q + U * U), ?_⟩, ⟨fun _ Q U => Complex.arg ⟨Q, U⟩ / 2, ?_⟩,
    ⟨fun I Q U => if I = 0 then 0 else Real.sqrt (Q * Q + U * U) / I, ?_⟩⟩
  · intro S h w hS
    exact ⟨_, rfl, fun y x hy hx => pB_px (hsame S h w hS) (by rw [(hS 0).1]; exact hy) (by rw [(hS 0).2]; exact hx)⟩
  · intro S h w hS
    exact ⟨_, rfl, fun y x hy hx => AoLP_px (hsame S h w hS) (by rw [(hS 0).1]; exact hy) (by rw [(hS 0).2]; exact hx)⟩
  · intro S h w hS
    obtain ⟨D, hD, _, _, hDp⟩ := C19_total S (hsame S h w hS)
    refine ⟨D, hD, fun y x hy hx => ?_⟩
    have h2 := hDp y x (by rw [(hS 0).1]; exact hy) (by rw [(hS 0).2]; exact hx)
    rw [pB_px (hsame S h w hS) (by rw [(hS 0).1]; exact hy) (by rw [(hS 0).2]; exact hx)] at h2
    dsimp only
    split
    · exact h2.1 (by assumption)
    · exact h2.2 (by assumption)

/-! ## C66 -/

/-- Each Stokes error is `sqrt(Σ_j M_ij² σ_j²)`, `σ_j` being the error of pixel (j / 2, j % 2) of the superpixel. -/
theorem C66_stokes (err : Img ℝ) (hh : err.h % 2 = 0) (hw : err.w % 2 = 0) (D : Demodulator ℝ)
    (hD : D.HasShape (err.h / 2) (err.w / 2)) :
    ∃ s, errorOnStokes err D = .ok s ∧ ∀ i, (s i).HasShape (err.h / 2) (err.w / 2) ∧
      ∀ y x, y < err.h / 2 → x < err.w / 2 → 0 ≤ (s i).px y x ∧
        (s i).px y x ^ 2 = ∑ j : Fin 4, ((D.mij i j).px y x) ^ 2 * (err.px (2 * y + j.val / 2) (2 * x + j.val % 2)) ^ 2 := by
  unfold errorOnStokes
  rw [split_ok hh hw, Py.ok_bind, matmulPols_ok (mij := fun i j => Img.zipWith (fun a b => a * b) (D.mij i j) (D.mij i j)) (h := err.h / 2)
    (w := err.w / 2) (by exact ⟨(hD 0 0).1, (hD 0 0).2⟩) (by exact ⟨rfl, rfl⟩), Py.ok_bind]
  refine ⟨_, rfl, fun i => ⟨⟨rfl, rfl⟩, ?_⟩⟩
  intro y x hy hx
  rw [Img.map_px _ _ hy hx, Img.ofFn_px hy hx]
  have e : ∀ j : Fin 4, (Img.zipWith (fun a b => a * b) (D.mij i j) (D.mij i j)).px y x = ((D.mij i j).px y x) ^ 2 := by
    intro j
    rw [Img.zipWith_px _ _ _ (by rw [(hD i j).1]; exact hy) (by rw [(hD i j).2]; exact hx), sq]
  have e' : ∀ k : Fin 4, (Img.zipWith (fun a b => a * b) (Img.ofFn (err.h / 2) (err.w / 2)
      (fun y x => err.px (2 * y + k.val / 2) (2 * x + k.val % 2))) (Img.ofFn (err.h / 2) (err.w / 2)
      (fun y x => err.px (2 * y + k.val / 2) (2 * x + k.val % 2)))).px y x = (err.px (2 * y + k.val / 2) (2 * x + k.val % 2)) ^ 2 := by
    intro k
    rw [Img.zipWith_px _ _ _ hy hx, Img.ofFn_px hy hx, sq]
  refine ⟨Real.sqrt_nonneg _, ?_⟩
  rw [Real.sq_sqrt]
  · apply Finset.sum_congr rfl
    intro j _
    rw [e j, e' j]
  · apply Finset.sum_nonneg
    intro j _
    rw [e j, e' j]
    positivity

/-- Errors scale with the pixel errors. -/
theorem C66_homogeneous (err : Img ℝ) (hh : err.h % 2 = 0) (hw : err.w % 2 = 0) (D : Demodulator ℝ)
    (hD : D.HasShape (err.h / 2) (err.w / 2)) (c : ℝ) {s s' : Fin 3 → Img ℝ} (hs : errorOnStokes err D = .ok s)
    (hs' : errorOnStokes (err.map (fun v => c * v)) D = .ok s') (i : Fin 3) {y x : ℕ} (hy : y < err.h / 2) (hx : x < err.w / 2) :
    (s' i).px y x = |c| * (s i).px y x := by
  obtain ⟨t, ht, h1⟩ := C66_stokes err hh hw D hD
  rw [hs] at ht
  cases ht
  obtain ⟨t', ht', h2⟩ := C66_stokes (err.map (fun v => c * v)) hh hw D hD
  rw [hs'] at ht'
  cases ht'
  obtain ⟨a1, a2⟩ := (h1 i).2 y x hy hx
  obtain ⟨b1, b2⟩ := (h2 i).2 y x hy hx
  have e : ((s' i).px y x) ^ 2 = (|c| * (s i).px y x) ^ 2 := by
    rw [b2, mul_pow, sq_abs, a2, Finset.mul_sum]
    apply Finset.sum_congr rfl
    intro j _
    have := j.isLt
    rw [Img.map_px _ _ (by omega) (by omega)]
    ring
  exact (sq_eq_sq₀ b1 (mul_nonneg (abs_nonneg _) a1)).1 e

/-- Larger pixel errors (in absolute value) give larger Stokes errors. -/
theorem C66_monotone (err err' : Img ℝ) (hsh : err'.h = err.h ∧ err'.w = err.w) (hh : err.h % 2 = 0) (hw : err.w % 2 = 0)
    (D : Demodulator ℝ) (hD : D.HasShape (err.h / 2) (err.w / 2))
    (hle : ∀ y x, y < err.h → x < err.w → |err.px y x| ≤ |err'.px y x|) {s s' : Fin 3 → Img ℝ}
    (hs : errorOnStokes err D = .ok s) (hs' : errorOnStokes err' D = .ok s') (i : Fin 3) {y x : ℕ} (hy : y < err.h / 2)
    (hx : x < err.w / 2) : (s i).px y x ≤ (s' i).px y x := by
  obtain ⟨t, ht, h1⟩ := C66_stokes err hh hw D hD
  rw [hs] at ht
  cases ht
  obtain ⟨t', ht', h2⟩ := C66_stokes err' (by rw [hsh.1]; exact hh) (by rw [hsh.2]; exact hw) D (by rw [hsh.1, hsh.2]; exact hD)
  rw [hs'] at ht'
  cases ht'
  obtain ⟨a1, a2⟩ := (h1 i).2 y x hy hx
  obtain ⟨b1, b2⟩ := (h2 i).2 y x (by rw [hsh.1]; exact hy) (by rw [hsh.2]; exact hx)
  apply le_of_sq_le_sq _ b1
  rw [a2, b2]
  apply Finset.sum_le_sum
  intro j _
  have := j.isLt
  apply mul_le_mul_of_nonneg_left _ (sq_nonneg _)
  exact sq_le_sq.2 (hle _ _ (by omega) (by omega))

/-- A Stokes error is 0 exactly when each of the four contributions is. -/
theorem C66_zero_iff (err : Img ℝ) (hh : err.h % 2 = 0) (hw : err.w % 2 = 0) (D : Demodulator ℝ)
    (hD : D.HasShape (err.h / 2) (err.w / 2)) {s : Fin 3 → Img ℝ} (hs : errorOnStokes err D = .ok s) (i : Fin 3) {y x : ℕ}
    (hy : y < err.h / 2) (hx : x < err.w / 2) :
    (s i).px y x = 0 ↔ ∀ j : Fin 4, (D.mij i j).px y x = 0 ∨ err.px (2 * y + j.val / 2) (2 * x + j.val % 2) = 0 := by
  obtain ⟨t, ht, h1⟩ := C66_stokes err hh hw D hD
  rw [hs] at ht
  cases ht
  obtain ⟨a1, a2⟩ := (h1 i).2 y x hy hx
  rw [← pow_eq_zero_iff (two_ne_zero), a2, Finset.sum_eq_zero_iff_of_nonneg (fun j _ => by positivity)]
  simp [pow_eq_zero_iff]

/-- An image with an odd side, or a tensor of another shape, is rejected with `ValueError`. -/
theorem C66_rejects (err : Img ℝ) (D : Demodulator ℝ) {th tw : ℕ} (hD : D.HasShape th tw)
    (hbad : err.h % 2 ≠ 0 ∨ err.w % 2 ≠ 0 ∨ ((th ≠ err.h / 2 ∨ tw ≠ err.w / 2) ∧ th ≠ 1 ∧ tw ≠ 1 ∧ err.h / 2 ≠ 1 ∧ err.w / 2 ≠ 1)) :
    errorOnStokes err D = .error .valueError := by
  unfold errorOnStokes
  by_cases hodd : err.h % 2 ≠ 0 ∨ err.w % 2 ≠ 0
  · rw [split_error hodd]
    rfl
  · push Not at hodd
    obtain ⟨h0, h1⟩ : (th ≠ err.h / 2 ∨ tw ≠ err.w / 2) ∧ th ≠ 1 ∧ tw ≠ 1 ∧ err.h / 2 ≠ 1 ∧ err.w / 2 ≠ 1 := by
      rcases hbad with h | h | h
      · exact absurd hodd.1 h
      · exact absurd hodd.2 h
      · exact h
    rw [split_ok hodd.1 hodd.2, Py.ok_bind]
    have key : ∀ (m : Fin 3 → Fin 4 → Img ℝ) (p : Fin 4 → Img ℝ), (m 0 0).h = th → (m 0 0).w = tw → (p 0).h = err.h / 2 →
        (p 0).w = err.w / 2 → matmulPols m p = .error .valueError := by
      intro m p e1 e2 e3 e4
      unfold matmulPols
      rw [e1, e2, e3, e4]
      by_cases hc : th = err.h / 2
      · have h2 : tw ≠ err.w / 2 := by tauto
        rw [hc, bdim_self, Py.ok_bind, bdim_error h2 h1.2.1 h1.2.2.2, Py.error_bind]
      · rw [bdim_error hc h1.1 h1.2.2.1, Py.error_bind]
    rw [key _ _ (by exact (hD 0 0).1) (by exact (hD 0 0).2) (by exact rfl) (by exact rfl)]
    rfl

/-- C65 and C66 together: `MicropolImageError` always has its four maps, of the family shape. -/
theorem C66_all (stokes : Fin 3 → Img ℝ) (err : Img ℝ) (hh : err.h % 2 = 0) (hw : err.w % 2 = 0) (D : Demodulator ℝ)
    (hD : D.HasShape (err.h / 2) (err.w / 2)) (hS : ∀ i, (stokes i).HasShape (err.h / 2) (err.w / 2)) :
    ∃ r, imageErrors stokes err D = .ok r ∧ errorOnStokes err D = .ok r.sigmaS ∧ errorOnPB stokes r.sigmaS = .ok r.sigmaPB ∧
      errorOnDoLP stokes r.sigmaS = .ok r.sigmaDoLP ∧ errorOnAoLP stokes r.sigmaS = .ok r.sigmaAoLP := by
  obtain ⟨s, hs, h1⟩ := C66_stokes err hh hw D hD
  obtain ⟨a, ha, _⟩ := elementwise6_ok (f := pBError) hS (fun i => (h1 i).1)
  obtain ⟨b, hb, _⟩ := elementwise6_ok (f := dolpError) hS (fun i => (h1 i).1)
  obtain ⟨c, hc, _⟩ := elementwise6_ok (f := aolpError) hS (fun i => (h1 i).1)
  refine ⟨⟨s, a, b, c⟩, ?_, hs, ha, hb, hc⟩
  unfold imageErrors
  rw [hs, Py.ok_bind, show errorOnPB stokes s = .ok a from ha, Py.ok_bind, show errorOnDoLP stokes s = .ok b from hb, Py.ok_bind,
    show errorOnAoLP stokes s = .ok c from hc]
  rfl

/-- The hypotheses are met: 4 × 6 pixel errors and a 2 × 3 tensor. -/
example : (Img.const 4 6 (1 : ℝ)).h % 2 = 0 ∧ (Img.const 4 6 (1 : ℝ)).w % 2 = 0 ∧
    (⟨fun _ _ => Img.const 2 3 (1 : ℝ), none⟩ : Demodulator ℝ).HasShape 2 3 := ⟨rfl, rfl, fun _ _ => ⟨rfl, rfl⟩⟩

end

end Micropol
