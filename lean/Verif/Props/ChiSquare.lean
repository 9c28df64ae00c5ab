import Verif.Model.ChiSquare
import Verif.Spec.ChiSquare
import Verif.Props.Calibration
import Verif.Props.Polarization
import Mathlib.Tactic.FieldSimp

/-!
# C96: the reduced chi square map of a calibration
-/

set_option autoImplicit false
set_option linter.unusedSectionVars false

namespace Micropol

noncomputable section

theorem malus_curve (p : Fin 3 → ℝ) (θ : ℝ) : Malus θ (p 0) (p 1) (p 2) = malusCurve p θ := by
  unfold Malus malusCurve
  rw [mul_sub, Real.cos_sub]
  simp only [show (2.0 : ℝ) = 2 by norm_num, show (0.5 : ℝ) = 1 / 2 by norm_num, show (1.0 : ℝ) = 1 by norm_num]
  ring

theorem reducedChisq_ok (call : FitCall) (p : Fin 3 → ℝ) {dof : Int} (hd : dof ≠ 0) :
    reducedChisq call p dof = .ok ((∑ i, misfit call p i ^ 2 / call.sigma i) / dof) := by
  unfold reducedChisq
  dsimp only
  rw [if_neg hd]
  congr 2
  refine Finset.sum_congr rfl (fun i _ => ?_)
  unfold misfit
  rw [malus_curve]
  ring

section
variable {env : CalibEnv} {inp : ChunkInput} {ny nx : Nat} {schedule : List Nat}

/-- C96 (partial): at a superpixel whose four fits succeeded, the map holds for each pixel the sum of the squared distances divided by
the errors, over the degrees of freedom used by the code.  Missing for the full statement: the errors are not squared, and the degrees of
freedom are not always the number of frames minus three. -/
theorem C96_value_partial (hg : ValidGrid inp ny nx schedule) {maps : CalibMaps}
    (hm : calibrate env inp ny nx schedule = .ok maps) {Y X : Nat} (hc : Covered inp ny nx Y X) (hchi : env.ComputesChisq)
    (hocc : ¬ Occulted inp Y X) (hdark : ∀ k, ¬ Dark inp Y X k) (p : Fin 4 → Fin 3 → ℝ) (c : Fin 4 → Fin 3 → Fin 3 → ℝ)
    (hfit : ∀ k, env.curveFit (fitRequest inp Y X k) = some (p k, c k)) (hd : freedom inp ≠ 0) (k : Fin 4) :
    maps.chisq.px (rowOf Y k) (colOf X k) =
      (∑ i, misfit (fitRequest inp Y X k) (p k) i ^ 2 / (fitRequest inp Y X k).sigma i) / freedom inp := by
  rw [((C33_fitted hg hm hc hocc hdark p c hfit).2.2 k).2.2.2.2]
  exact hchi _ _ _ _ (reducedChisq_ok _ _ hd)

/-- C96: at a superpixel without fit the map holds 0, as for a perfect fit. -/
theorem C96_unfitted (hg : ValidGrid inp ny nx schedule) {maps : CalibMaps}
    (hm : calibrate env inp ny nx schedule = .ok maps) {Y X : Nat} (hc : Covered inp ny nx Y X)
    (hfail : Occulted inp Y X ∨ ∃ k, Dark inp Y X k ∨ FitRaises env inp Y X k) (k : Fin 4) :
    maps.chisq.px (rowOf Y k) (colOf X k) = 0 ∧ ∀ a b, (maps.cov a b).px (rowOf Y k) (colOf X k) = 0 := by
  obtain ⟨-, -, -, -, -, a6, a7⟩ := maps_at hg hm hc
  have key : stepOutcome env inp Y X inp.initOutcome =
      { inp.initOutcome with m := env.pinv (idealMatrix inp.previsions) } := by
    unfold stepOutcome
    dsimp only
    by_cases hocc : ∃ k, superPx inp.occulter (2 * Y) (2 * X) k ≠ 0
    · rw [if_pos hocc]
      unfold theoDemodulation
      rw [theo_eq]
      rfl
    · rw [if_neg hocc]
      obtain ⟨k, hk⟩ := hfail.resolve_left hocc
      rw [dif_neg, theoDemodulation, theo_eq]
      intro h
      have := h k
      rw [(fits_none_iff env inp Y X k).2 hk] at this
      cases this
  rw [key] at a6 a7
  exact ⟨a7 k, fun a b => a6 a b k⟩

end

/-- C96: with positive errors and positive degrees of freedom the value is not negative, and it is zero exactly when the curve passes
through every sample. -/
theorem C96_zero_iff (call : FitCall) (p : Fin 3 → ℝ) {dof : Int} (hd : 0 < dof) (hs : ∀ i, 0 < call.sigma i) :
    ∃ v, reducedChisq call p dof = .ok v ∧ 0 ≤ v ∧ (v = 0 ↔ ∀ i, call.ydata i = malusCurve p (call.xdata i)) := by
  have hd' : (0 : ℝ) < dof := by exact_mod_cast hd
  have hn : ∀ i ∈ Finset.univ, 0 ≤ misfit call p i ^ 2 / call.sigma i := fun i _ => div_nonneg (sq_nonneg _) (hs i).le
  refine ⟨_, reducedChisq_ok call p hd.ne', div_nonneg (Finset.sum_nonneg hn) hd'.le, ?_⟩
  rw [div_eq_zero_iff, or_iff_left hd'.ne', Finset.sum_eq_zero_iff_of_nonneg hn]
  constructor
  · intro h i
    have := h i (Finset.mem_univ i)
    rw [div_eq_zero_iff, or_iff_left (hs i).ne', sq_eq_zero_iff] at this
    exact sub_eq_zero.1 this
  · intro h i _
    unfold misfit
    rw [h i]
    simp

/-- C96: when all errors are the same `s`, the value is the chi square times `s` over the degrees of freedom: it is the reduced chi square
only for errors of 1. -/
theorem C96_equal_errors (call : FitCall) (p : Fin 3 → ℝ) {dof : Int} (hd : dof ≠ 0) {s : ℝ} (h0 : s ≠ 0) (hs : ∀ i, call.sigma i = s) :
    reducedChisq call p dof = .ok (s * (chiSquare call p / dof)) := by
  rw [reducedChisq_ok call p hd]
  congr 1
  unfold chiSquare
  rw [← mul_div_assoc, Finset.mul_sum]
  congr 1
  refine Finset.sum_congr rfl (fun i _ => ?_)
  rw [hs i]
  field_simp

/-- C96: the same measurement expressed in units `c` times smaller (samples, errors and throughput times `c`): the chi square does not
change, the value in the map is multiplied by `c`. -/
theorem C96_units (call : FitCall) (p : Fin 3 → ℝ) {dof : Int} (hd : dof ≠ 0) {c : ℝ} (hc : c ≠ 0) :
    let call' : FitCall := { call with ydata := fun i => c * call.ydata i, sigma := fun i => c * call.sigma i }
    let p' : Fin 3 → ℝ := ![c * p 0, p 1, p 2]
    chiSquare call' p' = chiSquare call p ∧
      ∃ v, reducedChisq call p dof = .ok v ∧ reducedChisq call' p' dof = .ok (c * v) := by
  intro call' p'
  have hm : ∀ i, misfit call' p' i = c * misfit call p i := by
    intro i
    unfold misfit malusCurve
    show c * call.ydata i - c * p 0 / 2 * (1 + p 1 * Real.cos (2 * (p 2 - call.xdata i))) = _
    ring
  refine ⟨?_, _, reducedChisq_ok call p hd, ?_⟩
  · unfold chiSquare
    refine Finset.sum_congr rfl (fun i _ => ?_)
    show (misfit call' p' i / (c * call.sigma i)) ^ 2 = _
    rw [hm i, mul_div_mul_left _ _ hc]
  · rw [reducedChisq_ok call' p' hd]
    congr 1
    rw [← mul_div_assoc, Finset.mul_sum]
    congr 1
    refine Finset.sum_congr rfl (fun i _ => ?_)
    show misfit call' p' i ^ 2 / (c * call.sigma i) = _
    rw [hm i, mul_pow]
    by_cases h0 : call.sigma i = 0
    · rw [h0]; simp
    · field_simp

/-- C96: three parameters are fitted; the degrees of freedom are the number of frames minus three exactly when one of the two boundaries
was given and the other one was not. -/
theorem C96_freedom (inp : ChunkInput) :
    freedom inp = (inp.n : Int) - 3 ↔ (inp.tkBoundary.isSome ∧ inp.effBoundary = none) ∨ (inp.tkBoundary = none ∧ inp.effBoundary.isSome) := by
  unfold freedom
  cases inp.tkBoundary <;> cases inp.effBoundary <;> simp

/-- C96: four frames (the smallest accepted calibration) and no boundaries: the division is by zero, whatever the fit. -/
theorem C96_four_frames (inp : ChunkInput) (hn : inp.n = 4) (h1 : inp.tkBoundary = none) (h2 : inp.effBoundary = none) (Y X : Nat)
    (k : Fin 4) (p : Fin 3 → ℝ) : reducedChisq (fitRequest inp Y X k) p (freedom inp) = .error .notFinite := by
  have : freedom inp = 0 := by
    unfold freedom
    rw [h1, h2, hn]
    rfl
  rw [this]
  rfl

/-- Five frames of 2 x 2 pixels, all 1, with errors of 2. -/
def exChiInput : ChunkInput where
  n := 5
  height := 2
  width := 2
  data := fun _ => Img.const 2 2 1
  errors := fun _ => Img.const 2 2 2
  occulter := Img.zeros 2 2
  orientations := ![0, 45, 90, -45, 30]
  previsions := ![0, Real.pi / 4, -(Real.pi / 4), Real.pi / 2]
  tkBoundary := none
  effBoundary := none

/-- A fit that finds throughput 1, efficiency 0. -/
def exChiEnv : CalibEnv where
  curveFit := fun call => some (![1, 0, call.p0 2], fun _ _ => 0)
  pinv := exists_pinv.choose
  chisq := fun call p dof => match reducedChisq call p dof with | .ok v => v | .error _ => 0

theorem exChiEnv_chisq : exChiEnv.ComputesChisq := by
  intro call p dof v h
  show (match reducedChisq call p dof with | .ok v => v | .error _ => 0) = v
  rw [h]

theorem exChiGrid : ValidGrid exChiInput 1 1 [0] := ⟨by norm_num, by norm_num, by decide, by decide, by decide⟩

theorem exChi_px (c : ℝ) (k : Fin 4) : (Img.const 2 2 c).px (rowOf 0 k) (colOf 0 k) = c :=
  Img.ofFn_px (by unfold rowOf; omega) (by unfold colOf; omega)

theorem exChi_occ : ¬ Occulted exChiInput 0 0 := by
  rintro ⟨k, hk⟩
  exact hk (Img.ofFn_px (by unfold rowOf; omega) (by unfold colOf; omega))

theorem exChi_dark (k : Fin 4) : ¬ Dark exChiInput 0 0 k := by
  intro h
  have : (Img.const 2 2 (1 : ℝ)).px (rowOf 0 k) (colOf 0 k) = 0 := h (0 : Fin 5)
  rw [exChi_px] at this
  norm_num at this

theorem exChi_misfit (k i) : misfit (fitRequest exChiInput 0 0 k) ![1, 0, exChiInput.previsions k] i = 1 / 2 := by
  unfold misfit malusCurve
  show (Img.const 2 2 (1 : ℝ)).px (rowOf 0 k) (colOf 0 k) - (1 : ℝ) / 2 * (1 + 0 * _) = _
  rw [exChi_px]
  norm_num

theorem exChi_sigma (k i) : (fitRequest exChiInput 0 0 k).sigma i = 2 := by
  show (if (Img.const 2 2 (2 : ℝ)).px (rowOf 0 k) (colOf 0 k) = 0 then 1e-5 else (Img.const 2 2 (2 : ℝ)).px (rowOf 0 k) (colOf 0 k)) = 2
  rw [exChi_px, if_neg (by norm_num)]

/-- C96: the full claim is false: in a calibration of five frames with the default boundaries the map holds twice the sum of squares in
units of the errors, divided by one degree of freedom instead of two. -/
theorem C96_full_claim_false : ¬ ∀ (env : CalibEnv) (inp : ChunkInput) (maps : CalibMaps) (Y X : Nat) (p : Fin 4 → Fin 3 → ℝ)
    (c : Fin 4 → Fin 3 → Fin 3 → ℝ), env.ComputesChisq → ValidGrid inp 1 1 [0] → calibrate env inp 1 1 [0] = .ok maps →
    Covered inp 1 1 Y X → ¬ Occulted inp Y X → (∀ k, ¬ Dark inp Y X k) →
    (∀ k, env.curveFit (fitRequest inp Y X k) = some (p k, c k)) → 3 < inp.n →
    ∀ k, maps.chisq.px (rowOf Y k) (colOf X k) = chiSquare (fitRequest inp Y X k) (p k) / ((inp.n : ℝ) - 3) := by
  intro hall
  obtain ⟨maps, hm⟩ := C33_total (env := exChiEnv) exChiGrid
  have hcov : Covered exChiInput 1 1 0 0 := by unfold Covered; decide
  have hfit : ∀ k, exChiEnv.curveFit (fitRequest exChiInput 0 0 k) = some (![1, 0, exChiInput.previsions k], fun _ _ => 0) := fun _ => rfl
  have h1 := hall exChiEnv exChiInput maps 0 0 _ (fun _ _ _ => 0) exChiEnv_chisq exChiGrid hm hcov exChi_occ exChi_dark hfit
    (by show 3 < 5; norm_num) 0
  have hd : freedom exChiInput = 1 := rfl
  have h2 := C96_value_partial exChiGrid hm hcov exChiEnv_chisq exChi_occ exChi_dark _ (fun _ _ _ => 0) hfit (by rw [hd]; norm_num) 0
  rw [h1, hd] at h2
  unfold chiSquare at h2
  simp only [exChi_misfit, exChi_sigma, Finset.sum_const, Finset.card_univ, Fintype.card_fin] at h2
  have e1 : (fitRequest exChiInput 0 0 0).n = 5 := rfl
  have e2 : exChiInput.n = 5 := rfl
  rw [e1, e2] at h2
  norm_num at h2

end

end Micropol
