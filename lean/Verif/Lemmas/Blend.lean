import Verif.Spec.Blend
import Verif.Props.Polarization
import Mathlib.Analysis.Complex.Norm

/-! Light added up: the degree of polarization does not grow. -/

set_option autoImplicit false

namespace Micropol

noncomputable section

open Classical Finset

/-- Triangle inequality for polarized brightness. -/
theorem sqrt_sum_le {ι : Type} (P : Finset ι) (w q u : ι → ℝ) (hw : ∀ p ∈ P, 0 ≤ w p) :
    Real.sqrt ((∑ p ∈ P, w p * q p) * (∑ p ∈ P, w p * q p) + (∑ p ∈ P, w p * u p) * (∑ p ∈ P, w p * u p)) ≤
      ∑ p ∈ P, w p * Real.sqrt (q p * q p + u p * u p) := by
  have h1 : (⟨∑ p ∈ P, w p * q p, ∑ p ∈ P, w p * u p⟩ : ℂ) = ∑ p ∈ P, (w p : ℂ) * ⟨q p, u p⟩ := by
    apply Complex.ext <;> simp
  rw [← norm_mk, h1]
  refine (norm_sum_le _ _).trans (le_of_eq (sum_congr rfl fun p hp => ?_))
  rw [norm_mul, Complex.norm_real, Real.norm_of_nonneg (hw p hp), norm_mk]

/-- Light added up has at most the polarized brightness of its parts. -/
theorem IsBlend.pB_le {S T : Fin 3 → Img ℝ} (hS : SameShape S) (hT : SameShape T) (h : IsBlend S T) {M : ℝ}
    (hM : ∀ y x, y < (S 0).h → x < (S 0).w → (pB S).px y x ≤ M * (S 0).px y x) (y x : Nat) (hy : y < (T 0).h)
    (hx : x < (T 0).w) : (pB T).px y x ≤ M * (T 0).px y x := by
  obtain ⟨P, w, hP, hq⟩ := h y x hy hx
  rw [pB_px hT hy hx, hq 0, hq 1, hq 2]
  refine (sqrt_sum_le P w (fun p => (S 1).px p.1 p.2) (fun p => (S 2).px p.1 p.2) fun p hp => (hP p hp).2.2).trans ?_
  rw [mul_sum]
  refine sum_le_sum fun p hp => ?_
  obtain ⟨p1, p2, p3⟩ := hP p hp
  have := hM p.1 p.2 p1 p2
  rw [pB_px hS p1 p2] at this
  calc w p * Real.sqrt ((S 1).px p.1 p.2 * (S 1).px p.1 p.2 + (S 2).px p.1 p.2 * (S 2).px p.1 p.2)
      ≤ w p * (M * (S 0).px p.1 p.2) := mul_le_mul_of_nonneg_left this p3
    _ = M * (w p * (S 0).px p.1 p.2) := by ring

/-- The degree of polarization is at most `M` exactly where pB ≤ M I, when no light means no polarization. -/
theorem dolp_le_iff {S : Fin 3 → Img ℝ} (hS : SameShape S) {D : Img ℝ} (hD : DoLP S = .ok D) {M : ℝ} (hM : 0 ≤ M) {y x : Nat}
    (hy : y < (S 0).h) (hx : x < (S 0).w) (hI : 0 ≤ (S 0).px y x) :
    0 ≤ D.px y x ∧ ((pB S).px y x ≤ M * (S 0).px y x → D.px y x ≤ M) ∧
    (((S 0).px y x = 0 → (S 1).px y x = 0 ∧ (S 2).px y x = 0) → D.px y x ≤ M → (pB S).px y x ≤ M * (S 0).px y x) := by
  obtain ⟨D', e, -, -, h⟩ := C19_total S hS
  have : D' = D := Except.ok.inj (e.symm.trans hD)
  subst this
  obtain ⟨h0, h1⟩ := h y x hy hx
  have hb := (C18_pB S hS y x hy hx).1
  by_cases hz : (S 0).px y x = 0
  · rw [h0 hz]
    refine ⟨le_rfl, fun _ => hM, fun hq _ => ?_⟩
    obtain ⟨a, b⟩ := hq hz
    rw [pB_px hS hy hx, hz, a, b]
    simp
  · have hpos : 0 < (S 0).px y x := lt_of_le_of_ne hI (Ne.symm hz)
    rw [h1 hz]
    exact ⟨div_nonneg hb hI, fun hp => (div_le_iff₀ hpos).2 hp, fun _ hp => (div_le_iff₀ hpos).1 hp⟩

/-- The degree of polarization of light added up is at most that of its parts. -/
theorem IsBlend.dolp {S T : Fin 3 → Img ℝ} (hS : SameShape S) (hT : SameShape T) (h : IsBlend S T)
    (hpos : ∀ y x, y < (S 0).h → x < (S 0).w → 0 ≤ (S 0).px y x ∧
      ((S 0).px y x = 0 → (S 1).px y x = 0 ∧ (S 2).px y x = 0)) {D D' : Img ℝ} (hD : DoLP S = .ok D) (hD' : DoLP T = .ok D')
    {M : ℝ} (hM0 : 0 ≤ M) (hM : ∀ y x, y < (S 0).h → x < (S 0).w → D.px y x ≤ M) (y x : Nat) (hy : y < (T 0).h)
    (hx : x < (T 0).w) : 0 ≤ D'.px y x ∧ D'.px y x ≤ M := by
  have hI : 0 ≤ (T 0).px y x := by
    obtain ⟨P, w, hP, hq⟩ := h y x hy hx
    rw [hq 0]
    exact sum_nonneg fun p hp => mul_nonneg (hP p hp).2.2 (hpos _ _ (hP p hp).1 (hP p hp).2.1).1
  obtain ⟨a, b, -⟩ := dolp_le_iff hT hD' hM0 hy hx hI
  refine ⟨a, b (h.pB_le hS hT (fun y x hy hx => ?_) y x hy hx)⟩
  obtain ⟨p1, p2⟩ := hpos y x hy hx
  exact (dolp_le_iff hS hD hM0 hy hx p1).2.2 p2 (hM y x hy hx)

/-- Non-negative pixels: I is not negative, and no light means no polarization. -/
theorem stokes_dark {A : Img ℝ} (hh : A.h % 2 = 0) (hw : A.w % 2 = 0) {L : Layout} {dic : AngleDic} (hL : L.Describes dic)
    {S : Fin 3 → Img ℝ} (hS : dataStokes A dic = .ok S) (hpos : ∀ y x, y < A.h → x < A.w → 0 ≤ A.px y x) (y x : Nat)
    (hy : y < A.h / 2) (hx : x < A.w / 2) :
    0 ≤ (S 0).px y x ∧ ((S 0).px y x = 0 → (S 1).px y x = 0 ∧ (S 2).px y x = 0) := by
  obtain ⟨S', e, -, h⟩ := C17_stokes A hh hw L dic hL
  have : S' = S := Except.ok.inj (e.symm.trans hS)
  subst this
  obtain ⟨h0, h1, h2⟩ := h y x hy hx
  have hv : ∀ q : Fin 4, 0 ≤ A.px (2 * y + q.val / 2) (2 * x + q.val % 2) := fun q =>
    hpos _ _ (by have := q.isLt; omega) (by have := q.isLt; omega)
  have a0 := hv 0
  have a1 := hv 1
  have a2 := hv 2
  have a3 := hv 3
  refine ⟨by rw [h0]; linarith, fun hz => ?_⟩
  rw [h0] at hz
  have z : ∀ q : Fin 4, A.px (2 * y + q.val / 2) (2 * x + q.val % 2) = 0 := by
    intro q
    fin_cases q
    · show A.px (2 * y + (0 : Fin 4).val / 2) (2 * x + (0 : Fin 4).val % 2) = 0; linarith
    · show A.px (2 * y + (1 : Fin 4).val / 2) (2 * x + (1 : Fin 4).val % 2) = 0; linarith
    · show A.px (2 * y + (2 : Fin 4).val / 2) (2 * x + (2 : Fin 4).val % 2) = 0; linarith
    · show A.px (2 * y + (3 : Fin 4).val / 2) (2 * x + (3 : Fin 4).val % 2) = 0; linarith
  rw [h1, h2]
  dsimp only
  rw [z, z, z, z]
  norm_num

end

end Micropol
