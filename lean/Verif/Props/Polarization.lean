import Verif.Model.PolFunctions
import Verif.Props.Stokes
import Mathlib.Tactic.Linarith
import Mathlib.Tactic.Positivity
import Mathlib.Analysis.Real.Pi.Bounds

/-!
# C18, C19, C20, C21: polarized brightness, degree and angle of linear polarization
-/

set_option autoImplicit false

namespace Micropol

open Real

/-- Three equally shaped maps. -/
def SameShape (S : Fin 3 → Img ℝ) : Prop := ∀ i, (S i).h = (S 0).h ∧ (S i).w = (S 0).w

theorem pB_px {S : Fin 3 → Img ℝ} (hS : SameShape S) {y x : Nat} (hy : y < (S 0).h) (hx : x < (S 0).w) :
    (pB S).px y x = Real.sqrt ((S 1).px y x * (S 1).px y x + (S 2).px y x * (S 2).px y x) := by
  unfold pB
  rw [Img.zipWith_px _ _ _ (by rw [(hS 1).1]; exact hy) (by rw [(hS 1).2]; exact hx)]

theorem AoLP_px {S : Fin 3 → Img ℝ} (hS : SameShape S) {y x : Nat} (hy : y < (S 0).h) (hx : x < (S 0).w) :
    (AoLP S).px y x = Complex.arg ⟨(S 1).px y x, (S 2).px y x⟩ / 2 := by
  unfold AoLP arctan2
  rw [Img.zipWith_px _ _ _ (by rw [(hS 2).1]; exact hy) (by rw [(hS 2).2]; exact hx)]
  norm_num
  ring

theorem norm_mk (q u : ℝ) : ‖(⟨q, u⟩ : ℂ)‖ = Real.sqrt (q * q + u * u) := by
  rw [Complex.norm_def, Complex.normSq_mk]

/-- C18: `pB` is non-negative and `pB² = Q² + U²`. -/
theorem C18_pB (S : Fin 3 → Img ℝ) (hS : SameShape S) (y x : Nat) (hy : y < (S 0).h) (hx : x < (S 0).w) :
    0 ≤ (pB S).px y x ∧ (pB S).px y x ^ 2 = (S 1).px y x ^ 2 + (S 2).px y x ^ 2 := by
  rw [pB_px hS hy hx]
  refine ⟨Real.sqrt_nonneg _, ?_⟩
  rw [Real.sq_sqrt (add_nonneg (mul_self_nonneg _) (mul_self_nonneg _))]
  ring

/-- C18: `AoLP` lies in (-π/2, π/2]. -/
theorem C18_AoLP_range (S : Fin 3 → Img ℝ) (hS : SameShape S) (y x : Nat) (hy : y < (S 0).h)
    (hx : x < (S 0).w) : -(π / 2) < (AoLP S).px y x ∧ (AoLP S).px y x ≤ π / 2 := by
  rw [AoLP_px hS hy hx]
  have h1 := Complex.neg_pi_lt_arg ⟨(S 1).px y x, (S 2).px y x⟩
  have h2 := Complex.arg_le_pi ⟨(S 1).px y x, (S 2).px y x⟩
  constructor <;> linarith

/-- C18: polar form of (Q, U). -/
theorem C18_polar (S : Fin 3 → Img ℝ) (hS : SameShape S) (y x : Nat) (hy : y < (S 0).h)
    (hx : x < (S 0).w) :
    (S 1).px y x = (pB S).px y x * cos (2 * (AoLP S).px y x) ∧
    (S 2).px y x = (pB S).px y x * sin (2 * (AoLP S).px y x) := by
  rw [AoLP_px hS hy hx, pB_px hS hy hx, ← norm_mk,
    show ∀ a : ℝ, 2 * (a / 2) = a from fun a => by ring]
  exact ⟨(Complex.norm_mul_cos_arg ⟨(S 1).px y x, (S 2).px y x⟩).symm,
    (Complex.norm_mul_sin_arg ⟨(S 1).px y x, (S 2).px y x⟩).symm⟩

/-- C19: `DoLP` never divides by zero; it is 0 where I = 0 and pB / I elsewhere. -/
theorem C19_total (S : Fin 3 → Img ℝ) (hS : SameShape S) :
    ∃ D, DoLP S = .ok D ∧ D.h = (S 0).h ∧ D.w = (S 0).w ∧ ∀ y x, y < (S 0).h → x < (S 0).w →
      ((S 0).px y x = 0 → D.px y x = 0) ∧
      ((S 0).px y x ≠ 0 → D.px y x = (pB S).px y x / (S 0).px y x) := by
  unfold DoLP npDivideWhere
  rw [if_neg]
  · refine ⟨_, rfl, rfl, rfl, ?_⟩
    intro y x hy hx
    rw [Img.ofFn_px (by exact hy) (by exact hx), Img.map_px _ _ hy hx]
    constructor
    · intro h0
      simp [h0, Img.zeros, Img.const, Img.ofFn_px hy hx]
    · intro h0
      simp only [h0, ne_eq, not_false_eq_true, decide_true, if_true]
      rw [pB_px hS hy hx, Img.zipWith_px _ _ _ (by rw [(hS 1).1]; exact hy) (by rw [(hS 1).2]; exact hx)]
  · rintro ⟨y, x, hy, hx, h1, h2⟩
    simp only [Img.zeros, Img.const, Img.ofFn_h, Img.ofFn_w] at hy hx
    rw [Img.map_px _ _ hy hx] at h1
    simp [h2] at h1

/-- C19: non-negative Stokes I with I² ≥ Q² + U² (physical light) gives DoLP ≤ 1. -/
theorem C19_physical (S : Fin 3 → Img ℝ) (hS : SameShape S) (D : Img ℝ) (hD : DoLP S = .ok D) (y x : Nat)
    (hy : y < (S 0).h) (hx : x < (S 0).w) (hI : 0 ≤ (S 0).px y x)
    (hp : (S 1).px y x ^ 2 + (S 2).px y x ^ 2 ≤ (S 0).px y x ^ 2) : 0 ≤ D.px y x ∧ D.px y x ≤ 1 := by
  obtain ⟨D', e, -, -, h⟩ := C19_total S hS
  rw [hD] at e; injection e with e; subst e
  obtain ⟨h0, h1⟩ := h y x hy hx
  obtain ⟨b0, b1⟩ := C18_pB S hS y x hy hx
  by_cases hc : (S 0).px y x = 0
  · rw [h0 hc]; norm_num
  · rw [h1 hc]
    have hpos : 0 < (S 0).px y x := lt_of_le_of_ne hI (Ne.symm hc)
    refine ⟨div_nonneg b0 hI, ?_⟩
    rw [div_le_one hpos]
    exact abs_le_of_sq_le_sq' (by rw [b1]; exact hp) hI |>.2

theorem stokes_sameShape {s : Fin 4 → Img ℝ} {L : Layout} {S : Fin 3 → Img ℝ} (h : IsStokesOf s L S) :
    SameShape S := fun i => ⟨(h.1 i).1.trans (h.1 0).1.symm, (h.1 i).2.trans (h.1 0).2.symm⟩

/-- The four positions of a proper layout exhaust the superpixel. -/
theorem Layout.Proper.sum {M : Type} [AddCommMonoid M] {L : Layout} (hP : L.Proper) (f : Fin 4 → M) :
    ∑ k, f k = f L.p0 + f L.p45 + f L.pm45 + f L.p90 := by
  obtain ⟨a, b, c, d⟩ := L
  unfold Layout.Proper at hP
  simp only at hP ⊢
  have key : (Finset.univ : Finset (Fin 4)) = {a, b, c, d} := by
    revert a b c d
    decide
  rw [key, Finset.sum_insert, Finset.sum_insert, Finset.sum_insert, Finset.sum_singleton]
  · rw [add_assoc, add_assoc]
  · simp [hP]
  · simp [hP]
  · simp [hP]

/-- C19: non-negative pixel data give 0 ≤ DoLP ≤ 2 everywhere. -/
theorem C19_bound (d : Img ℝ) (L : Layout) (hP : L.Proper) (dic : AngleDic) (hL : L.Describes dic)
    (S : Fin 3 → Img ℝ) (D : Img ℝ) (hS : dataStokes d dic = .ok S) (hD : DoLP S = .ok D)
    (hpos : ∀ y x, y < d.h → x < d.w → 0 ≤ d.px y x) (y x : Nat) (hy : y < d.h / 2) (hx : x < d.w / 2) :
    0 ≤ D.px y x ∧ D.px y x ≤ 2 := by
  obtain ⟨hh, hw⟩ := dataStokes_even hS
  obtain ⟨s, S', hs, e2, e3⟩ := dataStokes_ok hh hw hL
  rw [hS] at e2; injection e2 with e2; subst e2
  have hf := C02_family_pixels d s hs
  have nn : ∀ k, 0 ≤ (s k).px y x := by
    intro k
    have := k.isLt
    rw [(hf k).2.2 y x hy hx]
    exact hpos _ _ (by omega) (by omega)
  have hy' : y < (s 0).h := by rw [(hf 0).1]; exact hy
  have hx' : x < (s 0).w := by rw [(hf 0).2.1]; exact hx
  obtain ⟨z0, z1, z2⟩ := e3.2 y x hy' hx'
  have hSS := stokes_sameShape e3
  rw [← (e3.1 0).1] at hy'
  rw [← (e3.1 0).2] at hx'
  obtain ⟨D', e, -, -, h⟩ := C19_total S hSS
  rw [hD] at e; injection e with e; subst e
  obtain ⟨h0, h1⟩ := h y x hy' hx'
  obtain ⟨b0, b1⟩ := C18_pB S hSS y x hy' hx'
  rw [hP.sum] at z0
  have n0 := nn L.p0
  have n1 := nn L.p45
  have n2 := nn L.pm45
  have n3 := nn L.p90
  have hI : 0 ≤ (S 0).px y x := by rw [z0]; positivity
  by_cases hc : (S 0).px y x = 0
  · rw [h0 hc]; norm_num
  · rw [h1 hc]
    have hp : 0 < (S 0).px y x := lt_of_le_of_ne hI (Ne.symm hc)
    refine ⟨div_nonneg b0 hI, ?_⟩
    rw [div_le_iff₀ hp]
    refine (abs_le_of_sq_le_sq' ?_ (by linarith)).2
    rw [b1, z0, z1, z2]
    nlinarith [mul_nonneg n0 n1, mul_nonneg n0 n2, mul_nonneg n0 n3, mul_nonneg n1 n2, mul_nonneg n1 n3,
      mul_nonneg n2 n3, sq_nonneg ((s L.p0).px y x - (s L.p90).px y x)]

/-- The image with the single bright pixel at position 0 of its only superpixel. -/
def exBright : Img ℝ := Img.ofFn 2 2 (fun y x => if y = 0 ∧ x = 0 then 1 else 0)

/-- C19: the bound 2 is attained, so non-negative data do *not* guarantee DoLP ≤ 1. -/
theorem C19_two_attained : ∃ S D, dataStokes exBright polarCamAngles = .ok S ∧ DoLP S = .ok D ∧
    (∀ y x, 0 ≤ exBright.px y x) ∧ D.px 0 0 = 2 := by
  obtain ⟨S, h1, h2, h3⟩ := C17_stokes exBright (by decide) (by decide) _ _ C02_polarCam.1
  have hSS : SameShape S := fun i => ⟨(h2 i).1.trans (h2 0).1.symm, (h2 i).2.trans (h2 0).2.symm⟩
  obtain ⟨D, e, -, -, h⟩ := C19_total S hSS
  have g1 : 0 < (S 0).h := by rw [(h2 0).1]; decide
  have g2 : 0 < (S 0).w := by rw [(h2 0).2]; decide
  refine ⟨S, D, h1, e, ?_, ?_⟩
  · intro y x
    unfold exBright
    rw [Img.ofFn_px']
    split_ifs <;> norm_num
  · obtain ⟨a, b, c⟩ := h3 0 0 (by decide) (by decide)
    have a' : (S 0).px 0 0 = 1 / 2 := by rw [a]; norm_num [exBright, Img.ofFn_px']
    have b' : (S 1).px 0 0 = 1 := by rw [b]; norm_num [exBright, Img.ofFn_px']
    have c' : (S 2).px 0 0 = 0 := by rw [c]; norm_num [exBright, Img.ofFn_px']
    rw [(h 0 0 g1 g2).2 (by rw [a']; norm_num), pB_px hSS g1 g2, a', b', c']
    norm_num

/-- C20: multiplying the data by `c` multiplies I, Q, U by `c`. -/
theorem C20_gain_stokes {K : Type} [Field K] (d : Img K) (c : K) (L : Layout) (dic : AngleDic)
    (hL : L.Describes dic) (S : Fin 3 → Img K) (hS : dataStokes d dic = .ok S) :
    dataStokes (d.map (fun v => c * v)) dic = .ok (fun i => (S i).map (fun v => c * v)) := by
  obtain ⟨hh, hw⟩ := dataStokes_even hS
  obtain ⟨S₁, f2, f3, f4⟩ := C17_stokes d hh hw L dic hL
  rw [hS] at f2; injection f2 with f2; subst f2
  obtain ⟨S', g2, g3, g4⟩ := C17_stokes (d.map (fun v => c * v)) hh hw L dic hL
  rw [g2]
  congr 1
  funext i
  simp only [Img.map_h, Img.map_w] at g3 g4
  refine Img.ext_px (by rw [(g3 i).1, Img.map_h, (f3 i).1]) (by rw [(g3 i).2, Img.map_w, (f3 i).2]) ?_
  intro y x hy hx
  rw [(g3 i).1] at hy
  rw [(g3 i).2] at hx
  rw [Img.map_px _ _ (by rw [(f3 i).1]; exact hy) (by rw [(f3 i).2]; exact hx)]
  have hm : ∀ k : Fin 4, (d.map (fun v => c * v)).px (2 * y + k.val / 2) (2 * x + k.val % 2)
      = c * d.px (2 * y + k.val / 2) (2 * x + k.val % 2) := by
    intro k
    have := k.isLt
    rw [Img.map_px _ _ (by omega) (by omega)]
  obtain ⟨a, b, e⟩ := f4 y x hy hx
  obtain ⟨a', b', e'⟩ := g4 y x hy hx
  simp only [hm] at a' b' e'
  fin_cases i
  · show (S' 0).px y x = c * (S 0).px y x
    rw [a, a']; ring
  · show (S' 1).px y x = c * (S 1).px y x
    rw [b, b']; ring
  · show (S' 2).px y x = c * (S 2).px y x
    rw [e, e']; ring

/-- C20: for `c > 0`, scaling I, Q, U by `c` scales pB by `c` and leaves DoLP and AoLP unchanged. -/
theorem C20_gain_pol (S : Fin 3 → Img ℝ) (hS : SameShape S) (c : ℝ) (hc : 0 < c) :
    pB (fun i => (S i).map (fun v => c * v)) = (pB S).map (fun v => c * v) ∧
    AoLP (fun i => (S i).map (fun v => c * v)) = AoLP S ∧
    DoLP (fun i => (S i).map (fun v => c * v)) = DoLP S := by
  have hS' : SameShape (fun i => (S i).map (fun v => c * v)) := fun i => hS i
  have px1 : ∀ i y x, y < (S 0).h → x < (S 0).w → ((S i).map (fun v => c * v)).px y x = c * (S i).px y x := by
    intro i y x hy hx
    exact Img.map_px _ _ (by rw [(hS i).1]; exact hy) (by rw [(hS i).2]; exact hx)
  have hpB : ∀ y x, y < (S 0).h → x < (S 0).w →
      (pB (fun i => (S i).map (fun v => c * v))).px y x = c * (pB S).px y x := by
    intro y x hy hx
    rw [pB_px hS' (by exact hy) (by exact hx), pB_px hS hy hx, px1 _ _ _ hy hx, px1 _ _ _ hy hx]
    rw [show ∀ q u : ℝ, c * q * (c * q) + c * u * (c * u) = c ^ 2 * (q * q + u * u) from fun q u => by ring,
      Real.sqrt_mul (by positivity), Real.sqrt_sq hc.le]
  refine ⟨?_, ?_, ?_⟩
  · refine Img.ext_px rfl rfl ?_
    intro y x (hy : y < (S 1).h) (hx : x < (S 1).w)
    have hy0 : y < (S 0).h := by rw [← (hS 1).1]; exact hy
    have hx0 : x < (S 0).w := by rw [← (hS 1).2]; exact hx
    rw [hpB y x hy0 hx0, Img.map_px _ _ (by exact hy) (by exact hx)]
  · refine Img.ext_px rfl rfl ?_
    intro y x (hy : y < (S 2).h) (hx : x < (S 2).w)
    have hy0 : y < (S 0).h := by rw [← (hS 2).1]; exact hy
    have hx0 : x < (S 0).w := by rw [← (hS 2).2]; exact hx
    rw [AoLP_px hS' (by exact hy0) (by exact hx0), AoLP_px hS hy0 hx0, px1 _ _ _ hy0 hx0, px1 _ _ _ hy0 hx0]
    have : (⟨c * (S 1).px y x, c * (S 2).px y x⟩ : ℂ) = (c : ℂ) * ⟨(S 1).px y x, (S 2).px y x⟩ := by
      apply Complex.ext <;> simp
    rw [this, Complex.arg_real_mul _ hc]
  · obtain ⟨D, e, hDh, hDw, h⟩ := C19_total S hS
    obtain ⟨D', e', hDh', hDw', h'⟩ := C19_total _ hS'
    rw [e, e']
    congr 1
    refine Img.ext_px (by rw [hDh', hDh]; rfl) (by rw [hDw', hDw]; rfl) ?_
    intro y x hy hx
    rw [hDh'] at hy
    rw [hDw'] at hx
    have hy0 : y < (S 0).h := hy
    have hx0 : x < (S 0).w := hx
    obtain ⟨a, b⟩ := h y x hy0 hx0
    obtain ⟨a', b'⟩ := h' y x hy hx
    rw [px1 0 _ _ hy0 hx0] at a' b'
    by_cases h0 : (S 0).px y x = 0
    · rw [a h0, a' (by rw [h0, mul_zero])]
    · rw [b h0, b' (mul_ne_zero hc.ne' h0), hpB y x hy0 hx0, mul_div_mul_left _ _ hc.ne']

/-- Orientation in radians of the four nominal micropolarizers: what the sensor sees behind `angle` degrees. -/
noncomputable def nominal (angle : Int) : ℝ := angle * π / 180

theorem malus_eq (a t e p : ℝ) : Malus a t e p
    = t / 2 * (1 + e * (cos (2 * p) * cos (2 * a) + sin (2 * p) * sin (2 * a))) := by
  have h1 : (0.5 : ℝ) = 1 / 2 := by norm_num
  have h2 : (2.0 : ℝ) = 2 := by norm_num
  have h3 : (1.0 : ℝ) = 1 := by norm_num
  unfold Malus
  simp only [h1, h2, h3]
  ring

/-- C21: an image in which the micropolarizers at 0, 45, -45 and 90 degrees follow the Malus law with throughput
`t` and efficiency `e` for light of intensity `A y x` and polarization angle `θ y x` gives back
I = t A, (Q, U) = t e A (cos 2θ, sin 2θ); and if t A > 0 and e > 0, then pB = t e A, DoLP = e and AoLP = θ mod π. -/
theorem C21_malus (d : Img ℝ) (L : Layout) (hP : L.Proper) (dic : AngleDic) (hL : L.Describes dic)
    (f0 f45 fm45 f90 : Img ℝ)
    (h0 : polFamily d dic 0 = .ok f0) (h45 : polFamily d dic 45 = .ok f45)
    (hm45 : polFamily d dic (-45) = .ok fm45) (h90 : polFamily d dic 90 = .ok f90)
    (A θ : Nat → Nat → ℝ) (t e : ℝ)
    (m0 : ∀ y x, y < f0.h → x < f0.w → f0.px y x = A y x * Malus (θ y x) t e (nominal 0))
    (m45 : ∀ y x, y < f0.h → x < f0.w → f45.px y x = A y x * Malus (θ y x) t e (nominal 45))
    (mm45 : ∀ y x, y < f0.h → x < f0.w → fm45.px y x = A y x * Malus (θ y x) t e (nominal (-45)))
    (m90 : ∀ y x, y < f0.h → x < f0.w → f90.px y x = A y x * Malus (θ y x) t e (nominal 90)) :
    ∃ S D, dataStokes d dic = .ok S ∧ DoLP S = .ok D ∧ ∀ y x, y < d.h / 2 → x < d.w / 2 →
      (S 0).px y x = t * A y x ∧ (S 1).px y x = t * e * A y x * cos (2 * θ y x) ∧
      (S 2).px y x = t * e * A y x * sin (2 * θ y x) ∧
      (0 < t * A y x → 0 < e →
        (pB S).px y x = t * e * A y x ∧ D.px y x = e ∧ ∃ n : ℤ, (AoLP S).px y x = θ y x + n * π) := by
  obtain ⟨s, hs, -⟩ := Py.bind_eq_ok.1 h0
  obtain ⟨hh, hw⟩ := split_even hs
  obtain ⟨a0, a45, am45, a90⟩ := C02_accessors d s hs L dic hL
  rw [h0] at a0; injection a0 with a0; subst a0
  rw [h45] at a45; injection a45 with a45; subst a45
  rw [hm45] at am45; injection am45 with am45; subst am45
  rw [h90] at a90; injection a90 with a90; subst a90
  obtain ⟨s', S, e1, e2, e3⟩ := dataStokes_ok hh hw hL
  rw [hs] at e1; injection e1 with e1; subst e1
  have hSS := stokes_sameShape e3
  obtain ⟨D, eD, -, -, hD⟩ := C19_total S hSS
  refine ⟨S, D, e2, eD, ?_⟩
  intro y x hy hx
  have hf := C02_family_pixels d s hs
  have q1 : y < (s L.p0).h := by rw [(hf _).1]; exact hy
  have q2 : x < (s L.p0).w := by rw [(hf _).2.1]; exact hx
  have v0 := m0 y x q1 q2
  have v45 := m45 y x q1 q2
  have vm45 := mm45 y x q1 q2
  have v90 := m90 y x q1 q2
  rw [malus_eq] at v0 v45 vm45 v90
  unfold nominal at v0 v45 vm45 v90
  have c45 : (2 : ℝ) * (((45 : Int) : ℝ) * π / 180) = π / 2 := by push_cast; ring
  have cm45 : (2 : ℝ) * (((-45 : Int) : ℝ) * π / 180) = -(π / 2) := by push_cast; ring
  have c90 : (2 : ℝ) * (((90 : Int) : ℝ) * π / 180) = π := by push_cast; ring
  have c0 : (2 : ℝ) * (((0 : Int) : ℝ) * π / 180) = 0 := by push_cast; ring
  simp only [c0, cos_zero, sin_zero] at v0
  simp only [c45, cos_pi_div_two, sin_pi_div_two] at v45
  simp only [cm45, cos_neg, sin_neg, cos_pi_div_two, sin_pi_div_two] at vm45
  simp only [c90, cos_pi, sin_pi] at v90
  have hy' : y < (s 0).h := by rw [(hf 0).1]; exact hy
  have hx' : x < (s 0).w := by rw [(hf 0).2.1]; exact hx
  obtain ⟨z0, z1, z2⟩ := e3.2 y x hy' hx'
  rw [hP.sum] at z0
  have r0 : (S 0).px y x = t * A y x := by rw [z0, v0, v45, vm45, v90]; ring
  have r1 : (S 1).px y x = t * e * A y x * cos (2 * θ y x) := by rw [z1, v0, v90]; ring
  have r2 : (S 2).px y x = t * e * A y x * sin (2 * θ y x) := by rw [z2, v45, vm45]; ring
  refine ⟨r0, r1, r2, ?_⟩
  intro htA he
  rw [← (e3.1 0).1] at hy'
  rw [← (e3.1 0).2] at hx'
  have hr : 0 < t * e * A y x := by nlinarith [mul_pos htA he]
  have rp : (pB S).px y x = t * e * A y x := by
    rw [pB_px hSS hy' hx', r1, r2]
    rw [show ∀ r c s : ℝ, r * c * (r * c) + r * s * (r * s) = r ^ 2 * (s ^ 2 + c ^ 2) from
      fun r c s => by ring, sin_sq_add_cos_sq, mul_one, Real.sqrt_sq hr.le]
  refine ⟨rp, ?_, ?_⟩
  · rw [(hD y x hy' hx').2 (by rw [r0]; exact htA.ne'), rp, r0]
    rw [show t * e * A y x = e * (t * A y x) by ring, mul_div_assoc, div_self htA.ne', mul_one]
  · rw [AoLP_px hSS hy' hx', r1, r2]
    have : (⟨t * e * A y x * cos (2 * θ y x), t * e * A y x * sin (2 * θ y x)⟩ : ℂ)
        = ((t * e * A y x : ℝ) : ℂ) * (Complex.cos ((2 * θ y x : ℝ) : ℂ)
            + Complex.sin ((2 * θ y x : ℝ) : ℂ) * Complex.I) := by
      rw [← Complex.ofReal_cos, ← Complex.ofReal_sin]
      apply Complex.ext
      · rw [Complex.re_ofReal_mul, Complex.add_re, Complex.ofReal_re, Complex.re_ofReal_mul, Complex.I_re]
        ring
      · rw [Complex.im_ofReal_mul, Complex.add_im, Complex.ofReal_im, Complex.im_ofReal_mul, Complex.I_im]
        ring
    rw [this]
    have h := Complex.arg_mul_cos_add_sin_mul_I_sub hr (2 * θ y x)
    refine ⟨⌊(π - 2 * θ y x) / (2 * π)⌋, ?_⟩
    linarith

/-! Non-vacuity -/

/-- Stokes maps on which C18, C19, C20 say something. -/
example : SameShape (fun i => Img.ofFn 1 2 (fun _ x => (x : ℝ) + i.val)) := fun _ => ⟨rfl, rfl⟩

/-- Fully polarized light at 30° seen by PolarCam: all hypotheses of C21 are met. -/
noncomputable def exMalus : Img ℝ := Img.ofFn 2 2 (fun y x =>
  5 * Malus (π / 6) 1 1 (nominal (if y = 0 then (if x = 0 then 0 else 45) else (if x = 0 then -45 else 90))))

example : ∃ S D, dataStokes exMalus polarCamAngles = .ok S ∧ DoLP S = .ok D ∧ (S 0).px 0 0 = 5 ∧
    (pB S).px 0 0 = 5 ∧ D.px 0 0 = 1 := by
  have hs : splitPolarizations exMalus = .ok _ := split_ok (by simp [exMalus]) (by simp [exMalus])
  obtain ⟨a, b, c, d⟩ := C02_accessors exMalus _ hs _ _ C02_polarCam.1
  obtain ⟨S, D, h1, h2, h3⟩ := C21_malus exMalus _ C02_polarCam.2 _ C02_polarCam.1 _ _ _ _ a b c d
    (fun _ _ => 5) (fun _ _ => π / 6) 1 1
    (by
      intro y x (hy : y < 1) (hx : x < 1)
      obtain rfl : y = 0 := by omega
      obtain rfl : x = 0 := by omega
      rw [Img.ofFn_px (by simp [exMalus]) (by simp [exMalus])]
      simp [exMalus, Img.ofFn_px'])
    (by
      intro y x (hy : y < 1) (hx : x < 1)
      obtain rfl : y = 0 := by omega
      obtain rfl : x = 0 := by omega
      rw [Img.ofFn_px (by simp [exMalus]) (by simp [exMalus])]
      simp [exMalus, Img.ofFn_px'])
    (by
      intro y x (hy : y < 1) (hx : x < 1)
      obtain rfl : y = 0 := by omega
      obtain rfl : x = 0 := by omega
      rw [Img.ofFn_px (by simp [exMalus]) (by simp [exMalus])]
      simp [exMalus, Img.ofFn_px'])
    (by
      intro y x (hy : y < 1) (hx : x < 1)
      obtain rfl : y = 0 := by omega
      obtain rfl : x = 0 := by omega
      rw [Img.ofFn_px (by simp [exMalus]) (by simp [exMalus])]
      simp [exMalus, Img.ofFn_px'])
  obtain ⟨r0, -, -, r⟩ := h3 0 0 (by simp [exMalus]) (by simp [exMalus])
  obtain ⟨p, q, -⟩ := r (by norm_num) (by norm_num)
  exact ⟨S, D, h1, h2, by rw [r0]; norm_num, by rw [p]; norm_num, q⟩

end Micropol
