import Verif.Lemmas.Stability
import Verif.Props.DemosaicStokes
import Verif.Props.Congrid
import Mathlib.Analysis.Complex.Norm

/-!
# C112: errors of pixels are not amplified

Two sessions make the same calls on arrays that differ by at most so much at every pixel.
-/

set_option autoImplicit false

namespace Micropol

open Finset

/-! ## Single calls, at any point of any two sessions -/

/-- C112: `rebin(b)` multiplies differences of pixels by at most `b²`. -/
theorem C112_rebin (ops ops' : List Op) (i i' k k' n n' : Nat) (b : Int) (hk : (runOps ops).images[i]? = some k)
    (hk' : (runOps ops').images[i']? = some k') (hn : Returns ops (.rebin i b) n) (hn' : Returns ops' (.rebin i' b) n') (ε : ℝ)
    (h : PxWithin ε ((runOps ops).data k) ((runOps ops').data k')) :
    PxWithin ((b : ℝ) ^ 2 * ε) ((runOps (ops ++ [.rebin i b])).data n) ((runOps (ops' ++ [.rebin i' b])).data n') := by
  obtain ⟨m, hm, e, hs, hp⟩ := C77_rebin ops i k n b hk hn
  obtain ⟨m', hm', e', hs', hp'⟩ := C77_rebin ops' i' k' n' b hk' hn'
  have : m' = m := by omega
  subst this
  subst e
  refine ⟨⟨by rw [hs.1, hs'.1, h.1.1], by rw [hs.2, hs'.2, h.1.2]⟩, fun y x hy hx => ?_⟩
  rw [hp y x hy hx, hp' y x (by rw [hs'.1, ← h.1.1, ← hs.1]; exact hy) (by rw [hs'.2, ← h.1.2, ← hs.2]; exact hx)]
  rw [hs.1] at hy
  rw [hs.2] at hx
  exact_mod_cast familySum_within h hy hx

/-- C112: `shift` does not enlarge differences. -/
theorem C112_shift (ops ops' : List Op) (i i' k k' n n' : Nat) (y x : Int) (m : ℝ) (hk : (runOps ops).images[i]? = some k)
    (hk' : (runOps ops').images[i']? = some k') (hn : Returns ops (.shift i y x m) n) (hn' : Returns ops' (.shift i' y x m) n') (ε : ℝ)
    (hε : 0 ≤ ε) (h : PxWithin ε ((runOps ops).data k) ((runOps ops').data k')) :
    PxWithin ε ((runOps (ops ++ [.shift i y x m])).data n) ((runOps (ops' ++ [.shift i' y x m])).data n') :=
  shift_within hε h (C77_shift ops i k n y x m hk hn) (C77_shift ops' i' k' n' y x m hk' hn')

/-- C112: hot pixel cleaning (with scipy's filter, and the same flags) does not enlarge differences. -/
theorem C112_hot_pixels (ops ops' : List Op) (i i' j j' k k' l l' n n' : Nat) (hk : (runOps ops).images[i]? = some k)
    (hk' : (runOps ops').images[i']? = some k') (hl : (runOps ops).images[j]? = some l) (hl' : (runOps ops').images[j']? = some l')
    (hs : ((runOps ops).data k).SameShape ((runOps ops).data l)) (hF : PxWithin 0 ((runOps ops).data l) ((runOps ops').data l'))
    (hn : Returns ops (.cleanHotPixels i j (medianFilter 2)) n) (hn' : Returns ops' (.cleanHotPixels i' j' (medianFilter 2)) n') (ε : ℝ)
    (h : PxWithin ε ((runOps ops).data k) ((runOps ops').data k')) :
    PxWithin ε ((runOps (ops ++ [.cleanHotPixels i j (medianFilter 2)])).data n)
      ((runOps (ops' ++ [.cleanHotPixels i' j' (medianFilter 2)])).data n') := by
  have hs' : ((runOps ops').data k').SameShape ((runOps ops').data l') :=
    ⟨by rw [← h.1.1, hs.1, hF.1.1], by rw [← h.1.2, hs.2, hF.1.2]⟩
  obtain ⟨c1, c2⟩ := C77_hot_pixels ops i j k l n (medianFilter 2) (medianFilter_shape 2) hk hl hs hn
  obtain ⟨d1, d2⟩ := C77_hot_pixels ops' i' j' k' l' n' (medianFilter 2) (medianFilter_shape 2) hk' hl' hs' hn'
  refine ⟨⟨by rw [c1.1, d1.1, h.1.1], by rw [c1.2, d1.2, h.1.2]⟩, fun y x hy hx => ?_⟩
  rw [c1.1] at hy
  rw [c1.2] at hx
  have hE : EvenImg ((runOps ops).data k) := even_named hk
  rw [c2 y x hy hx, d2 y x (h.1.1 ▸ hy) (h.1.2 ▸ hx), ← hF.zero (hs.1 ▸ hy) (hs.2 ▸ hx)]
  split
  · have hf := family_within hE h (a := y % 2) (b := x % 2) (by omega) (by omega)
    refine median_within hf ?_ ?_
    · show y / 2 < ((runOps ops).data k).h / 2
      have := hE.1
      omega
    · show x / 2 < ((runOps ops).data k).w / 2
      have := hE.2
      omega
  · exact h.2 y x hy hx

/-- C112: the errors of a sum or a difference of images add up. -/
theorem C112_sum (ops ops' : List Op) (op : Arith) (hop : op = .add ∨ op = .sub) (i i' j j' k k' l l' n n' : Nat)
    (junk junk' : Nat → Nat → ℝ) (hk : (runOps ops).images[i]? = some k)
    (hk' : (runOps ops').images[i']? = some k') (hl : (runOps ops).images[j]? = some l) (hl' : (runOps ops').images[j']? = some l')
    (hn : Returns ops (.arithImage op i j junk) n) (hn' : Returns ops' (.arithImage op i' j' junk') n') (ε δ : ℝ)
    (h : PxWithin ε ((runOps ops).data k) ((runOps ops').data k')) (hj : PxWithin δ ((runOps ops).data l) ((runOps ops').data l')) :
    PxWithin (ε + δ) ((runOps (ops ++ [.arithImage op i j junk])).data n) ((runOps (ops' ++ [.arithImage op i' j' junk'])).data n') := by
  obtain ⟨s1, c1, c2⟩ := C39_session_images ops op i j k l n junk hk hl hn
  obtain ⟨t1, d1, d2⟩ := C39_session_images ops' op i' j' k' l' n' junk' hk' hl' hn'
  refine ⟨⟨by rw [c1.1, d1.1, h.1.1], by rw [c1.2, d1.2, h.1.2]⟩, fun y x hy hx => ?_⟩
  rw [c1.1] at hy
  rw [c1.2] at hx
  have k1 := abs_le.1 (h.2 y x hy hx)
  have k2 := abs_le.1 (hj.2 y x (s1.1 ▸ hy) (s1.2 ▸ hx))
  rcases hop with rfl | rfl
  · rw [c2 y x hy hx trivial, d2 y x (h.1.1 ▸ hy) (h.1.2 ▸ hx) trivial, abs_le]
    show _ ≤ _ + _ - (_ + _) ∧ _ + _ - (_ + _) ≤ _
    constructor <;> linarith [k1.1, k1.2, k2.1, k2.2]
  · rw [c2 y x hy hx trivial, d2 y x (h.1.1 ▸ hy) (h.1.2 ▸ hx) trivial, abs_le]
    show _ ≤ _ - _ - (_ - _) ∧ _ - _ - (_ - _) ≤ _
    constructor <;> linarith [k1.1, k1.2, k2.1, k2.2]

/-- How much arithmetic with the number `c` enlarges differences. -/
noncomputable def numberFactor (op : Arith) (c : ℝ) : ℝ :=
  match op with
  | .add => 1
  | .sub => 1
  | .mul => |c|
  | .div => 1 / |c|

/-- C112: adding a number leaves the errors as they are, multiplying by `c` multiplies them by `|c|`. -/
theorem C112_number (ops ops' : List Op) (op : Arith) (i i' k k' n n' : Nat) (c : ℝ) (hc : op = .div → c ≠ 0)
    (junk junk' : Nat → Nat → ℝ) (hk : (runOps ops).images[i]? = some k) (hk' : (runOps ops').images[i']? = some k')
    (hn : Returns ops (.arithNumber op i c junk) n) (hn' : Returns ops' (.arithNumber op i' c junk') n') (ε : ℝ)
    (h : PxWithin ε ((runOps ops).data k) ((runOps ops').data k')) :
    PxWithin (numberFactor op c * ε) ((runOps (ops ++ [.arithNumber op i c junk])).data n)
      ((runOps (ops' ++ [.arithNumber op i' c junk'])).data n') := by
  obtain ⟨c1, c2⟩ := C39_session_numbers ops op i k n c junk hk hn
  obtain ⟨d1, d2⟩ := C39_session_numbers ops' op i' k' n' c junk' hk' hn'
  refine ⟨⟨by rw [c1.1, d1.1, h.1.1], by rw [c1.2, d1.2, h.1.2]⟩, fun y x hy hx => ?_⟩
  rw [c1.1] at hy
  rw [c1.2] at hx
  have hd : op.Defined c := by
    cases op
    · trivial
    · trivial
    · trivial
    · exact hc rfl
  have k1 := h.2 y x hy hx
  rw [c2 y x hy hx hd, d2 y x (h.1.1 ▸ hy) (h.1.2 ▸ hx) hd]
  cases op
  · show |_ + c - (_ + c)| ≤ 1 * ε
    rwa [add_sub_add_right_eq_sub, one_mul]
  · show |_ - c - (_ - c)| ≤ 1 * ε
    rwa [sub_sub_sub_cancel_right, one_mul]
  · show |_ * c - _ * c| ≤ |c| * ε
    rw [← sub_mul, abs_mul, mul_comm]
    exact mul_le_mul_of_nonneg_left k1 (abs_nonneg _)
  · show |_ / c - _ / c| ≤ 1 / |c| * ε
    rw [← sub_div, abs_div, one_div_mul_eq_div]
    exact div_le_div_of_nonneg_right k1 (abs_nonneg _)

/-- C112: dark subtraction adds the errors of the frame and of the dark; clipping at zero adds nothing. -/
theorem C112_dark (ops ops' : List Op) (i i' j j' k k' l l' n n' : Nat) (hk : (runOps ops).images[i]? = some k)
    (hk' : (runOps ops').images[i']? = some k') (hl : (runOps ops).images[j]? = some l) (hl' : (runOps ops').images[j']? = some l')
    (hn : Returns ops (.subtractDark i j) n) (hn' : Returns ops' (.subtractDark i' j') n') (ε δ : ℝ)
    (h : PxWithin ε ((runOps ops).data k) ((runOps ops').data k')) (hj : PxWithin δ ((runOps ops).data l) ((runOps ops').data l')) :
    PxWithin (ε + δ) ((runOps (ops ++ [.subtractDark i j])).data k) ((runOps (ops' ++ [.subtractDark i' j'])).data k') := by
  obtain ⟨-, s1, c1, c2⟩ := C77_dark ops i j k l n hk hl hn
  obtain ⟨-, t1, d1, d2⟩ := C77_dark ops' i' j' k' l' n' hk' hl' hn'
  refine ⟨⟨by rw [c1.1, d1.1, h.1.1], by rw [c1.2, d1.2, h.1.2]⟩, fun y x hy hx => ?_⟩
  rw [c1.1] at hy
  rw [c1.2] at hx
  have k1 := abs_le.1 (h.2 y x hy hx)
  have k2 := abs_le.1 (hj.2 y x (s1.1 ▸ hy) (s1.2 ▸ hx))
  rw [c2 y x hy hx, d2 y x (h.1.1 ▸ hy) (h.1.2 ▸ hx)]
  refine (abs_max_sub_max_le_abs _ _ _).trans ?_
  rw [abs_le]
  constructor <;> linarith [k1.1, k1.2, k2.1, k2.2]

/-- C112: IFOV correction does not enlarge differences. -/
theorem C112_ifov (ops ops' : List Op) (i i' k k' n n' : Nat) (hk : (runOps ops).images[i]? = some k)
    (hk' : (runOps ops').images[i']? = some k') (hn : Returns ops (.correctIfov i) n) (hn' : Returns ops' (.correctIfov i') n') (ε : ℝ)
    (hε : 0 ≤ ε) (h : PxWithin ε ((runOps ops).data k) ((runOps ops').data k')) :
    PxWithin ε ((runOps (ops ++ [.correctIfov i])).data k) ((runOps (ops' ++ [.correctIfov i'])).data k') := by
  obtain ⟨-, c1, c2⟩ := C77_ifov ops i k n hk hn
  obtain ⟨-, d1, d2⟩ := C77_ifov ops' i' k' n' hk' hn'
  refine ⟨⟨by rw [c1.1, d1.1, h.1.1], by rw [c1.2, d1.2, h.1.2]⟩, fun y x hy hx => ?_⟩
  rw [c1.1] at hy
  rw [c1.2] at hx
  obtain ⟨a1, a2⟩ := c2 y x hy hx
  obtain ⟨b1, b2⟩ := d2 y x (h.1.1 ▸ hy) (h.1.2 ▸ hx)
  by_cases hc : y < 2 ∨ x < 2
  · rw [a1 hc, b1 hc, sub_self, abs_zero]
    exact hε
  · push Not at hc
    rw [a2 hc.1 hc.2, b2 hc.1 hc.2, abs_le]
    have k1 := abs_le.1 (h.2 y x hy hx)
    have k2 := abs_le.1 (h.2 (y - 2) x (by omega) hx)
    have k3 := abs_le.1 (h.2 y (x - 2) hy (by omega))
    have k4 := abs_le.1 (h.2 (y - 2) (x - 2) (by omega) (by omega))
    constructor <;> linarith [k1.1, k1.2, k2.1, k2.2, k3.1, k3.2, k4.1, k4.2]

/-- C112: flat correction with the same flat multiplies differences by at most the largest gain of the flat. -/
theorem C112_flat (ops ops' : List Op) (i i' j j' k k' l l' n n' : Nat) (junk junk' : Nat → Nat → ℝ)
    (hk : (runOps ops).images[i]? = some k)
    (hk' : (runOps ops').images[i']? = some k') (hl : (runOps ops).images[j]? = some l) (hl' : (runOps ops').images[j']? = some l')
    (hn : Returns ops (.correctFlat i j junk) n) (hn' : Returns ops' (.correctFlat i' j' junk') n') (ε G : ℝ)
    (h : PxWithin ε ((runOps ops).data k) ((runOps ops').data k')) (hF : (runOps ops').data l' = (runOps ops).data l)
    (hm : ((runOps ops).data l).mean ≠ 0)
    (hG : ∀ y x, y < ((runOps ops).data l).h → x < ((runOps ops).data l).w → ((runOps ops).data l).px y x ≠ 0 ∧
      |((runOps ops).data l).mean| ≤ G * |((runOps ops).data l).px y x|) :
    PxWithin (G * ε) ((runOps (ops ++ [.correctFlat i j junk])).data k) ((runOps (ops' ++ [.correctFlat i' j' junk'])).data k') := by
  obtain ⟨-, s1, c1, c2⟩ := C77_flat ops i j k l n junk hk hl hn
  obtain ⟨-, t1, d1, d2⟩ := C77_flat ops' i' j' k' l' n' junk' hk' hl' hn'
  rw [hF] at d2
  refine ⟨⟨by rw [c1.1, d1.1, h.1.1], by rw [c1.2, d1.2, h.1.2]⟩, fun y x hy hx => ?_⟩
  rw [c1.1] at hy
  rw [c1.2] at hx
  obtain ⟨g0, g1⟩ := hG y x (s1.1 ▸ hy) (s1.2 ▸ hx)
  rw [c2 y x hy hx hm g0, d2 y x (h.1.1 ▸ hy) (h.1.2 ▸ hx) hm g0, ← sub_div, ← sub_mul, abs_div, abs_mul,
    div_le_iff₀ (abs_pos.2 g0)]
  have k1 := h.2 y x hy hx
  calc |((runOps ops).data k).px y x - ((runOps ops').data k').px y x| * |((runOps ops).data l).mean|
      ≤ ε * (G * |((runOps ops).data l).px y x|) := mul_le_mul k1 g1 (abs_nonneg _) ((abs_nonneg _).trans k1)
    _ = _ := by ring

/-- C112: demodulation multiplies differences of pixels by at most the largest row sum of the tensor; where no fit was found the maps
keep their differences. -/
theorem C112_demodulate (ops ops' : List Op) (i i' k k' n n' : Nat) (D : Demodulator ℝ) (flags : Img ℝ)
    (hflags : D.fitFoundFlags = some flags) (hk : (runOps ops).images[i]? = some k) (hk' : (runOps ops').images[i']? = some k')
    (hn : Returns ops (.demodulate i D false) n) (hn' : Returns ops' (.demodulate i' D false) n')
    (hD : D.Fits ((runOps ops).data k))
    (hS : ∀ q, ((runOps ops).stokes k q).HasShape (((runOps ops).data k).h / 2) (((runOps ops).data k).w / 2)) (ε η K : ℝ)
    (h : PxWithin ε ((runOps ops).data k) ((runOps ops').data k'))
    (hmaps : ∀ q, PxWithin η ((runOps ops).stokes k q) ((runOps ops').stokes k' q))
    (hK : ∀ q y x, y < ((runOps ops).data k).h / 2 → x < ((runOps ops).data k).w / 2 → ∑ c, |(D.mij q c).px y x| ≤ K) (q : Fin 3) :
    PxWithin (max (K * ε) η) ((runOps (ops ++ [.demodulate i D false])).stokes n q)
      ((runOps (ops' ++ [.demodulate i' D false])).stokes n' q) := by
  obtain ⟨-, c⟩ := C77_demodulate ops i k n D flags hflags hk hn hD hS
  have hD' : D.Fits ((runOps ops').data k') := by
    unfold Demodulator.Fits at hD ⊢
    rw [← h.1.1, ← h.1.2]
    exact hD
  obtain ⟨-, d⟩ := C77_demodulate ops' i' k' n' D flags hflags hk' hn' hD' fun q => by
    rw [← h.1.1, ← h.1.2]
    exact ⟨(hmaps q).1.1 ▸ (hS q).1, (hmaps q).1.2 ▸ (hS q).2⟩
  have hE : EvenImg ((runOps ops).data k) := even_named hk
  refine ⟨⟨by rw [(c q).1.1, (d q).1.1, h.1.1], by rw [(c q).1.2, (d q).1.2, h.1.2]⟩, fun y x hy hx => ?_⟩
  rw [(c q).1.1] at hy
  rw [(c q).1.2] at hx
  rw [(c q).2 y x hy hx, (d q).2 y x (h.1.1 ▸ hy) (h.1.2 ▸ hx)]
  split
  · refine le_trans ?_ (le_max_left _ _)
    have k1 := h.2 (2 * y) (2 * x) (by omega) (by omega)
    have k2 := h.2 (2 * y) (2 * x + 1) (by omega) (by omega)
    have k3 := h.2 (2 * y + 1) (2 * x) (by omega) (by omega)
    have k4 := h.2 (2 * y + 1) (2 * x + 1) (by omega) (by omega)
    have hε : 0 ≤ ε := (abs_nonneg _).trans k1
    have hrow := hK q y x hy hx
    rw [Fin.sum_univ_four] at hrow
    have bound : ∀ m a b : ℝ, |a - b| ≤ ε → |m * a - m * b| ≤ |m| * ε := fun m a b hab => by
      rw [← mul_sub, abs_mul]
      exact mul_le_mul_of_nonneg_left hab (abs_nonneg _)
    have q1 := abs_le.1 (bound ((D.mij q 0).px y x) _ _ k1)
    have q2 := abs_le.1 (bound ((D.mij q 1).px y x) _ _ k2)
    have q3 := abs_le.1 (bound ((D.mij q 2).px y x) _ _ k3)
    have q4 := abs_le.1 (bound ((D.mij q 3).px y x) _ _ k4)
    have hb := mul_le_mul_of_nonneg_right hrow hε
    rw [abs_le]
    constructor <;> linarith [q1.1, q1.2, q2.1, q2.2, q3.1, q3.2, q4.1, q4.2]
  · exact ((hmaps q).2 y x (by rw [(hS q).1]; exact hy) (by rw [(hS q).2]; exact hx)).trans (le_max_right _ _)

/-- Bilinear interpolation of arrays that differ by at most `ε`, at the same point. -/
theorem bilinear_within {ε : ℝ} {A B : Img ℝ} (h : PxWithin ε A B) {u w v v' : ℝ} (hA : IsBilinear A u w v) (hB : IsBilinear B u w v') :
    |v - v'| ≤ ε := by
  obtain ⟨y, x, s, t, hy, hx, s0, s1, t0, t1, hu, hw, rfl⟩ := hA
  have : v' = (1 - s) * ((1 - t) * B.px y x + t * B.px y (x + 1)) + s * ((1 - t) * B.px (y + 1) x + t * B.px (y + 1) (x + 1)) :=
    C70_bilinear_unique hB ⟨y, x, s, t, h.1.1 ▸ hy, h.1.2 ▸ hx, s0, s1, t0, t1, hu, hw, rfl⟩
  subst this
  have k1 := abs_le.1 (h.2 y x (by omega) (by omega))
  have k2 := abs_le.1 (h.2 y (x + 1) (by omega) hx)
  have k3 := abs_le.1 (h.2 (y + 1) x hy (by omega))
  have k4 := abs_le.1 (h.2 (y + 1) (x + 1) hy hx)
  have s1' : 0 ≤ 1 - s := by linarith
  have t1' : 0 ≤ 1 - t := by linarith
  rw [abs_le]
  constructor
  · nlinarith [mul_le_mul_of_nonneg_left k1.1 (mul_nonneg s1' t1'), mul_le_mul_of_nonneg_left k2.1 (mul_nonneg s1' t0),
      mul_le_mul_of_nonneg_left k3.1 (mul_nonneg s0 t1'), mul_le_mul_of_nonneg_left k4.1 (mul_nonneg s0 t0)]
  · nlinarith [mul_le_mul_of_nonneg_left k1.2 (mul_nonneg s1' t1'), mul_le_mul_of_nonneg_left k2.2 (mul_nonneg s1' t0),
      mul_le_mul_of_nonneg_left k3.2 (mul_nonneg s0 t1'), mul_le_mul_of_nonneg_left k4.2 (mul_nonneg s0 t0)]

/-- C112: resampling with `congrid` does not enlarge differences. -/
theorem C112_congrid (ops ops' : List Op) (i i' k k' n n' newY newX : Nat) (hk : (runOps ops).images[i]? = some k)
    (hk' : (runOps ops').images[i']? = some k') (hn : Returns ops (.congrid i newY newX) n) (hn' : Returns ops' (.congrid i' newY newX) n')
    (hA : 4 ≤ ((runOps ops).data k).h ∧ 4 ≤ ((runOps ops).data k).w) (hY : 4 ≤ newY) (hX : 4 ≤ newX) (ε : ℝ)
    (h : PxWithin ε ((runOps ops).data k) ((runOps ops').data k')) :
    PxWithin ε ((runOps (ops ++ [.congrid i newY newX])).data n) ((runOps (ops' ++ [.congrid i' newY newX])).data n') := by
  obtain ⟨c1, c2⟩ := C77_congrid ops i k n newY newX hk hn hA hY hX
  obtain ⟨d1, d2⟩ := C77_congrid ops' i' k' n' newY newX hk' hn' ⟨h.1.1 ▸ hA.1, h.1.2 ▸ hA.2⟩ hY hX
  have hE : EvenImg ((runOps ops).data k) := even_named hk
  refine ⟨⟨by rw [c1.1, d1.1], by rw [c1.2, d1.2]⟩, fun y x hy hx => ?_⟩
  rw [c1.1] at hy
  rw [c1.2] at hx
  obtain ⟨-, -, p1⟩ := c2 (y % 2) (x % 2) (by omega) (by omega)
  obtain ⟨-, -, p2⟩ := d2 (y % 2) (x % 2) (by omega) (by omega)
  have hw := family_within hE h (a := y % 2) (b := x % 2) (by omega) (by omega)
  have hy2 : y / 2 < newY / 2 := by omega
  have hx2 : x / 2 < newX / 2 := by omega
  have q1 := p1 (y / 2) (x / 2) hy2 hx2
  have q2 := p2 (y / 2) (x / 2) hy2 hx2
  rw [← hw.1.1, ← hw.1.2] at q2
  have := bilinear_within hw q1 q2
  unfold Img.family at this
  rw [Img.ofFn_px (by rw [c1.1]; omega) (by rw [c1.2]; omega), Img.ofFn_px (by rw [d1.1]; omega) (by rw [d1.2]; omega),
    show 2 * (y / 2) + y % 2 = y by omega, show 2 * (x / 2) + x % 2 = x by omega] at this
  exact this

/-- C112: after demosaicing, in either mode, I, Q and U differ by at most `2 ε`. -/
theorem C112_demosaic (ops ops' : List Op) (i i' k k' n n' : Nat) (mode : String) (hk : (runOps ops).images[i]? = some k)
    (hk' : (runOps ops').images[i']? = some k') (hn : Returns ops (.demosaic i mode) n) (hn' : Returns ops' (.demosaic i' mode) n')
    (L : Layout) (hL : L.Describes ((runOps ops).dic k)) (hdic : (runOps ops').dic k' = (runOps ops).dic k) (ε : ℝ)
    (h : PxWithin ε ((runOps ops).data k) ((runOps ops').data k')) (q : Fin 3) :
    PxWithin (2 * ε) ((runOps (ops ++ [.demosaic i mode])).stokes k q) ((runOps (ops' ++ [.demosaic i' mode])).stokes k' q) := by
  have hE : EvenImg ((runOps ops).data k) := even_named hk
  rcases (C99_returns ops i k hk L hL mode).1 ⟨n, hn⟩ with rfl | rfl
  · obtain ⟨-, -, S, hS, c⟩ := C99_mean ops i k n hk hn L hL
    obtain ⟨-, -, T, hT, d⟩ := C99_mean ops' i' k' n' hk' hn' L (hdic ▸ hL)
    rw [hdic] at hT
    have hst := dataStokes_within h hS hT q
    refine ⟨⟨by rw [(c q).1.1, (d q).1.1, h.1.1], by rw [(c q).1.2, (d q).1.2, h.1.2]⟩, fun y x hy hx => ?_⟩
    rw [(c q).1.1] at hy
    rw [(c q).1.2] at hx
    have hh := dataStokes_half hS q
    have e1 := (c q).2 (y / 2) (x / 2) (y % 2) (x % 2) (by have := hE.1; omega) (by have := hE.2; omega) (by omega) (by omega)
    have e2 := (d q).2 (y / 2) (x / 2) (y % 2) (x % 2) (by rw [← h.1.1]; have := hE.1; omega) (by rw [← h.1.2]; have := hE.2; omega)
      (by omega) (by omega)
    rw [show 2 * (y / 2) + y % 2 = y by omega, show 2 * (x / 2) + x % 2 = x by omega] at e1 e2
    rw [e1, e2]
    have k1 := abs_le.1 (hst.2 (y / 2) (x / 2) (by rw [hh.1]; have := hE.1; omega) (by rw [hh.2]; have := hE.2; omega))
    rw [abs_le]
    constructor <;> linarith [k1.1, k1.2]
  · obtain ⟨-, -, S, hS, c⟩ := C99_adjacent ops i k n hk hn L hL
    obtain ⟨-, -, T, hT, d⟩ := C99_adjacent ops' i' k' n' hk' hn' L (hdic ▸ hL)
    rw [hdic] at hT
    have hst := dataStokes_within h hS hT q
    refine ⟨⟨by rw [(c q).1.1, (d q).1.1, h.1.1], by rw [(c q).1.2, (d q).1.2, h.1.2]⟩, fun y x hy hx => ?_⟩
    rw [(c q).1.1] at hy
    rw [(c q).1.2] at hx
    have hh := dataStokes_half hS q
    have hY : y / 2 < (S q).h := by rw [hh.1]; have := hE.1; omega
    have hX : x / 2 < (S q).w := by rw [hh.2]; have := hE.2; omega
    have e1 := ((c q).2 (y / 2) (x / 2) (by have := hE.1; omega) (by have := hE.2; omega)).2 (y % 2) (x % 2) (by omega) (by omega)
    have e2 := ((d q).2 (y / 2) (x / 2) (by rw [← h.1.1]; have := hE.1; omega) (by rw [← h.1.2]; have := hE.2; omega)).2
      (y % 2) (x % 2) (by omega) (by omega)
    rw [show 2 * (y / 2) + y % 2 = y by omega, show 2 * (x / 2) + x % 2 = x by omega] at e1 e2
    rw [e1, e2]
    unfold bilinear
    rw [← hst.1.1, ← hst.1.2, ← sub_div, abs_div, div_le_iff₀ (by positivity)]
    have := abs_sum_sub_le (range (y % 2 + 1))
      (fun a => ∑ b ∈ range (x % 2 + 1), (S q).px (min (y / 2 + a) ((S q).h - 1)) (min (x / 2 + b) ((S q).w - 1)))
      (fun a => ∑ b ∈ range (x % 2 + 1), (T q).px (min (y / 2 + a) ((S q).h - 1)) (min (x / 2 + b) ((S q).w - 1)))
      (((x % 2 + 1 : Nat) : ℝ) * (2 * ε)) (by
        intro a _
        have := abs_sum_sub_le (range (x % 2 + 1))
          (fun b => (S q).px (min (y / 2 + a) ((S q).h - 1)) (min (x / 2 + b) ((S q).w - 1)))
          (fun b => (T q).px (min (y / 2 + a) ((S q).h - 1)) (min (x / 2 + b) ((S q).w - 1))) (2 * ε) (fun b _ =>
            hst.2 _ _ (by omega) (by omega))
        rwa [card_range] at this)
    rw [card_range] at this
    refine this.trans (le_of_eq ?_)
    rw [abs_of_nonneg (by positivity)]
    push_cast
    ring

/-! ## Polarization -/

theorem pB_within {q u q' u' η : ℝ} (hq : |q - q'| ≤ η) (hu : |u - u'| ≤ η) :
    |Real.sqrt (q * q + u * u) - Real.sqrt (q' * q' + u' * u')| ≤ Real.sqrt 2 * η := by
  have e : ∀ a b : ℝ, Real.sqrt (a * a + b * b) = ‖(⟨a, b⟩ : ℂ)‖ := fun a b => by
    rw [Complex.norm_def, Complex.normSq_mk]
  rw [e, e]
  refine (abs_norm_sub_norm_le _ _).trans ?_
  have hsub : (⟨q, u⟩ : ℂ) - ⟨q', u'⟩ = ⟨q - q', u - u'⟩ := rfl
  rw [hsub, ← e]
  have hη : 0 ≤ η := (abs_nonneg _).trans hq
  rw [Real.sqrt_le_left (by positivity), mul_pow, Real.sq_sqrt (by norm_num)]
  have h1 := sq_le_sq' (by linarith [(abs_le.1 hq).1]) (abs_le.1 hq).2
  have h2 := sq_le_sq' (by linarith [(abs_le.1 hu).1]) (abs_le.1 hu).2
  nlinarith

/-- C112: if I, Q, U differ by at most `η`, the polarized brightness differs by at most `√2 η`, and the degree of polarization of a
pixel with light by at most `(√2 + DoLP) η / |I|`. -/
theorem C112_polarization (S T : Fin 3 → Img ℝ) (hS : SameShape S) (η : ℝ) (h : ∀ q, PxWithin η (S q) (T q)) (y x : Nat)
    (hy : y < (S 0).h) (hx : x < (S 0).w) :
    |(pB S).px y x - (pB T).px y x| ≤ Real.sqrt 2 * η ∧
    ∀ D E, DoLP S = .ok D → DoLP T = .ok E → (S 0).px y x ≠ 0 → (T 0).px y x ≠ 0 →
      |D.px y x - E.px y x| ≤ (Real.sqrt 2 + |E.px y x|) * η / |(S 0).px y x| := by
  have hT : SameShape T := fun k => ⟨by rw [← (h k).1.1, ← (h 0).1.1]; exact (hS k).1, by rw [← (h k).1.2, ← (h 0).1.2]; exact (hS k).2⟩
  have hyT : y < (T 0).h := (h 0).1.1 ▸ hy
  have hxT : x < (T 0).w := (h 0).1.2 ▸ hx
  have hP : |(pB S).px y x - (pB T).px y x| ≤ Real.sqrt 2 * η := by
    rw [pB_px hS hy hx, pB_px hT hyT hxT]
    exact pB_within ((h 1).2 y x (by rw [(hS 1).1]; exact hy) (by rw [(hS 1).2]; exact hx))
      ((h 2).2 y x (by rw [(hS 2).1]; exact hy) (by rw [(hS 2).2]; exact hx))
  refine ⟨hP, fun D E hD hE hI hJ => ?_⟩
  obtain ⟨D', e, -, -, f⟩ := C19_total S hS
  obtain ⟨E', e', -, -, f'⟩ := C19_total T hT
  have e1 : D' = D := Except.ok.inj (e.symm.trans hD)
  have e2 : E' = E := Except.ok.inj (e'.symm.trans hE)
  subst e1 e2
  rw [(f y x hy hx).2 hI, (f' y x hyT hxT).2 hJ]
  have key : (pB S).px y x / (S 0).px y x - (pB T).px y x / (T 0).px y x =
      ((pB S).px y x - (pB T).px y x - (pB T).px y x / (T 0).px y x * ((S 0).px y x - (T 0).px y x)) / (S 0).px y x := by
    field_simp
    ring
  rw [key, abs_div]
  refine div_le_div_of_nonneg_right ?_ (abs_nonneg _)
  refine (abs_sub _ _).trans ?_
  rw [abs_mul, add_mul]
  exact add_le_add hP (mul_le_mul_of_nonneg_left ((h 0).2 y x hy hx) (abs_nonneg _))

end Micropol
