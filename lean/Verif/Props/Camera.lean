import Verif.Model.Camera
import Verif.Props.Roi
import Mathlib.Tactic.Linarith

/-!
# C78: the occulter region of a camera

`PolarCam` has 1952 x 1952 pixels; its occulter is centred at row 919, column 941 and has a radius of 536 pixels.
-/

set_option autoImplicit false

namespace Micropol

noncomputable section

open Classical

/-- Distance of the pixel in row `y`, column `x` from the centre of the occulter of `PolarCam`. -/
def occulterDist (y x : ℝ) : ℝ := Real.sqrt ((y - 919) ^ 2 + (x - 941) ^ 2)

theorem shifted_distance {u v a b D d : ℝ} (hD : 0 ≤ D) (hd : 0 ≤ d) (h1 : D ^ 2 = u ^ 2 + v ^ 2)
    (h2 : d ^ 2 = (u + a) ^ 2 + (v + b) ^ 2) (ha : a ^ 2 ≤ 1) (hb : b ^ 2 ≤ 1) : d ≤ D + 3 / 2 := by
  have h3 : (a * u + b * v) ^ 2 ≤ (3 / 2 * D) ^ 2 := by
    have : (a * u + b * v) ^ 2 ≤ (a ^ 2 + b ^ 2) * (u ^ 2 + v ^ 2) := by nlinarith [sq_nonneg (a * v - b * u)]
    have h4 : (a ^ 2 + b ^ 2) * (u ^ 2 + v ^ 2) ≤ 2 * (u ^ 2 + v ^ 2) :=
      mul_le_mul_of_nonneg_right (by linarith) (by positivity)
    nlinarith
  have h5 : a * u + b * v ≤ 3 / 2 * D := (abs_le_of_sq_le_sq' h3 (by positivity)).2
  refine le_of_sq_le_sq ?_ (by positivity)
  nlinarith

/-- Distances on the half size grid are half the distances of the pixels, up to 3/2 pixels. -/
theorem half_distance (y x : Nat) {D : ℝ} (hD : 0 ≤ D)
    (h : D ^ 2 = (((y / 2 : Nat) : ℝ) - 459) ^ 2 + (((x / 2 : Nat) : ℝ) - 470) ^ 2) :
    occulterDist y x ≤ 2 * D + 3 / 2 ∧ 2 * D ≤ occulterDist y x + 3 / 2 := by
  have e : ∀ n : Nat, ∃ a : ℝ, (n : ℝ) = 2 * ((n / 2 : Nat) : ℝ) + a ∧ 0 ≤ a ∧ a ≤ 1 := by
    intro n
    refine ⟨((n % 2 : Nat) : ℝ), ?_, by positivity, ?_⟩
    · have : n = 2 * (n / 2) + n % 2 := by omega
      exact_mod_cast this
    · have : n % 2 ≤ 1 := by omega
      exact_mod_cast this
  obtain ⟨a, ha, ha0, ha1⟩ := e y
  obtain ⟨b, hb, hb0, hb1⟩ := e x
  have hd : occulterDist y x ^ 2 = ((y : ℝ) - 919) ^ 2 + ((x : ℝ) - 941) ^ 2 := by
    unfold occulterDist
    exact Real.sq_sqrt (by positivity)
  have hd0 : 0 ≤ occulterDist y x := Real.sqrt_nonneg _
  constructor
  · refine shifted_distance (u := 2 * (((y / 2 : Nat) : ℝ) - 459)) (v := 2 * (((x / 2 : Nat) : ℝ) - 470)) (a := a - 1)
      (b := b - 1) (by positivity) hd0 (by nlinarith) ?_ (by nlinarith) (by nlinarith)
    rw [hd, ha, hb]
    ring
  · refine shifted_distance (u := (y : ℝ) - 919) (v := (x : ℝ) - 941) (a := 1 - a)
      (b := 1 - b) hd0 (by positivity) hd ?_ (by nlinarith) (by nlinarith)
    rw [mul_pow, h, ha, hb]
    ring

theorem trunc_half_near (n : Int) : |2 * ((pyInt ((n : ℝ) / 2) : Int) : ℝ) - n| ≤ 1 := by
  obtain ⟨h1, h2, h3⟩ := pyInt_trunc ((n : ℝ) / 2)
  generalize pyInt ((n : ℝ) / 2) = m at *
  rcases le_total 0 (n : ℝ) with hn | hn
  · rw [abs_of_nonneg (by positivity : (0 : ℝ) ≤ n / 2)] at h1 h2
    have hm : (0 : ℝ) ≤ m ∨ (n : ℝ) = 0 := by
      by_contra hc
      push Not at hc
      have : 0 < (n : ℝ) := lt_of_le_of_ne hn (Ne.symm hc.2)
      nlinarith
    have hI : 0 ≤ n := by exact_mod_cast hn
    rcases hm with hm | hm
    · rw [abs_of_nonneg hm] at h1 h2
      have k1 : 2 * m ≤ n := by have : 2 * (m : ℝ) ≤ n := by linarith
                                exact_mod_cast this
      have k2 : n < 2 * m + 2 := by have : (n : ℝ) < 2 * m + 2 := by linarith
                                    exact_mod_cast this
      have k3 : |2 * m - n| ≤ 1 := by rw [abs_le]; omega
      exact_mod_cast k3
    · rw [hm] at h1 ⊢
      have : (m : ℝ) = 0 := by
        have := abs_nonneg (m : ℝ)
        exact abs_eq_zero.1 (by linarith)
      rw [this]; norm_num
  · rw [abs_of_nonpos (by linarith : (n : ℝ) / 2 ≤ 0)] at h1 h2
    have hm : (m : ℝ) ≤ 0 ∨ (n : ℝ) = 0 := by
      by_contra hc
      push Not at hc
      have : (n : ℝ) < 0 := lt_of_le_of_ne hn hc.2
      nlinarith
    rcases hm with hm | hm
    · rw [abs_of_nonpos hm] at h1 h2
      have k1 : n ≤ 2 * m := by have : (n : ℝ) ≤ 2 * m := by linarith
                                exact_mod_cast this
      have k2 : 2 * m < n + 2 := by have : 2 * (m : ℝ) < n + 2 := by linarith
                                    exact_mod_cast this
      have k3 : |2 * m - n| ≤ 1 := by rw [abs_le]; omega
      exact_mod_cast k3
    · rw [hm] at h1 ⊢
      have : (m : ℝ) = 0 := by
        have := abs_nonneg (m : ℝ)
        exact abs_eq_zero.1 (by linarith)
      rw [this]; norm_num

theorem trunc_nat {x : ℝ} {n : ℕ} (h0 : (n : ℝ) ≤ x) (h1 : x < n + 1) : IsTrunc x (n : ℤ) := by
  have hn : (0 : ℝ) ≤ n := Nat.cast_nonneg n
  refine ⟨?_, ?_, ?_⟩
  · rw [Int.cast_natCast, abs_of_nonneg hn, abs_of_nonneg (hn.trans h0)]
    exact h0
  · rw [Int.cast_natCast, abs_of_nonneg hn, abs_of_nonneg (hn.trans h0)]
    exact h1
  · rw [Int.cast_natCast]
    exact mul_nonneg hn (hn.trans h0)

/-! ## The mask -/

/-- C78: the mask of a camera with an even sensor has the size of the sensor and is true exactly on the superpixels of the ring
around the occulter position between the occulter radius plus `overoccult` and `rmax`, all halved without fractional part. -/
theorem C78_any_camera (cam : Camera) (hh : cam.hImage % 2 = 0) (hw : cam.wImage % 2 = 0) (y0 x0 r : Int)
    (hpos : cam.occulterPosLast = some (y0, x0, r)) (overoccult rmax cy cx r0 r1 : Int) (hy : IsTrunc ((y0 : ℝ) / 2) cy)
    (hx : IsTrunc ((x0 : ℝ) / 2) cx) (h0 : IsTrunc (((r + overoccult : Int) : ℝ) / 2) r0)
    (h1 : IsTrunc ((rmax : ℝ) / 2) r1) :
    ∃ M, cameraOcculterMask cam overoccult (some rmax) = .ok M ∧ M.h = cam.hImage ∧ M.w = cam.wImage ∧
      ∀ y x : Nat, y < cam.hImage → x < cam.wImage → (M.px y x = true ↔
        InRegion ((cy : ℝ), (cx : ℝ)) ((r0 : ℝ), (r1 : ℝ)) (0, 360) ((y / 2 : Nat) : ℝ) ((x / 2 : Nat) : ℝ)) := by
  obtain ⟨B, hB, hBh, hBw, hs⟩ := C46_superpixels (Img.const cam.hImage cam.wImage 1) hh hw
    ((y0 : ℝ), (x0 : ℝ)) (((r + overoccult : Int) : ℝ), (rmax : ℝ)) (0, 360) 0 cy cx r0 r1 hy hx h0 h1
  refine ⟨B.map (fun v => if v ≠ 0 then true else false), ?_, hBh, hBw, ?_⟩
  · unfold cameraOcculterMask
    rw [hpos]
    exact (congrArg (fun z => z >>= _) hB).trans rfl
  intro y x hy hx
  have hy' : y < B.h := by rw [hBh]; exact hy
  have hx' : x < B.w := by rw [hBw]; exact hx
  rw [Img.map_px _ _ hy' hx']
  obtain ⟨k1, k2⟩ := hs y x hy hx
  have e1 : (Img.const cam.hImage cam.wImage (1 : ℝ)).px y x = 1 := Img.ofFn_px hy hx
  by_cases hc : InRegion ((cy : ℝ), (cx : ℝ)) ((r0 : ℝ), (r1 : ℝ)) (0, 360) ((y / 2 : Nat) : ℝ) ((x / 2 : Nat) : ℝ)
  · rw [k1 hc, e1]
    simp [hc]
  · rw [k2 hc]
    simp [hc]

/-- C78: without `rmax` the ring of any camera ends at the smaller of the two coordinates of the occulter. -/
theorem C78_any_camera_default (cam : Camera) (y0 x0 r : Int) (hpos : cam.occulterPosLast = some (y0, x0, r))
    (overoccult : Int) : cameraOcculterMask cam overoccult none = cameraOcculterMask cam overoccult (some (min y0 x0)) := by
  unfold cameraOcculterMask
  rw [hpos]

/-- A camera with a sensor that is not square. -/
example : ∃ cam : Camera, cam.hImage % 2 = 0 ∧ cam.wImage % 2 = 0 ∧ cam.hImage ≠ cam.wImage ∧
    cam.occulterPosLast = some (9, 20, 4) ∧ IsTrunc (((9 : Int) : ℝ) / 2) 4 := by
  refine ⟨⟨20, 40, some (9, 20, 4)⟩, rfl, rfl, by decide, rfl, ?_⟩
  refine ⟨?_, ?_, ?_⟩ <;> norm_num [abs_of_pos]

/-- C78: the mask of `PolarCam` has the size of the sensor and is true exactly on the superpixels of the ring between the
occulter radius plus `overoccult` and `rmax`, all halved without fractional part; the four pixels of a superpixel agree. -/
theorem C78_mask (overoccult rmax r0 r1 : Int) (h0 : IsTrunc (((536 + overoccult : Int) : ℝ) / 2) r0)
    (h1 : IsTrunc ((rmax : ℝ) / 2) r1) :
    ∃ M, cameraOcculterMask polarCam overoccult (some rmax) = .ok M ∧ M.h = 1952 ∧ M.w = 1952 ∧
      ∀ y x : Nat, y < 1952 → x < 1952 → (M.px y x = true ↔
        InRegion (459, 470) ((r0 : ℝ), (r1 : ℝ)) (0, 360) ((y / 2 : Nat) : ℝ) ((x / 2 : Nat) : ℝ)) := by
  have := C78_any_camera polarCam (by decide) (by decide) 919 941 536 rfl overoccult rmax 459 470 r0 r1
    (trunc_nat (n := 459) (by norm_num) (by norm_num)) (trunc_nat (n := 470) (by norm_num) (by norm_num)) h0 h1
  have e : (((459 : Int) : ℝ), ((470 : Int) : ℝ)) = ((459 : ℝ), (470 : ℝ)) := by norm_num
  rw [e] at this
  exact this

/-- C78: in pixels: the mask is false on the occulter and beyond `rmax`, and true between, except within 5/2 pixels of the two
circles, where whole superpixels are decided together. -/
theorem C78_circles (overoccult rmax : Int) :
    ∃ M, cameraOcculterMask polarCam overoccult (some rmax) = .ok M ∧ M.h = 1952 ∧ M.w = 1952 ∧
      ∀ y x : Nat, y < 1952 → x < 1952 →
        (occulterDist y x ≤ 536 + overoccult - 5 / 2 → M.px y x = false) ∧
        (rmax + 5 / 2 < occulterDist y x → M.px y x = false) ∧
        (536 + overoccult + 5 / 2 < occulterDist y x → occulterDist y x ≤ rmax - 5 / 2 → M.px y x = true) := by
  obtain ⟨M, hM, hh, hw, hp⟩ := C78_mask overoccult rmax _ _ (pyInt_trunc _) (pyInt_trunc _)
  refine ⟨M, hM, hh, hw, ?_⟩
  intro y x hy hx
  have hp := hp y x hy hx
  rw [C47_whole_circle] at hp
  have k0 := abs_le.1 (trunc_half_near (536 + overoccult))
  have k1 := abs_le.1 (trunc_half_near rmax)
  have c0 : ((536 + overoccult : Int) : ℝ) = 536 + overoccult := by push_cast; ring
  generalize pyInt (((536 + overoccult : Int) : ℝ) / 2) = r0 at *
  generalize pyInt ((rmax : ℝ) / 2) = r1 at *
  rw [c0] at k0
  have hf : M.px y x = false ↔ ¬ (M.px y x = true) := by simp
  refine ⟨?_, ?_, ?_⟩
  · intro hd
    rw [hf, hp]
    rintro ⟨ρ, h0, h1, h2, -⟩
    have := (half_distance y x h0 h1).2
    dsimp only at h2
    linarith
  · intro hd
    rw [hf, hp]
    rintro ⟨ρ, h0, h1, -, h2⟩
    have := (half_distance y x h0 h1).1
    dsimp only at h2
    linarith
  · intro hd hd'
    rw [hp]
    have hnn : 0 ≤ (((y / 2 : Nat) : ℝ) - 459) ^ 2 + (((x / 2 : Nat) : ℝ) - 470) ^ 2 := by positivity
    refine ⟨Real.sqrt ((((y / 2 : Nat) : ℝ) - 459) ^ 2 + (((x / 2 : Nat) : ℝ) - 470) ^ 2), Real.sqrt_nonneg _,
      Real.sq_sqrt hnn, ?_⟩
    obtain ⟨g1, g2⟩ := half_distance y x (Real.sqrt_nonneg _) (Real.sq_sqrt hnn)
    dsimp only
    constructor <;> linarith

/-- The pixel in row 1500, column 941 is 581 pixels from the centre: outside the occulter, inside a ring up to 900. -/
example : occulterDist ((1500 : Nat) : ℝ) ((941 : Nat) : ℝ) = 581 := by
  unfold occulterDist
  rw [show (((1500 : Nat) : ℝ) - 919) ^ 2 + (((941 : Nat) : ℝ) - 941) ^ 2 = 581 ^ 2 by norm_num]
  exact Real.sqrt_sq (by norm_num)

example : ∃ M, cameraOcculterMask polarCam 10 (some 900) = .ok M ∧ M.px 1500 941 = true ∧ M.px 919 941 = false ∧
    M.px 0 0 = false := by
  obtain ⟨M, hM, -, -, hp⟩ := C78_circles 10 900
  refine ⟨M, hM, (hp 1500 941 (by norm_num) (by norm_num)).2.2 ?_ ?_, (hp 919 941 (by norm_num) (by norm_num)).1 ?_,
    (hp 0 0 (by norm_num) (by norm_num)).2.1 ?_⟩
  · unfold occulterDist
    exact Real.lt_sqrt_of_sq_lt (by norm_num)
  · unfold occulterDist
    exact Real.sqrt_le_iff.2 (by norm_num)
  · unfold occulterDist
    exact Real.sqrt_le_iff.2 (by norm_num)
  · unfold occulterDist
    exact Real.lt_sqrt_of_sq_lt (by norm_num)

/-- C78: without `rmax` the ring ends at 919, the radius of the largest circle around the occulter centre that stays on the
sensor. -/
theorem C78_default_rmax (overoccult : Int) :
    cameraOcculterMask polarCam overoccult none = cameraOcculterMask polarCam overoccult (some 919) ∧
    (∀ y x : Int, occulterDist y x ≤ 919 → 0 ≤ y ∧ y < 1952 ∧ 0 ≤ x ∧ x < 1952) ∧
    ∀ r : ℝ, (∀ y x : Int, occulterDist y x ≤ r → 0 ≤ y ∧ y < 1952 ∧ 0 ≤ x ∧ x < 1952) → r < 920 := by
  refine ⟨?_, ?_, ?_⟩
  · unfold cameraOcculterMask polarCam
    dsimp only
    rw [show min (919 : Int) 941 = 919 by decide]
  · intro y x h
    unfold occulterDist at h
    rw [Real.sqrt_le_iff] at h
    have h2 := h.2
    have hI : (y - 919) ^ 2 + (x - 941) ^ 2 ≤ 919 ^ 2 := by exact_mod_cast h2
    have a1 := abs_le_of_sq_le_sq' (show (y - 919) ^ 2 ≤ 919 ^ 2 by nlinarith [sq_nonneg (x - 941)]) (by norm_num)
    have a2 := abs_le_of_sq_le_sq' (show (x - 941) ^ 2 ≤ 919 ^ 2 by nlinarith [sq_nonneg (y - 919)]) (by norm_num)
    omega
  · intro r h
    by_contra hc
    push Not at hc
    have := h (-1) 941 (by
      unfold occulterDist
      refine le_trans (Real.sqrt_le_iff.2 ⟨by norm_num, ?_⟩) hc
      norm_num)
    omega

/-! ## The region of an image -/

/-- C78: on an image with even sides, `occulter_roi` keeps exactly the superpixels beyond the occulter radius plus `overoccult` and
within 2500 superpixels, and fills the others. -/
theorem C78_roi (A : Img ℝ) (hh : A.h % 2 = 0) (hw : A.w % 2 = 0) (fill : ℝ) (overoccult r0 : Int)
    (h0 : IsTrunc (((536 + overoccult : Int) : ℝ) / 2) r0) :
    ∃ B, cameraOcculterRoi polarCam A fill overoccult = .ok B ∧
      IsSelection A (fun y x => InRegion (459, 470) ((r0 : ℝ), 2500) (0, 360) ((y / 2 : Nat) : ℝ) ((x / 2 : Nat) : ℝ))
        fill B := by
  obtain ⟨B, hB, hs⟩ := C46_superpixels A hh hw
    (((919 : Int) : ℝ), ((941 : Int) : ℝ)) (((536 + overoccult : Int) : ℝ), 5000) (0, 360) fill 459 470 r0 2500
    (trunc_nat (n := 459) (by norm_num) (by norm_num)) (trunc_nat (n := 470) (by norm_num) (by norm_num)) h0
    (trunc_nat (n := 2500) (by norm_num) (by norm_num))
  refine ⟨B, hB, ?_⟩
  have e : (((459 : Int) : ℝ), ((470 : Int) : ℝ)) = ((459 : ℝ), (470 : ℝ)) := by norm_num
  have e' : (((2500 : Int) : ℝ)) = 2500 := by norm_num
  rw [e, e'] at hs
  exact hs

/-- C78: in pixels: the occulter is filled and every other pixel of an image of up to 3000 x 3000 pixels keeps its value, except
within 5/2 pixels of the edge, where whole superpixels are decided together. -/
theorem C78_roi_circle (A : Img ℝ) (hh : A.h % 2 = 0) (hw : A.w % 2 = 0) (h1 : A.h ≤ 3000) (h2 : A.w ≤ 3000) (fill : ℝ)
    (overoccult : Int) :
    ∃ B, cameraOcculterRoi polarCam A fill overoccult = .ok B ∧ B.h = A.h ∧ B.w = A.w ∧
      ∀ y x : Nat, y < A.h → x < A.w →
        (occulterDist y x ≤ 536 + overoccult - 5 / 2 → B.px y x = fill) ∧
        (536 + overoccult + 5 / 2 < occulterDist y x → B.px y x = A.px y x) := by
  obtain ⟨B, hB, k1, k2, hp⟩ := C78_roi A hh hw fill overoccult _ (pyInt_trunc _)
  refine ⟨B, hB, k1, k2, ?_⟩
  intro y x hy hx
  have hp := hp y x hy hx
  dsimp only at hp
  rw [C47_whole_circle] at hp
  have k0 := abs_le.1 (trunc_half_near (536 + overoccult))
  have c0 : ((536 + overoccult : Int) : ℝ) = 536 + overoccult := by push_cast; ring
  generalize pyInt (((536 + overoccult : Int) : ℝ) / 2) = r0 at *
  rw [c0] at k0
  constructor
  · intro hd
    apply hp.2
    rintro ⟨ρ, h0, h1, h2, -⟩
    have := (half_distance y x h0 h1).2
    dsimp only at h2
    linarith
  · intro hd
    apply hp.1
    have hnn : 0 ≤ (((y / 2 : Nat) : ℝ) - 459) ^ 2 + (((x / 2 : Nat) : ℝ) - 470) ^ 2 := by positivity
    refine ⟨Real.sqrt ((((y / 2 : Nat) : ℝ) - 459) ^ 2 + (((x / 2 : Nat) : ℝ) - 470) ^ 2), Real.sqrt_nonneg _,
      Real.sq_sqrt hnn, ?_, ?_⟩
    · obtain ⟨g1, g2⟩ := half_distance y x (Real.sqrt_nonneg _) (Real.sq_sqrt hnn)
      dsimp only
      linarith
    · dsimp only
      refine Real.sqrt_le_iff.2 ⟨by norm_num, ?_⟩
      have b1 : ((y / 2 : Nat) : ℝ) ≤ 1500 := by
        have : y / 2 ≤ 1500 := by omega
        exact_mod_cast this
      have b2 : ((x / 2 : Nat) : ℝ) ≤ 1500 := by
        have : x / 2 ≤ 1500 := by omega
        exact_mod_cast this
      have b3 : (0 : ℝ) ≤ ((y / 2 : Nat) : ℝ) := Nat.cast_nonneg _
      have b4 : (0 : ℝ) ≤ ((x / 2 : Nat) : ℝ) := Nat.cast_nonneg _
      have m1 : (((y / 2 : Nat) : ℝ) - 459) ^ 2 ≤ 1100 ^ 2 := by
        refine sq_le_sq' ?_ ?_ <;> linarith
      have m2 : (((x / 2 : Nat) : ℝ) - 470) ^ 2 ≤ 1100 ^ 2 := by
        refine sq_le_sq' ?_ ?_ <;> linarith
      linarith

example : (Img.const 1952 1952 (7 : ℝ)).h % 2 = 0 ∧ (Img.const 1952 1952 (7 : ℝ)).h ≤ 3000 := by decide

/-- C78: on larger images pixels far outside the occulter are lost as well: here the last pixel of a 2 x 7000 image. -/
theorem C78_far_pixels_lost (fill : ℝ) (hf : fill ≠ 7) :
    ∃ B, cameraOcculterRoi polarCam (Img.const 2 7000 7) fill 0 = .ok B ∧ 6000 < occulterDist ((1 : Nat) : ℝ) ((6999 : Nat) : ℝ) ∧
      B.px 1 6999 = fill ∧ B.px 1 6999 ≠ (Img.const 2 7000 (7 : ℝ)).px 1 6999 := by
  obtain ⟨B, hB, k1, k2, hp⟩ := C78_roi (Img.const 2 7000 7) (by decide) (by decide) fill 0 268
    (trunc_nat (n := 268) (by norm_num) (by norm_num))
  have h := (hp 1 6999 (by decide) (by decide)).2 (by
    dsimp only
    rw [C47_whole_circle]
    rintro ⟨ρ, h0, h1, -, h2⟩
    norm_num at h1 h2
    nlinarith)
  refine ⟨B, hB, ?_, h, ?_⟩
  · unfold occulterDist
    exact Real.lt_sqrt_of_sq_lt (by norm_num)
  · rw [h]
    have : (Img.const 2 7000 (7 : ℝ)).px 1 6999 = 7 := Img.ofFn_px (by decide) (by decide)
    rw [this]
    exact hf

/-- C78 violated for `Kasi`: both methods always raise `AttributeError`. -/
theorem C78_kasi_fails (A : Img ℝ) (fill : ℝ) (overoccult : Int) (rmax : Option Int) :
    cameraOcculterRoi kasi A fill overoccult = .error .attributeError ∧
    cameraOcculterMask kasi overoccult rmax = .error .attributeError := ⟨rfl, rfl⟩

end

end Micropol
