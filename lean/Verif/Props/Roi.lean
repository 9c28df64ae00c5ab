import Verif.Lemmas.Roi

/-!
# Polar selections

* C46: `roi_from_polar` selects the documented region.
* C47: regions compose.
* C49: the cache of `map_polar_coordinates`.
-/

set_option autoImplicit false

namespace Micropol

/-! ## C46 -/

/-- C46: the specification is well posed: every vector has exactly one pair of polar coordinates. -/
theorem C46_polar_coordinates (dy dx : ℝ) : ∃ ρ φ, IsPolar dy dx ρ φ ∧ ∀ ρ' φ', IsPolar dy dx ρ' φ' → ρ' = ρ ∧ φ' = φ :=
  ⟨_, _, computed_polar dy dx, fun _ _ h => polar_unique h (computed_polar dy dx)⟩

/-- C46: the half of a number without its fractional part exists and is unique. -/
theorem C46_trunc (x : ℝ) : ∃ n : ℤ, IsTrunc x n ∧ ∀ m, IsTrunc x m → m = n :=
  ⟨_, pyInt_trunc x, fun _ h => trunc_unique h (pyInt_trunc x)⟩

/-- C46: without superpixels, a pixel keeps its value exactly when it lies in the region, and is `fill` otherwise. -/
theorem C46_pixels (A : Img ℝ) (c r t : ℝ × ℝ) (fill : ℝ) :
    ∃ B, roiFromPolar A (some c) (some r) t fill false = .ok B ∧
      IsSelection A (fun y x => InRegion c r t y x) fill B := by
  unfold roiFromPolar roiMask
  dsimp only
  rw [if_neg (by decide), Py.ok_bind, npWhere_fill fill rfl rfl]
  refine ⟨_, rfl, rfl, rfl, ?_⟩
  intro y x hy hx
  rw [Img.ofFn_px hy hx]
  have := roiCondition_px A.h A.w c r t hy hx
  constructor
  · intro h
    rw [if_pos (this.2 h)]
  · intro h
    rw [if_neg (fun h' => h (this.1 h'))]

/-- C46: with superpixels the decision is taken for superpixel `(y / 2, x / 2)` on the half size grid, with centre and
radii halved and truncated; the four pixels of a superpixel therefore agree. -/
theorem C46_superpixels (A : Img ℝ) (hh : A.h % 2 = 0) (hw : A.w % 2 = 0) (c r t : ℝ × ℝ) (fill : ℝ)
    (cy cx r0 r1 : ℤ) (hcy : IsTrunc (c.1 / 2) cy) (hcx : IsTrunc (c.2 / 2) cx) (hr0 : IsTrunc (r.1 / 2) r0)
    (hr1 : IsTrunc (r.2 / 2) r1) :
    ∃ B, roiFromPolar A (some c) (some r) t fill true = .ok B ∧
      IsSelection A (fun y x => InRegion ((cy : ℝ), (cx : ℝ)) ((r0 : ℝ), (r1 : ℝ)) t ((y / 2 : Nat) : ℝ)
        ((x / 2 : Nat) : ℝ)) fill B := by
  rw [trunc_unique hcy (pyInt_trunc _), trunc_unique hcx (pyInt_trunc _), trunc_unique hr0 (pyInt_trunc _),
    trunc_unique hr1 (pyInt_trunc _)]
  unfold roiFromPolar roiMask
  dsimp only
  have e1 : 2 * (A.h / 2) = A.h := by omega
  have e2 : 2 * (A.w / 2) = A.w := by omega
  rw [if_pos rfl, Py.ok_bind, npWhere_fill fill (by exact e1) (by exact e2)]
  refine ⟨_, rfl, rfl, rfl, ?_⟩
  intro y x hy hx
  rw [Img.ofFn_px hy hx]
  unfold repeatTwice
  rw [show (roiCondition (A.h / 2) (A.w / 2) _ _ t).h = A.h / 2 from rfl,
    show (roiCondition (A.h / 2) (A.w / 2) _ _ t).w = A.w / 2 from rfl, Img.ofFn_px (by omega) (by omega)]
  have := roiCondition_px (A.h / 2) (A.w / 2) (((pyInt (c.1 / 2) : ℤ) : ℝ), ((pyInt (c.2 / 2) : ℤ) : ℝ))
    (((pyInt (r.1 / 2) : ℤ) : ℝ), ((pyInt (r.2 / 2) : ℤ) : ℝ)) t (y := y / 2) (x := x / 2) (by omega) (by omega)
  constructor
  · intro h
    rw [if_pos (this.2 h)]
  · intro h
    rw [if_neg (fun h' => h (this.1 h'))]

/-- C46: with superpixels an array with an odd side greater than 1 is rejected. -/
theorem C46_odd_rejected (A : Img ℝ) (h : (A.h % 2 = 1 ∧ 1 < A.h) ∨ (A.w % 2 = 1 ∧ 1 < A.w)) (c : Option (ℝ × ℝ)) (r t : ℝ × ℝ)
    (fill : ℝ) : roiFromPolar A c (some r) t fill true = .error .valueError := by
  unfold roiFromPolar roiMask
  dsimp only
  rw [if_pos rfl, Py.ok_bind]
  unfold npWhere
  have hb : ∀ a, bdim a 1 = .ok a := by
    intro a; unfold bdim; split_ifs <;> simp_all
  rw [show (Img.const 1 1 fill).h = 1 from rfl, show (Img.const 1 1 fill).w = 1 from rfl, hb, hb, Py.ok_bind, Py.ok_bind]
  generalize hM : repeatTwice _ = M
  have hMh : M.h = 2 * (A.h / 2) := by rw [← hM]; rfl
  have hMw : M.w = 2 * (A.w / 2) := by rw [← hM]; rfl
  have hodd : ∀ a : Nat, a % 2 = 1 → 1 < a → bdim (2 * (a / 2)) a = .error .valueError := by
    intro a h1 h2
    unfold bdim
    rw [if_neg (by omega), if_neg (by omega), if_neg (by omega)]
  rw [hMh, hMw]
  cases hy : bdim (2 * (A.h / 2)) A.h with
  | error e =>
    have : e = .valueError := by
      unfold bdim at hy
      split_ifs at hy <;> cases hy
      rfl
    rw [this]
    rfl
  | ok n =>
    rcases h with h | h
    · rw [hodd _ h.1 h.2] at hy
      cases hy
    · rw [Py.ok_bind, hodd _ h.1 h.2]
      rfl

/-- C46, violated at the centre: with a ring that starts at radius 0 (or further out) the pixel at the centre is always filled, and
with superpixels the four pixels of the superpixel at the halved centre are. -/
theorem C46_centre_filled (A : Img ℝ) (y0 x0 : Nat) (hy : y0 < A.h) (hx : x0 < A.w) (r t : ℝ × ℝ) (hr : 0 ≤ r.1) (fill : ℝ) :
    (∃ B, roiFromPolar A (some ((y0 : ℝ), (x0 : ℝ))) (some r) t fill false = .ok B ∧ B.px y0 x0 = fill) ∧
    (A.h % 2 = 0 → A.w % 2 = 0 → ∃ B, roiFromPolar A (some ((y0 : ℝ), (x0 : ℝ))) (some r) t fill true = .ok B ∧
      ∀ a b, a < 2 → b < 2 → B.px (2 * (y0 / 2) + a) (2 * (x0 / 2) + b) = fill) := by
  have hout : ∀ (p q : ℝ) (s : ℝ × ℝ), 0 ≤ s.1 → ¬ InRegion (p, q) s t p q := by
    rintro p q s hs ⟨ρ, φ, ⟨h0, h1, h2, -⟩, h3, -⟩
    simp only [sub_self] at h1 h2
    have := Real.sin_sq_add_cos_sq (φ * Real.pi / 180)
    have : ρ ^ 2 = 0 := by
      calc ρ ^ 2 = (ρ * Real.cos (φ * Real.pi / 180)) ^ 2 + (ρ * Real.sin (φ * Real.pi / 180)) ^ 2 := by
            linear_combination (-ρ ^ 2) * this
        _ = 0 := by rw [← h1, ← h2]; norm_num
    have : ρ = 0 := pow_eq_zero_iff (two_ne_zero) |>.1 this
    linarith
  have hhalf : ∀ n : Nat, IsTrunc ((n : ℝ) / 2) ((n / 2 : Nat) : ℤ) := by
    intro n
    have e : (n : ℝ) = 2 * ((n / 2 : Nat) : ℝ) + ((n % 2 : Nat) : ℝ) := by
      have := Nat.div_add_mod n 2
      exact_mod_cast this.symm
    have h1 : ((n % 2 : Nat) : ℝ) ≤ 1 := by exact_mod_cast (by omega : n % 2 ≤ 1)
    have h0 : (0 : ℝ) ≤ ((n % 2 : Nat) : ℝ) := Nat.cast_nonneg _
    have hp : (0 : ℝ) ≤ ((n / 2 : Nat) : ℝ) := Nat.cast_nonneg _
    unfold IsTrunc
    rw [Int.cast_natCast, abs_of_nonneg hp, abs_of_nonneg (by positivity)]
    exact ⟨by linarith, by linarith, by positivity⟩
  refine ⟨?_, fun hh hw => ?_⟩
  · obtain ⟨B, hB, -, -, hp⟩ := C46_pixels A ((y0 : ℝ), (x0 : ℝ)) r t fill
    exact ⟨B, hB, (hp y0 x0 hy hx).2 (hout _ _ r hr)⟩
  · obtain ⟨r0, h0, -⟩ := C46_trunc (r.1 / 2)
    obtain ⟨r1, h1, -⟩ := C46_trunc (r.2 / 2)
    obtain ⟨B, hB, -, -, hp⟩ := C46_superpixels A hh hw ((y0 : ℝ), (x0 : ℝ)) r t fill _ _ r0 r1 (hhalf y0) (hhalf x0) h0 h1
    refine ⟨B, hB, fun a b ha hb => (hp _ _ (by omega) (by omega)).2 ?_⟩
    dsimp only
    rw [show (2 * (y0 / 2) + a) / 2 = y0 / 2 by omega, show (2 * (x0 / 2) + b) / 2 = x0 / 2 by omega]
    have hr0 : (0 : ℝ) ≤ (r0 : ℝ) := by
      obtain ⟨g1, g2, g3⟩ := h0
      by_contra hneg
      push Not at hneg
      rcases hr.eq_or_lt with hz | hz
      · rw [← hz, zero_div, abs_zero] at g1
        have := abs_pos.2 hneg.ne
        linarith
      · have : (r0 : ℝ) * (r.1 / 2) < 0 := mul_neg_of_neg_of_pos hneg (by linarith)
        linarith
    exact hout _ _ _ hr0

/-- C46: the default centre is the pixel `(height // 2, width // 2)`. -/
theorem C46_default_centre (A : Img ℝ) (r : Option (ℝ × ℝ)) (t : ℝ × ℝ) (fill : ℝ) (s : Bool) :
    roiFromPolar A none r t fill s
      = roiFromPolar A (some (((A.h / 2 : Nat) : ℝ), ((A.w / 2 : Nat) : ℝ))) r t fill s := rfl

/-- C46, violation: the documented default `rho=None` always raises `TypeError`. -/
theorem C46_default_rho_fails (A : Img ℝ) (c : Option (ℝ × ℝ)) (t : ℝ × ℝ) (fill : ℝ) (s : Bool) :
    roiFromPolar A c none t fill s = .error .typeError := rfl

/-- C46: with `return_boolean=True` the result is true exactly where the other call keeps the data. -/
theorem C46_boolean (A : Img ℝ) (c : Option (ℝ × ℝ)) (r : Option (ℝ × ℝ)) (t : ℝ × ℝ) (fill : ℝ) (s : Bool)
    (M : Img Bool) (hM : roiMask A c r t s = .ok M) (B : Img ℝ) (hB : roiFromPolar A c r t fill s = .ok B)
    (hh : M.h = A.h) (hw : M.w = A.w) :
    IsSelection A (fun y x => M.px y x = true) fill B := by
  unfold roiFromPolar at hB
  rw [hM, Py.ok_bind, npWhere_fill fill hh hw] at hB
  injection hB with hB
  subst hB
  refine ⟨rfl, rfl, ?_⟩
  intro y x hy hx
  rw [Img.ofFn_px hy hx]
  constructor
  · intro h; rw [if_pos h]
  · intro h; rw [if_neg h]

/-- The point `(0, 3)` relative to the centre has polar coordinates 3 and 0 degrees. -/
theorem polar_example : IsPolar 0 3 3 0 := by
  refine ⟨by norm_num, ?_, ?_, by norm_num, by norm_num, by norm_num⟩ <;> simp

example : InRegion (0, 0) (2, 3) (0, 90) 0 3 := ⟨3, 0, by simpa using polar_example, by norm_num⟩
example : ¬ InRegion (0, 0) (3, 5) (0, 90) 0 3 := by
  rintro ⟨ρ, φ, hp, h1, -⟩
  have hp' : IsPolar 0 3 ρ φ := by simpa using hp
  rw [(polar_unique hp' polar_example).1] at h1
  norm_num at h1
/-- The centre of a 4 x 4 image of sevens is lost. -/
example : ∃ B, roiFromPolar (Img.const 4 4 7) (some (((2 : Nat) : ℝ), ((1 : Nat) : ℝ))) (some (0, 10)) (0, 360) 0 false = .ok B ∧
    B.px 2 1 = 0 := (C46_centre_filled (Img.const 4 4 7) 2 1 (by decide) (by decide) (0, 10) (0, 360) le_rfl 0).1
example : IsTrunc (919 / 2) 459 := by unfold IsTrunc; norm_num [abs_of_pos]

/-! ## C47 -/

/-- C47: selecting the same region twice is selecting it once, whatever the mode. -/
theorem C47_idempotent (A B : Img ℝ) (c : Option (ℝ × ℝ)) (r : Option (ℝ × ℝ)) (t : ℝ × ℝ) (fill : ℝ) (s : Bool)
    (hs : s = true → A.h % 2 = 0 ∧ A.w % 2 = 0) (hB : roiFromPolar A c r t fill s = .ok B) :
    roiFromPolar B c r t fill s = .ok B := by
  have hsz : ∀ M, roiMask A c r t s = .ok M → M.h = A.h ∧ M.w = A.w := by
    intro M hM
    unfold roiMask at hM
    cases r with
    | none => cases hM
    | some r =>
      dsimp only at hM
      cases s with
      | false =>
        rw [if_neg (by decide)] at hM
        injection hM with hM
        subst hM
        exact ⟨rfl, rfl⟩
      | true =>
        rw [if_pos rfl] at hM
        injection hM with hM
        subst hM
        have := hs rfl
        exact ⟨by show 2 * (A.h / 2) = A.h; omega, by show 2 * (A.w / 2) = A.w; omega⟩
  have hB0 := hB
  unfold roiFromPolar at hB
  rw [Py.bind_eq_ok] at hB
  obtain ⟨M, hM, hB⟩ := hB
  obtain ⟨hh, hw⟩ := hsz M hM
  rw [npWhere_fill fill hh hw] at hB
  injection hB with hB
  have bh : B.h = A.h := by rw [← hB]; rfl
  have bw : B.w = A.w := by rw [← hB]; rfl
  have hM' : roiMask B c r t s = .ok M := by
    rw [← hM]
    unfold roiMask
    rw [bh, bw]
  unfold roiFromPolar
  rw [hM', Py.ok_bind, npWhere_fill fill (hh.trans bh.symm) (hw.trans bw.symm)]
  congr 1
  refine Img.ext_px rfl rfl ?_
  intro y x (hy : y < B.h) (hx : x < B.w)
  rw [Img.ofFn_px hy hx]
  rw [bh] at hy
  rw [bw] at hx
  rw [← hB, Img.ofFn_px hy hx]
  split <;> rfl

/-- C47: adjacent rings are disjoint and together are the big ring. -/
theorem C47_rings (c t : ℝ × ℝ) (a b d : ℝ) (hab : a ≤ b) (hbd : b ≤ d) (y x : ℝ) :
    (InRegion c (a, d) t y x ↔ InRegion c (a, b) t y x ∨ InRegion c (b, d) t y x) ∧
    ¬ (InRegion c (a, b) t y x ∧ InRegion c (b, d) t y x) := by
  simp only [region_iff]
  refine ⟨⟨?_, ?_⟩, ?_⟩
  · rintro ⟨⟨h1, h2⟩, h3⟩
    rcases le_or_gt (Real.sqrt ((x - c.2) ^ 2 + (y - c.1) ^ 2)) b with h | h
    · exact Or.inl ⟨⟨h1, h⟩, h3⟩
    · exact Or.inr ⟨⟨h, h2⟩, h3⟩
  · rintro (⟨⟨h1, h2⟩, h3⟩ | ⟨⟨h1, h2⟩, h3⟩)
    · exact ⟨⟨h1, h2.trans hbd⟩, h3⟩
    · exact ⟨⟨lt_of_le_of_lt hab h1, h2⟩, h3⟩
  · rintro ⟨⟨⟨-, h⟩, -⟩, ⟨⟨h', -⟩, -⟩⟩
    exact absurd h' (not_lt.2 h)

/-- C47: adjacent sectors are disjoint and together are the big sector. -/
theorem C47_sectors (c r : ℝ × ℝ) (a b d : ℝ) (hab : a ≤ b) (hbd : b ≤ d) (y x : ℝ) :
    (InRegion c r (a, d) y x ↔ InRegion c r (a, b) y x ∨ InRegion c r (b, d) y x) ∧
    ¬ (InRegion c r (a, b) y x ∧ InRegion c r (b, d) y x) := by
  simp only [region_iff]
  refine ⟨⟨?_, ?_⟩, ?_⟩
  · rintro ⟨h3, ⟨h1, h2⟩⟩
    rcases lt_or_ge (pyMod (Complex.arg ⟨x - c.2, y - c.1⟩ * 180 / Real.pi + 360) 360) b with h | h
    · exact Or.inl ⟨h3, ⟨h1, h⟩⟩
    · exact Or.inr ⟨h3, ⟨h, h2⟩⟩
  · rintro (⟨h3, ⟨h1, h2⟩⟩ | ⟨h3, ⟨h1, h2⟩⟩)
    · exact ⟨h3, ⟨h1, lt_of_lt_of_le h2 hbd⟩⟩
    · exact ⟨h3, ⟨hab.trans h1, h2⟩⟩
  · rintro ⟨⟨-, ⟨-, h⟩⟩, ⟨-, ⟨h', -⟩⟩⟩
    exact absurd h (not_lt.2 h')

/-- C47: the calls themselves: with or without superpixels, the boolean maps of the rings `(a, b]` and `(b, d]`
partition the map of `(a, d]`. -/
theorem C47_masks (A : Img ℝ) (c : Option (ℝ × ℝ)) (t : ℝ × ℝ) (a b d : ℝ) (hab : a ≤ b) (hbd : b ≤ d)
    (s : Bool) :
    ∃ M M1 M2, roiMask A c (some (a, d)) t s = .ok M ∧ roiMask A c (some (a, b)) t s = .ok M1 ∧
      roiMask A c (some (b, d)) t s = .ok M2 ∧
      ∀ y x, M.px y x = (M1.px y x || M2.px y x) ∧ (M1.px y x && M2.px y x) = false := by
  have mono : ∀ u v : ℝ, u ≤ v → ((pyInt (u / 2) : ℤ) : ℝ) ≤ ((pyInt (v / 2) : ℤ) : ℝ) := by
    intro u v huv
    have hd : u / 2 ≤ v / 2 := by linarith
    have : pyInt (u / 2) ≤ pyInt (v / 2) := by
      unfold pyInt
      split
      · rename_i h
        rw [if_pos (h.trans hd)]
        exact Int.floor_mono hd
      · rename_i h
        push Not at h
        split
        · rename_i h'
          exact (Int.ceil_le.2 (by push_cast; exact h.le)).trans (Int.floor_nonneg.2 h')
        · exact Int.ceil_mono hd
    exact_mod_cast this
  have key : ∀ (h w : Nat) (c : ℝ × ℝ) (a b d : ℝ), a ≤ b → b ≤ d → ∀ y x,
      (roiCondition h w c (a, d) t).px y x
        = ((roiCondition h w c (a, b) t).px y x || (roiCondition h w c (b, d) t).px y x) ∧
      ((roiCondition h w c (a, b) t).px y x && (roiCondition h w c (b, d) t).px y x) = false := by
    intro h w c a b d hab hbd y x
    by_cases hyx : y < h ∧ x < w
    · have e1 := roiCondition_px h w c (a, d) t hyx.1 hyx.2
      have e2 := roiCondition_px h w c (a, b) t hyx.1 hyx.2
      have e3 := roiCondition_px h w c (b, d) t hyx.1 hyx.2
      obtain ⟨k1, k2⟩ := C47_rings c t a b d hab hbd y x
      constructor
      · rw [Bool.eq_iff_iff, Bool.or_eq_true, e1, e2, e3]
        exact k1
      · rw [← Bool.not_eq_true, Bool.and_eq_true, e2, e3]
        exact k2
    · rw [(roiCondition h w c (a, d) t).out y x hyx, (roiCondition h w c (a, b) t).out y x hyx,
        (roiCondition h w c (b, d) t).out y x hyx]
      exact ⟨rfl, rfl⟩
  unfold roiMask
  cases s with
  | false =>
    refine ⟨_, _, _, rfl, rfl, rfl, ?_⟩
    exact key _ _ _ a b d hab hbd
  | true =>
    refine ⟨_, _, _, rfl, rfl, rfl, ?_⟩
    intro y x
    unfold repeatTwice
    rw [Img.ofFn_px', Img.ofFn_px', Img.ofFn_px']
    by_cases hyx : y < 2 * (A.h / 2) ∧ x < 2 * (A.w / 2)
    · rw [if_pos (by exact hyx), if_pos (by exact hyx), if_pos (by exact hyx)]
      exact key _ _ _ _ _ _ (mono a b hab) (mono b d hbd) _ _
    · rw [if_neg (by exact hyx), if_neg (by exact hyx), if_neg (by exact hyx)]
      exact ⟨rfl, rfl⟩

/-- C47: the sector [0, 360) is the whole circle: only the distance counts. -/
theorem C47_whole_circle (c r : ℝ × ℝ) (y x : ℝ) :
    InRegion c r (0, 360) y x ↔ ∃ ρ, 0 ≤ ρ ∧ ρ ^ 2 = (y - c.1) ^ 2 + (x - c.2) ^ 2 ∧ r.1 < ρ ∧ ρ ≤ r.2 := by
  rw [region_iff]
  obtain ⟨h1, h2⟩ := pyMod_range (Complex.arg ⟨x - c.2, y - c.1⟩ * 180 / Real.pi + 360) (b := 360) (by norm_num)
  have hnn : 0 ≤ (x - c.2) ^ 2 + (y - c.1) ^ 2 := by positivity
  constructor
  · rintro ⟨⟨g1, g2⟩, -⟩
    exact ⟨_, Real.sqrt_nonneg _, by rw [Real.sq_sqrt hnn]; ring, g1, g2⟩
  · rintro ⟨ρ, h0, hρ, g1, g2⟩
    have : Real.sqrt ((x - c.2) ^ 2 + (y - c.1) ^ 2) = ρ := by
      rw [show (x - c.2) ^ 2 + (y - c.1) ^ 2 = ρ ^ 2 by rw [hρ]; ring, Real.sqrt_sq h0]
    rw [this]
    exact ⟨⟨g1, g2⟩, h1, h2⟩

example : InRegion (0, 0) (0, 5) (0, 360) 3 4 := by
  rw [C47_whole_circle]
  exact ⟨5, by norm_num⟩
example : InRegion (0, 0) (0, 10) (0, 360) 3 4 ∧ ¬ InRegion (0, 0) (5, 10) (0, 360) 3 4 := by
  constructor
  · rw [C47_whole_circle]
    exact ⟨5, by norm_num⟩
  · rw [C47_whole_circle]
    rintro ⟨ρ, h0, h1, h2, -⟩
    norm_num at h1 h2
    nlinarith

/-! ## C49 -/

open Classical in
/-- The cache holds only correct values. -/
theorem lruCall_spec {κ V : Type} (f : κ → V) (cache : List (κ × V)) (k : κ)
    (h : ∀ e ∈ cache, e.2 = f e.1) (hlen : cache.length ≤ 128) :
    (lruCall f cache k).1 = f k ∧ (∀ e ∈ (lruCall f cache k).2, e.2 = f e.1) ∧ (lruCall f cache k).2.length ≤ 128 := by
  unfold lruCall
  cases hf : cache.find? (fun e => decide (e.1 = k)) with
  | none =>
    dsimp only
    refine ⟨rfl, ?_, ?_⟩
    · intro e he
      rcases List.mem_cons.1 (List.mem_of_mem_take he) with rfl | he
      · rfl
      · exact h e he
    · rw [List.length_take]; omega
  | some e =>
    dsimp only
    have hk : e.1 = k := by simpa using List.find?_some hf
    have hm := List.mem_of_find?_eq_some hf
    refine ⟨by rw [h e hm, hk], ?_, ?_⟩
    · intro e' he'
      rcases List.mem_cons.1 he' with rfl | he'
      · exact h _ hm
      · exact h _ (List.mem_of_mem_filter he')
    · rw [List.length_cons]
      have : (cache.filter (fun e' => decide (e'.1 ≠ k))).length < cache.length := by
        rw [List.length_filter_lt_length_iff_exists]
        exact ⟨e, hm, by simp [hk]⟩
      omega

/-- C49: for every history of calls, starting from an empty cache, each call returns what the uncached function
returns, and the cache never holds more than 128 entries. -/
theorem C49_transparent {κ V : Type} (f : κ → V) (calls : List κ) :
    (lruRun f calls []).1 = calls.map f ∧ (lruRun f calls []).2.length ≤ 128 := by
  have gen : ∀ (calls : List κ) (cache : List (κ × V)), (∀ e ∈ cache, e.2 = f e.1) → cache.length ≤ 128 →
      (lruRun f calls cache).1 = calls.map f ∧ (lruRun f calls cache).2.length ≤ 128 := by
    intro calls
    induction calls with
    | nil => intro cache _ hl; exact ⟨rfl, hl⟩
    | cons k ks ih =>
      intro cache hc hl
      obtain ⟨h1, h2, h3⟩ := lruCall_spec f cache k hc hl
      obtain ⟨g1, g2⟩ := ih _ h2 h3
      refine ⟨?_, g2⟩
      show (lruCall f cache k).1 :: (lruRun f ks (lruCall f cache k).2).1 = _
      rw [h1, g1, List.map_cons]
  exact gen calls [] (by simp) (by simp)

/-- C49 for the function of the library. -/
theorem C49_map_polar_coordinates (calls : List (Nat × Nat × (ℝ × ℝ))) :
    (lruRun (fun k => mapPolarCoordinates k.1 k.2.1 k.2.2) calls []).1
      = calls.map (fun k => mapPolarCoordinates k.1 k.2.1 k.2.2) := (C49_transparent _ calls).1

open Classical in
/-- C49: a repeated call is answered from the cache without evaluating the function: the value stored is returned even
if the function would now return something else. -/
theorem C49_hit {κ V : Type} (f g : κ → V) (cache : List (κ × V)) (k : κ) :
    (lruCall g (lruCall f cache k).2 k).1 = (lruCall f cache k).1 := by
  have hit : ∀ (v : V) (rest : List (κ × V)), (lruCall g ((k, v) :: rest) k).1 = v := by
    intro v rest
    unfold lruCall
    rw [List.find?_cons_of_pos (by simp)]
  have head : ∃ rest, (lruCall f cache k).2 = (k, (lruCall f cache k).1) :: rest := by
    unfold lruCall
    cases hf : cache.find? (fun e => decide (e.1 = k)) with
    | none => exact ⟨_, rfl⟩
    | some e =>
      have hk : e.1 = k := by simpa using List.find?_some hf
      refine ⟨cache.filter (fun e' => decide (e'.1 ≠ k)), ?_⟩
      dsimp only
      rw [← hk]
  obtain ⟨rest, hr⟩ := head
  rw [hr, hit]

example : (lruRun (fun n : Nat => n * n) [3, 4, 3] []).1 = [9, 16, 9] := (C49_transparent _ _).1

end Micropol
