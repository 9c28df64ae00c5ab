import Verif.Lemmas.Nrgf
import Verif.Spec.Shape

/-!
# Ring filter and occulter search

* C63: `nrgf`.
* C64: `find_occulter_position(..., method="algo")`.
-/

set_option autoImplicit false

namespace Micropol

open Finset

/-! ## C63 -/

/-- Two different rings have no point in common. -/
theorem rings_disjoint (c t t' : ℝ × ℝ) (a : Int) (step : Nat) (j k : Nat) (hjk : j < k) (y x : ℝ)
    (h : InRegion c (((a + j * step : Int) : ℝ), ((a + j * step : Int) : ℝ) + (step : ℝ)) t y x)
    (h' : InRegion c (((a + k * step : Int) : ℝ), ((a + k * step : Int) : ℝ) + (step : ℝ)) t' y x) : False := by
  obtain ⟨ρ, φ, hp, -, h2, -⟩ := h
  obtain ⟨ρ', φ', hp', h1, -⟩ := h'
  rw [← (polar_unique hp hp').1] at h1
  dsimp only at h1 h2
  push_cast at h1 h2
  have : ((j : ℝ) + 1) * step ≤ (k : ℝ) * step := by
    apply mul_le_mul_of_nonneg_right _ (Nat.cast_nonneg _)
    exact_mod_cast hjk
  nlinarith

theorem nrgf_spec (A : Img ℝ) (yc xc : ℝ) (rmin : Int) (step : Nat) (hstep : 0 < step) (tm tout : ℝ × ℝ) (M : ℝ)
    (hM : IsFarthest A.h A.w ((pyInt yc : ℤ), (pyInt xc : ℤ)) M) :
    ∃ B, nrgf A yc xc rmin step tm tout = .ok B ∧ B.h = A.h ∧ B.w = A.w ∧
      (∀ k : Nat, rmin + k * step < pyInt M → ∀ y x, y < A.h → x < A.w →
        InRegion ((pyInt yc : ℤ), (pyInt xc : ℤ)) (((rmin + k * step : Int) : ℝ), ((rmin + k * step : Int) : ℝ) + (step : ℝ)) tout y x →
        B.px y x = ringValue (regionPixels A.h A.w ((pyInt yc : ℤ), (pyInt xc : ℤ))
          (((rmin + k * step : Int) : ℝ), ((rmin + k * step : Int) : ℝ) + (step : ℝ)) tm) A.px (A.px y x)) ∧
      (∀ y x, y < A.h → x < A.w → (∀ k : Nat, rmin + k * step < pyInt M →
        ¬ InRegion ((pyInt yc : ℤ), (pyInt xc : ℤ)) (((rmin + k * step : Int) : ℝ), ((rmin + k * step : Int) : ℝ) + (step : ℝ)) tout y x) →
        B.px y x = 0) := by
  unfold nrgf
  dsimp only
  rw [rhoMax_ok hM, Py.ok_bind, if_neg (by omega)]
  set c : ℝ × ℝ := ((pyInt yc : ℤ), (pyInt xc : ℤ)) with hc
  have hcount : ∀ k : Nat, k < ((pyInt M - rmin + step - 1) / step).toNat ↔ rmin + k * step < pyInt M := by
    intro k
    rw [Int.lt_toNat, Int.lt_iff_add_one_le, Int.le_ediv_iff_mul_le (by omega)]
    constructor
    · intro h; nlinarith
    · intro h; nlinarith
  have := forRange_inv (a := rmin) (b := pyInt M) (step := step) (s := Img.zeros A.h A.w)
    (body := nrgfBody A (mapPolarCoordinates A.h A.w c).1 (sectorCondition (mapPolarCoordinates A.h A.w c).2 tm)
      (sectorCondition (mapPolarCoordinates A.h A.w c).2 tout) step) _
    (fun n B => B.h = A.h ∧ B.w = A.w ∧
      (∀ k : Nat, k < n → ∀ y x, y < A.h → x < A.w →
        InRegion c (((rmin + k * step : Int) : ℝ), ((rmin + k * step : Int) : ℝ) + (step : ℝ)) tout y x →
        B.px y x = ringValue (regionPixels A.h A.w c
          (((rmin + k * step : Int) : ℝ), ((rmin + k * step : Int) : ℝ) + (step : ℝ)) tm) A.px (A.px y x)) ∧
      (∀ y x, y < A.h → x < A.w → (∀ k : Nat, k < n →
        ¬ InRegion c (((rmin + k * step : Int) : ℝ), ((rmin + k * step : Int) : ℝ) + (step : ℝ)) tout y x) →
        B.px y x = 0)) rfl
    ⟨rfl, rfl, fun k hk => absurd hk (Nat.not_lt_zero k), fun y x hy hx _ => Img.ofFn_px hy hx⟩
    (by
      rintro n B hn ⟨i1, i2, i3, i4⟩
      refine ⟨_, nrgfBody_ok A c tm tout step _ B i1 i2, rfl, rfl, ?_, ?_⟩
      · intro k hk y x hy hx hr
        rw [Img.ofFn_px hy hx]
        rcases Nat.lt_succ_iff_lt_or_eq.1 hk with hk | rfl
        · rw [if_neg (fun h => rings_disjoint c tout tout rmin step k n hk y x hr h)]
          exact i3 k hk y x hy hx hr
        · rw [if_pos hr]
      · intro y x hy hx hno
        rw [Img.ofFn_px hy hx, if_neg (hno n (by omega))]
        exact i4 y x hy hx (fun k hk => hno k (by omega)))
  obtain ⟨B, hB, h1, h2, h3, h4⟩ := this
  refine ⟨B, hB, h1, h2, ?_, ?_⟩
  · intro k hk
    exact h3 k ((hcount k).2 hk)
  · intro y x hy hx hno
    exact h4 y x hy hx (fun k hk => hno k ((hcount k).1 hk))

/-- C63: what every pixel becomes.  `c` is the truncated centre, `R` the truncated largest distance, the rings start
at `rmin` and have width `step`.  A pixel of the output sector in a ring is normalised with the mean and deviation of
the averaging sector of that ring, or set to 0 if these do not vary; all other pixels are 0. -/
theorem C63_pixels (A : Img ℝ) (yc xc : ℝ) (cy cx : ℤ) (hcy : IsTrunc yc cy) (hcx : IsTrunc xc cx) (rmin : Int)
    (step : Nat) (hstep : 0 < step) (tm tout : ℝ × ℝ) (M : ℝ) (hM : IsFarthest A.h A.w ((cy : ℝ), (cx : ℝ)) M)
    (R : ℤ) (hR : IsTrunc M R) :
    ∃ B, nrgf A yc xc rmin step tm tout = .ok B ∧ B.SameShape A ∧
      (∀ k : Nat, rmin + k * step < R → ∀ y x, y < A.h → x < A.w →
        InRegion (cy, cx) (((rmin + k * step : Int) : ℝ), ((rmin + (k + 1) * step : Int) : ℝ)) tout y x →
        (∀ μ σ, IsMean (regionPixels A.h A.w (cy, cx)
            (((rmin + k * step : Int) : ℝ), ((rmin + (k + 1) * step : Int) : ℝ)) tm) A.px μ →
          IsStd (regionPixels A.h A.w (cy, cx)
            (((rmin + k * step : Int) : ℝ), ((rmin + (k + 1) * step : Int) : ℝ)) tm) A.px σ → 0 < σ →
          B.px y x = (A.px y x - μ) / σ) ∧
        ((∀ σ, IsStd (regionPixels A.h A.w (cy, cx)
            (((rmin + k * step : Int) : ℝ), ((rmin + (k + 1) * step : Int) : ℝ)) tm) A.px σ → σ = 0) →
          B.px y x = 0)) ∧
      (∀ y x, y < A.h → x < A.w → (∀ k : Nat, rmin + k * step < R →
        ¬ InRegion (cy, cx) (((rmin + k * step : Int) : ℝ), ((rmin + (k + 1) * step : Int) : ℝ)) tout y x) →
        B.px y x = 0) := by
  have ecy := trunc_unique hcy (pyInt_trunc yc)
  have ecx := trunc_unique hcx (pyInt_trunc xc)
  have eR := trunc_unique hR (pyInt_trunc M)
  subst ecy ecx eR
  obtain ⟨B, hB, h1, h2, h3, h4⟩ := nrgf_spec A yc xc rmin step hstep tm tout M hM
  have e : ∀ k : Nat, ((rmin + (k + 1) * step : Int) : ℝ) = ((rmin + k * step : Int) : ℝ) + (step : ℝ) := by
    intro k; push_cast; ring
  refine ⟨B, hB, ⟨h1, h2⟩, ?_, ?_⟩
  · intro k hk y x hy hx hr
    rw [e] at hr ⊢
    constructor
    · intro μ σ hμ hσ h0
      rw [h3 k hk y x hy hx hr, ringValue_pos hμ hσ h0]
    · intro h0
      rw [h3 k hk y x hy hx hr, ringValue_zero h0]
  · intro y x hy hx hno
    apply h4 y x hy hx
    intro k hk
    have := hno k hk
    rw [e] at this
    exact this

/-- C63: with equal sectors a ring that varies has mean 0 and deviation 1 afterwards. -/
theorem C63_ring_normalised (A : Img ℝ) (yc xc : ℝ) (cy cx : ℤ) (hcy : IsTrunc yc cy) (hcx : IsTrunc xc cx)
    (rmin : Int) (step : Nat) (hstep : 0 < step) (t : ℝ × ℝ) (M : ℝ)
    (hM : IsFarthest A.h A.w ((cy : ℝ), (cx : ℝ)) M) (R : ℤ) (hR : IsTrunc M R) (B : Img ℝ)
    (hB : nrgf A yc xc rmin step t t = .ok B) (k : Nat) (hk : rmin + k * step < R) (σ : ℝ)
    (hσ : IsStd (regionPixels A.h A.w (cy, cx)
      (((rmin + k * step : Int) : ℝ), ((rmin + (k + 1) * step : Int) : ℝ)) t) A.px σ) (h0 : 0 < σ) :
    IsMean (regionPixels A.h A.w (cy, cx)
      (((rmin + k * step : Int) : ℝ), ((rmin + (k + 1) * step : Int) : ℝ)) t) B.px 0 ∧
    IsStd (regionPixels A.h A.w (cy, cx)
      (((rmin + k * step : Int) : ℝ), ((rmin + (k + 1) * step : Int) : ℝ)) t) B.px 1 := by
  obtain ⟨B', hB', -, h3, -⟩ := C63_pixels A yc xc cy cx hcy hcx rmin step hstep t t M hM R hR
  rw [hB] at hB'
  injection hB' with hB'
  subst hB'
  set S := regionPixels A.h A.w (cy, cx)
      (((rmin + k * step : Int) : ℝ), ((rmin + (k + 1) * step : Int) : ℝ)) t with hS
  have hσ0 := hσ
  obtain ⟨-, μ, hμ, hsq⟩ := hσ0
  have hpx : ∀ q ∈ S, B.px q.1 q.2 = (A.px q.1 q.2 - μ) / σ := by
    intro q hq
    rw [hS] at hq
    unfold regionPixels at hq
    simp only [Finset.mem_filter, Finset.mem_product, Finset.mem_range] at hq
    exact (h3 k hk q.1 q.2 hq.1.1 hq.1.2 hq.2).1 μ σ hμ hσ h0
  have hmean : IsMean S B.px 0 := by
    refine ⟨hμ.1, ?_⟩
    rw [Finset.sum_congr rfl hpx, ← Finset.sum_div, Finset.sum_sub_distrib, ← hμ.2]
    simp [mul_comm]
  refine ⟨hmean, by norm_num, 0, hmean, ?_⟩
  have : ∀ q ∈ S, (B.px q.1 q.2 - 0) ^ 2 = (A.px q.1 q.2 - μ) ^ 2 / σ ^ 2 := by
    intro q hq
    rw [hpx q hq, sub_zero, div_pow]
  rw [Finset.sum_congr rfl this, ← Finset.sum_div, ← hsq]
  field_simp

theorem isMean_affine {S : Finset (Nat × Nat)} {f g : Nat → Nat → ℝ} {a b : ℝ}
    (hfg : ∀ q ∈ S, g q.1 q.2 = a * f q.1 q.2 + b) {μ : ℝ} (h : IsMean S f μ) : IsMean S g (a * μ + b) := by
  refine ⟨h.1, ?_⟩
  rw [Finset.sum_congr rfl hfg, Finset.sum_add_distrib, ← Finset.mul_sum, ← h.2, Finset.sum_const, nsmul_eq_mul]
  ring

theorem isStd_affine {S : Finset (Nat × Nat)} {f g : Nat → Nat → ℝ} {a b : ℝ} (ha : 0 ≤ a)
    (hfg : ∀ q ∈ S, g q.1 q.2 = a * f q.1 q.2 + b) {σ : ℝ} (h : IsStd S f σ) : IsStd S g (a * σ) := by
  obtain ⟨h0, μ, hμ, h1⟩ := h
  refine ⟨mul_nonneg ha h0, _, isMean_affine hfg hμ, ?_⟩
  have : ∀ q ∈ S, (g q.1 q.2 - (a * μ + b)) ^ 2 = a ^ 2 * (f q.1 q.2 - μ) ^ 2 := by
    intro q hq
    rw [hfg q hq]
    ring
  rw [Finset.sum_congr rfl this, ← Finset.mul_sum, ← h1]
  ring

/-- C63: adding a constant and scaling by a positive factor do not change the result. -/
theorem C63_affine (A : Img ℝ) (yc xc : ℝ) (rmin : Int) (step : Nat) (hstep : 0 < step) (tm tout : ℝ × ℝ)
    (hne : 0 < A.h ∧ 0 < A.w) (a b : ℝ) (ha : 0 < a) :
    nrgf (A.map (fun v => a * v + b)) yc xc rmin step tm tout = nrgf A yc xc rmin step tm tout := by
  -- the largest distance exists
  obtain ⟨M, hM⟩ : ∃ M, IsFarthest A.h A.w ((pyInt yc : ℤ), (pyInt xc : ℤ)) M := by
    have hne' : (range A.h ×ˢ range A.w).Nonempty := ⟨(0, 0), by simp [hne.1, hne.2]⟩
    obtain ⟨q, hq, hmax⟩ := Finset.exists_max_image (range A.h ×ˢ range A.w)
      (fun q => ((q.1 : ℝ) - (pyInt yc : ℤ)) ^ 2 + ((q.2 : ℝ) - (pyInt xc : ℤ)) ^ 2) hne'
    simp only [Finset.mem_product, Finset.mem_range] at hq hmax
    have hs : Real.sqrt (((q.1 : ℝ) - (pyInt yc : ℤ)) ^ 2 + ((q.2 : ℝ) - (pyInt xc : ℤ)) ^ 2) ^ 2
        = ((q.1 : ℝ) - (pyInt yc : ℤ)) ^ 2 + ((q.2 : ℝ) - (pyInt xc : ℤ)) ^ 2 := Real.sq_sqrt (by positivity)
    refine ⟨_, ⟨q.1, q.2, hq.1, hq.2, Real.sqrt_nonneg _, hs⟩, ?_⟩
    intro y x hy hx
    rw [hs]
    exact hmax (y, x) ⟨hy, hx⟩
  obtain ⟨B, hB, h1, h2, h3, h4⟩ := nrgf_spec A yc xc rmin step hstep tm tout M hM
  obtain ⟨B', hB', g1, g2, g3, g4⟩ := nrgf_spec (A.map (fun v => a * v + b)) yc xc rmin step hstep tm tout M hM
  rw [hB, hB']
  congr 1
  refine Img.ext_px (g1.trans h1.symm) (g2.trans h2.symm) ?_
  intro y x hy hx
  rw [g1] at hy
  rw [g2] at hx
  have hy' : y < A.h := hy
  have hx' : x < A.w := hx
  by_cases hr : ∃ k : Nat, rmin + k * step < pyInt M ∧ InRegion ((pyInt yc : ℤ), (pyInt xc : ℤ))
    (((rmin + k * step : Int) : ℝ), ((rmin + k * step : Int) : ℝ) + (step : ℝ)) tout y x
  · obtain ⟨k, hk, hr⟩ := hr
    rw [h3 k hk y x hy' hx' hr, g3 k hk y x hy hx hr]
    set S := regionPixels A.h A.w ((pyInt yc : ℤ), (pyInt xc : ℤ))
      (((rmin + k * step : Int) : ℝ), ((rmin + k * step : Int) : ℝ) + (step : ℝ)) tm with hS
    show ringValue S _ _ = _
    have hfg : ∀ q ∈ S, (A.map (fun v => a * v + b)).px q.1 q.2 = a * A.px q.1 q.2 + b := by
      intro q hq
      rw [hS] at hq
      unfold regionPixels at hq
      simp only [Finset.mem_filter, Finset.mem_product, Finset.mem_range] at hq
      exact Img.map_px _ _ hq.1.1 hq.1.2
    rw [Img.map_px _ _ hy' hx']
    by_cases hS' : S.Nonempty
    · obtain ⟨μ, σ, hμ, hσ⟩ := isStd_exists hS' A.px
      rcases hσ.1.eq_or_lt with h0 | h0
      · rw [ringValue_zero (fun τ hτ => by rw [isStd_unique hτ (isStd_affine ha.le hfg hσ), ← h0, mul_zero]),
          ringValue_zero (fun τ hτ => by rw [isStd_unique hτ hσ, h0])]
      · rw [ringValue_pos (isMean_affine hfg hμ) (isStd_affine ha.le hfg hσ) (mul_pos ha h0), ringValue_pos hμ hσ h0]
        field_simp
        ring
    · rw [ringValue_zero (fun σ hσ => by obtain ⟨-, μ, hμ, -⟩ := hσ; exact absurd hμ.1 hS'),
        ringValue_zero (fun σ hσ => by obtain ⟨-, μ, hμ, -⟩ := hσ; exact absurd hμ.1 hS')]
  · push Not at hr
    rw [h4 y x hy' hx' hr, g4 y x hy hx hr]

/-- C63: an image without pixels is rejected. -/
theorem C63_empty (A : Img ℝ) (h : A.h = 0 ∨ A.w = 0) (yc xc : ℝ) (rmin : Int) (step : Nat) (tm tout : ℝ × ℝ) :
    nrgf A yc xc rmin step tm tout = .error .valueError := by
  unfold nrgf rhoMax
  dsimp only
  rw [dif_neg]
  · rfl
  · rintro ⟨q, hq⟩
    simp only [mapPolarCoordinates, Img.ofFn_h, Img.ofFn_w, Finset.mem_product, Finset.mem_range] at hq
    omega

/-- The hypotheses of the theorems above are met: on a 1x5 image around its first pixel the largest distance is 4. -/
example : IsFarthest 1 5 ((0 : ℤ), (0 : ℤ)) 4 ∧ IsTrunc 4 4 ∧ IsTrunc 0 0 := by
  refine ⟨⟨⟨0, 4, by decide, by decide, by norm_num⟩, ?_⟩, by unfold IsTrunc; norm_num, by unfold IsTrunc; norm_num⟩
  intro y x hy hx
  have : y = 0 := by omega
  subst this
  have hx' : (x : ℝ) ≤ 4 := by exact_mod_cast (show x ≤ 4 by omega)
  have : (0 : ℝ) ≤ x := Nat.cast_nonneg _
  push_cast
  nlinarith

/-- The ring (0, 2] of that image contains the pixels at distance 1 and 2, so data that vary there have a positive
deviation. -/
example : regionPixels 1 5 (((0 : ℤ) : ℝ), ((0 : ℤ) : ℝ)) (0, 2) (0, 360) = {(0, 1), (0, 2)} := by
  unfold regionPixels
  ext q
  obtain ⟨y, x⟩ := q
  simp only [Finset.mem_filter, Finset.mem_product, Finset.mem_range, Finset.mem_insert, Finset.mem_singleton,
    Prod.mk.injEq, Int.cast_zero]
  rw [region_iff]
  constructor
  · rintro ⟨⟨hy, hx⟩, ⟨h1, h2⟩, -⟩
    have : y = 0 := by omega
    subst this
    have hs : Real.sqrt (((x : ℝ) - 0) ^ 2 + (((0 : ℕ) : ℝ) - 0) ^ 2) = x := by
      rw [show ((x : ℝ) - 0) ^ 2 + (((0 : ℕ) : ℝ) - 0) ^ 2 = (x : ℝ) ^ 2 by push_cast; ring,
        Real.sqrt_sq (Nat.cast_nonneg _)]
    rw [hs] at h1 h2
    dsimp only at h1 h2
    have a1 : 0 < x := by exact_mod_cast h1
    have a2 : x ≤ 2 := by exact_mod_cast h2
    omega
  · have hs : ∀ x : Nat, Real.sqrt (((x : ℝ) - 0) ^ 2 + (((0 : ℕ) : ℝ) - 0) ^ 2) = x := by
      intro x
      rw [show ((x : ℝ) - 0) ^ 2 + (((0 : ℕ) : ℝ) - 0) ^ 2 = (x : ℝ) ^ 2 by push_cast; ring,
        Real.sqrt_sq (Nat.cast_nonneg _)]
    rintro (⟨rfl, rfl⟩ | ⟨rfl, rfl⟩)
    · refine ⟨by decide, ?_, pyMod_range _ (by norm_num)⟩
      rw [hs]; norm_num
    · refine ⟨by decide, ?_, pyMod_range _ (by norm_num)⟩
      rw [hs]; norm_num

/-! ## C64 -/

theorem firstJump_spec (t : ℝ) (n : Nat) (f : Nat → ℝ) (l : List ℝ) (hl : l = (List.range n).map f) :
    (∀ i, firstJump t l = some i ↔ IsFirstJump n f t i) ∧ (firstJump t l = none ↔ ∀ i, ¬ IsFirstJump n f t i) := by
  have hlen : l.length = n := by rw [hl]; simp
  have hget : ∀ i, i < n → l.getD i 0 = f i := by
    intro i hi
    rw [hl]
    simp [List.getD, hi]
  have htake : ∀ i, i ≤ n → (l.take i).sum = ∑ k ∈ range i, f k := by
    intro i hi
    rw [hl, ← List.map_take, List.take_range, Nat.min_eq_left hi]
    clear hi
    induction i with
    | zero => simp
    | succ i ih => rw [List.range_succ, List.map_append, List.sum_append, ih, Finset.sum_range_succ]; simp
  have hp : ∀ i, i < n → ((decide (i > 5 ∧ l.getD i 0 > t * ((l.take i).sum / (i : ℝ))) = true) ↔
      (5 < i ∧ i < n ∧ t * ((∑ k ∈ range i, f k) / (i : ℝ)) < f i)) := by
    intro i hi
    rw [decide_eq_true_iff, hget i hi, htake i hi.le]
    constructor
    · rintro ⟨h1, h2⟩; exact ⟨h1, hi, h2⟩
    · rintro ⟨h1, -, h2⟩; exact ⟨h1, h2⟩
  have hsome : ∀ i, firstJump t l = some i ↔ IsFirstJump n f t i := by
    intro i
    unfold firstJump IsFirstJump
    rw [hlen, List.find?_range_eq_some]
    constructor
    · rintro ⟨h1, h2, h3⟩
      have hi : i < n := List.mem_range.1 h2
      refine ⟨(hp i hi).1 h1, ?_⟩
      intro j hj hjump
      have := h3 j hj
      rw [Bool.not_eq_true'] at this
      have h' := (hp j (by omega)).2 hjump
      rw [this] at h'
      cases h'
    · rintro ⟨h1, h2⟩
      refine ⟨(hp i h1.2.1).2 h1, List.mem_range.2 h1.2.1, ?_⟩
      intro j hj
      rw [Bool.not_eq_true', ← Bool.not_eq_true]
      intro h'
      exact h2 j hj ((hp j (by have := h1.2.1; omega)).1 h')
  refine ⟨hsome, ?_⟩
  constructor
  · intro h i hi
    rw [← hsome, h] at hi
    cases hi
  · intro h
    cases hf : firstJump t l with
    | none => rfl
    | some i => exact absurd ((hsome i).1 hf) (h i)

/-- C64: the four half axes are searched for the first jump, going outwards from the middle row and column; the result
is the truncated centre and radius of the four edges. -/
theorem C64_found (A : Img ℝ) (hh : 0 < A.h) (hw : 0 < A.w) (t : ℝ) (up down left right : Nat)
    (h1 : IsFirstJump (A.h / 2) (fun k => A.px (A.h / 2 - 1 - k) (A.w / 2)) t up)
    (h2 : IsFirstJump (A.h - A.h / 2) (fun k => A.px (A.h / 2 + k) (A.w / 2)) t down)
    (h3 : IsFirstJump (A.w / 2) (fun k => A.px (A.h / 2) (A.w / 2 - 1 - k)) t left)
    (h4 : IsFirstJump (A.w - A.w / 2) (fun k => A.px (A.h / 2) (A.w / 2 + k)) t right) :
    ∃ cy cx r, findOcculterAlgo A t = .ok (cy, cx, r) ∧
      IsTrunc ((((A.h / 2 : Nat) : ℝ) - up + (((A.h / 2 : Nat) : ℝ) + down)) / 2) cy ∧
      IsTrunc ((((A.w / 2 : Nat) : ℝ) - left + (((A.w / 2 : Nat) : ℝ) + right)) / 2) cx ∧
      IsTrunc (((up + down : ℝ) / 2 + (left + right : ℝ) / 2) / 2) r := by
  have hrev : ∀ (n : Nat) (g : Nat → ℝ), ((List.range n).map g).reverse = (List.range n).map (fun k => g (n - 1 - k)) := by
    intro n g
    apply List.ext_getElem
    · simp
    · intro i hi1 hi2
      simp
  have e1 := ((firstJump_spec t _ _ _ (hrev (A.h / 2) (fun y => A.px y (A.w / 2)))).1 up).2 h1
  have e2 := ((firstJump_spec t _ _ _ (rfl : (List.range (A.h - A.h / 2)).map (fun y => A.px (A.h / 2 + y) (A.w / 2)) = _)).1 down).2 h2
  have e3 := ((firstJump_spec t _ _ _ (hrev (A.w / 2) (fun x => A.px (A.h / 2) x))).1 left).2 h3
  have e4 := ((firstJump_spec t _ _ _ (rfl : (List.range (A.w - A.w / 2)).map (fun x => A.px (A.h / 2) (A.w / 2 + x)) = _)).1 right).2 h4
  unfold findOcculterAlgo
  dsimp only
  rw [if_neg (by omega), e1, e2, e3, e4]
  refine ⟨_, _, _, rfl, pyInt_trunc _, pyInt_trunc _, ?_⟩
  have a1 : |((A.h / 2 : Nat) : ℝ) + down - (((A.h / 2 : Nat) : ℝ) - up)| = up + down := by
    rw [abs_of_nonneg]
    · ring
    · have : (0 : ℝ) ≤ up := Nat.cast_nonneg _
      have : (0 : ℝ) ≤ down := Nat.cast_nonneg _
      linarith
  have a2 : |((A.w / 2 : Nat) : ℝ) + right - (((A.w / 2 : Nat) : ℝ) - left)| = left + right := by
    rw [abs_of_nonneg]
    · ring
    · have : (0 : ℝ) ≤ left := Nat.cast_nonneg _
      have : (0 : ℝ) ≤ right := Nat.cast_nonneg _
      linarith
  rw [a1, a2]
  exact pyInt_trunc _

/-- C64: if one of the four half axes has no jump the call raises `ValueError`. -/
theorem C64_missing (A : Img ℝ) (hh : 0 < A.h) (hw : 0 < A.w) (t : ℝ)
    (h : (∀ i, ¬ IsFirstJump (A.h / 2) (fun k => A.px (A.h / 2 - 1 - k) (A.w / 2)) t i) ∨
      (∀ i, ¬ IsFirstJump (A.h - A.h / 2) (fun k => A.px (A.h / 2 + k) (A.w / 2)) t i) ∨
      (∀ i, ¬ IsFirstJump (A.w / 2) (fun k => A.px (A.h / 2) (A.w / 2 - 1 - k)) t i) ∨
      (∀ i, ¬ IsFirstJump (A.w - A.w / 2) (fun k => A.px (A.h / 2) (A.w / 2 + k)) t i)) :
    findOcculterAlgo A t = .error .valueError := by
  have hrev : ∀ (n : Nat) (g : Nat → ℝ), ((List.range n).map g).reverse = (List.range n).map (fun k => g (n - 1 - k)) := by
    intro n g
    apply List.ext_getElem
    · simp
    · intro i hi1 hi2
      simp
  have e1 := (firstJump_spec t _ _ _ (hrev (A.h / 2) (fun y => A.px y (A.w / 2)))).2
  have e2 := (firstJump_spec t _ _ _ (rfl : (List.range (A.h - A.h / 2)).map (fun y => A.px (A.h / 2 + y) (A.w / 2)) = _)).2
  have e3 := (firstJump_spec t _ _ _ (hrev (A.w / 2) (fun x => A.px (A.h / 2) x))).2
  have e4 := (firstJump_spec t _ _ _ (rfl : (List.range (A.w - A.w / 2)).map (fun x => A.px (A.h / 2) (A.w / 2 + x)) = _)).2
  rw [← e1, ← e2, ← e3, ← e4] at h
  unfold findOcculterAlgo
  dsimp only
  rw [if_neg (by omega)]
  split
  · rename_i i0 i1 j0 j1 k1 k2 k3 k4
    rw [k1, k2, k3, k4] at h
    simp at h
  · rfl

/-- C64: hence a small image (less than 14 rows or columns) is always rejected. -/
theorem C64_small (A : Img ℝ) (hh : 0 < A.h) (hw : 0 < A.w) (h : A.h < 14 ∨ A.w < 14) (t : ℝ) :
    findOcculterAlgo A t = .error .valueError := by
  apply C64_missing A hh hw
  rcases h with h | h
  · left
    rintro i ⟨⟨h1, h2, -⟩, -⟩
    omega
  · right; right; left
    rintro i ⟨⟨h1, h2, -⟩, -⟩
    omega

example : IsFirstJump 10 (fun k => if k = 7 then 5 else 1) 4 7 := by
  refine ⟨⟨by decide, by decide, ?_⟩, ?_⟩
  · norm_num [Finset.sum_range_succ]
  · rintro j hj ⟨h1, -, h2⟩
    have : j = 6 := by omega
    subst this
    norm_num [Finset.sum_range_succ] at h2

end Micropol
