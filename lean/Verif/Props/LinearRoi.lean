import Verif.Lemmas.LinearRoi

/-!
# C60, C61, C62: lines of pixels

Points are (y, x).  `n` is the number of steps, the larger one of the two distances.
-/

set_option autoImplicit false

namespace Micropol

noncomputable section

theorem get_line {n k : ℕ} (f : ℕ → ℤ) (hk : k < n + 2) : ((List.range (n + 2)).map f)[k]? = some (f k) := by
  rw [List.getElem?_map, List.getElem?_range hk]
  rfl

/-! ## C60: `DDA` -/

/-- Only the integer parts of the coordinates matter. -/
theorem C60_truncates (start stop : ℝ × ℝ) :
    dda start stop = dda (((pyInt start.1 : ℤ) : ℝ), ((pyInt start.2 : ℤ) : ℝ)) (((pyInt stop.1 : ℤ) : ℝ), ((pyInt stop.2 : ℤ) : ℝ)) := by
  unfold dda
  simp only [pyInt_int]

/-- For different points, `n + 2` points are returned.  Number 0 is the start and number `n` the end; the points number
0 to `n` follow the straight line within one pixel, never leave the rectangle spanned by the end points, and go from one
pixel to a neighbour.  Missing: "ends at the end" (see below: there is always one point more). -/
theorem C60_points_partial (sy sx ey ex : ℤ) {n : ℕ} (hn : (n : ℤ) = max |ey - sy| |ex - sx|) (hne : (sy, sx) ≠ (ey, ex)) :
    ∃ (ys xs : List ℤ) (density : ℝ), dda (sy, sx) (ey, ex) = .ok (ys, xs, density) ∧
      ys.length = n + 2 ∧ xs.length = n + 2 ∧ ys[0]? = some sy ∧ xs[0]? = some sx ∧ ys[n]? = some ey ∧ xs[n]? = some ex ∧
      (∀ k, k ≤ n → ∃ y x : ℤ, ys[k]? = some y ∧ xs[k]? = some x ∧
        |(y : ℝ) - (sy + (k : ℝ) * (ey - sy) / n)| < 1 ∧ |(x : ℝ) - (sx + (k : ℝ) * (ex - sx) / n)| < 1 ∧
        min sy ey ≤ y ∧ y ≤ max sy ey ∧ min sx ex ≤ x ∧ x ≤ max sx ex) ∧
      ∀ k, k < n → ∃ y x y' x' : ℤ, ys[k]? = some y ∧ xs[k]? = some x ∧ ys[k + 1]? = some y' ∧ xs[k + 1]? = some x' ∧
        |y' - y| ≤ 1 ∧ |x' - x| ≤ 1 := by
  have hn' := lineSteps_of hn
  have hpos : 0 < n := by
    rw [hn']
    apply lineSteps_pos
    by_contra h
    push Not at h
    exact hne (Prod.ext (by simp only; omega) (by simp only; omega))
  have hge := lineSteps_ge (ey - sy) (ex - sx)
  rw [← hn'] at hge
  have h := dda_ok ((sy : ℝ), (sx : ℝ)) ((ey : ℝ), (ex : ℝ)) (y1 := sy) (x1 := sx) (dy := ey - sy) (dx := ex - sx) (n := n)
    (by simp [pyInt_int]) (by simp [pyInt_int]) (by simp [pyInt_int]) (by simp [pyInt_int]) hn' hpos
  have hend : ∀ a b : ℤ, pyInt (lineAt a (b - a) n n) = b := by
    intro a b
    rw [lineAt_end a (b - a) hpos, pyInt_int]
    omega
  have hid : ∀ (a b : ℤ) (k : ℕ), lineAt a (b - a) n k = a + (k : ℝ) * (b - a) / n := by
    intro a b k
    unfold lineAt
    push_cast
    ring
  refine ⟨_, _, _, h, by simp, by simp, ?_, ?_, ?_, ?_, ?_, ?_⟩
  · rw [get_line _ (by omega), lineAt_zero, pyInt_int]
  · rw [get_line _ (by omega), lineAt_zero, pyInt_int]
  · rw [get_line _ (by omega), hend]
  · rw [get_line _ (by omega), hend]
  · intro k hk
    refine ⟨_, _, get_line _ (by omega), get_line _ (by omega), ?_, ?_, ?_⟩
    · rw [← hid]; exact pyInt_lt _
    · rw [← hid]; exact pyInt_lt _
    · have h1 := lineAt_between sy (ey - sy) hpos hk
      have h2 := lineAt_between sx (ex - sx) hpos hk
      rw [show sy + (ey - sy) = ey by omega] at h1
      rw [show sx + (ex - sx) = ex by omega] at h2
      exact ⟨h1.1, h1.2, h2.1, h2.2⟩
  · intro k hk
    exact ⟨_, _, _, _, get_line _ (by omega), get_line _ (by omega), get_line _ (by omega), get_line _ (by omega),
      pyInt_step (lineAt_step _ hpos hge.2 k), pyInt_step (lineAt_step _ hpos hge.1 k)⟩

/-- The hypotheses are met. -/
example : ((5 : ℕ) : ℤ) = max |(3 : ℤ) - 7| |(9 : ℤ) - 4| ∧ ((7 : ℤ), (4 : ℤ)) ≠ (3, 9) := by decide

/-- The returned density is the distance divided by the number of points. -/
theorem C60_density (sy sx ey ex : ℤ) {ys xs : List ℤ} {density : ℝ} (h : dda (sy, sx) (ey, ex) = .ok (ys, xs, density)) :
    density * xs.length = Real.sqrt (((ey : ℝ) - sy) ^ 2 + ((ex : ℝ) - sx) ^ 2) := by
  by_cases hne : ey - sy ≠ 0 ∨ ex - sx ≠ 0
  · rw [dda_ok ((sy : ℝ), (sx : ℝ)) ((ey : ℝ), (ex : ℝ)) (y1 := sy) (x1 := sx) (dy := ey - sy) (dx := ex - sx)
      (by simp [pyInt_int]) (by simp [pyInt_int]) (by simp [pyInt_int]) (by simp [pyInt_int]) rfl (lineSteps_pos hne)] at h
    cases h
    rw [List.length_map, List.length_range]
    have : ((lineSteps (ey - sy) (ex - sx) + 2 : ℕ) : ℝ) ≠ 0 := by positivity
    rw [div_mul_cancel₀ _ this]
    congr 1
    push_cast
    ring
  · push Not at hne
    rw [dda_equal _ _ (by simp only [pyInt_int]; omega) (by simp only [pyInt_int]; omega)] at h
    cases h

/-- There is always one point after the end: along the axis of the larger distance it is one pixel beyond the end. -/
theorem C60_overshoot (sy sx ey ex : ℤ) {n : ℕ} (hn : (n : ℤ) = max |ey - sy| |ex - sx|) (hne : (sy, sx) ≠ (ey, ex)) :
    ∃ (ys xs : List ℤ) (density : ℝ) (y x : ℤ), dda (sy, sx) (ey, ex) = .ok (ys, xs, density) ∧
      ys.getLast? = some y ∧ xs.getLast? = some x ∧ (y, x) ≠ (ey, ex) ∧
      (|ey - sy| = n → y = ey + (ey - sy).sign) ∧ (|ex - sx| = n → x = ex + (ex - sx).sign) ∧
      |y - ey| ≤ 1 ∧ |x - ex| ≤ 1 := by
  have hn' := lineSteps_of hn
  have hpos : 0 < n := by
    rw [hn']
    apply lineSteps_pos
    by_contra h
    push Not at h
    exact hne (Prod.ext (by simp only; omega) (by simp only; omega))
  have hge := lineSteps_ge (ey - sy) (ex - sx)
  rw [← hn'] at hge
  have h := dda_ok ((sy : ℝ), (sx : ℝ)) ((ey : ℝ), (ex : ℝ)) (y1 := sy) (x1 := sx) (dy := ey - sy) (dx := ex - sx) (n := n)
    (by simp [pyInt_int]) (by simp [pyInt_int]) (by simp [pyInt_int]) (by simp [pyInt_int]) hn' hpos
  have hlast : ∀ f : ℕ → ℤ, ((List.range (n + 2)).map f).getLast? = some (f (n + 1)) := by
    intro f
    rw [List.range_succ, List.map_append]
    simp
  have hover : ∀ a b : ℤ, |b - a| = n → pyInt (lineAt a (b - a) n (n + 1)) = b + (b - a).sign := by
    intro a b hab
    rw [lineAt_over a hpos hab, pyInt_int]
    omega
  have hsign : ∀ d : ℤ, |d| = n → d.sign ≠ 0 := by
    intro d hd hs
    rw [Int.sign_eq_zero_iff_zero] at hs
    subst hs
    simp at hd
    omega
  have hnear : ∀ a b : ℤ, |b - a| ≤ n → |pyInt (lineAt a (b - a) n (n + 1)) - b| ≤ 1 := by
    intro a b hab
    have h1 := pyInt_step (lineAt_step a hpos hab n)
    rw [lineAt_end a _ hpos, pyInt_int] at h1
    rwa [show a + (b - a) = b by omega] at h1
  refine ⟨_, _, _, _, _, h, hlast _, hlast _, ?_, hover _ _, hover _ _, hnear _ _ hge.2, hnear _ _ hge.1⟩
  intro he
  have e1 := congrArg Prod.fst he
  have e2 := congrArg Prod.snd he
  simp only at e1 e2
  rcases max_cases |ey - sy| |ex - sx| with ⟨hm, _⟩ | ⟨hm, _⟩
  · have hd : |ey - sy| = n := by omega
    rw [hover _ _ hd] at e1
    exact hsign _ hd (by omega)
  · have hd : |ex - sx| = n := by omega
    rw [hover _ _ hd] at e2
    exact hsign _ hd (by omega)

/-- Equal points are rejected. -/
theorem C60_equal_points (sy sx : ℤ) : dda (sy, sx) (sy, sx) = .error .valueError := dda_equal _ _ rfl rfl

/-- So the full claim fails for every pair of points: the result never ends at the end. -/
theorem C60_full_claim_false (sy sx ey ex : ℤ) : ¬ ∃ (ys xs : List ℤ) (density : ℝ),
    dda (sy, sx) (ey, ex) = .ok (ys, xs, density) ∧ ys.getLast? = some ey ∧ xs.getLast? = some ex := by
  rintro ⟨ys, xs, d, h1, h2, h3⟩
  by_cases hne : (sy, sx) = (ey, ex)
  · have e1 := congrArg Prod.fst hne
    have e2 := congrArg Prod.snd hne
    simp only at e1 e2
    subst e1 e2
    rw [C60_equal_points] at h1
    cases h1
  · obtain ⟨ys', xs', d', y, x, g1, g2, g3, g4, _⟩ := C60_overshoot sy sx ey ex
      (n := (max |ey - sy| |ex - sx|).toNat) (by rw [Int.toNat_of_nonneg (le_max_of_le_left (abs_nonneg _))]) hne
    rw [h1] at g1
    cases g1
    rw [h2] at g2
    rw [h3] at g3
    cases g2
    cases g3
    exact g4 rfl

/-! ## C62: `bresenham` -/

theorem bresenham_loop {dx dy x1 y1 : ℤ} {sx sy : ℤ} (hdx : 0 < dx) (h0 : 0 ≤ dy) (hle : dy ≤ dx)
    (hsx : sx = 1 ∨ sx = -1) (hsy : sy = 1 ∨ sy = -1) (m : ℕ) (hm : (m : ℤ) ≤ dx) :
    ∃ (f : ℕ → ℤ), f 0 = 0 ∧ (∀ k, k ≤ m → |2 * dx * f k - 2 * dy * k| ≤ dx ∧ 0 ≤ f k ∧ f k ≤ dy) ∧
      (List.range m).foldl (fun s _ => bresenhamBody dx dy (x1 + sx * dx) (y1 + sy * dy) s) (x1, y1, 2 * dy - dx, [y1], [x1]) =
        (x1 + sx * m, y1 + sy * f m, 2 * dy * (m + 1) - 2 * dx * f m - dx, (List.range (m + 1)).map (fun k => y1 + sy * f k),
          (List.range (m + 1)).map (fun k : ℕ => x1 + sx * (k : ℤ))) := by
  induction m with
  | zero =>
    refine ⟨fun _ => 0, rfl, ?_, ?_⟩
    · intro k hk
      have : k = 0 := by omega
      subst this
      refine ⟨?_, le_refl _, h0⟩
      simpa using hdx.le
    · simp
  | succ m ih =>
    obtain ⟨f, hf0, hf, hfold⟩ := ih (by omega)
    obtain ⟨hb, hfm0, hfm⟩ := hf m (le_refl _)
    have hm' : (m : ℤ) + 1 ≤ dx := by exact_mod_cast hm
    let v : ℤ := if 2 * dy * (m + 1) - 2 * dx * f m - dx > 0 then f m + 1 else f m
    have hv : |2 * dx * v - 2 * dy * ((m : ℤ) + 1)| ≤ dx ∧ 0 ≤ v ∧ v ≤ dy := by
      simp only [v]
      rw [abs_le] at hb
      split
      · rename_i hp
        refine ⟨?_, by omega, ?_⟩
        · rw [abs_le]
          constructor <;> nlinarith
        · -- 2 dx (f m) < 2 dy dx - dx
          have h1 : 2 * dy * ((m : ℤ) + 1) ≤ 2 * dy * dx := mul_le_mul_of_nonneg_left hm' (by omega)
          have h2 : dx * (2 * f m + 1) < dx * (2 * dy) := by nlinarith
          have h3 := lt_of_mul_lt_mul_left h2 hdx.le
          omega
      · rename_i hp
        refine ⟨?_, hfm0, hfm⟩
        rw [abs_le]
        constructor <;> nlinarith
    refine ⟨fun k => if k = m + 1 then v else f k, by simp [hf0], ?_, ?_⟩
    · intro k hk
      by_cases hkm : k = m + 1
      · subst hkm
        simp only [if_true]
        push_cast
        exact hv
      · simp only [hkm, if_false]
        exact hf k (by omega)
    · rw [List.range_succ, List.foldl_append, hfold]
      simp only [List.foldl_cons, List.foldl_nil, if_true]
      have hmap : (List.range (m + 1 + 1)).map (fun k => y1 + sy * (if k = m + 1 then v else f k)) =
          (List.range (m + 1)).map (fun k => y1 + sy * f k) ++ [y1 + sy * v] := by
        rw [List.range_succ (n := m + 1), List.map_append]
        congr 1
        · apply List.map_congr_left
          intro k hk
          have := List.mem_range.1 hk
          rw [if_neg (by omega)]
        · simp
      have hmapx : (List.range (m + 1 + 1)).map (fun k : ℕ => x1 + sx * (k : ℤ)) =
          (List.range (m + 1)).map (fun k : ℕ => x1 + sx * (k : ℤ)) ++ [x1 + sx * ((m + 1 : ℕ) : ℤ)] := by
        rw [List.range_succ (n := m + 1), List.map_append]
        rfl
      rw [hmap, hmapx]
      have hx : (if x1 + sx * (m : ℤ) < x1 + sx * dx then x1 + sx * (m : ℤ) + 1 else x1 + sx * (m : ℤ) - 1) = x1 + sx * ((m + 1 : ℕ) : ℤ) := by
        push_cast
        rcases hsx with rfl | rfl
        · rw [if_pos (by omega)]; ring
        · rw [if_neg (by omega)]; ring
      unfold bresenhamBody
      by_cases hp : 2 * dy * ((m : ℤ) + 1) - 2 * dx * f m - dx > 0
      · have hv' : v = f m + 1 := by simp only [v]; rw [if_pos hp]
        have hy : (if y1 + sy * f m < y1 + sy * dy then y1 + sy * f m + 1 else y1 + sy * f m - 1) = y1 + sy * v := by
          have hlt := hv.2.2
          rw [hv'] at hlt ⊢
          rcases hsy with rfl | rfl
          · rw [if_pos (by omega)]; ring
          · rw [if_neg (by omega)]; ring
        simp only [hp, if_true, hy, hx]
        refine Prod.ext rfl (Prod.ext rfl (Prod.ext ?_ rfl))
        simp only [hv']
        push_cast
        ring
      · have hv' : v = f m := by simp only [v]; rw [if_neg hp]
        simp only [hp, if_false, hx]
        rw [hv']
        refine Prod.ext rfl (Prod.ext rfl (Prod.ext ?_ rfl))
        simp only
        push_cast
        ring

theorem foldl_const_range {σ : Type} (g : σ → σ) (s : σ) (a : ℤ) {d : ℤ} (hd : 0 ≤ d) :
    (pyRange a (d + a) 1).foldl (fun s _ => g s) s = (List.range d.toNat).foldl (fun s _ => g s) s := by
  unfold pyRange
  rw [List.foldl_map, show (d + a - a + ((1 : ℕ) : ℤ) - 1) / ((1 : ℕ) : ℤ) = d by simp]

theorem sign_mul {d : ℤ} : ∃ s : ℤ, (s = 1 ∨ s = -1) ∧ d = s * |d| := by
  rcases le_total 0 d with h | h
  · exact ⟨1, .inl rfl, by rw [abs_of_nonneg h]; ring⟩
  · exact ⟨-1, .inr rfl, by rw [abs_of_nonpos h]; ring⟩

/-- If the line is not steep (|Δy| ≤ |Δx|, Δx ≠ 0; the first octant is the case 0 ≤ Δy ≤ Δx), `bresenham` returns
|Δx| + 1 points: the x run one by one from start to end, each y is within half a pixel of the straight line, the first point
is the start and the last one the end. -/
theorem C62_flat_lines (sy sx ey ex : ℤ) (hx : ex ≠ sx) (hflat : |ey - sy| ≤ |ex - sx|) :
    ∃ (ys xs : List ℤ), bresenham (sy, sx) (ey, ex) = .ok (ys, xs) ∧
      ys.length = |ex - sx|.toNat + 1 ∧ xs.length = |ex - sx|.toNat + 1 ∧
      ys.head? = some sy ∧ xs.head? = some sx ∧ ys.getLast? = some ey ∧ xs.getLast? = some ex ∧
      ∀ k, k ≤ |ex - sx|.toNat → ∃ y x : ℤ, ys[k]? = some y ∧ xs[k]? = some x ∧ x = sx + (ex - sx).sign * k ∧
        |(y : ℝ) - (sy + (ey - sy) * ((x : ℝ) - sx) / (ex - sx))| ≤ 1 / 2 := by
  obtain ⟨gx, hgx, hgx'⟩ := sign_mul (d := ex - sx)
  obtain ⟨gy, hgy, hgy'⟩ := sign_mul (d := ey - sy)
  obtain ⟨dx, hdx⟩ : ∃ dx, dx = |ex - sx| := ⟨_, rfl⟩
  obtain ⟨dy, hdy⟩ : ∃ dy, dy = |ey - sy| := ⟨_, rfl⟩
  rw [← hdx] at hgx' hflat ⊢
  rw [← hdy] at hgy' hflat
  have hdx0 : 0 < dx := by rw [hdx]; exact abs_pos.2 (by omega)
  have hdy0 : 0 ≤ dy := by rw [hdy]; exact abs_nonneg _
  obtain ⟨m, hm⟩ : ∃ m : ℕ, (m : ℤ) = dx := ⟨dx.toNat, Int.toNat_of_nonneg hdx0.le⟩
  obtain ⟨f, hf0, hf, hfold⟩ := bresenham_loop (x1 := sx) (y1 := sy) hdx0 hdy0 hflat hgx hgy m hm.le
  have hgrad : ¬ ((dy : ℝ) / (dx : ℝ) > 1) := by
    push Not
    rw [div_le_one (by exact_mod_cast hdx0)]
    exact_mod_cast hflat
  have hsgn : (ex - sx).sign = gx := by
    rw [hgx', Int.sign_mul, Int.sign_eq_one_of_pos hdx0, mul_one]
    rcases hgx with rfl | rfl <;> rfl
  have hrun : bresenham ((sy : ℝ), (sx : ℝ)) ((ey : ℝ), (ex : ℝ)) =
      .ok ((List.range (m + 1)).map (fun k => sy + gy * f k), (List.range (m + 1)).map (fun k : ℕ => sx + gx * (k : ℤ))) := by
    unfold bresenham
    simp only [pyInt_int, ← hdx, ← hdy]
    rw [if_neg (by omega), if_neg hgrad]
    simp only
    rw [foldl_const_range (fun s => bresenhamBody dx dy ex ey s) _ 2 hdx0.le, ← hm, Int.toNat_natCast, hm]
    have e1 : ex = sx + gx * dx := by omega
    have e2 : ey = sy + gy * dy := by omega
    rw [e1, e2, hfold]
  have hmn : dx.toNat = m := by omega
  rw [hmn, hsgn]
  have hget : ∀ (g : ℕ → ℤ) (k : ℕ), k ≤ m → ((List.range (m + 1)).map g)[k]? = some (g k) := by
    intro g k hk
    rw [List.getElem?_map, List.getElem?_range (by omega)]
    rfl
  have hfm : f m = dy := by
    obtain ⟨h1, _, h2⟩ := hf m (le_refl _)
    rw [hm, abs_le] at h1
    have h3 : dx * (2 * dy - 2 * f m) ≤ dx * 1 := by nlinarith
    have := le_of_mul_le_mul_left h3 hdx0
    omega
  refine ⟨_, _, hrun, by simp, by simp, ?_, ?_, ?_, ?_, ?_⟩
  · rw [List.head?_eq_getElem?, hget _ 0 (by omega), hf0]; simp
  · rw [List.head?_eq_getElem?, hget _ 0 (by omega)]; simp
  · rw [List.getLast?_eq_getElem?, List.length_map, List.length_range, Nat.add_sub_cancel, hget _ m (le_refl _), hfm]
    congr 1; omega
  · rw [List.getLast?_eq_getElem?, List.length_map, List.length_range, Nat.add_sub_cancel, hget _ m (le_refl _), hm]
    congr 1; omega
  · intro k hk
    refine ⟨_, _, hget _ k hk, hget _ k hk, rfl, ?_⟩
    obtain ⟨h1, _, _⟩ := hf k hk
    have hdxR : (0 : ℝ) < dx := by exact_mod_cast hdx0
    have h1R : |2 * (dx : ℝ) * f k - 2 * dy * k| ≤ dx := by exact_mod_cast h1
    have exR : ((ex : ℝ) - sx) = gx * dx := by exact_mod_cast hgx'
    have eyR : ((ey : ℝ) - sy) = gy * dy := by exact_mod_cast hgy'
    have hg2 : (gx : ℝ) ≠ 0 := by rcases hgx with rfl | rfl <;> norm_num
    rw [exR, eyR]
    push_cast
    have e : (sy : ℝ) + gy * f k - (sy + gy * dy * (sx + gx * k - sx) / (gx * dx)) = gy * ((2 * dx * f k - 2 * dy * k) / (2 * dx)) := by
      field_simp
      ring
    rw [e, abs_mul, abs_div, abs_of_pos (by linarith : (0 : ℝ) < 2 * dx)]
    have hgy1 : |(gy : ℝ)| = 1 := by rcases hgy with rfl | rfl <;> norm_num
    rw [hgy1, one_mul, div_le_div_iff₀ (by linarith) (by norm_num)]
    linarith

/-- The hypotheses are met in the first octant and elsewhere. -/
example : (9 : ℤ) ≠ 2 ∧ |(4 : ℤ) - 1| ≤ |(9 : ℤ) - 2| ∧ (2 : ℤ) ≠ 9 ∧ |(1 : ℤ) - 4| ≤ |(2 : ℤ) - 9| := by decide

/-- Vertical lines raise `ZeroDivisionError`. -/
theorem C62_vertical (sy sx ey : ℤ) : bresenham (sy, sx) (ey, sx) = .error .zeroDivisionError := by
  unfold bresenham
  simp

/-- Steep lines come back with the two coordinates exchanged: the first list holds x, the second one y. -/
theorem C62_steep_swapped (sy sx ey ex : ℤ) (hx : ex ≠ sx) (hsteep : |ex - sx| < |ey - sy|) :
    bresenham (sy, sx) (ey, ex) = bresenham (sx, sy) (ex, ey) := by
  have h1 : 0 < |ex - sx| := abs_pos.2 (by omega)
  have hg : ((|ey - sy| : ℤ) : ℝ) / ((|ex - sx| : ℤ) : ℝ) > 1 := by
    rw [gt_iff_lt, one_lt_div (by exact_mod_cast h1)]
    exact_mod_cast hsteep
  have hg' : ¬ ((|ex - sx| : ℤ) : ℝ) / ((|ey - sy| : ℤ) : ℝ) > 1 := by
    push Not
    rw [div_le_one (by exact_mod_cast h1.trans hsteep)]
    exact_mod_cast hsteep.le
  unfold bresenham
  simp only [pyInt_int]
  rw [if_neg (by omega : ¬ |ex - sx| = 0), if_neg (by omega : ¬ |ey - sy| = 0), if_pos hg, if_neg hg']

end

end Micropol
