import Verif.Props.LinearRoiValues

/-!
# C61: `linear_roi_from_polar`
-/

set_option autoImplicit false

namespace Micropol

noncomputable section

/-! ## Helper facts -/

/-- The point `k` steps from the centre. -/
def rayAt (c : ℝ × ℝ) (t : ℝ) (k : ℕ) : ℝ × ℝ := (c.1 - k * Real.sin t, c.2 + k * Real.cos t)

theorem rayAt_zero (c : ℝ × ℝ) (t : ℝ) : rayAt c t 0 = c := by simp [rayAt]

theorem rayAt_step (c : ℝ × ℝ) (t : ℝ) (k : ℕ) :
    ((rayAt c t k).1 - Real.sin t, (rayAt c t k).2 + Real.cos t) = rayAt c t (k + 1) := by
  simp only [rayAt]
  push_cast
  ext <;> simp only <;> ring

theorem rayAt_sq (c : ℝ × ℝ) (t : ℝ) (k : ℕ) :
    ((rayAt c t k).2 - c.2) ^ 2 + ((rayAt c t k).1 - c.1) ^ 2 = (k : ℝ) ^ 2 := by
  simp only [rayAt]
  have := Real.sin_sq_add_cos_sq t
  linear_combination (k : ℝ) ^ 2 * this

theorem rayAt_dist (c : ℝ × ℝ) (t : ℝ) (k : ℕ) :
    Real.sqrt (((rayAt c t k).2 - c.2) ^ 2 + ((rayAt c t k).1 - c.1) ^ 2) = k := by
  rw [rayAt_sq, Real.sqrt_sq (by positivity)]

theorem polar_first {c : ℝ × ℝ} {t r0 : ℝ} (h : r0 ≤ 0) : whileLoop
    (fun p : ℝ × ℝ => decide (Real.sqrt ((c.2 - p.2) ^ 2 + (c.1 - p.1) ^ 2) < r0))
    (fun p => (p.1 - Real.sin t, p.2 + Real.cos t)) c = .ok c := by
  apply whileLoop_eq_ok (n := 0)
  apply whileFuel_done
  rw [decide_eq_false_iff_not]
  have := Real.sqrt_nonneg ((c.2 - c.2) ^ 2 + (c.1 - c.1) ^ 2)
  linarith

theorem trimOutside_ok {h w : ℕ} {l l' : List (ℤ × ℤ)} (hl : trimOutside h w l = .ok l') :
    l' <+: l ∧ ∃ q, l'.getLast? = some q ∧ 0 ≤ q.1 ∧ q.1 < h ∧ 0 ≤ q.2 ∧ q.2 < w := by
  induction hn : l.length using Nat.strong_induction_on generalizing l with
  | _ n ih =>
    rw [trimOutside] at hl
    split at hl
    · cases hl
    · rename_i q hq
      split at hl
      · have hlen : l.dropLast.dropLast.length < n := by
          have : l ≠ [] := by rintro rfl; simp at hq
          have : 0 < l.length := List.length_pos_of_ne_nil this
          simp only [List.length_dropLast]
          omega
        obtain ⟨h1, h2⟩ := ih _ hlen hl rfl
        exact ⟨h1.trans ((List.dropLast_prefix _).trans (List.dropLast_prefix _)), h2⟩
      · cases hl
        exact ⟨List.prefix_refl _, q, hq, by omega, by omega, by omega, by omega⟩

theorem getLast?_range_map {α : Type} (n : ℕ) (f : ℕ → α) : ((List.range (n + 1)).map f).getLast? = some (f n) := by
  rw [List.range_succ, List.map_append]
  simp

theorem dropLast_range_map {α : Type} (n : ℕ) (f : ℕ → α) : ((List.range (n + 1)).map f).dropLast = (List.range n).map f := by
  rw [List.range_succ, List.map_append]
  simp

/-- If point `i` is inside and the number of points after it is even, the last loop ends. -/
theorem trimOutside_ends {h w : ℕ} {P : ℕ → ℤ × ℤ} {i : ℕ} (hi : 0 ≤ (P i).1 ∧ (P i).1 < h ∧ 0 ≤ (P i).2 ∧ (P i).2 < w) (j : ℕ) :
    ∃ m, m ≤ i + 1 + 2 * j ∧ trimOutside h w ((List.range (i + 1 + 2 * j)).map P) = .ok ((List.range m).map P) := by
  induction j with
  | zero =>
    refine ⟨i + 1, by omega, ?_⟩
    rw [trimOutside]
    split
    · rename_i hq
      rw [show i + 1 + 2 * 0 = i + 1 by omega, getLast?_range_map] at hq
      cases hq
    · rename_i q hq
      rw [show i + 1 + 2 * 0 = i + 1 by omega, getLast?_range_map] at hq
      cases hq
      rw [if_neg (by omega)]
  | succ j ih =>
    obtain ⟨m, hm, ih⟩ := ih
    by_cases hc : (P (i + 1 + 2 * j + 1)).1 ≥ h ∨ (P (i + 1 + 2 * j + 1)).2 ≥ w ∨ (P (i + 1 + 2 * j + 1)).1 < 0 ∨
        (P (i + 1 + 2 * j + 1)).2 < 0
    · refine ⟨m, by omega, ?_⟩
      rw [trimOutside]
      split
      · rename_i hq
        rw [show i + 1 + 2 * (j + 1) = i + 1 + 2 * j + 1 + 1 by omega, getLast?_range_map] at hq
        cases hq
      · rename_i q hq
        rw [show i + 1 + 2 * (j + 1) = i + 1 + 2 * j + 1 + 1 by omega, getLast?_range_map] at hq
        cases hq
        rw [if_pos hc, show i + 1 + 2 * (j + 1) = i + 1 + 2 * j + 1 + 1 by omega, dropLast_range_map, dropLast_range_map, ih]
    · refine ⟨i + 1 + 2 * (j + 1), le_refl _, ?_⟩
      rw [trimOutside]
      split
      · rename_i hq
        rw [show i + 1 + 2 * (j + 1) = i + 1 + 2 * j + 1 + 1 by omega, getLast?_range_map] at hq
        cases hq
      · rename_i q hq
        rw [show i + 1 + 2 * (j + 1) = i + 1 + 2 * j + 1 + 1 by omega, getLast?_range_map] at hq
        cases hq
        rw [if_neg hc]

theorem lineAt_mono (a d : ℤ) (n : ℕ) {i j : ℕ} (hij : i ≤ j) :
    (0 ≤ d → pyInt (lineAt a d n i) ≤ pyInt (lineAt a d n j)) ∧ (d ≤ 0 → pyInt (lineAt a d n j) ≤ pyInt (lineAt a d n i)) := by
  have hij' : (i : ℝ) ≤ j := by exact_mod_cast hij
  have hn : (0 : ℝ) ≤ n := by positivity
  constructor
  · intro hd
    have hd' : (0 : ℝ) ≤ d := by exact_mod_cast hd
    apply pyInt_mono
    unfold lineAt
    have := mul_le_mul_of_nonneg_right hij' (div_nonneg hd' hn)
    linarith
  · intro hd
    have hd' : (d : ℝ) ≤ 0 := by exact_mod_cast hd
    apply pyInt_mono
    unfold lineAt
    have := mul_le_mul_of_nonpos_right hij' (div_nonpos_of_nonpos_of_nonneg hd' hn)
    linarith

theorem lineAt_inside {a d : ℤ} {n m k : ℕ} {b : ℕ} (hkm : k ≤ m) (h0 : 0 ≤ a ∧ a < b)
    (hm : 0 ≤ pyInt (lineAt a d n m) ∧ pyInt (lineAt a d n m) < b) :
    0 ≤ pyInt (lineAt a d n k) ∧ pyInt (lineAt a d n k) < b := by
  have h1 := lineAt_mono a d n (Nat.zero_le k)
  have h2 := lineAt_mono a d n hkm
  rw [lineAt_zero, pyInt_int] at h1
  rcases le_total 0 d with hd | hd
  · have a1 := h1.1 hd
    have a2 := h2.1 hd
    omega
  · have a1 := h1.2 hd
    have a2 := h2.2 hd
    omega

theorem pyInt_range {x : ℝ} {b : ℕ} (h0 : 0 ≤ x) (hb : x < b) : 0 ≤ pyInt x ∧ pyInt x < b := by
  rw [pyInt_of_nonneg h0]
  exact ⟨Int.floor_nonneg.2 h0, Int.floor_lt.2 (by exact_mod_cast hb)⟩

theorem prefix_range_map {α : Type} {n : ℕ} {f : ℕ → α} {l : List α} (h : l <+: (List.range n).map f) :
    l.length ≤ n ∧ l = (List.range l.length).map f := by
  have hl : l.length ≤ n := by simpa using h.length_le
  refine ⟨hl, ?_⟩
  have e : l = ((List.range n).map f).take l.length := (List.prefix_iff_eq_take.1 h)
  conv_lhs => rw [e]
  rw [← List.map_take, List.take_range, Nat.min_eq_left hl]

/-- What the function does once the end is known. -/
theorem polar_tail {data : Img ℝ} {c p2 : ℝ × ℝ} (hy : 0 ≤ c.1 ∧ c.1 < data.h) (hx : 0 ≤ c.2 ∧ c.2 < data.w)
    {ys xs : List ℤ} {d : ℝ} {l : List (ℤ × ℤ)} (hd : dda c p2 = .ok (ys, xs, d)) (hl : trimOutside data.h data.w (ys.zip xs) = .ok l) :
    ∃ vals, l.mapM (fun q => npGet data q.1 q.2) = .ok vals ∧ ValuesAt data (l.map (·.1)) (l.map (·.2)) vals ∧
      l.head? = some (pyInt c.1, pyInt c.2) := by
  have hne : pyInt p2.1 - pyInt c.1 ≠ 0 ∨ pyInt p2.2 - pyInt c.2 ≠ 0 := by
    by_contra h
    push Not at h
    rw [dda_equal c p2 (by omega) (by omega)] at hd
    cases hd
  have hpos := lineSteps_pos hne
  rw [dda_ok c p2 rfl rfl rfl rfl rfl hpos] at hd
  cases hd
  rw [zip_map_range] at hl
  obtain ⟨hpre, q, hq, hq1, hq2, hq3, hq4⟩ := trimOutside_ok hl
  obtain ⟨hlen, he⟩ := prefix_range_map hpre
  generalize hm : l.length = m at he hlen
  have hm0 : 0 < m := by
    rw [← hm]
    apply List.length_pos_of_ne_nil
    rintro rfl
    simp at hq
  obtain ⟨m, rfl⟩ : ∃ m', m = m' + 1 := ⟨m - 1, by omega⟩
  subst he
  rw [getLast?_range_map] at hq
  cases hq
  obtain ⟨h1, h2⟩ := valuesAt_of (data := data) (n := m + 1)
    (f := fun k => pyInt (lineAt (pyInt c.1) (pyInt p2.1 - pyInt c.1) (lineSteps (pyInt p2.1 - pyInt c.1) (pyInt p2.2 - pyInt c.2)) k))
    (g := fun k => pyInt (lineAt (pyInt c.2) (pyInt p2.2 - pyInt c.2) (lineSteps (pyInt p2.1 - pyInt c.1) (pyInt p2.2 - pyInt c.2)) k)) (by
      intro k hk
      have a := lineAt_inside (k := k) (m := m) (by omega) (pyInt_range hy.1 hy.2) ⟨hq1, hq2⟩
      have b := lineAt_inside (k := k) (m := m) (by omega) (pyInt_range hx.1 hx.2) ⟨hq3, hq4⟩
      exact ⟨a.1, a.2, b.1, b.2⟩)
  refine ⟨_, h1, ?_, ?_⟩
  · rw [List.map_map, List.map_map]
    exact h2
  · rw [List.range_succ_eq_map]
    simp [lineAt_zero, pyInt_int]

theorem polar_second_point {a d : ℤ} {b n : ℕ} (ha : 2 ≤ a) (hab : a < b) (h0 : 0 ≤ a + d) (h1 : a + d ≤ b) (hdn : |d| ≤ n) (hn2 : 2 ≤ n) :
    0 ≤ pyInt (lineAt a d n 1) ∧ pyInt (lineAt a d n 1) < b := by
  have hpos : 0 < n := by omega
  have hb := lineAt_between a d hpos (k := 1) (by omega)
  refine ⟨by omega, ?_⟩
  have hst := pyInt_step (lineAt_step a hpos hdn 0)
  rw [lineAt_zero, pyInt_int, abs_le] at hst
  simp only [zero_add] at hst
  rcases lt_or_eq_of_le (show pyInt (lineAt a d n 1) ≤ b by omega) with h | h
  · exact h
  · exfalso
    have hab' : a = b - 1 := by omega
    have hge0 : (0 : ℝ) ≤ lineAt a d n 1 := by
      by_contra hneg
      push Not at hneg
      have := pyInt_mono hneg.le
      have h00 : pyInt (0 : ℝ) = 0 := by simpa using pyInt_int 0
      omega
    rw [pyInt_of_nonneg hge0] at h
    have h3 := Int.floor_le (lineAt a d n 1)
    rw [h] at h3
    unfold lineAt at h3
    have hn' : (0 : ℝ) < n := by positivity
    have h4 : (1 : ℝ) ≤ (d : ℝ) / n := by
      have : (a : ℝ) = b - 1 := by rw [hab']; push_cast; ring
      push_cast at h3
      linarith
    rw [le_div_iff₀ hn', one_mul] at h4
    have h5 : (n : ℤ) ≤ d := by exact_mod_cast h4
    omega

theorem polar_end_differs {c p : ℝ × ℝ} {cy cx : ℤ} {H W : ℕ} {K R : ℝ} (i1 : c.1 = cy) (i2 : c.2 = cx)
    (hy : 2 ≤ cy ∧ cy < H) (hx : 2 ≤ cx ∧ cx < W) (hR : 3 ≤ R) (p1 : 0 ≤ p.1) (p2 : 0 ≤ p.2)
    (hsq : (p.2 - c.2) ^ 2 + (p.1 - c.1) ^ 2 = K ^ 2)
    (hKf : ¬ (p.1 < H ∧ p.1 > 1 ∧ p.2 < W ∧ p.2 > 1 ∧ K < R - 1)) : pyInt p.1 - cy ≠ 0 ∨ pyInt p.2 - cx ≠ 0 := by
  by_contra hcon
  push Not at hcon
  have f1 : pyInt p.1 = cy := by omega
  have f2 : pyInt p.2 = cx := by omega
  rw [pyInt_of_nonneg p1, Int.floor_eq_iff] at f1
  rw [pyInt_of_nonneg p2, Int.floor_eq_iff] at f2
  have hyh : (cy : ℝ) + 1 ≤ H := by exact_mod_cast (by omega : cy + 1 ≤ H)
  have hxw : (cx : ℝ) + 1 ≤ W := by exact_mod_cast (by omega : cx + 1 ≤ W)
  have hy2 : (2 : ℝ) ≤ cy := by exact_mod_cast hy.1
  have hx2 : (2 : ℝ) ≤ cx := by exact_mod_cast hx.1
  have hKr : ¬ K < R - 1 := fun h => hKf ⟨by linarith, by linarith, by linarith, by linarith, h⟩
  have hK2 : (2 : ℝ) ≤ K := by linarith
  have d1 : (p.1 - c.1) ^ 2 ≤ 1 ^ 2 := by
    apply sq_le_sq' <;> rw [i1] <;> linarith
  have d2 : (p.2 - c.2) ^ 2 ≤ 1 ^ 2 := by
    apply sq_le_sq' <;> rw [i2] <;> linarith
  have d3 : (2 : ℝ) ^ 2 ≤ K ^ 2 := by
    apply sq_le_sq' <;> linarith
  rw [one_pow] at d1 d2
  have : (2 : ℝ) ^ 2 = 4 := by norm_num
  linarith

/-- The second loop ends. -/
theorem polar_exit {c : ℝ × ℝ} {t R : ℝ} {H W : ℕ} (hy : 2 ≤ c.1 ∧ c.1 < H) (hx : 2 ≤ c.2 ∧ c.2 < W) :
    ∃ k, ¬ ((rayAt c t k).1 < H ∧ (rayAt c t k).1 > 1 ∧ (rayAt c t k).2 < W ∧ (rayAt c t k).2 > 1 ∧ (k : ℝ) < R - 1) := by
  refine ⟨H + W, ?_⟩
  rintro ⟨a1, a2, a3, a4, _⟩
  have hsq := rayAt_sq c t (H + W)
  push_cast at hsq
  have hhp : (0 : ℝ) < H := by linarith [hy.1, hy.2]
  have hwp : (0 : ℝ) < W := by linarith [hx.1, hx.2]
  have b1 : ((rayAt c t (H + W)).1 - c.1) ^ 2 ≤ (H : ℝ) ^ 2 := by
    apply sq_le_sq' <;> linarith [hy.1, hy.2]
  have b2 : ((rayAt c t (H + W)).2 - c.2) ^ 2 ≤ (W : ℝ) ^ 2 := by
    apply sq_le_sq' <;> linarith [hx.1, hx.2]
  have := mul_pos hhp hwp
  nlinarith

/-! ## Theorems -/

/-- Whatever the angle and the maximum radius: for a centre in the image and no minimum radius, a result consists of pixels
of the image and the values there, starting from the pixel of the centre. -/
theorem C61_polar_inside {data : Img ℝ} {c : ℝ × ℝ} {theta : ℝ} {r : Option (ℝ × ℝ)}
    (hy : 0 ≤ c.1 ∧ c.1 < data.h) (hx : 0 ≤ c.2 ∧ c.2 < data.w) (hr : ∀ q, r = some q → q.1 ≤ 0)
    {vals : List ℝ} {ys xs : List ℤ} {d : ℝ} (h : linearRoiFromPolar data c theta r = .ok (vals, ys, xs, d)) :
    ValuesAt data ys xs vals ∧ ys.head? = some ⌊c.1⌋ ∧ xs.head? = some ⌊c.2⌋ := by
  have hr0 : (r.getD (0, 10 ^ 18)).1 ≤ 0 := by
    cases r with
    | none => simp
    | some q => exact hr q rfl
  unfold linearRoiFromPolar at h
  dsimp only at h
  rw [polar_first hr0, Py.ok_bind] at h
  obtain ⟨p2, _, h⟩ := Py.bind_eq_ok.1 h
  obtain ⟨⟨ys', xs', d'⟩, hd, h⟩ := Py.bind_eq_ok.1 h
  obtain ⟨l, hl, h⟩ := Py.bind_eq_ok.1 h
  obtain ⟨v, hv, h⟩ := Py.bind_eq_ok.1 h
  cases h
  obtain ⟨vals', h1, h2, h3⟩ := polar_tail hy hx hd hl
  rw [hv] at h1
  cases h1
  refine ⟨h2, ?_, ?_⟩
  · rw [List.head?_map, h3, Option.map_some, pyInt_of_nonneg hy.1]
  · rw [List.head?_map, h3, Option.map_some, pyInt_of_nonneg hx.1]

theorem polar_succeeds {data : Img ℝ} {c : ℝ × ℝ} {cy cx : ℤ} (hc1 : c.1 = cy) (hc2 : c.2 = cx) (theta : ℝ) {r : Option (ℝ × ℝ)}
    (hy : 2 ≤ cy ∧ cy < data.h) (hx : 2 ≤ cx ∧ cx < data.w) (hr : ∀ q, r = some q → q.1 ≤ 0 ∧ 3 ≤ q.2) :
    ∃ vals ys xs d, linearRoiFromPolar data c theta r = .ok (vals, ys, xs, d) ∧ ValuesAt data ys xs vals ∧
      ys.head? = some cy ∧ xs.head? = some cx := by
  have hr0 : (r.getD (0, 10 ^ 18)).1 ≤ 0 ∧ 3 ≤ (r.getD (0, 10 ^ 18)).2 := by
    cases r with
    | none => norm_num
    | some q => exact hr q rfl
  have hcy : (2 : ℝ) ≤ c.1 ∧ c.1 < data.h := by rw [hc1]; exact ⟨by exact_mod_cast hy.1, by exact_mod_cast hy.2⟩
  have hcx : (2 : ℝ) ≤ c.2 ∧ c.2 < data.w := by rw [hc2]; exact ⟨by exact_mod_cast hx.1, by exact_mod_cast hx.2⟩
  generalize ht : theta * Real.pi / 180 = t
  obtain ⟨R, hR⟩ : ∃ R, R = (r.getD (0, 10 ^ 18)).2 := ⟨_, rfl⟩
  obtain ⟨cond, hcond⟩ : ∃ cond : ℝ × ℝ → Bool, cond = fun p : ℝ × ℝ => decide (p.1 < data.h ∧ p.1 > 1 ∧ p.2 < data.w ∧ p.2 > 1 ∧
      Real.sqrt ((p.2 - c.2) ^ 2 + (p.1 - c.1) ^ 2) < R - 1) := ⟨_, rfl⟩
  have hcond' : ∀ k, cond (rayAt c t k) = true ↔ ((rayAt c t k).1 < data.h ∧ (rayAt c t k).1 > 1 ∧ (rayAt c t k).2 < data.w ∧
      (rayAt c t k).2 > 1 ∧ (k : ℝ) < R - 1) := by
    intro k
    rw [hcond]
    dsimp only
    rw [decide_eq_true_iff, rayAt_dist]
  have hex : ∃ k, cond (rayAt c t k) = false := by
    obtain ⟨k, hk⟩ := polar_exit (t := t) (R := R) hcy hcx
    exact ⟨k, by rw [Bool.eq_false_iff, Ne, hcond']; exact hk⟩
  classical
  obtain ⟨K, hKf, hlt⟩ : ∃ K, cond (rayAt c t K) = false ∧ ∀ k, k < K → cond (rayAt c t k) = true :=
    ⟨Nat.find hex, Nat.find_spec hex, fun k hk => by
      have := Nat.find_min hex hk
      rwa [Bool.not_eq_false] at this⟩
  have hK0 : 0 < K := by
    rcases Nat.eq_zero_or_pos K with h | h
    · rw [h, Bool.eq_false_iff, Ne, hcond', rayAt_zero] at hKf
      exfalso
      apply hKf
      refine ⟨hcy.2, by linarith, hcx.2, by linarith, ?_⟩
      push_cast
      linarith
    · exact h
  have hloop : whileLoop cond (fun p => (p.1 - Real.sin t, p.2 + Real.cos t)) c = .ok (rayAt c t K) := by
    have := whileLoop_iter (cond := cond) (body := fun p => (p.1 - Real.sin t, p.2 + Real.cos t)) K (rayAt c t) hlt
      (fun k _ => rayAt_step c t k) hKf
    rwa [rayAt_zero] at this
  -- the end is at most one step outside
  obtain ⟨K', hK'⟩ : ∃ K', K = K' + 1 := ⟨K - 1, by omega⟩
  have hprev := (hcond' K').1 (hlt K' (by omega))
  have hstep := rayAt_step c t K'
  rw [← hK'] at hstep
  have hs1 := Real.neg_one_le_sin t
  have hs2 := Real.sin_le_one t
  have hcs1 := Real.neg_one_le_cos t
  have hcs2 := Real.cos_le_one t
  have e1 : (rayAt c t K).1 = (rayAt c t K').1 - Real.sin t := (congrArg Prod.fst hstep).symm
  have e2 : (rayAt c t K).2 = (rayAt c t K').2 + Real.cos t := (congrArg Prod.snd hstep).symm
  have p1 : 0 ≤ (rayAt c t K).1 ∧ (rayAt c t K).1 < (data.h + 1 : ℕ) := by
    push_cast; constructor <;> linarith [hprev.1, hprev.2.1]
  have p2 : 0 ≤ (rayAt c t K).2 ∧ (rayAt c t K).2 < (data.w + 1 : ℕ) := by
    push_cast; constructor <;> linarith [hprev.2.2.1, hprev.2.2.2.1]
  have q1 := pyInt_range p1.1 p1.2
  have q2 := pyInt_range p2.1 p2.2
  have i1 : pyInt c.1 = cy := by rw [hc1, pyInt_int]
  have i2 : pyInt c.2 = cx := by rw [hc2, pyInt_int]
  -- the end is another pixel than the centre
  have hne : pyInt (rayAt c t K).1 - cy ≠ 0 ∨ pyInt (rayAt c t K).2 - cx ≠ 0 :=
    polar_end_differs (R := R) hc1 hc2 hy hx (by rw [hR]; exact hr0.2) p1.1 p2.1 (rayAt_sq c t K) (fun h => by
      rw [(hcond' K).2 h] at hKf
      cases hKf)
  obtain ⟨dy, hdy⟩ : ∃ dy, dy = pyInt (rayAt c t K).1 - cy := ⟨_, rfl⟩
  obtain ⟨dx, hdx⟩ : ∃ dx, dx = pyInt (rayAt c t K).2 - cx := ⟨_, rfl⟩
  rw [← hdy, ← hdx] at hne
  have hpos := lineSteps_pos hne
  obtain ⟨n, hn⟩ : ∃ n, n = lineSteps dy dx := ⟨_, rfl⟩
  rw [← hn] at hpos
  have hge := lineSteps_ge dy dx
  rw [← hn] at hge
  have hd := dda_ok c (rayAt c t K) (y1 := cy) (x1 := cx) (dy := dy) (dx := dx) (n := n) i1.symm i2.symm (by rw [hdy, i1])
    (by rw [hdx, i2]) hn hpos
  obtain ⟨P, hP⟩ : ∃ P : ℕ → ℤ × ℤ, P = fun k => (pyInt (lineAt cy dy n k), pyInt (lineAt cx dx n k)) := ⟨_, rfl⟩
  have hz : 0 ≤ (P 0).1 ∧ (P 0).1 < data.h ∧ 0 ≤ (P 0).2 ∧ (P 0).2 < data.w := by
    simp only [hP, lineAt_zero, pyInt_int]
    omega
  have htrim : ∃ m, trimOutside data.h data.w ((List.range (n + 2)).map P) = .ok ((List.range m).map P) := by
    rcases Nat.even_or_odd' n with ⟨j, hj | hj⟩
    · have hone : 0 ≤ (P 1).1 ∧ (P 1).1 < data.h ∧ 0 ≤ (P 1).2 ∧ (P 1).2 < data.w := by
        have a := polar_second_point (a := cy) (d := dy) (n := n) hy.1 hy.2 (by omega) (by omega) hge.2 (by omega)
        have b := polar_second_point (a := cx) (d := dx) (n := n) hx.1 hx.2 (by omega) (by omega) hge.1 (by omega)
        rw [hP]
        exact ⟨a.1, a.2, b.1, b.2⟩
      obtain ⟨m, _, h⟩ := trimOutside_ends hone j
      exact ⟨m, by rw [show n + 2 = 1 + 1 + 2 * j by omega]; exact h⟩
    · obtain ⟨m, _, h⟩ := trimOutside_ends hz (j + 1)
      exact ⟨m, by rw [show n + 2 = 0 + 1 + 2 * (j + 1) by omega]; exact h⟩
  obtain ⟨m, htrim⟩ := htrim
  have htrim' : trimOutside data.h data.w (((List.range (n + 2)).map (fun k => pyInt (lineAt cy dy n k))).zip
      ((List.range (n + 2)).map (fun k => pyInt (lineAt cx dx n k)))) = .ok ((List.range m).map P) := by
    rw [zip_map_range, ← htrim, hP]
  obtain ⟨vals, v1, v2, v3⟩ := polar_tail (c := c) ⟨by linarith, hcy.2⟩ ⟨by linarith, hcx.2⟩ hd htrim'
  refine ⟨vals, _, _, Real.sqrt ((dx : ℝ) ^ 2 + (dy : ℝ) ^ 2) / ((n + 2 : ℕ) : ℝ), ?_, v2, ?_, ?_⟩
  · unfold linearRoiFromPolar
    dsimp only
    rw [polar_first hr0.1, Py.ok_bind]
    have hl2 : whileLoop (fun p : ℝ × ℝ => decide (p.1 < data.h ∧ p.1 > 1 ∧ p.2 < data.w ∧ p.2 > 1 ∧
      Real.sqrt ((p.2 - (c.2)) ^ 2 + (p.1 - (c.1)) ^ 2) < (r.getD (0, 10 ^ 18)).2 - 1))
      (fun p => (p.1 - Real.sin (theta * Real.pi / 180), p.2 + Real.cos (theta * Real.pi / 180))) c = .ok (rayAt c t K) := by
      rw [ht, ← hR, ← hcond]
      exact hloop
    rw [hl2, Py.ok_bind, hd, Py.ok_bind]
    dsimp only
    rw [htrim', Py.ok_bind, v1, Py.ok_bind]
    rfl
  · rw [List.head?_map, v3, Option.map_some, i1]
  · rw [List.head?_map, v3, Option.map_some, i2]

/-- There is a result for every angle, when the centre is a pixel not in the first two rows or columns, without a minimum
radius and with a maximum radius of at least 3. -/
theorem C61_polar_succeeds {data : Img ℝ} {cy cx : ℤ} (theta : ℝ) {r : Option (ℝ × ℝ)}
    (hy : 2 ≤ cy ∧ cy < data.h) (hx : 2 ≤ cx ∧ cx < data.w) (hr : ∀ q, r = some q → q.1 ≤ 0 ∧ 3 ≤ q.2) :
    ∃ vals ys xs d, linearRoiFromPolar data (cy, cx) theta r = .ok (vals, ys, xs, d) ∧ ValuesAt data ys xs vals ∧
      ys.head? = some cy ∧ xs.head? = some cx :=
  polar_succeeds rfl rfl theta hy hx hr

/-- The hypotheses are met by a 20 × 30 image, centre (7, 11), radii 0 to 5. -/
example : (2 ≤ (7 : ℤ) ∧ (7 : ℤ) < ((Img.zeros 20 30 : Img ℝ).h : ℤ)) ∧ (2 ≤ (11 : ℤ) ∧ (11 : ℤ) < ((Img.zeros 20 30 : Img ℝ).w : ℤ)) ∧
    ∀ q : ℝ × ℝ, some (0, 5) = some q → q.1 ≤ 0 ∧ 3 ≤ q.2 := by
  refine ⟨⟨by norm_num, by show (7 : ℤ) < (20 : ℕ); norm_num⟩, ⟨by norm_num, by show (11 : ℤ) < (30 : ℕ); norm_num⟩, ?_⟩
  rintro q hq
  cases hq
  norm_num

/-- With a centre in the first two rows or columns there is never a result: `ValueError`, for every angle. -/
theorem C61_polar_border_centre {data : Img ℝ} {c : ℝ × ℝ} (theta : ℝ) {r : Option (ℝ × ℝ)}
    (hc : c.1 ≤ 1 ∨ c.2 ≤ 1) (hr : ∀ q, r = some q → q.1 ≤ 0) :
    linearRoiFromPolar data c theta r = .error .valueError := by
  have hr0 : (r.getD (0, 10 ^ 18)).1 ≤ 0 := by
    cases r with
    | none => simp
    | some q => exact hr q rfl
  unfold linearRoiFromPolar
  dsimp only
  rw [polar_first hr0, Py.ok_bind]
  rw [whileLoop_eq_ok (n := 0) (whileFuel_done (by
    rw [decide_eq_false_iff_not]
    rintro ⟨_, h1, _, h2, _⟩
    rcases hc with hc | hc <;> linarith) 0), Py.ok_bind, dda_equal _ _ rfl rfl]
  rfl

/-- Along a row (angle 0): exactly the pixels from the centre to the right edge of the image. -/
theorem C61_polar_row {data : Img ℝ} {cy cx : ℤ} (hy : 2 ≤ cy ∧ cy < data.h) (hx : 2 ≤ cx ∧ cx < data.w)
    (hw : (data.w : ℝ) < 10 ^ 17) :
    ∃ d, linearRoiFromPolar data (cy, cx) 0 none = .ok ((List.range (data.w - cx.toNat)).map (fun k => data.px cy.toNat (cx.toNat + k)),
      List.replicate (data.w - cx.toNat) cy, (List.range (data.w - cx.toNat)).map (fun k : ℕ => cx + k), d) := by
  obtain ⟨X, rfl⟩ : ∃ X : ℕ, cx = X := ⟨cx.toNat, by omega⟩
  obtain ⟨Y, rfl⟩ : ∃ Y : ℕ, cy = Y := ⟨cy.toNat, by omega⟩
  obtain ⟨n, hn⟩ : ∃ n : ℕ, data.w = X + n := ⟨data.w - X, by omega⟩
  have hn0 : 0 < n := by omega
  simp only [Int.toNat_natCast]
  rw [show data.w - X = n by omega]
  generalize hc : (((Y : ℤ) : ℝ), ((X : ℤ) : ℝ)) = c
  have hray : ∀ k, rayAt c 0 k = (((Y : ℤ) : ℝ), (((X + k : ℕ) : ℤ) : ℝ)) := by
    intro k
    simp [rayAt, ← hc]
  have hloop : whileLoop (fun p : ℝ × ℝ => decide (p.1 < data.h ∧ p.1 > 1 ∧ p.2 < data.w ∧ p.2 > 1 ∧
      Real.sqrt ((p.2 - c.2) ^ 2 + (p.1 - c.1) ^ 2) < 10 ^ 18 - 1))
      (fun p => (p.1 - Real.sin 0, p.2 + Real.cos 0)) c = .ok (rayAt c 0 n) := by
    have := whileLoop_iter (cond := fun p : ℝ × ℝ => decide (p.1 < data.h ∧ p.1 > 1 ∧ p.2 < data.w ∧ p.2 > 1 ∧
      Real.sqrt ((p.2 - c.2) ^ 2 + (p.1 - c.1) ^ 2) < 10 ^ 18 - 1)) (body := fun p => (p.1 - Real.sin 0, p.2 + Real.cos 0)) n
      (rayAt c 0) ?_ (fun k _ => rayAt_step c 0 k) ?_
    · rwa [rayAt_zero] at this
    · intro k hk
      rw [decide_eq_true_iff, rayAt_dist, hray]
      have hk' : (k : ℝ) ≤ data.w := by exact_mod_cast (by omega : k ≤ data.w)
      dsimp only
      refine ⟨by exact_mod_cast hy.2, by exact_mod_cast (by omega : 1 < Y), by rw [hn]; exact_mod_cast (by omega : X + k < X + n),
        by exact_mod_cast (by omega : 1 < X + k), ?_⟩
      norm_num at hw ⊢
      linarith
    · rw [decide_eq_false_iff_not, hray]
      rintro ⟨_, _, h, _⟩
      rw [hn] at h
      simp only [Int.cast_natCast, lt_self_iff_false] at h
  have hls : lineSteps 0 (n : ℤ) = n := by
    have := lineSteps_eq 0 (n : ℤ)
    rw [abs_zero, abs_of_nonneg (by omega : (0 : ℤ) ≤ n), if_pos (by omega)] at this
    exact_mod_cast this
  have hd := dda_ok c (rayAt c 0 n) (y1 := Y) (x1 := X) (dy := 0) (dx := n) (n := n) (by rw [← hc]; exact (pyInt_int _).symm) (by rw [← hc]; exact (pyInt_int _).symm)
    (by rw [hray]; simp only [← hc, pyInt_int]; omega) (by rw [hray]; simp only [← hc, pyInt_int]; push_cast; omega) hls.symm hn0
  have hP : ∀ k, (pyInt (lineAt Y 0 n k), pyInt (lineAt X n n k)) = ((Y : ℤ), ((X + k : ℕ) : ℤ)) := by
    intro k
    have hn' : (n : ℝ) ≠ 0 := by positivity
    have e1 : lineAt Y 0 n k = ((Y : ℤ) : ℝ) := by simp [lineAt]
    have e2 : lineAt X n n k = (((X + k : ℕ) : ℤ) : ℝ) := by
      unfold lineAt
      push_cast
      field_simp
    rw [e1, e2, pyInt_int, pyInt_int]
  have htrim : trimOutside data.h data.w (((List.range (n + 2)).map (fun k => pyInt (lineAt Y 0 n k))).zip
      ((List.range (n + 2)).map (fun k => pyInt (lineAt X n n k)))) = .ok ((List.range n).map (fun k => ((Y : ℤ), ((X + k : ℕ) : ℤ)))) := by
    rw [zip_map_range]
    simp only [hP]
    rw [trimOutside]
    split
    · rename_i hq
      rw [getLast?_range_map] at hq
      cases hq
    · rename_i q hq
      rw [getLast?_range_map] at hq
      cases hq
      rw [if_pos (by right; left; simp only; omega), dropLast_range_map, dropLast_range_map]
      obtain ⟨n', rfl⟩ : ∃ n', n = n' + 1 := ⟨n - 1, by omega⟩
      rw [trimOutside]
      split
      · rename_i hq
        rw [getLast?_range_map] at hq
        cases hq
      · rename_i q hq
        rw [getLast?_range_map] at hq
        cases hq
        rw [if_neg (by simp only; omega)]
  refine ⟨Real.sqrt (((n : ℤ) : ℝ) ^ 2 + ((0 : ℤ) : ℝ) ^ 2) / ((n + 2 : ℕ) : ℝ), ?_⟩
  unfold linearRoiFromPolar
  dsimp only [Option.getD_none]
  rw [polar_first (le_refl _), Py.ok_bind]
  have hzero : (0 : ℝ) * Real.pi / 180 = 0 := by simp
  rw [hzero]
  rw [show whileLoop _ _ _ = _ from hloop, Py.ok_bind, hd, Py.ok_bind]
  dsimp only
  rw [htrim, Py.ok_bind, mapM_all_ok (g := fun q : ℤ × ℤ => data.px q.1.toNat q.2.toNat), Py.ok_bind]
  · simp only [List.map_map]
    refine congrArg Except.ok (Prod.ext ?_ (Prod.ext ?_ (Prod.ext ?_ rfl)))
    · rfl
    · simp only
      rw [show ((fun q : ℤ × ℤ => q.1) ∘ fun k : ℕ => ((Y : ℤ), ((X + k : ℕ) : ℤ))) = Function.const ℕ (Y : ℤ) from rfl,
        List.map_const, List.length_range]
    · simp only
      apply List.map_congr_left
      intro k _
      simp
  · intro q hq
    rw [List.mem_map] at hq
    obtain ⟨k, hk, rfl⟩ := hq
    have := List.mem_range.1 hk
    exact npGet_inside ⟨by simp only; omega, by simp only; omega, by simp only; omega, by simp only; omega⟩

end

end Micropol
