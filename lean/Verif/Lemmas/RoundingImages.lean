import Verif.Lemmas.Rounding
import Verif.Lemmas.NumPy

/-! Rounded arithmetic on images: what is exact, what is near. -/

set_option autoImplicit false
set_option linter.unusedSectionVars false

namespace Micropol

section
variable {R : ℝ → ℝ}

theorem reals_ofFn_eq {h w : Nat} {f : Nat → Nat → Fl R} {g : Nat → Nat → ℝ}
    (hfg : ∀ y x, y < h → x < w → (f y x).val = g y x) : (Img.ofFn h w f).reals = Img.ofFn h w g := by
  rw [reals_ofFn]
  exact Img.ofFn_congr hfg

theorem split_reals {d : Img (Fl R)} {s : Fin 4 → Img (Fl R)} (hs : splitPolarizations d = .ok s) :
    splitPolarizations d.reals = .ok (fun k => (s k).reals) := by
  obtain ⟨hh, hw⟩ := split_even hs
  rw [split_ok hh hw] at hs
  injection hs with hs
  subst hs
  rw [split_ok (by exact hh) (by exact hw)]
  congr 1
  funext k
  rw [reals_ofFn]
  refine Img.ofFn_congr ?_
  intro y x _ _
  exact reals_px d _ _

theorem stacked_reals (d : Img (Fl R)) :
    (hstackLast2 (vstackLast2 d)).reals = hstackLast2 (vstackLast2 d.reals) := by
  have hv : ∀ y x, (vstackLast2 d.reals).px y x = ((vstackLast2 d).px y x).val := by
    intro y x
    unfold vstackLast2
    rw [Img.ofFn_px', Img.ofFn_px']
    by_cases hc : y < d.h + min 2 d.h ∧ x < d.w
    · refine (if_pos hc).trans (Eq.trans ?_ (congrArg Fl.val (if_pos hc)).symm)
      by_cases hy : y < d.h
      · exact (if_pos hy).trans ((reals_px _ _ _).trans (congrArg Fl.val (if_pos hy)).symm)
      · exact (if_neg hy).trans ((reals_px _ _ _).trans (congrArg Fl.val (if_neg hy)).symm)
    · exact (if_neg hc).trans (congrArg Fl.val (if_neg hc)).symm
  unfold hstackLast2
  rw [reals_ofFn]
  refine Img.ext_px rfl rfl ?_
  intro y x hy hx
  rw [Img.ofFn_px (by exact hy) (by exact hx), Img.ofFn_px (by exact hy) (by exact hx)]
  simp only [hv]
  show Fl.val (if x < d.w then _ else _) = if x < d.w then _ else _
  split <;> rfl

theorem stacked_whole {d : Img (Fl R)} {M : ℕ} (hd : d.Whole M) (y x : Nat) :
    ∃ n : ℤ, |n| ≤ M ∧ ((hstackLast2 (vstackLast2 d)).px y x).val = n := by
  have hv : ∀ y x, ∃ n : ℤ, |n| ≤ M ∧ ((vstackLast2 d).px y x).val = n := by
    intro y x
    unfold vstackLast2
    rw [Img.ofFn_px']
    split
    · split
      · exact whole_px hd _ _
      · exact whole_px hd _ _
    · exact ⟨0, by simp, by simp⟩
  unfold hstackLast2
  rw [Img.ofFn_px']
  split
  · split
    · exact hv _ _
    · exact hv _ _
  · exact ⟨0, by simp, by simp⟩

end

theorem within_congr {k : ℕ} {S x X x' X' : ℝ} (h : Within k S x' X') (e1 : x = x') (e2 : X = X') : Within k S x X := by
  rw [e1, e2]; exact h

section
variable {R : ℝ → ℝ} (hR : IsRounding R)
include hR

theorem round_add_int {a b : Fl R} {m n : ℤ} {M N : ℕ} (ha : a.val = m) (hm : |m| ≤ M) (hb : b.val = n) (hn : |n| ≤ N)
    (h : M + N ≤ 2 ^ 53) : (a + b).val = a.val + b.val ∧ (a + b).val = ((m + n : ℤ) : ℝ) ∧ |m + n| ≤ (M + N : ℕ) := by
  have hmn : |m + n| ≤ (M + N : ℕ) := by
    have := abs_add_le m n
    push_cast
    linarith
  have : (a + b).val = ((m + n : ℤ) : ℝ) := by
    rw [Fl.val_add, ha, hb, ← Int.cast_add]
    refine round_int hR (hmn.trans ?_)
    exact_mod_cast h
  exact ⟨by rw [this, ha, hb]; push_cast; ring, this, hmn⟩

theorem round_sub_int {a b : Fl R} {m n : ℤ} {M N : ℕ} (ha : a.val = m) (hm : |m| ≤ M) (hb : b.val = n) (hn : |n| ≤ N)
    (h : M + N ≤ 2 ^ 53) : (a - b).val = a.val - b.val ∧ (a - b).val = ((m - n : ℤ) : ℝ) ∧ |m - n| ≤ (M + N : ℕ) := by
  have hmn : |m - n| ≤ (M + N : ℕ) := by
    have := abs_sub m n
    push_cast
    linarith
  have : (a - b).val = ((m - n : ℤ) : ℝ) := by
    rw [Fl.val_sub, ha, hb, ← Int.cast_sub]
    refine round_int hR (hmn.trans ?_)
    exact_mod_cast h
  exact ⟨by rw [this, ha, hb]; push_cast; ring, this, hmn⟩

theorem round_sum4_int {a b c d : Fl R} {M : ℕ} (ha : ∃ n : ℤ, |n| ≤ M ∧ a.val = n) (hb : ∃ n : ℤ, |n| ≤ M ∧ b.val = n)
    (hc : ∃ n : ℤ, |n| ≤ M ∧ c.val = n) (hd : ∃ n : ℤ, |n| ≤ M ∧ d.val = n) (hM : 4 * M ≤ 2 ^ 53) :
    (a + b + c + d).val = a.val + b.val + c.val + d.val ∧ ∃ n : ℤ, |n| ≤ 2 ^ 53 ∧ (a + b + c + d).val = n := by
  obtain ⟨na, ha, ea⟩ := ha
  obtain ⟨nb, hb, eb⟩ := hb
  obtain ⟨nc, hc, ec⟩ := hc
  obtain ⟨nd, hd, ed⟩ := hd
  obtain ⟨f1, g1, k1⟩ := round_add_int hR ea ha eb hb (by omega)
  obtain ⟨f2, g2, k2⟩ := round_add_int hR g1 k1 ec hc (by omega)
  obtain ⟨f3, g3, k3⟩ := round_add_int hR g2 k2 ed hd (by omega)
  refine ⟨by rw [f3, f2, f1], _, k3.trans ?_, g3⟩
  have : M + M + M + M ≤ 2 ^ 53 := by omega
  exact_mod_cast this

theorem round_half_of {a : Fl R} (h : ∃ n : ℤ, |n| ≤ 2 ^ 53 ∧ a.val = n) : (1 / 2 * a).val = 1 / 2 * a.val := by
  obtain ⟨n, hn, e⟩ := h
  rw [Fl.val_mul, val_half hR, e, show (1 : ℝ) / 2 * n = n / 2 by ring]
  exact round_half hR hn

theorem round_quarter_of {a : Fl R} (h : ∃ n : ℤ, |n| ≤ 2 ^ 53 ∧ a.val = n) : (1 / 4 * a).val = 1 / 4 * a.val := by
  obtain ⟨n, hn, e⟩ := h
  rw [Fl.val_mul, val_quarter hR, e, show (1 : ℝ) / 4 * n = n / 4 by ring]
  exact round_quarter hR hn

theorem round_quarter_of' {a : Fl R} (h : ∃ n : ℤ, |n| ≤ 2 ^ 53 ∧ a.val = n) : (a * (1 / 4)).val = a.val * (1 / 4) := by
  obtain ⟨n, hn, e⟩ := h
  rw [Fl.val_mul, val_quarter hR, e, show (n : ℝ) * (1 / 4) = n / 4 by ring]
  exact round_quarter hR hn

/-- A block of whole numbers is summed exactly. -/
theorem block_exact {d : Img (Fl R)} {M b : ℕ} (hd : d.Whole M) (hM : b * b * M ≤ 2 ^ 53) (y0 x0 s : Nat) :
    (blockFold d y0 x0 s b).val = blockFold d.reals y0 x0 s b ∧
    ∃ n : ℤ, |n| ≤ (b * b * M : ℕ) ∧ (blockFold d y0 x0 s b).val = n := by
  have key := foldl_whole hR (M := M) (Z := 0) (blockList d y0 x0 s b b)
    (by intro v hv; obtain ⟨y, x, rfl⟩ := blockList_mem hv; exact whole_px hd y x) 0 ⟨0, by simp, by simp⟩
    (by rw [blockList_length]; omega)
  rw [blockList_length] at key
  unfold blockFold
  rw [blockFold_list, blockFold_list, blockList_reals]
  refine ⟨?_, by simpa using key.2⟩
  rw [key.1, Fl.val_zero, zero_add, List.sum_eq_foldl]

/-- A block of any numbers is summed with the error of `b * b` roundings. -/
theorem block_near (d : Img (Fl R)) (y0 x0 s b : Nat) :
    |(blockFold d y0 x0 s b).val - blockFold d.reals y0 x0 s b| ≤
      ((1 + unit53) ^ (b * b) - 1) * ((blockList d.reals y0 x0 s b b).map (fun v => |v|)).sum := by
  have key := foldl_error hR (j := 0) (k := 0) le_rfl ((blockList d y0 x0 s b b).map (fun v => (v, v.val)))
    (by intro p hp; obtain ⟨v, -, rfl⟩ := List.mem_map.1 hp; simp) 0 0 0 (by simp) (by simp)
  rw [List.length_map, blockList_length] at key
  simp only [List.map_map, Function.comp_def, zero_add, List.map_id'] at key
  unfold blockFold
  rw [blockFold_list, blockFold_list, blockList_reals, ← List.sum_eq_foldl (xs := List.map Fl.val _), List.map_map]
  exact key

theorem one_near (x : ℝ) : Within 1 |x| (R x) x := by
  unfold Within
  rw [pow_one, add_sub_cancel_left]
  exact hR.near x

theorem half_sum_near (a b c d : Fl R) :
    Within 4 ((|a.val| + |b.val| + |c.val| + |d.val|) / 2) (1 / 2 * (a + b + c + d)).val (1 / 2 * (a.val + b.val + c.val + d.val)) := by
  have key := foldl_error hR (j := 0) (k := 0) le_rfl [(b, b.val), (c, c.val), (d, d.val)] (by intro p hp; simp at hp; rcases hp with rfl | rfl | rfl <;> simp)
    a a.val |a.val| le_rfl (by simp)
  simp only [List.map_cons, List.map_nil, List.foldl_cons, List.foldl_nil, List.sum_cons, List.sum_nil, List.length_cons, List.length_nil,
    add_zero, zero_add, Nat.reduceAdd] at key
  have e1 : a.val + (b.val + (c.val + d.val)) = a.val + b.val + c.val + d.val := by ring
  have e2 : |a.val| + (|b.val| + (|c.val| + |d.val|)) = |a.val| + |b.val| + |c.val| + |d.val| := by ring
  rw [e1, e2] at key
  have hA : |a.val + b.val + c.val + d.val| ≤ |a.val| + |b.val| + |c.val| + |d.val| := by
    linarith [abs_add_le (a.val + b.val + c.val) d.val, abs_add_le (a.val + b.val) c.val, abs_add_le a.val b.val]
  rw [Fl.val_mul, val_half hR]
  have := scale_error hR (a := 1 / 2 * (a + b + c + d).val) (A := 1 / 2 * (a.val + b.val + c.val + d.val))
    (S := (|a.val| + |b.val| + |c.val| + |d.val|) / 2) (k := 3)
    (by rw [abs_mul, abs_of_pos (by norm_num : (0 : ℝ) < 1 / 2)]; linarith)
    (by
      rw [← mul_sub, abs_mul, abs_of_pos (by norm_num : (0 : ℝ) < 1 / 2)]
      linarith)
  exact this

theorem dot4_near (m0 p0 m1 p1 m2 p2 m3 p3 : Fl R) :
    Within 4 (|m0.val| * |p0.val| + |m1.val| * |p1.val| + |m2.val| * |p2.val| + |m3.val| * |p3.val|)
      (m0 * p0 + m1 * p1 + m2 * p2 + m3 * p3).val (m0.val * p0.val + m1.val * p1.val + m2.val * p2.val + m3.val * p3.val) := by
  have one : ∀ m p : Fl R, |(m * p).val - m.val * p.val| ≤ ((1 + unit53) ^ 1 - 1) * |m.val * p.val| := fun m p => one_near hR _
  have key := foldl_error hR (j := 1) (k := 1) le_rfl
    [(m1 * p1, m1.val * p1.val), (m2 * p2, m2.val * p2.val), (m3 * p3, m3.val * p3.val)]
    (by intro p hp; simp only [List.mem_cons, List.not_mem_nil, or_false] at hp; rcases hp with rfl | rfl | rfl <;> exact one _ _)
    (m0 * p0) (m0.val * p0.val) |m0.val * p0.val| le_rfl (one _ _)
  simp only [List.map_cons, List.map_nil, List.foldl_cons, List.foldl_nil, List.sum_cons, List.sum_nil, List.length_cons, List.length_nil,
    add_zero, zero_add, Nat.reduceAdd, abs_mul] at key
  have e1 : m0.val * p0.val + (m1.val * p1.val + (m2.val * p2.val + m3.val * p3.val)) =
      m0.val * p0.val + m1.val * p1.val + m2.val * p2.val + m3.val * p3.val := by ring
  have e2 : |m0.val| * |p0.val| + (|m1.val| * |p1.val| + (|m2.val| * |p2.val| + |m3.val| * |p3.val|)) =
      |m0.val| * |p0.val| + |m1.val| * |p1.val| + |m2.val| * |p2.val| + |m3.val| * |p3.val| := by ring
  rw [e1, e2] at key
  exact key

/-- The root of a rounded sum of rounded squares. -/
theorem hypot_bounds (q u : Fl R) :
    (1 - 1 / 2 ^ 53) ^ 2 * Real.sqrt (q.val * q.val + u.val * u.val) ≤ (Fl.sqrt (q * q + u * u)).val ∧
    (Fl.sqrt (q * q + u * u)).val ≤ (1 + 1 / 2 ^ 53) ^ 2 * Real.sqrt (q.val * q.val + u.val * u.val) := by
  change (1 - unit53) ^ 2 * _ ≤ _ ∧ _ ≤ (1 + unit53) ^ 2 * _
  have u0 := unit53_pos
  have u1 := unit53_lt
  have h1 := round_bounds hR (mul_self_nonneg q.val)
  have h2 := round_bounds hR (mul_self_nonneg u.val)
  rw [Fl.val_sqrt, Fl.val_add, Fl.val_mul, Fl.val_mul]
  generalize ha : q.val * q.val = a at h1
  generalize hb : u.val * u.val = b at h2
  have a0 : 0 ≤ a := by rw [← ha]; exact mul_self_nonneg _
  have b0 : 0 ≤ b := by rw [← hb]; exact mul_self_nonneg _
  have ra : 0 ≤ R a := le_trans (mul_nonneg (by linarith) a0) h1.1
  have rb : 0 ≤ R b := le_trans (mul_nonneg (by linarith) b0) h2.1
  have h3 := round_bounds hR (add_nonneg ra rb)
  have h4 : (1 - unit53) ^ 2 * (a + b) ≤ R (R a + R b) := by nlinarith
  have h5 : R (R a + R b) ≤ (1 + unit53) ^ 2 * (a + b) := by nlinarith
  have s1 := Real.sqrt_le_sqrt h4
  have s2 := Real.sqrt_le_sqrt h5
  rw [Real.sqrt_mul (by positivity), Real.sqrt_sq (by linarith)] at s1
  rw [Real.sqrt_mul (by positivity), Real.sqrt_sq (by linarith)] at s2
  have h6 := round_bounds hR (Real.sqrt_nonneg (R (R a + R b)))
  constructor
  · nlinarith
  · nlinarith

theorem quotient_bounds {i p : Fl R} {q : ℝ} (hi : 0 < i.val) (hq : 0 ≤ q)
    (hp : (1 - 1 / 2 ^ 53) ^ 2 * q ≤ p.val ∧ p.val ≤ (1 + 1 / 2 ^ 53) ^ 2 * q) :
    (1 - 1 / 2 ^ 53) ^ 3 * (q / i.val) ≤ (p / i).val ∧ (p / i).val ≤ (1 + 1 / 2 ^ 53) ^ 3 * (q / i.val) := by
  change (1 - unit53) ^ 2 * _ ≤ _ ∧ _ ≤ (1 + unit53) ^ 2 * _ at hp
  change (1 - unit53) ^ 3 * _ ≤ _ ∧ _ ≤ (1 + unit53) ^ 3 * _
  have u0 := unit53_pos
  have u1 := unit53_lt
  have p0 : 0 ≤ p.val := le_trans (by positivity) hp.1
  have h := round_bounds hR (div_nonneg p0 hi.le)
  rw [Fl.val_div]
  have e1 : (1 - unit53) ^ 2 * (q / i.val) ≤ p.val / i.val := by
    rw [← mul_div_assoc]
    exact div_le_div_of_nonneg_right hp.1 hi.le
  have e2 : p.val / i.val ≤ (1 + unit53) ^ 2 * (q / i.val) := by
    rw [← mul_div_assoc]
    exact div_le_div_of_nonneg_right hp.2 hi.le
  constructor
  · refine le_trans ?_ h.1
    rw [pow_succ, mul_comm ((1 - unit53) ^ 2), mul_assoc]
    exact mul_le_mul_of_nonneg_left e1 (by linarith)
  · refine le_trans h.2 ?_
    rw [pow_succ, mul_comm ((1 + unit53) ^ 2), mul_assoc]
    exact mul_le_mul_of_nonneg_left e2 (by linarith)

end

theorem blockFold_abs {R : ℝ → ℝ} (d : Img (Fl R)) (y0 x0 s b : Nat) :
    blockFold (d.reals.map (fun v => |v|)) y0 x0 s b = ((blockList d.reals y0 x0 s b b).map (fun v => |v|)).sum := by
  have hp : ∀ y x, (d.reals.map (fun v => |v|)).px y x = |d.reals.px y x| := by
    intro y x
    by_cases h : y < d.h ∧ x < d.w
    · exact Img.map_px _ _ h.1 h.2
    · rw [Img.out _ y x (by exact h), Img.out _ y x (by exact h), abs_zero]
  unfold blockFold
  rw [blockFold_list, ← List.sum_eq_foldl]
  congr 1
  unfold blockList
  rw [List.map_flatMap]
  congr 1
  funext u
  rw [List.map_map]
  exact List.map_congr_left (fun v _ => hp _ _)

theorem foldl_add_real (l : List ℝ) (z : ℝ) : l.foldl (· + ·) z = z + l.sum := by
  induction l generalizing z with
  | nil => simp
  | cons a l ih => rw [List.foldl_cons, ih, List.sum_cons, add_assoc]

/-! ## Frames that are added one by one -/

section
variable {K : Type} [Zero K] [Add K] [Div K] [NatCast K]

/-- The frames combined pixel by pixel. -/
theorem combineFrames_ok (average : Bool) (f : Img K) (rest : List (Img K)) (hs : ∀ g ∈ rest, g.h = f.h ∧ g.w = f.w) :
    combineFrames average (f :: rest) = .ok (Img.ofFn f.h f.w (fun y x =>
      (rest.map (fun g => g.px y x / ((1 + average.toNat * rest.length : Nat) : K))).foldl (· + ·)
        (f.px y x / ((1 + average.toNat * rest.length : Nat) : K)))) := by
  unfold combineFrames
  dsimp only
  generalize ((1 + average.toNat * rest.length : Nat) : K) = n
  have gen : ∀ (l : List (Img K)) (acc : Img K), acc.h = f.h → acc.w = f.w → (∀ g ∈ l, g.h = f.h ∧ g.w = f.w) →
      l.foldlM (fun acc g => npBin (fun a b => a + b) acc (g.map (fun v => v / n))) acc
        = (.ok (Img.ofFn f.h f.w (fun y x => (l.map (fun g => g.px y x / n)).foldl (· + ·) (acc.px y x))) : Py (Img K)) := by
    intro l
    induction l with
    | nil =>
      intro acc h1 h2 _
      rw [List.foldlM_nil, Py.pure_eq]
      congr 1
      exact Img.eq_ofFn h1 h2 (fun y x _ _ => rfl)
    | cons g l ih =>
      intro acc h1 h2 hl
      have hg := hl g (by simp)
      rw [List.foldlM_cons, npBin_ok (by rw [h1, Img.map_h, hg.1]) (by rw [h2, Img.map_w, hg.2]), Py.ok_bind,
        ih (Img.ofFn acc.h acc.w _) h1 h2 (fun g' hg' => hl g' (by simp [hg']))]
      congr 1
      refine Img.ofFn_congr ?_
      intro y x hy hx
      rw [List.map_cons, List.foldl_cons, Img.ofFn_px (by rw [h1]; exact hy) (by rw [h2]; exact hx),
        Img.map_px _ _ (by rw [hg.1]; exact hy) (by rw [hg.2]; exact hx)]
  rw [gen rest (f.map _) rfl rfl hs]
  congr 1
  refine Img.ofFn_congr ?_
  intro y x hy hx
  rw [Img.map_px _ _ hy hx]

end

end Micropol
