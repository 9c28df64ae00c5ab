import Verif.Spec.Occulter
import Verif.Props.Nrgf
import Verif.Lemmas.Chen
import Mathlib.Tactic.LinearCombination

/-! # Lemmas on the search for the occulter -/

set_option autoImplicit false

namespace Micropol

noncomputable section

open Classical

/-! ## Four points determine the middle of a logistic curve -/

/-- The values `m + M q^k / (q^k + w)` for `k = 0, 1, 2, 3` determine `q` up to inversion. -/
theorem cross_ratio {q w m M : ℝ} (hq : 0 < q) (hw : 0 < w) {f : Nat → ℝ}
    (hf : ∀ k, k < 4 → f k = m + M * q ^ k / (q ^ k + w)) :
    (f 3 - f 1) * (f 2 - f 0) * (q ^ 2 + q + 1) = (f 3 - f 0) * (f 2 - f 1) * (q + 1) ^ 2 := by
  rw [hf 0 (by omega), hf 1 (by omega), hf 2 (by omega), hf 3 (by omega)]
  have h0 : q ^ 0 + w ≠ 0 := by positivity
  have h1 : q ^ 1 + w ≠ 0 := by positivity
  have h2 : q ^ 2 + w ≠ 0 := by positivity
  have h3 : q ^ 3 + w ≠ 0 := by positivity
  field_simp
  ring

theorem logistic_diff {q w m M : ℝ} (hq : 0 < q) (hw : 0 < w) (i j : Nat) :
    (m + M * q ^ j / (q ^ j + w)) - (m + M * q ^ i / (q ^ i + w)) = M * w * (q ^ j - q ^ i) / ((q ^ i + w) * (q ^ j + w)) := by
  have h0 : q ^ i + w ≠ 0 := by positivity
  have h1 : q ^ j + w ≠ 0 := by positivity
  field_simp
  ring

theorem same_rate {q w w' m m' M M' : ℝ} (hq : 0 < q) (hq1 : q ≠ 1) (hw : 0 < w) (hw' : 0 < w') (hM : M ≠ 0) {f : Nat → ℝ}
    (hf : ∀ k, k < 4 → f k = m + M * q ^ k / (q ^ k + w)) (hf' : ∀ k, k < 4 → f k = m' + M' * q ^ k / (q ^ k + w')) : w = w' := by
  have key : ∀ {v n N : ℝ}, 0 < v → (∀ k, k < 4 → f k = n + N * q ^ k / (q ^ k + v)) →
      (f 2 - f 1) * (q ^ 2 + v) = (f 1 - f 0) * (q * (1 + v)) := by
    intro v n N hv hg
    rw [hg 0 (by omega), hg 1 (by omega), hg 2 (by omega)]
    have h0 : q ^ 0 + v ≠ 0 := by positivity
    have h1 : q ^ 1 + v ≠ 0 := by positivity
    have h2 : q ^ 2 + v ≠ 0 := by positivity
    field_simp
    ring
  have e1 := key hw hf
  have e2 := key hw' hf'
  have e3 : (f 2 - f 1 - q * (f 1 - f 0)) * (w - w') = 0 := by linear_combination e1 - e2
  rcases mul_eq_zero.1 e3 with h | h
  · exfalso
    have d10 : f 1 - f 0 ≠ 0 := by
      rw [hf 0 (by omega), hf 1 (by omega), logistic_diff hq hw]
      refine div_ne_zero (mul_ne_zero (mul_ne_zero hM hw.ne') ?_) (by positivity)
      rw [pow_one, pow_zero]
      exact sub_ne_zero.2 hq1
    have e4 : (f 1 - f 0) * (q * (q ^ 2 - 1)) = 0 := by linear_combination e1 - (q ^ 2 + w) * h
    rcases mul_eq_zero.1 e4 with g | g
    · exact d10 g
    · rcases mul_eq_zero.1 g with g | g
      · exact hq.ne' g
      · have : (q - 1) * (q + 1) = 0 := by linear_combination g
        rcases mul_eq_zero.1 this with g | g
        · exact hq1 (by linarith)
        · linarith
  · linarith

/-- A logistic curve in powers of `exp rate`. -/
theorem logistic_power (m M s c : ℝ) (k : Nat) :
    m + M / (1 + Real.exp (-(s * (k - c)))) = m + M * Real.exp s ^ k / (Real.exp s ^ k + Real.exp (s * c)) := by
  have h1 : Real.exp (-(s * (k - c))) = Real.exp (s * c) / Real.exp s ^ k := by
    rw [← Real.exp_nat_mul, ← Real.exp_sub]
    congr 1
    ring
  rw [h1]
  have : 0 < Real.exp s ^ k := by positivity
  have : 0 < Real.exp (s * c) := Real.exp_pos _
  field_simp

theorem logistic_power_neg (m M s c : ℝ) (k : Nat) :
    m + M / (1 + Real.exp (-(s * (k - c)))) =
      (m + M) + (-M) * Real.exp (-s) ^ k / (Real.exp (-s) ^ k + Real.exp (-s * c)) := by
  have h1 : Real.exp (-(s * (k - c))) = Real.exp (-s) ^ k / Real.exp (-s * c) := by
    rw [← Real.exp_nat_mul, ← Real.exp_sub]
    congr 1
    ring
  rw [h1]
  have : 0 < Real.exp (-s) ^ k := by positivity
  have : 0 < Real.exp (-s * c) := Real.exp_pos _
  field_simp
  ring

/-- Two logistic curves that agree at 0, 1, 2, 3 have the same middle. -/
theorem logistic_unique {m M s c m' M' s' c' : ℝ} (hM : M ≠ 0) (hs : s ≠ 0)
    (h : ∀ k : Nat, k < 4 → m + M / (1 + Real.exp (-(s * (k - c)))) = m' + M' / (1 + Real.exp (-(s' * (k - c'))))) : c = c' := by
  obtain ⟨f, hf⟩ : ∃ f : Nat → ℝ, ∀ k, f k = m + M / (1 + Real.exp (-(s * (k - c)))) := ⟨_, fun _ => rfl⟩
  have hq1 : Real.exp s ≠ 1 := fun hc => hs (Real.exp_eq_one_iff s |>.1 hc)
  have f1 : ∀ k, k < 4 → f k = m + M * Real.exp s ^ k / (Real.exp s ^ k + Real.exp (s * c)) := by
    intro k _
    rw [hf, logistic_power]
  have f2 : ∀ k, k < 4 → f k = m' + M' * Real.exp s' ^ k / (Real.exp s' ^ k + Real.exp (s' * c')) := by
    intro k hk
    rw [hf, h k hk, logistic_power]
  have c1 := cross_ratio (Real.exp_pos s) (Real.exp_pos (s * c)) f1
  have c2 := cross_ratio (Real.exp_pos s') (Real.exp_pos (s' * c')) f2
  have hqp := Real.exp_pos s
  have ne : ∀ i j, i < 4 → j < 4 → i ≠ j → f j - f i ≠ 0 := by
    intro i j hi hj hij
    rw [f1 i hi, f1 j hj, logistic_diff hqp (Real.exp_pos _)]
    refine div_ne_zero (mul_ne_zero (mul_ne_zero hM (Real.exp_pos _).ne') ?_) (by positivity)
    intro hc
    have := sub_eq_zero.1 hc
    rw [← Real.exp_nat_mul, ← Real.exp_nat_mul] at this
    have := Real.exp_injective this
    have := mul_right_cancel₀ hs this
    exact hij (by exact_mod_cast this.symm)
  obtain ⟨q, hq⟩ : ∃ q, q = Real.exp s := ⟨_, rfl⟩
  obtain ⟨q', hq'⟩ : ∃ q', q' = Real.exp s' := ⟨_, rfl⟩
  rw [← hq] at c1
  rw [← hq'] at c2
  have hX : (f 3 - f 0) * (f 2 - f 1) ≠ 0 := mul_ne_zero (ne 0 3 (by omega) (by omega) (by omega)) (ne 1 2 (by omega) (by omega) (by omega))
  have c3 : (q' - q) * (q * q' - 1) = 0 := by
    have : (f 3 - f 0) * (f 2 - f 1) * ((q' - q) * (q * q' - 1)) = 0 := by
      linear_combination (q ^ 2 + q + 1) * c2 - (q' ^ 2 + q' + 1) * c1
    rcases mul_eq_zero.1 this with g | g
    · exact absurd g hX
    · exact g
  rcases mul_eq_zero.1 c3 with g | g
  · have es : s' = s := by
      apply Real.exp_injective
      rw [← hq, ← hq']
      linarith
    rw [es] at f2
    have := same_rate hqp hq1 (Real.exp_pos _) (Real.exp_pos _) hM f1 f2
    have := Real.exp_injective this
    exact mul_left_cancel₀ hs this
  · have es : s' = -s := by
      apply Real.exp_injective
      rw [← hq', Real.exp_neg, ← hq]
      rw [eq_comm, inv_eq_one_div, div_eq_iff (by rw [hq]; exact hqp.ne')]
      linarith
    have f3 : ∀ k, k < 4 → f k = (m' + M') + (-M') * Real.exp s ^ k / (Real.exp s ^ k + Real.exp (s * c')) := by
      intro k hk
      have := logistic_power_neg m' M' s' c' k
      rw [es, neg_neg] at this
      rw [hf, h k hk, es, this]
    have := same_rate hqp hq1 (Real.exp_pos _) (Real.exp_pos _) hM f1 f3
    have := Real.exp_injective this
    exact mul_left_cancel₀ hs this

theorem sigmoid_eq (x mx mn s c : ℝ) : sigmoid x mx mn s c = mn + mx / (1 + Real.exp (-(s * (x - c)))) := by
  unfold sigmoid
  dsimp only
  have h1 : Real.exp (-(s * (x - c))) = (Real.exp (s * (x - c)))⁻¹ := Real.exp_neg _
  rw [h1]
  have : 0 < Real.exp (s * (x - c)) := Real.exp_pos _
  field_simp
  ring

/-! ## One half profile -/

theorem listMax_greatest {l : List ℝ} (h : l ≠ []) : IsGreatest {v | v ∈ l} (listMax l) := by
  match l, h with
  | p :: l, _ =>
    obtain ⟨g1, g2, g3⟩ := foldl_max_ge l p
    show IsGreatest _ (l.foldl max p)
    constructor
    · rcases g3 with g3 | g3
      · rw [g3]; simp
      · exact List.mem_cons_of_mem _ g3
    · intro v hv
      rcases List.mem_cons.1 hv with rfl | hv
      · exact g1
      · exact g2 v hv

theorem foldl_min_le (l : List ℝ) (p : ℝ) : l.foldl min p ≤ p ∧ (∀ v ∈ l, l.foldl min p ≤ v) ∧
    (l.foldl min p = p ∨ l.foldl min p ∈ l) := by
  induction l generalizing p with
  | nil => exact ⟨le_refl _, by simp, Or.inl rfl⟩
  | cons q l ih =>
    obtain ⟨h1, h2, h3⟩ := ih (min p q)
    rw [List.foldl_cons]
    refine ⟨le_trans h1 (min_le_left _ _), ?_, ?_⟩
    · intro v hv
      rcases List.mem_cons.1 hv with rfl | hv
      · exact le_trans h1 (min_le_right _ _)
      · exact h2 v hv
    · rcases h3 with h3 | h3
      · rw [h3]
        rcases min_choice p q with h | h
        · rw [h]; exact Or.inl rfl
        · rw [h]; exact Or.inr (by simp)
      · exact Or.inr (List.mem_cons_of_mem _ h3)

theorem listMin_least {l : List ℝ} (h : l ≠ []) : IsLeast {v | v ∈ l} (listMin l) := by
  match l, h with
  | p :: l, _ =>
    obtain ⟨g1, g2, g3⟩ := foldl_min_le l p
    show IsLeast _ (l.foldl min p)
    constructor
    · rcases g3 with g3 | g3
      · rw [g3]; simp
      · exact List.mem_cons_of_mem _ g3
    · intro v hv
      rcases List.mem_cons.1 hv with rfl | hv
      · exact g1
      · exact g2 v hv

theorem halfEdge_ok {fit : SigmoidFit} (hfit : fit.FindsExact) {n : Nat} (hn : 4 ≤ n) {f : Nat → ℝ} {t : ℝ}
    (h : IsLogisticOn (fun k => k < n) f t) : halfEdge fit ((List.range n).map f) = .ok t := by
  obtain ⟨lo, hi, rate, h1, h2, h3⟩ := h
  unfold halfEdge
  have hl : ((List.range n).map f).length = n := by simp
  rw [if_neg (by rw [hl]; omega), if_neg (by rw [hl]; omega)]
  dsimp only
  obtain ⟨c, hc⟩ : ∃ c : SigmoidCall, c = SigmoidCall.mk ((List.range ((List.range n).map f).length).map (fun k : Nat => (k : ℝ)))
    ((List.range n).map f) ![listMax ((List.range n).map f), listMin ((List.range n).map f), 1 / 2,
      (((List.range n).map f).length : ℝ) / 2] := ⟨_, rfl⟩
  rw [← hc]
  have hne : (List.range n).map f ≠ [] := by
    intro h0
    rw [h0] at hl
    simp at hl
    omega
  have hys : c.ys.length = n := by rw [hc]; exact hl
  have hgy : ∀ i, i < n → c.ys.getD i 0 = f i := by
    intro i hi
    rw [hc]
    simp [List.getD, hi]
  have hgx : ∀ i, i < n → c.xs.getD i 0 = (i : ℝ) := by
    intro i hi
    rw [hc]
    simp [List.getD, hi]
  obtain ⟨p, hp, hexact⟩ := hfit c (by rw [hys]; exact hn) (by rw [hys, hc]; simp)
    (by rw [hc]; exact listMax_greatest hne) (by rw [hc]; exact listMin_least hne) (by rw [hc]; rfl) (by rw [hc]; rfl) ⟨![hi - lo, lo, rate, t], by
    intro i hi'
    rw [hys] at hi'
    rw [hgy i hi', hgx i hi', sigmoid_eq]
    exact h3 i hi'⟩
  rw [hp]
  dsimp only
  congr 1
  refine (logistic_unique (m := lo) (M := hi - lo) (s := rate) (c := t) (sub_ne_zero.2 (Ne.symm h1)) h2 (m' := p 1) (M' := p 0)
    (s' := p 2) ?_).symm
  intro k hk
  rw [← h3 k (by omega), ← hgy k (by omega), hexact k (by omega), hgx k (by omega), sigmoid_eq]

theorem IsLogisticOn.reverse {n : Nat} {f : Nat → ℝ} {e : ℝ} (h : IsLogisticOn (fun k => k < n) f e) :
    IsLogisticOn (fun k => k < n) (fun k => f (n - 1 - k)) ((n : ℝ) - 1 - e) := by
  obtain ⟨lo, hi, rate, h1, h2, h3⟩ := h
  refine ⟨lo, hi, -rate, h1, neg_ne_zero.2 h2, ?_⟩
  intro k hk
  dsimp only
  rw [h3 (n - 1 - k) (by omega)]
  have : ((n - 1 - k : Nat) : ℝ) = (n : ℝ) - 1 - k := by
    rw [Nat.cast_sub (by omega), Nat.cast_sub (by omega)]
    norm_num
  rw [this]
  congr 3
  ring_nf

theorem IsLogisticOn.shift {a b : Nat} {f : Nat → ℝ} {e : ℝ} (h : IsLogisticOn (fun k => a ≤ k ∧ k < b) f e) :
    IsLogisticOn (fun k => k < b - a) (fun k => f (a + k)) (e - a) := by
  obtain ⟨lo, hi, rate, h1, h2, h3⟩ := h
  refine ⟨lo, hi, rate, h1, h2, ?_⟩
  intro k hk
  dsimp only
  rw [h3 (a + k) (by omega)]
  push_cast
  congr 3
  ring_nf

theorem reverse_range (n : Nat) (g : Nat → ℝ) : ((List.range n).map g).reverse = (List.range n).map (fun k => g (n - 1 - k)) := by
  apply List.ext_getElem
  · simp
  · intro i hi1 hi2
    simp

/-! ## Hough -/

theorem hough_loop {search : Nat → Option (List (ℝ × ℝ × ℝ))} {k : Nat} (h1 : ∀ j, j < k → manyCircles (search (10 + 5 * j)) = true)
    (h2 : manyCircles (search (10 + 5 * k)) = false) :
    whileLoop (fun s : Nat × Option (List (ℝ × ℝ × ℝ)) => manyCircles s.2) (fun s => (s.1 + 5, search (s.1 + 5)))
      (10, search 10) = .ok (10 + 5 * k, search (10 + 5 * k)) := by
  have key : ∀ d j, j + d = k → ∃ n, whileFuel (fun s : Nat × Option (List (ℝ × ℝ × ℝ)) => manyCircles s.2)
      (fun s => (s.1 + 5, search (s.1 + 5))) n (10 + 5 * j, search (10 + 5 * j)) = .ok (10 + 5 * k, search (10 + 5 * k)) := by
    intro d
    induction d with
    | zero =>
      intro j hj
      have : j = k := by omega
      subst this
      exact ⟨0, whileFuel_done (cond := fun s : Nat × Option (List (ℝ × ℝ × ℝ)) => manyCircles s.2) h2 0⟩
    | succ d ih =>
      intro j hj
      refine whileLoop_step (h1 j (by omega)) ?_
      exact ih (j + 1) (by omega)
  obtain ⟨n, hn⟩ := key k 0 (by omega)
  exact whileLoop_eq_ok hn

end

end Micropol
