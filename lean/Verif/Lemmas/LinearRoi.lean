import Verif.Model.LinearRoi
import Mathlib.Tactic.Linarith
import Mathlib.Tactic.FieldSimp
import Mathlib.Tactic.Ring
import Mathlib.Algebra.Order.Archimedean.Real.Basic
import Mathlib.Algebra.Order.Floor.Ring

/-!
# Lemmas on lines
-/

set_option autoImplicit false

namespace Micropol

theorem whileLoop_iter {σ : Type} {cond : σ → Bool} {body : σ → σ} (n : Nat) (F : Nat → σ)
    (hc : ∀ k, k < n → cond (F k) = true) (hb : ∀ k, k < n → body (F k) = F (k + 1)) (hn : cond (F n) = false) :
    whileLoop cond body (F 0) = .ok (F n) := by
  have : ∀ m k, k + m = n → whileFuel cond body m (F k) = .ok (F n) := by
    intro m
    induction m with
    | zero => intro k hk; rw [Nat.add_zero] at hk; subst hk; exact whileFuel_done hn 0
    | succ m ih =>
      intro k hk
      unfold whileFuel
      rw [if_pos (hc k (by omega)), hb k (by omega)]
      exact ih (k + 1) (by omega)
  exact whileLoop_eq_ok (this n 0 (by omega))

theorem pyInt_int (n : ℤ) : pyInt (n : ℝ) = n := by
  unfold pyInt
  split <;> simp

theorem pyInt_lt (x : ℝ) : |(pyInt x : ℝ) - x| < 1 := by
  unfold pyInt
  rw [abs_lt]
  split
  · have h1 := Int.floor_le x
    have h2 := Int.lt_floor_add_one x
    constructor <;> linarith
  · have h1 := Int.le_ceil x
    have h2 := Int.ceil_lt_add_one x
    constructor <;> linarith

theorem pyInt_mono {a b : ℝ} (h : a ≤ b) : pyInt a ≤ pyInt b := by
  unfold pyInt
  split
  · rw [if_pos (by linarith)]
    exact Int.floor_le_floor h
  · rename_i ha
    push Not at ha
    split
    · rename_i hb
      have h1 : ⌈a⌉ ≤ 0 := Int.ceil_le.2 (by simpa using ha.le)
      have h2 : 0 ≤ ⌊b⌋ := Int.floor_nonneg.2 hb
      omega
    · exact Int.ceil_le_ceil h

/-- Reals at distance at most 1 have integer parts at distance at most 1. -/
theorem pyInt_step {a b : ℝ} (h : |a - b| ≤ 1) : |pyInt a - pyInt b| ≤ 1 := by
  wlog hab : a ≤ b generalizing a b
  · rw [abs_sub_comm]
    exact this (by rwa [abs_sub_comm]) (le_of_not_ge hab)
  have h1 := pyInt_mono hab
  rw [abs_sub_comm, abs_of_nonneg (by omega)]
  rw [abs_sub_comm, abs_of_nonneg (by linarith)] at h
  suffices pyInt b < pyInt a + 2 by omega
  have h2 : b ≤ a + 1 := by linarith
  unfold pyInt
  split
  · rename_i hb
    split
    · rw [Int.floor_lt]
      push_cast
      have := Int.lt_floor_add_one a
      linarith
    · rename_i ha
      push Not at ha
      rw [Int.floor_lt]
      push_cast
      have := Int.le_ceil a
      linarith
  · rename_i hb
    rw [if_neg (by push Not at hb ⊢; linarith)]
    have h4 : (⌈b⌉ : ℝ) < b + 1 := Int.ceil_lt_add_one b
    have h5 : a ≤ (⌈a⌉ : ℝ) := Int.le_ceil a
    have : (⌈b⌉ : ℝ) < ((⌈a⌉ + 2 : ℤ) : ℝ) := by push_cast; linarith
    exact_mod_cast this

theorem pyInt_of_nonneg {x : ℝ} (h : 0 ≤ x) : pyInt x = ⌊x⌋ := by
  unfold pyInt
  rw [if_pos h]

theorem pyInt_neg_iff {x : ℝ} : pyInt x < 0 ↔ x ≤ -1 := by
  unfold pyInt
  split
  · rename_i h
    have := Int.floor_nonneg.2 h
    constructor
    · intro h'; omega
    · intro h'; linarith
  · rw [show ⌈x⌉ < 0 ↔ ⌈x⌉ ≤ -1 by omega, Int.ceil_le]
    push_cast
    rfl

/-- The number of steps of the line. -/
def lineSteps (dy dx : ℤ) : ℕ := (max |dx| |dy|).toNat

theorem lineSteps_eq (dy dx : ℤ) : ((lineSteps dy dx : ℕ) : ℤ) = if |dx| ≥ |dy| then |dx| else |dy| := by
  unfold lineSteps
  rw [Int.toNat_of_nonneg (le_max_of_le_left (abs_nonneg _))]
  split
  · rw [max_eq_left (by assumption)]
  · rw [max_eq_right (by omega)]

theorem lineSteps_ge (dy dx : ℤ) : |dx| ≤ lineSteps dy dx ∧ |dy| ≤ lineSteps dy dx := by
  rw [lineSteps_eq]
  split <;> omega

theorem lineSteps_pos {dy dx : ℤ} (h : dy ≠ 0 ∨ dx ≠ 0) : 0 < lineSteps dy dx := by
  obtain ⟨h1, h2⟩ := lineSteps_ge dy dx
  rcases h with h | h
  · have := abs_pos.2 h; omega
  · have := abs_pos.2 h; omega

/-- Coordinate number `k` of the line. -/
noncomputable def lineAt (a d : ℤ) (n : ℕ) (k : ℕ) : ℝ := a + k * ((d : ℝ) / n)

theorem dda_ok (start stop : ℝ × ℝ) {y1 x1 dy dx : ℤ} {n : ℕ} (hy1 : y1 = pyInt start.1) (hx1 : x1 = pyInt start.2)
    (hdy : dy = pyInt stop.1 - pyInt start.1) (hdx : dx = pyInt stop.2 - pyInt start.2) (hn : n = lineSteps dy dx) (hpos : 0 < n) :
    dda start stop = .ok ((List.range (n + 2)).map (fun k => pyInt (lineAt y1 dy n k)),
      (List.range (n + 2)).map (fun k => pyInt (lineAt x1 dx n k)),
      Real.sqrt ((dx : ℝ) ^ 2 + (dy : ℝ) ^ 2) / ((n + 2 : ℕ) : ℝ)) := by
  have hs := lineSteps_eq dy dx
  rw [← hn] at hs
  unfold dda
  rw [← hy1] at hdy
  rw [← hx1] at hdx
  simp only [← hy1, ← hx1]
  simp only [← hdy, ← hdx]
  simp only [← hs]
  rw [if_neg (by omega)]
  have hsR : (((n : ℕ) : ℤ) : ℝ) = (n : ℝ) := by norm_cast
  rw [hsR]
  let F : ℕ → DDAState := fun k => ⟨k, lineAt x1 dx n k, lineAt y1 dy n k, (List.range (k + 1)).map (fun k => pyInt (lineAt y1 dy n k)),
    (List.range (k + 1)).map (fun k => pyInt (lineAt x1 dx n k))⟩
  have h0 : F 0 = ⟨0, x1, y1, [pyInt y1], [pyInt x1]⟩ := by
    simp [F, lineAt]
  have hw := whileLoop_iter (cond := fun s : DDAState => decide (s.i ≤ (n : ℤ)))
    (body := fun s => ⟨s.i + 1, s.x + (dx : ℝ) / (n : ℝ), s.y + (dy : ℝ) / (n : ℝ), s.ys ++ [pyInt (s.y + (dy : ℝ) / (n : ℝ))],
      s.xs ++ [pyInt (s.x + (dx : ℝ) / (n : ℝ))]⟩) (n + 1) F ?_ ?_ ?_
  · rw [h0] at hw
    rw [hw, Py.ok_bind]
    simp [F]
    congr 1
    ring
  · intro k hk
    simp only [F, decide_eq_true_eq]
    omega
  · intro k hk
    have e : ∀ a d : ℤ, lineAt a d n k + (d : ℝ) / (n : ℝ) = lineAt a d n (k + 1) := by
      intro a d
      unfold lineAt
      push_cast
      ring
    simp only [F, e]
    rw [List.range_succ (n := k + 1), List.map_append, List.map_append]
    simp
  · simp [F]

theorem dda_equal (start stop : ℝ × ℝ) (hy : pyInt stop.1 = pyInt start.1) (hx : pyInt stop.2 = pyInt start.2) :
    dda start stop = .error .valueError := by
  unfold dda
  simp [hy, hx]

theorem lineAt_zero (a d : ℤ) (n : ℕ) : lineAt a d n 0 = a := by simp [lineAt]

theorem lineAt_end (a d : ℤ) {n : ℕ} (hn : 0 < n) : lineAt a d n n = ((a + d : ℤ) : ℝ) := by
  have : (n : ℝ) ≠ 0 := by positivity
  unfold lineAt
  push_cast
  field_simp

theorem lineAt_step (a : ℤ) {d : ℤ} {n : ℕ} (hn : 0 < n) (hd : |d| ≤ n) (k : ℕ) : |lineAt a d n (k + 1) - lineAt a d n k| ≤ 1 := by
  have hn' : (0 : ℝ) < n := by positivity
  have e : lineAt a d n (k + 1) - lineAt a d n k = (d : ℝ) / n := by unfold lineAt; push_cast; ring
  rw [e, abs_div, abs_of_pos hn', div_le_one hn']
  exact_mod_cast hd

theorem lineSteps_of {n : ℕ} {dy dx : ℤ} (hn : (n : ℤ) = max |dy| |dx|) : n = lineSteps dy dx := by
  unfold lineSteps
  rw [max_comm, ← hn]
  simp

/-- Up to the end the line stays between its end points. -/
theorem lineAt_between (a d : ℤ) {n k : ℕ} (hn : 0 < n) (hk : k ≤ n) :
    min a (a + d) ≤ pyInt (lineAt a d n k) ∧ pyInt (lineAt a d n k) ≤ max a (a + d) := by
  have hn' : (0 : ℝ) < n := by positivity
  have hk' : (k : ℝ) ≤ n := by exact_mod_cast hk
  have hk0 : (0 : ℝ) ≤ k := by positivity
  have e : lineAt a d n k = a + (k / n : ℝ) * d := by unfold lineAt; ring
  have h1 : (k / n : ℝ) ≤ 1 := (div_le_one hn').2 hk'
  have h0 : (0 : ℝ) ≤ k / n := by positivity
  rcases le_total 0 d with hd | hd
  · have hd' : (0 : ℝ) ≤ d := by exact_mod_cast hd
    rw [min_eq_left (by omega), max_eq_right (by omega)]
    constructor
    · conv_lhs => rw [← pyInt_int a]
      apply pyInt_mono
      rw [e]
      have := mul_nonneg h0 hd'
      linarith
    · conv_rhs => rw [← pyInt_int (a + d)]
      apply pyInt_mono
      rw [e]
      push_cast
      have := mul_le_mul_of_nonneg_right h1 hd'
      linarith
  · have hd' : (d : ℝ) ≤ 0 := by exact_mod_cast hd
    rw [min_eq_right (by omega), max_eq_left (by omega)]
    constructor
    · conv_lhs => rw [← pyInt_int (a + d)]
      apply pyInt_mono
      rw [e]
      push_cast
      have := mul_le_mul_of_nonpos_right h1 hd'
      linarith
    · conv_rhs => rw [← pyInt_int a]
      apply pyInt_mono
      rw [e]
      have := mul_nonpos_of_nonneg_of_nonpos h0 hd'
      linarith

/-- The point after the end, along an axis of full speed. -/
theorem lineAt_over (a : ℤ) {d : ℤ} {n : ℕ} (hn : 0 < n) (hd : |d| = n) : lineAt a d n (n + 1) = ((a + d + d.sign : ℤ) : ℝ) := by
  have hn' : (n : ℝ) ≠ 0 := by positivity
  have hs : d = d.sign * n := by rw [← hd, Int.sign_mul_abs]
  have hs' : (d : ℝ) = d.sign * n := by exact_mod_cast hs
  unfold lineAt
  push_cast
  have e : (d : ℝ) / n = d.sign := by rw [hs']; field_simp
  rw [e]
  linarith

end Micropol
