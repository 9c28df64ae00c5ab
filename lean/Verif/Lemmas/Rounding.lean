import Verif.Spec.Rounding
import Verif.Lemmas.RebinFold
import Verif.Lemmas.Stokes
import Verif.Lemmas.Corrections
import Verif.Lemmas.Demodulate
import Verif.Lemmas.Split
import Mathlib.Tactic.Linarith
import Mathlib.Tactic.NormNum
import Mathlib.Tactic.Positivity
import Mathlib.Algebra.Order.Floor.Ring
import Mathlib.Algebra.Order.Archimedean.Real.Basic

/-! Rounded arithmetic: single operations, sums, the IEEE rounding. -/

set_option autoImplicit false

namespace Micropol

/-- Unit of rounding. -/
noncomputable def unit53 : ℝ := 1 / 2 ^ 53

theorem unit53_pos : 0 < unit53 := by unfold unit53; positivity
theorem unit53_lt : unit53 < 1 / 8 := by unfold unit53; norm_num

namespace Fl
variable {R : ℝ → ℝ}

@[simp] theorem val_zero : (0 : Fl R).val = 0 := rfl
@[simp] theorem val_one : (1 : Fl R).val = 1 := rfl
@[simp] theorem val_two : (2 : Fl R).val = 2 := rfl
@[simp] theorem val_four : (4 : Fl R).val = 4 := rfl
@[simp] theorem val_natCast (n : ℕ) : ((n : Fl R)).val = n := rfl
@[simp] theorem val_add (a b : Fl R) : (a + b).val = R (a.val + b.val) := rfl
@[simp] theorem val_sub (a b : Fl R) : (a - b).val = R (a.val - b.val) := rfl
@[simp] theorem val_mul (a b : Fl R) : (a * b).val = R (a.val * b.val) := rfl
@[simp] theorem val_div (a b : Fl R) : (a / b).val = R (a.val / b.val) := rfl
@[simp] theorem val_sqrt (a : Fl R) : (Fl.sqrt a).val = R (Real.sqrt a.val) := rfl
theorem le_iff (a b : Fl R) : a ≤ b ↔ a.val ≤ b.val := Iff.rfl

end Fl

/-! ## Images -/

section
variable {R : ℝ → ℝ}

@[simp] theorem reals_h (A : Img (Fl R)) : A.reals.h = A.h := rfl
@[simp] theorem reals_w (A : Img (Fl R)) : A.reals.w = A.w := rfl

theorem reals_px (A : Img (Fl R)) (y x : Nat) : A.reals.px y x = (A.px y x).val := by
  unfold Img.reals
  by_cases h : y < A.h ∧ x < A.w
  · exact Img.map_px _ _ h.1 h.2
  · unfold Img.map
    rw [Img.ofFn_px', if_neg h]
    have : A.px y x = 0 := A.out y x h
    rw [this]
    rfl

theorem reals_ofFn (h w : Nat) (f : Nat → Nat → Fl R) :
    (Img.ofFn h w f).reals = Img.ofFn h w (fun y x => (f y x).val) := by
  refine Img.ext_px rfl rfl ?_
  intro y x hy hx
  rw [reals_px, Img.ofFn_px (by exact hy) (by exact hx), Img.ofFn_px (by exact hy) (by exact hx)]

end

/-! ## Single operations -/

section
variable {R : ℝ → ℝ} (hR : IsRounding R)
include hR

theorem round_int {n : ℤ} (h : |n| ≤ 2 ^ 53) : R n = n := by
  have := hR.exact n 0 h
  simpa using this

theorem round_half {n : ℤ} (h : |n| ≤ 2 ^ 53) : R ((n : ℝ) / 2) = n / 2 := by
  have := hR.exact n (-1) h
  rw [show ((2 : ℝ) ^ (-1 : ℤ)) = 1 / 2 by norm_num] at this
  rw [show (n : ℝ) / 2 = n * (1 / 2) by ring]
  exact this

theorem round_quarter {n : ℤ} (h : |n| ≤ 2 ^ 53) : R ((n : ℝ) / 4) = n / 4 := by
  have := hR.exact n (-2) h
  rw [show ((2 : ℝ) ^ (-2 : ℤ)) = 1 / 4 by norm_num] at this
  rw [show (n : ℝ) / 4 = n * (1 / 4) by ring]
  exact this

theorem round_zero : R 0 = 0 := by simpa using round_int hR (n := 0) (by norm_num)

theorem val_half : (1 / 2 : Fl R).val = 1 / 2 := by
  show R (1 / 2) = 1 / 2
  have := round_half hR (n := 1) (by norm_num)
  simpa using this

theorem val_quarter : (1 / 4 : Fl R).val = 1 / 4 := by
  show R (1 / 4) = 1 / 4
  have := round_quarter hR (n := 1) (by norm_num)
  simpa using this

theorem round_near (x : ℝ) : |R x - x| ≤ unit53 * |x| := hR.near x

/-- Rounding keeps the sign. -/
theorem round_nonneg_iff (x : ℝ) : 0 ≤ R x ↔ 0 ≤ x := by
  have h := abs_le.1 (round_near hR x)
  have u1 := unit53_pos
  have u2 := unit53_lt
  constructor
  · intro h0
    by_contra hx
    push Not at hx
    rw [abs_of_neg hx] at h
    nlinarith [h.2]
  · intro h0
    rw [abs_of_nonneg h0] at h
    nlinarith [h.1]

/-- Two factors. -/
theorem round_bounds {x : ℝ} (hx : 0 ≤ x) : (1 - unit53) * x ≤ R x ∧ R x ≤ (1 + unit53) * x := by
  have h := abs_le.1 (round_near hR x)
  rw [abs_of_nonneg hx] at h
  constructor <;> linarith [h.1, h.2]

/-- One more rounded addition in a sum whose parts carry errors. -/
theorem add_error {a x A X S : ℝ} {T : ℝ} {j k : ℕ} (hjk : j ≤ k) (hA : |A| ≤ S) (hX : |X| ≤ T)
    (ha : |a - A| ≤ ((1 + unit53) ^ k - 1) * S) (hx : |x - X| ≤ ((1 + unit53) ^ j - 1) * T) :
    |R (a + x) - (A + X)| ≤ ((1 + unit53) ^ (k + 1) - 1) * (S + T) := by
  have u0 := unit53_pos
  have hS : 0 ≤ S := (abs_nonneg _).trans hA
  have hT : 0 ≤ T := (abs_nonneg _).trans hX
  have hn := round_near hR (a + x)
  have h1 : |a + x| ≤ |a - A| + |x - X| + (S + T) := by
    have e : a + x = (a - A) + (x - X) + A + X := by ring
    calc |a + x| = |(a - A) + (x - X) + A + X| := by rw [← e]
      _ ≤ |(a - A) + (x - X) + A| + |X| := abs_add_le _ _
      _ ≤ |(a - A) + (x - X)| + |A| + |X| := by linarith [abs_add_le ((a - A) + (x - X)) A]
      _ ≤ |a - A| + |x - X| + |A| + |X| := by linarith [abs_add_le (a - A) (x - X)]
      _ ≤ |a - A| + |x - X| + (S + T) := by linarith
  have h2 : |R (a + x) - (A + X)| ≤ |R (a + x) - (a + x)| + |a - A| + |x - X| := by
    have e : R (a + x) - (A + X) = (R (a + x) - (a + x)) + (a - A) + (x - X) := by ring
    rw [e]
    linarith [abs_add_le ((R (a + x) - (a + x)) + (a - A)) (x - X), abs_add_le (R (a + x) - (a + x)) (a - A)]
  have h3 : |R (a + x) - (A + X)| ≤ (1 + unit53) * (|a - A| + |x - X|) + unit53 * (S + T) := by
    have := mul_le_mul_of_nonneg_left h1 u0.le
    nlinarith
  have h4 : (1 + unit53) ^ j ≤ (1 + unit53) ^ k := pow_le_pow_right₀ (by linarith) hjk
  have h5 : (1 + unit53) * (|a - A| + |x - X|) ≤
      (1 + unit53) * (((1 + unit53) ^ k - 1) * S + ((1 + unit53) ^ k - 1) * T) := by
    refine mul_le_mul_of_nonneg_left ?_ (by linarith)
    have : ((1 + unit53) ^ j - 1) * T ≤ ((1 + unit53) ^ k - 1) * T := mul_le_mul_of_nonneg_right (by linarith) hT
    linarith
  rw [pow_succ]
  nlinarith

/-- One rounding of a number that carries an error. -/
theorem scale_error {a A S : ℝ} {k : ℕ} (hA : |A| ≤ S) (ha : |a - A| ≤ ((1 + unit53) ^ k - 1) * S) :
    |R a - A| ≤ ((1 + unit53) ^ (k + 1) - 1) * S := by
  have := add_error hR (a := a) (x := 0) (X := 0) (T := 0) (j := 0) (Nat.zero_le k) hA (by simp) ha (by simp)
  simpa using this

/-- A sum added up one by one; the parts carry `j` roundings, the start `k`. -/
theorem foldl_error {j k : ℕ} (hjk : j ≤ k) (l : List (Fl R × ℝ))
    (hl : ∀ p ∈ l, |p.1.val - p.2| ≤ ((1 + unit53) ^ j - 1) * |p.2|) (z : Fl R) (Z S : ℝ) (hZ : |Z| ≤ S)
    (hz : |z.val - Z| ≤ ((1 + unit53) ^ k - 1) * S) :
    |((l.map Prod.fst).foldl (· + ·) z).val - (Z + (l.map Prod.snd).sum)| ≤
      ((1 + unit53) ^ (k + l.length) - 1) * (S + (l.map (fun p => |p.2|)).sum) := by
  induction l generalizing z Z S k with
  | nil => simpa using hz
  | cons p l ih =>
    have hp := hl p (by simp)
    have hs := add_error hR hjk hZ (le_refl |p.2|) hz hp
    have h2 : |Z + p.2| ≤ S + |p.2| := (abs_add_le _ _).trans (by linarith)
    have := ih (k := k + 1) (by omega) (fun q hq => hl q (by simp [hq])) (z + p.1) (Z + p.2) (S + |p.2|) h2 hs
    simp only [List.map_cons, List.foldl_cons, List.sum_cons, List.length_cons]
    rw [show k + (l.length + 1) = k + 1 + l.length by ring, ← add_assoc, ← add_assoc]
    exact this

/-- A sum of whole numbers is exact as long as it stays below `2 ^ 53`. -/
theorem foldl_whole {M Z : ℕ} (l : List (Fl R)) (hl : ∀ v ∈ l, ∃ n : ℤ, |n| ≤ M ∧ v.val = n) (z : Fl R)
    (hz : ∃ n : ℤ, |n| ≤ Z ∧ z.val = n) (hM : Z + l.length * M ≤ 2 ^ 53) :
    (l.foldl (· + ·) z).val = z.val + (l.map Fl.val).sum ∧
    ∃ n : ℤ, |n| ≤ (Z + l.length * M : ℕ) ∧ (l.foldl (· + ·) z).val = n := by
  induction l generalizing z Z with
  | nil => exact ⟨by simp, by simpa using hz⟩
  | cons v l ih =>
    obtain ⟨n, hn, en⟩ := hz
    obtain ⟨m, hm, em⟩ := hl v (by simp)
    rw [List.length_cons] at hM
    have hnm : |n + m| ≤ (Z + M : ℕ) := by
      have := abs_add_le n m
      push_cast
      linarith
    have hsum : (z + v).val = ((n + m : ℤ) : ℝ) := by
      rw [Fl.val_add, en, em, ← Int.cast_add]
      refine round_int hR (hnm.trans ?_)
      have : Z + M ≤ 2 ^ 53 := by nlinarith
      exact_mod_cast this
    obtain ⟨e1, e2⟩ := ih (Z := Z + M) (fun w hw => hl w (by simp [hw])) (z + v) ⟨n + m, hnm, hsum⟩ (by nlinarith)
    refine ⟨?_, ?_⟩
    · rw [List.foldl_cons, e1, hsum, en, List.map_cons, List.sum_cons, em]
      push_cast
      ring
    · rw [List.foldl_cons, List.length_cons]
      rw [show Z + (l.length + 1) * M = Z + M + l.length * M by ring]
      exact e2

end

/-! ## The blocks of rebinning as lists -/

section
variable {K : Type} [Zero K]

/-- The pixels of a block in the order in which they are added. -/
def blockList (d : Img K) (y0 x0 s n b : Nat) : List K :=
  (List.range n).flatMap (fun u => (List.range b).map (fun v => d.px (y0 + u * s) (x0 + v * s)))

theorem blockList_length (d : Img K) (y0 x0 s n b : Nat) : (blockList d y0 x0 s n b).length = n * b := by
  unfold blockList
  rw [List.length_flatMap]
  simp

theorem blockFold_list [Add K] (d : Img K) (y0 x0 s n b : Nat) (z : K) :
    blockFoldFrom d y0 x0 s n b z = (blockList d y0 x0 s n b).foldl (· + ·) z := by
  unfold blockFoldFrom blockList rowFold
  rw [List.foldl_flatMap]
  congr 1
  funext a u
  rw [List.foldl_map]

end

theorem sum_range_list (f : Nat → ℝ) (b : Nat) : ∑ u ∈ Finset.range b, f u = ((List.range b).map f).sum := by
  induction b with
  | zero => simp
  | succ b ih => rw [Finset.sum_range_succ, ih, List.range_succ, List.map_append, List.sum_append]; simp

theorem blockSum_list (d : Img ℝ) (y0 x0 s b : Nat) : blockSum d y0 x0 s b = (blockList d y0 x0 s b b).sum := by
  unfold blockSum blockList
  rw [List.flatMap_def, List.sum_flatten, List.map_map, sum_range_list]
  refine congrArg List.sum (List.map_congr_left (fun u _ => ?_))
  exact sum_range_list _ _

theorem blockList_reals {R : ℝ → ℝ} (d : Img (Fl R)) (y0 x0 s n b : Nat) :
    blockList d.reals y0 x0 s n b = (blockList d y0 x0 s n b).map Fl.val := by
  unfold blockList
  rw [List.map_flatMap]
  congr 1
  funext u
  rw [List.map_map]
  refine List.map_congr_left (fun v _ => ?_)
  exact reals_px d _ _

theorem blockList_mem {K : Type} [Zero K] {d : Img K} {y0 x0 s n b : Nat} {v : K} (h : v ∈ blockList d y0 x0 s n b) :
    ∃ y x, v = d.px y x := by
  unfold blockList at h
  obtain ⟨u, -, h⟩ := List.mem_flatMap.1 h
  obtain ⟨w, -, rfl⟩ := List.mem_map.1 h
  exact ⟨_, _, rfl⟩

/-- Pixels of an image of whole numbers, inside or outside. -/
theorem whole_px {R : ℝ → ℝ} {A : Img (Fl R)} {M : ℕ} (h : A.Whole M) (y x : Nat) :
    ∃ n : ℤ, |n| ≤ M ∧ (A.px y x).val = n := by
  by_cases hc : y < A.h ∧ x < A.w
  · exact h y x hc.1 hc.2
  · exact ⟨0, by simp, by rw [A.out y x hc]; simp⟩

/-! ## The rounding of IEEE 754 -/

theorem nearestEven_near (z : ℝ) : |(nearestEven z : ℝ) - z| ≤ 1 / 2 := by
  have h1 := Int.floor_le z
  have h2 := Int.lt_floor_add_one z
  unfold nearestEven
  split
  · rw [abs_le]; constructor <;> linarith
  · split
    · push_cast; rw [abs_le]; constructor <;> linarith
    · split
      · rw [abs_le]; constructor <;> linarith
      · push_cast; rw [abs_le]; constructor <;> linarith

theorem nearestEven_eq {z : ℝ} {m : ℤ} (h : |z - m| < 1 / 2) : nearestEven z = m := by
  have h1 := nearestEven_near z
  rw [abs_lt] at h
  rw [abs_le] at h1
  have a : ((nearestEven z : ℝ)) < (m : ℝ) + 1 := by linarith [h.1, h.2, h1.1, h1.2]
  have b : (m : ℝ) < (nearestEven z : ℝ) + 1 := by linarith [h.1, h.2, h1.1, h1.2]
  have a' : nearestEven z < m + 1 := by exact_mod_cast a
  have b' : m < nearestEven z + 1 := by exact_mod_cast b
  omega

theorem nearestEven_int (m : ℤ) : nearestEven (m : ℝ) = m := nearestEven_eq (by simp)

/-- The power of 2 by which `roundDouble` divides, from a bracket of the number. -/
theorem log_of_bracket {x : ℝ} {e : ℤ} (h1 : 2 ^ e ≤ |x|) (h2 : |x| < 2 ^ (e + 1)) : Int.log 2 |x| = e := by
  have hx : 0 < |x| := lt_of_lt_of_le (zpow_pos (by norm_num) _) h1
  have a : e ≤ Int.log 2 |x| := (Int.zpow_le_iff_le_log (by norm_num) hx).1 (by exact_mod_cast h1)
  have b : Int.log 2 |x| < e + 1 := (Int.lt_zpow_iff_log_lt (by norm_num) hx).1 (by exact_mod_cast h2)
  omega

theorem roundDouble_near (x : ℝ) : |roundDouble x - x| ≤ 1 / 2 ^ 53 * |x| := by
  by_cases hx : x = 0
  · subst hx
    unfold roundDouble
    simp [nearestEven]
  have hx' : 0 < |x| := abs_pos.2 hx
  have hl := Int.zpow_log_le_self (b := 2) (by norm_num) hx'
  unfold roundDouble
  obtain ⟨p, hp⟩ : ∃ p : ℝ, p = 2 ^ (Int.log 2 |x| - 52) := ⟨_, rfl⟩
  have p0 : 0 < p := by rw [hp]; exact zpow_pos (by norm_num) _
  rw [← hp]
  have hpl : p * 2 ^ 52 ≤ |x| := by
    have e : p * 2 ^ 52 = (2 : ℝ) ^ Int.log 2 |x| := by
      rw [hp, ← zpow_natCast (2 : ℝ) 52, ← zpow_add₀ (by norm_num)]
      congr 1
      push_cast
      ring
    rw [e]
    exact_mod_cast hl
  have hn := nearestEven_near (x / p)
  have e : (nearestEven (x / p) : ℝ) * p - x = ((nearestEven (x / p) : ℝ) - x / p) * p := by
    field_simp
  rw [e, abs_mul, abs_of_pos p0]
  have : |(nearestEven (x / p) : ℝ) - x / p| * p ≤ 1 / 2 * p := mul_le_mul_of_nonneg_right hn p0.le
  have e2 : (1 : ℝ) / 2 * p ≤ 1 / 2 ^ 53 * |x| := by
    have : (1 : ℝ) / 2 * p = 1 / 2 ^ 53 * (p * 2 ^ 52) := by norm_num; ring
    rw [this]
    exact mul_le_mul_of_nonneg_left hpl (by positivity)
  linarith

theorem roundDouble_scaled {x : ℝ} {e m : ℤ} (h1 : 2 ^ (e + 52) ≤ |x|) (h2 : |x| < 2 ^ (e + 53))
    (hm : |x / 2 ^ e - m| < 1 / 2) : roundDouble x = m * 2 ^ e := by
  unfold roundDouble
  rw [log_of_bracket h1 (by rw [show e + 52 + 1 = e + 53 by ring]; exact h2), show e + 52 - 52 = e by ring, nearestEven_eq hm]

theorem roundDouble_exact (m e : ℤ) (hm : |m| ≤ 2 ^ 53) : roundDouble (m * 2 ^ e) = m * 2 ^ e := by
  by_cases h0 : m = 0
  · subst h0
    unfold roundDouble
    simp [nearestEven]
  obtain ⟨L, hL⟩ : ∃ L, L = Int.log 2 |(m : ℝ) * 2 ^ e| := ⟨_, rfl⟩
  have hx' : 0 < |(m : ℝ) * 2 ^ e| := by
    rw [abs_pos]
    exact mul_ne_zero (by exact_mod_cast h0) (zpow_pos (by norm_num) _).ne'
  have hl := Int.zpow_log_le_self (b := 2) (by norm_num) hx'
  rw [← hL] at hl
  have habs : |(m : ℝ) * 2 ^ e| = |(m : ℝ)| * 2 ^ e := by
    rw [abs_mul, abs_of_pos (zpow_pos (by norm_num) _ : (0 : ℝ) < 2 ^ e)]
  have hmr : |(m : ℝ)| ≤ 2 ^ 53 := by
    rw [← Int.cast_abs]
    exact_mod_cast hm
  suffices hz : ∃ k : ℤ, (m : ℝ) * 2 ^ e / 2 ^ (L - 52) = k by
    obtain ⟨k, hk⟩ := hz
    unfold roundDouble
    rw [← hL, hk, nearestEven_int, ← hk]
    field_simp
  by_cases hle : L - 52 ≤ e
  · obtain ⟨d, hd⟩ : ∃ d : ℕ, e - (L - 52) = d := ⟨(e - (L - 52)).toNat, by omega⟩
    refine ⟨m * 2 ^ d, ?_⟩
    rw [mul_div_assoc, ← zpow_sub₀ (by norm_num), hd, zpow_natCast]
    push_cast
    ring
  · -- the number is a power of 2
    have hle' : L = e + 53 := by
      have h1 : (2 : ℝ) ^ L ≤ 2 ^ (e + 53) := by
        calc (2 : ℝ) ^ L ≤ |(m : ℝ) * 2 ^ e| := by exact_mod_cast hl
          _ = |(m : ℝ)| * 2 ^ e := habs
          _ ≤ 2 ^ 53 * 2 ^ e := mul_le_mul_of_nonneg_right hmr (zpow_pos (by norm_num) _).le
          _ = 2 ^ (e + 53) := by
            rw [← zpow_natCast (2 : ℝ) 53, ← zpow_add₀ (by norm_num)]
            congr 1
            push_cast
            ring
      have := (zpow_le_zpow_iff_right₀ (by norm_num : (1 : ℝ) < 2)).1 h1
      omega
    have hm53 : |m| = 2 ^ 53 := by
      refine le_antisymm hm ?_
      have h1 : (2 : ℝ) ^ 53 * 2 ^ e ≤ |(m : ℝ)| * 2 ^ e := by
        rw [← habs]
        calc (2 : ℝ) ^ 53 * 2 ^ e = 2 ^ L := by
              rw [hle', ← zpow_natCast (2 : ℝ) 53, ← zpow_add₀ (by norm_num)]
              congr 1
              push_cast
              ring
          _ ≤ |(m : ℝ) * 2 ^ e| := by exact_mod_cast hl
      have h2 := le_of_mul_le_mul_right h1 (zpow_pos (by norm_num) _)
      rw [← Int.cast_abs] at h2
      exact_mod_cast h2
    have e1 : (m : ℝ) * 2 ^ e / 2 ^ (L - 52) = m / 2 := by
      rw [mul_div_assoc, ← zpow_sub₀ (by norm_num), hle', show e - (e + 53 - 52) = -1 by ring]
      norm_num
      ring
    rcases abs_eq (by norm_num : (0 : ℤ) ≤ 2 ^ 53) |>.1 hm53 with h | h
    · exact ⟨2 ^ 52, by rw [e1, h]; norm_num⟩
    · exact ⟨-2 ^ 52, by rw [e1, h]; norm_num⟩

end Micropol
