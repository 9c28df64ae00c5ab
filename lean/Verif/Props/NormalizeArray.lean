import Verif.Props.NormalizeRounded

/-!
# C118: arrays of large angles

`normalize2piarray` subtracts the float `np.pi` again and again, each time with a rounding error.  For arrays up to `2⁵⁰` it ends
with angles in range; the error is at most the square of the angle times `2⁻⁵³`.
-/

set_option autoImplicit false

namespace Micropol

section
open Classical

variable {R : ℝ → ℝ}

/-- A pixel in the first loop: `v` after `k` turns from `a`. -/
def TurnedDown (pi a v : ℝ) : Prop :=
  IsDouble v ∧ ∃ k : ℕ, |v - (a - k * pi)| ≤ k * (|a| / 2 ^ 53) ∧ v ≤ a - 2 * k ∧ (k = 0 ∧ v = a ∨ -(pi / 2) < v ∧ pi / 2 < a)

/-- A pixel in the second loop. -/
def TurnedUp (pi a v : ℝ) : Prop :=
  IsDouble v ∧ ∃ k : ℕ, |v - (a + k * pi)| ≤ k * (|a| / 2 ^ 53) ∧ a + 2 * k ≤ v ∧ (k = 0 ∧ v = a ∨ v ≤ pi / 2 ∧ a ≤ -(pi / 2))

theorem turnDown_turned (hR : IsRounding R) (hD : ∀ x, IsDouble (R x)) {pi : ℝ} (hp : IsDouble pi) (h3 : 3 ≤ pi) (h4 : pi ≤ 4)
    {a : ℝ} (ha : |a| ≤ 2 ^ 50) {v : Fl R} (h : TurnedDown pi a v.val) :
    TurnedDown pi a (turnDown pi v).val ∧ ((turnDown pi v).val ≤ v.val - 2 ∨ (turnDown pi v).val ≤ pi / 2) := by
  obtain ⟨hv, k, h1, h2, h5⟩ := h
  unfold turnDown
  split
  · rename_i hc
    have hc' : pi / 2 < v.val := hc
    have hk : (0 : ℝ) ≤ k := Nat.cast_nonneg k
    have hva : v.val ≤ a := by linarith
    have ha0 : 0 < a := by linarith
    have habs : |a| = a := abs_of_pos ha0
    rw [habs] at ha h1
    have e : (v - ⟨pi⟩ : Fl R).val = R (v.val - pi) := rfl
    rw [e]
    have hsmall : |v.val - pi| ≤ a := abs_le.2 ⟨by linarith, by linarith⟩
    have hnear : |R (v.val - pi) - (v.val - pi)| ≤ a / 2 ^ 53 := by
      refine (hR.near _).trans ?_
      rw [one_div, inv_mul_eq_div]
      exact div_le_div_of_nonneg_right hsmall (by norm_num)
    have hup : a / 2 ^ 53 ≤ 1 / 8 := by
      rw [div_le_iff₀ (by norm_num)]
      norm_num at ha ⊢
      linarith
    have hlow : -(pi / 2) < R (v.val - pi) := by
      by_cases hsm : v.val ≤ 2 * pi
      · rw [hR.double (hv.sub_of_near hp hc'.le hsm)]
        linarith
      · push Not at hsm
        have := (abs_le.1 hnear).1
        linarith
    have hdown : R (v.val - pi) ≤ v.val - 2 := by
      have := (abs_le.1 hnear).2
      linarith
    refine ⟨⟨hD _, k + 1, ?_, ?_, Or.inr ⟨hlow, by linarith⟩⟩, Or.inl hdown⟩
    · rw [habs]
      push_cast
      have : R (v.val - pi) - (a - (k + 1) * pi) = (R (v.val - pi) - (v.val - pi)) + (v.val - (a - k * pi)) := by ring
      rw [this]
      refine (abs_add_le _ _).trans ?_
      linarith
    · push_cast
      linarith
  · rename_i hc
    have hc' : v.val ≤ pi / 2 := not_lt.1 hc
    exact ⟨⟨hv, k, h1, h2, h5⟩, Or.inr hc'⟩

theorem turnUp_turned (hR : IsRounding R) (hD : ∀ x, IsDouble (R x)) {pi : ℝ} (hp : IsDouble pi) (h3 : 3 ≤ pi) (h4 : pi ≤ 4)
    {a : ℝ} (ha : |a| ≤ 2 ^ 50) {v : Fl R} (h : TurnedUp pi a v.val) :
    TurnedUp pi a (turnUp pi v).val ∧ (v.val + 2 ≤ (turnUp pi v).val ∨ -(pi / 2) < (turnUp pi v).val) := by
  obtain ⟨hv, k, h1, h2, h5⟩ := h
  unfold turnUp
  split
  · rename_i hc
    have hc' : v.val ≤ -pi / 2 := hc
    have hk : (0 : ℝ) ≤ k := Nat.cast_nonneg k
    have hva : a ≤ v.val := by linarith
    have ha0 : a < 0 := by linarith
    have habs : |a| = -a := abs_of_neg ha0
    rw [habs] at ha h1
    have e : (v + ⟨pi⟩ : Fl R).val = R (v.val + pi) := rfl
    rw [e]
    have hsmall : |v.val + pi| ≤ -a := abs_le.2 ⟨by linarith, by linarith⟩
    have hnear : |R (v.val + pi) - (v.val + pi)| ≤ -a / 2 ^ 53 := by
      refine (hR.near _).trans ?_
      rw [one_div, inv_mul_eq_div]
      exact div_le_div_of_nonneg_right hsmall (by norm_num)
    have hup : -a / 2 ^ 53 ≤ 1 / 8 := by
      rw [div_le_iff₀ (by norm_num)]
      norm_num at ha ⊢
      linarith
    have hlow : R (v.val + pi) ≤ pi / 2 := by
      by_cases hsm : -(2 * pi) ≤ v.val
      · have hd : IsDouble (v.val + pi) := by
          have := (hv.neg.sub_of_near hp (by linarith) (by linarith)).neg
          rwa [show -(-v.val - pi) = v.val + pi by ring] at this
        rw [hR.double hd]
        linarith
      · push Not at hsm
        have := (abs_le.1 hnear).2
        linarith
    have hdown : v.val + 2 ≤ R (v.val + pi) := by
      have := (abs_le.1 hnear).1
      linarith
    refine ⟨⟨hD _, k + 1, ?_, ?_, Or.inr ⟨hlow, by linarith⟩⟩, Or.inl hdown⟩
    · rw [habs]
      push_cast
      have : R (v.val + pi) - (a + (k + 1) * pi) = (R (v.val + pi) - (v.val + pi)) + (v.val - (a + k * pi)) := by ring
      rw [this]
      refine (abs_add_le _ _).trans ?_
      linarith
    · push_cast
      linarith
  · rename_i hc
    have hc' : -pi / 2 < v.val := not_le.1 hc
    exact ⟨⟨hv, k, h1, h2, h5⟩, Or.inr (by linarith)⟩

/-- A loop over all pixels, each of which goes down by at least 2 or is done. -/
theorem whileLoop_pixels {A : Img (Fl R)} (f : Fl R → Fl R) (todo : Fl R → Prop) (P : Fl R → Fl R → Prop) (μ : Fl R → ℝ) (low M : ℝ)
    (hstart : ∀ y x, y < A.h → x < A.w → P (A.px y x) (A.px y x) ∧ μ (A.px y x) ≤ M)
    (hdone : ∀ v, μ v ≤ low ↔ ¬ todo v)
    (hf : ∀ y x, y < A.h → x < A.w → ∀ v, P (A.px y x) v → P (A.px y x) (f v) ∧ (μ (f v) ≤ μ v - 2 ∨ μ (f v) ≤ low)) :
    ∃ B, whileLoop (fun d : Img (Fl R) => decide (∃ y x, y < d.h ∧ x < d.w ∧ todo (d.px y x))) (fun d => d.map f) A = .ok B ∧
      B.SameShape A ∧ ∀ y x, y < A.h → x < A.w → P (A.px y x) (B.px y x) ∧ ¬ todo (B.px y x) := by
  have key : ∀ n : ℕ, ∀ d : Img (Fl R), d.SameShape A →
      (∀ y x, y < A.h → x < A.w → P (A.px y x) (d.px y x) ∧ μ (d.px y x) ≤ low + 2 * n) →
      ∃ B, whileFuel (fun d : Img (Fl R) => decide (∃ y x, y < d.h ∧ x < d.w ∧ todo (d.px y x))) (fun d => d.map f) n d = .ok B ∧
        B.SameShape A ∧ ∀ y x, y < A.h → x < A.w → P (A.px y x) (B.px y x) ∧ ¬ todo (B.px y x) := by
    have stop : ∀ (n : ℕ) (d : Img (Fl R)), d.SameShape A → (∀ y x, y < A.h → x < A.w → P (A.px y x) (d.px y x)) →
        decide (∃ y x, y < d.h ∧ x < d.w ∧ todo (d.px y x)) = false →
        ∃ B, whileFuel (fun d : Img (Fl R) => decide (∃ y x, y < d.h ∧ x < d.w ∧ todo (d.px y x))) (fun d => d.map f) n d = .ok B ∧
        B.SameShape A ∧ ∀ y x, y < A.h → x < A.w → P (A.px y x) (B.px y x) ∧ ¬ todo (B.px y x) := by
      intro n d hs hd hc
      refine ⟨d, whileFuel_done (cond := fun d : Img (Fl R) => decide (∃ y x, y < d.h ∧ x < d.w ∧ todo (d.px y x)))
        (s := d) hc n, hs, fun y x hy hx => ⟨hd y x hy hx, fun ht => ?_⟩⟩
      exact of_decide_eq_false hc ⟨y, x, by rw [hs.1]; exact hy, by rw [hs.2]; exact hx, ht⟩
    intro n
    induction n with
    | zero =>
      intro d hs hd
      refine stop 0 d hs (fun y x hy hx => (hd y x hy hx).1) (decide_eq_false ?_)
      rintro ⟨y, x, hy, hx, ht⟩
      have := (hd y x (by rw [← hs.1]; exact hy) (by rw [← hs.2]; exact hx)).2
      rw [Nat.cast_zero, mul_zero, add_zero] at this
      exact (hdone _).1 this ht
    | succ n ih =>
      intro d hs hd
      cases hc : decide (∃ y x, y < d.h ∧ x < d.w ∧ todo (d.px y x)) with
      | false => exact stop _ d hs (fun y x hy hx => (hd y x hy hx).1) hc
      | true =>
        obtain ⟨B, hB, hB2⟩ := ih (d.map f) hs (by
          intro y x hy hx
          rw [show (d.map f).px y x = f (d.px y x) from Img.ofFn_px (by rw [hs.1]; exact hy) (by rw [hs.2]; exact hx)]
          obtain ⟨h1, h2⟩ := hd y x hy hx
          obtain ⟨h3, h4⟩ := hf y x hy hx _ h1
          refine ⟨h3, ?_⟩
          push_cast at h2 ⊢
          have : (0 : ℝ) ≤ n := Nat.cast_nonneg n
          rcases h4 with h4 | h4 <;> linarith)
        refine ⟨B, ?_, hB2⟩
        unfold whileFuel
        rw [hc, if_pos rfl]
        exact hB
  obtain ⟨n, hn⟩ := exists_nat_ge ((M - low) / 2)
  obtain ⟨B, h1, h2⟩ := key n A ⟨rfl, rfl⟩ (fun y x hy hx => ⟨(hstart y x hy hx).1, by
    have := (hstart y x hy hx).2
    linarith⟩)
  exact ⟨B, whileLoop_eq_ok h1, h2⟩

end

/-- C118: `normalize2piarray` of an array of floats up to `2⁵⁰` ends; the results are in (-pi/2, pi/2], and modulo the float
`pi` they differ from the given angles by at most the square of the angle times `2⁻⁵³`. -/
theorem C118_array_ends (pi : ℝ) (hp : IsDouble pi) (h3 : 3 ≤ pi) (h4 : pi ≤ 4) (A : Img (Fl roundDouble))
    (hA : ∀ y x, y < A.h → x < A.w → IsDouble (A.px y x).val ∧ |(A.px y x).val| ≤ 2 ^ 50) :
    ∃ B, normalize2piarrayRounded pi A = .ok B ∧ B.SameShape A ∧ ∀ y x, y < A.h → x < A.w →
      -(pi / 2) < (B.px y x).val ∧ (B.px y x).val ≤ pi / 2 ∧
      ∃ k : ℤ, |(B.px y x).val - ((A.px y x).val + k * pi)| ≤ (A.px y x).val ^ 2 / 2 ^ 53 := by
  classical
  have hR : IsRounding roundDouble := ⟨roundDouble_exact, roundDouble_near⟩
  obtain ⟨B, hB, hBs, hBp⟩ := whileLoop_pixels (A := A) (turnDown pi) (fun v => v > ⟨pi / 2⟩)
    (fun a v => |a.val| ≤ 2 ^ 50 ∧ TurnedDown pi a.val v.val) Fl.val (pi / 2) (2 ^ 50)
    (fun y x hy hx => ⟨⟨(hA y x hy hx).2, (hA y x hy hx).1, 0, by simp, by simp, Or.inl ⟨rfl, rfl⟩⟩, (abs_le.1 (hA y x hy hx).2).2⟩)
    (fun v => (not_lt (a := pi / 2) (b := v.val)).symm)
    (fun y x hy hx v hv => by
      obtain ⟨g1, g2⟩ := turnDown_turned hR C118_rounded_is_double hp h3 h4 hv.1 hv.2
      exact ⟨⟨hv.1, g1⟩, g2⟩)
  have hbig : ∀ y x, y < B.h → x < B.w → IsDouble (B.px y x).val ∧ |(B.px y x).val| ≤ 2 ^ 50 ∧ (B.px y x).val ≤ pi / 2 := by
    intro y x hy hx
    rw [hBs.1] at hy
    rw [hBs.2] at hx
    obtain ⟨⟨g1, gd, k, -, -, g2⟩, g3⟩ := hBp y x hy hx
    have g4 : (B.px y x).val ≤ pi / 2 := not_lt.1 g3
    refine ⟨gd, ?_, g4⟩
    rcases g2 with ⟨-, g2⟩ | ⟨g2, -⟩
    · rw [g2]; exact g1
    · rw [abs_le]
      norm_num
      constructor <;> linarith
  obtain ⟨C, hC, hCs, hCp⟩ := whileLoop_pixels (A := B) (turnUp pi) (fun v => v ≤ ⟨-pi / 2⟩)
    (fun a v => |a.val| ≤ 2 ^ 50 ∧ TurnedUp pi a.val v.val) (fun v => if -pi / 2 < v.val then 0 else pi / 2 + 1 - v.val) 0
    (2 ^ 50 + 4)
    (fun y x hy hx => ⟨⟨(hbig y x hy hx).2.1, (hbig y x hy hx).1, 0, by simp, by simp, Or.inl ⟨rfl, rfl⟩⟩, by
      have := (abs_le.1 (hbig y x hy hx).2.1).1
      split
      · norm_num
      · linarith⟩)
    (fun v => by
      show _ ↔ ¬ (v.val ≤ -pi / 2)
      rw [not_le]
      constructor
      · intro h
        by_contra hc
        rw [if_neg hc] at h
        push Not at hc
        linarith
      · intro h
        rw [if_pos h])
    (fun y x hy hx v hv => by
      obtain ⟨g1, g2⟩ := turnUp_turned hR C118_rounded_is_double hp h3 h4 hv.1 hv.2
      refine ⟨⟨hv.1, g1⟩, ?_⟩
      by_cases hn : -pi / 2 < (turnUp pi v).val
      · right
        rw [if_pos hn]
      · left
        have g3 := g2.resolve_right (fun h => hn (by linarith))
        have hv' : ¬ -pi / 2 < v.val := fun h => hn (by linarith)
        rw [if_neg hn, if_neg hv']
        linarith)
  refine ⟨C, ?_, ⟨hCs.1.trans hBs.1, hCs.2.trans hBs.2⟩, ?_⟩
  · unfold normalize2piarrayRounded
    have hB' : whileLoop (fun d : Img (Fl roundDouble) => decide (∃ y x, y < d.h ∧ x < d.w ∧ d.px y x > ⟨pi / 2⟩))
      (fun d => d.map (fun v => if v > ⟨pi / 2⟩ then v - ⟨pi⟩ else v)) A = .ok B := hB
    rw [hB', Py.ok_bind]
    exact hC
  · intro y x hy hx
    have hy' : y < B.h := by rw [hBs.1]; exact hy
    have hx' : x < B.w := by rw [hBs.2]; exact hx
    obtain ⟨⟨-, -, l, c1, c2, c3⟩, c4⟩ := hCp y x hy' hx'
    obtain ⟨⟨-, -, k, b1, b2, b3⟩, b4⟩ := hBp y x hy hx
    have c4' : -pi / 2 < (C.px y x).val := not_le.1 c4
    have b4' : (B.px y x).val ≤ pi / 2 := not_lt.1 b4
    have hl0 : (0 : ℝ) ≤ l := Nat.cast_nonneg l
    have hk0 : (0 : ℝ) ≤ k := Nat.cast_nonneg k
    have hCup : (C.px y x).val ≤ pi / 2 := by
      rcases c3 with ⟨-, c3⟩ | ⟨c3, -⟩
      · rw [c3]; exact b4'
      · exact c3
    refine ⟨by linarith, hCup, ?_⟩
    generalize (A.px y x).val = a at *
    generalize (B.px y x).val = b at *
    generalize (C.px y x).val = c at *
    have hsq : ∀ t : ℝ, 0 ≤ t → t ≤ |a| → t * (|a| / 2 ^ 53) ≤ a ^ 2 / 2 ^ 53 := by
      intro t h0 ht
      rw [← mul_div_assoc]
      refine div_le_div_of_nonneg_right ?_ (by norm_num)
      rw [← sq_abs a, sq]
      exact mul_le_mul_of_nonneg_right ht (abs_nonneg a)
    rcases b3 with ⟨rfl, rfl⟩ | ⟨b3, ba⟩
    · -- the first loop did nothing
      refine ⟨l, ?_⟩
      rcases c3 with ⟨rfl, rfl⟩ | ⟨c3, ca⟩
      · simp only [Int.cast_zero, zero_mul, add_zero, sub_self, abs_zero, CharP.cast_eq_zero]
        positivity
      · rw [Int.cast_natCast]
        refine c1.trans (hsq l hl0 ?_)
        have : b < 0 := by linarith
        rw [abs_of_neg this]
        linarith
    · -- then the second does nothing
      have hl : l = 0 ∧ c = b := by
        rcases c3 with c3 | ⟨-, c3⟩
        · exact c3
        · linarith
      obtain ⟨-, rfl⟩ := hl
      refine ⟨-k, ?_⟩
      have ha0 : 0 < a := by linarith
      have : c - (a + ((-(k : ℤ) : ℤ) : ℝ) * pi) = c - (a - k * pi) := by push_cast; ring
      rw [this]
      refine b1.trans (hsq k hk0 ?_)
      rw [abs_of_pos ha0]
      linarith

/-- The hypotheses: the float π, and all arrays of whole radians up to a million. -/
example (A : Img (Fl roundDouble)) (hA : ∀ y x, y < A.h → x < A.w → ∃ n : ℤ, |n| ≤ 1000000 ∧ (A.px y x).val = n) :
    ∃ B, normalize2piarrayRounded (roundDouble Real.pi) A = .ok B ∧ B.SameShape A := by
  have h3 : IsDouble (3 : ℝ) := by exact_mod_cast isDouble_int (n := 3) (by norm_num)
  have h4 : IsDouble (4 : ℝ) := by exact_mod_cast isDouble_int (n := 4) (by norm_num)
  obtain ⟨B, h1, h2, -⟩ := C118_array_ends (roundDouble Real.pi) (C118_rounded_is_double _) (le_roundDouble h3 Real.pi_gt_three.le)
    (roundDouble_le h4 Real.pi_le_four) A (by
      intro y x hy hx
      obtain ⟨n, hn, e⟩ := hA y x hy hx
      rw [e]
      have hn' : |(n : ℝ)| ≤ 1000000 := by exact_mod_cast hn
      refine ⟨isDouble_int (by linarith), ?_⟩
      norm_num
      linarith)
  exact ⟨B, h1, h2⟩

end Micropol
