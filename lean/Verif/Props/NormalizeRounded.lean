import Verif.Lemmas.NormalizeRounded
import Verif.Spec.Utils
import Verif.Spec.Shape
import Mathlib.Analysis.Real.Pi.Bounds

/-!
# C118: angle normalisation in floating point

`Fl R` are numbers whose operations are rounded by `R`; `roundDouble` is the rounding of IEEE 754 doubles to nearest, ties to even;
`IsDouble x` says that `x` has at most 53 binary digits.
-/

set_option autoImplicit false

namespace Micropol

/-! ## Degrees -/

/-- C118, the part that holds: `normalize2pi` of floats up to `2⁵⁵` degrees makes no rounding error at all: entry by entry the result is
exactly the representative in (-90, 90] of the angle.  Missing: larger angles, see `C118_wrong` and `C118_hangs`. -/
theorem C118_exact_partial {R : ℝ → ℝ} (hR : IsRounding R) (l : List (Fl R)) (hl : ∀ a ∈ l, IsDouble a.val ∧ |a.val| ≤ 2 ^ 55) :
    ∃ r, normalize2piRounded l = .ok r ∧ List.Forall₂ (fun a b => IsRepresentative 90 a.val b.val) l r := by
  induction l with
  | nil => exact ⟨[], rfl, List.Forall₂.nil⟩
  | cons a l ih =>
    obtain ⟨r, h1, h2⟩ := ih (fun b hb => hl b (List.mem_cons_of_mem _ hb))
    obtain ⟨hd, hs⟩ := hl a List.mem_cons_self
    obtain ⟨v, hv, g1, g2, k, g3⟩ := normalizeAngle_ok a.val
    have hb : normalizeAngleRounded a = .ok (⟨v⟩ : Fl R) := normalizeAngleRounded_exact hR (FineDouble.of_small hd hs) hv
    refine ⟨⟨v⟩ :: r, ?_, List.Forall₂.cons ⟨g1, g2, k, ?_⟩ h2⟩
    · unfold normalize2piRounded at h1 ⊢
      rw [List.mapM_cons, hb, h1]
      rfl
    · show v = a.val + 2 * 90 * k
      rw [g3]
      ring

/-- C118: up to `2⁶⁰` degrees `normalize2pi` ends, with angles in (-90, 90]. -/
theorem C118_ends (l : List (Fl roundDouble)) (hl : ∀ a ∈ l, |a.val| ≤ 2 ^ 60) :
    ∃ r, normalize2piRounded l = .ok r ∧ List.Forall₂ (fun _ b => -90 < b.val ∧ b.val ≤ 90) l r := by
  induction l with
  | nil => exact ⟨[], rfl, List.Forall₂.nil⟩
  | cons a l ih =>
    obtain ⟨r, h1, h2⟩ := ih (fun b hb => hl b (List.mem_cons_of_mem _ hb))
    obtain ⟨v, hv, g1, g2⟩ := normalizeAngleRounded_ends (hl a List.mem_cons_self)
    refine ⟨⟨v⟩ :: r, ?_, List.Forall₂.cons ⟨g1, g2⟩ h2⟩
    unfold normalize2piRounded at h1 ⊢
    rw [List.mapM_cons, show normalizeAngleRounded a = .ok ⟨v⟩ from hv, h1]
    rfl

/-- C118, violation: from `2⁶²` degrees on `normalize2pi` never ends: subtracting (or adding) 180 gives the same float again.
(`l₁` are the entries before it.) -/
theorem C118_hangs (l₁ l₂ : List (Fl roundDouble)) (hl : ∀ b ∈ l₁, |b.val| ≤ 2 ^ 60) (a : Fl roundDouble) (ha : IsDouble a.val)
    (hbig : 2 ^ 62 ≤ |a.val|) : normalize2piRounded (l₁ ++ a :: l₂) = .error .hang := by
  obtain ⟨r, h1, -⟩ := C118_ends l₁ hl
  unfold normalize2piRounded at h1 ⊢
  rw [List.mapM_append, h1, Py.ok_bind, List.mapM_cons,
    show normalizeAngleRounded a = .error .hang from normalizeAngleRounded_hangs ha hbig]
  rfl

theorem round_tie : roundDouble (2 ^ 55 + 4) = 2 ^ 55 := by
  unfold roundDouble
  rw [abs_of_pos (by norm_num), show Int.log 2 ((2 : ℝ) ^ 55 + 4) = 55 by
    have := log_of_bracket (x := (2 : ℝ) ^ 55 + 4) (e := 55) (by rw [abs_of_pos (by norm_num)]; norm_num)
      (by rw [abs_of_pos (by norm_num)]; norm_num)
    rwa [abs_of_pos (by norm_num)] at this]
  have e : ((2 : ℝ) ^ 55 + 4) / 2 ^ ((55 : ℤ) - 52) = 4503599627370496 + 1 / 2 := by norm_num
  rw [e]
  have hf : ⌊(4503599627370496 + 1 / 2 : ℝ)⌋ = 4503599627370496 := by
    rw [Int.floor_eq_iff]
    norm_num
  unfold nearestEven
  rw [hf]
  norm_num

/-- C118, violation: between these sizes the result can be wrong.  For 2⁵⁵ + 184 degrees it is not the representative. -/
theorem C118_wrong : ∃ a r : ℝ, IsDouble a ∧ |a| ≤ 2 ^ 60 ∧ normalize2piRounded [(⟨a⟩ : Fl roundDouble)] = .ok [⟨r⟩] ∧
    ¬ IsRepresentative 90 a r := by
  classical
  have hR : IsRounding roundDouble := ⟨roundDouble_exact, roundDouble_near⟩
  obtain ⟨v, hv, g1, g2, k, g3⟩ := normalizeAngle_ok (2 ^ 55)
  have hfine : FineDouble ((2 : ℝ) ^ 55) := ⟨2 ^ 53, 2, by norm_num, le_rfl, by norm_num⟩
  have hb := normalizeAngleRounded_exact hR hfine hv
  refine ⟨2 ^ 55 + 184, v, ⟨2 ^ 52 + 23, 3, by norm_num, by norm_num⟩, by rw [abs_of_pos] <;> norm_num, ?_, ?_⟩
  · have e : normalizeAngleRounded (⟨2 ^ 55 + 184⟩ : Fl roundDouble) = .ok ⟨v⟩ := by
      unfold normalizeAngleRounded at hb ⊢
      cases hw : whileLoop (fun a : Fl roundDouble => decide (a > ⟨90⟩)) (fun a => a - ⟨180⟩) ⟨2 ^ 55⟩ with
      | error e => rw [hw] at hb; cases hb
      | ok b =>
        rw [hw] at hb
        have hs : whileLoop (fun a : Fl roundDouble => decide (a > ⟨90⟩)) (fun a => a - ⟨180⟩) ⟨2 ^ 55 + 184⟩ = .ok b := by
          obtain ⟨n, hn⟩ := whileLoop_fuel hw
          have hbody : (⟨2 ^ 55 + 184⟩ - ⟨180⟩ : Fl roundDouble) = ⟨2 ^ 55⟩ := by
            refine Fl.ext ?_
            show roundDouble (2 ^ 55 + 184 - 180) = 2 ^ 55
            rw [show (2 : ℝ) ^ 55 + 184 - 180 = 2 ^ 55 + 4 by norm_num, round_tie]
          obtain ⟨m, hm⟩ := whileLoop_step (cond := fun a : Fl roundDouble => decide (a > ⟨90⟩)) (body := fun a => a - ⟨180⟩)
            (s := ⟨2 ^ 55 + 184⟩) (s' := b)
            (decide_eq_true (show (90 : ℝ) < 2 ^ 55 + 184 by norm_num)) ⟨n, by rw [hbody]; exact hn⟩
          exact whileLoop_eq_ok hm
        rw [hs]
        exact hb
    unfold normalize2piRounded
    rw [List.mapM_cons, e]
    rfl
  · rintro ⟨-, -, k', h⟩
    have h2 : (45 : ℝ) * (k - k') = 46 := by rw [g3] at h; linarith
    have h3 : (45 : ℤ) * (k - k') = 46 := by exact_mod_cast h2
    omega

/-- C118: so the statement of C55, for floats instead of real numbers, is false. -/
theorem C118_full_claim_false : ¬ ∀ l : List (Fl roundDouble), (∀ a ∈ l, IsDouble a.val) →
    ∃ r, normalize2piRounded l = .ok r ∧ List.Forall₂ (fun a b => IsRepresentative 90 a.val b.val) l r := by
  intro h
  have hd : IsDouble ((2 : ℝ) ^ 62) := ⟨1, 62, by norm_num, by norm_num⟩
  obtain ⟨r, hr, -⟩ := h [⟨2 ^ 62⟩] (by
    intro a ha
    rw [List.mem_singleton] at ha
    rw [ha]
    exact hd)
  have := C118_hangs [] [] (by simp) ⟨2 ^ 62⟩ hd (by rw [abs_of_pos] <;> norm_num)
  rw [List.nil_append, hr] at this
  cases this

/-- 200.5 degrees become 20.5, -270 degrees become -90 + 180 = 90. -/
example : ∃ r, normalize2piRounded [(⟨200.5⟩ : Fl roundDouble), ⟨-270⟩] = .ok r ∧
    List.Forall₂ (fun a b => IsRepresentative 90 a.val b.val) [(⟨200.5⟩ : Fl roundDouble), ⟨-270⟩] r := by
  refine C118_exact_partial ⟨roundDouble_exact, roundDouble_near⟩ _ ?_
  intro a ha
  rcases List.mem_cons.1 ha with rfl | ha
  · exact ⟨⟨401, -1, by norm_num, by norm_num⟩, by rw [abs_of_pos] <;> norm_num⟩
  · rw [List.mem_singleton] at ha
    subst ha
    exact ⟨⟨-270, 0, by norm_num, by norm_num⟩, by norm_num⟩

/-! ## Arrays, radians -/

/-- C118: `normalize2piarray` of an array of floats in the range (-3/2 pi, 3/2 pi], where `pi` is the float `np.pi`, makes no rounding
error: pixel by pixel the result is exactly the representative in (-pi/2, pi/2], modulo the float `pi`. -/
theorem C118_array_exact_partial {R : ℝ → ℝ} (hR : IsRounding R) (pi : ℝ) (hp : IsDouble pi) (hp0 : 0 < pi) (A : Img (Fl R))
    (hd : ∀ y x, y < A.h → x < A.w → IsDouble (A.px y x).val)
    (hr : ∀ y x, y < A.h → x < A.w → -(3 / 2 * pi) < (A.px y x).val ∧ (A.px y x).val ≤ 3 / 2 * pi) :
    ∃ B, normalize2piarrayRounded pi A = .ok B ∧ B.SameShape A ∧
      ∀ y x, y < A.h → x < A.w → IsRepresentative (pi / 2) (A.px y x).val (B.px y x).val := by
  refine ⟨_, normalize2piarrayRounded_once hR hp hp0 hd hr, ⟨rfl, rfl⟩, ?_⟩
  intro y x hy hx
  have e : ((A.map (turnDown pi)).map (turnUp pi)).px y x = turnUp pi (turnDown pi (A.px y x)) := by
    rw [show ((A.map (turnDown pi)).map (turnUp pi)).px y x = turnUp pi ((A.map (turnDown pi)).px y x) from Img.ofFn_px hy hx,
      show (A.map (turnDown pi)).px y x = turnDown pi (A.px y x) from Img.ofFn_px hy hx]
  rw [e]
  obtain ⟨a1, a2, a3, a4⟩ := turnDown_exact hR hp hp0 (hd y x hy hx) (abs_le.2 ⟨(hr y x hy hx).1.le, (hr y x hy hx).2⟩)
  have hrange : -(pi / 2) < (turnUp pi (turnDown pi (A.px y x))).val ∧ (turnUp pi (turnDown pi (A.px y x))).val ≤ pi / 2 := by
    rcases turnUp_exact hR hp hp0 a1 a3 a2 with g | g
    · exact g
    · exfalso
      rcases a4 with a4 | a4
      · have := (hr y x hy hx).1
        rw [← a4, g.1] at this
        exact lt_irrefl _ this
      · rw [a4.1] at g
        linarith [g.1, a4.2]
  refine ⟨hrange.1, hrange.2, ?_⟩
  rcases turnUp_value hR hp hp0 a1 a3 with g | g <;> rcases a4 with b | b
  · exact ⟨0, by rw [g, b]; simp⟩
  · exact ⟨-1, by rw [g, b.1]; push_cast; ring⟩
  · exact ⟨1, by rw [g, b]; push_cast; ring⟩
  · exact ⟨0, by rw [g, b.1]; push_cast; ring⟩

/-- C118, violation: one pixel of `2⁶²` or more, and `normalize2piarray` never ends, whatever the other pixels are. -/
theorem C118_array_hangs (pi : ℝ) (h0 : 0 < pi) (h4 : pi ≤ 4) (A : Img (Fl roundDouble)) (y x : Nat) (hy : y < A.h) (hx : x < A.w)
    (ha : IsDouble (A.px y x).val) (hbig : 2 ^ 62 ≤ (A.px y x).val) : normalize2piarrayRounded pi A = .error .hang :=
  normalize2piarrayRounded_hangs h0 h4 hy hx ha hbig

/-- C118: what a rounding gives is a float; so `np.pi`, the rounded number π, meets the hypotheses above. -/
theorem C118_rounded_is_double (x : ℝ) : IsDouble (roundDouble x) := by
  by_cases hx : x = 0
  · rw [hx, roundDouble_zero]
    exact ⟨0, 0, by norm_num, by simp⟩
  obtain ⟨b1, b2⟩ := log_bracket hx
  obtain ⟨L, hL⟩ : ∃ L, L = Int.log 2 |x| := ⟨_, rfl⟩
  unfold roundDouble
  rw [← hL] at b1 b2 ⊢
  have hu := zpow_two_pos (L - 52)
  refine ⟨nearestEven (x / 2 ^ (L - 52)), L - 52, ?_, rfl⟩
  have hn := abs_le.1 (nearestEven_near (x / 2 ^ (L - 52)))
  have hq : |x / 2 ^ (L - 52)| < 2 ^ 53 := by
    rw [abs_div, abs_of_pos hu, div_lt_iff₀ hu]
    have : (2 : ℝ) ^ 53 * 2 ^ (L - 52) = 2 ^ (L + 1) := by
      rw [zpow_add_one₀ (by norm_num), ← zpow_sub52 L]
      ring
    rw [this]
    exact b2
  obtain ⟨q1, q2⟩ := abs_lt.1 hq
  have h1 : (nearestEven (x / 2 ^ (L - 52)) : ℝ) < 2 ^ 53 + 1 := by linarith [hn.2]
  have h2 : (-(2 ^ 53 + 1) : ℝ) < nearestEven (x / 2 ^ (L - 52)) := by linarith [hn.1]
  have h1' : nearestEven (x / 2 ^ (L - 52)) < 2 ^ 53 + 1 := by exact_mod_cast h1
  have h2' : -(2 ^ 53 + 1) < nearestEven (x / 2 ^ (L - 52)) := by exact_mod_cast h2
  rw [abs_le]
  constructor <;> linarith

example : 0 < roundDouble Real.pi ∧ roundDouble Real.pi ≤ 4 := by
  have h3 : IsDouble (3 : ℝ) := by exact_mod_cast isDouble_int (n := 3) (by norm_num)
  have h4 : IsDouble (4 : ℝ) := by exact_mod_cast isDouble_int (n := 4) (by norm_num)
  have := le_roundDouble h3 Real.pi_gt_three.le
  exact ⟨by linarith, roundDouble_le h4 Real.pi_le_four⟩

/-- The hypotheses of the theorem on arrays: every array with pixels -4, ..., 4, and the float π. -/
example (A : Img (Fl roundDouble)) (hA : ∀ y x, y < A.h → x < A.w → ∃ n : ℤ, |n| ≤ 4 ∧ (A.px y x).val = n) :
    ∃ B, normalize2piarrayRounded (roundDouble Real.pi) A = .ok B ∧ B.SameShape A ∧
      ∀ y x, y < A.h → x < A.w → IsRepresentative (roundDouble Real.pi / 2) (A.px y x).val (B.px y x).val := by
  have h3 : IsDouble (3 : ℝ) := by exact_mod_cast isDouble_int (n := 3) (by norm_num)
  have hp3 := le_roundDouble h3 Real.pi_gt_three.le
  refine C118_array_exact_partial ⟨roundDouble_exact, roundDouble_near⟩ _ (C118_rounded_is_double _) (by linarith) A ?_ ?_
  · intro y x hy hx
    obtain ⟨n, hn, e⟩ := hA y x hy hx
    rw [e]
    exact isDouble_int (by linarith)
  · intro y x hy hx
    obtain ⟨n, hn, e⟩ := hA y x hy hx
    have hn' : |(n : ℝ)| ≤ 4 := by exact_mod_cast hn
    obtain ⟨n1, n2⟩ := abs_le.1 hn'
    rw [e]
    constructor <;> linarith

end Micropol
