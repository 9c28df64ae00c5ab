import Verif.Model.NormalizeRounded
import Verif.Model.Utils
import Verif.Spec.NormalizeRounded
import Verif.Lemmas.Rounding
import Verif.Lemmas.Utils

/-!
# Lemmas on angle normalisation in rounded arithmetic
-/

set_option autoImplicit false

namespace Micropol

/-! ## Loops -/

/-- Two loops in step. -/
theorem whileFuel_sim {σ τ : Type} (f : σ → τ) (I : σ → Prop) {c : σ → Bool} {b : σ → σ} {c' : τ → Bool} {b' : τ → τ}
    (hc : ∀ s, c' (f s) = c s) (hb : ∀ s, I s → c s = true → b' (f s) = f (b s)) (hI : ∀ s, I s → c s = true → I (b s))
    (n : Nat) : ∀ s, I s → ∀ r, whileFuel c b n s = .ok r → whileFuel c' b' n (f s) = .ok (f r) ∧ I r := by
  induction n with
  | zero =>
    intro s hs r h
    unfold whileFuel at h ⊢
    rw [hc]
    split at h
    · cases h
    · injection h with h
      subst h
      rename_i hcs
      rw [if_neg hcs]
      exact ⟨rfl, hs⟩
  | succ n ih =>
    intro s hs r h
    unfold whileFuel at h ⊢
    rw [hc]
    split at h
    · rename_i hcs
      rw [if_pos hcs, hb s hs hcs]
      exact ih _ (hI s hs hcs) r h
    · injection h with h
      subst h
      rename_i hcs
      rw [if_neg hcs]
      exact ⟨rfl, hs⟩

theorem whileLoop_fuel {σ : Type} {c : σ → Bool} {b : σ → σ} {s r : σ} (h : whileLoop c b s = .ok r) :
    ∃ n, whileFuel c b n s = .ok r := by
  unfold whileLoop at h
  split at h
  · rename_i hex
    injection h with h
    exact ⟨hex.choose, by rw [← h]; exact hex.choose_spec.choose_spec⟩
  · cases h

theorem whileLoop_sim {σ τ : Type} (f : σ → τ) (I : σ → Prop) {c : σ → Bool} {b : σ → σ} {c' : τ → Bool} {b' : τ → τ}
    (hc : ∀ s, c' (f s) = c s) (hb : ∀ s, I s → c s = true → b' (f s) = f (b s)) (hI : ∀ s, I s → c s = true → I (b s))
    {s r : σ} (hs : I s) (h : whileLoop c b s = .ok r) : whileLoop c' b' (f s) = .ok (f r) ∧ I r := by
  obtain ⟨n, hn⟩ := whileLoop_fuel h
  obtain ⟨h1, h2⟩ := whileFuel_sim f I hc hb hI n s hs r hn
  exact ⟨whileLoop_eq_ok h1, h2⟩

/-- A loop whose body goes down (by at least `δ`) ends. -/
theorem whileLoop_measure {σ : Type} (I : σ → Prop) (μ : σ → ℝ) (low δ : ℝ) (hδ : 0 < δ) {c : σ → Bool} {b : σ → σ}
    (hlow : ∀ s, I s → c s = true → low < μ s) (hI : ∀ s, I s → c s = true → I (b s) ∧ μ (b s) ≤ μ s - δ) {s : σ} (hs : I s) :
    ∃ r, whileLoop c b s = .ok r ∧ I r ∧ c r = false := by
  have key : ∀ n : ℕ, ∀ s, I s → μ s ≤ low + n * δ → ∃ r, whileFuel c b n s = .ok r ∧ I r ∧ c r = false := by
    intro n
    induction n with
    | zero =>
      intro s hs hm
      have hc : c s = false := by
        by_contra hc
        have := hlow s hs (by simpa using hc)
        simp at hm
        linarith
      exact ⟨s, whileFuel_done hc 0, hs, hc⟩
    | succ n ih =>
      intro s hs hm
      by_cases hc : c s = true
      · obtain ⟨h1, h2⟩ := hI s hs hc
        obtain ⟨r, hr⟩ := ih (b s) h1 (by push_cast at hm; linarith)
        exact ⟨r, by rw [whileFuel, if_pos hc]; exact hr.1, hr.2⟩
      · simp only [Bool.not_eq_true] at hc
        exact ⟨s, whileFuel_done hc _, hs, hc⟩
  obtain ⟨N, hN⟩ := exists_nat_gt ((μ s - low) / δ)
  rw [div_lt_iff₀ hδ] at hN
  obtain ⟨r, h1, h2⟩ := key N s hs (by linarith)
  exact ⟨r, whileLoop_eq_ok h1, h2⟩

/-- A loop whose body does nothing when the condition is false and makes it false. -/
theorem whileLoop_once {σ : Type} {c : σ → Bool} {b : σ → σ} {s : σ} (h1 : c s = false → b s = s) (h2 : c (b s) = false) :
    whileLoop c b s = .ok (b s) := by
  refine whileLoop_eq_ok (n := 1) ?_
  unfold whileFuel
  split
  · exact whileFuel_done h2 0
  · rename_i hc
    rw [h1 (by simpa using hc)]

/-! ## Numbers of 53 digits -/

theorem zpow_two_pos (e : ℤ) : (0 : ℝ) < 2 ^ e := zpow_pos (by norm_num) _

theorem IsRounding.double {R : ℝ → ℝ} (hR : IsRounding R) {x : ℝ} (hx : IsDouble x) : R x = x := by
  obtain ⟨m, e, hm, rfl⟩ := hx
  exact hR.exact m e hm

theorem IsDouble.neg {x : ℝ} (hx : IsDouble x) : IsDouble (-x) := by
  obtain ⟨m, e, hm, rfl⟩ := hx
  exact ⟨-m, e, by rwa [abs_neg], by push_cast; ring⟩

theorem IsDouble.half {x : ℝ} (hx : IsDouble x) : IsDouble (x / 2) := by
  obtain ⟨m, e, hm, rfl⟩ := hx
  refine ⟨m, e - 1, hm, ?_⟩
  rw [zpow_sub_one₀ (by norm_num)]
  ring

theorem isDouble_int {n : ℤ} (hn : |n| ≤ 2 ^ 53) : IsDouble (n : ℝ) := ⟨n, 0, hn, by simp⟩

/-- A multiple of a power of 2 that is not larger than a number of 53 digits with the same unit has 53 digits. -/
theorem abs_le_of_scaled {k m : ℤ} {e : ℤ} (h : |(k : ℝ) * 2 ^ e| ≤ |(m : ℝ) * 2 ^ e|) : |k| ≤ |m| := by
  rw [abs_mul, abs_mul] at h
  have := le_of_mul_le_mul_right h (abs_pos.2 (zpow_two_pos e).ne')
  exact_mod_cast this

theorem two_zpow_sub_int {e f : ℤ} (h : e ≤ f) : ∃ k : ℤ, (2 : ℝ) ^ f = k * 2 ^ e := by
  refine ⟨2 ^ (f - e).toNat, ?_⟩
  push_cast
  rw [← zpow_natCast, ← zpow_add₀ (by norm_num)]
  congr 1
  omega

/-- The difference of two numbers of 53 digits, neither more than twice the other, has 53 digits (Sterbenz). -/
theorem IsDouble.sub_of_near {x y : ℝ} (hx : IsDouble x) (hy : IsDouble y) (h1 : y / 2 ≤ x) (h2 : x ≤ 2 * y) : IsDouble (x - y) := by
  have hy0 : 0 ≤ y := by linarith
  have hx0 : 0 ≤ x := by linarith
  obtain ⟨m, e, hm, hxe⟩ := hx
  obtain ⟨n, f, hn, hyf⟩ := hy
  rcases le_total e f with hef | hef
  · obtain ⟨k, hk⟩ := two_zpow_sub_int hef
    have e1 : x - y = ((m - n * k : ℤ) : ℝ) * 2 ^ e := by rw [hxe, hyf, hk]; push_cast; ring
    refine ⟨m - n * k, e, le_trans (abs_le_of_scaled (m := m) (e := e) ?_) hm, e1⟩
    rw [← e1, ← hxe, abs_of_nonneg hx0, abs_le]
    constructor <;> linarith
  · obtain ⟨k, hk⟩ := two_zpow_sub_int hef
    have e1 : x - y = ((m * k - n : ℤ) : ℝ) * 2 ^ f := by rw [hxe, hyf, hk]; push_cast; ring
    refine ⟨m * k - n, f, le_trans (abs_le_of_scaled (m := n) (e := f) ?_) hn, e1⟩
    rw [← e1, ← hyf, abs_of_nonneg hy0, abs_le]
    constructor <;> linarith

/-- A number of 53 digits is a multiple of the unit that rounding uses for numbers not larger than it. -/
theorem IsDouble.multiple {y : ℝ} (hy : IsDouble y) {L : ℤ} (h : (2 : ℝ) ^ L ≤ |y|) : ∃ k : ℤ, y = k * 2 ^ (L - 52) := by
  obtain ⟨m, e, hm, rfl⟩ := hy
  rcases le_or_gt (L - 52) e with he | he
  · obtain ⟨k, hk⟩ := two_zpow_sub_int he
    exact ⟨m * k, by rw [hk]; push_cast; ring⟩
  · have hm' : |(m : ℝ)| ≤ 2 ^ 53 := by exact_mod_cast hm
    rw [abs_mul, abs_of_pos (zpow_two_pos e)] at h
    have h1 : (2 : ℝ) ^ L ≤ 2 ^ (e + 53) := by
      refine h.trans ?_
      rw [add_comm, zpow_add₀ (by norm_num)]
      exact mul_le_mul_of_nonneg_right (by exact_mod_cast hm) (zpow_two_pos e).le
    have hL : L ≤ e + 53 := (zpow_le_zpow_iff_right₀ (by norm_num)).1 h1
    have hLe : L = e + 53 := by omega
    subst hLe
    have h2 : (2 : ℝ) ^ 53 ≤ |(m : ℝ)| := by
      rw [add_comm, zpow_add₀ (by norm_num)] at h
      exact le_of_mul_le_mul_right h (zpow_two_pos e)
    have hmm : |m| = 2 ^ 53 := le_antisymm hm (by exact_mod_cast h2)
    obtain ⟨k, hk⟩ : ∃ k : ℤ, m = 2 * k := by
      rcases abs_choice m with h | h
      · exact ⟨2 ^ 52, by rw [h] at hmm; rw [hmm]; norm_num⟩
      · exact ⟨-2 ^ 52, by rw [h] at hmm; have : m = -2 ^ 53 := by linarith
                           rw [this]; norm_num⟩
    refine ⟨k, ?_⟩
    rw [hk, show e + 53 - 52 = e + 1 by ring, zpow_add_one₀ (by norm_num)]
    push_cast
    ring

theorem log_bracket {x : ℝ} (hx : x ≠ 0) : (2 : ℝ) ^ Int.log 2 |x| ≤ |x| ∧ |x| < 2 ^ (Int.log 2 |x| + 1) := by
  constructor
  · exact_mod_cast Int.zpow_log_le_self (b := 2) (by norm_num) (abs_pos.2 hx)
  · exact_mod_cast Int.lt_zpow_succ_log_self (b := 2) (by norm_num) |x|

theorem roundDouble_zero : roundDouble 0 = 0 := by
  unfold roundDouble
  simp [nearestEven]

theorem zpow_sub52 (L : ℤ) : (2 : ℝ) ^ 52 * 2 ^ (L - 52) = 2 ^ L := by
  rw [← zpow_natCast (2 : ℝ) 52, ← zpow_add₀ (by norm_num)]
  congr 1
  push_cast
  ring

theorem zpow_sub52' (L : ℤ) : (4503599627370496 : ℝ) * 2 ^ (L - 52) = 2 ^ L := by
  rw [← zpow_sub52 L]
  norm_num

/-- Rounding does not cross a number of 53 digits, from below. -/
theorem roundDouble_le {x y : ℝ} (hy : IsDouble y) (h : x ≤ y) : roundDouble x ≤ y := by
  by_cases hx : x = 0
  · rw [hx, roundDouble_zero]; linarith
  obtain ⟨b1, b2⟩ := log_bracket hx
  obtain ⟨L, hL⟩ : ∃ L, L = Int.log 2 |x| := ⟨_, rfl⟩
  unfold roundDouble
  rw [← hL] at b1 b2 ⊢
  have hu := zpow_two_pos (L - 52)
  have hn := abs_le.1 (nearestEven_near (x / 2 ^ (L - 52)))
  have hle : ∀ k : ℤ, x ≤ k * 2 ^ (L - 52) → nearestEven (x / 2 ^ (L - 52)) ≤ k := by
    intro k hk
    have h1 : x / 2 ^ (L - 52) ≤ k := by rwa [div_le_iff₀ hu]
    have : (nearestEven (x / 2 ^ (L - 52)) : ℝ) < k + 1 := by linarith [hn.2]
    have : nearestEven (x / 2 ^ (L - 52)) < k + 1 := by exact_mod_cast this
    omega
  by_cases hyL : (2 : ℝ) ^ L ≤ |y|
  · obtain ⟨k, hk⟩ := hy.multiple hyL
    rw [hk] at h ⊢
    exact mul_le_mul_of_nonneg_right (by exact_mod_cast hle k h) hu.le
  · push Not at hyL
    have h1 : -(2 : ℝ) ^ L < y := (abs_lt.1 hyL).1
    have h2 : y < 2 ^ L := (abs_lt.1 hyL).2
    have hxneg : x ≤ -2 ^ L := by
      rcases le_abs.1 b1 with h3 | h3
      · linarith
      · linarith
    have := hle (-2 ^ 52) (by push_cast; rw [neg_mul, zpow_sub52']; exact hxneg)
    have h5 : ((nearestEven (x / 2 ^ (L - 52)) : ℤ) : ℝ) * 2 ^ (L - 52) ≤ ((-2 ^ 52 : ℤ) : ℝ) * 2 ^ (L - 52) :=
      mul_le_mul_of_nonneg_right (by exact_mod_cast this) hu.le
    refine h5.trans ?_
    push_cast
    rw [neg_mul, zpow_sub52']
    exact h1.le

/-- Rounding does not cross a number of 53 digits, from above. -/
theorem le_roundDouble {x y : ℝ} (hy : IsDouble y) (h : y ≤ x) : y ≤ roundDouble x := by
  by_cases hx : x = 0
  · rw [hx, roundDouble_zero]; linarith
  obtain ⟨b1, b2⟩ := log_bracket hx
  obtain ⟨L, hL⟩ : ∃ L, L = Int.log 2 |x| := ⟨_, rfl⟩
  unfold roundDouble
  rw [← hL] at b1 b2 ⊢
  have hu := zpow_two_pos (L - 52)
  have hn := abs_le.1 (nearestEven_near (x / 2 ^ (L - 52)))
  have hle : ∀ k : ℤ, k * 2 ^ (L - 52) ≤ x → k ≤ nearestEven (x / 2 ^ (L - 52)) := by
    intro k hk
    have h1 : k ≤ x / 2 ^ (L - 52) := by rwa [le_div_iff₀ hu]
    have : (k : ℝ) < nearestEven (x / 2 ^ (L - 52)) + 1 := by linarith [hn.1]
    have : k < nearestEven (x / 2 ^ (L - 52)) + 1 := by exact_mod_cast this
    omega
  by_cases hyL : (2 : ℝ) ^ L ≤ |y|
  · obtain ⟨k, hk⟩ := hy.multiple hyL
    rw [hk] at h ⊢
    exact mul_le_mul_of_nonneg_right (by exact_mod_cast hle k h) hu.le
  · push Not at hyL
    have h1 : -(2 : ℝ) ^ L < y := (abs_lt.1 hyL).1
    have h2 : y < 2 ^ L := (abs_lt.1 hyL).2
    have hxpos : 2 ^ L ≤ x := by
      rcases le_abs.1 b1 with h3 | h3
      · linarith
      · linarith
    have := hle (2 ^ 52) (by push_cast; rw [zpow_sub52']; exact hxpos)
    have h5 : ((2 ^ 52 : ℤ) : ℝ) * 2 ^ (L - 52) ≤ ((nearestEven (x / 2 ^ (L - 52)) : ℤ) : ℝ) * 2 ^ (L - 52) :=
      mul_le_mul_of_nonneg_right (by exact_mod_cast this) hu.le
    refine le_trans ?_ h5
    push_cast
    rw [zpow_sub52']
    exact h2.le

/-- Adding a small number to a large one of 53 digits changes nothing. -/
theorem roundDouble_absorb {a d : ℝ} (ha : IsDouble a) (hbig : (2 : ℝ) ^ 62 ≤ |a|) (hd : |d| ≤ 180) : roundDouble (a + d) = a := by
  have ha0 : a ≠ 0 := by
    intro h
    rw [h, abs_zero] at hbig
    norm_num at hbig
  obtain ⟨b1, b2⟩ := log_bracket ha0
  obtain ⟨L, hL⟩ : ∃ L, L = Int.log 2 |a| := ⟨_, rfl⟩
  rw [← hL] at b1 b2
  have hL62 : 62 ≤ L := by
    rw [hL]
    exact (Int.zpow_le_iff_le_log (by norm_num) (abs_pos.2 ha0)).1 (by exact_mod_cast hbig)
  obtain ⟨M, hM⟩ := ha.multiple b1
  have hu := zpow_two_pos (L - 52)
  have hu10 : (1024 : ℝ) ≤ 2 ^ (L - 52) := by
    have : (2 : ℝ) ^ (10 : ℤ) ≤ 2 ^ (L - 52) := zpow_le_zpow_right₀ (by norm_num) (by omega)
    norm_num at this
    linarith
  have hhalf : (2 : ℝ) ^ (L - 52) = 2 * 2 ^ (L - 53) := by
    rw [show L - 52 = L - 53 + 1 by ring, zpow_add_one₀ (by norm_num)]
    ring
  have hMlt : |M| < 2 ^ 53 := by
    have h1 : |(M : ℝ)| * 2 ^ (L - 52) < 2 ^ 53 * 2 ^ (L - 52) := by
      have : (2 : ℝ) ^ 53 * 2 ^ (L - 52) = 2 ^ (L + 1) := by
        rw [zpow_add_one₀ (by norm_num), ← zpow_sub52 L]
        ring
      rw [this]
      rw [hM, abs_mul, abs_of_pos hu] at b2
      exact b2
    have := lt_of_mul_lt_mul_right h1 hu.le
    exact_mod_cast this
  have habs := abs_le.1 hd
  by_cases hge : (2 : ℝ) ^ L ≤ |a + d|
  · rw [hM]
    refine roundDouble_scaled (by rw [← hM, show L - 52 + 52 = L by ring]; exact hge) ?_ ?_
    · rw [show L - 52 + 53 = L + 1 by ring, ← hM]
      have h1 : |a| ≤ (2 ^ 53 - 1) * 2 ^ (L - 52) := by
        rw [hM, abs_mul, abs_of_pos hu]
        refine mul_le_mul_of_nonneg_right ?_ hu.le
        have : |M| ≤ 2 ^ 53 - 1 := by omega
        exact_mod_cast this
      have h2 : (2 : ℝ) ^ 53 * 2 ^ (L - 52) = 2 ^ (L + 1) := by
        rw [zpow_add_one₀ (by norm_num), ← zpow_sub52 L]
        ring
      have h3 := abs_add_le a d
      linarith
    · rw [← hM]
      have e1 : (a + d) / 2 ^ (L - 52) - M = d / 2 ^ (L - 52) := by
        rw [hM]
        field_simp
        ring
      rw [e1, abs_div, abs_of_pos hu, div_lt_iff₀ hu]
      linarith
  · push Not at hge
    have hM2 : a = ((2 * M : ℤ) : ℝ) * 2 ^ (L - 53) := by
      rw [hM, hhalf]
      push_cast
      ring
    have hu' := zpow_two_pos (L - 53)
    rw [hM2]
    refine roundDouble_scaled ?_ ?_ ?_
    · rw [← hM2, show L - 53 + 52 = L - 1 by ring]
      have h3 : |a| ≤ |a + d| + |d| := by
        have := abs_add_le (a + d) (-d)
        rw [abs_neg] at this
        simpa using this
      have h4 : (2 : ℝ) ^ L = 2 * 2 ^ (L - 1) := by
        rw [zpow_sub_one₀ (by norm_num)]
        ring
      have h5 : (180 : ℝ) ≤ 2 ^ (L - 1) := by
        have : (2 : ℝ) ^ (8 : ℤ) ≤ 2 ^ (L - 1) := zpow_le_zpow_right₀ (by norm_num) (by omega)
        norm_num at this
        linarith
      linarith
    · rw [← hM2, show L - 53 + 53 = L by ring]
      exact hge
    · rw [← hM2]
      have e1 : (a + d) / 2 ^ (L - 53) - ((2 * M : ℤ) : ℝ) = d / 2 ^ (L - 53) := by
        rw [hM2]
        field_simp
        ring
      rw [e1, abs_div, abs_of_pos hu', div_lt_iff₀ hu']
      linarith

/-! ## Steps of the loops -/

/-- A number of 53 digits whose unit is at most 4. -/
def FineDouble (a : ℝ) : Prop := ∃ m e : ℤ, |m| ≤ 2 ^ 53 ∧ e ≤ 2 ∧ a = m * 2 ^ e

theorem FineDouble.isDouble {a : ℝ} (h : FineDouble a) : IsDouble a := by
  obtain ⟨m, e, h1, -, h2⟩ := h
  exact ⟨m, e, h1, h2⟩

theorem FineDouble.of_small {a : ℝ} (h : IsDouble a) (ha : |a| ≤ 2 ^ 55) : FineDouble a := by
  obtain ⟨m, e, h1, h2⟩ := h
  rcases le_or_gt e 2 with he | he
  · exact ⟨m, e, h1, he, h2⟩
  · obtain ⟨k, hk⟩ := two_zpow_sub_int (e := 2) (f := e) (by omega)
    have e1 : a = ((m * k : ℤ) : ℝ) * 2 ^ (2 : ℤ) := by rw [h2, hk]; push_cast; ring
    refine ⟨m * k, 2, ?_, le_rfl, e1⟩
    have := ha
    rw [e1, abs_mul] at this
    norm_num at this
    have h4 : |((m * k : ℤ) : ℝ)| ≤ 2 ^ 53 := by
      push_cast
      rw [abs_mul]
      norm_num
      linarith
    exact_mod_cast h4

theorem half_turn_unit {e : ℤ} (he : e ≤ 2) : ∃ k : ℤ, (180 : ℝ) = k * 2 ^ e := by
  obtain ⟨k, hk⟩ := two_zpow_sub_int he
  refine ⟨45 * k, ?_⟩
  have : (2 : ℝ) ^ (2 : ℤ) = 4 := by norm_num
  rw [this] at hk
  push_cast
  linarith

theorem FineDouble.sub {a : ℝ} (h : FineDouble a) (ha : 90 < a) : FineDouble (a - 180) := by
  obtain ⟨m, e, h1, h2, h3⟩ := h
  obtain ⟨k, hk⟩ := half_turn_unit h2
  have e1 : a - 180 = ((m - k : ℤ) : ℝ) * 2 ^ e := by rw [h3, hk]; push_cast; ring
  refine ⟨m - k, e, le_trans (abs_le_of_scaled (m := m) (e := e) ?_) h1, h2, e1⟩
  rw [← e1, ← h3, abs_of_pos (a := a) (by linarith), abs_le]
  constructor <;> linarith

theorem FineDouble.add {a : ℝ} (h : FineDouble a) (ha : a ≤ -90) : FineDouble (a + 180) := by
  obtain ⟨m, e, h1, h2, h3⟩ := h
  obtain ⟨k, hk⟩ := half_turn_unit h2
  have e1 : a + 180 = ((m + k : ℤ) : ℝ) * 2 ^ e := by rw [h3, hk]; push_cast; ring
  refine ⟨m + k, e, le_trans (abs_le_of_scaled (m := m) (e := e) ?_) h1, h2, e1⟩
  rw [← e1, ← h3, abs_of_neg (a := a) (by linarith), abs_le]
  constructor <;> linarith

/-- The rounded loops do what the exact loops do. -/
theorem normalizeAngleRounded_exact {R : ℝ → ℝ} (hR : IsRounding R) {a r : ℝ} (ha : FineDouble a) (h : normalizeAngle a = .ok r) :
    normalizeAngleRounded (⟨a⟩ : Fl R) = .ok ⟨r⟩ := by
  classical
  unfold normalizeAngle at h
  cases hb : whileLoop (fun a : ℝ => decide (a > 90)) (fun a => a - 180) a with
  | error e => rw [hb] at h; cases h
  | ok b =>
    rw [hb] at h
    obtain ⟨h1, h2⟩ := whileLoop_sim (τ := Fl R) Fl.mk FineDouble
      (c' := fun a : Fl R => decide (a > ⟨90⟩)) (b' := fun a => a - ⟨180⟩)
      (by intro s; exact decide_eq_decide.2 Iff.rfl)
      (by
        intro s hs hc
        refine Fl.ext ?_
        exact hR.double (hs.sub (by simpa using hc)).isDouble)
      (by intro s hs hc; exact hs.sub (by simpa using hc)) ha hb
    obtain ⟨h3, -⟩ := whileLoop_sim (τ := Fl R) Fl.mk FineDouble
      (c' := fun a : Fl R => decide (a ≤ ⟨-90⟩)) (b' := fun a => a + ⟨180⟩)
      (by intro s; exact decide_eq_decide.2 Iff.rfl)
      (by
        intro s hs hc
        refine Fl.ext ?_
        exact hR.double (hs.add (by simpa using hc)).isDouble)
      (by intro s hs hc; exact hs.add (by simpa using hc)) h2 h
    unfold normalizeAngleRounded
    rw [h1]
    exact h3

theorem roundDouble_down {a : ℝ} (h1 : 90 < a) (h2 : a ≤ 2 ^ 60) :
    -90 ≤ roundDouble (a - 180) ∧ roundDouble (a - 180) ≤ a - 52 := by
  constructor
  · have : IsDouble (-90 : ℝ) := by exact_mod_cast isDouble_int (n := -90) (by norm_num)
    exact le_roundDouble this (by linarith)
  · have h := abs_le.1 (roundDouble_near (a - 180))
    have hx : |a - 180| ≤ 2 ^ 60 := by
      rw [abs_le]
      constructor <;> linarith
    have : (1 : ℝ) / 2 ^ 53 * |a - 180| ≤ 128 := by
      rw [one_div, inv_mul_le_iff₀ (by norm_num)]
      norm_num at hx ⊢
      linarith
    linarith [h.2]

theorem roundDouble_up {a : ℝ} (h1 : a ≤ -90) (h2 : -2 ^ 60 ≤ a) :
    roundDouble (a + 180) ≤ 90 ∧ a + 52 ≤ roundDouble (a + 180) := by
  constructor
  · have : IsDouble (90 : ℝ) := by exact_mod_cast isDouble_int (n := 90) (by norm_num)
    exact roundDouble_le this (by linarith)
  · have h := abs_le.1 (roundDouble_near (a + 180))
    have hx : |a + 180| ≤ 2 ^ 60 := by
      rw [abs_le]
      constructor <;> linarith
    have : (1 : ℝ) / 2 ^ 53 * |a + 180| ≤ 128 := by
      rw [one_div, inv_mul_le_iff₀ (by norm_num)]
      norm_num at hx ⊢
      linarith
    linarith [h.1]

theorem normalizeAngleRounded_ends {a : ℝ} (ha : |a| ≤ 2 ^ 60) :
    ∃ r : ℝ, normalizeAngleRounded (⟨a⟩ : Fl roundDouble) = .ok ⟨r⟩ ∧ -90 < r ∧ r ≤ 90 := by
  classical
  obtain ⟨ha1, ha2⟩ := abs_le.1 ha
  obtain ⟨b, h1, hb, hc⟩ := whileLoop_measure (σ := Fl roundDouble) (fun s => -2 ^ 60 ≤ s.val ∧ s.val ≤ 2 ^ 60) Fl.val 90 52 (by norm_num)
    (c := fun a : Fl roundDouble => decide (a > ⟨90⟩)) (b := fun a => a - ⟨180⟩)
    (by intro s _ hc; exact of_decide_eq_true hc)
    (by
      intro s hs hc
      have hc' : 90 < s.val := of_decide_eq_true hc
      obtain ⟨h3, h4⟩ := roundDouble_down hc' hs.2
      refine ⟨⟨?_, ?_⟩, h4⟩
      · show -2 ^ 60 ≤ roundDouble (s.val - 180)
        norm_num
        linarith
      · show roundDouble (s.val - 180) ≤ 2 ^ 60
        linarith [hs.2]) (s := ⟨a⟩) ⟨ha1, ha2⟩
  have hb90 : b.val ≤ 90 := by
    have := of_decide_eq_false hc
    exact not_lt.1 this
  obtain ⟨r, h2, hr, hc2⟩ := whileLoop_measure (σ := Fl roundDouble) (fun s => -2 ^ 60 ≤ s.val ∧ s.val ≤ 90) (fun s => -s.val) 0 52 (by norm_num)
    (c := fun a : Fl roundDouble => decide (a ≤ ⟨-90⟩)) (b := fun a => a + ⟨180⟩)
    (by
      intro s _ hc
      have hc' : s.val ≤ -90 := of_decide_eq_true hc
      linarith)
    (by
      intro s hs hc
      have hc' : s.val ≤ -90 := of_decide_eq_true hc
      obtain ⟨h3, h4⟩ := roundDouble_up hc' hs.1
      refine ⟨⟨?_, h3⟩, ?_⟩
      · show -2 ^ 60 ≤ roundDouble (s.val + 180)
        linarith [hs.1]
      · show -roundDouble (s.val + 180) ≤ -s.val - 52
        linarith) (s := b) ⟨hb.1, hb90⟩
  refine ⟨r.val, ?_, ?_, hr.2⟩
  · unfold normalizeAngleRounded
    rw [h1]
    exact h2
  · have := of_decide_eq_false hc2
    exact not_le.1 this

theorem normalizeAngleRounded_hangs {a : ℝ} (ha : IsDouble a) (hbig : (2 : ℝ) ^ 62 ≤ |a|) :
    normalizeAngleRounded (⟨a⟩ : Fl roundDouble) = .error .hang := by
  classical
  unfold normalizeAngleRounded
  rcases le_abs.1 hbig with h | h
  · rw [whileLoop_eq_hang (fun s => s = ⟨a⟩) rfl]
    · rfl
    · rintro t rfl
      refine decide_eq_true ?_
      show (90 : ℝ) < a
      norm_num at h
      linarith
    · rintro t rfl
      refine Fl.ext ?_
      show roundDouble (a - 180) = a
      rw [sub_eq_add_neg]
      exact roundDouble_absorb ha hbig (by norm_num)
  · have h1 : whileLoop (fun a : Fl roundDouble => decide (a > ⟨90⟩)) (fun a => a - ⟨180⟩) ⟨a⟩ = .ok ⟨a⟩ := by
      refine whileLoop_eq_ok (n := 0) (whileFuel_done ?_ 0)
      refine decide_eq_false ?_
      show ¬ (90 : ℝ) < a
      norm_num at h
      push Not
      linarith
    rw [h1, Py.ok_bind, whileLoop_eq_hang (fun s => s = ⟨a⟩) rfl]
    · rintro t rfl
      refine decide_eq_true ?_
      show a ≤ (-90 : ℝ)
      norm_num at h
      linarith
    · rintro t rfl
      refine Fl.ext ?_
      show roundDouble (a + 180) = a
      exact roundDouble_absorb ha hbig (by norm_num)

/-! ## Arrays -/

section
open Classical

variable {R : ℝ → ℝ}

/-- One turn of the first loop, pixel by pixel. -/
noncomputable def turnDown (pi : ℝ) (v : Fl R) : Fl R := if v > ⟨pi / 2⟩ then v - ⟨pi⟩ else v

/-- One turn of the second loop, pixel by pixel. -/
noncomputable def turnUp (pi : ℝ) (v : Fl R) : Fl R := if v ≤ ⟨-pi / 2⟩ then v + ⟨pi⟩ else v

theorem turnDown_exact (hR : IsRounding R) {pi : ℝ} (hp : IsDouble pi) (hp0 : 0 < pi) {v : Fl R} (hv : IsDouble v.val)
    (h : |v.val| ≤ 3 / 2 * pi) : IsDouble (turnDown pi v).val ∧ (turnDown pi v).val ≤ pi / 2 ∧ -(3 / 2 * pi) ≤ (turnDown pi v).val ∧
      ((turnDown pi v).val = v.val ∨ (turnDown pi v).val = v.val - pi ∧ pi / 2 < v.val) := by
  obtain ⟨h1, h2⟩ := abs_le.1 h
  unfold turnDown
  split
  · rename_i hc
    have hc' : pi / 2 < v.val := hc
    have hd : IsDouble (v.val - pi) := hv.sub_of_near hp (by linarith) (by linarith)
    have e : (v - ⟨pi⟩ : Fl R).val = v.val - pi := hR.double hd
    rw [e]
    exact ⟨hd, by linarith, by linarith, Or.inr ⟨rfl, hc'⟩⟩
  · rename_i hc
    have hc' : v.val ≤ pi / 2 := not_lt.1 hc
    exact ⟨hv, hc', h1, Or.inl rfl⟩

theorem turnUp_exact (hR : IsRounding R) {pi : ℝ} (hp : IsDouble pi) (hp0 : 0 < pi) {v : Fl R} (hv : IsDouble v.val)
    (h1 : -(3 / 2 * pi) ≤ v.val) (h2 : v.val ≤ pi / 2) : -(pi / 2) < (turnUp pi v).val ∧ (turnUp pi v).val ≤ pi / 2 ∨
      v.val = -(3 / 2 * pi) ∧ (turnUp pi v).val = -(pi / 2) := by
  unfold turnUp
  split
  · rename_i hc
    have hc' : v.val ≤ -pi / 2 := hc
    have hd : IsDouble (v.val + pi) := by
      have := (hv.neg.sub_of_near hp (by linarith) (by linarith)).neg
      rwa [show -(-v.val - pi) = v.val + pi by ring] at this
    have e : (v + ⟨pi⟩ : Fl R).val = v.val + pi := hR.double hd
    rw [e]
    rcases eq_or_lt_of_le h1 with h | h
    · right
      exact ⟨h.symm, by linarith⟩
    · left
      constructor <;> linarith
  · rename_i hc
    have hc' : -pi / 2 < v.val := not_le.1 hc
    left
    exact ⟨by linarith, h2⟩

theorem turnUp_value (hR : IsRounding R) {pi : ℝ} (hp : IsDouble pi) (hp0 : 0 < pi) {v : Fl R} (hv : IsDouble v.val)
    (h1 : -(3 / 2 * pi) ≤ v.val) : (turnUp pi v).val = v.val ∨ (turnUp pi v).val = v.val + pi := by
  unfold turnUp
  split
  · rename_i hc
    have hc' : v.val ≤ -pi / 2 := hc
    have hd : IsDouble (v.val + pi) := by
      have := (hv.neg.sub_of_near hp (by linarith) (by linarith)).neg
      rwa [show -(-v.val - pi) = v.val + pi by ring] at this
    exact Or.inr (hR.double hd)
  · exact Or.inl rfl

/-- Both loops turn at most once. -/
theorem normalize2piarrayRounded_once (hR : IsRounding R) {pi : ℝ} (hp : IsDouble pi) (hp0 : 0 < pi) {A : Img (Fl R)}
    (hd : ∀ y x, y < A.h → x < A.w → IsDouble (A.px y x).val)
    (hr : ∀ y x, y < A.h → x < A.w → -(3 / 2 * pi) < (A.px y x).val ∧ (A.px y x).val ≤ 3 / 2 * pi) :
    normalize2piarrayRounded pi A = .ok ((A.map (turnDown pi)).map (turnUp pi)) := by
  have px1 : ∀ y x, y < A.h → x < A.w → (A.map (turnDown pi)).px y x = turnDown pi (A.px y x) := fun y x hy hx =>
    Img.ofFn_px hy hx
  have d1 := fun y x hy hx => turnDown_exact hR hp hp0 (hd y x hy hx) (abs_le.2 ⟨(hr y x hy hx).1.le, (hr y x hy hx).2⟩)
  show (whileLoop (fun d : Img (Fl R) => decide (∃ y x, y < d.h ∧ x < d.w ∧ d.px y x > ⟨pi / 2⟩)) (fun d => d.map (turnDown pi)) A >>=
    fun data => whileLoop (fun d : Img (Fl R) => decide (∃ y x, y < d.h ∧ x < d.w ∧ d.px y x ≤ ⟨-pi / 2⟩))
      (fun d => d.map (turnUp pi)) data) = _
  rw [whileLoop_once]
  · rw [Py.ok_bind, whileLoop_once]
    · intro hc
      have hc' := of_decide_eq_false hc
      push Not at hc'
      refine (Img.eq_ofFn rfl rfl ?_).symm
      intro y x hy hx
      unfold turnUp
      rw [if_neg (not_le.2 (hc' y x hy hx))]
    · refine decide_eq_false ?_
      rintro ⟨y, x, hy, hx, h⟩
      have hy' : y < A.h := hy
      have hx' : x < A.w := hx
      have e : ((A.map (turnDown pi)).map (turnUp pi)).px y x = turnUp pi (turnDown pi (A.px y x)) := by
        rw [show ((A.map (turnDown pi)).map (turnUp pi)).px y x = turnUp pi ((A.map (turnDown pi)).px y x) from Img.ofFn_px hy' hx',
          px1 y x hy' hx']
      rw [e] at h
      have h' : (turnUp pi (turnDown pi (A.px y x))).val ≤ -pi / 2 := h
      obtain ⟨a1, a2, a3, a4⟩ := d1 y x hy' hx'
      rcases turnUp_exact hR hp hp0 a1 a3 a2 with g | g
      · linarith [g.1]
      · rcases a4 with a4 | a4
        · have := (hr y x hy' hx').1
          rw [← a4, g.1] at this
          exact lt_irrefl _ this
        · rw [a4.1] at g
          linarith [g.1, a4.2]
  · intro hc
    have hc' := of_decide_eq_false hc
    push Not at hc'
    refine (Img.eq_ofFn rfl rfl ?_).symm
    intro y x hy hx
    unfold turnDown
    rw [if_neg (not_lt.2 (hc' y x hy hx))]
  · refine decide_eq_false ?_
    rintro ⟨y, x, hy, hx, h⟩
    have hy' : y < A.h := hy
    have hx' : x < A.w := hx
    rw [px1 y x hy' hx'] at h
    have h' : pi / 2 < (turnDown pi (A.px y x)).val := h
    linarith [(d1 y x hy' hx').2.1]

theorem turnDown_stuck {pi : ℝ} (h0 : 0 < pi) (h4 : pi ≤ 4) {a : ℝ} (ha : IsDouble a) (hbig : (2 : ℝ) ^ 62 ≤ a) :
    turnDown pi (⟨a⟩ : Fl roundDouble) = ⟨a⟩ ∧ pi / 2 < a := by
  have hlt : pi / 2 < a := by
    norm_num at hbig
    linarith
  refine ⟨?_, hlt⟩
  unfold turnDown
  rw [if_pos (show (⟨pi / 2⟩ : Fl roundDouble) < ⟨a⟩ from hlt)]
  refine Fl.ext ?_
  show roundDouble (a - pi) = a
  rw [sub_eq_add_neg]
  exact roundDouble_absorb ha (hbig.trans (le_abs_self a)) (by rw [abs_neg, abs_of_pos h0]; linarith)

theorem normalize2piarrayRounded_hangs {pi : ℝ} (h0 : 0 < pi) (h4 : pi ≤ 4) {A : Img (Fl roundDouble)} {y x : Nat} (hy : y < A.h)
    (hx : x < A.w) (ha : IsDouble (A.px y x).val) (hbig : (2 : ℝ) ^ 62 ≤ (A.px y x).val) :
    normalize2piarrayRounded pi A = .error .hang := by
  obtain ⟨s1, s2⟩ := turnDown_stuck h0 h4 ha hbig
  unfold normalize2piarrayRounded
  rw [whileLoop_eq_hang (fun B => y < B.h ∧ x < B.w ∧ B.px y x = A.px y x) ⟨hy, hx, rfl⟩]
  · rfl
  · rintro B ⟨b1, b2, b3⟩
    refine decide_eq_true ⟨y, x, b1, b2, ?_⟩
    rw [b3]
    exact s2
  · rintro B ⟨b1, b2, b3⟩
    refine ⟨b1, b2, ?_⟩
    rw [show (B.map (fun v => if v > ⟨pi / 2⟩ then v - ⟨pi⟩ else v)).px y x = turnDown pi (B.px y x) from Img.ofFn_px b1 b2, b3]
    exact s1

end

end Micropol
