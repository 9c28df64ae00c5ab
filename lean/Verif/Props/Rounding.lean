import Verif.Lemmas.RoundingImages
import Verif.Lemmas.Load
import Verif.Props.Load
import Verif.Props.Stokes
import Verif.Model.PolFunctions

/-!
# C91: the computations in floating point

`Fl R` are numbers whose operations are rounded by `R`; `A.reals` are the real numbers that the pixels of `A` stand for.
-/

set_option autoImplicit false
set_option linter.unusedSectionVars false

namespace Micropol

/-- C91: rounding to nearest with 53 binary digits, ties to even, is a rounding in the sense used here. -/
theorem C91_double : IsRounding roundDouble := ⟨roundDouble_exact, roundDouble_near⟩

/-- C91: how large the error of `k` roundings is: `2 k` units in the last of 53 digits. -/
theorem C91_error_size {k : ℕ} (hk : k ≤ 2 ^ 52) {S x X : ℝ} (hS : 0 ≤ S) (h : Within k S x X) :
    |x - X| ≤ 2 * k / 2 ^ 53 * S := by
  have key : ∀ k : ℕ, k ≤ 2 ^ 52 → ((1 : ℝ) + 1 / 2 ^ 53) ^ k ≤ 1 + 2 * k / 2 ^ 53 := by
    intro k
    induction k with
    | zero => intro _; simp
    | succ k ih =>
      intro hk
      have hk' : ((k : ℝ) + 1) ≤ 2 ^ 52 := by exact_mod_cast hk
      have := ih (by omega)
      rw [pow_succ]
      have h1 : ((1 : ℝ) + 1 / 2 ^ 53) ^ k * (1 + 1 / 2 ^ 53) ≤ (1 + 2 * k / 2 ^ 53) * (1 + 1 / 2 ^ 53) :=
        mul_le_mul_of_nonneg_right this (by positivity)
      refine h1.trans ?_
      have h2 : (2 * (k : ℝ)) / 2 ^ 53 ≤ 1 := by
        rw [div_le_one (by positivity)]
        norm_num at hk' ⊢
        linarith
      push_cast
      have h3 : (2 * (k : ℝ)) / 2 ^ 53 * (1 / 2 ^ 53) ≤ 1 * (1 / 2 ^ 53) := mul_le_mul_of_nonneg_right h2 (by positivity)
      rw [show (2 * ((k : ℝ) + 1)) / 2 ^ 53 = 2 * k / 2 ^ 53 + 2 * (1 / 2 ^ 53) by ring]
      nlinarith
  refine le_trans h (mul_le_mul_of_nonneg_right ?_ hS)
  linarith [key k hk]

section
variable {R : ℝ → ℝ} (hR : IsRounding R)
include hR

/-! ## Whole numbers: no error at all -/

/-- C91: rebinning whole numbers is exact as long as the sums stay below `2 ^ 53`. -/
theorem C91_rebin_exact {d : Img (Fl R)} {M b : ℕ} (hb : 0 < b) (hd : d.Whole M) (hM : b * b * M ≤ 2 ^ 53) :
    ∃ r, standardRebin d b = .ok r ∧ standardRebin d.reals b = .ok r.reals ∧ r.Whole (b * b * M) := by
  refine ⟨_, standardRebin_fold d b hb, ?_, ?_⟩
  · rw [standardRebin_fold _ b hb]
    congr 1
    exact (reals_ofFn_eq (fun y x _ _ => (block_exact hR hd hM _ _ _).1)).symm
  · intro y x hy hx
    rw [Img.ofFn_px (by exact hy) (by exact hx)]
    exact (block_exact hR hd hM _ _ _).2

/-- C91: the same for the rebinning that keeps the polarizations apart. -/
theorem C91_rebin_micropol_exact {d : Img (Fl R)} {M b : ℕ} (hb : 0 < b) (hh : d.h % 2 = 0) (hw : d.w % 2 = 0)
    (hd : d.Whole M) (hM : b * b * M ≤ 2 ^ 53) :
    ∃ r, micropolarrayRebin d b = .ok r ∧ micropolarrayRebin d.reals b = .ok r.reals ∧ r.Whole (b * b * M) ∧
      r.h % 2 = 0 ∧ r.w % 2 = 0 := by
  refine ⟨_, micropolarrayRebin_fold d b hb hh hw, ?_, ?_, ?_, ?_⟩
  · rw [micropolarrayRebin_fold _ b hb (by exact hh) (by exact hw)]
    congr 1
    exact (reals_ofFn_eq (fun y x _ _ => (block_exact hR hd hM _ _ _).1)).symm
  · intro y x hy hx
    rw [Img.ofFn_px (by exact hy) (by exact hx)]
    exact (block_exact hR hd hM _ _ _).2
  · simp only [Img.ofFn_h]; omega
  · simp only [Img.ofFn_w]; omega

/-- C91: the Stokes maps of whole numbers are exact. -/
theorem C91_stokes_exact {d : Img (Fl R)} {M : ℕ} {L : Layout} {dic : AngleDic} (hL : L.Describes dic) (hh : d.h % 2 = 0)
    (hw : d.w % 2 = 0) (hd : d.Whole M) (hM : 4 * M ≤ 2 ^ 53) :
    ∃ S, dataStokes d dic = .ok S ∧ dataStokes d.reals dic = .ok (fun i => (S i).reals) := by
  obtain ⟨s, hs⟩ : ∃ s, splitPolarizations d = .ok s := ⟨_, split_ok hh hw⟩
  have hs' := split_reals hs
  have hpx : ∀ k y x, ∃ n : ℤ, |n| ≤ M ∧ ((s k).px y x).val = n := by
    intro k y x
    rw [split_ok hh hw] at hs
    injection hs with hs
    subst hs
    rw [Img.ofFn_px']
    split
    · exact whole_px hd _ _
    · exact ⟨0, by simp, by simp⟩
  refine ⟨stokesClosed s L, by unfold dataStokes; rw [hs, Py.ok_bind, theoStokes_ok s hL], ?_⟩
  unfold dataStokes
  rw [hs', Py.ok_bind, theoStokes_ok _ hL]
  congr 1
  funext i
  have hdiff : ∀ a b : Fin 4, (Img.zipWith (· - ·) (s a) (s b)).reals = Img.zipWith (· - ·) (s a).reals (s b).reals := by
    intro a b
    refine reals_ofFn_eq (fun y x _ _ => ?_)
    obtain ⟨m, hm, em⟩ := hpx a y x
    obtain ⟨n, hn, en⟩ := hpx b y x
    show _ = (s a).reals.px y x - (s b).reals.px y x
    rw [reals_px, reals_px]
    exact (round_sub_int hR em hm en hn (by omega)).1
  fin_cases i
  · refine (reals_ofFn_eq (fun y x _ _ => ?_)).symm
    obtain ⟨e1, e2⟩ := round_sum4_int hR (hpx 0 y x) (hpx 1 y x) (hpx 2 y x) (hpx 3 y x) hM
    rw [round_half_of hR e2, e1, reals_px, reals_px, reals_px, reals_px]
  · exact (hdiff _ _).symm
  · exact (hdiff _ _).symm

/-- C91: subtracting a dark frame of whole numbers is exact. -/
theorem C91_dark_exact {d k : Img (Fl R)} {M : ℕ} (hs : d.h = k.h ∧ d.w = k.w) (hd : d.Whole M) (hk : k.Whole M)
    (hM : 2 * M ≤ 2 ^ 53) :
    ∃ r, subtractDarkData d k = .ok r ∧ subtractDarkData d.reals k.reals = .ok r.reals ∧ r.Whole (2 * M) ∧ r.h = d.h ∧ r.w = d.w := by
  unfold subtractDarkData
  rw [npBin_ok hs.1 hs.2, npBin_ok (by exact hs.1) (by exact hs.2)]
  simp only [Py.ok_bind, Py.pure_eq]
  have key : ∀ y x, ∃ n : ℤ, |n| ≤ (2 * M : ℕ) ∧ (d.px y x - k.px y x).val = n ∧
      (d.px y x - k.px y x).val = (d.px y x).val - (k.px y x).val := by
    intro y x
    obtain ⟨m, hm, em⟩ := whole_px hd y x
    obtain ⟨n, hn, en⟩ := whole_px hk y x
    obtain ⟨e1, e2, e3⟩ := round_sub_int hR em hm en hn (by omega)
    exact ⟨_, by rw [two_mul]; exact e3, e2, e1⟩
  refine ⟨_, rfl, ?_, ?_, rfl, rfl⟩
  · congr 1
    refine Img.ext_px rfl rfl ?_
    intro y x (hy : y < d.h) (hx : x < d.w)
    rw [reals_px, Img.map_px _ _ (by exact hy) (by exact hx), Img.map_px _ _ (by exact hy) (by exact hx),
      Img.ofFn_px (by exact hy) (by exact hx), Img.ofFn_px (by exact hy) (by exact hx), reals_px, reals_px]
    obtain ⟨n, -, -, e⟩ := key y x
    by_cases h0 : (0 : ℝ) ≤ (d.px y x).val - (k.px y x).val
    · rw [if_pos h0, if_pos (show (0 : Fl R) ≤ _ by rw [Fl.le_iff, e]; exact h0), e]
    · rw [if_neg h0, if_neg (show ¬ (0 : Fl R) ≤ _ by rw [Fl.le_iff, e]; exact h0)]
      rfl
  · intro y x (hy : y < d.h) (hx : x < d.w)
    rw [Img.map_px _ _ (by exact hy) (by exact hx), Img.ofFn_px (by exact hy) (by exact hx)]
    obtain ⟨n, hn, e, -⟩ := key y x
    split
    · exact ⟨n, hn, e⟩
    · exact ⟨0, by simp, by simp⟩

/-- C91: 'mean' demosaicing of whole numbers is exact. -/
theorem C91_demosaic_mean_exact {d : Img (Fl R)} {M : ℕ} (hh : d.h % 2 = 0) (hw : d.w % 2 = 0) (hd : d.Whole M)
    (hM : M ≤ 2 ^ 53) : ∃ r, demosaic d "mean" = .ok r ∧ demosaic d.reals "mean" = .ok (fun k => (r k).reals) := by
  unfold demosaic
  rw [if_pos rfl, if_pos rfl]
  refine ⟨_, demosaicmean_ok d hh hw, ?_⟩
  rw [demosaicmean_ok _ (by exact hh) (by exact hw)]
  congr 1
  funext k
  refine (reals_ofFn_eq (fun y x _ _ => ?_)).symm
  obtain ⟨n, hn, e⟩ := whole_px hd (2 * (y / 2) + k.val / 2) (2 * (x / 2) + k.val % 2)
  rw [round_quarter_of' hR ⟨n, hn.trans (by exact_mod_cast hM), e⟩, reals_px]

/-- C91: 'adjacent' demosaicing of whole numbers is exact. -/
theorem C91_demosaic_adjacent_exact {d : Img (Fl R)} {M : ℕ} (hh : d.h % 2 = 0) (hw : d.w % 2 = 0) (hd : d.Whole M)
    (hM : 4 * M ≤ 2 ^ 53) :
    ∃ r, demosaic d "adjacent" = .ok r ∧ demosaic d.reals "adjacent" = .ok (fun k => (r k).reals) := by
  obtain ⟨r, hr, hrs⟩ := demosaic_adjacent_ok d hh hw
  obtain ⟨r', hr', hrs'⟩ := demosaic_adjacent_ok d.reals (by exact hh) (by exact hw)
  refine ⟨r, hr, ?_⟩
  rw [hr']
  congr 1
  funext k
  obtain ⟨a1, a2, a3⟩ := hrs k
  obtain ⟨b1, b2, b3⟩ := hrs' k
  refine Img.ext_px (b1.trans a1.symm) (b2.trans a2.symm) ?_
  intro y x hy hx
  rw [b1] at hy
  rw [b2] at hx
  rw [b3 y x hy hx, reals_px, a3 y x hy hx, ← stacked_reals]
  have hw' := stacked_whole hd
  have hM1 : M ≤ 2 ^ 53 := by omega
  have hM2 : M + M ≤ 2 ^ 53 := by omega
  generalize hstackLast2 (vstackLast2 d) = s at hw'
  have pair : ∀ a b : Fl R, (∃ n : ℤ, |n| ≤ M ∧ a.val = n) → (∃ n : ℤ, |n| ≤ M ∧ b.val = n) →
      (1 / 2 * (a + b)).val = 1 / 2 * (a.val + b.val) := by
    intro a b ⟨m, hm, em⟩ ⟨n, hn, en⟩
    obtain ⟨e1, e2, e3⟩ := round_add_int hR em hm en hn hM2
    rw [round_half_of hR ⟨_, e3.trans (by exact_mod_cast hM2), e2⟩, e1]
  unfold adjacentVal
  dsimp only
  split
  · split
    · exact reals_px _ _ _
    · rw [pair _ _ (hw' _ _) (hw' _ _), reals_px, reals_px]
  · split
    · rw [pair _ _ (hw' _ _) (hw' _ _), reals_px, reals_px]
    · obtain ⟨e1, e2⟩ := round_sum4_int hR (hw' (2 * (y / 2) + k.val / 2) (2 * (x / 2) + k.val % 2))
        (hw' (2 * (y / 2) + k.val / 2 + 2) (2 * (x / 2) + k.val % 2)) (hw' (2 * (y / 2) + k.val / 2) (2 * (x / 2) + k.val % 2 + 2))
        (hw' (2 * (y / 2) + k.val / 2 + 2) (2 * (x / 2) + k.val % 2 + 2)) hM
      rw [round_quarter_of' hR e2, e1, reals_px, reals_px, reals_px, reals_px]

/-- C91: the correction of the instantaneous field of view is exact on whole numbers. -/
theorem C91_ifov_exact {d : Img (Fl R)} {M : ℕ} (hh : d.h % 2 = 0) (hw : d.w % 2 = 0) (hd : d.Whole M) (hM : 4 * M ≤ 2 ^ 53) :
    ∃ r, correctIfovData d = .ok r ∧ correctIfovData d.reals = .ok r.reals := by
  refine ⟨_, ifov_ok d hh hw, ?_⟩
  refine (ifov_ok d.reals (by exact hh) (by exact hw)).trans ?_
  congr 1
  refine (reals_ofFn_eq (fun y x _ _ => ?_)).symm
  obtain ⟨e1, e2⟩ := round_sum4_int hR (whole_px hd (y - 2) (x - 2)) (whole_px hd (y - 2) x) (whole_px hd y (x - 2))
    (whole_px hd y x) hM
  rw [apply_ite Fl.val, round_quarter_of hR e2, e1, reals_px, reals_px, reals_px, reals_px, Fl.val_zero]

/-- C91: the sum of frames of whole numbers is exact, whatever their order. -/
theorem C91_sum_exact {f : Img (Fl R)} {rest : List (Img (Fl R))} {M : ℕ} (hs : ∀ g ∈ rest, g.h = f.h ∧ g.w = f.w)
    (hw : ∀ g ∈ f :: rest, g.Whole M) (hM : (rest.length + 1) * M ≤ 2 ^ 53) :
    ∃ r, combineFrames false (f :: rest) = .ok r ∧ combineFrames false ((f :: rest).map Img.reals) = .ok r.reals ∧
      r.Whole ((rest.length + 1) * M) := by
  have hM1 : M ≤ 2 ^ 53 := by nlinarith
  have one : ∀ a : Fl R, (∃ n : ℤ, |n| ≤ M ∧ a.val = n) → a / (((1 + false.toNat * rest.length : ℕ)) : Fl R) = a := by
    intro a ⟨n, hn, e⟩
    refine Fl.ext ?_
    rw [Fl.val_div, Fl.val_natCast]
    simp only [Bool.toNat_false, zero_mul, add_zero, Nat.cast_one, div_one]
    rw [e]
    exact round_int hR (hn.trans (by exact_mod_cast hM1))
  have key : ∀ y x,
      ((rest.map (fun g => g.px y x / (((1 + false.toNat * rest.length : ℕ)) : Fl R))).foldl (· + ·)
        (f.px y x / (((1 + false.toNat * rest.length : ℕ)) : Fl R))) = ((rest.map (fun g => g.px y x)).foldl (· + ·) (f.px y x)) := by
    intro y x
    rw [one _ (whole_px (hw f (by simp)) y x)]
    congr 1
    exact List.map_congr_left (fun g hg => one _ (whole_px (hw g (by simp [hg])) y x))
  have sumv : ∀ y x, _ := fun y x => foldl_whole hR (M := M) (Z := M) (rest.map (fun g => g.px y x))
      (by intro v hv; obtain ⟨g, hg, rfl⟩ := List.mem_map.1 hv; exact whole_px (hw g (by simp [hg])) y x) (f.px y x)
      (whole_px (hw f (by simp)) y x) (by rw [List.length_map]; nlinarith)
  refine ⟨_, combineFrames_ok false f rest hs, ?_, ?_⟩
  · rw [List.map_cons, combineFrames_ok false f.reals (rest.map Img.reals) (by
      intro g hg
      obtain ⟨g', hg', rfl⟩ := List.mem_map.1 hg
      exact hs g' hg')]
    congr 1
    refine (reals_ofFn_eq (fun y x _ _ => ?_)).symm
    rw [key, (sumv y x).1, foldl_add_real, List.map_map, List.map_map]
    simp only [Bool.toNat_false, zero_mul, add_zero, Nat.cast_one, div_one]
    rw [reals_px]
    congr 2
    exact List.map_congr_left (fun g _ => (reals_px g y x).symm)
  · intro y x hy hx
    rw [Img.ofFn_px (by exact hy) (by exact hx), key]
    obtain ⟨n, hn, e⟩ := (sumv y x).2
    refine ⟨n, hn.trans ?_, e⟩
    rw [List.length_map]
    push_cast
    linarith

/-- C91: the usual chain of a camera of at most 16 bits - dark subtraction, rebinning by up to 131072, Stokes maps - makes no rounding
error at all. -/
theorem C91_pipeline {d k : Img (Fl R)} {b : ℕ} {L : Layout} {dic : AngleDic} (hL : L.Describes dic) (hh : d.h % 2 = 0)
    (hw : d.w % 2 = 0) (hs : d.h = k.h ∧ d.w = k.w) (hd : d.Whole 65535) (hk : k.Whole 65535) (hb : 0 < b) (hb' : 8 * b * b ≤ 2 ^ 37) :
    ∃ a r S, subtractDarkData d k = .ok a ∧ micropolarrayRebin a b = .ok r ∧ dataStokes r dic = .ok S ∧
      subtractDarkData d.reals k.reals = .ok a.reals ∧ micropolarrayRebin a.reals b = .ok r.reals ∧
      dataStokes r.reals dic = .ok (fun i => (S i).reals) := by
  obtain ⟨a, ha, ha', wa, h1, h2⟩ := C91_dark_exact hR hs hd hk (by norm_num)
  obtain ⟨r, hr, hr', wr, h3, h4⟩ := C91_rebin_micropol_exact hR hb (by rw [h1]; exact hh) (by rw [h2]; exact hw) wa (by nlinarith)
  obtain ⟨S, hS, hS'⟩ := C91_stokes_exact hR hL h3 h4 wr (by nlinarith)
  exact ⟨a, r, S, ha, hr, hS, ha', hr', hS'⟩

/-! ## Any numbers: how large the error can be -/

/-- C91: rebinning any numbers: the error is that of as many roundings as there are pixels in a block, relative to the sum of the
absolute values (the same rebinning of the absolute values). -/
theorem C91_rebin_near (d : Img (Fl R)) {b : ℕ} (hb : 0 < b) :
    ∃ r r' a, standardRebin d b = .ok r ∧ standardRebin d.reals b = .ok r' ∧ standardRebin (d.reals.map (fun v => |v|)) b = .ok a ∧
      r.h = r'.h ∧ r.w = r'.w ∧
      ∀ y x, y < r.h → x < r.w → Within (b * b) (a.px y x) (r.px y x).val (r'.px y x) := by
  refine ⟨_, _, _, standardRebin_fold d b hb, standardRebin_fold _ b hb, standardRebin_fold _ b hb, rfl, rfl, ?_⟩
  intro y x hy hx
  rw [Img.ofFn_px (by exact hy) (by exact hx), Img.ofFn_px (by exact hy) (by exact hx), Img.ofFn_px (by exact hy) (by exact hx),
    blockFold_abs]
  exact block_near hR d _ _ _ _

/-- C91: the same for the rebinning that keeps the polarizations apart. -/
theorem C91_rebin_micropol_near (d : Img (Fl R)) {b : ℕ} (hb : 0 < b) (hh : d.h % 2 = 0) (hw : d.w % 2 = 0) :
    ∃ r r' a, micropolarrayRebin d b = .ok r ∧ micropolarrayRebin d.reals b = .ok r' ∧
      micropolarrayRebin (d.reals.map (fun v => |v|)) b = .ok a ∧ r.h = r'.h ∧ r.w = r'.w ∧
      ∀ y x, y < r.h → x < r.w → Within (b * b) (a.px y x) (r.px y x).val (r'.px y x) := by
  refine ⟨_, _, _, micropolarrayRebin_fold d b hb hh hw, micropolarrayRebin_fold _ b hb (by exact hh) (by exact hw),
    micropolarrayRebin_fold _ b hb (by exact hh) (by exact hw), rfl, rfl, ?_⟩
  intro y x hy hx
  rw [Img.ofFn_px (by exact hy) (by exact hx), Img.ofFn_px (by exact hy) (by exact hx), Img.ofFn_px (by exact hy) (by exact hx),
    blockFold_abs]
  exact block_near hR d _ _ _ _

/-- C91: Stokes maps of any numbers: four roundings in the intensity, relative to half the sum of the four absolute values; one in the
differences, relative to the difference itself. -/
theorem C91_stokes_near (d : Img (Fl R)) {L : Layout} {dic : AngleDic} (hL : L.Describes dic) (hh : d.h % 2 = 0) (hw : d.w % 2 = 0) :
    ∃ S S', dataStokes d dic = .ok S ∧ dataStokes d.reals dic = .ok S' ∧ (∀ i, (S i).h = d.h / 2 ∧ (S i).w = d.w / 2) ∧
      ∀ y x, y < d.h / 2 → x < d.w / 2 →
        let v (k : Fin 4) := (d.px (2 * y + k.val / 2) (2 * x + k.val % 2)).val
        Within 4 ((|v 0| + |v 1| + |v 2| + |v 3|) / 2) ((S 0).px y x).val ((S' 0).px y x) ∧
        Within 1 |(S' 1).px y x| ((S 1).px y x).val ((S' 1).px y x) ∧
        Within 1 |(S' 2).px y x| ((S 2).px y x).val ((S' 2).px y x) := by
  have hs := split_ok (d := d) hh hw
  have hs' := split_reals hs
  refine ⟨_, _, by unfold dataStokes; rw [hs, Py.ok_bind, theoStokes_ok _ hL], by unfold dataStokes; rw [hs', Py.ok_bind, theoStokes_ok _ hL],
    by intro i; fin_cases i <;> exact ⟨rfl, rfl⟩, ?_⟩
  intro y x hy hx
  dsimp only
  have px : ∀ k : Fin 4, (Img.ofFn (d.h / 2) (d.w / 2) (fun y x => d.px (2 * y + k.val / 2) (2 * x + k.val % 2))).px y x
      = d.px (2 * y + k.val / 2) (2 * x + k.val % 2) := fun k => Img.ofFn_px hy hx
  have px' : ∀ k : Fin 4, (Img.ofFn (d.h / 2) (d.w / 2) (fun y x => d.px (2 * y + k.val / 2) (2 * x + k.val % 2))).reals.px y x
      = (d.px (2 * y + k.val / 2) (2 * x + k.val % 2)).val := fun k => by rw [reals_px, px]
  refine ⟨?_, ?_, ?_⟩
  · show Within 4 _ ((Img.ofFn _ _ _ : Img (Fl R)).px y x).val ((Img.ofFn _ _ _ : Img ℝ).px y x)
    refine within_congr (half_sum_near hR _ _ _ _) (congrArg Fl.val ((Img.ofFn_px (by exact hy) (by exact hx)).trans ?_))
      ((Img.ofFn_px (by exact hy) (by exact hx)).trans ?_)
    · simp only [px]
    · simp only [px']
  · show Within 1 |(Img.zipWith (· - ·) _ _ : Img ℝ).px y x| ((Img.zipWith (· - ·) _ _ : Img (Fl R)).px y x).val
      ((Img.zipWith (· - ·) _ _ : Img ℝ).px y x)
    rw [Img.zipWith_px _ _ _ (by exact hy) (by exact hx), Img.zipWith_px _ _ _ (by exact hy) (by exact hx), px, px, px', px']
    exact one_near hR _
  · show Within 1 |(Img.zipWith (· - ·) _ _ : Img ℝ).px y x| ((Img.zipWith (· - ·) _ _ : Img (Fl R)).px y x).val
      ((Img.zipWith (· - ·) _ _ : Img ℝ).px y x)
    rw [Img.zipWith_px _ _ _ (by exact hy) (by exact hx), Img.zipWith_px _ _ _ (by exact hy) (by exact hx), px, px, px', px']
    exact one_near hR _

/-- C91: subtracting a dark frame: one rounding, relative to the result; a pixel is clipped to 0 in floating point exactly when it is in
exact arithmetic. -/
theorem C91_dark_near {d k : Img (Fl R)} (hs : d.h = k.h ∧ d.w = k.w) :
    ∃ r r', subtractDarkData d k = .ok r ∧ subtractDarkData d.reals k.reals = .ok r' ∧ r.h = d.h ∧ r.w = d.w ∧
      ∀ y x, y < d.h → x < d.w → Within 1 (r'.px y x) (r.px y x).val (r'.px y x) ∧
        ((d.px y x).val ≤ (k.px y x).val → r.px y x = 0) ∧
        ((k.px y x).val < (d.px y x).val → 0 < (r.px y x).val) := by
  unfold subtractDarkData
  rw [npBin_ok hs.1 hs.2, npBin_ok (by exact hs.1) (by exact hs.2)]
  simp only [Py.ok_bind, Py.pure_eq]
  refine ⟨_, _, rfl, rfl, rfl, rfl, ?_⟩
  intro y x hy hx
  rw [Img.map_px _ _ (by exact hy) (by exact hx), Img.map_px _ _ (by exact hy) (by exact hx),
    Img.ofFn_px (by exact hy) (by exact hx), Img.ofFn_px (by exact hy) (by exact hx), reals_px, reals_px]
  generalize d.px y x = a
  generalize k.px y x = b
  have hsub : (a - b).val = R (a.val - b.val) := rfl
  by_cases h0 : (0 : ℝ) ≤ a.val - b.val
  · have h1 : (0 : Fl R) ≤ a - b := by
      rw [Fl.le_iff, hsub]
      exact (round_nonneg_iff hR _).2 h0
    rw [if_pos h0, if_pos h1]
    refine ⟨?_, ?_, ?_⟩
    · have := one_near hR (a.val - b.val)
      rw [abs_of_nonneg h0] at this
      exact this
    · intro h
      refine Fl.ext ?_
      have : a.val - b.val = 0 := by linarith
      rw [hsub, this, round_zero hR]
      rfl
    · intro h
      have hb := (round_bounds hR h0).1
      have u := unit53_lt
      rw [hsub]
      nlinarith
  · have h1 : ¬ (0 : Fl R) ≤ a - b := by
      rw [Fl.le_iff, hsub]
      exact fun h => h0 ((round_nonneg_iff hR _).1 h)
    rw [if_neg h0, if_neg h1]
    refine ⟨by simp [Within], fun _ => rfl, fun h => absurd (by linarith) h0⟩

/-- C91: demodulation: four roundings, relative to the sum of the absolute values of the products; where the fit flag is not 1 the old value
is kept without any error. -/
theorem C91_demodulate_near {d : Img (Fl R)} {S0 : Fin 3 → Img (Fl R)} {D : Demodulator (Fl R)} (hh : d.h % 2 = 0) (hw : d.w % 2 = 0)
    (hm : ∀ i j, (D.mij i j).h = d.h / 2 ∧ (D.mij i j).w = d.w / 2) (h0 : ∀ i, (S0 i).h = d.h / 2 ∧ (S0 i).w = d.w / 2)
    (hf : ∀ f, D.fitFoundFlags = some f → f.h = d.h / 2 ∧ f.w = d.w / 2) :
    ∃ S S', demodulatePlain d S0 D = .ok S ∧
      demodulatePlain d.reals (fun i => (S0 i).reals) ⟨fun i j => (D.mij i j).reals, D.fitFoundFlags.map Img.reals⟩ = .ok S' ∧
      (∀ i, (S i).h = d.h / 2 ∧ (S i).w = d.w / 2) ∧
      ∀ i y x, y < d.h / 2 → x < d.w / 2 →
        Within 4 (∑ j, |((D.mij i j).px y x).val| * |(d.px (2 * y + j.val / 2) (2 * x + j.val % 2)).val|)
          ((S i).px y x).val ((S' i).px y x) ∧
        (∀ f, D.fitFoundFlags = some f → (f.px y x).val ≠ 1 → (S i).px y x = (S0 i).px y x ∧ (S' i).px y x = ((S0 i).px y x).val) := by
  have hs := split_ok (d := d) hh hw
  have hs' := split_reals hs
  have e1 := matmulPols_four (mij := D.mij) (pols := fun k => Img.ofFn (d.h / 2) (d.w / 2)
      (fun y x => d.px (2 * y + k.val / 2) (2 * x + k.val % 2))) (h := d.h / 2) (w := d.w / 2) (hm 0 0) ⟨rfl, rfl⟩
  have e2 := matmulPols_four (mij := fun i j => (D.mij i j).reals) (pols := fun k => (Img.ofFn (d.h / 2) (d.w / 2)
      (fun y x => d.px (2 * y + k.val / 2) (2 * x + k.val % 2))).reals) (h := d.h / 2) (w := d.w / 2) (hm 0 0) ⟨rfl, rfl⟩
  have near : ∀ (i : Fin 3) (y x : ℕ), y < d.h / 2 → x < d.w / 2 →
      Within 4 (∑ j : Fin 4, |((D.mij i j).px y x).val| * |(d.px (2 * y + j.val / 2) (2 * x + j.val % 2)).val|)
        ((D.mij i 0).px y x * d.px (2 * y + (0 : Fin 4).val / 2) (2 * x + (0 : Fin 4).val % 2)
          + (D.mij i 1).px y x * d.px (2 * y + (1 : Fin 4).val / 2) (2 * x + (1 : Fin 4).val % 2)
          + (D.mij i 2).px y x * d.px (2 * y + (2 : Fin 4).val / 2) (2 * x + (2 : Fin 4).val % 2)
          + (D.mij i 3).px y x * d.px (2 * y + (3 : Fin 4).val / 2) (2 * x + (3 : Fin 4).val % 2)).val
        (((D.mij i 0).px y x).val * (d.px (2 * y + (0 : Fin 4).val / 2) (2 * x + (0 : Fin 4).val % 2)).val
          + ((D.mij i 1).px y x).val * (d.px (2 * y + (1 : Fin 4).val / 2) (2 * x + (1 : Fin 4).val % 2)).val
          + ((D.mij i 2).px y x).val * (d.px (2 * y + (2 : Fin 4).val / 2) (2 * x + (2 : Fin 4).val % 2)).val
          + ((D.mij i 3).px y x).val * (d.px (2 * y + (3 : Fin 4).val / 2) (2 * x + (3 : Fin 4).val % 2)).val) := by
    intro i y x hy hx
    rw [Fin.sum_univ_four]
    exact dot4_near hR _ _ _ _ _ _ _ _
  have px : ∀ (k : Fin 4) (y x : ℕ), y < d.h / 2 → x < d.w / 2 →
      (Img.ofFn (d.h / 2) (d.w / 2) (fun y x => d.px (2 * y + k.val / 2) (2 * x + k.val % 2))).px y x
      = d.px (2 * y + k.val / 2) (2 * x + k.val % 2) := fun k y x hy hx => Img.ofFn_px hy hx
  unfold demodulatePlain
  rw [hs, hs']
  simp only [Py.ok_bind]
  rw [e1, e2]
  simp only [Py.ok_bind]
  cases hfl : D.fitFoundFlags with
  | none =>
    refine ⟨_, _, rfl, rfl, fun i => ⟨rfl, rfl⟩, ?_⟩
    intro i y x hy hx
    refine ⟨?_, fun f hf' => by cases hf'⟩
    refine within_congr (near i y x hy hx) (congrArg Fl.val ((Img.ofFn_px hy hx).trans ?_)) ((Img.ofFn_px hy hx).trans ?_)
    · simp only [px _ _ _ hy hx]
    · simp only [reals_px, px _ _ _ hy hx]
  | some f =>
    have hfs := hf f hfl
    refine ⟨_, _, whereFlags_ok hfs (fun i => ⟨rfl, rfl⟩) h0, whereFlags_ok (by exact hfs) (fun i => ⟨rfl, rfl⟩) h0, fun i => ⟨rfl, rfl⟩, ?_⟩
    intro i y x hy hx
    have hone : f.px y x = 1 ↔ (f.px y x).val = 1 := ⟨fun h => by rw [h]; rfl, fun h => Fl.ext h⟩
    have hone' : f.reals.px y x = 1 ↔ (f.px y x).val = 1 := by rw [reals_px]
    by_cases h1 : (f.px y x).val = 1
    · refine ⟨within_congr (near i y x hy hx)
        (congrArg Fl.val ((Img.ofFn_px hy hx).trans ((if_pos (hone.2 h1)).trans ((Img.ofFn_px hy hx).trans ?_))))
        ((Img.ofFn_px hy hx).trans ((if_pos (hone'.2 h1)).trans ((Img.ofFn_px hy hx).trans ?_))), ?_⟩
      · simp only [px _ _ _ hy hx]
      · simp only [reals_px, px _ _ _ hy hx]
      · intro f' hf' hne
        cases hf'
        exact absurd h1 hne
    · refine ⟨within_congr (x' := ((S0 i).px y x).val) (X' := ((S0 i).px y x).val) ?_
        (congrArg Fl.val ((Img.ofFn_px hy hx).trans (if_neg (fun h => h1 (hone.1 h)))))
        ((Img.ofFn_px hy hx).trans ((if_neg (fun h => h1 (hone'.1 h))).trans (reals_px _ _ _))),
        fun _ _ _ => ⟨(Img.ofFn_px hy hx).trans (if_neg (fun h => h1 (hone.1 h))),
          (Img.ofFn_px hy hx).trans ((if_neg (fun h => h1 (hone'.1 h))).trans (reals_px _ _ _))⟩⟩
      unfold Within
      rw [sub_self, abs_zero]
      exact mul_nonneg (sub_nonneg.2 (one_le_pow₀ (by norm_num))) (Finset.sum_nonneg (fun j _ => by positivity))

/-- C91: average of frames: as many roundings as frames, relative to the average of the absolute values. -/
theorem C91_average_near {f : Img (Fl R)} {rest : List (Img (Fl R))} (hs : ∀ g ∈ rest, g.h = f.h ∧ g.w = f.w) :
    ∃ r r', combineFrames true (f :: rest) = .ok r ∧ combineFrames true ((f :: rest).map Img.reals) = .ok r' ∧ r.h = f.h ∧ r.w = f.w ∧
      ∀ y x, y < f.h → x < f.w →
        Within (rest.length + 1) (((f :: rest).map (fun g => |(g.px y x).val|)).sum / (rest.length + 1 : ℕ)) (r.px y x).val (r'.px y x) ∧
        r'.px y x = ((f :: rest).map (fun g => (g.px y x).val)).sum / (rest.length + 1 : ℕ) := by
  refine ⟨_, _, combineFrames_ok true f rest hs, combineFrames_ok true f.reals (rest.map Img.reals) (by
      intro g hg
      obtain ⟨g', hg', rfl⟩ := List.mem_map.1 hg
      exact hs g' hg'), rfl, rfl, ?_⟩
  intro y x hy hx
  rw [Img.ofFn_px (by exact hy) (by exact hx), Img.ofFn_px (by exact hy) (by exact hx), foldl_add_real, List.map_map, List.length_map]
  simp only [Bool.toNat_true, one_mul, reals_px, Function.comp_def]
  rw [add_comm 1 rest.length]
  obtain ⟨n, hn⟩ : ∃ n : ℕ, n = rest.length + 1 := ⟨_, rfl⟩
  rw [← hn]
  have n0 : (0 : ℝ) < n := by rw [hn]; positivity
  have sumdiv : ∀ l : List (Img (Fl R)), ∀ g : Img (Fl R) → ℝ, (l.map (fun a => g a / (n : ℝ))).sum = (l.map g).sum / n := by
    intro l g
    induction l with
    | nil => simp
    | cons a l ih => rw [List.map_cons, List.sum_cons, ih, List.map_cons, List.sum_cons]; ring
  constructor
  · have key := foldl_error hR (j := 1) (k := 1) le_rfl (rest.map (fun g => (g.px y x / (n : Fl R), (g.px y x).val / (n : ℝ))))
      (by
        intro p hp
        obtain ⟨g, -, rfl⟩ := List.mem_map.1 hp
        exact one_near hR _)
      (f.px y x / (n : Fl R)) ((f.px y x).val / n) |(f.px y x).val / n| le_rfl (one_near hR _)
    rw [List.length_map] at key
    simp only [List.map_map, Function.comp_def] at key
    have e : ((f :: rest).map (fun g => |(g.px y x).val|)).sum / (n : ℝ) =
        |(f.px y x).val / (n : ℝ)| + (rest.map (fun g => |(g.px y x).val / (n : ℝ)|)).sum := by
      have habs : ∀ v : ℝ, |v / (n : ℝ)| = |v| / (n : ℝ) := fun v => by rw [abs_div, abs_of_pos n0]
      simp only [habs]
      rw [sumdiv rest (fun g => |(g.px y x).val|), List.map_cons, List.sum_cons]
      ring
    rw [e, show n = 1 + rest.length by omega]
    rw [show n = 1 + rest.length by omega] at key
    exact key
  · rw [sumdiv rest (fun g => (g.px y x).val), List.map_cons, List.sum_cons]
    ring

/-- C91: the polarized brightness is right up to two roundings. -/
theorem C91_pB_near (S : Fin 3 → Img (Fl R)) {y x : ℕ} (hy : y < (S 1).h) (hx : x < (S 1).w) :
    (1 - 1 / 2 ^ 53) ^ 2 * (pB (fun i => (S i).reals)).px y x ≤ ((pBRounded S).px y x).val ∧
    ((pBRounded S).px y x).val ≤ (1 + 1 / 2 ^ 53) ^ 2 * (pB (fun i => (S i).reals)).px y x := by
  unfold pB pBRounded
  rw [Img.zipWith_px _ _ _ hy hx, Img.zipWith_px _ _ _ (by exact hy) (by exact hx), reals_px, reals_px]
  exact hypot_bounds hR _ _

/-- C91: the degree of polarization is right up to three roundings where the intensity is positive, and 0 where it is 0. -/
theorem C91_dolp_near (S : Fin 3 → Img (Fl R)) {h w : ℕ} (hS : ∀ i, (S i).h = h ∧ (S i).w = w) :
    ∃ r, DoLP (fun i => (S i).reals) = .ok r ∧ ∀ y x, y < h → x < w →
      (((S 0).px y x).val = 0 → (dolpRounded S).px y x = 0) ∧
      (0 < ((S 0).px y x).val → (1 - 1 / 2 ^ 53) ^ 3 * r.px y x ≤ ((dolpRounded S).px y x).val ∧
        ((dolpRounded S).px y x).val ≤ (1 + 1 / 2 ^ 53) ^ 3 * r.px y x) := by
  have hne : ¬ ∃ y x, y < (Img.zeros (S 0).reals.h (S 0).reals.w : Img ℝ).h ∧ x < (Img.zeros (S 0).reals.h (S 0).reals.w : Img ℝ).w ∧
      (open Classical in Img.map (fun i => decide (i ≠ 0)) (S 0).reals).px y x = true ∧ (S 0).reals.px y x = 0 := by
    rintro ⟨y, x, hy, hx, h1, h2⟩
    rw [Img.map_px _ _ (by exact hy) (by exact hx)] at h1
    simp [h2] at h1
  refine ⟨_, by unfold DoLP npDivideWhere; exact if_neg hne, ?_⟩
  intro y x hy hx
  have q1 : y < (S 0).h ∧ x < (S 0).w := by rw [(hS 0).1, (hS 0).2]; exact ⟨hy, hx⟩
  have q2 : y < (S 1).h ∧ x < (S 1).w := by rw [(hS 1).1, (hS 1).2]; exact ⟨hy, hx⟩
  unfold dolpRounded
  rw [Img.zipWith_px _ _ _ q1.1 q1.2, Img.zipWith_px _ _ _ q2.1 q2.2, Img.ofFn_px (by exact q1.1) (by exact q1.2),
    Img.map_px _ _ (by exact q1.1) (by exact q1.2), Img.zipWith_px _ _ _ (by exact q2.1) (by exact q2.2), reals_px, reals_px, reals_px]
  have hz : (S 0).px y x = 0 ↔ ((S 0).px y x).val = 0 := ⟨fun h => by rw [h]; rfl, fun h => Fl.ext h⟩
  constructor
  · intro h0
    rw [if_neg (by simpa using hz.2 h0)]
  · intro h0
    have h0' : ((S 0).px y x).val ≠ 0 := h0.ne'
    rw [if_pos (fun h => h0' (hz.1 h)), if_pos (by simpa using h0')]
    have hp := hypot_bounds hR ((S 1).px y x) ((S 2).px y x)
    have hq : (0 : ℝ) ≤ Real.sqrt (((S 1).px y x).val * ((S 1).px y x).val + ((S 2).px y x).val * ((S 2).px y x).val) := Real.sqrt_nonneg _
    generalize Fl.sqrt ((S 1).px y x * (S 1).px y x + (S 2).px y x * (S 2).px y x) = p at hp
    generalize Real.sqrt (((S 1).px y x).val * ((S 1).px y x).val + ((S 2).px y x).val * ((S 2).px y x).val) = q at hp hq
    generalize ((S 0).px y x) = i at h0
    exact quotient_bounds hR h0 hq hp

end

/-- C91: the sum or average of the modelled loader is the one of the combination of its frames used here. -/
theorem C91_load {fs : Name → Option FitsFile} {c : Clock} {n : Name} {names : List Name} {h w : ℕ} {img : Name → Img ℝ}
    {date : Name → Option ℕ} (average : Bool) (hg : GoodFiles fs c (n :: names) h w img date) :
    ∃ r, loadImage fs c (.list (n :: names)) average = .ok r ∧ combineFrames average ((n :: names).map img) = .ok r.data := by
  obtain ⟨f, -, hr⟩ := loadImage_ok average hg
  refine ⟨_, hr, ?_⟩
  have hsh : ∀ m ∈ n :: names, (img m).h = h ∧ (img m).w = w := fun m hm => (hg.2 m hm).1
  have h0 := hsh n (by simp)
  rw [List.map_cons, combineFrames_ok average (img n) (names.map img) (by
    intro g hg'
    obtain ⟨m, hm, rfl⟩ := List.mem_map.1 hg'
    have := hsh m (by simp [hm])
    rw [h0.1, h0.2]
    exact this), h0.1, h0.2]
  congr 1
  refine Img.ofFn_congr ?_
  intro y x _ _
  rw [foldl_add_real, List.map_map, List.length_map]
  generalize ((1 + average.toNat * names.length : ℕ) : ℝ) = k
  rw [List.map_cons, List.sum_cons, add_div]
  congr 1
  clear hg hr hsh h0
  induction names with
  | nil => simp
  | cons m names ih => rw [List.map_cons, List.sum_cons, ih, List.map_cons, List.sum_cons]; simp only [Function.comp_def]; ring

/-! ## What rounding breaks -/

/-- The sum of seven times `3 / 7` in double precision, step by step. -/
theorem seven_threes (a : Fl roundDouble) (ha : a = (⟨3⟩ : Fl roundDouble) / ((7 : ℕ) : Fl roundDouble)) :
    (a + a + a + a + a + a + a).val = 6755399441055743 * 2 ^ (-51 : ℤ) := by
  have h1 : a.val = 7720456504063707 * 2 ^ (-54 : ℤ) := by
    rw [ha, Fl.val_div, Fl.val_natCast]
    exact_mod_cast roundDouble_scaled (x := 3 / 7) (e := -54) (m := 7720456504063707) (by norm_num) (by norm_num) (by norm_num [abs_lt])
  have h2 : (a + a).val = 7720456504063707 * 2 ^ (-53 : ℤ) := by
    rw [Fl.val_add, h1]
    exact_mod_cast roundDouble_scaled (x := 7720456504063707 * 2 ^ (-54 : ℤ) + 7720456504063707 * 2 ^ (-54 : ℤ)) (e := -53)
      (m := 7720456504063707) (by norm_num) (by norm_num) (by norm_num [abs_lt])
  have h3 : (a + a + a).val = 5790342378047780 * 2 ^ (-52 : ℤ) := by
    rw [Fl.val_add, h2, h1]
    exact_mod_cast roundDouble_scaled (x := 7720456504063707 * 2 ^ (-53 : ℤ) + 7720456504063707 * 2 ^ (-54 : ℤ)) (e := -52)
      (m := 5790342378047780) (by norm_num) (by norm_num) (by norm_num [abs_lt])
  have h4 : (a + a + a + a).val = 7720456504063707 * 2 ^ (-52 : ℤ) := by
    rw [Fl.val_add, h3, h1]
    exact_mod_cast roundDouble_scaled (x := 5790342378047780 * 2 ^ (-52 : ℤ) + 7720456504063707 * 2 ^ (-54 : ℤ)) (e := -52)
      (m := 7720456504063707) (by norm_num) (by norm_num) (by norm_num [abs_lt])
  have h5 : (a + a + a + a + a).val = 4825285315039817 * 2 ^ (-51 : ℤ) := by
    rw [Fl.val_add, h4, h1]
    exact_mod_cast roundDouble_scaled (x := 7720456504063707 * 2 ^ (-52 : ℤ) + 7720456504063707 * 2 ^ (-54 : ℤ)) (e := -51)
      (m := 4825285315039817) (by norm_num) (by norm_num) (by norm_num [abs_lt])
  have h6 : (a + a + a + a + a + a).val = 5790342378047780 * 2 ^ (-51 : ℤ) := by
    rw [Fl.val_add, h5, h1]
    exact_mod_cast roundDouble_scaled (x := 4825285315039817 * 2 ^ (-51 : ℤ) + 7720456504063707 * 2 ^ (-54 : ℤ)) (e := -51)
      (m := 5790342378047780) (by norm_num) (by norm_num) (by norm_num [abs_lt])
  rw [Fl.val_add, h6, h1]
  exact_mod_cast roundDouble_scaled (x := 5790342378047780 * 2 ^ (-51 : ℤ) + 7720456504063707 * 2 ^ (-54 : ℤ)) (e := -51)
    (m := 6755399441055743) (by norm_num) (by norm_num) (by norm_num [abs_lt])

/-- C91: the average of identical frames is not that frame in double precision: seven frames with pixel value 3 average to a number
below 3. -/
theorem C91_average_of_equals : ∃ r, combineFrames true (List.replicate 7 (Img.const 2 2 (⟨3⟩ : Fl roundDouble))) = .ok r ∧
    ∀ y x, y < 2 → x < 2 → (r.px y x).val < 3 := by
  refine ⟨_, combineFrames_ok true _ _ (by intro g hg; rw [List.eq_of_mem_replicate hg]; exact ⟨rfl, rfl⟩), ?_⟩
  intro y x hy hx
  rw [Img.ofFn_px (by exact hy) (by exact hx)]
  have hc : (Img.const 2 2 (⟨3⟩ : Fl roundDouble)).px y x = ⟨3⟩ := Img.ofFn_px hy hx
  show ((List.replicate 6 (Img.const 2 2 (⟨3⟩ : Fl roundDouble))).map _ |>.foldl _ _ : Fl roundDouble).val < 3
  simp only [List.replicate, List.map_cons, List.map_nil, List.foldl_cons, List.foldl_nil, hc]
  have := seven_threes _ rfl
  refine lt_of_eq_of_lt this ?_
  norm_num

/-- C91: so "averaging identical frames changes nothing" is false of floating point. -/
theorem C91_full_claim_false : ¬ ∀ (f : Img (Fl roundDouble)) (n : ℕ) (r : Img (Fl roundDouble)),
    combineFrames true (List.replicate (n + 1) f) = .ok r → ∀ y x, y < f.h → x < f.w → r.px y x = f.px y x := by
  intro h
  obtain ⟨r, hr, hlt⟩ := C91_average_of_equals
  have := h (Img.const 2 2 ⟨3⟩) 6 r hr 0 0 (by decide) (by decide)
  have hc : (Img.const 2 2 (⟨3⟩ : Fl roundDouble)).px 0 0 = ⟨3⟩ := Img.ofFn_px (by decide) (by decide)
  have hv := hlt 0 0 (by decide) (by decide)
  rw [this, hc] at hv
  exact lt_irrefl _ hv

/-- C91: in exact arithmetic it holds. -/
theorem C91_average_of_equals_exact (f : Img ℝ) (n : ℕ) : combineFrames true (List.replicate (n + 1) f) = .ok f := by
  rw [List.replicate_succ, combineFrames_ok true f _ (by intro g hg; rw [List.eq_of_mem_replicate hg]; exact ⟨rfl, rfl⟩)]
  congr 1
  refine Eq.symm (Img.eq_ofFn rfl rfl ?_)
  intro y x _ _
  rw [foldl_add_real, List.map_replicate, List.sum_replicate, List.length_replicate]
  simp only [Bool.toNat_true, one_mul, nsmul_eq_mul]
  have : ((1 + n : ℕ) : ℝ) ≠ 0 := by positivity
  field_simp
  push_cast
  ring

/-- A frame of 16-bit counts meets the hypotheses. -/
example : (Img.const 4 6 (⟨65535⟩ : Fl roundDouble)).Whole 65535 := by
  intro y x hy hx
  exact ⟨65535, by norm_num, by rw [show (Img.const 4 6 (⟨65535⟩ : Fl roundDouble)).px y x = ⟨65535⟩ from Img.ofFn_px hy hx]; norm_num⟩

/-- The chain for two such frames and blocks of `100 × 100`, the layout of PolarCam. -/
example : ∃ a r S, subtractDarkData (Img.const 400 600 (⟨65535⟩ : Fl roundDouble)) (Img.const 400 600 ⟨1000⟩) = .ok a ∧
    micropolarrayRebin a 100 = .ok r ∧ dataStokes r polarCamAngles = .ok S := by
  have whole : ∀ n : ℤ, |n| ≤ 65535 → (Img.const 400 600 (⟨(n : ℝ)⟩ : Fl roundDouble)).Whole 65535 := by
    intro n hn y x hy hx
    exact ⟨n, by exact_mod_cast hn, by rw [show (Img.const 400 600 (⟨(n : ℝ)⟩ : Fl roundDouble)).px y x = ⟨n⟩ from Img.ofFn_px hy hx]⟩
  obtain ⟨a, r, S, h1, h2, h3, -⟩ := C91_pipeline C91_double C02_polarCam.1 (d := Img.const 400 600 ⟨((65535 : ℤ) : ℝ)⟩)
    (k := Img.const 400 600 ⟨((1000 : ℤ) : ℝ)⟩) (b := 100) rfl rfl ⟨rfl, rfl⟩ (whole 65535 (by norm_num)) (whole 1000 (by norm_num))
    (by norm_num) (by norm_num)
  exact ⟨a, r, S, by exact_mod_cast h1, h2, h3⟩

/-- A degree of polarization that is not 0: `Q = 3`, `U = 4`, `I = 10`. -/
example : ∃ r, DoLP (fun i => ((![Img.const 2 2 (⟨10⟩ : Fl roundDouble), Img.const 2 2 ⟨3⟩, Img.const 2 2 ⟨4⟩] i : Img (Fl roundDouble))).reals) = .ok r := by
  obtain ⟨r, hr, -⟩ := C91_dolp_near C91_double ![Img.const 2 2 (⟨10⟩ : Fl roundDouble), Img.const 2 2 ⟨3⟩, Img.const 2 2 ⟨4⟩]
    (h := 2) (w := 2) (by intro i; fin_cases i <;> exact ⟨rfl, rfl⟩)
  exact ⟨r, hr⟩

end Micropol
