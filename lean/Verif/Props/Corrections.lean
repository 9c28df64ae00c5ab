import Verif.Lemmas.Corrections
import Verif.Spec.Rebin
import Verif.Spec.Shape
import Verif.Props.SplitMerge
import Mathlib.Algebra.Order.Field.Basic
import Mathlib.Algebra.BigOperators.Fin
import Mathlib.Algebra.BigOperators.Ring.Finset
import Mathlib.Tactic.Linarith
import Mathlib.Tactic.FieldSimp
import Mathlib.Tactic.NormNum

/-!
# C35 – C39, C69: dark, flat, IFOV and hot pixel corrections, image arithmetic
-/

set_option autoImplicit false
set_option linter.unusedSectionVars false

namespace Micropol

open Finset

variable {K : Type} [Field K] [LinearOrder K] [IsStrictOrderedRing K]

/-! ## C35 -/

/-- C35: dark subtraction on images of equal shape gives `max (p - dark, 0)` at every pixel. -/
theorem C35_dark (data dark : Img K) (hs : data.SameShape dark) :
    ∃ r, subtractDarkData data dark = .ok r ∧ r.SameShape data ∧
      ∀ y x, y < data.h → x < data.w → r.px y x = max (data.px y x - dark.px y x) 0 := by
  unfold subtractDarkData
  rw [npBin_ok hs.1 hs.2, Py.ok_bind]
  refine ⟨_, rfl, ⟨rfl, rfl⟩, ?_⟩
  intro y x hy hx
  rw [Img.map_px _ _ (by exact hy) (by exact hx), Img.ofFn_px hy hx]
  split
  · rename_i h; rw [max_eq_left h]
  · rename_i h; rw [max_eq_right (le_of_lt (not_le.1 h))]

/-- C35: afterwards every pixel is non-negative (whatever the shapes, if the call succeeds). -/
theorem C35_nonneg (data dark r : Img K) (h : subtractDarkData data dark = .ok r) (y x : Nat) : 0 ≤ r.px y x := by
  unfold subtractDarkData at h
  obtain ⟨d, -, h2⟩ := Py.bind_eq_ok.1 h
  injection h2 with h2
  subst h2
  unfold Img.map
  rw [Img.ofFn_px']
  split
  · dsimp only
    split
    · assumption
    · exact le_refl _
  · exact le_refl _

/-- C35: a dark of another (even) shape is rejected, never broadcast. -/
theorem C35_shape (data dark : Img K) (h1 : data.h % 2 = 0) (h2 : data.w % 2 = 0) (h3 : dark.h % 2 = 0)
    (h4 : dark.w % 2 = 0) (hne : ¬ data.SameShape dark) : subtractDarkData data dark = .error .valueError := by
  unfold subtractDarkData npBin
  rw [npBinAt_error h1 h2 h3 h4 (by unfold Img.SameShape at hne; tauto), Py.error_bind]

/-! ## C36 -/

/-- Mean pixel value. -/
def Img.mean (A : Img K) : K := A.total / ((A.h * A.w : Nat) : K)

theorem npMean_ok (A : Img K) (hh : A.h ≠ 0) (hw : A.w ≠ 0) : npMean A = .ok A.mean := by
  unfold npMean
  rw [if_neg (by tauto)]
  rfl

theorem correctFlat_ok (junk : Nat → Nat → K) (data flat : Img K) (hs : data.SameShape flat)
    (hh : data.h ≠ 0) (hw : data.w ≠ 0) (hm : flat.mean ≠ 0) :
    correctFlatData junk data flat = .ok (Img.ofFn data.h data.w (fun y x =>
      if flat.px y x / flat.mean ≠ 0 then data.px y x / (flat.px y x / flat.mean) else junk y x)) := by
  unfold correctFlatData
  rw [npMean_ok flat (by rw [← hs.1]; exact hh) (by rw [← hs.2]; exact hw), Py.ok_bind, if_neg hm]
  unfold npDivideNoOut
  rw [npBinAt_ok (by exact hs.1) (by exact hs.2)]
  congr 1
  refine Img.ofFn_congr ?_
  intro y x hy hx
  rw [Img.map_px _ _ (by rw [← hs.1]; exact hy) (by rw [← hs.2]; exact hx)]

/-- C36 (partial: only where the flat is not 0; the missing case is `C36_zero_flat_undetermined`): flat correction
divides each pixel by the flat normalised to mean one. -/
theorem C36_flat_partial (junk : Nat → Nat → K) (data flat : Img K) (hs : data.SameShape flat)
    (hh : data.h ≠ 0) (hw : data.w ≠ 0) (hm : flat.mean ≠ 0) :
    ∃ r, correctFlatData junk data flat = .ok r ∧ r.SameShape data ∧
      ∀ y x, y < data.h → x < data.w → flat.px y x ≠ 0 →
        r.px y x = data.px y x * flat.mean / flat.px y x := by
  rw [correctFlat_ok junk data flat hs hh hw hm]
  refine ⟨_, rfl, ⟨rfl, rfl⟩, ?_⟩
  intro y x hy hx h0
  rw [Img.ofFn_px hy hx, if_pos (div_ne_zero h0 hm), div_div_eq_mul_div]

/-- C36: multiplying the flat by a positive (indeed any non-zero) constant changes nothing. -/
theorem C36_flat_scale (junk : Nat → Nat → K) (data flat : Img K) (hs : data.SameShape flat)
    (hh : data.h ≠ 0) (hw : data.w ≠ 0) (hm : flat.mean ≠ 0) (c : K) (hc : c ≠ 0) :
    correctFlatData junk data (flat.map (fun v => c * v)) = correctFlatData junk data flat := by
  have hmean : (flat.map (fun v => c * v)).mean = c * flat.mean := by
    unfold Img.mean Img.total Img.totalOn
    simp only [Img.map_h, Img.map_w]
    rw [mul_div_assoc', mul_sum]
    congr 1
    refine sum_congr rfl (fun y hy => ?_)
    rw [mul_sum]
    refine sum_congr rfl (fun x hx => ?_)
    rw [Img.map_px _ _ (mem_range.1 hy) (mem_range.1 hx)]
  rw [correctFlat_ok junk data flat hs hh hw hm,
    correctFlat_ok junk data (flat.map (fun v => c * v)) hs hh hw (by rw [hmean]; exact mul_ne_zero hc hm), hmean]
  congr 1
  refine Img.ofFn_congr ?_
  intro y x hy hx
  rw [Img.map_px _ _ (by rw [← hs.1]; exact hy) (by rw [← hs.2]; exact hx), mul_div_mul_left _ _ hc]

/-- C36: a uniform non-zero flat leaves the image unchanged. -/
theorem C36_uniform_flat (junk : Nat → Nat → K) (data flat : Img K) (hs : data.SameShape flat)
    (hh : data.h ≠ 0) (hw : data.w ≠ 0) (c : K) (hc : c ≠ 0)
    (hu : ∀ y x, y < flat.h → x < flat.w → flat.px y x = c) : correctFlatData junk data flat = .ok data := by
  have hne : ((flat.h * flat.w : Nat) : K) ≠ 0 := by
    rw [Nat.cast_ne_zero, ← hs.1, ← hs.2]
    exact Nat.mul_ne_zero hh hw
  have hmean : flat.mean = c := by
    unfold Img.mean Img.total Img.totalOn
    rw [sum_congr rfl (fun y hy => sum_congr rfl (fun x hx => hu y x (mem_range.1 hy) (mem_range.1 hx)))]
    simp only [sum_const, card_range, nsmul_eq_mul]
    rw [div_eq_iff hne]
    push_cast
    ring
  rw [correctFlat_ok junk data flat hs hh hw (by rw [hmean]; exact hc), hmean]
  congr 1
  refine Img.ext_px rfl rfl ?_
  intro y x hy hx
  rw [Img.ofFn_px (by exact hy) (by exact hx), hu y x (by rw [← hs.1]; exact hy) (by rw [← hs.2]; exact hx),
    div_self hc, if_pos one_ne_zero, div_one]

/-- C36: with a flat that is nowhere 0 the result does not depend on uninitialised memory. -/
theorem C36_determined_partial (junk junk' : Nat → Nat → K) (data flat : Img K) (hs : data.SameShape flat)
    (hh : data.h ≠ 0) (hw : data.w ≠ 0) (hm : flat.mean ≠ 0)
    (hnz : ∀ y x, y < flat.h → x < flat.w → flat.px y x ≠ 0) :
    correctFlatData junk data flat = correctFlatData junk' data flat := by
  rw [correctFlat_ok junk data flat hs hh hw hm, correctFlat_ok junk' data flat hs hh hw hm]
  congr 1
  refine Img.ofFn_congr ?_
  intro y x hy hx
  have := div_ne_zero (hnz y x (by rw [← hs.1]; exact hy) (by rw [← hs.2]; exact hx)) hm
  rw [if_pos this, if_pos this]

/-- A flat with one dead pixel. -/
def exFlat : Img ℚ := Img.ofFn 2 2 (fun y x => if y = 0 ∧ x = 0 then 0 else 1)

theorem exFlat_mean : exFlat.mean = 3 / 4 := by
  norm_num [Img.mean, Img.total, Img.totalOn, exFlat, Img.ofFn_px', sum_range_succ]

/-- C36: the claim that every output pixel is determined by the inputs is false: where the flat is 0 the output is
whatever the memory contained. -/
theorem C36_zero_flat_undetermined :
    ∃ (data flat : Img ℚ) (junk junk' : Nat → Nat → ℚ), data.SameShape flat ∧ flat.mean ≠ 0 ∧
      correctFlatData junk data flat ≠ correctFlatData junk' data flat := by
  refine ⟨Img.const 2 2 1, exFlat, fun _ _ => 0, fun _ _ => 1, ⟨rfl, rfl⟩, by rw [exFlat_mean]; norm_num, ?_⟩
  rw [correctFlat_ok _ (Img.const 2 2 1) exFlat ⟨rfl, rfl⟩ (by decide) (by decide) (by rw [exFlat_mean]; norm_num),
    correctFlat_ok _ (Img.const 2 2 1) exFlat ⟨rfl, rfl⟩ (by decide) (by decide) (by rw [exFlat_mean]; norm_num)]
  intro h
  injection h with h
  have := congrArg (fun A => Img.px A 0 0) h
  norm_num [Img.ofFn_px', Img.const, exFlat] at this

/-! ## C37 -/

/-- C37: the IFOV correction succeeds on every even image (so it never accesses memory out of bounds); the first two
rows and columns become 0 and every other pixel the mean of itself and its upper, left and upper-left neighbours two
pixels away, which belong to the same family. -/
theorem C37_ifov (d : Img K) (hh : d.h % 2 = 0) (hw : d.w % 2 = 0) :
    ∃ r, correctIfovData d = .ok r ∧ r.SameShape d ∧ ∀ y x, y < d.h → x < d.w →
      ((y < 2 ∨ x < 2) → r.px y x = 0) ∧
      (2 ≤ y → 2 ≤ x →
        r.px y x = (d.px y x + d.px (y - 2) x + d.px y (x - 2) + d.px (y - 2) (x - 2)) / 4) := by
  unfold correctIfovData
  rw [ifov_ok d hh hw]
  refine ⟨_, rfl, ⟨rfl, rfl⟩, ?_⟩
  intro y x hy hx
  unfold ifovClosed
  rw [Img.ofFn_px hy hx]
  constructor
  · intro h; rw [if_neg (by omega)]
  · intro h1 h2
    rw [if_pos ⟨h1, h2⟩]
    ring

/-- C37: the corrected value lies between any bounds of the four pixels it averages. -/
theorem C37_range (d r : Img K) (hr : correctIfovData d = .ok r) (hh : d.h % 2 = 0) (hw : d.w % 2 = 0)
    (y x : Nat) (hy : y < d.h) (hx : x < d.w) (h2y : 2 ≤ y) (h2x : 2 ≤ x) (lo hi : K)
    (hb : ∀ y' x', (y' = y ∨ y' + 2 = y) → (x' = x ∨ x' + 2 = x) → lo ≤ d.px y' x' ∧ d.px y' x' ≤ hi) :
    lo ≤ r.px y x ∧ r.px y x ≤ hi := by
  obtain ⟨r', e, -, h⟩ := C37_ifov d hh hw
  rw [hr] at e; injection e with e; subst e
  rw [(h y x hy hx).2 h2y h2x]
  have a := hb y x (by simp) (by simp)
  have b := hb (y - 2) x (by omega) (by simp)
  have c := hb y (x - 2) (by simp) (by omega)
  have e := hb (y - 2) (x - 2) (by omega) (by omega)
  constructor
  · rw [le_div_iff₀ (by norm_num)]; linarith
  · rw [div_le_iff₀ (by norm_num)]; linarith

/-- C37: families are not mixed: each family of the result depends only on the same family of the source. -/
theorem C37_families (d d' r r' : Img K) (s s' t t' : Fin 4 → Img K) (k : Fin 4)
    (hs : splitPolarizations d = .ok s) (hs' : splitPolarizations d' = .ok s')
    (hr : correctIfovData d = .ok r) (hr' : correctIfovData d' = .ok r')
    (ht : splitPolarizations r = .ok t) (ht' : splitPolarizations r' = .ok t') (hk : s k = s' k) : t k = t' k := by
  obtain ⟨hh, hw⟩ := split_even hs
  obtain ⟨hh', hw'⟩ := split_even hs'
  have fs := C02_family_pixels d s hs k
  have fs' := C02_family_pixels d' s' hs' k
  have ft := C02_family_pixels r t ht k
  have ft' := C02_family_pixels r' t' ht' k
  obtain ⟨q, e, sh, h⟩ := C37_ifov d hh hw
  rw [hr] at e; injection e with e; subst e
  obtain ⟨q', e', sh', h'⟩ := C37_ifov d' hh' hw'
  rw [hr'] at e'; injection e' with e'; subst e'
  have k4 := k.isLt
  have Hh : d.h = d'.h := by have := fs.1; have := fs'.1; rw [hk] at *; omega
  have Hw : d.w = d'.w := by have := fs.2.1; have := fs'.2.1; rw [hk] at *; omega
  have hpx : ∀ y x, y < d.h / 2 → x < d.w / 2 →
      d.px (2 * y + k.val / 2) (2 * x + k.val % 2) = d'.px (2 * y + k.val / 2) (2 * x + k.val % 2) := by
    intro y x hy hx
    rw [← fs.2.2 y x hy hx, hk, fs'.2.2 y x (by omega) (by omega)]
  refine Img.ext_px (by rw [ft.1, ft'.1, sh.1, sh'.1, Hh]) (by rw [ft.2.1, ft'.2.1, sh.2, sh'.2, Hw]) ?_
  intro y x hy hx
  rw [ft.1, sh.1] at hy
  rw [ft.2.1, sh.2] at hx
  rw [ft.2.2 y x (by rw [sh.1]; exact hy) (by rw [sh.2]; exact hx),
    ft'.2.2 y x (by rw [sh'.1, ← Hh]; exact hy) (by rw [sh'.2, ← Hw]; exact hx)]
  obtain ⟨z, n⟩ := h (2 * y + k.val / 2) (2 * x + k.val % 2) (by omega) (by omega)
  obtain ⟨z', n'⟩ := h' (2 * y + k.val / 2) (2 * x + k.val % 2) (by omega) (by omega)
  by_cases hc : 1 ≤ y ∧ 1 ≤ x
  · obtain ⟨Y, rfl⟩ : ∃ Y, y = Y + 1 := ⟨y - 1, by omega⟩
    obtain ⟨X, rfl⟩ : ∃ X, x = X + 1 := ⟨x - 1, by omega⟩
    rw [n (by omega) (by omega), n' (by omega) (by omega)]
    have e1 : 2 * (Y + 1) + k.val / 2 - 2 = 2 * Y + k.val / 2 := by omega
    have e2 : 2 * (X + 1) + k.val % 2 - 2 = 2 * X + k.val % 2 := by omega
    rw [e1, e2, hpx _ _ hy hx, hpx Y (X + 1) (by omega) hx, hpx (Y + 1) X hy (by omega),
      hpx Y X (by omega) (by omega)]
  · rw [z (by omega), z' (by omega)]

/-! ## C38 -/

/-- C38: hot pixel cleaning leaves unflagged pixels alone and replaces flagged ones by the filtered value of the
same position of the same family, for every filter that keeps the shape. -/
theorem C38_clean (filter : Img K → Img K) (hf : ∀ A, (filter A).SameShape A) (data flags : Img K)
    (s : Fin 4 → Img K) (hsplit : splitPolarizations data = .ok s) (hs : data.SameShape flags) :
    ∃ r, cleanHotPixelsData filter data flags = .ok r ∧ r.SameShape data ∧
      ∀ y x (k : Fin 4), y < data.h / 2 → x < data.w / 2 →
        let Y := 2 * y + k.val / 2
        let X := 2 * x + k.val % 2
        (flags.px Y X ≠ 1 → r.px Y X = data.px Y X) ∧
        (flags.px Y X = 1 → r.px Y X = (filter (s k)).px y x) := by
  obtain ⟨hh, hw⟩ := split_even hsplit
  have fs := C02_family_pixels data s hsplit
  obtain ⟨g, hg⟩ : ∃ g, splitPolarizations flags = .ok g :=
    ⟨_, split_ok (by rw [← hs.1]; exact hh) (by rw [← hs.2]; exact hw)⟩
  have fg := C02_family_pixels flags g hg
  unfold cleanHotPixelsData
  rw [hsplit, Py.ok_bind, hg, Py.ok_bind]
  have hwk : ∀ k, npWhere ((g k).map (fun v => decide (v = 1))) (filter (s k)) (s k) = .ok (Img.ofFn (data.h / 2)
      (data.w / 2) (fun y x => if ((g k).map (fun v => decide (v = 1))).px y x then (filter (s k)).px y x
        else (s k).px y x)) := by
    intro k
    rw [npWhere_ok (hf _).1 (hf _).2 (by rw [Img.map_h, (fg k).1, (fs k).1, hs.1])
      (by rw [Img.map_w, (fg k).2.1, (fs k).2.1, hs.2])]
    rw [(fs k).1, (fs k).2.1]
  simp only [hwk, Py.ok_bind]
  rw [vec4_eta (fun k => Img.ofFn (data.h / 2)
      (data.w / 2) (fun y x => if ((g k).map (fun v => decide (v = 1))).px y x then (filter (s k)).px y x
        else (s k).px y x)), merge_ok (h := data.h / 2) (w := data.w / 2) (fun _ => rfl) (fun _ => rfl)]
  refine ⟨_, rfl, ⟨by simp only [Img.ofFn_h]; omega, by simp only [Img.ofFn_w]; omega⟩, ?_⟩
  intro y x k hy hx
  have k4 := k.isLt
  rw [Img.ofFn_px (by omega) (by omega), famIdx_of]
  have e1 : (2 * y + k.val / 2) / 2 = y := by omega
  have e2 : (2 * x + k.val % 2) / 2 = x := by omega
  rw [e1, e2, Img.ofFn_px hy hx,
    Img.map_px _ _ (by rw [(fg k).1, ← hs.1]; exact hy) (by rw [(fg k).2.1, ← hs.2]; exact hx),
    (fg k).2.2 y x (by rw [← hs.1]; exact hy) (by rw [← hs.2]; exact hx), (fs k).2.2 y x hy hx]
  constructor
  · intro h; simp [h]
  · intro h; simp [h]

/-- C38: `get_hot_pixels` never produces a map: on every even image it raises `AttributeError`. -/
theorem C38_get_hot_pixels_fails (data : Img K) (hh : data.h % 2 = 0) (hw : data.w % 2 = 0) :
    getHotPixels data = .error .attributeError := by
  unfold getHotPixels
  rw [split_ok hh hw, Py.ok_bind]

/-! ## C39 -/

/-- C39: `+`, `-`, `*` of two images of equal shape act pixel by pixel. -/
theorem C39_images (a b : Img K) (hs : a.SameShape b) :
    ∃ s d m, addData a (.image b) = .ok s ∧ subData a (.image b) = .ok d ∧ mulData a (.image b) = .ok m ∧
      s.SameShape a ∧ d.SameShape a ∧ m.SameShape a ∧ ∀ y x, y < a.h → x < a.w →
        s.px y x = a.px y x + b.px y x ∧ d.px y x = a.px y x - b.px y x ∧ m.px y x = a.px y x * b.px y x := by
  unfold addData subData mulData
  simp only [npBin_ok hs.1 hs.2]
  exact ⟨_, _, _, rfl, rfl, rfl, ⟨rfl, rfl⟩, ⟨rfl, rfl⟩, ⟨rfl, rfl⟩,
    fun y x hy hx => ⟨Img.ofFn_px hy hx, Img.ofFn_px hy hx, Img.ofFn_px hy hx⟩⟩

/-- C39: `+`, `-`, `*` of an image and a number act pixel by pixel. -/
theorem C39_numbers (a : Img K) (c : K) :
    ∃ s d m, addData a (.number c) = .ok s ∧ subData a (.number c) = .ok d ∧ mulData a (.number c) = .ok m ∧
      s.SameShape a ∧ d.SameShape a ∧ m.SameShape a ∧ ∀ y x, y < a.h → x < a.w →
        s.px y x = a.px y x + c ∧ d.px y x = a.px y x - c ∧ m.px y x = a.px y x * c :=
  ⟨_, _, _, rfl, rfl, rfl, ⟨rfl, rfl⟩, ⟨rfl, rfl⟩, ⟨rfl, rfl⟩,
    fun _ _ hy hx => ⟨Img.map_px _ _ hy hx, Img.map_px _ _ hy hx, Img.map_px _ _ hy hx⟩⟩

/-- C39 (partial: only where the divisor is not 0; the missing case is `C39_zero_division_undetermined`): `/`. -/
theorem C39_div_partial (junk : Nat → Nat → K) (a b : Img K) (hs : a.SameShape b) (c : K) :
    ∃ q r, divData junk a (.image b) = .ok q ∧ divData junk a (.number c) = .ok r ∧
      q.SameShape a ∧ r.SameShape a ∧ ∀ y x, y < a.h → x < a.w →
        (b.px y x ≠ 0 → q.px y x = a.px y x / b.px y x) ∧ (c ≠ 0 → r.px y x = a.px y x / c) := by
  unfold divData npDivideNoOut npDivideScalarNoOut
  simp only [npBinAt_ok hs.1 hs.2]
  refine ⟨_, _, rfl, rfl, ⟨rfl, rfl⟩, ⟨rfl, rfl⟩, ?_⟩
  intro y x hy hx
  rw [Img.ofFn_px hy hx, Img.ofFn_px hy hx]
  exact ⟨fun h => if_pos h, fun h => if_pos h⟩

/-- C39: (a + b) - b gives back a, (a * b) / b gives back a when b is nowhere 0; likewise with a number. -/
theorem C39_inverse (junk : Nat → Nat → K) (a b : Img K) (hs : a.SameShape b) (c : K) :
    (addData a (.image b) >>= fun s => subData s (.image b)) = .ok a ∧
    (addData a (.number c) >>= fun s => subData s (.number c)) = .ok a ∧
    ((∀ y x, y < a.h → x < a.w → b.px y x ≠ 0) →
      (mulData a (.image b) >>= fun s => divData junk s (.image b)) = .ok a) ∧
    (c ≠ 0 → (mulData a (.number c) >>= fun s => divData junk s (.number c)) = .ok a) := by
  refine ⟨?_, ?_, ?_, ?_⟩
  · unfold addData subData
    simp only [npBin_ok hs.1 hs.2, Py.ok_bind]
    rw [npBin_ok (by exact hs.1) (by exact hs.2)]
    congr 1
    refine Img.ext_px rfl rfl ?_
    intro y x (hy : y < a.h) (hx : x < a.w)
    rw [Img.ofFn_px (by exact hy) (by exact hx), Img.ofFn_px hy hx, add_sub_cancel_right]
  · unfold addData subData
    simp only [Py.ok_bind]
    congr 1
    refine Img.ext_px rfl rfl ?_
    intro y x (hy : y < a.h) (hx : x < a.w)
    rw [Img.map_px _ _ (by exact hy) (by exact hx), Img.map_px _ _ hy hx, add_sub_cancel_right]
  · intro h
    unfold mulData divData npDivideNoOut
    simp only [npBin_ok hs.1 hs.2, Py.ok_bind]
    rw [npBinAt_ok (by exact hs.1) (by exact hs.2)]
    congr 1
    refine Img.ext_px rfl rfl ?_
    intro y x (hy : y < a.h) (hx : x < a.w)
    rw [Img.ofFn_px (by exact hy) (by exact hx), Img.ofFn_px hy hx, if_pos (h y x hy hx),
      mul_div_cancel_right₀ _ (h y x hy hx)]
  · intro h
    unfold mulData divData npDivideScalarNoOut
    simp only [Py.ok_bind]
    congr 1
    refine Img.ext_px rfl rfl ?_
    intro y x (hy : y < a.h) (hx : x < a.w)
    rw [Img.ofFn_px (by exact hy) (by exact hx), Img.map_px _ _ hy hx, if_pos h, mul_div_cancel_right₀ _ h]

/-- C39: two micropolarizer images of different shapes are never silently combined. -/
theorem C39_shape_mismatch (junk : Nat → Nat → K) (a b : Img K) (h1 : a.h % 2 = 0) (h2 : a.w % 2 = 0)
    (h3 : b.h % 2 = 0) (h4 : b.w % 2 = 0) (hne : ¬ a.SameShape b) :
    addData a (.image b) = .error .valueError ∧ subData a (.image b) = .error .valueError ∧
    mulData a (.image b) = .error .valueError ∧ divData junk a (.image b) = .error .valueError := by
  have hne' : a.h ≠ b.h ∨ a.w ≠ b.w := by unfold Img.SameShape at hne; tauto
  unfold addData subData mulData divData npDivideNoOut npBin
  exact ⟨npBinAt_error h1 h2 h3 h4 hne', npBinAt_error h1 h2 h3 h4 hne', npBinAt_error h1 h2 h3 h4 hne',
    npBinAt_error h1 h2 h3 h4 hne'⟩

/-- C39: the claim that division by a zero pixel gives a determined value is false. -/
theorem C39_zero_division_undetermined :
    ∃ (a b : Img ℚ) (junk junk' : Nat → Nat → ℚ), a.SameShape b ∧
      divData junk a (.image b) ≠ divData junk' a (.image b) ∧
      divData junk a (.number 0) ≠ divData junk' a (.number 0) := by
  refine ⟨Img.const 2 2 1, exFlat, fun _ _ => 0, fun _ _ => 1, ⟨rfl, rfl⟩, ?_, ?_⟩
  · unfold divData npDivideNoOut
    simp only
    rw [npBinAt_ok (A := Img.const 2 2 1) (B := exFlat) rfl rfl, npBinAt_ok (A := Img.const 2 2 1) (B := exFlat) rfl rfl]
    intro h
    injection h with h
    have := congrArg (fun A => Img.px A 0 0) h
    norm_num [Img.ofFn_px', Img.const, exFlat] at this
  · unfold divData npDivideScalarNoOut
    simp only
    intro h
    injection h with h
    have := congrArg (fun A => Img.px A 0 0) h
    norm_num [Img.ofFn_px', Img.const] at this

/-! ## C69 -/

/-- The four pixels of the superpixel `(Y, X)` of an image, in the order of the families. -/
def Img.superpixel (A : Img K) (Y X : Nat) (k : Fin 4) : K := A.px (2 * Y + k.val / 2) (2 * X + k.val % 2)

theorem chenStored_ok (store : K → K) (C : Fin 4 → Fin 4 → Img K) (dij data : Img K) (hh : data.h % 2 = 0) (hw : data.w % 2 = 0)
    (hC : ∀ i j, (C i j).SameShape data) (hd : data.SameShape dij) :
    chenWanLiangStored store C dij data = correctIfovData (Img.ofFn data.h data.w (fun y x =>
      store (∑ j : Fin 4, (C (famIdx y x) j).px (2 * (y / 2)) (2 * (x / 2)) *
        (data.px (2 * (y / 2) + j.val / 2) (2 * (x / 2) + j.val % 2)
          - dij.px (2 * (y / 2) + j.val / 2) (2 * (x / 2) + j.val % 2))))) := by
  unfold chenWanLiangStored
  rw [if_neg (by rw [not_not]; exact hC), npBin_ok hd.1 hd.2, Py.ok_bind]
  set P := Img.ofFn data.h data.w (fun y x => data.px y x - dij.px y x) with hP
  set f : Nat → Nat → K := fun y x => store (∑ j : Fin 4, (C (famIdx y x) j).px (2 * (y / 2)) (2 * (x / 2)) *
        (data.px (2 * (y / 2) + j.val / 2) (2 * (x / 2) + j.val % 2)
          - dij.px (2 * (y / 2) + j.val / 2) (2 * (x / 2) + j.val % 2))) with hf
  have key := tileLoop (α := K) 2 0 0 (data.h / 2) (data.w / 2) (b := data.h) (d := data.w)
    (Img.zeros data.h data.w) f
    (body := fun superY superX corrected =>
        if superY + 2 ≤ data.h ∧ superX + 2 ≤ data.w ∧ superY + 2 ≤ P.h ∧ superX + 2 ≤ P.w then do
          let v (k : Fin 4) : K := P.px (superY.toNat + k.val / 2) (superX.toNat + k.val % 2)
          let m (i : Fin 4) : K := store ((C i 0).px superY.toNat superX.toNat * v 0 + (C i 1).px superY.toNat superX.toNat * v 1
            + (C i 2).px superY.toNat superX.toNat * v 2 + (C i 3).px superY.toNat superX.toNat * v 3)
          pure (Img.ofFn corrected.h corrected.w (fun y x =>
            if superY ≤ y ∧ (y : Int) < superY + 2 ∧ superX ≤ x ∧ (x : Int) < superX + 2 then
              m ⟨2 * ((y - superY.toNat) % 2) + (x - superX.toNat) % 2, by omega⟩
            else corrected.px y x))
        else .error .valueError)
    (halfCount _ hh) (halfCount _ hw) ?_
  · simp only [Nat.cast_zero] at key
    rw [key, Py.ok_bind]
    unfold correctIfovData
    congr 1
    refine Img.ext_px rfl rfl ?_
    intro y x (hy : y < data.h) (hx : x < data.w)
    rw [Img.patch_px _ _ _ _ _ _ (by exact hy) (by exact hx), Img.ofFn_px hy hx, if_pos (by omega)]
  · intro Y X A hY hX hAh hAw _
    simp only [Img.zeros, Img.const, Img.ofFn_h, Img.ofFn_w] at hAh hAw
    have hPh : P.h = data.h := rfl
    have hPw : P.w = data.w := rfl
    simp only [hPh, hPw]
    rw [if_pos (by omega), Py.pure_eq]
    congr 1
    refine Img.ext_px rfl rfl ?_
    intro y x (hy : y < A.h) (hx : x < A.w)
    rw [Img.ofFn_px hy hx, Img.patch_px _ _ _ _ _ _ hy hx]
    by_cases hc : 0 + Y * 2 ≤ y ∧ y < 0 + Y * 2 + 2 ∧ 0 + X * 2 ≤ x ∧ x < 0 + X * 2 + 2
    · rw [if_pos (by omega), if_pos hc, hf]
      have t1 : (((0 + Y * 2 : Nat) : Int)).toNat = 2 * (y / 2) := by omega
      have t2 : (((0 + X * 2 : Nat) : Int)).toNat = 2 * (x / 2) := by omega
      have tk : (⟨2 * ((y - 2 * (y / 2)) % 2) + (x - 2 * (x / 2)) % 2, by omega⟩ : Fin 4) = famIdx y x := by
        ext
        simp only [famIdx]
        omega
      have hv : ∀ k : Fin 4, P.px (2 * (y / 2) + k.val / 2) (2 * (x / 2) + k.val % 2)
          = data.px (2 * (y / 2) + k.val / 2) (2 * (x / 2) + k.val % 2)
          - dij.px (2 * (y / 2) + k.val / 2) (2 * (x / 2) + k.val % 2) := by
        intro k
        have := k.isLt
        rw [hP, Img.ofFn_px (by omega) (by omega)]
      simp only [t1, t2, tk, hv, Fin.sum_univ_four]
    · rw [if_neg (by omega), if_neg hc]

theorem chenStored_apply (store : K → K) (C : Fin 4 → Fin 4 → Img K) (dij data : Img K) (hh : data.h % 2 = 0) (hw : data.w % 2 = 0)
    (hC : ∀ i j, (C i j).SameShape data) (hd : data.SameShape dij) :
    ∃ m, m.SameShape data ∧ chenWanLiangStored store C dij data = correctIfovData m ∧
      ∀ Y X (i : Fin 4), Y < data.h / 2 → X < data.w / 2 →
        m.superpixel Y X i = store (∑ j, (C i j).px (2 * Y) (2 * X) * (data.superpixel Y X j - dij.superpixel Y X j)) := by
  refine ⟨Img.ofFn data.h data.w _, ⟨rfl, rfl⟩, chenStored_ok store C dij data hh hw hC hd, ?_⟩
  intro Y X i hY hX
  have := i.isLt
  unfold Img.superpixel
  rw [Img.ofFn_px (by omega) (by omega), famIdx_of]
  have e1 : (2 * Y + i.val / 2) / 2 = Y := by omega
  have e2 : (2 * X + i.val % 2) / 2 = X := by omega
  rw [e1, e2]

/-- C69: the Chen-Wang-Liang calibration of an even image applies `C (P - d)` in every superpixel, with the matrix
stored at the superpixel's upper left pixel, and then the IFOV correction. -/
theorem C69_apply (C : Fin 4 → Fin 4 → Img K) (dij data : Img K) (hh : data.h % 2 = 0) (hw : data.w % 2 = 0)
    (hC : ∀ i j, (C i j).SameShape data) (hd : data.SameShape dij) :
    ∃ m, m.SameShape data ∧ chenWanLiang C dij data = correctIfovData m ∧
      ∀ Y X (i : Fin 4), Y < data.h / 2 → X < data.w / 2 →
        m.superpixel Y X i = ∑ j, (C i j).px (2 * Y) (2 * X) * (data.superpixel Y X j - dij.superpixel Y X j) :=
  chenStored_apply id C dij data hh hw hC hd

/-- C69: with identity matrices and zero offsets only the IFOV correction remains. -/
theorem C69_identity (C : Fin 4 → Fin 4 → Img K) (dij data : Img K) (hh : data.h % 2 = 0) (hw : data.w % 2 = 0)
    (hC : ∀ i j, (C i j).SameShape data) (hd : data.SameShape dij)
    (hid : ∀ i j y x, y < data.h → x < data.w → (C i j).px y x = if i = j then 1 else 0)
    (h0 : ∀ y x, y < data.h → x < data.w → dij.px y x = 0) :
    chenWanLiang C dij data = correctIfovData data := by
  obtain ⟨m, hs, e, h⟩ := C69_apply C dij data hh hw hC hd
  rw [e]
  congr 1
  refine Img.ext_px hs.1 hs.2 ?_
  intro y x hy hx
  rw [hs.1] at hy
  rw [hs.2] at hx
  have := h (y / 2) (x / 2) (famIdx y x) (by omega) (by omega)
  unfold Img.superpixel at this
  rw [famIdx_val_div, famIdx_val_mod] at this
  have e1 : 2 * (y / 2) + y % 2 = y := by omega
  have e2 : 2 * (x / 2) + x % 2 = x := by omega
  rw [e1, e2] at this
  rw [this]
  have step : ∀ j ∈ (Finset.univ : Finset (Fin 4)), (C (famIdx y x) j).px (2 * (y / 2)) (2 * (x / 2)) *
      (data.px (2 * (y / 2) + j.val / 2) (2 * (x / 2) + j.val % 2)
        - dij.px (2 * (y / 2) + j.val / 2) (2 * (x / 2) + j.val % 2))
      = if famIdx y x = j then data.px y x else 0 := by
    intro j _
    have := j.isLt
    rw [hid _ _ _ _ (by omega) (by omega), h0 _ _ (by omega) (by omega), sub_zero]
    split
    · rename_i hj
      subst hj
      rw [famIdx_val_div, famIdx_val_mod, e1, e2, one_mul]
    · rw [zero_mul]
  rw [sum_congr rfl step]
  simp

/-! Non-vacuity -/

def exData : Img ℚ := Img.ofFn 4 4 (fun y x => 10 * y + x)
def exDark : Img ℚ := Img.const 4 4 12

example : exData.SameShape exDark := ⟨rfl, rfl⟩
example : ∃ r, subtractDarkData exData exDark = .ok r ∧ r.px 0 3 = 0 ∧ r.px 2 1 = 9 := by
  obtain ⟨r, e, -, h⟩ := C35_dark exData exDark ⟨rfl, rfl⟩
  refine ⟨r, e, ?_, ?_⟩
  · rw [h 0 3 (by decide) (by decide)]; norm_num [exData, exDark, Img.const, Img.ofFn_px']
  · rw [h 2 1 (by decide) (by decide)]; norm_num [exData, exDark, Img.const, Img.ofFn_px']
example : ¬ exData.SameShape (Img.const 2 2 (1 : ℚ)) := by intro h; exact absurd h.1 (by decide)
example : exFlat.mean ≠ 0 ∧ (Img.const 2 2 (5 : ℚ)).SameShape exFlat := ⟨by rw [exFlat_mean]; norm_num, rfl, rfl⟩
example : ∃ r, correctIfovData exData = .ok r ∧ r.px 3 2 = 21 := by
  obtain ⟨r, e, -, h⟩ := C37_ifov exData (by decide) (by decide)
  refine ⟨r, e, ?_⟩
  rw [(h 3 2 (by decide) (by decide)).2 (by decide) (by decide)]
  norm_num [exData, Img.ofFn_px']
/-- A shape preserving filter and a flag map for C38. -/
example : ∃ r, cleanHotPixelsData (fun A => A.map (fun v => v + 100)) exData
    (Img.ofFn 4 4 (fun y x => if y = 1 ∧ x = 2 then 1 else 0)) = .ok r ∧ r.px 1 2 = 112 ∧ r.px 1 1 = 11 := by
  obtain ⟨r, e, -, h⟩ := C38_clean (fun A : Img ℚ => A.map (fun v => v + 100)) (fun _ => ⟨rfl, rfl⟩) exData
    (Img.ofFn 4 4 (fun y x => if y = 1 ∧ x = 2 then 1 else 0)) _ (split_ok (by decide) (by decide)) ⟨rfl, rfl⟩
  refine ⟨r, e, ?_, ?_⟩
  · have := (h 0 1 2 (by decide) (by decide)).2 (by norm_num [Img.ofFn_px'])
    simp only [Fin.val_two] at this
    norm_num at this
    rw [this]
    norm_num [exData, Img.map, Img.ofFn_px']
  · have := (h 0 0 3 (by decide) (by decide)).1 (by norm_num [Img.ofFn_px'])
    norm_num at this
    rw [this]
    norm_num [exData, Img.ofFn_px']
/-- Identity calibration data exist. -/
example : ∃ (C : Fin 4 → Fin 4 → Img ℚ) (dij : Img ℚ), chenWanLiang C dij exData = correctIfovData exData := by
  refine ⟨fun i j => Img.const 4 4 (if i = j then 1 else 0), Img.const 4 4 0, ?_⟩
  exact C69_identity _ _ exData (by decide) (by decide) (fun _ _ => ⟨rfl, rfl⟩) ⟨rfl, rfl⟩
    (fun i j y x hy hx => Img.ofFn_px hy hx) (fun y x hy hx => Img.ofFn_px hy hx)

end Micropol
