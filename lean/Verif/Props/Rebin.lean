import Verif.Lemmas.Rebin
import Verif.Spec.Rebin
import Verif.Model.ImageData

/-!
# C06, C07, C08, C09, C11, C12: binning
-/

set_option autoImplicit false

namespace Micropol

open Finset

theorem isLargestMultiple_div (m n : Nat) (hm : 0 < m) : IsLargestMultiple m n (n - n % m) := by
  refine ⟨Nat.dvd_sub_mod n, Nat.sub_le _ _, ?_⟩
  intro q hq hqn
  have h2 : m ∣ n - n % m := Nat.dvd_sub_mod n
  by_contra hc
  have h3 : m ∣ q - (n - n % m) := Nat.dvd_sub hq h2
  have := Nat.le_of_dvd (by omega) h3
  have := Nat.mod_lt n hm
  have := Nat.mod_le n m
  omega

/-- C06: trimming for plain binning terminates for every size and binning ≥ 1 and gives the largest multiples. -/
theorem C06_trim (h w b : Nat) (hb : 1 ≤ b) :
    ∃ h' w' : Nat, trimToMatchBinning h w b = .ok ((h' : Int), (w' : Int)) ∧
      IsLargestMultiple b h h' ∧ IsLargestMultiple b w w' := by
  refine ⟨h - h % b, w - w % b, ?_, isLargestMultiple_div b h hb, isLargestMultiple_div b w hb⟩
  unfold trimToMatchBinning
  rw [trimLoop_ok (by omega) (by omega) (by simp) (by simp), trimLoop_ok (by omega) (by omega) (by simp) (by simp)]
  simp only [Py.ok_bind, Py.pure_eq]
  have := Nat.mod_le h b
  have := Nat.mod_le w b
  push_cast [Nat.cast_sub, *]
  rfl

/-- C07 (partial: even sides only; the missing case is `C07_hangs_on_odd`): trimming for superpixel binning. -/
theorem C07_trim2x_partial (h w b : Nat) (hb : 1 ≤ b) (hh : h % 2 = 0) (hw : w % 2 = 0) :
    ∃ h' w' : Nat, trimToMatch2xBinning h w b = .ok ((h' : Int), (w' : Int)) ∧
      IsLargestMultiple (2 * b) h h' ∧ IsLargestMultiple (2 * b) w w' := by
  refine ⟨h - h % (2 * b), w - w % (2 * b), ?_, isLargestMultiple_div _ h (by omega),
    isLargestMultiple_div _ w (by omega)⟩
  unfold trimToMatch2xBinning
  rw [trimLoop_ok (by omega) (by omega) (by omega) (by simp),
    trimLoop_ok (by omega) (by omega) (by omega) (by simp)]
  simp only [Py.ok_bind, Py.pure_eq]
  have := Nat.mod_le h (2 * b)
  have := Nat.mod_le w (2 * b)
  push_cast [Nat.cast_sub, *]
  rfl

/-- C07, refutation of the full claim: with an odd side the call never returns, whatever the binning. -/
theorem C07_hangs_on_odd (h w b : Nat) (hb : 1 ≤ b) (hodd : h % 2 = 1 ∨ w % 2 = 1) :
    trimToMatch2xBinning h w b = .error .hang := by
  unfold trimToMatch2xBinning
  by_cases hw : w % 2 = 1
  · rw [trimLoop_hang (by omega) (by simp) (by omega)]
    rfl
  · rw [trimLoop_ok (by omega) (by omega) (by omega) (by simp), Py.ok_bind,
      trimLoop_hang (by omega) (by simp) (by omega)]
    rfl

/-- C07: the full claim is false. -/
theorem C07_full_claim_false :
    ¬ ∀ h w b : Nat, 1 ≤ b → ∃ h' w' : Nat, trimToMatch2xBinning h w b = .ok ((h' : Int), (w' : Int)) ∧
      IsLargestMultiple (2 * b) h h' ∧ IsLargestMultiple (2 * b) w w' := by
  intro hc
  obtain ⟨h', w', e, _⟩ := hc 5 4 2 (by decide)
  rw [C07_hangs_on_odd 5 4 2 (by decide) (by decide)] at e
  cases e

section
variable {K : Type} [AddCommMonoid K]

/-- C08: plain rebinning of any image by any `b ≥ 1` succeeds (so it never reads out of bounds) and bins. -/
theorem C08_rebin (d : Img K) (b : Nat) (hb : 1 ≤ b) :
    ∃ r, imageRebinData d b = .ok r ∧ IsBinningOf d r b := by
  unfold imageRebinData
  rw [if_neg (by omega), standardRebin_ok d b hb]
  refine ⟨_, rfl, rfl, rfl, ?_⟩
  intro Y X hY hX
  rw [Img.ofFn_px (by exact hY) (by exact hX)]
  unfold blockSum
  simp

theorem sum_range_blocks {M : Type} [AddCommMonoid M] (m b : Nat) (f : Nat → M) :
    ∑ Y ∈ range m, ∑ u ∈ range b, f (b * Y + u) = ∑ y ∈ range (b * m), f y := by
  induction m with
  | zero => simp
  | succ m ih => rw [sum_range_succ, ih, Nat.mul_succ, sum_range_add]

/-- C08: the total of the binned image is the total of the trimmed source. -/
theorem C08_flux (d r : Img K) (b : Nat) (h : IsBinningOf d r b) :
    r.total = d.totalOn (b * (d.h / b)) (b * (d.w / b)) := by
  obtain ⟨hh, hw, hp⟩ := h
  unfold Img.total Img.totalOn
  rw [← sum_range_blocks, hh, hw]
  refine sum_congr rfl ?_
  intro Y hY
  have e : ∀ X ∈ range (d.w / b), r.px Y X
      = ∑ u ∈ range b, ∑ v ∈ range b, d.px (b * Y + u) (b * X + v) := by
    intro X hX
    exact hp Y X (by rw [hh]; exact mem_range.1 hY) (by rw [hw]; exact mem_range.1 hX)
  rw [sum_congr rfl e, sum_comm]
  refine sum_congr rfl ?_
  intro u _
  exact sum_range_blocks _ _ (fun x => d.px (b * Y + u) x)

/-- C08: when `b` divides both sides the whole flux is conserved. -/
theorem C08_flux_exact (d r : Img K) (b : Nat) (hdh : b ∣ d.h) (hdw : b ∣ d.w) (h : IsBinningOf d r b) :
    r.total = d.total := by
  rw [C08_flux d r b h, Nat.mul_div_cancel' hdh, Nat.mul_div_cancel' hdw]
  rfl

/-- C09: superpixel rebinning of any even image by any `b ≥ 1` succeeds; each family of the result is the plain
binning of the same family of the source. -/
theorem C09_rebin_families (d : Img K) (b : Nat) (hb : 1 ≤ b) (hh : d.h % 2 = 0) (hw : d.w % 2 = 0) :
    ∃ r s s', micropolRebinData d b = .ok r ∧ splitPolarizations d = .ok s ∧ splitPolarizations r = .ok s' ∧
      r.h = 2 * (d.h / (2 * b)) ∧ r.w = 2 * (d.w / (2 * b)) ∧
      ∀ k, IsBinningOf (s k) (s' k) b := by
  unfold micropolRebinData
  rw [if_neg (by omega), micropolarrayRebin_ok d b hb hh hw]
  refine ⟨_, _, _, rfl, split_ok hh hw, split_ok (by simp) (by simp), rfl, rfl, ?_⟩
  have hq : ∀ n : Nat, 2 * (n / (2 * b)) / 2 = n / 2 / b := by
    intro n
    rw [Nat.div_div_eq_div_mul]
    omega
  intro k
  have hk := k.isLt
  refine ⟨by simp only [Img.ofFn_h, hq], by simp only [Img.ofFn_w, hq], ?_⟩
  intro Y X hY hX
  simp only [Img.ofFn_h, Img.ofFn_w] at hY hX
  rw [Img.ofFn_px (by exact hY) (by exact hX), Img.ofFn_px (by omega) (by omega)]
  unfold blockSum
  have g : ∀ (n N u : Nat), N < 2 * (n / (2 * b)) / 2 → u < b → b * N + u < n / 2 := by
    intro n N u hN hu
    rw [hq] at hN
    calc b * N + u < b * N + b := by omega
      _ = (N + 1) * b := by ring
      _ ≤ n / 2 / b * b := Nat.mul_le_mul_right b (by omega)
      _ ≤ n / 2 := Nat.div_mul_le_self _ _
  refine sum_congr rfl (fun u hu => sum_congr rfl (fun v hv => ?_))
  rw [Img.ofFn_px (g _ _ _ hY (mem_range.1 hu)) (g _ _ _ hX (mem_range.1 hv))]
  have e : ∀ (Z q t : Nat), q < 2 → 2 * b * ((2 * Z + q) / 2) + (2 * Z + q) % 2 + t * 2 = 2 * (b * Z + t) + q := by
    intro Z q t hq2
    have h1 : (2 * Z + q) / 2 = Z := by omega
    have h2 : (2 * Z + q) % 2 = q := by omega
    rw [h1, h2]; ring
  rw [e Y (k.val / 2) u (by omega), e X (k.val % 2) v (by omega)]

/-- C09: flux is conserved family by family (over the trimmed area). -/
theorem C09_flux (d r : Img K) (s s' : Fin 4 → Img K) (b : Nat) (hb : 1 ≤ b)
    (hr : micropolRebinData d b = .ok r) (hs : splitPolarizations d = .ok s)
    (hs' : splitPolarizations r = .ok s') (k : Fin 4) :
    (s' k).total = (s k).totalOn (b * ((d.h / 2) / b)) (b * ((d.w / 2) / b)) := by
  obtain ⟨he, he'⟩ := split_even hs
  obtain ⟨r₁, s₁, s₁', e1, e2, e3, -, -, hbin⟩ := C09_rebin_families d b hb he he'
  rw [hr] at e1; injection e1 with e1; subst e1
  rw [hs] at e2; injection e2 with e2; subst e2
  rw [hs'] at e3; injection e3 with e3; subst e3
  rw [C08_flux _ _ _ (hbin k)]
  rw [split_ok he he'] at hs; injection hs with hs; subst hs
  rfl

/-- C11: non-positive binnings are rejected by both classes. -/
theorem C11_rejects (d : Img K) (b : Int) (hb : b ≤ 0) :
    imageRebinData d b = .error .valueError ∧ micropolRebinData d b = .error .valueError := by
  unfold imageRebinData micropolRebinData
  rw [if_pos hb, if_pos hb]
  exact ⟨rfl, rfl⟩

/-- C11: binning 1 is the identity. -/
theorem C11_one (d : Img K) : imageRebinData d 1 = .ok d ∧
    (d.h % 2 = 0 → d.w % 2 = 0 → micropolRebinData d 1 = .ok d) := by
  constructor
  · obtain ⟨r, e, h1, h2, h3⟩ := C08_rebin d 1 (le_refl _)
    rw [show ((1 : Nat) : Int) = 1 from rfl] at e
    rw [e]
    congr 1
    refine Img.ext_px (by simp [h1]) (by simp [h2]) ?_
    intro y x hy hx
    rw [h3 y x hy hx]
    simp
  · intro hh hw
    unfold micropolRebinData
    rw [if_neg (by omega)]
    have := micropolarrayRebin_ok d 1 (by decide) hh hw
    rw [show ((1 : Nat) : Int) = 1 from rfl] at this
    rw [this]
    congr 1
    refine Img.ext_px (by simp only [Img.ofFn_h]; omega) (by simp only [Img.ofFn_w]; omega) ?_
    intro y x hy hx
    rw [Img.ofFn_px (by exact hy) (by exact hx)]
    unfold blockSum
    simp only [range_one, sum_singleton, Nat.zero_mul, Nat.add_zero, Nat.mul_one]
    congr 1 <;> omega

/-- C11: every valid image can be rebinned with every `b ≥ 1` and the result is again valid (even sides). -/
theorem C11_total (d : Img K) (b : Int) (hb : 1 ≤ b) :
    (∃ r, imageRebinData d b = .ok r) ∧
    (d.h % 2 = 0 → d.w % 2 = 0 → ∃ r, micropolRebinData d b = .ok r ∧ r.h % 2 = 0 ∧ r.w % 2 = 0) := by
  obtain ⟨n, rfl⟩ : ∃ n : Nat, b = n := ⟨b.toNat, by omega⟩
  constructor
  · obtain ⟨r, e, _⟩ := C08_rebin d n (by omega)
    exact ⟨r, e⟩
  · intro hh hw
    obtain ⟨r, s, s', e, _, _, h1, h2, _⟩ := C09_rebin_families d n (by omega) hh hw
    exact ⟨r, e, by omega, by omega⟩

/-- C12: plain binnings compose, also when trimming occurs. -/
theorem C12_rebin_rebin (d : Img K) (a b : Nat) (ha : 1 ≤ a) (hb : 1 ≤ b) :
    (imageRebinData d a >>= fun r => imageRebinData r b) = imageRebinData d ((a * b : Nat) : Int) := by
  unfold imageRebinData
  rw [if_neg (by omega), standardRebin_ok d a ha, Py.ok_bind, if_neg (by omega), standardRebin_ok _ b hb,
    if_neg (by have := Nat.mul_pos ha hb; omega), standardRebin_ok d (a * b) (Nat.mul_pos ha hb)]
  congr 1
  refine Img.ext_px (by simp [Nat.div_div_eq_div_mul]) (by simp [Nat.div_div_eq_div_mul]) ?_
  intro Y X hY hX
  simp only [Img.ofFn_h, Img.ofFn_w] at hY hX
  have hY' : Y < d.h / (a * b) := by rwa [Nat.div_div_eq_div_mul] at hY
  have hX' : X < d.w / (a * b) := by rwa [Nat.div_div_eq_div_mul] at hX
  rw [Img.ofFn_px (by exact hY) (by exact hX), Img.ofFn_px (by exact hY') (by exact hX')]
  unfold blockSum
  have g : ∀ (n N u : Nat), N < n / a / b → u < b → b * N + u * 1 < n / a := by
    intro n N u hN hu
    calc b * N + u * 1 < b * N + b := by omega
      _ = (N + 1) * b := by ring
      _ ≤ n / a / b * b := Nat.mul_le_mul_right b (by omega)
      _ ≤ n / a := Nat.div_mul_le_self _ _
  have e : ∀ u ∈ range b, ∀ v ∈ range b,
      (Img.ofFn (d.h / a) (d.w / a) (fun Y X => ∑ u ∈ range a, ∑ v ∈ range a,
        d.px (a * Y + u * 1) (a * X + v * 1))).px (b * Y + u * 1) (b * X + v * 1)
      = ∑ u' ∈ range a, ∑ v' ∈ range a, d.px (a * b * Y + (a * u + u')) (a * b * X + (a * v + v')) := by
    intro u hu v hv
    rw [Img.ofFn_px (g _ _ _ hY (mem_range.1 hu)) (g _ _ _ hX (mem_range.1 hv))]
    refine sum_congr rfl (fun u' _ => sum_congr rfl (fun v' _ => ?_))
    congr 1 <;> ring
  rw [sum_congr rfl (fun u hu => sum_congr rfl (fun v hv => e u hu v hv))]
  have s1 := sum_range_blocks b a
    (fun U => ∑ V ∈ range (a * b), d.px (a * b * Y + U) (a * b * X + V))
  simp only [Nat.mul_one]
  rw [← s1]
  refine sum_congr rfl (fun u _ => ?_)
  rw [sum_comm]
  refine sum_congr rfl (fun u' _ => ?_)
  exact sum_range_blocks b a (fun V => d.px (a * b * Y + (a * u + u')) (a * b * X + V))

/-- C12: superpixel binnings compose, also when trimming occurs. -/
theorem C12_rebin_rebin_micropol (d : Img K) (a b : Nat) (ha : 1 ≤ a) (hb : 1 ≤ b)
    (hh : d.h % 2 = 0) (hw : d.w % 2 = 0) :
    (micropolRebinData d a >>= fun r => micropolRebinData r b) = micropolRebinData d ((a * b : Nat) : Int) := by
  unfold micropolRebinData
  have hab := Nat.mul_pos ha hb
  rw [if_neg (by omega), micropolarrayRebin_ok d a ha hh hw, Py.ok_bind, if_neg (by omega),
    micropolarrayRebin_ok _ b hb (by simp) (by simp),
    if_neg (by omega), micropolarrayRebin_ok d (a * b) hab hh hw]
  have hq : ∀ n : Nat, 2 * (n / (2 * a)) / (2 * b) = n / (2 * (a * b)) := by
    intro n
    rw [Nat.mul_div_mul_left _ _ (by decide), Nat.div_div_eq_div_mul, Nat.mul_assoc]
  congr 1
  refine Img.ext_px (by simp only [Img.ofFn_h, hq]) (by simp only [Img.ofFn_w, hq]) ?_
  intro Y X hY hX
  simp only [Img.ofFn_h, Img.ofFn_w, hq] at hY hX
  rw [Img.ofFn_px (by simp only [Img.ofFn_h, hq]; exact hY) (by simp only [Img.ofFn_w, hq]; exact hX),
    Img.ofFn_px (by exact hY) (by exact hX)]
  unfold blockSum
  have g : ∀ (n N u : Nat), N < 2 * (n / (2 * (a * b))) → u < b →
      2 * b * (N / 2) + N % 2 + u * 2 < 2 * (n / (2 * a)) := by
    intro n N u hN hu
    have hN2 : N / 2 < n / (2 * (a * b)) := by omega
    have h3 : b * (N / 2) + u < n / (2 * a) := by
      calc b * (N / 2) + u < b * (N / 2) + b := by omega
        _ = (N / 2 + 1) * b := by ring
        _ ≤ n / (2 * (a * b)) * b := Nat.mul_le_mul_right b (by omega)
        _ = n / (2 * a) / b * b := by rw [Nat.div_div_eq_div_mul, Nat.mul_assoc]
        _ ≤ n / (2 * a) := Nat.div_mul_le_self _ _
    have h4 : 2 * b * (N / 2) = 2 * (b * (N / 2)) := by ring
    omega
  have z : ∀ (N u u' : Nat), 2 * a * ((2 * b * (N / 2) + N % 2 + u * 2) / 2)
      + (2 * b * (N / 2) + N % 2 + u * 2) % 2 + u' * 2
      = 2 * (a * b) * (N / 2) + N % 2 + (a * u + u') * 2 := by
    intro N u u'
    have h4 : 2 * b * (N / 2) = 2 * (b * (N / 2)) := by ring
    have h5 : (2 * b * (N / 2) + N % 2 + u * 2) / 2 = b * (N / 2) + u := by omega
    have h6 : (2 * b * (N / 2) + N % 2 + u * 2) % 2 = N % 2 := by omega
    rw [h5, h6]; ring
  have e : ∀ u ∈ range b, ∀ v ∈ range b,
      (Img.ofFn (2 * (d.h / (2 * a))) (2 * (d.w / (2 * a))) (fun Y X => ∑ u ∈ range a, ∑ v ∈ range a,
        d.px (2 * a * (Y / 2) + Y % 2 + u * 2) (2 * a * (X / 2) + X % 2 + v * 2))).px
          (2 * b * (Y / 2) + Y % 2 + u * 2) (2 * b * (X / 2) + X % 2 + v * 2)
      = ∑ u' ∈ range a, ∑ v' ∈ range a, d.px (2 * (a * b) * (Y / 2) + Y % 2 + (a * u + u') * 2)
          (2 * (a * b) * (X / 2) + X % 2 + (a * v + v') * 2) := by
    intro u hu v hv
    rw [Img.ofFn_px (g _ _ _ hY (mem_range.1 hu)) (g _ _ _ hX (mem_range.1 hv))]
    refine sum_congr rfl (fun u' _ => sum_congr rfl (fun v' _ => ?_))
    rw [z, z]
  rw [sum_congr rfl (fun u hu => sum_congr rfl (fun v hv => e u hu v hv))]
  have s1 := sum_range_blocks b a
    (fun U => ∑ V ∈ range (a * b), d.px (2 * (a * b) * (Y / 2) + Y % 2 + U * 2)
      (2 * (a * b) * (X / 2) + X % 2 + V * 2))
  rw [← s1]
  refine sum_congr rfl (fun u _ => ?_)
  rw [sum_comm]
  refine sum_congr rfl (fun u' _ => ?_)
  exact sum_range_blocks b a (fun V => d.px (2 * (a * b) * (Y / 2) + Y % 2 + (a * u + u') * 2)
      (2 * (a * b) * (X / 2) + X % 2 + V * 2))

end

/-! Non-vacuity: concrete sizes with trimming. -/

def exRebin : Img Int := Img.ofFn 6 10 (fun y x => 10 * y + x)

example : ∃ r, imageRebinData exRebin 4 = .ok r ∧ r.h = 1 ∧ r.w = 2 ∧ r.px 0 1 = 328 := by
  obtain ⟨r, e, h1, h2, h3⟩ := C08_rebin exRebin 4 (by decide)
  refine ⟨r, e, h1, h2, ?_⟩
  rw [h3 0 1 (by rw [h1]; decide) (by rw [h2]; decide)]
  decide
example : exRebin.h % 2 = 0 ∧ exRebin.w % 2 = 0 ∧ 1 ≤ 2 := by decide
example : IsLargestMultiple 4 10 8 := isLargestMultiple_div 4 10 (by decide)

end Micropol
