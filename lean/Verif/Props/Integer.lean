import Verif.Spec.Integer
import Verif.Spec.Roi
import Verif.Lemmas.NumPy
import Verif.Lemmas.Roi
import Verif.Props.Corrections
import Mathlib.Data.Int.ModEq
import Mathlib.Algebra.BigOperators.Group.List.Basic
import Mathlib.Data.Int.Cast.Lemmas
import Mathlib.Algebra.Order.Ring.Cast
import Mathlib.Tactic.Linarith
import Mathlib.Tactic.Ring
import Mathlib.Tactic.NormNum
import Mathlib.Tactic.IntervalCases

/-!
# C88: images of integers
-/

set_option autoImplicit false

namespace Micropol

/-! ## The arithmetic of one integer type -/

theorem pow_split {n : Nat} (h : 0 < n) : (2 : Int) ^ n = 2 ^ (n - 1) + 2 ^ (n - 1) := by
  obtain ⟨m, rfl⟩ : ∃ m, n = m + 1 := ⟨n - 1, by omega⟩
  rw [Nat.add_sub_cancel, pow_succ]
  ring

theorem holds_iff {t : IntType} (ht : 0 < t.bits) (v : Int) : t.Holds v ↔ t.lo ≤ v ∧ v < t.lo + 2 ^ t.bits := by
  unfold IntType.Holds IntType.lo
  have := pow_split ht
  split <;> constructor <;> rintro ⟨h1, h2⟩ <;> constructor <;> linarith

theorem wrap_holds {t : IntType} (ht : 0 < t.bits) (v : Int) : t.Holds (t.wrap v) := by
  rw [holds_iff ht]
  unfold IntType.wrap
  have h2 : (0 : Int) < 2 ^ t.bits := by positivity
  have h3 := Int.emod_nonneg (v - t.lo) h2.ne'
  have h4 := Int.emod_lt_of_pos (v - t.lo) h2
  constructor <;> linarith

theorem wrap_mod (t : IntType) (v : Int) : t.wrap v ≡ v [ZMOD 2 ^ t.bits] := by
  unfold IntType.wrap
  have : (v - t.lo) % 2 ^ t.bits + t.lo ≡ (v - t.lo) + t.lo [ZMOD 2 ^ t.bits] :=
    Int.ModEq.add_right _ (Int.mod_modEq _ _)
  simpa using this

theorem wrap_of_holds {t : IntType} (ht : 0 < t.bits) {v : Int} (h : t.Holds v) : t.wrap v = v := by
  rw [holds_iff ht] at h
  unfold IntType.wrap
  rw [Int.emod_eq_of_lt (by linarith [h.1]) (by linarith [h.2])]
  ring

theorem wrap_eq_iff {t : IntType} (ht : 0 < t.bits) (v : Int) : t.wrap v = v ↔ t.Holds v :=
  ⟨fun h => h ▸ wrap_holds ht v, wrap_of_holds ht⟩

/-- Two numbers of the type that agree modulo `2 ^ bits` are equal. -/
theorem holds_unique {t : IntType} (ht : 0 < t.bits) {a b : Int} (ha : t.Holds a) (hb : t.Holds b)
    (h : a ≡ b [ZMOD 2 ^ t.bits]) : a = b := by
  have e : t.wrap a = t.wrap b := by
    unfold IntType.wrap
    have := Int.ModEq.sub_right t.lo h
    rw [this]
  rwa [wrap_of_holds ht ha, wrap_of_holds ht hb] at e

/-! ## C88: sums, differences and products -/

/-- C88: the sum of two images of one integer type is again of that type; each pixel is the exact sum up to a multiple
of `2 ^ bits`, and is the exact sum exactly when the type holds the exact sum. -/
theorem C88_add (t : IntType) (ht : 0 < t.bits) (A B : Img Int) (hs : A.SameShape B) :
    ∃ r, addInt t A B = .ok r ∧ r.SameShape A ∧ r.OfType t ∧ ∀ y x, y < A.h → x < A.w →
      r.px y x ≡ A.px y x + B.px y x [ZMOD 2 ^ t.bits] ∧
      (r.px y x = A.px y x + B.px y x ↔ t.Holds (A.px y x + B.px y x)) := by
  refine ⟨_, npBin_ok hs.1 hs.2, ⟨rfl, rfl⟩, ?_, ?_⟩
  · intro y x (hy : y < A.h) (hx : x < A.w)
    rw [Img.ofFn_px hy hx]
    exact wrap_holds ht _
  · intro y x hy hx
    rw [Img.ofFn_px hy hx]
    exact ⟨wrap_mod t _, wrap_eq_iff ht _⟩

/-- C88: the same for the difference. -/
theorem C88_sub (t : IntType) (ht : 0 < t.bits) (A B : Img Int) (hs : A.SameShape B) :
    ∃ r, subInt t A B = .ok r ∧ r.SameShape A ∧ r.OfType t ∧ ∀ y x, y < A.h → x < A.w →
      r.px y x ≡ A.px y x - B.px y x [ZMOD 2 ^ t.bits] ∧
      (r.px y x = A.px y x - B.px y x ↔ t.Holds (A.px y x - B.px y x)) := by
  refine ⟨_, npBin_ok hs.1 hs.2, ⟨rfl, rfl⟩, ?_, ?_⟩
  · intro y x (hy : y < A.h) (hx : x < A.w)
    rw [Img.ofFn_px hy hx]
    exact wrap_holds ht _
  · intro y x hy hx
    rw [Img.ofFn_px hy hx]
    exact ⟨wrap_mod t _, wrap_eq_iff ht _⟩

/-- C88: the same for the product. -/
theorem C88_mul (t : IntType) (ht : 0 < t.bits) (A B : Img Int) (hs : A.SameShape B) :
    ∃ r, mulInt t A B = .ok r ∧ r.SameShape A ∧ r.OfType t ∧ ∀ y x, y < A.h → x < A.w →
      r.px y x ≡ A.px y x * B.px y x [ZMOD 2 ^ t.bits] ∧
      (r.px y x = A.px y x * B.px y x ↔ t.Holds (A.px y x * B.px y x)) := by
  refine ⟨_, npBin_ok hs.1 hs.2, ⟨rfl, rfl⟩, ?_, ?_⟩
  · intro y x (hy : y < A.h) (hx : x < A.w)
    rw [Img.ofFn_px hy hx]
    exact wrap_holds ht _
  · intro y x hy hx
    rw [Img.ofFn_px hy hx]
    exact ⟨wrap_mod t _, wrap_eq_iff ht _⟩

/-- C88: adding back what was subtracted restores the image, whatever overflowed in between. -/
theorem C88_sub_then_add (t : IntType) (ht : 0 < t.bits) (A B : Img Int) (hs : A.SameShape B) (hA : A.OfType t) :
    ∃ d, subInt t A B = .ok d ∧ addInt t d B = .ok A := by
  obtain ⟨d, e, hd, hdt, hdp⟩ := C88_sub t ht A B hs
  obtain ⟨r, e', hr, hrt, hrp⟩ := C88_add t ht d B ⟨hd.1.trans hs.1, hd.2.trans hs.2⟩
  refine ⟨d, e, e'.trans (congrArg _ (Img.ext_px (hr.1.trans hd.1) (hr.2.trans hd.2) ?_))⟩
  intro y x hy hx
  have hy' : y < d.h := hr.1 ▸ hy
  have hx' : x < d.w := hr.2 ▸ hx
  have hy'' : y < A.h := hd.1 ▸ hy'
  have hx'' : x < A.w := hd.2 ▸ hx'
  refine holds_unique ht (hrt y x hy hx) (hA y x hy'' hx'') ?_
  have h1 := (hrp y x hy' hx').1
  have h2 := ((hdp y x hy'' hx'').1).add_right (B.px y x)
  refine h1.trans (h2.trans ?_)
  rw [sub_add_cancel]

/-- C88: a sum of any number of images of one integer type: each pixel is the exact sum up to a multiple of
`2 ^ bits`, and it is the exact sum as soon as the type holds it, even if a partial sum overflowed. -/
theorem C88_sum (t : IntType) (ht : 0 < t.bits) (first : Img Int) (rest : List (Img Int)) (hf : first.OfType t)
    (hs : ∀ B ∈ rest, first.SameShape B) :
    ∃ r, sumInt t first rest = .ok r ∧ r.SameShape first ∧ r.OfType t ∧ ∀ y x, y < first.h → x < first.w →
      r.px y x ≡ first.px y x + (rest.map (fun B => B.px y x)).sum [ZMOD 2 ^ t.bits] ∧
      (t.Holds (first.px y x + (rest.map (fun B => B.px y x)).sum) →
        r.px y x = first.px y x + (rest.map (fun B => B.px y x)).sum) := by
  suffices h : ∃ r, sumInt t first rest = .ok r ∧ r.SameShape first ∧ r.OfType t ∧ ∀ y x, y < first.h → x < first.w →
      r.px y x ≡ first.px y x + (rest.map (fun B => B.px y x)).sum [ZMOD 2 ^ t.bits] by
    obtain ⟨r, e, hr, hrt, hp⟩ := h
    refine ⟨r, e, hr, hrt, fun y x hy hx => ⟨hp y x hy hx, fun hh => ?_⟩⟩
    exact holds_unique ht (hrt y x (by rw [hr.1]; exact hy) (by rw [hr.2]; exact hx)) hh (hp y x hy hx)
  induction rest generalizing first with
  | nil => exact ⟨first, rfl, ⟨rfl, rfl⟩, hf, fun y x _ _ => by simp⟩
  | cons B rest ih =>
    obtain ⟨a, ea, ha, hat, hap⟩ := C88_add t ht first B (hs B (by simp))
    obtain ⟨r, er, hr, hrt, hrp⟩ := ih a hat (fun C hC => by
      have := hs C (by simp [hC])
      exact ⟨ha.1.trans this.1, ha.2.trans this.2⟩)
    refine ⟨r, ?_, ⟨hr.1.trans ha.1, hr.2.trans ha.2⟩, hrt, ?_⟩
    · unfold sumInt
      rw [List.foldlM_cons, ea]
      exact er
    · intro y x hy hx
      have h1 := hrp y x (by rw [ha.1]; exact hy) (by rw [ha.2]; exact hx)
      have h2 := ((hap y x hy hx).1).add_right ((rest.map (fun B => B.px y x)).sum)
      refine h1.trans (h2.trans ?_)
      rw [List.map_cons, List.sum_cons, add_assoc]

/-- C88: images of non-negative counts below `M` add up exactly while their number times `M` stays in the type. -/
theorem C88_sum_of_counts (t : IntType) (ht : 0 < t.bits) (first : Img Int) (rest : List (Img Int)) (M : Int)
    (hf : first.OfType t) (hs : ∀ B ∈ rest, first.SameShape B)
    (hM : ∀ B ∈ first :: rest, ∀ y x, 0 ≤ B.px y x ∧ B.px y x ≤ M) (hfit : t.Holds ((rest.length + 1) * M)) :
    ∃ r, sumInt t first rest = .ok r ∧ ∀ y x, y < first.h → x < first.w →
      r.px y x = ((first :: rest).map (fun B => B.px y x)).sum := by
  obtain ⟨r, e, -, -, hp⟩ := C88_sum t ht first rest hf hs
  refine ⟨r, e, fun y x hy hx => ?_⟩
  rw [List.map_cons, List.sum_cons]
  refine (hp y x hy hx).2 ?_
  have key : ∀ l : List (Img Int), (∀ B ∈ l, ∀ y x, 0 ≤ B.px y x ∧ B.px y x ≤ M) →
      0 ≤ (l.map (fun B => B.px y x)).sum ∧ (l.map (fun B => B.px y x)).sum ≤ l.length * M := by
    intro l
    induction l with
    | nil => intro _; simp
    | cons B l ih =>
      intro h
      obtain ⟨i1, i2⟩ := ih (fun C hC => h C (by simp [hC]))
      obtain ⟨b1, b2⟩ := h B (by simp) y x
      rw [List.map_cons, List.sum_cons, List.length_cons]
      push_cast
      constructor <;> nlinarith
  obtain ⟨k1, k2⟩ := key (first :: rest) hM
  rw [List.map_cons, List.sum_cons] at k1 k2
  rw [List.length_cons] at k2
  push_cast at k2
  rw [holds_iff ht] at hfit ⊢
  have hlo : t.lo ≤ 0 := by
    unfold IntType.lo
    split
    · exact neg_nonpos.mpr (by positivity)
    · exact le_refl 0
  exact ⟨hlo.trans k1, lt_of_le_of_lt k2 hfit.2⟩

/-! ## C88: the dark -/

/-- C88 (part): where the integer type holds the difference, `subtract_dark` gives the difference clipped at zero.
Missing: the pixels where it does not, see `C88_dark_unsigned`. -/
theorem C88_dark_partial (t : IntType) (ht : 0 < t.bits) (data dark : Img Int) (hs : data.SameShape dark) :
    ∃ r, subtractDarkInt t data dark = .ok r ∧ r.SameShape data ∧ ∀ y x, y < data.h → x < data.w →
      t.Holds (data.px y x - dark.px y x) → r.px y x = max (data.px y x - dark.px y x) 0 := by
  unfold subtractDarkInt
  rw [npBin_ok hs.1 hs.2, Py.ok_bind]
  refine ⟨_, rfl, ⟨rfl, rfl⟩, ?_⟩
  intro y x hy hx hh
  rw [Img.map_px _ _ (by exact hy) (by exact hx), Img.ofFn_px hy hx, wrap_of_holds ht hh]
  split
  · rename_i h; rw [max_eq_left h]
  · rename_i h; rw [max_eq_right (by omega)]

/-- C88: with a type with sign and non-negative counts the correction is the one of floats. -/
theorem C88_dark_signed (t : IntType) (ht : 0 < t.bits) (hsg : t.signed = true) (data dark : Img Int)
    (hs : data.SameShape dark) (h1 : data.OfType t) (h2 : dark.OfType t)
    (p1 : ∀ y x, 0 ≤ data.px y x) (p2 : ∀ y x, 0 ≤ dark.px y x) :
    ∃ r, subtractDarkInt t data dark = .ok r ∧ r.SameShape data ∧ ∀ y x, y < data.h → x < data.w →
      r.px y x = max (data.px y x - dark.px y x) 0 := by
  obtain ⟨r, e, hr, hp⟩ := C88_dark_partial t ht data dark hs
  refine ⟨r, e, hr, fun y x hy hx => hp y x hy hx ?_⟩
  have a := h1 y x hy hx
  have b := h2 y x (hs.1 ▸ hy) (hs.2 ▸ hx)
  have c := p1 y x
  have d := p2 y x
  unfold IntType.Holds at *
  rw [if_pos hsg] at *
  constructor <;> linarith [a.1, a.2, b.1, b.2]

/-- C88: without sign, a pixel below the dark is not set to zero: it becomes the difference plus `2 ^ bits`, which is
more than the pixel was before the dark was subtracted. -/
theorem C88_dark_unsigned (t : IntType) (ht : 0 < t.bits) (hsg : t.signed = false) (data dark : Img Int)
    (hs : data.SameShape dark) (h1 : data.OfType t) (h2 : dark.OfType t) :
    ∃ r, subtractDarkInt t data dark = .ok r ∧ r.SameShape data ∧ ∀ y x, y < data.h → x < data.w →
      (dark.px y x ≤ data.px y x → r.px y x = data.px y x - dark.px y x) ∧
      (data.px y x < dark.px y x →
        r.px y x = data.px y x - dark.px y x + 2 ^ t.bits ∧ data.px y x < r.px y x) := by
  unfold subtractDarkInt
  rw [npBin_ok hs.1 hs.2, Py.ok_bind]
  refine ⟨_, rfl, ⟨rfl, rfl⟩, ?_⟩
  intro y x hy hx
  rw [Img.map_px _ _ (by exact hy) (by exact hx), Img.ofFn_px hy hx]
  have a := h1 y x hy hx
  have b := h2 y x (hs.1 ▸ hy) (hs.2 ▸ hx)
  have hH : ∀ v, t.Holds v ↔ 0 ≤ v ∧ v < 2 ^ t.bits := by
    intro v
    unfold IntType.Holds
    rw [if_neg (by simp [hsg])]
  rw [hH] at a b
  constructor
  · intro h
    rw [wrap_of_holds ht ((hH _).2 ⟨by linarith, by linarith [a.2, b.1]⟩), if_pos (by omega)]
  · intro h
    have e : t.wrap (data.px y x - dark.px y x) = data.px y x - dark.px y x + 2 ^ t.bits := by
      refine holds_unique ht (wrap_holds ht _) ((hH _).2 ⟨by linarith [a.1, b.2], by linarith⟩) ?_
      refine (wrap_mod t _).trans ?_
      exact (Int.add_modEq_right).symm
    rw [e, if_pos (by linarith [a.1, b.2])]
    exact ⟨rfl, by linarith [b.2]⟩

/-- C88: the full claim, that subtracting a dark never leaves a pixel brighter than it was, fails for the raw frames
of the camera (`uint16`). -/
theorem C88_full_claim_false :
    ∃ data dark r : Img Int, data.SameShape dark ∧ data.OfType uint16 ∧ dark.OfType uint16 ∧
      subtractDarkInt uint16 data dark = .ok r ∧ data.px 0 0 = 99 ∧ dark.px 0 0 = 100 ∧ r.px 0 0 = 65535 := by
  have h1 : (Img.const 2 2 (99 : Int)).OfType uint16 := by
    intro y x hy hx
    rw [show (Img.const 2 2 (99 : Int)).px y x = 99 from Img.ofFn_px hy hx]
    unfold IntType.Holds uint16
    norm_num
  have h2 : (Img.const 2 2 (100 : Int)).OfType uint16 := by
    intro y x hy hx
    rw [show (Img.const 2 2 (100 : Int)).px y x = 100 from Img.ofFn_px hy hx]
    unfold IntType.Holds uint16
    norm_num
  obtain ⟨r, e, -, hp⟩ := C88_dark_unsigned uint16 (by decide) rfl (Img.const 2 2 99) (Img.const 2 2 100) ⟨rfl, rfl⟩
    h1 h2
  have h3 := ((hp 0 0 (by decide) (by decide)).2 (by decide)).1
  exact ⟨Img.const 2 2 99, Img.const 2 2 100, r, ⟨rfl, rfl⟩, h1, h2, e, rfl, rfl, h3.trans (by decide)⟩

section
variable {K : Type} [Field K] [LinearOrder K] [IsStrictOrderedRing K]

/-- C88: where the integer type holds all the differences, the dark correction of integers is the one of the same
images taken as floats. -/
theorem C88_dark_as_float (t : IntType) (ht : 0 < t.bits) (data dark : Img Int) (hs : data.SameShape dark)
    (hd : ∀ y x, y < data.h → x < data.w → t.Holds (data.px y x - dark.px y x)) :
    ∃ r, subtractDarkInt t data dark = .ok r ∧
      subtractDarkData (data.map (fun v : Int => (v : K))) (dark.map (fun v : Int => (v : K))) = .ok (r.map (fun v : Int => (v : K))) := by
  obtain ⟨r, e, hr, hp⟩ := C88_dark_partial t ht data dark hs
  obtain ⟨q, e', hq, hqp⟩ := C35_dark (K := K) (data.map (fun v : Int => (v : K))) (dark.map (fun v : Int => (v : K))) hs
  refine ⟨r, e, e'.trans (congrArg _ (Img.ext_px (hq.1.trans hr.1.symm) (hq.2.trans hr.2.symm) ?_))⟩
  intro y x hy hx
  have hy' : y < data.h := hq.1 ▸ hy
  have hx' : x < data.w := hq.2 ▸ hx
  rw [hqp y x hy' hx', Img.map_px _ _ hy' hx', Img.map_px _ _ (hs.1 ▸ hy') (hs.2 ▸ hx'),
    Img.map_px _ _ (by rw [hr.1]; exact hy') (by rw [hr.2]; exact hx'), hp y x hy' hx' (hd y x hy' hx')]
  push_cast
  rfl

end

/-! ## C88: the Chen-Wang-Liang calibration -/

section
variable {K : Type} [Field K] [LinearOrder K] [IsStrictOrderedRing K]

/-- C88: on integer data the Chen-Wang-Liang calibration converts each corrected pixel to an integer before the IFOV
correction. -/
theorem C88_chen (toInt : K → Int) (C : Fin 4 → Fin 4 → Img K) (dij : Img K) (data : Img Int) (hh : data.h % 2 = 0)
    (hw : data.w % 2 = 0) (hC : ∀ i j, (C i j).SameShape data) (hd : data.SameShape dij) :
    ∃ m : Img K, m.SameShape data ∧ chenWanLiangInt toInt C dij data = correctIfovData m ∧
      ∀ Y X (i : Fin 4), Y < data.h / 2 → X < data.w / 2 →
        m.px (2 * Y + i.val / 2) (2 * X + i.val % 2) = (toInt (∑ j : Fin 4, (C i j).px (2 * Y) (2 * X) *
          ((data.px (2 * Y + j.val / 2) (2 * X + j.val % 2) : K) - dij.px (2 * Y + j.val / 2) (2 * X + j.val % 2))) : K) := by
  obtain ⟨m, hs, e, h⟩ := chenStored_apply (fun v : K => ((toInt v : Int) : K)) C dij (data.map (fun v : Int => (v : K))) hh hw hC hd
  refine ⟨m, hs, e, fun Y X i hY hX => (h Y X i hY hX).trans ?_⟩
  have : ∀ j : Fin 4, (data.map (fun v : Int => (v : K))).superpixel Y X j
      = (data.px (2 * Y + j.val / 2) (2 * X + j.val % 2) : K) := by
    intro j
    have := j.isLt
    exact Img.map_px _ _ (by omega) (by omega)
  simp only [this]
  rfl

/-- C88 (part): if every corrected value is a number of the type, nothing is lost: the result is the one of the same data taken
as floats.  Missing: other values, see `C88_chen_full_claim_false`. -/
theorem C88_chen_partial (t : IntType) (toInt : K → Int) (hint : ∀ n : Int, t.Holds n → toInt (n : K) = n) (C : Fin 4 → Fin 4 → Img K)
    (dij : Img K) (data : Img Int) (hh : data.h % 2 = 0)
    (hw : data.w % 2 = 0) (hC : ∀ i j, (C i j).SameShape data) (hd : data.SameShape dij)
    (hv : ∀ Y X (i : Fin 4), Y < data.h / 2 → X < data.w / 2 → ∃ n : Int, t.Holds n ∧ (n : K) =
      ∑ j : Fin 4, (C i j).px (2 * Y) (2 * X) *
        ((data.px (2 * Y + j.val / 2) (2 * X + j.val % 2) : K) - dij.px (2 * Y + j.val / 2) (2 * X + j.val % 2))) :
    chenWanLiangInt toInt C dij data = chenWanLiang C dij (data.map (fun v : Int => (v : K))) := by
  obtain ⟨m, hs, e, h⟩ := C88_chen toInt C dij data hh hw hC hd
  obtain ⟨q, hqs, eq, hq⟩ := C69_apply C dij (data.map (fun v : Int => (v : K))) hh hw hC hd
  rw [e, eq]
  congr 1
  refine Img.ext_px (hs.1.trans hqs.1.symm) (hs.2.trans hqs.2.symm) ?_
  intro y x hy hx
  rw [hs.1] at hy
  rw [hs.2] at hx
  have e1 : 2 * (y / 2) + (famIdx y x).val / 2 = y := by rw [famIdx_val_div]; omega
  have e2 : 2 * (x / 2) + (famIdx y x).val % 2 = x := by rw [famIdx_val_mod]; omega
  have h1 := h (y / 2) (x / 2) (famIdx y x) (by omega) (by omega)
  have h2 := hq (y / 2) (x / 2) (famIdx y x) (by rw [Img.map_h]; omega) (by rw [Img.map_w]; omega)
  unfold Img.superpixel at h2
  rw [e1, e2] at h1 h2
  have hm : ∀ j : Fin 4, (data.map (fun v : Int => (v : K))).px (2 * (y / 2) + j.val / 2) (2 * (x / 2) + j.val % 2)
      = (data.px (2 * (y / 2) + j.val / 2) (2 * (x / 2) + j.val % 2) : K) := by
    intro j
    have := j.isLt
    exact Img.map_px _ _ (by omega) (by omega)
  simp only [hm] at h2
  obtain ⟨n, hH, hn⟩ := hv (y / 2) (x / 2) (famIdx y x) (by omega) (by omega)
  rw [h1, h2, ← hn, hint n hH]

end

/-- C88: the full claim, that the calibration of an array does not depend on whether the array holds integers or the
same numbers as floats, fails: matrices that halve the counts turn counts of 1 into 0 instead of 1/2. -/
theorem C88_chen_full_claim_false (toInt : ℝ → Int) (htr : ∀ v : ℝ, |v| < 32768 → IsTrunc v (toInt v)) :
    ∃ (C : Fin 4 → Fin 4 → Img ℝ) (dij : Img ℝ) (data : Img Int) (r f : Img ℝ),
      data.OfType uint16 ∧ data.OfType int16 ∧ chenWanLiangInt toInt C dij data = .ok r ∧
      chenWanLiang C dij (data.map (fun v : Int => (v : ℝ))) = .ok f ∧ r.px 2 2 = 0 ∧ f.px 2 2 = 1 / 2 := by
  obtain ⟨C, hCdef⟩ : ∃ C : Fin 4 → Fin 4 → Img ℝ, C = fun i j => Img.const 4 4 (if i = j then 1 / 2 else 0) := ⟨_, rfl⟩
  obtain ⟨dij, hdij⟩ : ∃ d : Img ℝ, d = Img.const 4 4 0 := ⟨_, rfl⟩
  obtain ⟨data, hdata⟩ : ∃ d : Img Int, d = Img.const 4 4 1 := ⟨_, rfl⟩
  have hs : ∀ i j, (C i j).SameShape data := by subst hCdef hdata; exact fun _ _ => ⟨rfl, rfl⟩
  have hd : data.SameShape dij := by subst hdij hdata; exact ⟨rfl, rfl⟩
  have dh : data.h = 4 := by rw [hdata]; rfl
  have dw : data.w = 4 := by rw [hdata]; rfl
  have dpx : ∀ y x, y < 4 → x < 4 → data.px y x = 1 := by
    intro y x hy hx; rw [hdata]; exact Img.ofFn_px hy hx
  have zpx : ∀ y x, y < 4 → x < 4 → dij.px y x = 0 := by
    intro y x hy hx; rw [hdij]; exact Img.ofFn_px hy hx
  have cpx : ∀ i j y x, y < 4 → x < 4 → (C i j).px y x = if i = j then 1 / 2 else 0 := by
    intro i j y x hy hx; rw [hCdef]; exact Img.ofFn_px hy hx
  have hsum : ∀ Y X (i : Fin 4), Y < 2 → X < 2 → (∑ j : Fin 4, (C i j).px (2 * Y) (2 * X) *
      ((data.px (2 * Y + j.val / 2) (2 * X + j.val % 2) : ℝ) - dij.px (2 * Y + j.val / 2) (2 * X + j.val % 2))) = 1 / 2 := by
    intro Y X i hY hX
    have : ∀ j : Fin 4, (C i j).px (2 * Y) (2 * X) *
      ((data.px (2 * Y + j.val / 2) (2 * X + j.val % 2) : ℝ) - dij.px (2 * Y + j.val / 2) (2 * X + j.val % 2))
        = if i = j then 1 / 2 else 0 := by
      intro j
      have := j.isLt
      rw [cpx _ _ _ _ (by omega) (by omega), dpx _ _ (by omega) (by omega), zpx _ _ (by omega) (by omega)]
      split <;> norm_num
    simp only [this, Finset.sum_ite_eq, Finset.mem_univ, if_true]
  have h0 : toInt (1 / 2) = 0 := by
    refine trunc_unique (htr _ (by norm_num [abs_of_pos])) ?_
    refine ⟨by norm_num, ?_, by norm_num⟩
    norm_num [abs_of_pos]
  obtain ⟨m, hm, em, hmp⟩ := C88_chen toInt C dij data (by rw [dh]) (by rw [dw]) hs hd
  obtain ⟨q, hq, eq, hqp⟩ := C69_apply C dij (data.map (fun v : Int => (v : ℝ))) (by rw [Img.map_h, dh])
    (by rw [Img.map_w, dw]) hs hd
  have m0 : ∀ y x, y < 4 → x < 4 → m.px y x = 0 := by
    intro y x hy hx
    have e1 : 2 * (y / 2) + (famIdx y x).val / 2 = y := by rw [famIdx_val_div]; omega
    have e2 : 2 * (x / 2) + (famIdx y x).val % 2 = x := by rw [famIdx_val_mod]; omega
    have := hmp (y / 2) (x / 2) (famIdx y x) (by omega) (by omega)
    rw [e1, e2, hsum _ _ _ (by omega) (by omega), h0] at this
    rw [this, Int.cast_zero]
  have q0 : ∀ y x, y < 4 → x < 4 → q.px y x = 1 / 2 := by
    intro y x hy hx
    have e1 : 2 * (y / 2) + (famIdx y x).val / 2 = y := by rw [famIdx_val_div]; omega
    have e2 : 2 * (x / 2) + (famIdx y x).val % 2 = x := by rw [famIdx_val_mod]; omega
    have := hqp (y / 2) (x / 2) (famIdx y x) (by rw [Img.map_h, dh]; omega) (by rw [Img.map_w, dw]; omega)
    unfold Img.superpixel at this
    rw [e1, e2] at this
    rw [this, ← hsum (y / 2) (x / 2) (famIdx y x) (by omega) (by omega)]
    refine Finset.sum_congr rfl (fun j _ => ?_)
    have := j.isLt
    rw [Img.map_px _ _ (by omega) (by omega)]
  have mh : m.h = 4 := hm.1.trans dh
  have mw : m.w = 4 := hm.2.trans dw
  have qh : q.h = 4 := hq.1.trans dh
  have qw : q.w = 4 := hq.2.trans dw
  obtain ⟨r, er, -, hr⟩ := C37_ifov m (by rw [mh]) (by rw [mw])
  obtain ⟨f, ef, -, hf⟩ := C37_ifov q (by rw [qh]) (by rw [qw])
  refine ⟨C, dij, data, r, f, ?_, ?_, em.trans er, eq.trans ef, ?_, ?_⟩
  · intro y x hy hx
    rw [dpx y x (dh ▸ hy) (dw ▸ hx)]
    unfold IntType.Holds uint16
    norm_num
  · intro y x hy hx
    rw [dpx y x (dh ▸ hy) (dw ▸ hx)]
    unfold IntType.Holds int16
    norm_num
  · rw [(hr 2 2 (by omega) (by omega)).2 (by omega) (by omega), m0 _ _ (by omega) (by omega), m0 _ _ (by omega) (by omega),
      m0 _ _ (by omega) (by omega), m0 _ _ (by omega) (by omega)]
    norm_num
  · rw [(hf 2 2 (by omega) (by omega)).2 (by omega) (by omega), q0 _ _ (by omega) (by omega), q0 _ _ (by omega) (by omega),
      q0 _ _ (by omega) (by omega), q0 _ _ (by omega) (by omega)]
    norm_num

/-! Non-vacuity -/

example : ∃ toInt : ℝ → Int, ∀ v : ℝ, |v| < 32768 → IsTrunc v (toInt v) := ⟨pyInt, fun v _ => pyInt_trunc v⟩

/-- A frame and a dark of the camera, one pixel below the dark. -/
def exFrame : Img Int := Img.ofFn 2 2 (fun y x => 60000 + 10 * y + x)
def exLevel : Img Int := Img.ofFn 2 2 (fun y x => if y = 0 ∧ x = 0 then 60001 else 10000)

example : exFrame.OfType uint16 ∧ exLevel.OfType uint16 ∧ exFrame.SameShape exLevel := by
  refine ⟨?_, ?_, rfl, rfl⟩ <;> intro y x (hy : y < 2) (hx : x < 2) <;> interval_cases y <;> interval_cases x <;>
    norm_num [exFrame, exLevel, Img.ofFn_px', IntType.Holds, uint16]
example : ∃ r, subtractDarkInt uint16 exFrame exLevel = .ok r ∧ r.px 0 0 = 65535 ∧ r.px 1 1 = 50011 := by
  refine ⟨_, rfl, ?_, ?_⟩ <;> decide
example : ∃ r, addInt uint16 exFrame exLevel = .ok r ∧ r.px 0 0 = 54465 ∧ r.px 1 1 = 4475 := by
  refine ⟨_, rfl, ?_, ?_⟩ <;> decide
example : ∃ r, sumInt uint16 exFrame [exFrame, exLevel] = .ok r ∧ r.px 0 0 = 48929 := by
  refine ⟨_, rfl, ?_⟩
  decide
example : ∃ r, subtractDarkInt int16 (Img.const 2 2 5) (Img.const 2 2 9) = .ok r ∧ r.px 1 1 = 0 := by
  refine ⟨_, rfl, ?_⟩
  decide

end Micropol
