import Verif.Lemmas.Printed
import Verif.Props.Rebin
import Verif.Props.Roi

/-!
# C115: what is printed when an image is trimmed; the functions beside the main path
-/

set_option autoImplicit false

namespace Micropol

theorem trimmed_flags {h w h' w' : Nat} : ((decide ((w' : Int) ≠ w)) || decide ((h' : Int) ≠ h)) = true ↔ ¬ (h' = h ∧ w' = w) := by
  simp only [Bool.or_eq_true, decide_eq_true_eq, ne_eq, Nat.cast_inj]
  tauto

theorem largest_eq {m n r : Nat} (h : IsLargestMultiple m n r) : r = n ↔ m ∣ n :=
  ⟨fun e => e ▸ h.1, fun e => le_antisymm h.2.1 (h.2.2 n e (le_refl n))⟩

/-- C115: trimming for plain binning returns the sizes of C06 and announces them: one line if `verbose` is left on and something
is cut off, no line otherwise. -/
theorem C115_trim (h w b : Nat) (hb : 1 ≤ b) (verbose : Bool) :
    ∃ h' w' : Nat, IsLargestMultiple b h h' ∧ IsLargestMultiple b w w' ∧
      trimToMatchBinningPrinted h w b verbose = .ok (((h' : Int), (w' : Int)),
        if verbose = true ∧ ¬ (b ∣ h ∧ b ∣ w) then [printTrimmingInfo h w h' w'] else []) := by
  obtain ⟨h', w', e, hh, hw⟩ := C06_trim h w b hb
  refine ⟨h', w', hh, hw, ?_⟩
  unfold trimToMatchBinning at e
  obtain ⟨a, e1, e⟩ := Py.bind_eq_ok.1 e
  obtain ⟨c, e2, e⟩ := Py.bind_eq_ok.1 e
  cases e
  unfold trimToMatchBinningPrinted
  rw [trimFlagged_of_ok (by decide) _ e1, Py.ok_bind, trimFlagged_of_ok (by decide) _ e2, Py.ok_bind, Py.pure_eq]
  simp only [Bool.false_or]
  congr 2
  have := trimmed_flags (h := h) (w := w) (h' := h') (w' := w')
  rw [largest_eq hh, largest_eq hw] at this
  by_cases hc : ¬ (b ∣ h ∧ b ∣ w)
  · rw [this.2 hc]
    cases verbose <;> simp [hc]
  · have n1 : ¬ ((decide ((w' : Int) ≠ w) || decide ((h' : Int) ≠ h)) && verbose) = true := by
      intro h'
      rw [Bool.and_eq_true] at h'
      exact hc (this.1 h'.1)
    rw [if_neg n1, if_neg (fun h => hc h.2)]

/-- C115 (even sides; C07: with an odd side the call does not return): trimming for binning of superpixels is announced in the
same way. -/
theorem C115_trim2x_partial (h w b : Nat) (hb : 1 ≤ b) (h2 : h % 2 = 0) (w2 : w % 2 = 0) :
    ∃ h' w' : Nat, IsLargestMultiple (2 * b) h h' ∧ IsLargestMultiple (2 * b) w w' ∧
      trimToMatch2xBinningPrinted h w b = .ok (((h' : Int), (w' : Int)),
        if 2 * b ∣ h ∧ 2 * b ∣ w then [] else [printTrimmingInfo h w h' w']) := by
  obtain ⟨h', w', e, hh, hw⟩ := C07_trim2x_partial h w b hb h2 w2
  refine ⟨h', w', hh, hw, ?_⟩
  unfold trimToMatch2xBinning at e
  obtain ⟨a, e1, e⟩ := Py.bind_eq_ok.1 e
  obtain ⟨c, e2, e⟩ := Py.bind_eq_ok.1 e
  cases e
  unfold trimToMatch2xBinningPrinted
  rw [trimFlagged_of_ok (by decide) _ e1, Py.ok_bind, trimFlagged_of_ok (by decide) _ e2, Py.ok_bind, Py.pure_eq]
  simp only [Bool.false_or]
  congr 2
  have := trimmed_flags (h := h) (w := w) (h' := h') (w' := w')
  rw [largest_eq hh, largest_eq hw] at this
  by_cases hc : 2 * b ∣ h ∧ 2 * b ∣ w
  · rw [if_pos hc, if_neg (fun h' => this.1 h' hc)]
  · rw [this.2 hc, if_neg hc, if_pos rfl]

example : trimToMatchBinningPrinted 7 6 3 true =
    .ok ((6, 6), ["Data trimmed to fit rebinning: ( 7 , 6 ) -> ( 6 , 6 )"]) := by
  obtain ⟨h', w', hh, hw, e⟩ := C115_trim 7 6 3 (by decide) true
  have e1 : h' = 6 := le_antisymm (by obtain ⟨⟨k, rfl⟩, h2, -⟩ := hh; omega) (hh.2.2 6 (by decide) (by decide))
  have e2 : w' = 6 := (largest_eq hw).2 (by decide)
  subst e1 e2
  exact e

/-- C115: the line tells all four numbers. -/
theorem C115_text {h w h' w' k v k' v' : Nat} (e : printTrimmingInfo h w h' w' = printTrimmingInfo k v k' v') :
    h = k ∧ w = v ∧ h' = k' ∧ w' = v' := by
  have e := congrArg String.toList e
  rw [printTrimmingInfo_chars, printTrimmingInfo_chars] at e
  obtain ⟨e1, e⟩ := cut_at_blank (fun c => digits_free) (fun c => digits_free) (List.append_cancel_left e)
  simp only [List.cons.injEq, true_and] at e
  obtain ⟨e2, e⟩ := cut_at_blank (fun c => digits_free) (fun c => digits_free) e
  obtain ⟨e3, e⟩ := cut_at_blank (fun c => digits_free) (fun c => digits_free) (List.append_cancel_left e)
  simp only [List.cons.injEq, true_and] at e
  obtain ⟨e4, e⟩ := cut_at_blank (fun c => digits_free) (fun c => digits_free) e
  exact ⟨repr_injective e1, repr_injective e2, repr_injective e3, repr_injective e4⟩

section
variable {K : Type} [AddCommMonoid K]

/-- C115: `image.rebin(b)` prints nothing if the binning divides both sides.  Otherwise it prints one line with the sides before
and those of the part that is binned: `b` times the sides of the result. -/
theorem C115_image (d : Img K) (b : Nat) (hb : 1 ≤ b) :
    ∃ r : Img K, imageRebinData d b = .ok r ∧ imageRebinPrinted d b = .ok (r,
      if b ∣ d.h ∧ b ∣ d.w then [] else [printTrimmingInfo d.h d.w (r.h * b : Nat) (r.w * b : Nat)]) := by
  obtain ⟨r, e, h1, h2, -⟩ := C08_rebin d b hb
  obtain ⟨h', w', hh, hw, e2⟩ := C115_trim d.h d.w b hb true
  refine ⟨r, ?_, ?_⟩
  · exact e
  · unfold imageRebinData at e
    rw [if_neg (by omega)] at e
    have hc := C06_trim d.h d.w b hb
    obtain ⟨h'', w'', e3, hh', hw'⟩ := hc
    have u : ∀ {m n a c : Nat}, IsLargestMultiple m n a → IsLargestMultiple m n c → a = c := fun p q =>
      le_antisymm (q.2.2 _ p.1 p.2.1) (p.2.2 _ q.1 q.2.1)
    obtain rfl := u hh hh'
    obtain rfl := u hw hw'
    unfold imageRebinPrinted standardRebinPrinted
    rw [if_neg (by omega), e2, Py.ok_bind]
    unfold standardRebin at e
    rw [e3, Py.ok_bind] at e
    dsimp only at e ⊢
    rw [e, Py.ok_bind, Py.pure_eq]
    have s1 : r.h * b = h' := by
      rw [h1]
      exact u ⟨Dvd.intro_left _ rfl, Nat.div_mul_le_self _ _, fun q hq hle => by
        obtain ⟨k, rfl⟩ := hq
        rw [Nat.mul_comm b k]
        exact Nat.mul_le_mul_right _ ((Nat.le_div_iff_mul_le hb).2 (by rw [Nat.mul_comm]; exact hle))⟩ hh
    have s2 : r.w * b = w' := by
      rw [h2]
      exact u ⟨Dvd.intro_left _ rfl, Nat.div_mul_le_self _ _, fun q hq hle => by
        obtain ⟨k, rfl⟩ := hq
        rw [Nat.mul_comm b k]
        exact Nat.mul_le_mul_right _ ((Nat.le_div_iff_mul_le hb).2 (by rw [Nat.mul_comm]; exact hle))⟩ hw
    rw [s1, s2]
    by_cases hd : b ∣ d.h ∧ b ∣ d.w
    · rw [if_pos hd, if_neg (fun h => h.2 hd)]
    · rw [if_neg hd, if_pos ⟨rfl, hd⟩]

/-- C115 (even sides): the same for a polarisation image, with twice the binning. -/
theorem C115_micropol_partial (d : Img K) (b : Nat) (hb : 1 ≤ b) (h2 : d.h % 2 = 0) (w2 : d.w % 2 = 0) :
    ∃ r : Img K, micropolRebinData d b = .ok r ∧ micropolRebinPrinted d b = .ok (r,
      if 2 * b ∣ d.h ∧ 2 * b ∣ d.w then [] else [printTrimmingInfo d.h d.w (r.h * b : Nat) (r.w * b : Nat)]) := by
  have e := micropolarrayRebin_ok d b hb h2 w2
  obtain ⟨h', w', hh, hw, e2⟩ := C115_trim2x_partial d.h d.w b hb h2 w2
  obtain ⟨h'', w'', e3, hh', hw'⟩ := C07_trim2x_partial d.h d.w b hb h2 w2
  have u : ∀ {m n a c : Nat}, IsLargestMultiple m n a → IsLargestMultiple m n c → a = c := fun p q =>
    le_antisymm (q.2.2 _ p.1 p.2.1) (p.2.2 _ q.1 q.2.1)
  obtain rfl := u hh hh'
  obtain rfl := u hw hw'
  refine ⟨Img.ofFn (2 * (d.h / (2 * b))) (2 * (d.w / (2 * b))) (fun Y X =>
        blockSum d (2 * b * (Y / 2) + Y % 2) (2 * b * (X / 2) + X % 2) 2 b), ?_, ?_⟩
  · unfold micropolRebinData
    rw [if_neg (by omega), e]
  · unfold micropolRebinPrinted micropolarrayRebinPrinted
    rw [if_neg (by omega), e2, Py.ok_bind]
    unfold micropolarrayRebin at e
    rw [e3, Py.ok_bind] at e
    dsimp only at e ⊢
    rw [e, Py.ok_bind, Py.pure_eq]
    have s : ∀ {n a : Nat}, IsLargestMultiple (2 * b) n a → 2 * (n / (2 * b)) * b = a := by
      intro n a ha
      have : 2 * (n / (2 * b)) * b = n / (2 * b) * (2 * b) := by ring
      rw [this]
      exact u ⟨Dvd.intro_left _ rfl, Nat.div_mul_le_self _ _, fun q hq hle => by
        obtain ⟨k, rfl⟩ := hq
        rw [Nat.mul_comm (2 * b) k]
        exact Nat.mul_le_mul_right _ ((Nat.le_div_iff_mul_le (by omega)).2 (by rw [Nat.mul_comm]; exact hle))⟩ ha
    have s1 : (Img.ofFn (2 * (d.h / (2 * b))) (2 * (d.w / (2 * b))) (fun Y X =>
        blockSum d (2 * b * (Y / 2) + Y % 2) (2 * b * (X / 2) + X % 2) 2 b)).h * b = h' := s hh
    have s2 : (Img.ofFn (2 * (d.h / (2 * b))) (2 * (d.w / (2 * b))) (fun Y X =>
        blockSum d (2 * b * (Y / 2) + Y % 2) (2 * b * (X / 2) + X % 2) 2 b)).w * b = w' := s hw
    rw [s1, s2]

/-- C115: the old kernel, given the sides of the array, does what `micropolarray_rebin` does, whatever the sides and the binning
(also where that raises, hangs or reads outside the array). -/
theorem C115_old_kernel (d : Img K) (b : Int) : micropolarrayJitrebinOld d d.h d.w b = micropolarrayRebinPrinted d b := by
  unfold micropolarrayJitrebinOld micropolarrayRebinPrinted micropolarrayJitrebin
  cases trimToMatch2xBinningPrinted (d.h : Int) d.w b with
  | error e => rfl
  | ok r =>
    simp only [Py.ok_bind]
    cases (npZeros (r.1.1.tdiv b) (r.1.2.tdiv b) : Py (Img K)) with
    | error e => rfl
    | ok z => rfl

/-- C115: given smaller even sides, the old kernel bins the upper left corner of that size. -/
theorem C115_old_kernel_corner (d : Img K) (h w b : Nat) (hb : 1 ≤ b) (hh : h % 2 = 0) (hw : w % 2 = 0) (h1 : h ≤ d.h)
    (w1 : w ≤ d.w) : micropolarrayJitrebinOld d h w b = micropolarrayRebinPrinted (Img.ofFn h w d.px) b := by
  rw [← C115_old_kernel]
  obtain ⟨h', w', lh, lw, e⟩ := C115_trim2x_partial h w b hb hh hw
  show micropolarrayJitrebinOld d h w b = micropolarrayJitrebinOld (Img.ofFn h w d.px) h w b
  have kern : ∀ (A : Img K) (nh nw : Int), (do
      let z ← npZeros nh nw
      forRange 0 nh 1 z fun newY newData =>
        forRange 0 nw 1 newData fun newX newData =>
          forRange (newY % 2) (newY % 2 + 2 * (b : Int)) 2 newData fun yScaler newData =>
            forRange (newX % 2) (newX % 2 + 2 * (b : Int)) 2 newData fun xScaler newData =>
              addAt A ((newY - newY % 2) * b + yScaler) ((newX - newX % 2) * b + xScaler) newY newX newData) =
      micropolarrayJitrebin A nh nw b := fun _ _ _ => rfl
  have two : ∀ (A : Img K), micropolarrayJitrebinOld A h w b = (do
      let z ← micropolarrayJitrebin A ((h' : Int).tdiv b) ((w' : Int).tdiv b) b
      pure (z, if 2 * b ∣ h ∧ 2 * b ∣ w then [] else [printTrimmingInfo h w h' w'])) := by
    intro A
    unfold micropolarrayJitrebinOld
    rw [e, Py.ok_bind, ← kern]
    dsimp only
    cases (npZeros ((h' : Int).tdiv b) ((w' : Int).tdiv b) : Py (Img K)) with
    | error e => rfl
    | ok z => rfl
  rw [two, two]
  obtain ⟨p, rfl⟩ := lh.1
  obtain ⟨q, rfl⟩ := lw.1
  have td : ∀ n : Nat, ((2 * b * n : Nat) : Int).tdiv b = ((2 * n : Nat) : Int) := by
    intro n
    have : ((2 * b * n : Nat) : Int) = ((2 * n : Nat) : Int) * b := by push_cast; ring
    rw [this, Int.mul_tdiv_cancel _ (by omega)]
  rw [td, td]
  have lh2 : 2 * p * b ≤ h := by have := lh.2.1; nlinarith
  have lw2 : 2 * q * b ≤ w := by have := lw.2.1; nlinarith
  rw [micropolarrayJitrebin_ok d (2 * p) (2 * q) b (by omega) (by omega) (lh2.trans h1) (lw2.trans w1),
    micropolarrayJitrebin_ok (Img.ofFn h w d.px) (2 * p) (2 * q) b (by omega) (by omega) lh2 lw2]
  have : Img.ofFn (2 * p) (2 * q) (fun Y X => blockSum d (2 * b * (Y / 2) + Y % 2) (2 * b * (X / 2) + X % 2) 2 b) =
      Img.ofFn (2 * p) (2 * q) (fun Y X => blockSum (Img.ofFn h w d.px) (2 * b * (Y / 2) + Y % 2) (2 * b * (X / 2) + X % 2) 2 b) := by
    refine Img.ext_px rfl rfl ?_
    intro Y X hY hX
    have hY' : Y < 2 * p := hY
    have hX' : X < 2 * q := hX
    rw [Img.ofFn_px hY' hX', Img.ofFn_px hY' hX']
    have bnd : ∀ {Z m L u : Nat}, Z < 2 * m → 2 * m * b ≤ L → u < b → 2 * b * (Z / 2) + Z % 2 + u * 2 < L := by
      intro Z m L u hZ hL hu
      have k1 : Z / 2 + 1 ≤ m := by omega
      have k2 : 2 * b * (Z / 2 + 1) ≤ 2 * b * m := Nat.mul_le_mul_left _ k1
      have k3 : Z % 2 < 2 := Nat.mod_lt _ (by decide)
      nlinarith
    unfold blockSum
    refine Finset.sum_congr rfl fun u hu => Finset.sum_congr rfl fun v hv => ?_
    rw [Img.ofFn_px (bnd hY' lh2 (Finset.mem_range.1 hu)) (bnd hX' lw2 (Finset.mem_range.1 hv))]
  rw [this]

end

/-- C115: `micropolarray_jitcongrid` does not look at the pixels: it returns, for every column and row of the new size, the
distance of the centre of that pixel from the corner of the image. -/
theorem C115_jitcongrid (d : Img ℝ) (w h : Nat) (scale : ℝ) (nw nh : Nat) (w1 : (nw : ℝ) ≤ w * scale)
    (w2 : w * scale < nw + 1) (h1 : (nh : ℝ) ≤ h * scale) (h2 : h * scale < nh + 1) :
    ∃ l : List (List ℝ), micropolarrayJitcongrid d w h scale = .ok l ∧ l.length = nw ∧ ∀ j (hj : j < l.length),
      l[j].length = nh ∧ ∀ i (hi : i < l[j].length), l[j][i] = Real.sqrt ((i + 1 / 2) ^ 2 + (j + 1 / 2) ^ 2) := by
  have t : ∀ (n : Nat) (x : ℝ), (n : ℝ) ≤ x → x < n + 1 → pyInt x = n := by
    intro n x a c
    unfold pyInt
    rw [if_pos (le_trans (Nat.cast_nonneg n) a), Int.floor_eq_iff]
    exact ⟨by simpa using a, by simpa using c⟩
  have e1 : pyInt ((((w : Nat) : Int) : ℝ) * scale) = nw := t _ _ (by simpa using w1) (by simpa using w2)
  have e2 : pyInt ((((h : Nat) : Int) : ℝ) * scale) = nh := t _ _ (by simpa using h1) (by simpa using h2)
  refine ⟨(List.range nw).map fun (j : Nat) => (List.range nh).map fun (i : Nat) =>
    Real.sqrt (((i : ℝ) + 1 / 2) ^ 2 + ((j : ℝ) + 1 / 2) ^ 2), ?_, ?_, ?_⟩
  · unfold micropolarrayJitcongrid npZeros
    rw [e1, e2]
    dsimp only
    rw [if_neg (by omega), Py.ok_bind, Py.pure_eq]
    unfold pyRange
    congr 1
    have c : ∀ n : Nat, (((n : Int) - 0 + (1 : Nat) - 1) / (1 : Nat)).toNat = n := by intro n; simp
    rw [c, c, List.map_map]
    refine List.map_congr_left fun j _ => ?_
    simp only [Function.comp_apply, List.map_map]
    refine List.map_congr_left fun i _ => ?_
    simp only [Function.comp_apply]
    push_cast
    congr 1
    norm_num
    ring
  · simp
  · intro j hj
    simp

/-- C115: a timed function returns or raises what the function does, leaves the same world, and prints one line more, with the
time that passed, exactly if the function returns. -/
theorem C115_timer {σ α β : Type} (clock : σ → ℝ) (render : ℝ → String) (name : String) (f : Printing σ α β) (a : α) (w : σ) :
    (timer clock render name f a w).1 = (f a w).1 ∧ (timer clock render name f a w).2.1 = (f a w).2.1 ∧
    (∀ r, (f a w).1 = .ok r → (timer clock render name f a w).2.2 = (f a w).2.2 ++
      ["Function " ++ name ++ " took " ++ render (clock (f a w).2.1 - clock w) ++ " s to run"]) ∧
    (∀ e, (f a w).1 = .error e → (timer clock render name f a w).2.2 = (f a w).2.2) := by
  unfold timer
  dsimp only
  generalize f a w = r
  obtain ⟨r, w', out⟩ := r
  cases r with
  | error e => exact ⟨rfl, rfl, fun r h => (by cases h), fun _ _ => rfl⟩
  | ok r => exact ⟨rfl, rfl, fun _ _ => rfl, fun e h => (by cases h)⟩

/-- Reading a world as its own clock: a function that takes two seconds. -/
example : (timer (fun w : ℝ => w) (fun _ => "2.0") "wait" (fun (_ : Unit) w => (.ok 7, w + 2, [])) () 1).2.2 =
    ["Function wait took 2.0 s to run"] :=
  (C115_timer (fun w : ℝ => w) (fun _ => "2.0") "wait" (fun (_ : Unit) w => (.ok 7, w + 2, [])) () 1).2.2.1 7 rfl

/-- C115: timing a function twice changes nothing but the printed lines. -/
theorem C115_timer_twice {σ α β : Type} (clock : σ → ℝ) (render : ℝ → String) (n n' : String) (f : Printing σ α β) (a : α) (w : σ) :
    (timer clock render n (timer clock render n' f) a w).1 = (f a w).1 ∧
      (timer clock render n (timer clock render n' f) a w).2.1 = (f a w).2.1 := by
  obtain ⟨h1, h2, -⟩ := C115_timer clock render n (timer clock render n' f) a w
  obtain ⟨k1, k2, -⟩ := C115_timer clock render n' f a w
  exact ⟨h1.trans k1, h2.trans k2⟩

/-- C115: the focal ratio of the telescope is its focal length over its aperture, 14. -/
theorem C115_focal_ratio : antarticor.fratio * antarticor.aperture = antarticor.effectiveFocalLength ∧
    antarticor.fratio = 14 := by
  unfold antarticor
  norm_num

/-- An image of 6 x 10 pixels binned 2 x 2 loses rows and columns, one of 4 x 8 pixels does not. -/
example : micropolRebinPrinted (Img.const 6 10 (1 : ℝ)) 2 =
    .ok (Img.const 2 4 4, ["Data trimmed to fit rebinning: ( 6 , 10 ) -> ( 4 , 8 )"]) := by
  obtain ⟨r, e1, e2⟩ := C115_micropol_partial (Img.const 6 10 (1 : ℝ)) 2 (by decide) rfl rfl
  have e3 := micropolarrayRebin_ok (Img.const 6 10 (1 : ℝ)) 2 (by decide) rfl rfl
  unfold micropolRebinData at e1
  rw [if_neg (by decide)] at e1
  rw [show ((2 : Nat) : Int) = 2 from rfl] at e1 e2 e3
  rw [e3] at e1
  cases e1
  rw [e2, if_neg (by decide)]
  congr 2
  refine Img.ext_px rfl rfl fun Y X hY hX => ?_
  have hY' : Y < 2 := hY
  have hX' : X < 4 := hX
  have b1 : Y / 2 = 0 := by omega
  have b2 : X / 2 = 0 ∨ X / 2 = 1 := by omega
  have b3 : Y % 2 < 2 := by omega
  have b4 : X % 2 < 2 := by omega
  rw [Img.ofFn_px (show Y < 2 * ((Img.const 6 10 (1 : ℝ)).h / (2 * 2)) from hY')
    (show X < 2 * ((Img.const 6 10 (1 : ℝ)).w / (2 * 2)) from hX')]
  have one : ∀ y x, y < 6 → x < 10 → (Img.const 6 10 (1 : ℝ)).px y x = 1 := fun y x h1 h2 => Img.ofFn_px h1 h2
  have four : (Img.const 2 4 (4 : ℝ)).px Y X = 4 := Img.ofFn_px hY' hX'
  rw [four]
  simp only [blockSum, Finset.sum_range_succ, Finset.sum_range_zero]
  rw [one _ _ (by omega) (by omega), one _ _ (by omega) (by omega), one _ _ (by omega) (by omega),
    one _ _ (by omega) (by omega)]
  norm_num

end Micropol
