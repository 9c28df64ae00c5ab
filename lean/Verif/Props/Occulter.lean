import Verif.Lemmas.Occulter

/-!
# C85, C86: the search for the occulter by fitting edges and by the Hough transform
-/

set_option autoImplicit false

namespace Micropol

noncomputable section

open Classical

/-! ## C85 -/

/-- C85: four equally spaced points on a logistic curve determine the middle of the step. -/
theorem C85_identifiable {f : Nat → ℝ} {e e' : ℝ} (h : IsLogisticOn (fun k => k < 4) f e) (h' : IsLogisticOn (fun k => k < 4) f e') :
    e = e' := by
  obtain ⟨lo, hi, rate, h1, h2, h3⟩ := h
  obtain ⟨lo', hi', rate', _, _, h3'⟩ := h'
  refine logistic_unique (m := lo) (M := hi - lo) (s := rate) (m' := lo') (M' := hi' - lo') (s' := rate') (sub_ne_zero.2 (Ne.symm h1)) h2 ?_
  intro k hk
  rw [← h3 k hk, h3' k hk]

/-- C85: with exact edges and a `curve_fit` that finds exact solutions, the result is the truncated middle and half distance of the
edges, with the upper and the left edge counted one pixel further in than they are. -/
theorem C85_edges {fit : SigmoidFit} (hfit : fit.FindsExact) {A : Img ℝ} (hh : 8 ≤ A.h) (hw : 8 ≤ A.w) {top bottom left right : ℝ}
    (h : HasEdges A top bottom left right) (t : ℝ) :
    ∃ cy cx r, findOcculterPosition fit A .sigmoid t = .ok (cy, cx, r) ∧ IsTrunc ((top + 1 + bottom) / 2) cy ∧
      IsTrunc ((left + 1 + right) / 2) cx ∧ IsTrunc ((|bottom - (top + 1)| / 2 + |right - (left + 1)| / 2) / 2) r := by
  have e0 := halfEdge_ok hfit (n := A.h / 2) (by omega) h.top.reverse
  have e1 := halfEdge_ok hfit (n := A.h - A.h / 2) (by omega) h.bottom.shift
  have e2 := halfEdge_ok hfit (n := A.w / 2) (by omega) h.left.reverse
  have e3 := halfEdge_ok hfit (n := A.w - A.w / 2) (by omega) h.right.shift
  unfold findOcculterPosition findOcculterSigmoid
  dsimp only
  rw [if_neg (by omega), reverse_range, reverse_range, e0, Py.ok_bind, e1, Py.ok_bind, e2, Py.ok_bind, e3, Py.ok_bind]
  refine ⟨_, _, _, rfl, ?_, ?_, ?_⟩
  · have : (top + 1 + bottom) / 2 =
        mean2 (((A.h / 2 : Nat) : ℝ) - (((A.h / 2 : Nat) : ℝ) - 1 - top)) (((A.h / 2 : Nat) : ℝ) + (bottom - ((A.h / 2 : Nat) : ℝ))) := by
      unfold mean2
      ring
    rw [this]
    exact pyInt_trunc _
  · have : (left + 1 + right) / 2 =
        mean2 (((A.w / 2 : Nat) : ℝ) - (((A.w / 2 : Nat) : ℝ) - 1 - left)) (((A.w / 2 : Nat) : ℝ) + (right - ((A.w / 2 : Nat) : ℝ))) := by
      unfold mean2
      ring
    rw [this]
    exact pyInt_trunc _
  · have a1 : ((A.h / 2 : Nat) : ℝ) + (bottom - ((A.h / 2 : Nat) : ℝ)) - (((A.h / 2 : Nat) : ℝ) - (((A.h / 2 : Nat) : ℝ) - 1 - top)) =
        bottom - (top + 1) := by ring
    have a2 : ((A.w / 2 : Nat) : ℝ) + (right - ((A.w / 2 : Nat) : ℝ)) - (((A.w / 2 : Nat) : ℝ) - (((A.w / 2 : Nat) : ℝ) - 1 - left)) =
        right - (left + 1) := by ring
    rw [a1, a2]
    exact pyInt_trunc _

/-- C85: for a round occulter the centre is found (half a pixel too far down and to the right, then truncated), and the radius is the
mean of the two half chords through the middle of the image, less half a pixel, truncated: at most the true radius. -/
theorem C85_circle {fit : SigmoidFit} (hfit : fit.FindsExact) {A : Img ℝ} (hh : 8 ≤ A.h) (hw : 8 ≤ A.w)
    {top bottom left right cy cx R : ℝ} (h : HasEdges A top bottom left right) (hc : CircleCrosses A cy cx R top bottom left right)
    (t : ℝ) :
    ∃ y x r, findOcculterPosition fit A .sigmoid t = .ok (y, x, r) ∧ IsTrunc (cy + 1 / 2) y ∧ IsTrunc (cx + 1 / 2) x ∧
      IsTrunc ((Real.sqrt (R ^ 2 - (((A.w / 2 : Nat) : ℝ) - cx) ^ 2) + Real.sqrt (R ^ 2 - (((A.h / 2 : Nat) : ℝ) - cy) ^ 2)) / 2 - 1 / 2) r ∧
      (r : ℝ) ≤ R := by
  obtain ⟨y, x, r, hr, hy, hx, hrad⟩ := C85_edges hfit hh hw h t
  obtain ⟨c1, c2, c3, c4⟩ := hc.onCircle
  obtain ⟨o1, o2⟩ := hc.order
  have sym : ∀ {u v c q : ℝ}, (u - c) ^ 2 + q = R ^ 2 → (v - c) ^ 2 + q = R ^ 2 → u + 1 ≤ v → u + v = 2 * c ∧
      (v - u) / 2 = Real.sqrt (R ^ 2 - q) := by
    intro u v c q h1 h2 h3
    have : (v - u) * (u + v - 2 * c) = 0 := by linear_combination h2 - h1
    have hs : u + v = 2 * c := by
      rcases mul_eq_zero.1 this with g | g
      · linarith
      · linarith
    refine ⟨hs, ?_⟩
    have e : R ^ 2 - q = ((v - u) / 2) ^ 2 := by
      have : u = 2 * c - v := by linarith
      rw [this]
      rw [← h2]
      ring
    rw [e, Real.sqrt_sq (by linarith)]
  obtain ⟨s1, d1⟩ := sym c1 c2 o1
  obtain ⟨s2, d2⟩ := sym c3 c4 o2
  have er : (|bottom - (top + 1)| / 2 + |right - (left + 1)| / 2) / 2 =
      (Real.sqrt (R ^ 2 - (((A.w / 2 : Nat) : ℝ) - cx) ^ 2) + Real.sqrt (R ^ 2 - (((A.h / 2 : Nat) : ℝ) - cy) ^ 2)) / 2 - 1 / 2 := by
    rw [abs_of_nonneg (by linarith), abs_of_nonneg (by linarith), ← d1, ← d2]
    ring
  rw [er] at hrad
  refine ⟨y, x, r, hr, ?_, ?_, hrad, ?_⟩
  · have : (top + 1 + bottom) / 2 = cy + 1 / 2 := by linarith
    rwa [this] at hy
  · have : (left + 1 + right) / 2 = cx + 1 / 2 := by linarith
    rwa [this] at hx
  · have b1 : Real.sqrt (R ^ 2 - (((A.w / 2 : Nat) : ℝ) - cx) ^ 2) ≤ R := by
      rw [Real.sqrt_le_left hc.pos.le]
      nlinarith [sq_nonneg (((A.w / 2 : Nat) : ℝ) - cx)]
    have b2 : Real.sqrt (R ^ 2 - (((A.h / 2 : Nat) : ℝ) - cy) ^ 2) ≤ R := by
      rw [Real.sqrt_le_left hc.pos.le]
      nlinarith [sq_nonneg (((A.h / 2 : Nat) : ℝ) - cy)]
    have b3 : 0 ≤ (Real.sqrt (R ^ 2 - (((A.w / 2 : Nat) : ℝ) - cx) ^ 2) + Real.sqrt (R ^ 2 - (((A.h / 2 : Nat) : ℝ) - cy) ^ 2)) / 2 - 1 / 2 := by
      rw [← d1, ← d2]
      linarith
    have := hrad.1
    rw [abs_of_nonneg b3] at this
    have := le_abs_self (r : ℝ)
    linarith

/-- C85: an image with fewer than 8 rows or columns is never accepted. -/
theorem C85_small (fit : SigmoidFit) {A : Img ℝ} (h : A.h < 8 ∨ A.w < 8) (t : ℝ) : ∀ r, findOcculterPosition fit A .sigmoid t ≠ .ok r := by
  have short : ∀ (l : List ℝ) v, l.length < 4 → halfEdge fit l ≠ .ok v := by
    intro l v hl hc
    unfold halfEdge at hc
    split_ifs at hc
  intro r hr
  unfold findOcculterPosition findOcculterSigmoid at hr
  dsimp only at hr
  split_ifs at hr
  obtain ⟨_, g1, hr⟩ := Py.bind_eq_ok.1 hr
  obtain ⟨_, _, hr⟩ := Py.bind_eq_ok.1 hr
  obtain ⟨_, g3, _⟩ := Py.bind_eq_ok.1 hr
  rcases h with h | h
  · exact short _ _ (by simp; omega) g1
  · exact short _ _ (by simp; omega) g3

/-- C85: an image without pixels is refused with an `IndexError` whatever the method, "algo" and unknown ones included. -/
theorem C85_empty (fit : SigmoidFit) {A : Img ℝ} (h : A.h = 0 ∨ A.w = 0) (m : OcculterMethod) (t : ℝ) :
    findOcculterPosition fit A m t = .error .indexError := by
  cases m
  · unfold findOcculterPosition findOcculterSigmoid
    dsimp only
    rw [if_pos h]
  · unfold findOcculterPosition findOcculterAlgo
    dsimp only
    rw [if_pos h]
  · unfold findOcculterPosition
    dsimp only
    rw [if_pos h]

/-- C85: which error an image with too few rows gives, whatever the fit: `ValueError` for one row (there is nothing above the middle),
`TypeError` for two to seven (fewer points than parameters). -/
theorem C85_few_rows (fit : SigmoidFit) {A : Img ℝ} (hw : 0 < A.w) (hh : 0 < A.h) (t : ℝ) :
    (A.h = 1 → findOcculterPosition fit A .sigmoid t = .error .valueError) ∧
    (2 ≤ A.h → A.h < 8 → findOcculterPosition fit A .sigmoid t = .error .typeError) := by
  refine ⟨fun h => ?_, fun h2 h8 => ?_⟩
  · unfold findOcculterPosition findOcculterSigmoid halfEdge
    dsimp only
    rw [if_neg (by omega), if_pos (by simp; omega)]
    rfl
  · unfold findOcculterPosition findOcculterSigmoid halfEdge
    dsimp only
    rw [if_neg (by omega), if_neg (by simp; omega), if_pos (by simp; omega)]
    rfl

example : findOcculterPosition (fun _ => none) (Img.ofFn 0 12 (fun _ _ => (1 : ℝ))) .other 4 = .error .indexError :=
  C85_empty _ (Or.inl rfl) _ _

example : findOcculterPosition (fun _ => none) (Img.ofFn 6 12 (fun _ _ => (1 : ℝ))) .sigmoid 4 = .error .typeError :=
  (C85_few_rows _ (A := Img.ofFn 6 12 (fun _ _ => (1 : ℝ))) (by show 0 < 12; omega) (by show 0 < 6; omega) _).2 (by show 2 ≤ 6; omega) (by show 6 < 8; omega)

/-- C85: if the fit of one of the four half axes fails there is no result. -/
theorem C85_no_fit (fit : SigmoidFit) (A : Img ℝ)
    (hfit : (∀ c : SigmoidCall, c.ys = (List.range (A.h / 2)).map (fun k => A.px (A.h / 2 - 1 - k) (A.w / 2)) → fit c = none) ∨
      (∀ c : SigmoidCall, c.ys = (List.range (A.h - A.h / 2)).map (fun k => A.px (A.h / 2 + k) (A.w / 2)) → fit c = none) ∨
      (∀ c : SigmoidCall, c.ys = (List.range (A.w / 2)).map (fun k => A.px (A.h / 2) (A.w / 2 - 1 - k)) → fit c = none) ∨
      (∀ c : SigmoidCall, c.ys = (List.range (A.w - A.w / 2)).map (fun k => A.px (A.h / 2) (A.w / 2 + k)) → fit c = none)) (t : ℝ) :
    ∀ r, findOcculterPosition fit A .sigmoid t ≠ .ok r := by
  have bad : ∀ (l : List ℝ) v, (∀ c : SigmoidCall, c.ys = l → fit c = none) → halfEdge fit l ≠ .ok v := by
    intro l v hl hc
    unfold halfEdge at hc
    split_ifs at hc
    dsimp only at hc
    rw [hl _ rfl] at hc
    cases hc
  intro r hr
  unfold findOcculterPosition findOcculterSigmoid at hr
  dsimp only at hr
  split_ifs at hr
  rw [reverse_range, reverse_range] at hr
  obtain ⟨_, g1, hr⟩ := Py.bind_eq_ok.1 hr
  obtain ⟨_, g2, hr⟩ := Py.bind_eq_ok.1 hr
  obtain ⟨_, g3, hr⟩ := Py.bind_eq_ok.1 hr
  obtain ⟨_, g4, _⟩ := Py.bind_eq_ok.1 hr
  rcases hfit with h | h | h | h
  · exact bad _ _ h g1
  · exact bad _ _ h g2
  · exact bad _ _ h g3
  · exact bad _ _ h g4

/-- C85 (a method that is not known is not reported): the answer is then position (0, 0) and radius 0 for every image. -/
theorem C85_unknown_method (fit : SigmoidFit) (A : Img ℝ) (hh : 0 < A.h) (hw : 0 < A.w) (t : ℝ) :
    findOcculterPosition fit A .other t = .ok (0, 0, 0) := by
  have h0 : pyInt 0 = 0 := trunc_unique (pyInt_trunc 0) (by constructor <;> norm_num)
  unfold findOcculterPosition occulterFromBounds
  dsimp only
  rw [if_neg (by omega)]
  have e1 : mean2 0 0 = 0 := by norm_num [mean2]
  have e2 : mean2 (|(0 : ℝ) - 0| / 2) (|(0 : ℝ) - 0| / 2) = 0 := by norm_num [mean2]
  rw [e1, e2, h0]

/-- C85: the method "algo" has the same bias: in terms of the rows and columns where the jumps are, the upper and the left one are
counted one pixel further in. -/
theorem C85_algo_rows (fit : SigmoidFit) (A : Img ℝ) (hh : 0 < A.h) (hw : 0 < A.w) (t : ℝ) (up down left right : Nat)
    (h1 : IsFirstJump (A.h / 2) (fun k => A.px (A.h / 2 - 1 - k) (A.w / 2)) t up)
    (h2 : IsFirstJump (A.h - A.h / 2) (fun k => A.px (A.h / 2 + k) (A.w / 2)) t down)
    (h3 : IsFirstJump (A.w / 2) (fun k => A.px (A.h / 2) (A.w / 2 - 1 - k)) t left)
    (h4 : IsFirstJump (A.w - A.w / 2) (fun k => A.px (A.h / 2) (A.w / 2 + k)) t right) :
    ∃ cy cx r, findOcculterPosition fit A .algo t = .ok (cy, cx, r) ∧
      IsTrunc ((((A.h / 2 - 1 - up : Nat) : ℝ) + 1 + (A.h / 2 + down : Nat)) / 2) cy ∧
      IsTrunc ((((A.w / 2 - 1 - left : Nat) : ℝ) + 1 + (A.w / 2 + right : Nat)) / 2) cx := by
  obtain ⟨cy, cx, r, hr, g1, g2, _⟩ := C64_found A hh hw t up down left right h1 h2 h3 h4
  refine ⟨cy, cx, r, hr, ?_, ?_⟩
  · have : (((A.h / 2 - 1 - up : Nat) : ℝ) + 1 + (A.h / 2 + down : Nat)) / 2 =
        (((A.h / 2 : Nat) : ℝ) - up + (((A.h / 2 : Nat) : ℝ) + down)) / 2 := by
      have hu : up < A.h / 2 := h1.1.2.1
      rw [Nat.cast_sub (by omega), Nat.cast_sub (by omega), Nat.cast_add]
      push_cast
      ring
    rwa [this]
  · have : (((A.w / 2 - 1 - left : Nat) : ℝ) + 1 + (A.w / 2 + right : Nat)) / 2 =
        (((A.w / 2 : Nat) : ℝ) - left + (((A.w / 2 : Nat) : ℝ) + right)) / 2 := by
      have hu : left < A.w / 2 := h3.1.2.1
      rw [Nat.cast_sub (by omega), Nat.cast_sub (by omega), Nat.cast_add]
      push_cast
      ring
    rwa [this]

/-! ### Witnesses -/

/-- An image of `n × n` pixels whose middle row and column are logistic steps at the given places, the same for rows and columns. -/
def crossImage (n : Nat) (e0 e1 : ℝ) : Img ℝ :=
  Img.ofFn n n (fun y x =>
    if x = n / 2 then (if y < n / 2 then 0 + (1 - 0) / (1 + Real.exp (-(-1 * (y - e0)))) else 0 + (1 - 0) / (1 + Real.exp (-(1 * (y - e1)))))
    else if y = n / 2 then
      (if x < n / 2 then 0 + (1 - 0) / (1 + Real.exp (-(-1 * (x - e0)))) else 0 + (1 - 0) / (1 + Real.exp (-(1 * (x - e1)))))
    else 0)

theorem crossImage_edges {n : Nat} (hn : 0 < n) (e0 e1 : ℝ) : HasEdges (crossImage n e0 e1) e0 e1 e0 e1 := by
  have hH : (crossImage n e0 e1).h = n := rfl
  have hW : (crossImage n e0 e1).w = n := rfl
  refine ⟨⟨0, 1, -1, by norm_num, by norm_num, ?_⟩, ⟨0, 1, 1, by norm_num, by norm_num, ?_⟩, ⟨0, 1, -1, by norm_num, by norm_num, ?_⟩,
    ⟨0, 1, 1, by norm_num, by norm_num, ?_⟩⟩
  · intro y hy
    rw [hH] at hy
    dsimp only
    rw [hW]
    unfold crossImage
    rw [Img.ofFn_px (by omega) (by omega), if_pos rfl, if_pos hy]
  · intro y hy
    rw [hH] at hy
    dsimp only
    rw [hW]
    unfold crossImage
    rw [Img.ofFn_px (by omega) (by omega), if_pos rfl, if_neg (by omega)]
  · intro x hx
    rw [hW] at hx
    dsimp only
    rw [hH]
    unfold crossImage
    rw [Img.ofFn_px (by omega) (by omega), if_neg (by omega), if_pos rfl, if_pos hx]
  · intro x hx
    rw [hW] at hx
    dsimp only
    rw [hH]
    unfold crossImage
    rw [Img.ofFn_px (by omega) (by omega)]
    by_cases h : x = n / 2
    · rw [if_pos h, if_neg (by omega), h]
    · rw [if_neg h, if_pos rfl, if_neg (by omega)]

/-- A fit that finds exact solutions. -/
def exSigmoidFit : SigmoidFit := fun c =>
  if h : ∃ p : Fin 4 → ℝ, ∀ i, i < c.ys.length → c.ys.getD i 0 = sigmoid (c.xs.getD i 0) (p 0) (p 1) (p 2) (p 3) then
    some (Classical.choose h) else none

theorem exSigmoidFit_exact : exSigmoidFit.FindsExact := by
  intro c _ _ _ _ _ _ h
  refine ⟨Classical.choose h, ?_, Classical.choose_spec h⟩
  unfold exSigmoidFit
  rw [dif_pos h]

/-- A round occulter of radius `5 m` whose centre is `3 m` pixels above and to the left of the middle of an image of
`20 m × 20 m` pixels. -/
theorem exCircle {m : Nat} (hm : 0 < m) : CircleCrosses (crossImage (20 * m) (3 * m) (11 * m)) (7 * m) (7 * m) (5 * m) (3 * m) (11 * m)
    (3 * m) (11 * m) := by
  have hh : (((crossImage (20 * m) (3 * m) (11 * m)).h / 2 : Nat) : ℝ) = 10 * m := by
    show (((20 * m) / 2 : Nat) : ℝ) = _
    rw [show 20 * m / 2 = 10 * m by omega]
    push_cast
    ring
  have hw : (((crossImage (20 * m) (3 * m) (11 * m)).w / 2 : Nat) : ℝ) = 10 * m := hh
  have hm1 : (1 : ℝ) ≤ m := by exact_mod_cast hm
  refine ⟨by positivity, ?_, ?_⟩
  · rw [hh, hw]
    refine ⟨by ring, by ring, by ring, by ring⟩
  · constructor <;> linarith

/-- The hypotheses of `C85_edges` and `C85_circle` are met. -/
example : exSigmoidFit.FindsExact ∧ HasEdges (crossImage 40 6 22) 6 22 6 22 ∧
    CircleCrosses (crossImage (20 * 2) (3 * (2 : Nat)) (11 * (2 : Nat))) (7 * (2 : Nat)) (7 * (2 : Nat)) (5 * (2 : Nat)) (3 * (2 : Nat))
      (11 * (2 : Nat)) (3 * (2 : Nat)) (11 * (2 : Nat)) :=
  ⟨exSigmoidFit_exact, crossImage_edges (by norm_num) _ _, exCircle (by norm_num)⟩

/-- The full claim about the radius is false: whatever error one allows, some round occulter inside the image, with perfectly sharp
fits, gets a radius that is too small by more than that. -/
theorem C85_full_claim_false (err : Nat) :
    ∃ (fit : SigmoidFit) (A : Img ℝ) (top bottom left right cy cx R : ℝ) (y x r : Int), fit.FindsExact ∧ 8 ≤ A.h ∧ 8 ≤ A.w ∧
      HasEdges A top bottom left right ∧ CircleCrosses A cy cx R top bottom left right ∧
      R ≤ cy ∧ cy + R ≤ A.h ∧ R ≤ cx ∧ cx + R ≤ A.w ∧
      findOcculterPosition fit A .sigmoid 4 = .ok (y, x, r) ∧ (r : ℝ) + err < R := by
  obtain ⟨m, hm⟩ : ∃ m : Nat, m = err + 1 := ⟨_, rfl⟩
  have hm0 : 0 < m := by omega
  have hm1 : (1 : ℝ) ≤ m := by exact_mod_cast hm0
  have hc := exCircle hm0
  have hE := crossImage_edges (n := 20 * m) (by omega) (3 * m) (11 * m)
  have hh : (crossImage (20 * m) (3 * m) (11 * m)).h = 20 * m := rfl
  have hw : (crossImage (20 * m) (3 * m) (11 * m)).w = 20 * m := rfl
  obtain ⟨y, x, r, hr, _, _, h3, _⟩ := C85_circle exSigmoidFit_exact (by rw [hh]; omega) (by rw [hw]; omega) hE hc 4
  refine ⟨exSigmoidFit, _, _, _, _, _, 7 * m, 7 * m, 5 * m, y, x, r, exSigmoidFit_exact, by rw [hh]; omega, by rw [hw]; omega, hE, hc, ?_, ?_,
    ?_, ?_, hr, ?_⟩
  · linarith
  · rw [hh]; push_cast; linarith
  · linarith
  · rw [hw]; push_cast; linarith
  · have hs : Real.sqrt ((5 * (m : ℝ)) ^ 2 - (((20 * m / 2 : Nat) : ℝ) - 7 * m) ^ 2) = 4 * m := by
      rw [show 20 * m / 2 = 10 * m by omega]
      push_cast
      rw [show (5 * (m : ℝ)) ^ 2 - (10 * m - 7 * m) ^ 2 = (4 * m) ^ 2 by ring]
      exact Real.sqrt_sq (by positivity)
    rw [hh, hw, hs] at h3
    have h4 := h3.1
    rw [abs_of_nonneg (a := (4 * (m : ℝ) + 4 * m) / 2 - 1 / 2) (by linarith)] at h4
    have h5 := le_abs_self (r : ℝ)
    have h6 : (m : ℝ) = err + 1 := by rw [hm]; push_cast; ring
    linarith

/-- The full claim about the centre is false: an occulter placed symmetrically about the middle 7.5 of an image of 16 rows is
reported one row further down than the truncated middle of its edges. -/
theorem C85_centre_claim_false :
    ∃ (fit : SigmoidFit) (A : Img ℝ) (y x r : Int), fit.FindsExact ∧ A.HasShape 16 16 ∧ HasEdges A 4 11 4 11 ∧
      findOcculterPosition fit A .sigmoid 4 = .ok (y, x, r) ∧ ¬ IsTrunc (((4 : ℝ) + 11) / 2) y ∧ y = 8 := by
  have hE := crossImage_edges (n := 16) (by omega) 4 11
  obtain ⟨y, x, r, hr, h1, _, _⟩ := C85_edges exSigmoidFit_exact (by show 8 ≤ 16; omega) (by show 8 ≤ 16; omega) hE 4
  have hy : y = 8 := trunc_unique h1 (by refine ⟨?_, ?_, ?_⟩ <;> norm_num [abs_of_nonneg])
  refine ⟨exSigmoidFit, _, y, x, r, exSigmoidFit_exact, ⟨rfl, rfl⟩, hE, hr, ?_, hy⟩
  rw [hy]
  intro hc
  have := hc.1
  rw [abs_of_nonneg (by norm_num), abs_of_nonneg (by norm_num)] at this
  norm_num at this

/-! ## C86 -/

section

variable {env : HoughEnv} {A : Img ℝ} {B : Img Nat} {minr : ℝ} {maxr : Option ℝ}

/-- C86: the circle returned is the only one found at the first accumulator threshold of 10, 15, 20, … at which not more than one is
found; it is given as `(y, x, r)` while the detector gives `(x, y, r)`.  The largest radius searched is the longer side unless the
caller gives one. -/
theorem C86_first (hB : houghImage env A = .ok B) {k : Nat} {x y r : ℝ}
    (hmany : ∀ j, j < k → ∃ l, circlesAt env B (max A.h A.w) minr (maxr.getD ((max A.h A.w : Nat) : ℝ)) j = some l ∧ 2 ≤ l.length)
    (hone : circlesAt env B (max A.h A.w) minr (maxr.getD ((max A.h A.w : Nat) : ℝ)) k = some [(x, y, r)]) :
    findOcculterHough env A minr maxr = .ok (y, x, r) := by
  unfold findOcculterHough
  dsimp only
  rw [hB, Py.ok_bind, hough_loop (search := fun a => env.circles B (max A.h A.w) a minr (maxr.getD ((max A.h A.w : Nat) : ℝ))) (k := k)]
  · rw [Py.ok_bind]
    unfold circlesAt at hone
    dsimp only
    rw [hone]
    rfl
  · intro j hj
    obtain ⟨l, h1, h2⟩ := hmany j hj
    unfold circlesAt at h1
    rw [h1]
    exact decide_eq_true (by omega)
  · unfold circlesAt at hone
    rw [hone]
    rfl

/-- C86: if at the first threshold with at most one circle there is none, the call raises `TypeError`. -/
theorem C86_none (hB : houghImage env A = .ok B) {k : Nat}
    (hmany : ∀ j, j < k → ∃ l, circlesAt env B (max A.h A.w) minr (maxr.getD ((max A.h A.w : Nat) : ℝ)) j = some l ∧ 2 ≤ l.length)
    (hnone : circlesAt env B (max A.h A.w) minr (maxr.getD ((max A.h A.w : Nat) : ℝ)) k = none) :
    findOcculterHough env A minr maxr = .error .typeError := by
  unfold findOcculterHough
  dsimp only
  rw [hB, Py.ok_bind, hough_loop (search := fun a => env.circles B (max A.h A.w) a minr (maxr.getD ((max A.h A.w : Nat) : ℝ))) (k := k)]
  · rw [Py.ok_bind]
    unfold circlesAt at hnone
    dsimp only
    rw [hnone]
    rfl
  · intro j hj
    obtain ⟨l, h1, h2⟩ := hmany j hj
    unfold circlesAt at h1
    rw [h1]
    exact decide_eq_true (by omega)
  · unfold circlesAt at hnone
    rw [hnone]
    rfl

/-- C86: the search never ends exactly when every threshold gives several circles. -/
theorem C86_ends (hB : houghImage env A = .ok B) :
    findOcculterHough env A minr maxr = .error .hang ↔
      ∀ k, ∃ l, circlesAt env B (max A.h A.w) minr (maxr.getD ((max A.h A.w : Nat) : ℝ)) k = some l ∧ 2 ≤ l.length := by
  constructor
  · intro h
    by_contra hc
    push Not at hc
    have hex : ∃ k, ∀ l, circlesAt env B (max A.h A.w) minr (maxr.getD ((max A.h A.w : Nat) : ℝ)) k = some l → l.length < 2 := hc
    obtain ⟨k, h1, h2⟩ : ∃ k, (∀ l, circlesAt env B (max A.h A.w) minr (maxr.getD ((max A.h A.w : Nat) : ℝ)) k = some l → l.length < 2) ∧
        ∀ j, j < k → ∃ l, circlesAt env B (max A.h A.w) minr (maxr.getD ((max A.h A.w : Nat) : ℝ)) j = some l ∧ 2 ≤ l.length := by
      refine ⟨Nat.find hex, Nat.find_spec hex, ?_⟩
      intro j hj
      have := Nat.find_min hex hj
      push Not at this
      exact this
    match hk : circlesAt env B (max A.h A.w) minr (maxr.getD ((max A.h A.w : Nat) : ℝ)) k with
    | none =>
      rw [C86_none hB h2 hk] at h
      cases h
    | some [] =>
      have e : findOcculterHough env A minr maxr = .error .indexError := by
        unfold findOcculterHough
        dsimp only
        rw [hB, Py.ok_bind, hough_loop (search := fun a => env.circles B (max A.h A.w) a minr (maxr.getD ((max A.h A.w : Nat) : ℝ)))
          (k := k)]
        · rw [Py.ok_bind]
          unfold circlesAt at hk
          dsimp only
          rw [hk]
          rfl
        · intro j hj
          obtain ⟨l, h1, h2⟩ := h2 j hj
          unfold circlesAt at h1
          rw [h1]
          exact decide_eq_true (by omega)
        · unfold circlesAt at hk
          rw [hk]
          rfl
      rw [e] at h
      cases h
    | some [(x, y, r)] =>
      rw [C86_first hB h2 hk] at h
      cases h
    | some (a :: b :: l) =>
      have := h1 _ hk
      simp only [List.length_cons] at this
      omega
  · intro h
    unfold findOcculterHough
    dsimp only
    rw [hB, Py.ok_bind, whileLoop_eq_hang (fun s => ∃ k, s = (10 + 5 * k,
      env.circles B (max A.h A.w) (10 + 5 * k) minr (maxr.getD ((max A.h A.w : Nat) : ℝ)))) ⟨0, rfl⟩]
    · rfl
    · rintro _ ⟨k, rfl⟩
      obtain ⟨l, h1, h2⟩ := h k
      unfold circlesAt at h1
      dsimp only
      rw [h1]
      exact decide_eq_true (by omega)
    · rintro _ ⟨k, rfl⟩
      exact ⟨k + 1, rfl⟩

end

/-- The pixels of an image. -/
theorem imgMax_scale {A : Img ℝ} {g : ℝ} (hg : 0 < g) (hA : 0 < A.h ∧ 0 < A.w) :
    ∃ m, imgMax A = .ok m ∧ imgMax (A.map (fun v => g * v)) = .ok (g * m) := by
  have hne : (Finset.range A.h ×ˢ Finset.range A.w).Nonempty := ⟨(0, 0), by simp [hA.1, hA.2]⟩
  have hne' : (Finset.range (A.map (fun v => g * v)).h ×ˢ Finset.range (A.map (fun v => g * v)).w).Nonempty := hne
  refine ⟨_, by unfold imgMax; rw [dif_pos hne], ?_⟩
  unfold imgMax
  rw [dif_pos hne']
  congr 1
  have e : ∀ q ∈ Finset.range A.h ×ˢ Finset.range A.w, (A.map (fun v => g * v)).px q.1 q.2 = g * A.px q.1 q.2 := by
    intro q hq
    simp only [Finset.mem_product, Finset.mem_range] at hq
    exact Img.map_px _ _ hq.1 hq.2
  apply le_antisymm
  · refine Finset.sup'_le _ _ ?_
    intro q hq
    rw [e q hq]
    exact mul_le_mul_of_nonneg_left (Finset.le_sup' (fun q : Nat × Nat => A.px q.1 q.2) hq) hg.le
  · obtain ⟨q, hq, hm⟩ := Finset.exists_mem_eq_sup' hne (fun q : Nat × Nat => A.px q.1 q.2)
    rw [hm, ← e q hq]
    exact Finset.le_sup' (fun q : Nat × Nat => (A.map (fun v => g * v)).px q.1 q.2) hq

/-- C86: the answer does not depend on the gain: an image multiplied by a positive number gives the same outcome. -/
theorem C86_gain (env : HoughEnv) (A : Img ℝ) {g : ℝ} (hg : 0 < g) (minr : ℝ) (maxr : Option ℝ) :
    findOcculterHough env (A.map (fun v => g * v)) minr maxr = findOcculterHough env A minr maxr := by
  have hs : (A.map (fun v => g * v)).h = A.h ∧ (A.map (fun v => g * v)).w = A.w := ⟨rfl, rfl⟩
  have key : houghImage env (A.map (fun v => g * v)) = houghImage env A := by
    by_cases hA : 0 < A.h ∧ 0 < A.w
    · obtain ⟨m, h1, h2⟩ := imgMax_scale hg hA
      unfold houghImage
      rw [h1, h2, Py.ok_bind, Py.ok_bind]
      by_cases hm : m = 0
      · rw [if_pos hm, if_pos (by rw [hm, mul_zero])]
      · rw [if_neg hm, if_neg (mul_ne_zero hg.ne' hm)]
        congr 2
        refine Img.ext_px rfl rfl ?_
        intro y x (hy : y < A.h) (hx : x < A.w)
        rw [Img.map_px _ _ (by exact hy) (by exact hx), Img.map_px _ _ hy hx, Img.map_px _ _ hy hx]
        congr 1
        field_simp
    · have hne : ¬ (Finset.range A.h ×ˢ Finset.range A.w).Nonempty := by
        rintro ⟨q, hq⟩
        simp only [Finset.mem_product, Finset.mem_range] at hq
        exact hA ⟨by omega, by omega⟩
      unfold houghImage imgMax
      rw [dif_neg hne, dif_neg (by exact hne)]
      rfl
  unfold findOcculterHough
  dsimp only
  rw [key, hs.1, hs.2]

/-- C86: the detector gets, after the blur, a picture with values 0..255 in which the brightest pixels of an image without negative
pixels are 255, and the order of brightness is kept. -/
theorem C86_image (env : HoughEnv) {A : Img ℝ} (h0 : ∀ y x, y < A.h → x < A.w → 0 ≤ A.px y x) {m : ℝ} (hm : 0 < m)
    (hle : ∀ y x, y < A.h → x < A.w → A.px y x ≤ m) (hex : ∃ y x, y < A.h ∧ x < A.w ∧ A.px y x = m) :
    ∃ B : Img Nat, houghImage env A = .ok (env.blur B) ∧ B.HasShape A.h A.w ∧
      (∀ y x, y < A.h → x < A.w → (B.px y x : ℝ) ≤ 255 * A.px y x / m ∧ 255 * A.px y x / m < B.px y x + 1) ∧
      (∀ y x, y < A.h → x < A.w → B.px y x ≤ 255 ∧ (A.px y x = m → B.px y x = 255)) := by
  obtain ⟨y0, x0, hy0, hx0, e0⟩ := hex
  have hne : (Finset.range A.h ×ˢ Finset.range A.w).Nonempty := ⟨(y0, x0), by simp [hy0, hx0]⟩
  have hmax : imgMax A = .ok m := by
    unfold imgMax
    rw [dif_pos hne]
    congr 1
    apply le_antisymm
    · refine Finset.sup'_le _ _ ?_
      intro q hq
      simp only [Finset.mem_product, Finset.mem_range] at hq
      exact hle q.1 q.2 hq.1 hq.2
    · rw [← e0]
      exact Finset.le_sup' (fun q : Nat × Nat => A.px q.1 q.2) (by simp [hy0, hx0] : (y0, x0) ∈ _)
  have px : ∀ y x, y < A.h → x < A.w → (A.map (fun v => toUint8 env (255 * v / m))).px y x = ⌊255 * A.px y x / m⌋.toNat ∧
      0 ≤ 255 * A.px y x / m ∧ 255 * A.px y x / m ≤ 255 := by
    intro y x hy hx
    have p0 := h0 y x hy hx
    have p1 : 0 ≤ 255 * A.px y x / m := by positivity
    have p2 : 255 * A.px y x / m ≤ 255 := by
      rw [div_le_iff₀ hm]
      have := hle y x hy hx
      linarith
    refine ⟨?_, p1, p2⟩
    rw [Img.map_px _ _ hy hx]
    unfold toUint8
    rw [if_pos ⟨p1, by linarith⟩]
  refine ⟨A.map (fun v => toUint8 env (255 * v / m)), ?_, ⟨rfl, rfl⟩, ?_, ?_⟩
  · unfold houghImage
    rw [hmax, Py.ok_bind, if_neg hm.ne']
  · intro y x hy hx
    obtain ⟨g1, g2, g3⟩ := px y x hy hx
    rw [g1]
    have hfl : 0 ≤ ⌊255 * A.px y x / m⌋ := Int.floor_nonneg.2 g2
    have : ((⌊255 * A.px y x / m⌋.toNat : Nat) : ℝ) = (⌊255 * A.px y x / m⌋ : ℝ) := by
      exact_mod_cast Int.toNat_of_nonneg hfl
    rw [this]
    exact ⟨Int.floor_le _, Int.lt_floor_add_one _⟩
  · intro y x hy hx
    obtain ⟨g1, g2, g3⟩ := px y x hy hx
    rw [g1]
    constructor
    · have : ⌊255 * A.px y x / m⌋ ≤ 255 := by
        have := Int.floor_le (255 * A.px y x / m)
        have h5 : ((⌊255 * A.px y x / m⌋ : ℤ) : ℝ) ≤ ((255 : ℤ) : ℝ) := by push_cast; linarith
        exact_mod_cast h5
      omega
    · intro hp
      rw [hp, mul_div_assoc, div_self hm.ne', mul_one]
      have : ⌊(255 : ℝ)⌋ = 255 := by exact_mod_cast Int.floor_intCast (R := ℝ) 255
      rw [this]
      rfl

/-- A detector that finds two circles at the threshold 10 and one at 15. -/
def exHough : HoughEnv where
  blur := id
  circles _ _ acc _ _ := if acc = 10 then some [(1, 2, 3), (4, 5, 6)] else some [(1, 2, 3)]
  wild _ := 0

/-- The hypotheses of `C86_first` are met. -/
example : findOcculterHough exHough (Img.const 4 4 1) 1 none = .ok (2, 1, 3) := by
  obtain ⟨B, hB, _⟩ := C86_image exHough (A := Img.const 4 4 1) (fun y x hy hx => by rw [show (Img.const 4 4 (1 : ℝ)).px y x = 1 from Img.ofFn_px hy hx]; norm_num)
    one_pos (fun y x hy hx => le_of_eq (Img.ofFn_px hy hx)) ⟨0, 0, by decide, by decide, Img.ofFn_px (by omega) (by omega)⟩
  refine C86_first hB (k := 1) ?_ rfl
  intro j hj
  have : j = 0 := by omega
  subst this
  exact ⟨_, rfl, by simp⟩

end

end Micropol
