import Verif.Lemmas.Chen
import Verif.Props.Corrections
import Mathlib.Tactic.LinearCombination

/-!
# C84: the matrices of the Chen-Wang-Liang calibration
-/

set_option autoImplicit false
set_option linter.unusedSectionVars false

namespace Micropol

noncomputable section

open Classical Finset

/-! ## Calls that fail -/

/-- C84: the call with the default `occulter=True` gives no matrices, whatever the other arguments and the files are. -/
theorem C84_default_fails (env : ChenEnv) (fs : Name → Option (Img ℝ)) (a : ChenArgs) (h : a.occulter = true) :
    ∀ r, calculateChen env fs a ≠ .ok r := by
  intro r hr
  unfold calculateChen at hr
  split_ifs at hr
  dsimp only at hr
  obtain ⟨_, _, g⟩ := Py.bind_eq_ok.1 hr
  cases g

/-- C84: the call without a flat gives no matrices. -/
theorem C84_no_flat_fails (env : ChenEnv) (fs : Name → Option (Img ℝ)) (a : ChenArgs) (h : a.flat = none) :
    ∀ r, calculateChen env fs a ≠ .ok r := by
  intro r hr
  unfold calculateChen at hr
  split_ifs at hr with h1 h2 h3
  · obtain ⟨_, _, g⟩ := Py.bind_eq_ok.1 hr
    cases g
  · obtain ⟨_, _, g1⟩ := Py.bind_eq_ok.1 hr
    obtain ⟨_, _, g2⟩ := Py.bind_eq_ok.1 g1
    rw [h] at g2
    obtain ⟨_, g3, g4⟩ := Py.bind_eq_ok.1 g2
    cases g3
    obtain ⟨_, g5, _⟩ := Py.bind_eq_ok.1 g4
    cases g5

/-- C84: an empty name for the dark makes the call fail. -/
theorem C84_empty_dark_fails (env : ChenEnv) (fs : Name → Option (Img ℝ)) (a : ChenArgs) (h : a.dark = some [])
    (hn : a.filenames ≠ []) : ∀ r, calculateChen env fs a ≠ .ok r := by
  intro r hr
  unfold calculateChen at hr
  split_ifs at hr with h1 h2 h3
  · obtain ⟨_, _, g⟩ := Py.bind_eq_ok.1 hr
    cases g
  · obtain ⟨_, _, g1⟩ := Py.bind_eq_ok.1 hr
    obtain ⟨dk, gd, g2⟩ := Py.bind_eq_ok.1 g1
    rw [h] at gd
    cases gd
    obtain ⟨_, _, g3⟩ := Py.bind_eq_ok.1 g2
    obtain ⟨_, _, g4⟩ := Py.bind_eq_ok.1 g3
    obtain ⟨mx, _, g5⟩ := Py.bind_eq_ok.1 g4
    split_ifs at g5 with h5
    obtain ⟨nf, _, g6⟩ := Py.bind_eq_ok.1 g5
    obtain ⟨fr, g7, _⟩ := Py.bind_eq_ok.1 g6
    have hne : sortedPairs a.orientations a.filenames ≠ [] := by
      intro hc
      have := congrArg List.length hc
      unfold sortedPairs at this
      rw [List.length_insertionSort, List.length_zip] at this
      rw [not_not] at h1
      rw [h1, Nat.min_self] at this
      exact hn (List.length_eq_zero_iff.1 this)
    match hL : sortedPairs a.orientations a.filenames, hne with
    | p :: L, _ =>
      rw [hL, List.mapM_cons] at g7
      obtain ⟨_, g8, _⟩ := Py.bind_eq_ok.1 g7
      unfold chenFrame at g8
      obtain ⟨_, _, g9⟩ := Py.bind_eq_ok.1 g8
      rw [h] at g9
      cases g9

/-- C84: lists of different lengths, and lists of orientations without 0, 45, 90 or -45, are rejected with a `ValueError`. -/
theorem C84_rejects (env : ChenEnv) (fs : Name → Option (Img ℝ)) (a : ChenArgs)
    (h : a.orientations.length ≠ a.filenames.length ∨
      ¬ ((0 : ℝ) ∈ a.orientations ∧ (45 : ℝ) ∈ a.orientations ∧ (90 : ℝ) ∈ a.orientations ∧ (-45 : ℝ) ∈ a.orientations)) :
    calculateChen env fs a = .error .valueError := by
  unfold calculateChen
  by_cases h1 : a.orientations.length ≠ a.filenames.length
  · rw [if_pos h1]
  · rw [if_neg h1, if_pos]
    intro hall
    rcases h with h | h
    · exact h1 h
    · exact h ⟨hall 0 (by simp [normMinus]), hall 45 (by simp [normMinus]), hall 90 (by simp [normMinus]),
        hall (-45) (by simp [normMinus])⟩

/-! ## The matrices -/

section

variable {env : ChenEnv} {fs : Name → Option (Img ℝ)} {a : ChenArgs} {H W : Nat} {A : Name → Img ℝ} {D : Option (Img ℝ)}
  {F : Img ℝ} {M : ℝ} {pos : Fin 4 → Fin 4}

/-- C84: with a flat and without occulter the calibration gives sixteen matrices and one offset image of the size of the frames; in
every superpixel they are the means over the files of `frameMatrix` and `frameOffset`. -/
theorem C84_result (he : env.PinvCorrect) (h : ChenReadable fs a H W A D F M pos) :
    ∃ C d, calculateChen env fs a = .ok (C, d) ∧ d.HasShape H W ∧ (∀ i j, (C i j).HasShape H W) ∧
      ∀ Y X, Y < H / 2 → X < W / 2 → ∀ i j k : Fin 4,
        (C i j).superpixel Y X k =
          (a.filenames.map fun n => frameMatrix a.previsions pos (cleanSuper (A n) D F M Y X) i j).sum / a.filenames.length ∧
        d.superpixel Y X k =
          (a.filenames.map fun n => frameOffset pos (cleanSuper (A n) D F M Y X) k).sum / a.filenames.length := by
  refine ⟨_, _, calculateChen_ok he h, ⟨rfl, rfl⟩, fun i j => ⟨rfl, rfl⟩, ?_⟩
  intro Y X hY hX i j k
  have := k.isLt
  have e1 : (2 * Y + k.val / 2) / 2 = Y := by omega
  have e2 : (2 * X + k.val % 2) / 2 = X := by omega
  constructor
  · unfold Img.superpixel
    rw [Img.ofFn_px (by omega) (by omega)]
    unfold chenC
    rw [e1, e2]
  · unfold Img.superpixel
    rw [Img.ofFn_px (by omega) (by omega)]
    unfold chenD
    rw [e1, e2, famIdx_of]

end

/-- C84: the order in which the files are listed does not matter, whatever they hold. -/
theorem C84_order (env : ChenEnv) (fs : Name → Option (Img ℝ)) (a b : ChenArgs) (ha : a.orientations.length = a.filenames.length)
    (hb : b.orientations.length = b.filenames.length)
    (hp : (a.orientations.zip a.filenames).Perm (b.orientations.zip b.filenames)) (h1 : a.previsions = b.previsions)
    (h2 : a.occulter = b.occulter) (h3 : a.dark = b.dark) (h4 : a.flat = b.flat) :
    calculateChen env fs a = calculateChen env fs b := by
  have hs : sortedPairs a.orientations a.filenames = sortedPairs b.orientations b.filenames := by
    unfold sortedPairs
    refine List.Perm.eq_of_pairwise' (r := pairLe) (List.pairwise_insertionSort pairLe _) (List.pairwise_insertionSort pairLe _) ?_
    exact (List.perm_insertionSort pairLe _).trans (hp.trans (List.perm_insertionSort pairLe _).symm)
  have ho : a.orientations.Perm b.orientations := by
    have := hp.map Prod.fst
    rwa [List.map_fst_zip (le_of_eq ha), List.map_fst_zip (le_of_eq hb)] at this
  have hall : allIn normMinus a.orientations ↔ allIn normMinus b.orientations := by
    unfold allIn
    exact forall₂_congr fun v _ => ho.mem_iff
  have hfr : ∀ dk nf, (fun p : ℝ × Name => chenFrame fs a dk nf p.2) = fun p => chenFrame fs b dk nf p.2 := by
    intro dk nf
    funext p
    unfold chenFrame
    rw [h3, h4]
  unfold calculateChen
  rw [if_neg (by rw [ha]; simp), if_neg (c := b.orientations.length ≠ b.filenames.length) (by rw [hb]; simp)]
  by_cases hc : allIn normMinus a.orientations
  · rw [if_neg (by rw [not_not]; exact hc), if_neg (c := ¬ allIn normMinus b.orientations) (by rw [not_not]; exact hall.1 hc)]
    dsimp only
    simp only [hs, h1, h2, h3, h4, hfr]
  · rw [if_pos hc, if_pos (by rw [← hall]; exact hc)]

section

variable {env : ChenEnv} {fs : Name → Option (Img ℝ)} {a : ChenArgs} {H W : Nat} {A : Name → Img ℝ} {D : Option (Img ℝ)}
  {F : Img ℝ} {M : ℝ} {pos : Fin 4 → Fin 4}

theorem sum_map_const {α : Type} {l : List α} {f : α → ℝ} {c : ℝ} (h : ∀ n ∈ l, f n = c) : (l.map f).sum = l.length * c := by
  induction l with
  | nil => simp
  | cons n l ih =>
    rw [List.map_cons, List.sum_cons, h n (by simp), ih (fun m hm => h m (by simp [hm])), List.length_cons]
    push_cast
    ring

theorem ChenReadable.nonempty (h : ChenReadable fs a H W A D F M pos) : a.filenames ≠ [] := by
  intro hc
  have := h.len
  rw [hc] at this
  have h0 := h.reference.1
  rw [List.length_eq_zero_iff.1 this] at h0
  simp at h0

/-- C84: where all frames agree on a superpixel (with signal and with measured Stokes parameters that are not all 0), applying the
matrices to that superpixel gives the response of ideal micropolarizers to the measured Stokes parameters. -/
theorem C84_constant (he : env.PinvCorrect) (h : ChenReadable fs a H W A D F M pos) {Y X : Nat} (hY : Y < H / 2) (hX : X < W / 2)
    {p : Fin 4 → ℝ} (hall : ∀ n ∈ a.filenames, cleanSuper (A n) D F M Y X = p) (hs : measured pos p ≠ 0) :
    ∃ C d, calculateChen env fs a = .ok (C, d) ∧
      ∀ i, ∑ j, (C i j).px (2 * Y) (2 * X) * (p j - d.superpixel Y X j) = idealResponse a.previsions (measured pos p) i := by
  obtain ⟨C, d, hr, _, _, hv⟩ := C84_result he h
  refine ⟨C, d, hr, ?_⟩
  have hlen : (a.filenames.length : ℝ) ≠ 0 := by
    have := List.length_pos_iff.2 h.nonempty
    positivity
  have hC : ∀ i j, (C i j).px (2 * Y) (2 * X) = frameMatrix a.previsions pos p i j := by
    intro i j
    have := (hv Y X hY hX i j 0).1
    rw [sum_map_const (fun n hn => by rw [hall n hn])] at this
    rw [mul_div_cancel_left₀ _ hlen] at this
    exact this
  have hd : ∀ k, d.superpixel Y X k = frameOffset pos p k := by
    intro k
    have := (hv Y X hY hX 0 0 k).2
    rw [sum_map_const (fun n hn => by rw [hall n hn])] at this
    rwa [mul_div_cancel_left₀ _ hlen] at this
  have hp : p ≠ 0 := by
    intro hc
    apply hs
    rw [hc]
    funext m
    fin_cases m <;> simp [measured]
  intro i
  have p1 := sqLen_pos hp
  have p2 := sqLen_pos hs
  have : ∀ j, (C i j).px (2 * Y) (2 * X) * (p j - d.superpixel Y X j) =
      idealResponse a.previsions (measured pos p) i / sqLen p * (p j * p j) := by
    intro j
    rw [hC, hd]
    unfold frameMatrix frameOffset
    rw [if_neg hs]
    have : sqLen (measured pos p) + 1 ≠ 0 := by positivity
    field_simp
    ring
  rw [sum_congr rfl fun j _ => this j, ← mul_sum]
  show _ / sqLen p * sqLen p = _
  field_simp

/-- Sum over the four positions in the order 0, 45, -45, 90 degrees. -/
theorem ChenReadable.sum (h : ChenReadable fs a H W A D F M pos) (f : Fin 4 → ℝ) :
    ∑ j, f j = f (pos 0) + f (pos 1) + f (pos 2) + f (pos 3) := by
  have hsurj : Function.Surjective pos := fun k => by
    obtain ⟨l, hl⟩ := h.only k
    exact ⟨l, hl.symm⟩
  have hb : Function.Bijective pos := ⟨Finite.injective_iff_surjective.2 hsurj, hsurj⟩
  rw [← (Equiv.ofBijective pos hb).sum_comp f, Fin.sum_univ_four]
  rfl

theorem ChenReadable.ideal (h : ChenReadable fs a H W A D F M pos) (S : Fin 3 → ℝ) :
    idealResponse a.previsions S (pos 0) = (S 0 + S 1) / 2 ∧ idealResponse a.previsions S (pos 1) = (S 0 + S 2) / 2 ∧
    idealResponse a.previsions S (pos 2) = (S 0 - S 2) / 2 ∧ idealResponse a.previsions S (pos 3) = (S 0 - S 1) / 2 := by
  obtain ⟨p0, p1, p2, p3⟩ := h.positions
  unfold idealResponse
  rw [p0, p1, p2, p3]
  have a1 : 2 * ((45 : ℝ) * (Real.pi / 180)) = Real.pi / 2 := by ring
  have a2 : 2 * ((-45 : ℝ) * (Real.pi / 180)) = -(Real.pi / 2) := by ring
  have a3 : 2 * ((90 : ℝ) * (Real.pi / 180)) = Real.pi := by ring
  rw [a1, a2, a3, zero_mul, mul_zero, Real.cos_neg, Real.sin_neg, Real.cos_pi_div_two, Real.sin_pi_div_two, Real.cos_pi, Real.sin_pi,
    Real.cos_zero, Real.sin_zero]
  refine ⟨by ring, by ring, by ring, by ring⟩

/-- C84 (the calibration does not do what its name says): take a sensor whose superpixel is ideal, four frames of light of
intensity `I` behind a polarizer at 0, 45, -45 and 90 degrees, and the matrices computed from them.  Light with Stokes parameters `S`
on that same ideal superpixel is then turned into the response to `(g S₀ - 1 / (3 I), g S₁ / 4, g S₂ / 4)` with
`g = (2 I² + 1) / (3 I²)`: the polarized part is four times too small. -/
theorem C84_ideal_sensor (he : env.PinvCorrect) (h : ChenReadable fs a H W A D F M pos) {Y X : Nat} (hY : Y < H / 2)
    (hX : X < W / 2) {I : ℝ} (hI : 0 < I) {n0 n1 n2 n3 : Name} (hn : a.filenames = [n0, n1, n2, n3])
    (h0 : cleanSuper (A n0) D F M Y X = idealResponse a.previsions (polarized I 0))
    (h1 : cleanSuper (A n1) D F M Y X = idealResponse a.previsions (polarized I 45))
    (h2 : cleanSuper (A n2) D F M Y X = idealResponse a.previsions (polarized I (-45)))
    (h3 : cleanSuper (A n3) D F M Y X = idealResponse a.previsions (polarized I 90)) (S : Fin 3 → ℝ) :
    ∃ C d, calculateChen env fs a = .ok (C, d) ∧
      ∀ i, ∑ j, (C i j).px (2 * Y) (2 * X) * (idealResponse a.previsions S j - d.superpixel Y X j) =
        idealResponse a.previsions ![(2 * I ^ 2 + 1) / (3 * I ^ 2) * S 0 - 1 / (3 * I), (2 * I ^ 2 + 1) / (3 * I ^ 2) * S 1 / 4,
          (2 * I ^ 2 + 1) / (3 * I ^ 2) * S 2 / 4] i := by
  obtain ⟨C, d, hr, _, _, hv⟩ := C84_result he h
  refine ⟨C, d, hr, ?_⟩
  have a1 : 2 * ((45 : ℝ) * (Real.pi / 180)) = Real.pi / 2 := by ring
  have a2 : 2 * ((-45 : ℝ) * (Real.pi / 180)) = -(Real.pi / 2) := by ring
  have a3 : 2 * ((90 : ℝ) * (Real.pi / 180)) = Real.pi := by ring
  have q0 : polarized I 0 = ![I, I, 0] := by
    unfold polarized
    rw [zero_mul, mul_zero, Real.cos_zero, Real.sin_zero, mul_one, mul_zero]
  have q1 : polarized I 45 = ![I, 0, I] := by
    unfold polarized
    rw [a1, Real.cos_pi_div_two, Real.sin_pi_div_two, mul_one, mul_zero]
  have q2 : polarized I (-45) = ![I, 0, -I] := by
    unfold polarized
    rw [a2, Real.cos_neg, Real.sin_neg, Real.cos_pi_div_two, Real.sin_pi_div_two, mul_neg, mul_one, mul_zero]
  have q3 : polarized I 90 = ![I, -I, 0] := by
    unfold polarized
    rw [a3, Real.cos_pi, Real.sin_pi, mul_neg, mul_one, mul_zero]
  -- an ideal superpixel measures the Stokes parameters
  have meas : ∀ T : Fin 3 → ℝ, measured pos (idealResponse a.previsions T) = T := by
    intro T
    obtain ⟨t0, t1, t2, t3⟩ := h.ideal T
    funext m
    fin_cases m
    · show idealResponse a.previsions T (pos 0) + idealResponse a.previsions T (pos 3) = T 0
      rw [t0, t3]; ring
    · show idealResponse a.previsions T (pos 0) - idealResponse a.previsions T (pos 3) = T 1
      rw [t0, t3]; ring
    · show idealResponse a.previsions T (pos 1) - idealResponse a.previsions T (pos 2) = T 2
      rw [t1, t2]; ring
  have len3 : ∀ T : Fin 3 → ℝ, sqLen T = T 0 * T 0 + (T 1 * T 1 + T 2 * T 2) := by
    intro T
    unfold sqLen
    rw [Fin.sum_univ_three, add_assoc]
  have len4 : ∀ T : Fin 3 → ℝ, sqLen (idealResponse a.previsions T) = T 0 * T 0 + (T 1 * T 1 + T 2 * T 2) / 2 := by
    intro T
    obtain ⟨t0, t1, t2, t3⟩ := h.ideal T
    unfold sqLen
    rw [h.sum, t0, t1, t2, t3]
    ring
  have fm : ∀ T : Fin 3 → ℝ, T 0 = I → T 1 * T 1 + T 2 * T 2 = I * I → ∀ i j,
      frameMatrix a.previsions pos (idealResponse a.previsions T) i j =
        (2 * I ^ 2 + 1) / (3 * I ^ 4) * (idealResponse a.previsions T i * idealResponse a.previsions T j) := by
    intro T hT0 hT1 i j
    have hne : T ≠ 0 := by
      intro hc
      rw [hc] at hT0
      exact hI.ne hT0
    unfold frameMatrix
    rw [meas T, if_neg hne, len3, len4, hT1, hT0]
    field_simp
    ring
  have fo : ∀ T : Fin 3 → ℝ, T 0 = I → T 1 * T 1 + T 2 * T 2 = I * I → ∀ j,
      frameOffset pos (idealResponse a.previsions T) j = idealResponse a.previsions T j / (2 * I ^ 2 + 1) := by
    intro T hT0 hT1 j
    unfold frameOffset
    rw [meas T, len3, hT0, hT1]
    congr 1
    ring
  have ir : ∀ (u v w : ℝ) (k : Fin 4), idealResponse a.previsions ![u, v, w] k =
      (u + Real.cos (2 * (a.previsions k * (Real.pi / 180))) * v + Real.sin (2 * (a.previsions k * (Real.pi / 180))) * w) / 2 :=
    fun _ _ _ _ => rfl
  have hC : ∀ i j, (C i j).px (2 * Y) (2 * X) = (2 * I ^ 2 + 1) / (3 * I ^ 2) * (1 / 4 +
      Real.cos (2 * (a.previsions i * (Real.pi / 180))) * Real.cos (2 * (a.previsions j * (Real.pi / 180))) / 8 +
      Real.sin (2 * (a.previsions i * (Real.pi / 180))) * Real.sin (2 * (a.previsions j * (Real.pi / 180))) / 8) := by
    intro i j
    have := (hv Y X hY hX i j 0).1
    rw [hn] at this
    simp only [List.map_cons, List.map_nil, List.sum_cons, List.sum_nil, List.length_cons, List.length_nil, h0, h1, h2, h3] at this
    rw [q0, q1, q2, q3] at this
    rw [fm ![I, I, 0] rfl (by show I * I + 0 * 0 = _; ring), fm ![I, 0, I] rfl (by show 0 * 0 + I * I = _; ring),
      fm ![I, 0, -I] rfl (by show 0 * 0 + -I * -I = _; ring), fm ![I, -I, 0] rfl (by show -I * -I + 0 * 0 = _; ring)] at this
    refine Eq.trans this ?_
    simp only [ir]
    push_cast
    field_simp
    ring
  have hd : ∀ k, d.superpixel Y X k = I / (2 * (2 * I ^ 2 + 1)) := by
    intro k
    have := (hv Y X hY hX 0 0 k).2
    rw [hn] at this
    simp only [List.map_cons, List.map_nil, List.sum_cons, List.sum_nil, List.length_cons, List.length_nil, h0, h1, h2, h3] at this
    rw [q0, q1, q2, q3] at this
    rw [fo ![I, I, 0] rfl (by show I * I + 0 * 0 = _; ring), fo ![I, 0, I] rfl (by show 0 * 0 + I * I = _; ring),
      fo ![I, 0, -I] rfl (by show 0 * 0 + -I * -I = _; ring), fo ![I, -I, 0] rfl (by show -I * -I + 0 * 0 = _; ring)] at this
    refine Eq.trans this ?_
    simp only [ir]
    push_cast
    field_simp
    ring
  intro i
  rw [h.sum]
  obtain ⟨t0, t1, t2, t3⟩ := h.ideal S
  obtain ⟨p0, p1, p2, p3⟩ := h.positions
  rw [t0, t1, t2, t3]
  simp only [hC, hd, p0, p1, p2, p3, a1, a2, a3, zero_mul, mul_zero, Real.cos_neg, Real.sin_neg, Real.cos_pi_div_two,
    Real.sin_pi_div_two, Real.cos_pi, Real.sin_pi, Real.cos_zero, Real.sin_zero, ir]
  field_simp
  ring

end

/-! ## A concrete case -/

/-- A correct `pinv`. -/
def exChenEnv : ChenEnv where
  pinvColumn S k := S k / sqLen S
  pinv M := if h : ∃ P, IsMoorePenrose (Matrix.of M) (Matrix.of P) then some (Classical.choose h) else none

theorem exChenEnv_correct : exChenEnv.PinvCorrect := by
  constructor
  · intro S
    have h2 := rankOne_pinv S (fun _ : Fin 1 => (1 : ℝ))
    have e : (Matrix.of fun k (l : Fin 1) => S k * (fun _ : Fin 1 => (1 : ℝ)) l) = Matrix.of fun k (_ : Fin 1) => S k := by
      ext; simp
    have e2 : (Matrix.of fun (l : Fin 1) k => (fun _ : Fin 1 => (1 : ℝ)) l * S k / (sqLen S * sqLen fun _ : Fin 1 => (1 : ℝ))) =
        Matrix.of fun _ k => exChenEnv.pinvColumn S k := by
      ext i k
      have : sqLen (fun _ : Fin 1 => (1 : ℝ)) = 1 := by simp [sqLen]
      simp only [Matrix.of_apply, this]
      show 1 * S k / (sqLen S * 1) = S k / sqLen S
      rw [one_mul, mul_one]
    rw [e, e2] at h2
    exact h2
  · intro u v
    have h : ∃ P, IsMoorePenrose (Matrix.of fun k m => u k * v m) (Matrix.of P) := ⟨_, rankOne_pinv u v⟩
    refine ⟨Classical.choose h, ?_, Classical.choose_spec h⟩
    show (if h : ∃ P, IsMoorePenrose (Matrix.of fun k m => u k * v m) (Matrix.of P) then some (Classical.choose h) else none) = _
    rw [dif_pos h]

/-- The orientation of the polarizer of each file. -/
def exChenAngle (n : Name) : ℝ := if n = ['a'] then 0 else if n = ['b'] then 45 else if n = ['c'] then -45 else 90

/-- Four frames of an ideal sensor with one superpixel. -/
def exChenFrames (n : Name) : Img ℝ :=
  Img.ofFn 2 2 (fun y x => idealResponse ![0, 45, -45, 90] (polarized 1 (exChenAngle n)) (famIdx y x))

/-- The files: the frames and a flat of ones. -/
def exChenFs (n : Name) : Option (Img ℝ) := if n = ['f'] then some (Img.const 2 2 1) else some (exChenFrames n)

/-- The call. -/
def exChenArgs : ChenArgs where
  orientations := [0, 45, -45, 90]
  filenames := [['a'], ['b'], ['c'], ['d']]
  previsions := ![0, 45, -45, 90]
  occulter := false
  dark := none
  flat := some ['f']

theorem exChen_readable : ChenReadable exChenFs exChenArgs 2 2 exChenFrames none (Img.const 2 2 1) 1 id where
  len := rfl
  reference := by
    show (0 : ℝ) ∈ ([0, 45, -45, 90] : List ℝ) ∧ (45 : ℝ) ∈ ([0, 45, -45, 90] : List ℝ) ∧
      (90 : ℝ) ∈ ([0, 45, -45, 90] : List ℝ) ∧ (-45 : ℝ) ∈ ([0, 45, -45, 90] : List ℝ)
    refine ⟨by simp, by simp, by simp, by simp⟩
  noOcculter := rfl
  even := ⟨rfl, rfl⟩
  frames := by
    intro n hn
    refine ⟨?_, rfl, rfl⟩
    unfold exChenFs
    rw [if_neg]
    rintro rfl
    revert hn
    decide
  dark := Or.inl ⟨rfl, rfl⟩
  flat := ⟨['f'], by decide, rfl, rfl, rfl, rfl⟩
  greatest := by
    refine ⟨⟨0, 0, by omega, by omega, ?_⟩, ?_⟩
    · exact Img.ofFn_px (by omega) (by omega)
    · intro y x hy hx
      exact le_of_eq (Img.ofFn_px hy hx)
  notDark := one_ne_zero
  positions := ⟨rfl, rfl, rfl, rfl⟩

theorem exChen_super (n : Name) : cleanSuper (exChenFrames n) none (Img.const 2 2 1) 1 0 0 =
    idealResponse exChenArgs.previsions (polarized 1 (exChenAngle n)) := by
  funext k
  have hk := k.isLt
  have e : litFlat (Img.const 2 2 1) none (2 * 0 + k.val / 2) (2 * 0 + k.val % 2) = 1 := Img.ofFn_px (by omega) (by omega)
  unfold cleanSuper cleanPixel
  dsimp only
  rw [e, if_neg one_ne_zero, div_one, div_one]
  unfold exChenFrames
  rw [Img.ofFn_px (by omega) (by omega), famIdx_of]
  rfl

/-- The hypotheses of `C84_ideal_sensor` are met. -/
example : exChenEnv.PinvCorrect ∧ ChenReadable exChenFs exChenArgs 2 2 exChenFrames none (Img.const 2 2 1) 1 id ∧
    cleanSuper (exChenFrames ['a']) none (Img.const 2 2 1) 1 0 0 = idealResponse exChenArgs.previsions (polarized 1 0) :=
  ⟨exChenEnv_correct, exChen_readable, by rw [exChen_super]; rfl⟩

/-- The full claim is false: matrices computed from the frames of an ideal sensor do not leave the frames of that sensor as they
are. -/
theorem C84_full_claim_false :
    ¬ ∀ (env : ChenEnv) (fs : Name → Option (Img ℝ)) (a : ChenArgs) (H W : Nat) (A : Name → Img ℝ) (D : Option (Img ℝ))
      (F : Img ℝ) (M : ℝ) (pos : Fin 4 → Fin 4), env.PinvCorrect → ChenReadable fs a H W A D F M pos →
      ∀ Y X, Y < H / 2 → X < W / 2 → (∀ p ∈ a.orientations.zip a.filenames,
        cleanSuper (A p.2) D F M Y X = idealResponse a.previsions (polarized 1 p.1)) →
      ∃ C d, calculateChen env fs a = .ok (C, d) ∧ ∀ S : Fin 3 → ℝ, ∀ i,
        ∑ j, (C i j).px (2 * Y) (2 * X) * (idealResponse a.previsions S j - d.superpixel Y X j) =
          idealResponse a.previsions S i := by
  intro hc
  have hframes : ∀ p ∈ exChenArgs.orientations.zip exChenArgs.filenames,
      cleanSuper (exChenFrames p.2) none (Img.const 2 2 1) 1 0 0 = idealResponse exChenArgs.previsions (polarized 1 p.1) := by
    intro p hp
    rw [exChen_super]
    have hp' : p ∈ [((0 : ℝ), ['a']), (45, ['b']), (-45, ['c']), (90, ['d'])] := hp
    simp only [List.mem_cons, List.not_mem_nil, or_false] at hp'
    rcases hp' with rfl | rfl | rfl | rfl <;> rfl
  obtain ⟨C, d, hr, hall⟩ := hc exChenEnv exChenFs exChenArgs 2 2 exChenFrames none (Img.const 2 2 1) 1 id exChenEnv_correct
    exChen_readable 0 0 (by norm_num) (by norm_num) hframes
  obtain ⟨C', d', hr', hall'⟩ := C84_ideal_sensor exChenEnv_correct exChen_readable (Y := 0) (X := 0) (by norm_num) (by norm_num)
    one_pos (n0 := ['a']) (n1 := ['b']) (n2 := ['c']) (n3 := ['d']) rfl (by rw [exChen_super]; rfl) (by rw [exChen_super]; rfl)
    (by rw [exChen_super]; rfl) (by rw [exChen_super]; rfl) ![1, 1, 0]
  rw [hr] at hr'
  injection hr' with hr'
  injection hr' with e1 e2
  subst e1 e2
  have e := (hall ![1, 1, 0] 0).symm.trans (hall' 0)
  have id0 : ∀ S, idealResponse exChenArgs.previsions S 0 = (S 0 + S 1) / 2 := fun S => (exChen_readable.ideal S).1
  rw [id0, id0] at e
  have e' : ((1 : ℝ) + 1) / 2 = ((2 * 1 ^ 2 + 1) / (3 * 1 ^ 2) * 1 - 1 / (3 * 1) + (2 * 1 ^ 2 + 1) / (3 * 1 ^ 2) * 1 / 4) / 2 := e
  norm_num at e'

end

end Micropol
