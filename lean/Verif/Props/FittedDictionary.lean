import Verif.Spec.FittedDictionary
import Verif.Props.AngleDic
import Verif.Props.Utils
import Verif.Props.CalibrateCall
import Verif.Props.CalibrationRun

/-!
# C142: the angle dictionary of a calibration is the layout that was predicted

Full property: whatever the frames show, the angle dictionary of the phases that a calibration saves has, for each of the four
directions, the pixel for which this direction was predicted (`micropol_phases_previsions`).

It holds if the grid of processors divides the image (`C142_predicted_partial`): fitted phases are within 15 degrees of the predicted
ones, and superpixels without a fit get the predicted ones (`C142_phases`).  If it does not, the phases of the border are zero and
spoil the means: in an image of 10x10 pixels, with the default grid 4x4, two directions are exchanged (`C142_border`,
`C142_full_claim_false`).
-/

set_option autoImplicit false
set_option linter.unusedSectionVars false

namespace Micropol

variable {fs : Name → Option (Img ℝ)} {fit : GaussFit} {env : CalibEnv} {a : CalibArgs} {ny nx : Nat} {schedule : List Nat}
  {maps : CalibMaps} {pick : Finset Nat → Nat}

theorem phase_shape {inp : ChunkInput} (hg : ValidGrid inp ny nx schedule) (hm : calibrate env inp ny nx schedule = .ok maps) :
    maps.phase.HasShape inp.height inp.width := by
  rw [calibrate_eq env inp hg.ny_pos hg.nx_pos hg.even_y hg.even_x hg.order] at hm
  injection hm with hm
  subst hm
  exact ⟨rfl, rfl⟩

/-- What is stored as phase of a covered superpixel: the predicted one, or the result of a fit. -/
theorem phase_stored {inp : ChunkInput} (hg : ValidGrid inp ny nx schedule) (hm : calibrate env inp ny nx schedule = .ok maps)
    {Y X : Nat} (hc : Covered inp ny nx Y X) :
    (∀ k, maps.phase.px (rowOf Y k) (colOf X k) = inp.previsions k * 180 / Real.pi) ∨
    ∀ k, ∃ p cov, env.curveFit (fitRequest inp Y X k) = some (p, cov) ∧
      maps.phase.px (rowOf Y k) (colOf X k) = p 2 * 180 / Real.pi := by
  by_cases hfail : Occulted inp Y X ∨ ∃ k, Dark inp Y X k ∨ FitRaises env inp Y X k
  · exact Or.inl fun k => ((C33_fallback hg hm hc hfail).2.2 k).2.2
  · right
    rw [not_or] at hfail
    obtain ⟨hocc, hn⟩ := hfail
    have hdark : ∀ k, ¬ Dark inp Y X k := fun k h => hn ⟨k, Or.inl h⟩
    have hex : ∀ k, ∃ q : (Fin 3 → ℝ) × (Fin 3 → Fin 3 → ℝ), env.curveFit (fitRequest inp Y X k) = some q := by
      intro k
      cases hq : env.curveFit (fitRequest inp Y X k) with
      | none => exact absurd ⟨k, Or.inr hq⟩ hn
      | some q => exact ⟨q, rfl⟩
    choose q hq using hex
    intro k
    exact ⟨(q k).1, (q k).2, hq k, ((C33_fitted hg hm hc hocc hdark (fun k => (q k).1) (fun k => (q k).2) hq).2.2 k).2.2.1⟩

/-- C142: every phase that is stored for a superpixel inside the chunks is within 15 degrees of the predicted one. -/
theorem C142_phases (hb : env.KeepsPhaseBounds) (hord : schedule.Perm (List.range (ny * nx)))
    (hm : calculateDemodulationTensor fs fit env a ny nx schedule = .ok maps) {Y X : Nat}
    (hY : 2 * Y < ny * (maps.phase.h / ny)) (hX : 2 * X < nx * (maps.phase.w / nx)) (k : Fin 4) :
    |maps.phase.px (2 * Y + k.val / 2) (2 * X + k.val % 2) - a.previsions k| ≤ 15 := by
  obtain ⟨inp, hp, hg, hc, -⟩ := calculate_inv hm hord
  obtain ⟨s1, s2⟩ := phase_shape hg hc
  have hpi := Real.pi_pos
  have hprev : inp.previsions k * 180 / Real.pi = a.previsions k := by
    rw [(prepare_keeps hp).1]; unfold deg2rad; field_simp
  have hcov : Covered inp ny nx Y X := ⟨by rw [← s1]; exact hY, by rw [← s2]; exact hX⟩
  show |maps.phase.px (rowOf Y k) (colOf X k) - a.previsions k| ≤ 15
  rcases phase_stored hg hc hcov with h | h
  · rw [h k, hprev, sub_self, abs_zero]; norm_num
  · obtain ⟨p, cov, h1, h2⟩ := h k
    obtain ⟨b1, b2⟩ := hb _ _ _ (show inp.previsions k - Real.pi / 12 ≤ inp.previsions k by linarith)
      (show inp.previsions k ≤ inp.previsions k + Real.pi / 12 by linarith) h1
    have b1 : inp.previsions k - Real.pi / 12 ≤ p 2 := b1
    have b2 : p 2 ≤ inp.previsions k + Real.pi / 12 := b2
    rw [h2, ← hprev, abs_le, ← sub_div, ← sub_mul, le_div_iff₀ hpi, div_le_iff₀ hpi]
    constructor <;> linarith

/-- A mean of values near `v` is near `v`. -/
theorem placeMean_near {phi : Img ℝ} {m n : Nat} (hm : 0 < m) (hn : 0 < n) {k : Fin 4} {v r : ℝ}
    (h : ∀ Y X, Y < m → X < n → |phi.px (2 * Y + k.val / 2) (2 * X + k.val % 2) - v| ≤ r) : |placeMean phi m n k - v| ≤ r := by
  have hmn : (0 : ℝ) < ((m * n : Nat) : ℝ) := by exact_mod_cast Nat.mul_pos hm hn
  have hconst : ∀ c : ℝ, ∑ _y ∈ Finset.range m, ∑ _x ∈ Finset.range n, c = c * ((m * n : Nat) : ℝ) := by
    intro c; simp; ring
  have hup : ∑ y ∈ Finset.range m, ∑ x ∈ Finset.range n, phi.px (2 * y + k.val / 2) (2 * x + k.val % 2) ≤ (v + r) * ((m * n : Nat) : ℝ) := by
    rw [← hconst]
    refine Finset.sum_le_sum fun y hy => Finset.sum_le_sum fun x hx => ?_
    have := (abs_le.1 (h y x (Finset.mem_range.1 hy) (Finset.mem_range.1 hx))).2
    linarith
  have hlo : (v - r) * ((m * n : Nat) : ℝ) ≤ ∑ y ∈ Finset.range m, ∑ x ∈ Finset.range n, phi.px (2 * y + k.val / 2) (2 * x + k.val % 2) := by
    rw [← hconst]
    refine Finset.sum_le_sum fun y hy => Finset.sum_le_sum fun x hx => ?_
    have := (abs_le.1 (h y x (Finset.mem_range.1 hy) (Finset.mem_range.1 hx))).1
    linarith
  unfold placeMean
  have h1 := (div_le_iff₀ hmn).2 hup
  have h2 := (le_div_iff₀ hmn).2 hlo
  rw [abs_le]
  constructor <;> linarith

theorem near_of_close {nominal v w : ℝ} (h : CloseToNominal nominal v) (hw : |w - v| ≤ 15) : NearNominal nominal w := by
  obtain ⟨n, hn⟩ := h
  refine ⟨n, ?_⟩
  rw [abs_lt] at hn ⊢
  rw [abs_le] at hw
  norm_num at hn ⊢
  constructor <;> linarith [hw.1, hw.2, hn.1, hn.2]

/-- C142: whatever the frames show, which superpixels are occulted or dark and which fits fail: if the predicted phases are close to a
layout of the four directions and the grid of processors divides the image, the dictionary of the saved phases is this layout.
Missing from the full property: other grids, see `C142_border`. -/
theorem C142_predicted_partial (hpick : ∀ S : Finset Nat, S.Nonempty → pick S ∈ S) (hb : env.KeepsPhaseBounds)
    (hord : schedule.Perm (List.range (ny * nx))) (hm : calculateDemodulationTensor fs fit env a ny nx schedule = .ok maps)
    (hh : maps.phase.h ≠ 0) (hw : maps.phase.w ≠ 0) (hdy : maps.phase.h % ny = 0) (hdx : maps.phase.w % nx = 0)
    {L : Layout} (hL : L.Proper) (hpred : L.Predicted a.previsions) :
    demodAngleDic pick maps.phase = .ok [(0, L.p0.val), (45, L.p45.val), (-45, L.pm45.val), (90, L.p90.val)] := by
  obtain ⟨inp, hp, hg, hc, -⟩ := calculate_inv hm hord
  obtain ⟨s1, s2⟩ := phase_shape hg hc
  have e1 : ny * (maps.phase.h / ny) = maps.phase.h := Nat.mul_div_cancel' (Nat.dvd_of_mod_eq_zero hdy)
  have e2 : nx * (maps.phase.w / nx) = maps.phase.w := Nat.mul_div_cancel' (Nat.dvd_of_mod_eq_zero hdx)
  have p1 : maps.phase.h % 2 = 0 := by rw [← e1, Nat.mul_mod, s1, hg.even_y]; simp
  have p2 : maps.phase.w % 2 = 0 := by rw [← e2, Nat.mul_mod, s2, hg.even_x]; simp
  have hm0 : 0 < maps.phase.h / 2 := by omega
  have hn0 : 0 < maps.phase.w / 2 := by omega
  have hnear : ∀ k, |placeMean maps.phase (maps.phase.h / 2) (maps.phase.w / 2) k - a.previsions k| ≤ 15 := fun k =>
    placeMean_near hm0 hn0 fun Y X hY hX => C142_phases hb hord hm (by rw [e1]; omega) (by rw [e2]; omega) k
  obtain ⟨q1, q2, q3, q4⟩ := hpred
  exact C30_layout pick hpick maps.phase (maps.phase.h / 2) (maps.phase.w / 2) hm0 hn0 ⟨by omega, by omega⟩ L hL
    ⟨near_of_close q1 (hnear _), near_of_close q2 (hnear _), near_of_close q3 (hnear _), near_of_close q4 (hnear _)⟩

/-! ## The border -/

theorem npMean_place {phi : Img ℝ} {m n : Nat} (hm : 0 < m) (hn : 0 < n) (hphi : phi.HasShape (2 * m) (2 * n)) (k : Fin 4) :
    npMean (phi.stride2 (k.val / 2) (k.val % 2)) = .ok (placeMean phi m n k) := by
  obtain ⟨hh, hw⟩ := hphi
  have e1 : (phi.h - k.val / 2 + 1) / 2 = m := by omega
  have e2 : (phi.w - k.val % 2 + 1) / 2 = n := by omega
  have eh : (phi.stride2 (k.val / 2) (k.val % 2)).h = m := e1
  have ew : (phi.stride2 (k.val / 2) (k.val % 2)).w = n := e2
  rw [npMean_real (by rw [eh]; exact hm) (by rw [ew]; exact hn), eh, ew]
  unfold placeMean
  congr 2
  refine Finset.sum_congr rfl fun y hy => Finset.sum_congr rfl fun x hx => ?_
  rw [Finset.mem_range] at hy hx
  exact Img.ofFn_px (by omega) (by omega)

/-- C142: an image of 10x10 pixels is calibrated with the grid 4x4, and all fits give the predicted phases 0, 45, -45, 90.  Then the
dictionary has the 90 degree pixel for 45 degrees and the 45 degree pixel for 90 degrees. -/
theorem C142_border (hpick : ∀ S : Finset Nat, S.Nonempty → pick S ∈ S) (hb : env.KeepsPhaseGuess)
    (hord : schedule.Perm (List.range (4 * 4))) (hm : calculateDemodulationTensor fs fit env a 4 4 schedule = .ok maps)
    (hsh : maps.phase.HasShape 10 10) (hprev : a.previsions = ![0, 45, -45, 90]) :
    demodAngleDic pick maps.phase = .ok [(0, 0), (45, 3), (-45, 2), (90, 1)] := by
  obtain ⟨inp, hp, hg, hc, -⟩ := calculate_inv hm hord
  obtain ⟨s1, s2⟩ := phase_shape hg hc
  have s1 : inp.height = 10 := s1.symm.trans hsh.1
  have s2 : inp.width = 10 := s2.symm.trans hsh.2
  have hpi := Real.pi_pos
  have hin : ∀ k, inp.previsions k * 180 / Real.pi = a.previsions k := by
    intro k; rw [(prepare_keeps hp).1]; unfold deg2rad; field_simp
  have hpx : ∀ k Y X, maps.phase.px (2 * Y + k.val / 2) (2 * X + k.val % 2) = if Y < 4 ∧ X < 4 then a.previsions k else 0 := by
    intro k Y X
    have hiff : Covered inp 4 4 Y X ↔ Y < 4 ∧ X < 4 := by
      unfold Covered; rw [s1, s2]; omega
    by_cases h : Covered inp 4 4 Y X
    · rw [if_pos (hiff.1 h)]
      rcases phase_stored hg hc h with g | g
      · exact (g k).trans (hin k)
      · obtain ⟨p, cov, h1, h2⟩ := g k
        have : p 2 = inp.previsions k := hb _ _ _ h1
        refine h2.trans ?_
        rw [this, hin]
    · rw [if_neg fun h' => h (hiff.2 h')]
      exact ((C31_border hg hc h).2.2 k).2.2
  have hmean : ∀ k, placeMean maps.phase 5 5 k = a.previsions k * (16 / 25) := by
    intro k
    unfold placeMean
    simp only [hpx]
    simp [Finset.sum_range_succ]
    ring
  have hst : ∀ k : Fin 4, npMean (maps.phase.stride2 (k.val / 2) (k.val % 2)) = .ok (a.previsions k * (16 / 25)) := fun k => by
    rw [npMean_place (m := 5) (n := 5) (by decide) (by decide) hsh k, hmean]
  have m0 : npMean (maps.phase.stride2 0 0) = .ok 0 := (hst 0).trans (by rw [hprev]; norm_num)
  have m1 : npMean (maps.phase.stride2 0 1) = .ok (144 / 5) := (hst 1).trans (by rw [hprev]; norm_num)
  have m2 : npMean (maps.phase.stride2 1 0) = .ok (-144 / 5) := (hst 2).trans (by
    rw [hprev]
    show Except.ok ((-45 : ℝ) * (16 / 25)) = _
    norm_num)
  have m3 : npMean (maps.phase.stride2 1 1) = .ok (288 / 5) := (hst 3).trans (by
    rw [hprev]
    show Except.ok ((90 : ℝ) * (16 / 25)) = _
    norm_num)
  unfold demodAngleDic
  rw [m0, Py.ok_bind, m1, Py.ok_bind, m2, Py.ok_bind, m3, Py.ok_bind,
    C55_fixed _ (by intro a ha; simp only [List.mem_cons, List.not_mem_nil, or_false] at ha; rcases ha with rfl | rfl | rfl | rfl <;> norm_num),
    Py.ok_bind]
  have n1 : nearestIndex [0, 144 / 5, -144 / 5, 288 / 5] 0 = .ok 0 := by
    unfold nearestIndex
    norm_num [List.idxOf_cons, abs_of_pos, abs_of_neg]
  have n2 : nearestIndex [0, 144 / 5, -144 / 5, 288 / 5] 45 = .ok 3 := by
    unfold nearestIndex
    norm_num [List.idxOf_cons, abs_of_pos, abs_of_neg]
  have n3 : nearestIndex [0, 144 / 5, -144 / 5, 288 / 5] (-45) = .ok 2 := by
    unfold nearestIndex
    norm_num [List.idxOf_cons, abs_of_pos, abs_of_neg]
  have n4 : nearestIndex [0, 144 / 5, -144 / 5, 288 / 5] 90 = .ok 3 := by
    unfold nearestIndex
    norm_num [List.idxOf_cons, abs_of_pos, abs_of_neg]
  unfold angleDicOf
  rw [n1, Py.ok_bind, n2, Py.ok_bind, n3, Py.ok_bind, n4, Py.ok_bind]
  have hleft : (Finset.range 4 \ {0, 3, 2, 3} : Finset Nat) = {1} := by decide
  have hp1 : pick {1} = 1 := Finset.mem_singleton.1 (hpick {1} ⟨1, by simp⟩)
  simp only [hleft, hp1]
  rw [if_pos ⟨1, by simp⟩]
  rfl

/-! ## The full claim is false -/

/-- Uniform frames of 10x10 pixels. -/
noncomputable def borderFrame : Img ℝ := Img.ofFn 10 10 fun _ _ => 1

theorem border_calculated (schedule : List Nat) {n : Nat} (hn : 0 < n) (he : 10 / n % 2 = 0) (hord : schedule.Perm (List.range (n * n))) :
    ∃ maps, calculateDemodulationTensor (fun _ => some borderFrame) fit sampleEnv runArgs n n schedule = .ok maps ∧
      maps.phase.HasShape 10 10 := by
  have hR : Readable (fun _ => some borderFrame) runArgs 1 10 10 (fun _ => borderFrame) none :=
    ⟨rfl, le_refl 1, ⟨rfl, rfl⟩, fun n _ => ⟨rfl, ⟨rfl, rfl⟩⟩, Or.inl ⟨rfl, rfl⟩, rfl, rfl, by simp [runArgs]⟩
  have hS : Prescribes runArgs runArgs.filenames.length 1 10 10 (fun _ _ _ => 2) :=
    Or.inl ⟨2, rfl, by norm_num, fun _ _ _ => by unfold atLeast; norm_num⟩
  obtain ⟨inp, h1, -, h2, h3, -⟩ := C73_frames_partial (fit := fit) hR hS (by norm_num [runArgs]) (by
    intro m _ y x _ _
    unfold lit familySum
    dsimp only
    refine Finset.sum_nonneg fun i _ => Finset.sum_nonneg fun j _ => ?_
    unfold borderFrame
    rw [Img.ofFn_px']
    split <;> norm_num) run_sorted
  have h2 : inp.height = 10 := h2
  have h3 : inp.width = 10 := h3
  have hg : ValidGrid inp n n schedule := ⟨hn, hn, by rw [h2]; exact he, by rw [h3]; exact he, hord⟩
  obtain ⟨maps, hm⟩ := C33_total (env := sampleEnv) hg
  refine ⟨maps, ?_, ?_⟩
  · unfold calculateDemodulationTensor
    rw [h1, Py.ok_bind, hm]
  · have := phase_shape hg hm
    rwa [h2, h3] at this

theorem sample_keeps : sampleEnv.KeepsPhaseGuess := by
  intro c p cov h
  injection h with h
  rw [← (Prod.mk.inj h).1]
  rfl

theorem guess_bounds (h : env.KeepsPhaseGuess) : env.KeepsPhaseBounds := by
  intro c p cov h1 h2 hf
  rw [h c p cov hf]
  exact ⟨h1, h2⟩

theorem nominal_predicted : Layout.Predicted ⟨0, 1, 2, 3⟩ runArgs.previsions :=
  ⟨⟨0, by norm_num [runArgs]⟩, ⟨0, by norm_num [runArgs]⟩,
   ⟨0, by show |(-45 : ℝ) - -45 - 180 * ((0 : ℤ) : ℝ)| < 7.5; norm_num⟩, ⟨0, by show |(90 : ℝ) - 90 - 180 * ((0 : ℤ) : ℝ)| < 7.5; norm_num⟩⟩

/-- The full claim is false: the same files give one dictionary with one processor and another with the default grid. -/
theorem C142_full_claim_false (hpick : ∀ S : Finset Nat, S.Nonempty → pick S ∈ S) (fit : GaussFit) :
    ∃ (fs : Name → Option (Img ℝ)) (env : CalibEnv) (a : CalibArgs) (maps maps₁ : CalibMaps),
      env.KeepsPhaseGuess ∧ Layout.Predicted ⟨0, 1, 2, 3⟩ a.previsions ∧
      calculateDemodulationTensor fs fit env a 4 4 (List.range 16) = .ok maps ∧
      calculateDemodulationTensor fs fit env a 1 1 [0] = .ok maps₁ ∧
      demodAngleDic pick maps.phase = .ok [(0, 0), (45, 3), (-45, 2), (90, 1)] ∧
      demodAngleDic pick maps₁.phase = .ok [(0, 0), (45, 1), (-45, 2), (90, 3)] := by
  obtain ⟨maps, h1, h2⟩ := border_calculated (fit := fit) (n := 4) (List.range 16) (by decide) (by decide) (List.Perm.refl _)
  obtain ⟨maps₁, g1, g2⟩ := border_calculated (fit := fit) (n := 1) [0] (by decide) (by decide) (by decide)
  refine ⟨_, sampleEnv, runArgs, maps, maps₁, sample_keeps, nominal_predicted, h1, g1,
    C142_border hpick sample_keeps (List.Perm.refl _) h1 h2 rfl, ?_⟩
  obtain ⟨e1, e2⟩ := g2
  exact C142_predicted_partial hpick (guess_bounds sample_keeps) (by decide) g1 (by rw [e1]; decide) (by rw [e2]; decide)
    (by rw [e1]) (by rw [e2]) C02_polarCam.2 nominal_predicted

end Micropol
