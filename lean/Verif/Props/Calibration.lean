import Verif.Lemmas.CalibrationGrid
import Verif.Spec.Calibration
import Verif.Props.Demodulate
import Verif.Props.Stokes
import Mathlib.LinearAlgebra.Matrix.NonsingularInverse
import Mathlib.LinearAlgebra.Matrix.DotProduct
import Mathlib.Tactic.FieldSimp
import Mathlib.Tactic.Linarith

/-!
# C22, C23, C31 – C33: calibration
-/

set_option autoImplicit false

namespace Micropol

noncomputable section

open Classical Finset

/-! ## Bridging the model and the specification -/

theorem deg2rad_eq (a : ℝ) : deg2rad a = a * Real.pi / 180 := by unfold deg2rad; ring

theorem tkb_eq (inp : ChunkInput) : inp.tkb = boundsOr inp.tkBoundary := by
  unfold ChunkInput.tkb boundsOr defaultBoundary
  cases inp.tkBoundary
  · norm_num
  · rfl

theorem effb_eq (inp : ChunkInput) : inp.effb = boundsOr inp.effBoundary := by
  unfold ChunkInput.effb boundsOr defaultBoundary
  cases inp.effBoundary
  · norm_num
  · rfl

theorem dof_eq (inp : ChunkInput) : inp.dof = freedom inp := by
  unfold ChunkInput.dof freedom
  cases inp.tkBoundary <;> cases inp.effBoundary <;> simp <;> omega

theorem fitCall_eq (inp : ChunkInput) (Y X : Nat) (k : Fin 4) :
    inp.fitCall (2 * Y) (2 * X) k = fitRequest inp Y X k := by
  have h15 : deg2rad 15 = Real.pi / 12 := by unfold deg2rad; ring
  unfold ChunkInput.fitCall fitRequest
  rw [h15, tkb_eq, effb_eq]
  congr 1
  · funext p; exact deg2rad_eq _
  · funext p
    show (if superPx _ _ _ _ ≠ 0 then _ else _) = _
    unfold superPx rowOf colOf
    by_cases h : (inp.errors p).px (2 * Y + k.val / 2) (2 * X + k.val % 2) = 0
    · rw [if_neg (not_not.2 h), if_pos h]; norm_num
    · rw [if_pos h, if_neg h]

theorem modulation_eq (t e φ : Fin 4 → ℝ) : modulationMatrix t e φ = responseMatrix t e φ := by
  funext k i
  unfold modulationMatrix responseMatrix
  fin_cases i <;> simp <;> ring

theorem theo_eq (φ : Fin 4 → ℝ) : theoModulationMatrix φ = idealMatrix φ := by
  funext k i
  unfold theoModulationMatrix idealMatrix responseMatrix
  fin_cases i <;> simp <;> ring

theorem fits_none_iff (env : CalibEnv) (inp : ChunkInput) (Y X : Nat) (k : Fin 4) :
    inp.fits env (2 * Y) (2 * X) k = none ↔ Dark inp Y X k ∨ FitRaises env inp Y X k := by
  unfold ChunkInput.fits FitRaises
  rw [← fitCall_eq]
  by_cases h : ∀ p, (inp.fitCall (2 * Y) (2 * X) k).ydata p = 0
  · rw [if_pos h]
    exact ⟨fun _ => Or.inl h, fun _ => rfl⟩
  · rw [if_neg h]
    exact ⟨Or.inr, fun h' => h'.resolve_left h⟩

section
variable {env : CalibEnv} {inp : ChunkInput} {ny nx : Nat} {schedule : List Nat}

/-- What the maps hold at a covered superpixel. -/
theorem maps_at (hg : ValidGrid inp ny nx schedule) {maps : CalibMaps}
    (hm : calibrate env inp ny nx schedule = .ok maps) {Y X : Nat} (hc : Covered inp ny nx Y X) :
    let o := stepOutcome env inp Y X inp.initOutcome
    (∀ i j, (maps.mij i j).px Y X = o.m i j) ∧ maps.fitFound.px Y X = o.flag ∧
    (∀ k, maps.tk.px (rowOf Y k) (colOf X k) = o.tk k) ∧
    (∀ k, maps.eff.px (rowOf Y k) (colOf X k) = o.eff k) ∧
    (∀ k, maps.phase.px (rowOf Y k) (colOf X k) = rad2deg (o.phase k)) ∧
    (∀ a b k, (maps.cov a b).px (rowOf Y k) (colOf X k) = o.cov a b k) ∧
    (∀ k, maps.chisq.px (rowOf Y k) (colOf X k) = o.chi k) := by
  obtain ⟨h1, h2, h3, h4, h5⟩ := hg
  rw [calibrate_eq env inp h1 h2 h3 h4 h5] at hm
  injection hm with hm
  subst hm
  unfold Covered at hc
  have c1 : ny * (inp.height / ny) ≤ inp.height := Nat.mul_div_le _ _
  have c2 : nx * (inp.width / nx) ≤ inp.width := Nat.mul_div_le _ _
  have p1 : ny * (inp.height / ny) % 2 = 0 := by rw [Nat.mul_mod, h3]; simp
  have p2 : nx * (inp.width / nx) % 2 = 0 := by rw [Nat.mul_mod, h4]; simp
  unfold expectedMaps
  generalize ny * (inp.height / ny) = hC at *
  generalize nx * (inp.width / nx) = wC at *
  have r1 : ∀ k : Fin 4, rowOf Y k < hC ∧ rowOf Y k / 2 = Y := fun k => by unfold rowOf; omega
  have r2 : ∀ k : Fin 4, colOf X k < wC ∧ colOf X k / 2 = X := fun k => by unfold colOf; omega
  have r3 : ∀ k : Fin 4, posOf (rowOf Y k) (colOf X k) = k := by
    intro k
    unfold posOf rowOf colOf
    apply Fin.ext
    dsimp only
    omega
  have full : ∀ (f : Outcome → Fin 4 → ℝ) (k : Fin 4), (Img.ofFn inp.height inp.width (fun y x =>
      if y < hC ∧ x < wC then f (stepOutcome env inp (y / 2) (x / 2) inp.initOutcome) (posOf y x) else 0)).px
        (rowOf Y k) (colOf X k) = f (stepOutcome env inp Y X inp.initOutcome) k := by
    intro f k
    have := (r1 k).1
    have := (r2 k).1
    rw [Img.ofFn_px (by omega) (by omega), if_pos ⟨(r1 k).1, (r2 k).1⟩, (r1 k).2, (r2 k).2, r3]
  have half : ∀ (f : Outcome → ℝ), (Img.ofFn (inp.height / 2) (inp.width / 2) (fun Y X =>
      if Y < hC / 2 ∧ X < wC / 2 then f (stepOutcome env inp Y X inp.initOutcome) else 0)).px Y X =
      f (stepOutcome env inp Y X inp.initOutcome) := by
    intro f
    rw [Img.ofFn_px (by omega) (by omega), if_pos (by omega)]
  refine ⟨fun i j => half (fun o => o.m i j), half Outcome.flag, full Outcome.tk, full Outcome.eff, ?_,
    fun a b => full (fun o => o.cov a b), full Outcome.chi⟩
  intro k
  have := (r1 k).1
  have := (r2 k).1
  dsimp only
  rw [Img.map_px _ _ (by show _ < inp.height; omega) (by show _ < inp.width; omega), full Outcome.phase]

/-! ## C33 -/

/-- Calibration of an accepted grid never raises. -/
theorem C33_total (hg : ValidGrid inp ny nx schedule) :
    ∃ maps, calibrate env inp ny nx schedule = .ok maps :=
  ⟨_, calibrate_eq env inp hg.ny_pos hg.nx_pos hg.even_y hg.even_x hg.order⟩

/-- C33: a superpixel that is occulted, or has an all-zero pixel, or whose fit raises, gets the pseudo-inverse of the
ideal response, flag 0, the predicted throughput and efficiency and (in degrees) the predicted phases. -/
theorem C33_fallback (hg : ValidGrid inp ny nx schedule) {maps : CalibMaps}
    (hm : calibrate env inp ny nx schedule = .ok maps) {Y X : Nat} (hc : Covered inp ny nx Y X)
    (hfail : Occulted inp Y X ∨ ∃ k, Dark inp Y X k ∨ FitRaises env inp Y X k) :
    (∀ i j, (maps.mij i j).px Y X = env.pinv (idealMatrix inp.previsions) i j) ∧
    maps.fitFound.px Y X = 0 ∧
    ∀ k, maps.tk.px (rowOf Y k) (colOf X k) = boundsOr inp.tkBoundary 0 ∧
      maps.eff.px (rowOf Y k) (colOf X k) = boundsOr inp.effBoundary 0 ∧
      maps.phase.px (rowOf Y k) (colOf X k) = inp.previsions k * 180 / Real.pi := by
  obtain ⟨a1, a2, a3, a4, a5, -, -⟩ := maps_at hg hm hc
  have key : stepOutcome env inp Y X inp.initOutcome =
      { inp.initOutcome with m := env.pinv (idealMatrix inp.previsions) } := by
    unfold stepOutcome
    dsimp only
    by_cases hocc : ∃ k, superPx inp.occulter (2 * Y) (2 * X) k ≠ 0
    · rw [if_pos hocc]
      unfold theoDemodulation
      rw [theo_eq]
      rfl
    · rw [if_neg hocc]
      obtain ⟨k, hk⟩ := hfail.resolve_left hocc
      rw [dif_neg, theoDemodulation, theo_eq]
      intro h
      have := h k
      rw [(fits_none_iff env inp Y X k).2 hk] at this
      cases this
  rw [key] at a1 a2 a3 a4 a5
  refine ⟨a1, a2, fun k => ⟨?_, ?_, ?_⟩⟩
  · rw [a3, ← tkb_eq]; rfl
  · rw [a4, ← effb_eq]; rfl
  · rw [a5]
    show inp.previsions k * (180 / Real.pi) = _
    ring

/-- C33: a superpixel that is not occulted, has no all-zero pixel, and whose four fits return parameters `p k` =
(throughput, efficiency, phase): those are stored (phases in degrees), with their covariances; the matrix is the
pseudo-inverse of the fitted response, with flag 1, if all its entries are in [-100, 100], and otherwise the
pseudo-inverse of the ideal response, with flag 0.  The reduced chi square is that of this fit. -/
theorem C33_fitted (hg : ValidGrid inp ny nx schedule) {maps : CalibMaps}
    (hm : calibrate env inp ny nx schedule = .ok maps) {Y X : Nat} (hc : Covered inp ny nx Y X)
    (hocc : ¬ Occulted inp Y X) (hdark : ∀ k, ¬ Dark inp Y X k)
    (p : Fin 4 → Fin 3 → ℝ) (c : Fin 4 → Fin 3 → Fin 3 → ℝ)
    (hfit : ∀ k, env.curveFit (fitRequest inp Y X k) = some (p k, c k)) :
    let P := env.pinv (responseMatrix (fun k => p k 0) (fun k => p k 1) (fun k => p k 2))
    ((∀ i j, -100 ≤ P i j ∧ P i j ≤ 100) → (∀ i j, (maps.mij i j).px Y X = P i j) ∧ maps.fitFound.px Y X = 1) ∧
    ((∃ i j, ¬ (-100 ≤ P i j ∧ P i j ≤ 100)) →
      (∀ i j, (maps.mij i j).px Y X = env.pinv (idealMatrix inp.previsions) i j) ∧ maps.fitFound.px Y X = 0) ∧
    ∀ k, maps.tk.px (rowOf Y k) (colOf X k) = p k 0 ∧ maps.eff.px (rowOf Y k) (colOf X k) = p k 1 ∧
      maps.phase.px (rowOf Y k) (colOf X k) = p k 2 * 180 / Real.pi ∧
      (∀ a b, (maps.cov a b).px (rowOf Y k) (colOf X k) = c k a b) ∧
      maps.chisq.px (rowOf Y k) (colOf X k) = env.chisq (fitRequest inp Y X k) (p k) (freedom inp) := by
  intro P
  obtain ⟨a1, a2, a3, a4, a5, a6, a7⟩ := maps_at hg hm hc
  have hf : ∀ k, inp.fits env (2 * Y) (2 * X) k = some (p k, c k) := by
    intro k
    unfold ChunkInput.fits
    rw [if_neg (by exact hdark k), fitCall_eq, hfit k]
  have hall : ∀ k, (inp.fits env (2 * Y) (2 * X) k).isSome := fun k => by rw [hf k]; rfl
  have hget : ∀ k, (inp.fits env (2 * Y) (2 * X) k).get (hall k) = (p k, c k) := fun k => by simp [hf k]
  have hP : env.pinv (modulationMatrix (fun k => p k 0) (fun k => p k 1) (fun k => p k 2)) = P := by
    rw [modulation_eq]
  have key : stepOutcome env inp Y X inp.initOutcome =
      { m := if hasBigEntry P then env.pinv (idealMatrix inp.previsions) else P
        flag := if hasBigEntry P then 0 else 1
        tk := fun k => p k 0, eff := fun k => p k 1, phase := fun k => p k 2
        cov := fun a b k => c k a b
        chi := fun k => env.chisq (fitRequest inp Y X k) (p k) (freedom inp) } := by
    unfold stepOutcome
    dsimp only
    rw [if_neg (by exact hocc), dif_pos hall]
    simp only [hget, hP, theoDemodulation, theo_eq, fitCall_eq, dof_eq]
  rw [key] at a1 a2 a3 a4 a5 a6 a7
  have hbig : hasBigEntry P ↔ ∃ i j, ¬ (-100 ≤ P i j ∧ P i j ≤ 100) := by
    unfold hasBigEntry
    constructor
    · rintro (⟨i, j, h⟩ | ⟨i, j, h⟩)
      · exact ⟨i, j, fun h' => absurd h'.2 (not_le.2 h)⟩
      · exact ⟨i, j, fun h' => absurd h'.1 (not_le.2 h)⟩
    · rintro ⟨i, j, h⟩
      by_cases h1 : P i j ≤ 100
      · exact Or.inr ⟨i, j, by by_contra h2; exact h ⟨not_lt.1 h2, h1⟩⟩
      · exact Or.inl ⟨i, j, not_le.1 h1⟩
  refine ⟨?_, ?_, ?_⟩
  · intro h
    have hnb : ¬ hasBigEntry P := fun hb => by
      obtain ⟨i, j, hij⟩ := hbig.1 hb
      exact hij (h i j)
    dsimp only at a1 a2
    rw [if_neg hnb] at a1 a2
    exact ⟨a1, a2⟩
  · intro h
    have hb := hbig.2 h
    dsimp only at a1 a2
    rw [if_pos hb] at a1 a2
    exact ⟨a1, a2⟩
  · intro k
    refine ⟨a3 k, a4 k, ?_, fun a b => a6 a b k, a7 k⟩
    rw [a5 k]
    show p k 2 * (180 / Real.pi) = _
    ring

/-- C33: flag 1 means: not occulted, no all-zero pixel, no fit raised, the stored matrix is the pseudo-inverse of the
response given by the stored throughput, efficiency and phase maps, and all its entries are in [-100, 100].
The flag is always 0 or 1. -/
theorem C33_flag (hg : ValidGrid inp ny nx schedule) {maps : CalibMaps}
    (hm : calibrate env inp ny nx schedule = .ok maps) {Y X : Nat} (hc : Covered inp ny nx Y X) :
    (maps.fitFound.px Y X = 0 ∨ maps.fitFound.px Y X = 1) ∧
    (maps.fitFound.px Y X = 1 →
      (¬ Occulted inp Y X ∧ ∀ k, ¬ Dark inp Y X k ∧ ¬ FitRaises env inp Y X k) ∧
      (∀ i j, (maps.mij i j).px Y X =
        env.pinv (responseMatrix (fun k => maps.tk.px (rowOf Y k) (colOf X k))
          (fun k => maps.eff.px (rowOf Y k) (colOf X k))
          (fun k => maps.phase.px (rowOf Y k) (colOf X k) * Real.pi / 180)) i j) ∧
      ∀ i j, -100 ≤ (maps.mij i j).px Y X ∧ (maps.mij i j).px Y X ≤ 100) := by
  by_cases hfail : Occulted inp Y X ∨ ∃ k, Dark inp Y X k ∨ FitRaises env inp Y X k
  · obtain ⟨-, h0, -⟩ := C33_fallback hg hm hc hfail
    refine ⟨Or.inl h0, fun h1 => ?_⟩
    rw [h0] at h1
    exact absurd h1 (by norm_num)
  · rw [not_or] at hfail
    obtain ⟨hocc, hn⟩ := hfail
    have hn' : ∀ k, ¬ Dark inp Y X k ∧ ¬ FitRaises env inp Y X k := fun k =>
      ⟨fun h => hn ⟨k, Or.inl h⟩, fun h => hn ⟨k, Or.inr h⟩⟩
    have hex : ∀ k, ∃ r, env.curveFit (fitRequest inp Y X k) = some r := fun k =>
      Option.ne_none_iff_exists'.1 (hn' k).2
    choose r hr using hex
    obtain ⟨h1, h2, h3⟩ := C33_fitted hg hm hc hocc (fun k => (hn' k).1) (fun k => (r k).1) (fun k => (r k).2)
      (fun k => by rw [hr k])
    have hph : ∀ k, maps.phase.px (rowOf Y k) (colOf X k) * Real.pi / 180 = (r k).1 2 := fun k => by
      rw [(h3 k).2.2.1]
      have := Real.pi_ne_zero
      field_simp
    have ht : ∀ k, maps.tk.px (rowOf Y k) (colOf X k) = (r k).1 0 := fun k => (h3 k).1
    have he : ∀ k, maps.eff.px (rowOf Y k) (colOf X k) = (r k).1 1 := fun k => (h3 k).2.1
    simp only [ht, he, hph]
    by_cases hb : ∀ i j, -100 ≤ env.pinv (responseMatrix (fun k => (r k).1 0) (fun k => (r k).1 1)
        (fun k => (r k).1 2)) i j ∧ env.pinv (responseMatrix (fun k => (r k).1 0) (fun k => (r k).1 1)
        (fun k => (r k).1 2)) i j ≤ 100
    · obtain ⟨g1, g2⟩ := h1 hb
      refine ⟨Or.inr g2, fun _ => ⟨⟨hocc, hn'⟩, g1, fun i j => ?_⟩⟩
      rw [g1]
      exact hb i j
    · obtain ⟨g1, g2⟩ := h2 (by push Not at hb ⊢; exact hb)
      refine ⟨Or.inl g2, fun h => ?_⟩
      rw [g2] at h
      exact absurd h (by norm_num)

/-- C33: the outcome of a superpixel depends only on its own four pixels: another calibration, of images of any other
size, on any other grid, with the same settings and the same content of the superpixel (possibly at another place)
stores the same values. -/
theorem C33_local (hg : ValidGrid inp ny nx schedule) {maps : CalibMaps}
    (hm : calibrate env inp ny nx schedule = .ok maps) {Y X : Nat} (hc : Covered inp ny nx Y X)
    (h' w' : Nat) (data' errors' : Fin inp.n → Img ℝ) (occ' : Img ℝ) {ny' nx' : Nat} {schedule' : List Nat}
    (hg' : ValidGrid { inp with height := h', width := w', data := data', errors := errors', occulter := occ' }
      ny' nx' schedule') {maps' : CalibMaps}
    (hm' : calibrate env { inp with height := h', width := w', data := data', errors := errors', occulter := occ' }
      ny' nx' schedule' = .ok maps') {Y' X' : Nat}
    (hc' : Covered { inp with height := h', width := w', data := data', errors := errors', occulter := occ' }
      ny' nx' Y' X')
    (hd : ∀ p k, (data' p).px (rowOf Y' k) (colOf X' k) = (inp.data p).px (rowOf Y k) (colOf X k))
    (he : ∀ p k, (errors' p).px (rowOf Y' k) (colOf X' k) = (inp.errors p).px (rowOf Y k) (colOf X k))
    (ho : ∀ k, occ'.px (rowOf Y' k) (colOf X' k) = inp.occulter.px (rowOf Y k) (colOf X k)) :
    (∀ i j, (maps'.mij i j).px Y' X' = (maps.mij i j).px Y X) ∧
    maps'.fitFound.px Y' X' = maps.fitFound.px Y X ∧
    ∀ k, maps'.tk.px (rowOf Y' k) (colOf X' k) = maps.tk.px (rowOf Y k) (colOf X k) ∧
      maps'.eff.px (rowOf Y' k) (colOf X' k) = maps.eff.px (rowOf Y k) (colOf X k) ∧
      maps'.phase.px (rowOf Y' k) (colOf X' k) = maps.phase.px (rowOf Y k) (colOf X k) ∧
      (∀ a b, (maps'.cov a b).px (rowOf Y' k) (colOf X' k) = (maps.cov a b).px (rowOf Y k) (colOf X k)) ∧
      maps'.chisq.px (rowOf Y' k) (colOf X' k) = maps.chisq.px (rowOf Y k) (colOf X k) := by
  set inp' : ChunkInput :=
    { inp with height := h', width := w', data := data', errors := errors', occulter := occ' } with hinp'
  have key : stepOutcome env inp' Y' X' inp.initOutcome = stepOutcome env inp Y X inp.initOutcome := by
    refine stepOutcome_congr env (inp := inp') (inp' := inp) ?_ ?_ rfl rfl rfl rfl _
    · intro k
      rw [fitCall_eq, fitCall_eq]
      unfold fitRequest
      dsimp only [inp']
      simp only [hd, he]
    · exact ho
  obtain ⟨a1, a2, a3, a4, a5, a6, a7⟩ := maps_at hg hm hc
  obtain ⟨b1, b2, b3, b4, b5, b6, b7⟩ := maps_at hg' hm' hc'
  have hinit : inp'.initOutcome = inp.initOutcome := rfl
  rw [hinit, key] at b1 b2 b3 b4 b5 b6 b7
  exact ⟨fun i j => (b1 i j).trans (a1 i j).symm, b2.trans a2.symm, fun k => ⟨(b3 k).trans (a3 k).symm,
    (b4 k).trans (a4 k).symm, (b5 k).trans (a5 k).symm, fun a b => (b6 a b k).trans (a6 a b k).symm,
    (b7 k).trans (a7 k).symm⟩⟩

/-! ## C31 -/

/-- C31: on every grid that divides the image, for every completion order, the output equals that of a single
chunk. -/
theorem C31_grid_independent (hg : ValidGrid inp ny nx schedule) (hd : Divides inp ny nx) :
    calibrate env inp ny nx schedule = calibrate env inp 1 1 [0] := by
  obtain ⟨h1, h2, h3, h4, h5⟩ := hg
  have e1 : ny * (inp.height / ny) = inp.height := Nat.mul_div_cancel' (Nat.dvd_of_mod_eq_zero hd.1)
  have e2 : nx * (inp.width / nx) = inp.width := Nat.mul_div_cancel' (Nat.dvd_of_mod_eq_zero hd.2)
  have p1 : inp.height % 2 = 0 := by rw [← e1, Nat.mul_mod, h3]; simp
  have p2 : inp.width % 2 = 0 := by rw [← e2, Nat.mul_mod, h4]; simp
  rw [calibrate_eq env inp h1 h2 h3 h4 h5,
    calibrate_eq env inp (ny := 1) (nx := 1) (by norm_num) (by norm_num) (by rw [Nat.div_one]; exact p1)
      (by rw [Nat.div_one]; exact p2) (by rfl), e1, e2]
  simp only [Nat.div_one, Nat.one_mul]

/-- C31: when the grid does not divide the image, the border that no chunk covers keeps zeros: a zero matrix, flagged
as not fitted, and zero throughput, efficiency and phase. -/
theorem C31_border (hg : ValidGrid inp ny nx schedule) {maps : CalibMaps}
    (hm : calibrate env inp ny nx schedule = .ok maps) {Y X : Nat} (hc : ¬ Covered inp ny nx Y X) :
    (∀ i j, (maps.mij i j).px Y X = 0) ∧ maps.fitFound.px Y X = 0 ∧
    ∀ k, maps.tk.px (rowOf Y k) (colOf X k) = 0 ∧ maps.eff.px (rowOf Y k) (colOf X k) = 0 ∧
      maps.phase.px (rowOf Y k) (colOf X k) = 0 := by
  obtain ⟨h1, h2, h3, h4, h5⟩ := hg
  rw [calibrate_eq env inp h1 h2 h3 h4 h5] at hm
  injection hm with hm
  subst hm
  unfold Covered at hc
  have p1 : ny * (inp.height / ny) % 2 = 0 := by rw [Nat.mul_mod, h3]; simp
  have p2 : nx * (inp.width / nx) % 2 = 0 := by rw [Nat.mul_mod, h4]; simp
  unfold expectedMaps
  generalize ny * (inp.height / ny) = hC at *
  generalize nx * (inp.width / nx) = wC at *
  have r1 : ∀ k : Fin 4, ¬ (rowOf Y k < hC ∧ colOf X k < wC) := fun k => by unfold rowOf colOf; omega
  have r2 : ¬ (Y < hC / 2 ∧ X < wC / 2) := by omega
  refine ⟨fun i j => ?_, ?_, fun k => ⟨?_, ?_, ?_⟩⟩
  · dsimp only; rw [Img.ofFn_px', if_neg r2]; simp
  · dsimp only; rw [Img.ofFn_px', if_neg r2]; simp
  · dsimp only; rw [Img.ofFn_px', if_neg (r1 k)]; simp
  · dsimp only; rw [Img.ofFn_px', if_neg (r1 k)]; simp
  · dsimp only [Img.map]
    rw [Img.ofFn_px', Img.ofFn_px', if_neg (r1 k)]
    simp [rad2deg]

/-- C31: a grid with an odd chunk side is rejected with `ValueError`. -/
theorem C31_odd_rejected (hny : 0 < ny) (hnx : 0 < nx)
    (hodd : inp.height / ny % 2 = 1 ∨ inp.width / nx % 2 = 1) :
    calibrate env inp ny nx schedule = .error .valueError := by
  unfold calibrate
  rw [if_neg (by omega)]
  dsimp only
  rw [if_pos (by omega)]

/-! ## C32 -/

/-- C32: the order in which the workers finish is irrelevant. -/
theorem C32_schedule {schedule' : List Nat} (hg : ValidGrid inp ny nx schedule)
    (hg' : ValidGrid inp ny nx schedule') :
    calibrate env inp ny nx schedule = calibrate env inp ny nx schedule' := by
  rw [calibrate_eq env inp hg.ny_pos hg.nx_pos hg.even_y hg.even_x hg.order,
    calibrate_eq env inp hg'.ny_pos hg'.nx_pos hg'.even_y hg'.even_x hg'.order]

/-- C32: the index `i + ny * j` numbers the chunks without repetition and without gaps. -/
theorem C32_index_bijection (hny : 0 < ny) :
    (∀ i j, i < ny → j < nx → i + ny * j < ny * nx) ∧
    ∀ c, c < ny * nx → ∃! ij : Nat × Nat, ij.1 < ny ∧ ij.2 < nx ∧ c = ij.1 + ny * ij.2 := by
  refine ⟨?_, ?_⟩
  · intro i j hi hj
    calc i + ny * j < ny + ny * j := by omega
      _ = ny * (j + 1) := by ring
      _ ≤ ny * nx := Nat.mul_le_mul_left _ hj
  · intro c hc
    refine ⟨(c % ny, c / ny), ⟨Nat.mod_lt _ hny, Nat.div_lt_of_lt_mul hc, (Nat.mod_add_div c ny).symm⟩, ?_⟩
    rintro ⟨i, j⟩ ⟨hi, hj, rfl⟩
    dsimp only at hi hj ⊢
    rw [Nat.add_mul_mod_self_left, Nat.mod_eq_of_lt hi, Nat.add_mul_div_left _ _ hny, Nat.div_eq_of_lt hi,
      Nat.zero_add]

/-- C32: each chunk lands at its own position: what the worker computes on the data of rows
`[i*cy, (i+1)*cy)`, columns `[j*cx, (j+1)*cx)` is what the output holds there. -/
theorem C32_position (hg : ValidGrid inp ny nx schedule) {maps : CalibMaps}
    (hm : calibrate env inp ny nx schedule = .ok maps) {i j : Nat} (hi : i < ny) (hj : j < nx) :
    let cy := inp.height / ny
    let cx := inp.width / nx
    ∃ st, computeByChunk env (inp.slice (i * cy) (j * cx) cy cx) = .ok st ∧
      (∀ a b y x, y < cy / 2 → x < cx / 2 →
        (maps.mij a b).px (i * cy / 2 + y) (j * cx / 2 + x) = (st.mij a b).px y x) ∧
      (∀ y x, y < cy / 2 → x < cx / 2 →
        maps.fitFound.px (i * cy / 2 + y) (j * cx / 2 + x) = st.fitFound.px y x) ∧
      ∀ y x, y < cy → x < cx →
        maps.tk.px (i * cy + y) (j * cx + x) = st.tk.px y x ∧
        maps.eff.px (i * cy + y) (j * cx + x) = st.eff.px y x ∧
        maps.phase.px (i * cy + y) (j * cx + x) = st.phase.px y x * 180 / Real.pi ∧
        (∀ a b, (maps.cov a b).px (i * cy + y) (j * cx + x) = (st.cov a b).px y x) ∧
        maps.chisq.px (i * cy + y) (j * cx + x) = st.chisq.px y x := by
  intro cy cx
  obtain ⟨ay, hay⟩ : ∃ a, cy = 2 * a := ⟨cy / 2, by have := hg.even_y; omega⟩
  obtain ⟨ax, hax⟩ : ∃ a, cx = 2 * a := ⟨cx / 2, by have := hg.even_x; omega⟩
  obtain ⟨st, h1, h2, h3⟩ := computeByChunk_ok env (inp.slice (i * cy) (j * cx) cy cx) (H := ay) (W := ax) hay hax
  have ei : i * cy = 2 * (i * ay) := by rw [hay]; ring
  have ej : j * cx = 2 * (j * ax) := by rw [hax]; ring
  have hout : ∀ Y X, Y < ay → X < ax →
      st.at Y X = stepOutcome env inp (i * ay + Y) (j * ax + X) inp.initOutcome := by
    intro Y X hY hX
    rw [h3 Y X hY hX, ei, ej]
    exact stepOutcome_slice env inp (by omega) (by omega)
  have hcov : ∀ Y X, Y < ay → X < ax → Covered inp ny nx (i * ay + Y) (j * ax + X) := by
    intro Y X hY hX
    unfold Covered
    constructor
    · have : (i + 1) * cy ≤ ny * cy := Nat.mul_le_mul_right _ hi
      have e : (i + 1) * cy = i * cy + cy := by ring
      show _ < ny * cy
      omega
    · have : (j + 1) * cx ≤ nx * cx := Nat.mul_le_mul_right _ hj
      have e : (j + 1) * cx = j * cx + cx := by ring
      show _ < nx * cx
      omega
  have d1 : i * cy / 2 = i * ay := by omega
  have d2 : j * cx / 2 = j * ax := by omega
  refine ⟨st, h1, ?_, ?_, ?_⟩
  · intro a b y x hy hx
    rw [d1, d2, (maps_at hg hm (hcov y x (by omega) (by omega))).1, ← hout y x (by omega) (by omega)]
    rfl
  · intro y x hy hx
    rw [d1, d2, (maps_at hg hm (hcov y x (by omega) (by omega))).2.1, ← hout y x (by omega) (by omega)]
    rfl
  · intro y x hy hx
    obtain ⟨-, -, m3, m4, m5, m6, m7⟩ := maps_at hg hm (hcov (y / 2) (x / 2) (by omega) (by omega))
    rw [← hout (y / 2) (x / 2) (by omega) (by omega)] at m3 m4 m5 m6 m7
    have er : i * cy + y = rowOf (i * ay + y / 2) (posOf y x) := by unfold rowOf posOf; dsimp only; omega
    have ec : j * cx + x = colOf (j * ax + x / 2) (posOf y x) := by unfold colOf posOf; dsimp only; omega
    rw [er, ec, m3, m4, m5, m7]
    refine ⟨(px_eq_superPx _ _ _).symm, (px_eq_superPx _ _ _).symm, ?_, ?_, (px_eq_superPx _ _ _).symm⟩
    · rw [px_eq_superPx st.phase]
      show superPx st.phase _ _ _ * (180 / Real.pi) = _
      ring
    · intro a b
      rw [m6]
      exact (px_eq_superPx _ _ _).symm

/-! ## C22 -/

theorem left_inverse_of_pinv {M : Matrix (Fin 4) (Fin 3) ℝ} {P : Matrix (Fin 3) (Fin 4) ℝ}
    (h : IsPseudoInverse M P) (hr : FullRank M) (v : Fin 3 → ℝ) : P.mulVec (M.mulVec v) = v := by
  apply hr
  rw [Matrix.mulVec_mulVec, Matrix.mulVec_mulVec, h.1]

/-- C22: let the calibration have found a fit at a superpixel (flag 1), and let the stored throughputs, efficiencies
and phases (in degrees) give a response of rank 3.  Then every image whose four values at this superpixel are that
response to a Stokes vector `v` is demodulated, with the stored tensor and flags, to exactly `v`. -/
theorem C22_demodulation_inverts (hpinv : env.PinvCorrect) (hg : ValidGrid inp ny nx schedule) {maps : CalibMaps}
    (hm : calibrate env inp ny nx schedule = .ok maps) {Y X : Nat} (hc : Covered inp ny nx Y X)
    (hflag : maps.fitFound.px Y X = 1)
    (R : Fin 4 → Fin 3 → ℝ)
    (hR : R = responseMatrix (fun k => maps.tk.px (rowOf Y k) (colOf X k))
      (fun k => maps.eff.px (rowOf Y k) (colOf X k))
      (fun k => maps.phase.px (rowOf Y k) (colOf X k) * Real.pi / 180))
    (hrank : FullRank (Matrix.of R)) (v : Fin 3 → ℝ)
    (data : Img ℝ) (hdata : data.HasShape inp.height inp.width) (heven : inp.height % 2 = 0 ∧ inp.width % 2 = 0)
    (hval : ∀ k, data.px (rowOf Y k) (colOf X k) = ∑ i, R k i * v i)
    (prev : Fin 3 → Img ℝ) (hprev : ∀ i, (prev i).HasShape (inp.height / 2) (inp.width / 2)) :
    ∃ S, demodulatePlain data prev ⟨maps.mij, some maps.fitFound⟩ = .ok S ∧ ∀ i, (S i).px Y X = v i := by
  obtain ⟨-, hfl⟩ := C33_flag hg hm hc
  obtain ⟨-, hmij, -⟩ := hfl hflag
  rw [← hR] at hmij
  have hshape : maps.fitFound.HasShape (inp.height / 2) (inp.width / 2) ∧
      ∀ i j, (maps.mij i j).HasShape (inp.height / 2) (inp.width / 2) := by
    rw [calibrate_eq env inp hg.ny_pos hg.nx_pos hg.even_y hg.even_x hg.order] at hm
    injection hm with hm
    subst hm
    exact ⟨⟨rfl, rfl⟩, fun _ _ => ⟨rfl, rfl⟩⟩
  have hs := split_ok (d := data) (by rw [hdata.1]; exact heven.1) (by rw [hdata.2]; exact heven.2)
  obtain ⟨S, h1, h2⟩ := C24_flags data _ hs prev (by rw [hdata.1, hdata.2]; exact hprev)
    ⟨maps.mij, some maps.fitFound⟩ (by rw [hdata.1, hdata.2]; exact hshape.2) maps.fitFound rfl
    (by rw [hdata.1, hdata.2]; exact hshape.1)
  refine ⟨S, h1, fun i => ?_⟩
  have b1 : ny * (inp.height / ny) ≤ inp.height := Nat.mul_div_le _ _
  have b2 : nx * (inp.width / nx) ≤ inp.width := Nat.mul_div_le _ _
  have p1 : ny * (inp.height / ny) % 2 = 0 := by rw [Nat.mul_mod, hg.even_y]; simp
  have p2 : nx * (inp.width / nx) % 2 = 0 := by rw [Nat.mul_mod, hg.even_x]; simp
  obtain ⟨c1, c2⟩ := hc
  have hY : Y < data.h / 2 := by rw [hdata.1]; omega
  have hX : X < data.w / 2 := by rw [hdata.2]; omega
  rw [(h2 i).2 Y X hY hX, if_pos hflag]
  have key := congrFun (left_inverse_of_pinv (hpinv R hrank) hrank v) i
  rw [← key]
  unfold Matrix.mulVec dotProduct
  refine Finset.sum_congr rfl fun k _ => ?_
  rw [hmij]
  congr 1
  rw [Img.ofFn_px hY hX]
  exact hval k

/-! ## C23 -/

theorem normal_equation {M : Matrix (Fin 4) (Fin 3) ℝ} {P : Matrix (Fin 3) (Fin 4) ℝ} (h : IsPseudoInverse M P) :
    M.transpose * M * P = M.transpose := by
  obtain ⟨h1, -, h3, -⟩ := h
  calc M.transpose * M * P = M.transpose * (M * P) := by rw [Matrix.mul_assoc]
    _ = M.transpose * (M * P).transpose := by rw [h3]
    _ = (M * P * M).transpose := by rw [Matrix.transpose_mul (M * P) M]
    _ = M.transpose := by rw [h1]

/-- The predicted phases are the nominal orientations of a layout. -/
def NominalPhases (L : Layout) (φ : Fin 4 → ℝ) : Prop :=
  φ L.p0 = 0 ∧ φ L.p45 = Real.pi / 4 ∧ φ L.pm45 = -(Real.pi / 4) ∧ φ L.p90 = Real.pi / 2

end

theorem sum_layout {L : Layout} (hL : L.Proper) (f : Fin 4 → ℝ) :
    ∑ k, f k = f L.p0 + f L.p45 + f L.pm45 + f L.p90 := by
  obtain ⟨a, b, c, d⟩ := L
  unfold Layout.Proper at hL
  dsimp only at hL ⊢
  obtain ⟨h1, h2, h3, h4, h5, h6⟩ := hL
  have : (Finset.univ : Finset (Fin 4)) = {a, b, c, d} := by
    symm
    apply Finset.eq_univ_of_card
    rw [Finset.card_insert_of_notMem, Finset.card_insert_of_notMem, Finset.card_insert_of_notMem,
      Finset.card_singleton]
    · rfl
    · simpa using h6
    · simp only [Finset.mem_insert, Finset.mem_singleton, not_or]; exact ⟨h4, h5⟩
    · simp only [Finset.mem_insert, Finset.mem_singleton, not_or]; exact ⟨h1, h2, h3⟩
  rw [this, Finset.sum_insert, Finset.sum_insert, Finset.sum_insert, Finset.sum_singleton]
  · ring
  · simpa using h6
  · simp only [Finset.mem_insert, Finset.mem_singleton, not_or]; exact ⟨h4, h5⟩
  · simp only [Finset.mem_insert, Finset.mem_singleton, not_or]; exact ⟨h1, h2, h3⟩

section
variable {L : Layout} {φ : Fin 4 → ℝ}

theorem nominal_trig (hφ : NominalPhases L φ) :
    (Real.cos (2 * φ L.p0) = 1 ∧ Real.sin (2 * φ L.p0) = 0) ∧
    (Real.cos (2 * φ L.p45) = 0 ∧ Real.sin (2 * φ L.p45) = 1) ∧
    (Real.cos (2 * φ L.pm45) = 0 ∧ Real.sin (2 * φ L.pm45) = -1) ∧
    (Real.cos (2 * φ L.p90) = -1 ∧ Real.sin (2 * φ L.p90) = 0) := by
  obtain ⟨h1, h2, h3, h4⟩ := hφ
  rw [h1, h2, h3, h4]
  have e1 : 2 * (Real.pi / 4) = Real.pi / 2 := by ring
  have e2 : 2 * (-(Real.pi / 4)) = -(Real.pi / 2) := by ring
  have e3 : 2 * (Real.pi / 2) = Real.pi := by ring
  rw [e1, e2, e3]
  simp

theorem ideal_fullRank (hL : L.Proper) (hφ : NominalPhases L φ) : FullRank (Matrix.of (idealMatrix φ)) := by
  obtain ⟨⟨a1, a2⟩, ⟨b1, b2⟩, ⟨c1, c2⟩, ⟨d1, d2⟩⟩ := nominal_trig hφ
  intro u v huv
  have row : ∀ k, u 0 / 2 + Real.cos (2 * φ k) / 2 * u 1 + Real.sin (2 * φ k) / 2 * u 2 =
      v 0 / 2 + Real.cos (2 * φ k) / 2 * v 1 + Real.sin (2 * φ k) / 2 * v 2 := by
    intro k
    have := congrFun huv k
    simp only [Matrix.mulVec, dotProduct, Fin.sum_univ_three, Matrix.of_apply, idealMatrix, responseMatrix] at this
    simp at this
    linarith
  have r1 := row L.p0
  have r2 := row L.p45
  have r3 := row L.pm45
  have r4 := row L.p90
  rw [a1, a2] at r1
  rw [b1, b2] at r2
  rw [c1, c2] at r3
  rw [d1, d2] at r4
  funext i
  fin_cases i
  · show u 0 = v 0; linarith
  · show u 1 = v 1; linarith
  · show u 2 = v 2; linarith

/-- The pseudo-inverse of the ideal response, for any layout of the four nominal orientations. -/
theorem ideal_pinv (hL : L.Proper) (hφ : NominalPhases L φ) {P : Fin 3 → Fin 4 → ℝ}
    (h : IsPseudoInverse (Matrix.of (idealMatrix φ)) (Matrix.of P)) (k : Fin 4) :
    P 0 k = 1 / 2 ∧ P 1 k = Real.cos (2 * φ k) ∧ P 2 k = Real.sin (2 * φ k) := by
  have hn := normal_equation h
  obtain ⟨⟨a1, a2⟩, ⟨b1, b2⟩, ⟨c1, c2⟩, ⟨d1, d2⟩⟩ := nominal_trig hφ
  have gram : ∀ i j : Fin 3, ((Matrix.of (idealMatrix φ)).transpose * Matrix.of (idealMatrix φ)) i j =
      if i = j then (if i = 0 then 1 else 1 / 2) else 0 := by
    intro i j
    rw [Matrix.mul_apply, sum_layout hL]
    simp only [Matrix.transpose_apply, Matrix.of_apply, idealMatrix, responseMatrix]
    fin_cases i <;> fin_cases j <;> simp [a1, a2, b1, b2, c1, c2, d1, d2] <;> norm_num
  have row : ∀ i : Fin 3, (if i = 0 then (1 : ℝ) else 1 / 2) * P i k = idealMatrix φ k i := by
    intro i
    have := congrFun (congrFun hn i) k
    rw [Matrix.mul_apply] at this
    simp only [gram, Matrix.transpose_apply, Matrix.of_apply] at this
    rw [← this]
    simp
  have r0 := row 0
  have r1 := row 1
  have r2 := row 2
  simp [idealMatrix, responseMatrix] at r0 r1 r2
  refine ⟨?_, ?_, ?_⟩
  · rw [r0]; norm_num
  · linarith
  · linarith

end

section
variable {env : CalibEnv} {inp : ChunkInput} {ny nx : Nat} {schedule : List Nat}

/-- C23: with the nominal orientations in any layout, at a superpixel where calibration fell back (occulted, dark or
failed fit) the stored matrix applied to any image's superpixel gives exactly the theoretical Stokes parameters of
that image. -/
theorem C23_fallback_is_theoretical (hpinv : env.PinvCorrect) (L : Layout) (hL : L.Proper)
    (hφ : NominalPhases L inp.previsions) (dic : AngleDic) (hdic : L.Describes dic)
    (hg : ValidGrid inp ny nx schedule) {maps : CalibMaps} (hm : calibrate env inp ny nx schedule = .ok maps)
    {Y X : Nat} (hc : Covered inp ny nx Y X)
    (hfail : Occulted inp Y X ∨ ∃ k, Dark inp Y X k ∨ FitRaises env inp Y X k)
    (data : Img ℝ) (heven : data.h % 2 = 0 ∧ data.w % 2 = 0) (hY : Y < data.h / 2) (hX : X < data.w / 2) :
    ∃ S, dataStokes data dic = .ok S ∧
      ∀ i, ∑ k, (maps.mij i k).px Y X * data.px (rowOf Y k) (colOf X k) = (S i).px Y X := by
  obtain ⟨hmij, -, -⟩ := C33_fallback hg hm hc hfail
  obtain ⟨S, h1, -, h3⟩ := C17_stokes data heven.1 heven.2 L dic hdic
  refine ⟨S, h1, ?_⟩
  obtain ⟨s0, s1, s2⟩ := h3 Y X hY hX
  have hP := ideal_pinv hL hφ (hpinv _ (ideal_fullRank hL hφ))
  obtain ⟨⟨a1, a2⟩, ⟨b1, b2⟩, ⟨c1, c2⟩, ⟨d1, d2⟩⟩ := nominal_trig hφ
  intro i
  simp only [hmij]
  fin_cases i
  · show ∑ k, env.pinv (idealMatrix inp.previsions) 0 k * _ = (S 0).px Y X
    rw [s0, Fin.sum_univ_four]
    simp only [(hP _).1]
    unfold rowOf colOf
    ring
  · show ∑ k, env.pinv (idealMatrix inp.previsions) 1 k * _ = (S 1).px Y X
    rw [s1, sum_layout hL]
    simp only [(hP _).2.1, a1, b1, c1, d1]
    unfold rowOf colOf
    ring
  · show ∑ k, env.pinv (idealMatrix inp.previsions) 2 k * _ = (S 2).px Y X
    rw [s2, sum_layout hL]
    simp only [(hP _).2.2, a2, b2, c2, d2]
    unfold rowOf colOf
    ring

end

/-! ## The hypotheses can be met -/

/-- A pseudo-inverse that satisfies the Penrose conditions on full-rank matrices exists. -/
theorem exists_pinv : ∃ f : (Fin 4 → Fin 3 → ℝ) → Fin 3 → Fin 4 → ℝ, ∀ M, FullRank (Matrix.of M) →
    IsPseudoInverse (Matrix.of M) (Matrix.of (f M)) := by
  refine ⟨fun M => (((Matrix.of M).transpose * Matrix.of M)⁻¹ * (Matrix.of M).transpose), ?_⟩
  intro M' hr
  set M := Matrix.of M' with hM
  show IsPseudoInverse M ((M.transpose * M)⁻¹ * M.transpose)
  have hinj : Function.Injective (M.transpose * M).mulVec := by
    intro u v huv
    have h0 : (M.transpose * M).mulVec (u - v) = 0 := by
      rw [Matrix.mulVec_sub]
      exact sub_eq_zero.2 huv
    have h1 : dotProduct (M.mulVec (u - v)) (M.mulVec (u - v)) = 0 := by
      rw [← Matrix.mulVec_mulVec] at h0
      rw [Matrix.dotProduct_mulVec, ← Matrix.mulVec_transpose, h0, zero_dotProduct]
    have h2 : M.mulVec (u - v) = 0 := dotProduct_self_eq_zero.1 h1
    have h3 : M.mulVec (u - v) = M.mulVec 0 := by rw [h2, Matrix.mulVec_zero]
    exact sub_eq_zero.1 (hr h3)
  have hu : IsUnit (M.transpose * M) := Matrix.mulVec_injective_iff_isUnit.1 hinj
  have hdet : IsUnit (M.transpose * M).det := (Matrix.isUnit_iff_isUnit_det _).1 hu
  have hl : (M.transpose * M)⁻¹ * (M.transpose * M) = 1 := Matrix.nonsing_inv_mul _ hdet
  have hPM : (M.transpose * M)⁻¹ * M.transpose * M = 1 := by rw [Matrix.mul_assoc, hl]
  have hsym : ((M.transpose * M)⁻¹).transpose = (M.transpose * M)⁻¹ := by
    rw [Matrix.transpose_nonsing_inv]
    congr 1
    rw [Matrix.transpose_mul, Matrix.transpose_transpose]
  refine ⟨?_, ?_, ?_, ?_⟩
  · rw [Matrix.mul_assoc, hPM, Matrix.mul_one]
  · rw [hPM, Matrix.one_mul]
  · rw [Matrix.transpose_mul, Matrix.transpose_mul, Matrix.transpose_transpose, hsym, Matrix.mul_assoc]
  · rw [hPM, Matrix.transpose_one]

/-- Three images of 4x4 pixels, all 1 except that the pixel (0, 0) is dark, and an occulter over the lower right
superpixel. -/
def sampleInput : ChunkInput where
  n := 3
  height := 4
  width := 4
  data := fun _ => Img.ofFn 4 4 (fun y x => if y = 0 ∧ x = 0 then 0 else 1)
  errors := fun _ => Img.zeros 4 4
  occulter := Img.ofFn 4 4 (fun y x => if 2 ≤ y ∧ 2 ≤ x then 1 else 0)
  orientations := ![0, 45, 90]
  previsions := ![0, Real.pi / 4, -(Real.pi / 4), Real.pi / 2]
  tkBoundary := none
  effBoundary := none

/-- Environment whose fits always return the ideal parameters. -/
def sampleEnv : CalibEnv where
  curveFit := fun call => some (![1, 1, call.p0 2], fun _ _ => 0)
  pinv := exists_pinv.choose
  chisq := fun _ _ _ => 0

theorem sampleEnv_pinv : sampleEnv.PinvCorrect := exists_pinv.choose_spec

theorem sampleGrid : ValidGrid sampleInput 2 2 [2, 0, 3, 1] :=
  ⟨by norm_num, by norm_num, by decide, by decide, by decide⟩

example : Divides sampleInput 2 2 := ⟨by decide, by decide⟩
example : Covered sampleInput 2 2 1 1 := by unfold Covered; decide
/-- A dark, an occulted and a regular superpixel. -/
example : Dark sampleInput 0 0 0 := by
  intro p
  show (Img.ofFn 4 4 _).px (2 * 0 + 0 / 2) (2 * 0 + 0 % 2) = (0 : ℝ)
  rw [Img.ofFn_px (by norm_num) (by norm_num)]
  norm_num
example : Occulted sampleInput 1 1 := by
  refine ⟨0, ?_⟩
  show (Img.ofFn 4 4 _).px (2 * 1 + 0 / 2) (2 * 1 + 0 % 2) ≠ (0 : ℝ)
  rw [Img.ofFn_px (by norm_num) (by norm_num)]
  norm_num
/-- The calibration of the regular superpixel (0, 1) finds a fit with flag 1 and a response of rank 3: all hypotheses
of `C22_demodulation_inverts` hold there. -/
example : ∃ maps, calibrate sampleEnv sampleInput 2 2 [2, 0, 3, 1] = .ok maps ∧ maps.fitFound.px 0 1 = 1 ∧
    FullRank (Matrix.of (responseMatrix (fun k => maps.tk.px (rowOf 0 k) (colOf 1 k))
      (fun k => maps.eff.px (rowOf 0 k) (colOf 1 k))
      (fun k => maps.phase.px (rowOf 0 k) (colOf 1 k) * Real.pi / 180))) := by
  obtain ⟨maps, hm⟩ := C33_total (env := sampleEnv) sampleGrid
  have hφ : NominalPhases ⟨0, 1, 2, 3⟩ sampleInput.previsions := ⟨rfl, rfl, rfl, rfl⟩
  have hL : Layout.Proper ⟨0, 1, 2, 3⟩ := C02_polarCam.2
  have hpx : ∀ (f : Nat → Nat → ℝ) (k : Fin 4), (Img.ofFn 4 4 f).px (rowOf 0 k) (colOf 1 k) =
      f (k.val / 2) (2 + k.val % 2) := by
    intro f k
    rw [Img.ofFn_px (by unfold rowOf; omega) (by unfold colOf; omega)]
    unfold rowOf colOf
    norm_num
  have hocc : ¬ Occulted sampleInput 0 1 := by
    rintro ⟨k, hk⟩
    apply hk
    show (Img.ofFn 4 4 _).px _ _ = (0 : ℝ)
    rw [hpx, if_neg (by omega)]
  have hdark : ∀ k, ¬ Dark sampleInput 0 1 k := by
    intro k hk
    have h0 : (Img.ofFn 4 4 (fun y x => if y = 0 ∧ x = 0 then (0 : ℝ) else 1)).px (rowOf 0 k) (colOf 1 k) = 0 :=
      hk (0 : Fin 3)
    rw [hpx, if_neg (by omega)] at h0
    norm_num at h0
  obtain ⟨h1, -, h3⟩ := C33_fitted (env := sampleEnv) sampleGrid hm (Y := 0) (X := 1)
    (by unfold Covered; decide) hocc hdark (fun k => ![1, 1, sampleInput.previsions k]) (fun _ _ _ => 0)
    (fun _ => rfl)
  have hP := ideal_pinv hL hφ (sampleEnv_pinv _ (ideal_fullRank hL hφ))
  refine ⟨maps, hm, (h1 ?_).2, ?_⟩
  · intro i j
    show -100 ≤ sampleEnv.pinv (idealMatrix sampleInput.previsions) i j ∧
      sampleEnv.pinv (idealMatrix sampleInput.previsions) i j ≤ 100
    have := hP j
    have c1 := Real.neg_one_le_cos (2 * sampleInput.previsions j)
    have c2 := Real.cos_le_one (2 * sampleInput.previsions j)
    have c3 := Real.neg_one_le_sin (2 * sampleInput.previsions j)
    have c4 := Real.sin_le_one (2 * sampleInput.previsions j)
    fin_cases i
    · show -100 ≤ sampleEnv.pinv _ 0 j ∧ sampleEnv.pinv _ 0 j ≤ 100
      rw [this.1]; constructor <;> norm_num
    · show -100 ≤ sampleEnv.pinv _ 1 j ∧ sampleEnv.pinv _ 1 j ≤ 100
      rw [this.2.1]; constructor <;> linarith
    · show -100 ≤ sampleEnv.pinv _ 2 j ∧ sampleEnv.pinv _ 2 j ≤ 100
      rw [this.2.2]; constructor <;> linarith
  · have e : responseMatrix (fun k => maps.tk.px (rowOf 0 k) (colOf 1 k))
        (fun k => maps.eff.px (rowOf 0 k) (colOf 1 k))
        (fun k => maps.phase.px (rowOf 0 k) (colOf 1 k) * Real.pi / 180) = idealMatrix sampleInput.previsions := by
      have hph : ∀ k, maps.phase.px (rowOf 0 k) (colOf 1 k) * Real.pi / 180 = sampleInput.previsions k := fun k => by
        rw [(h3 k).2.2.1]
        have := Real.pi_ne_zero
        show sampleInput.previsions k * 180 / Real.pi * Real.pi / 180 = _
        field_simp
      have ht : ∀ k, maps.tk.px (rowOf 0 k) (colOf 1 k) = 1 := fun k => (h3 k).1
      have he : ∀ k, maps.eff.px (rowOf 0 k) (colOf 1 k) = 1 := fun k => (h3 k).2.1
      simp only [hph, ht, he]
      rfl
    rw [e]
    exact ideal_fullRank hL hφ

end

end Micropol
