import Verif.Props.Transposed
import Verif.Props.Calibration
import Verif.Props.Part
import Verif.Lemmas.MoorePenrose

/-!
# C134, C133: calibrating the exchanged sensor, or a part of the sensor

The calibration of the demodulation tensor from measurements whose rows and columns are exchanged gives the exchanged tensor (and the
exchanged maps of throughput, efficiency, phase, covariances, chi squares and flags), on every grid of processes and whatever the order in
which they finish; that from a part of the measurements gives the part.
-/

set_option autoImplicit false
set_option linter.unusedSectionVars false

namespace Micropol

noncomputable section

open Classical

/-- Exchanging two rows of a matrix exchanges the columns of its pseudo-inverse. -/
theorem pinv_rows {env : CalibEnv} (he : env.PinvAlways) (M : Fin 4 → Fin 3 → ℝ) :
    env.pinv (fun k => M (mate k)) = fun i j => env.pinv M i (mate j) := by
  have h1 := he (fun k => M (mate k))
  have h2 := he M
  have h3 : IsMoorePenrose (Matrix.of fun k => M (mate k)) (Matrix.of fun i j => env.pinv M i (mate j)) := by
    obtain ⟨p1, p2, p3, p4⟩ := h2
    have hPM : (Matrix.of fun i j => env.pinv M i (mate j)) * (Matrix.of fun k => M (mate k)) =
        Matrix.of (env.pinv M) * Matrix.of M := by
      ext i j
      simp only [Matrix.mul_apply, Matrix.of_apply]
      exact sum_mate fun k => env.pinv M i k * M k j
    refine ⟨?_, ?_, ?_, ?_⟩
    · rw [Matrix.mul_assoc, hPM]
      rw [Matrix.mul_assoc] at p1
      ext k j
      have := congrFun (congrFun p1 (mate k)) j
      simpa only [Matrix.mul_apply, Matrix.of_apply] using this
    · rw [hPM]
      ext i k
      have := congrFun (congrFun p2 i) (mate k)
      simpa only [Matrix.mul_apply, Matrix.of_apply] using this
    · ext k l
      have := congrFun (congrFun p3 (mate k)) (mate l)
      simpa only [Matrix.transpose_apply, Matrix.mul_apply, Matrix.of_apply] using this
    · rw [hPM]
      exact p4
  exact Matrix.of.injective (moorePenrose_unique (M := Matrix.of fun k => M (mate k)) h1 h3)

/-- The outcome of a superpixel with the pixels off the diagonal exchanged. -/
def Outcome.mated (o : Outcome) : Outcome where
  m := fun i j => o.m i (mate j)
  flag := o.flag
  tk := fun k => o.tk (mate k)
  eff := fun k => o.eff (mate k)
  phase := fun k => o.phase (mate k)
  cov := fun a b k => o.cov a b (mate k)
  chi := fun k => o.chi (mate k)

theorem superPx_transposed (A : Img ℝ) (Y X : Nat) (k : Fin 4) : superPx A.transposed X Y k = superPx A Y X (mate k) := by
  unfold superPx
  rw [transposed_px, mate_div, mate_mod]

theorem fitCall_transposed (inp : ChunkInput) (Y X : Nat) (k : Fin 4) :
    inp.transposed.fitCall X Y k = inp.fitCall Y X (mate k) := by
  unfold ChunkInput.fitCall ChunkInput.transposed
  simp only [superPx_transposed]
  rfl

theorem fits_transposed (env : CalibEnv) (inp : ChunkInput) (Y X : Nat) (k : Fin 4) :
    inp.transposed.fits env X Y k = inp.fits env Y X (mate k) := by
  unfold ChunkInput.fits
  rw [fitCall_transposed]

theorem forall_mate (P : Fin 4 → Prop) : (∀ k, P (mate k)) ↔ ∀ k, P k :=
  ⟨fun h k => by rw [← mate_mate k]; exact h _, fun h k => h _⟩

theorem exists_mate (P : Fin 4 → Prop) : (∃ k, P (mate k)) ↔ ∃ k, P k :=
  ⟨fun ⟨k, h⟩ => ⟨_, h⟩, fun ⟨k, h⟩ => ⟨mate k, by rwa [mate_mate]⟩⟩

theorem bigEntry_mate (m : Fin 3 → Fin 4 → ℝ) : hasBigEntry (fun i j => m i (mate j)) ↔ hasBigEntry m := by
  unfold hasBigEntry
  have h1 : ∀ i, (∃ j, m i (mate j) > 100) ↔ ∃ j, m i j > 100 := fun i => exists_mate fun j => m i j > 100
  have h2 : ∀ i, (∃ j, m i (mate j) < -100) ↔ ∃ j, m i j < -100 := fun i => exists_mate fun j => m i j < -100
  simp only [h1, h2]

theorem stepOutcome_transposed {env : CalibEnv} (he : env.PinvAlways) (inp : ChunkInput) (Y X : Nat) :
    stepOutcome env inp.transposed X Y inp.transposed.initOutcome = (stepOutcome env inp Y X inp.initOutcome).mated := by
  have htheo : theoDemodulation env inp.transposed = fun i j => theoDemodulation env inp i (mate j) := by
    unfold theoDemodulation
    exact pinv_rows he (theoModulationMatrix inp.previsions)
  have hocc : (∃ k, superPx inp.transposed.occulter (2 * X) (2 * Y) k ≠ 0) ↔ ∃ k, superPx inp.occulter (2 * Y) (2 * X) k ≠ 0 := by
    rw [← exists_mate fun k => superPx inp.occulter (2 * Y) (2 * X) k ≠ 0]
    show (∃ k, superPx inp.occulter.transposed _ _ k ≠ 0) ↔ _
    simp only [superPx_transposed]
  have hinit : inp.transposed.initOutcome = inp.initOutcome.mated := rfl
  unfold stepOutcome
  dsimp only
  by_cases ho : ∃ k, superPx inp.occulter (2 * Y) (2 * X) k ≠ 0
  · rw [if_pos (hocc.2 ho), if_pos ho, htheo, hinit]
    rfl
  · rw [if_neg (fun h => ho (hocc.1 h)), if_neg ho]
    by_cases hf : ∀ k, (inp.fits env (2 * Y) (2 * X) k).isSome
    · have hf' : ∀ k, (inp.transposed.fits env (2 * X) (2 * Y) k).isSome := fun k => by rw [fits_transposed]; exact hf _
      rw [dif_pos hf', dif_pos hf]
      have hget : ∀ k, (inp.transposed.fits env (2 * X) (2 * Y) k).get (hf' k) = (inp.fits env (2 * Y) (2 * X) (mate k)).get (hf (mate k)) := by
        intro k
        simp only [fits_transposed]
      simp only [hget, fitCall_transposed]
      have hp := pinv_rows he (modulationMatrix (fun k => ((inp.fits env (2 * Y) (2 * X) k).get (hf k)).1 0)
        (fun k => ((inp.fits env (2 * Y) (2 * X) k).get (hf k)).1 1) (fun k => ((inp.fits env (2 * Y) (2 * X) k).get (hf k)).1 2))
      have hp' : env.pinv (modulationMatrix (fun k => ((inp.fits env (2 * Y) (2 * X) (mate k)).get (hf (mate k))).1 0)
        (fun k => ((inp.fits env (2 * Y) (2 * X) (mate k)).get (hf (mate k))).1 1)
        (fun k => ((inp.fits env (2 * Y) (2 * X) (mate k)).get (hf (mate k))).1 2)) = _ := hp
      rw [hp', htheo]
      have hb := bigEntry_mate (env.pinv (modulationMatrix (fun k => ((inp.fits env (2 * Y) (2 * X) k).get (hf k)).1 0)
        (fun k => ((inp.fits env (2 * Y) (2 * X) k).get (hf k)).1 1) (fun k => ((inp.fits env (2 * Y) (2 * X) k).get (hf k)).1 2)))
      by_cases hbig : hasBigEntry (env.pinv (modulationMatrix (fun k => ((inp.fits env (2 * Y) (2 * X) k).get (hf k)).1 0)
        (fun k => ((inp.fits env (2 * Y) (2 * X) k).get (hf k)).1 1) (fun k => ((inp.fits env (2 * Y) (2 * X) k).get (hf k)).1 2)))
      · simp only [if_pos (hb.2 hbig), if_pos hbig]
        rfl
      · simp only [if_neg (fun h => hbig (hb.1 h)), if_neg hbig]
        rfl
    · rw [dif_neg (fun h => hf fun k => by have := h (mate k); rwa [fits_transposed, mate_mate] at this), dif_neg hf, htheo, hinit]
      rfl

theorem mate_posOf (y x : Nat) : mate (posOf x y) = posOf y x := by
  have h1 : ∀ (a b : Nat) (ha : a < 2) (hb : b < 2), mate ⟨2 * a + b, by omega⟩ = (⟨2 * b + a, by omega⟩ : Fin 4) := by
    intro a b ha hb
    interval_cases a <;> interval_cases b <;> rfl
  exact h1 (x % 2) (y % 2) (by omega) (by omega)

theorem CalibMaps.same {m m' : CalibMaps} (h1 : m.mij = m'.mij) (h2 : m.fitFound = m'.fitFound) (h3 : m.cov = m'.cov) (h4 : m.tk = m'.tk)
    (h5 : m.eff = m'.eff) (h6 : m.phase = m'.phase) (h7 : m.chisq = m'.chisq) : m = m' := by
  cases m
  cases m'
  simp_all

/-- C134: calibration.  On every grid of processes, whatever the order in which they finish. -/
theorem C134_calibrate {env : CalibEnv} (he : env.PinvAlways) {inp : ChunkInput} {ny nx : Nat} {schedule schedule' : List Nat}
    (hg : ValidGrid inp ny nx schedule) (hs : schedule'.Perm (List.range (nx * ny))) :
    ∃ maps, calibrate env inp ny nx schedule = .ok maps ∧ calibrate env inp.transposed nx ny schedule' = .ok maps.transposed := by
  refine ⟨_, calibrate_eq env inp hg.ny_pos hg.nx_pos hg.even_y hg.even_x hg.order, ?_⟩
  rw [calibrate_eq env inp.transposed hg.nx_pos hg.ny_pos hg.even_x hg.even_y hs]
  show Except.ok (expectedMaps env inp.transposed (nx * (inp.width / nx)) (ny * (inp.height / ny))) = _
  generalize ny * (inp.height / ny) = hC
  generalize nx * (inp.width / nx) = wC
  have full : ∀ f : Outcome → Fin 4 → ℝ, (∀ o k, f o.mated k = f o (mate k)) →
      (Img.ofFn inp.width inp.height fun y x => if y < wC ∧ x < hC then
        f (stepOutcome env inp.transposed (y / 2) (x / 2) inp.transposed.initOutcome) (posOf y x) else 0) =
      (Img.ofFn inp.height inp.width fun y x => if y < hC ∧ x < wC then
        f (stepOutcome env inp (y / 2) (x / 2) inp.initOutcome) (posOf y x) else 0).transposed := by
    intro f hf
    refine Img.ext_px rfl rfl ?_
    intro y x (hy : y < inp.width) (hx : x < inp.height)
    rw [transposed_px, Img.ofFn_px hy hx, Img.ofFn_px hx hy, stepOutcome_transposed he, hf, ← mate_posOf x y]
    simp only [and_comm]
  have half : ∀ f g : Outcome → ℝ, (∀ o : Outcome, f o.mated = g o) →
      (Img.ofFn (inp.width / 2) (inp.height / 2) fun Y X => if Y < wC / 2 ∧ X < hC / 2 then
        f (stepOutcome env inp.transposed Y X inp.transposed.initOutcome) else 0) =
      (Img.ofFn (inp.height / 2) (inp.width / 2) fun Y X => if Y < hC / 2 ∧ X < wC / 2 then
        g (stepOutcome env inp Y X inp.initOutcome) else 0).transposed := by
    intro f g hf
    refine Img.ext_px rfl rfl ?_
    intro y x (hy : y < inp.width / 2) (hx : x < inp.height / 2)
    rw [transposed_px, Img.ofFn_px hy hx, Img.ofFn_px hx hy, stepOutcome_transposed he, hf]
    simp only [and_comm]
  congr 1
  refine CalibMaps.same ?_ ?_ ?_ ?_ ?_ ?_ ?_
  · funext i j
    exact half (fun o => o.m i j) (fun o => o.m i (mate j)) fun _ => rfl
  · exact half Outcome.flag Outcome.flag fun _ => rfl
  · funext a b
    exact full (fun o => o.cov a b) fun _ _ => rfl
  · exact full Outcome.tk fun _ _ => rfl
  · exact full Outcome.eff fun _ _ => rfl
  · have := full Outcome.phase fun _ _ => rfl
    refine (congrArg (fun A : Img ℝ => A.map rad2deg) this).trans ?_
    refine Img.ext_px rfl rfl ?_
    intro y x (hy : y < inp.width) (hx : x < inp.height)
    show _ = (Img.map rad2deg _).transposed.px y x
    rw [transposed_px, Img.map_px _ _ (by exact hy) (by exact hx), Img.map_px _ _ (by exact hx) (by exact hy), transposed_px]
  · exact full Outcome.chi fun _ _ => rfl

/-- C133: calibration of a part, on grids that divide the images, whatever the order in which the processes finish. -/
theorem C133_calibrate {env : CalibEnv} {inp : ChunkInput} {ny nx ny' nx' : Nat} {schedule schedule' : List Nat} {y₀ x₀ h w : Nat}
    (hg : ValidGrid inp ny nx schedule) (hd : Divides inp ny nx) (hy : y₀ % 2 = 0) (hx : x₀ % 2 = 0) (hh : y₀ + h ≤ inp.height)
    (hw : x₀ + w ≤ inp.width) (hg' : ValidGrid (inp.part y₀ x₀ h w) ny' nx' schedule') (hd' : Divides (inp.part y₀ x₀ h w) ny' nx') :
    ∃ maps, calibrate env inp ny nx schedule = .ok maps ∧
      calibrate env (inp.part y₀ x₀ h w) ny' nx' schedule' = .ok (maps.part y₀ x₀ h w) := by
  refine ⟨_, calibrate_eq env inp hg.ny_pos hg.nx_pos hg.even_y hg.even_x hg.order, ?_⟩
  rw [calibrate_eq env (inp.part y₀ x₀ h w) hg'.ny_pos hg'.nx_pos hg'.even_y hg'.even_x hg'.order]
  have e1 : ny * (inp.height / ny) = inp.height := Nat.mul_div_cancel' (Nat.dvd_of_mod_eq_zero hd.1)
  have e2 : nx * (inp.width / nx) = inp.width := Nat.mul_div_cancel' (Nat.dvd_of_mod_eq_zero hd.2)
  have e3 : ny' * ((inp.part y₀ x₀ h w).height / ny') = h := Nat.mul_div_cancel' (Nat.dvd_of_mod_eq_zero hd'.1)
  have e4 : nx' * ((inp.part y₀ x₀ h w).width / nx') = w := Nat.mul_div_cancel' (Nat.dvd_of_mod_eq_zero hd'.2)
  have p1 : h % 2 = 0 := by rw [← e3, Nat.mul_mod, hg'.even_y]; simp
  have p2 : w % 2 = 0 := by rw [← e4, Nat.mul_mod, hg'.even_x]; simp
  rw [e1, e2, e3, e4]
  have hpx : ∀ (A : Img ℝ) (Y X : Nat) (k : Fin 4), Y < h / 2 → X < w / 2 →
      superPx (A.part y₀ x₀ h w) (2 * Y) (2 * X) k = superPx A (2 * (y₀ / 2 + Y)) (2 * (x₀ / 2 + X)) k := by
    intro A Y X k hY hX
    have := k.isLt
    unfold superPx
    rw [part_px (by omega) (by omega), show y₀ + (2 * Y + k.val / 2) = 2 * (y₀ / 2 + Y) + k.val / 2 by omega,
      show x₀ + (2 * X + k.val % 2) = 2 * (x₀ / 2 + X) + k.val % 2 by omega]
  have key : ∀ Y X, Y < h / 2 → X < w / 2 → stepOutcome env (inp.part y₀ x₀ h w) Y X (inp.part y₀ x₀ h w).initOutcome =
      stepOutcome env inp (y₀ / 2 + Y) (x₀ / 2 + X) inp.initOutcome := by
    intro Y X hY hX
    refine stepOutcome_congr env (inp := inp.part y₀ x₀ h w) (inp' := inp) ?_ ?_ rfl rfl rfl rfl _
    · intro k
      unfold ChunkInput.fitCall
      have hv : ∀ A : Img ℝ, superPx (A.part y₀ x₀ h w) (2 * Y) (2 * X) k = superPx A (2 * (y₀ / 2 + Y)) (2 * (x₀ / 2 + X)) k :=
        fun A => hpx A Y X k hY hX
      unfold ChunkInput.part
      simp only [hv]
      rfl
    · intro k
      exact hpx inp.occulter Y X k hY hX
  have full : ∀ f : Outcome → Fin 4 → ℝ,
      (Img.ofFn h w fun y x => if y < h ∧ x < w then
        f (stepOutcome env (inp.part y₀ x₀ h w) (y / 2) (x / 2) (inp.part y₀ x₀ h w).initOutcome) (posOf y x) else 0) =
      (Img.ofFn inp.height inp.width fun y x => if y < inp.height ∧ x < inp.width then
        f (stepOutcome env inp (y / 2) (x / 2) inp.initOutcome) (posOf y x) else 0).part y₀ x₀ h w := by
    intro f
    refine Img.ext_px rfl rfl ?_
    intro y x (hy' : y < h) (hx' : x < w)
    rw [part_px hy' hx', Img.ofFn_px hy' hx', Img.ofFn_px (by omega) (by omega), key _ _ (by omega) (by omega), if_pos ⟨hy', hx'⟩,
      if_pos ⟨by omega, by omega⟩, show (y₀ + y) / 2 = y₀ / 2 + y / 2 by omega, show (x₀ + x) / 2 = x₀ / 2 + x / 2 by omega]
    have : posOf (y₀ + y) (x₀ + x) = posOf y x := by
      unfold posOf
      congr 1
      omega
    rw [this]
  have half : ∀ f : Outcome → ℝ,
      (Img.ofFn (h / 2) (w / 2) fun Y X => if Y < h / 2 ∧ X < w / 2 then
        f (stepOutcome env (inp.part y₀ x₀ h w) Y X (inp.part y₀ x₀ h w).initOutcome) else 0) =
      (Img.ofFn (inp.height / 2) (inp.width / 2) fun Y X => if Y < inp.height / 2 ∧ X < inp.width / 2 then
        f (stepOutcome env inp Y X inp.initOutcome) else 0).part (y₀ / 2) (x₀ / 2) (h / 2) (w / 2) := by
    intro f
    refine Img.ext_px rfl rfl ?_
    intro y x (hy' : y < h / 2) (hx' : x < w / 2)
    rw [part_px hy' hx', Img.ofFn_px hy' hx', Img.ofFn_px (by omega) (by omega), key _ _ hy' hx', if_pos ⟨hy', hx'⟩,
      if_pos ⟨by omega, by omega⟩]
  congr 1
  refine CalibMaps.same ?_ ?_ ?_ ?_ ?_ ?_ ?_
  · funext i j
    exact half fun o => o.m i j
  · exact half Outcome.flag
  · funext a b
    exact full fun o => o.cov a b
  · exact full Outcome.tk
  · exact full Outcome.eff
  · refine (congrArg (fun A : Img ℝ => A.map rad2deg) (full Outcome.phase)).trans ?_
    refine Img.ext_px rfl rfl ?_
    intro y x (hy' : y < h) (hx' : x < w)
    show _ = ((Img.map rad2deg _).part y₀ x₀ h w).px y x
    rw [part_px hy' hx', Img.map_px _ _ (by exact hy') (by exact hx'),
      Img.map_px _ _ (by exact (by omega : y₀ + y < inp.height)) (by exact (by omega : x₀ + x < inp.width)), part_px hy' hx']
  · exact full Outcome.chi

/-- There are such environments: every matrix has a pseudo-inverse. -/
theorem C134_pinv_exists (env : CalibEnv) : ∃ env' : CalibEnv, env'.PinvAlways ∧ env'.curveFit = env.curveFit ∧ env'.chisq = env.chisq :=
  ⟨{ env with pinv := fun M => (moorePenrose_exists (Matrix.of M)).choose }, fun M => (moorePenrose_exists (Matrix.of M)).choose_spec,
    rfl, rfl⟩

/-! ## The hypotheses are met -/

/-- Three measurements on a sensor of four rows and eight columns. -/
def wideInput : ChunkInput where
  n := 3
  height := 4
  width := 8
  data := fun p => Img.ofFn 4 8 fun y x => (p.val + y + x : ℝ)
  errors := fun _ => Img.const 4 8 1
  occulter := Img.zeros 4 8
  orientations := ![0, 45, 90]
  previsions := ![0, Real.pi / 4, -(Real.pi / 4), Real.pi / 2]
  tkBoundary := none
  effBoundary := none

/-- Two processes, of which the second finishes first; for the exchanged sensor in one row. -/
example : ValidGrid wideInput 1 2 [1, 0] ∧ [0, 1].Perm (List.range (2 * 1)) :=
  ⟨⟨by omega, by omega, rfl, rfl, List.Perm.swap _ _ _⟩, List.Perm.refl _⟩

/-- The lower right quarter, with one process. -/
example : Divides wideInput 1 2 ∧ ValidGrid (wideInput.part 2 4 2 4) 1 1 [0] ∧ Divides (wideInput.part 2 4 2 4) 1 1 :=
  ⟨⟨rfl, rfl⟩, ⟨by omega, by omega, rfl, rfl, List.Perm.refl _⟩, ⟨rfl, rfl⟩⟩

end

end Micropol
