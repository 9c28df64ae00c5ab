import Verif.Props.Prepare
import Verif.Props.Polarization
import Mathlib.Analysis.SpecialFunctions.Trigonometric.Angle
import Mathlib.Tactic.IntervalCases

/-!
# C75: a calibration recovers the sensor

Frames taken behind a rotating polarizer, prepared, fitted and inverted: the maps hold the parameters of the sensor, and
demodulating an image of that sensor gives the Stokes vector of the scene.
-/

set_option autoImplicit false
set_option linter.unusedSectionVars false

namespace Micropol

noncomputable section

open Classical Finset

/-- A curve `A + B cos + C sin` that vanishes at three different angles of one period is zero. -/
theorem trig_three {A B C α β γ : ℝ} (hαβ : Real.sin (α - β) ≠ 0) (hβγ : Real.sin (β - γ) ≠ 0) (hγα : Real.sin (γ - α) ≠ 0)
    (h1 : A + B * Real.cos (2 * α) + C * Real.sin (2 * α) = 0)
    (h2 : A + B * Real.cos (2 * β) + C * Real.sin (2 * β) = 0)
    (h3 : A + B * Real.cos (2 * γ) + C * Real.sin (2 * γ) = 0) : A = 0 ∧ B = 0 ∧ C = 0 := by
  -- differences are products of sines
  have d1 : Real.sin (α - β) * (C * Real.cos (α + β) - B * Real.sin (α + β)) = 0 := by
    have e1 : Real.cos (2 * α) - Real.cos (2 * β) = -2 * (Real.sin (α + β) * Real.sin (α - β)) := by
      rw [Real.cos_sub_cos]
      rw [show (2 * α + 2 * β) / 2 = α + β by ring, show (2 * α - 2 * β) / 2 = α - β by ring]
      ring
    have e2 : Real.sin (2 * α) - Real.sin (2 * β) = 2 * (Real.sin (α - β) * Real.cos (α + β)) := by
      rw [Real.sin_sub_sin]
      rw [show (2 * α + 2 * β) / 2 = α + β by ring, show (2 * α - 2 * β) / 2 = α - β by ring]
      ring
    have : B * (Real.cos (2 * α) - Real.cos (2 * β)) + C * (Real.sin (2 * α) - Real.sin (2 * β)) = 0 := by linarith
    rw [e1, e2] at this
    linarith
  have d2 : Real.sin (β - γ) * (C * Real.cos (β + γ) - B * Real.sin (β + γ)) = 0 := by
    have e1 : Real.cos (2 * β) - Real.cos (2 * γ) = -2 * (Real.sin (β + γ) * Real.sin (β - γ)) := by
      rw [Real.cos_sub_cos]
      rw [show (2 * β + 2 * γ) / 2 = β + γ by ring, show (2 * β - 2 * γ) / 2 = β - γ by ring]
      ring
    have e2 : Real.sin (2 * β) - Real.sin (2 * γ) = 2 * (Real.sin (β - γ) * Real.cos (β + γ)) := by
      rw [Real.sin_sub_sin]
      rw [show (2 * β + 2 * γ) / 2 = β + γ by ring, show (2 * β - 2 * γ) / 2 = β - γ by ring]
      ring
    have : B * (Real.cos (2 * β) - Real.cos (2 * γ)) + C * (Real.sin (2 * β) - Real.sin (2 * γ)) = 0 := by linarith
    rw [e1, e2] at this
    linarith
  have d1' := (mul_eq_zero.1 d1).resolve_left hαβ
  have d2' := (mul_eq_zero.1 d2).resolve_left hβγ
  have det : Real.sin (γ - α) = Real.sin (β + γ) * Real.cos (α + β) - Real.cos (β + γ) * Real.sin (α + β) := by
    rw [← Real.sin_sub]
    congr 1
    ring
  have hB : B * Real.sin (γ - α) = 0 := by
    rw [det]
    linear_combination Real.cos (β + γ) * d1' - Real.cos (α + β) * d2'
  have hC : C * Real.sin (γ - α) = 0 := by
    rw [det]
    linear_combination Real.sin (β + γ) * d1' - Real.sin (α + β) * d2'
  have hB := (mul_eq_zero.1 hB).resolve_right hγα
  have hC := (mul_eq_zero.1 hC).resolve_right hγα
  refine ⟨?_, hB, hC⟩
  rw [hB, hC] at h1
  linarith

theorem transmitted_eq (t e φ θ : ℝ) : transmitted t e φ θ = Malus θ t e φ := by
  rw [malus_eq]
  unfold transmitted
  rw [mul_sub, Real.cos_sub]
  ring

theorem sin_of_directions {o : Fin 3 → ℝ} (h : ThreeDirections o) {i j : Fin 3} (hij : i ≠ j) :
    Real.sin (o i * Real.pi / 180 - o j * Real.pi / 180) ≠ 0 := by
  intro h0
  obtain ⟨n, hn⟩ := Real.sin_eq_zero_iff.1 h0
  refine h i j hij n ?_
  have hpi := Real.pi_ne_zero
  have : (o i - o j - 180 * n) * Real.pi = 0 := by linarith
  have := (mul_eq_zero.1 this).resolve_right hpi
  linarith

/-- C75: three directions of the polarizer determine the parameters of a micropolarizer: two choices with positive throughput
and efficiency, and phases less than 180 degrees apart, that transmit the same at these directions are equal. -/
theorem C75_identifiable {o : Fin 3 → ℝ} (h : ThreeDirections o) {t e φ t' e' φ' : ℝ} (ht : 0 < t) (he : 0 < e) (he' : 0 < e')
    (hφ : |φ - φ'| < Real.pi)
    (heq : ∀ i, transmitted t e φ (o i * Real.pi / 180) = transmitted t' e' φ' (o i * Real.pi / 180)) :
    t = t' ∧ e = e' ∧ φ = φ' := by
  have hx : ∀ i, (t - t') + (t * e * Real.cos (2 * φ) - t' * e' * Real.cos (2 * φ')) * Real.cos (2 * (o i * Real.pi / 180)) +
      (t * e * Real.sin (2 * φ) - t' * e' * Real.sin (2 * φ')) * Real.sin (2 * (o i * Real.pi / 180)) = 0 := by
    intro i
    have := heq i
    rw [transmitted_eq, transmitted_eq, malus_eq, malus_eq] at this
    linarith
  obtain ⟨h1, h2, h3⟩ := trig_three (sin_of_directions h (show (0 : Fin 3) ≠ 1 by decide))
    (sin_of_directions h (show (1 : Fin 3) ≠ 2 by decide)) (sin_of_directions h (show (2 : Fin 3) ≠ 0 by decide))
    (hx 0) (hx 1) (hx 2)
  have et : t = t' := by linarith
  subst et
  have h2' : e * Real.cos (2 * φ) = e' * Real.cos (2 * φ') := by
    have : t * (e * Real.cos (2 * φ) - e' * Real.cos (2 * φ')) = 0 := by linarith
    have := (mul_eq_zero.1 this).resolve_left ht.ne'
    linarith
  have h3' : e * Real.sin (2 * φ) = e' * Real.sin (2 * φ') := by
    have : t * (e * Real.sin (2 * φ) - e' * Real.sin (2 * φ')) = 0 := by linarith
    have := (mul_eq_zero.1 this).resolve_left ht.ne'
    linarith
  have hsq : e ^ 2 = e' ^ 2 := by
    have p := Real.sin_sq_add_cos_sq (2 * φ)
    have p' := Real.sin_sq_add_cos_sq (2 * φ')
    calc e ^ 2 = (e * Real.sin (2 * φ)) ^ 2 + (e * Real.cos (2 * φ)) ^ 2 := by
          rw [mul_pow, mul_pow, ← mul_add, p, mul_one]
      _ = (e' * Real.sin (2 * φ')) ^ 2 + (e' * Real.cos (2 * φ')) ^ 2 := by rw [h2', h3']
      _ = e' ^ 2 := by rw [mul_pow, mul_pow, ← mul_add, p', mul_one]
  have ee : e = e' := by
    rcases sq_eq_sq_iff_eq_or_eq_neg.1 hsq with h | h
    · exact h
    · linarith
  subst ee
  have c := mul_left_cancel₀ he.ne' h2'
  have s := mul_left_cancel₀ he.ne' h3'
  refine ⟨rfl, rfl, ?_⟩
  have hang : ((2 * φ : ℝ) : Real.Angle) = ((2 * φ' : ℝ) : Real.Angle) := Real.Angle.cos_sin_inj c s
  obtain ⟨n, hn⟩ := Real.Angle.angle_eq_iff_two_pi_dvd_sub.1 hang
  have hn' : φ - φ' = Real.pi * n := by linarith
  rw [hn', abs_mul, abs_of_pos Real.pi_pos] at hφ
  have : |(n : ℝ)| < 1 := by
    by_contra hc
    have := mul_le_mul_of_nonneg_left (not_lt.1 hc) Real.pi_pos.le
    linarith
  have hn0 : n = 0 := by
    have : |n| < 1 := by exact_mod_cast this
    exact Int.abs_lt_one_iff.1 this
  rw [hn0] at hn'
  simp at hn'
  linarith

section
variable {fs : Name → Option (Img ℝ)} {fit : GaussFit} {a : CalibArgs} {b H W : Nat} {F : Name → Img ℝ}
  {D : Option (Img ℝ)} {S : Nat → Nat → Nat → ℝ} {env : CalibEnv} {ny nx : Nat} {schedule : List Nat}

/-- C75: a sensor whose micropolarizers at superpixel `(Y, X)` have throughputs `t`, efficiencies `e` and phases `φ`, inside the
bounds of the fit, is calibrated with frames taken at three directions or more; the signal of each frame above the dark is what
the micropolarizers transmit of the prescribed signal.  Then the calibration succeeds, stores exactly these parameters, and
with the stored tensor every image that this sensor takes of a scene with Stokes vector `v` is demodulated to `v`. -/
theorem C75_recovers_sensor (hfind : env.FindsExact) (hpinv : env.PinvCorrect)
    (hR : Readable fs a b H W F D) (hS : Prescribes a a.filenames.length b H W S) (hgain : 0 < a.gain)
    (hpos : ∀ n ∈ a.filenames, ∀ y x, y < 2 * (H / (2 * b)) → x < 2 * (W / (2 * b)) → 0 ≤ lit (F n) D b y x)
    (hny : 0 < ny) (hnx : 0 < nx) (hh : 2 * (H / (2 * b)) % (2 * ny) = 0) (hw : 2 * (W / (2 * b)) % (2 * nx) = 0)
    (hord : schedule.Perm (List.range (ny * nx)))
    {Y X : Nat} (hY : Y < H / (2 * b)) (hX : X < W / (2 * b)) (hocc : a.occulter = none)
    (hbt : SaneBounds (boundsOr a.tkBoundary)) (hbe : SaneBounds (boundsOr a.effBoundary))
    {t e φ : Fin 4 → ℝ}
    (ht : ∀ k, boundsOr a.tkBoundary 1 < t k ∧ t k < boundsOr a.tkBoundary 2)
    (he : ∀ k, boundsOr a.effBoundary 1 < e k ∧ e k < boundsOr a.effBoundary 2)
    (hφ : ∀ k, |φ k - a.previsions k * Real.pi / 180| < Real.pi / 12)
    {o : Fin 3 → ℝ} (ho : ThreeDirections o) (hoa : ∀ i, o i ∈ a.orientations)
    {L : List (ℝ × Name)} (hL : SortedList a L)
    (hlaw : ∀ p (hp : p < L.length), ∀ k, lit (F L[p].2) D b (rowOf Y k) (colOf X k) =
      S p (rowOf Y k) (colOf X k) * transmitted (t k) (e k) (φ k) (L[p].1 * Real.pi / 180))
    (hrank : FullRank (Matrix.of (responseMatrix t e φ)))
    (hbig : ∀ i j, |env.pinv (responseMatrix t e φ) i j| ≤ 100) :
    ∃ maps, calculateDemodulationTensor fs fit env a ny nx schedule = .ok maps ∧ maps.fitFound.px Y X = 1 ∧
      (∀ k, maps.tk.px (rowOf Y k) (colOf X k) = t k ∧ maps.eff.px (rowOf Y k) (colOf X k) = e k ∧
        maps.phase.px (rowOf Y k) (colOf X k) = φ k * 180 / Real.pi) ∧
      ∀ (v : Fin 3 → ℝ) (data : Img ℝ), data.HasShape (2 * (H / (2 * b))) (2 * (W / (2 * b))) →
        (∀ k, data.px (rowOf Y k) (colOf X k) =
          t k / 2 * (v 0 + e k * Real.cos (2 * φ k) * v 1 + e k * Real.sin (2 * φ k) * v 2)) →
        ∀ prev : Fin 3 → Img ℝ, (∀ i, (prev i).HasShape (H / (2 * b)) (W / (2 * b))) →
        ∃ T, demodulatePlain data prev ⟨maps.mij, some maps.fitFound⟩ = .ok T ∧ ∀ i, (T i).px Y X = v i := by
  obtain ⟨inp, hp, e1, e2, e3, -, -, -, e5⟩ := C73_frames_partial (fit := fit) hR hS hgain hpos hL
  obtain ⟨k1, k2, k3⟩ := prepare_keeps hp
  obtain ⟨hg, hc⟩ := grid_divides (inp := inp) hny hnx (by rw [e2]; exact hh) (by rw [e3]; exact hw) hord
  have hcov := hc (Y := Y) (X := X) (by rw [e2]; omega) (by rw [e3]; omega)
  have hpi := Real.pi_pos
  have hprev : ∀ k, inp.previsions k = a.previsions k * Real.pi / 180 := by
    intro k; rw [k1]; unfold deg2rad; ring
  have hrow : ∀ k : Fin 4, rowOf Y k < 2 * (H / (2 * b)) := fun k => by have := k.isLt; unfold rowOf; omega
  have hcol : ∀ k : Fin 4, colOf X k < 2 * (W / (2 * b)) := fun k => by have := k.isLt; unfold colOf; omega
  have hlen := hR.length hL
  have hplt : ∀ p : Fin inp.n, p.val < L.length := fun p => lt_of_lt_of_eq p.isLt e1
  have hdata : ∀ (p : Fin inp.n) k, (inp.data p).px (rowOf Y k) (colOf X k) =
      transmitted (t k) (e k) (φ k) (inp.orientations p * Real.pi / 180) := by
    intro p k
    obtain ⟨g1, -, -, g2⟩ := e5 p (hplt p)
    have hpS := hS.pos hR (k := p.val) (by rw [← hlen]; exact hplt p) (hrow k) (hcol k)
    rw [(g2 _ _ (by rw [e2]; exact hrow k) (by rw [e3]; exact hcol k)).1, hlaw p.val (hplt p) k, g1]
    field_simp
  -- every direction is among the orientations of the frames
  have hdir : ∀ i, ∃ p : Fin inp.n, inp.orientations p = o i := by
    intro i
    have hm : o i ∈ L.map Prod.fst := by
      rw [(hL.1.map Prod.fst).mem_iff, List.map_fst_zip (by rw [hR.len])]
      exact hoa i
    obtain ⟨q, hq, hqo⟩ := List.mem_map.1 hm
    obtain ⟨p, hp, rfl⟩ := List.mem_iff_getElem.1 hq
    refine ⟨⟨p, lt_of_lt_of_eq hp e1.symm⟩, ?_⟩
    rw [(e5 ⟨p, lt_of_lt_of_eq hp e1.symm⟩ hp).1]
    exact hqo
  have hposT : ∀ k, 0 < t k := fun k => lt_trans hbt.1 (ht k).1
  have hposE : ∀ k, 0 < e k := fun k => lt_trans hbe.1 (he k).1
  have hdark : ∀ k, ¬ Dark inp Y X k := by
    intro k hd
    have hz : ∀ i, t k / 2 + t k / 2 * e k * Real.cos (2 * φ k) * Real.cos (2 * (o i * Real.pi / 180)) +
        t k / 2 * e k * Real.sin (2 * φ k) * Real.sin (2 * (o i * Real.pi / 180)) = 0 := by
      intro i
      obtain ⟨p, hp⟩ := hdir i
      have := hd p
      rw [hdata, hp, transmitted_eq, malus_eq] at this
      linarith
    have := (trig_three (sin_of_directions ho (show (0 : Fin 3) ≠ 1 by decide))
      (sin_of_directions ho (show (1 : Fin 3) ≠ 2 by decide)) (sin_of_directions ho (show (2 : Fin 3) ≠ 0 by decide))
      (hz 0) (hz 1) (hz 2)).1
    have := hposT k
    linarith
  have hfit : ∀ k, ∃ cov, env.curveFit (fitRequest inp Y X k) = some (![t k, e k, φ k], cov) := by
    intro k
    have hb := abs_lt.1 (hφ k)
    have hlow : (fitRequest inp Y X k).lower = ![boundsOr a.tkBoundary 1, boundsOr a.effBoundary 1,
        a.previsions k * Real.pi / 180 - Real.pi / 12] := by
      show ![_, _, _] = _
      rw [k2, k3, hprev]
    have hup : (fitRequest inp Y X k).upper = ![boundsOr a.tkBoundary 2, boundsOr a.effBoundary 2,
        a.previsions k * Real.pi / 180 + Real.pi / 12] := by
      show ![_, _, _] = _
      rw [k2, k3, hprev]
    have hp0 : (fitRequest inp Y X k).p0 = ![boundsOr a.tkBoundary 0, boundsOr a.effBoundary 0,
        a.previsions k * Real.pi / 180] := by
      show ![_, _, _] = _
      rw [k2, k3, hprev]
    have hy : ∀ j : Fin inp.n, (fitRequest inp Y X k).ydata j =
        transmitted (t k) (e k) (φ k) ((fitRequest inp Y X k).xdata j) := fun j => hdata j k
    refine hfind (fitRequest inp Y X k) ![t k, e k, φ k] ?_ ?_ ?_ ?_ ?_
    · rw [hlow, hup, hp0]
      intro i
      fin_cases i
      · exact hbt.2
      · exact hbe.2
      · show a.previsions k * Real.pi / 180 - Real.pi / 12 ≤ a.previsions k * Real.pi / 180 ∧
          a.previsions k * Real.pi / 180 ≤ a.previsions k * Real.pi / 180 + Real.pi / 12
        constructor <;> linarith
    · intro j
      show 0 < (if (inp.errors j).px (rowOf Y k) (colOf X k) = 0 then 1e-5 else (inp.errors j).px (rowOf Y k) (colOf X k))
      split
      · norm_num
      · rename_i hne
        obtain ⟨-, -, -, g2⟩ := e5 j (hplt j)
        refine lt_of_le_of_ne ?_ (Ne.symm hne)
        rw [(g2 _ _ (by rw [e2]; exact hrow k) (by rw [e3]; exact hcol k)).2]
        exact div_nonneg (Real.sqrt_nonneg _)
          (hS.pos hR (k := j.val) (by rw [← hlen]; exact hplt j) (hrow k) (hcol k)).le
    · rw [hlow, hup]
      intro i
      fin_cases i
      · exact ht k
      · exact he k
      · show a.previsions k * Real.pi / 180 - Real.pi / 12 < φ k ∧ φ k < a.previsions k * Real.pi / 180 + Real.pi / 12
        constructor <;> linarith
    · intro j
      rw [hy j, transmitted_eq]
      rfl
    · intro q hq hqy
      rw [hlow, hup] at hq
      have q0 : boundsOr a.tkBoundary 1 ≤ q 0 ∧ q 0 ≤ boundsOr a.tkBoundary 2 := hq 0
      have q1 : boundsOr a.effBoundary 1 ≤ q 1 ∧ q 1 ≤ boundsOr a.effBoundary 2 := hq 1
      have q2 : a.previsions k * Real.pi / 180 - Real.pi / 12 ≤ q 2 ∧
        q 2 ≤ a.previsions k * Real.pi / 180 + Real.pi / 12 := hq 2
      obtain ⟨r1, r2, r3⟩ := C75_identifiable ho (t := t k) (e := e k) (φ := φ k) (t' := q 0) (e' := q 1) (φ' := q 2)
        (hposT k) (hposE k) (lt_of_lt_of_le hbe.1 q1.1)
        (by rw [abs_lt]; constructor <;> linarith [q2.1, q2.2, hb.1, hb.2])
        (by
          intro i
          obtain ⟨p, hp⟩ := hdir i
          have := hqy p
          rw [hy p] at this
          rw [transmitted_eq (q 0), ← hp]
          exact this)
      funext i
      fin_cases i
      · exact r1.symm
      · exact r2.symm
      · exact r3.symm
  choose cov hcov' using hfit
  obtain ⟨maps, hm⟩ := C33_total (env := env) hg
  obtain ⟨m1, -, m3⟩ := C33_fitted hg hm hcov (C76_no_occulter hR hocc hp hY hX) hdark (fun k => ![t k, e k, φ k]) cov hcov'
  have hR' : responseMatrix (fun k => (![t k, e k, φ k] : Fin 3 → ℝ) 0) (fun k => (![t k, e k, φ k] : Fin 3 → ℝ) 1)
      (fun k => (![t k, e k, φ k] : Fin 3 → ℝ) 2) = responseMatrix t e φ := rfl
  rw [hR'] at m1
  obtain ⟨-, hflag⟩ := m1 (fun i j => abs_le.1 (hbig i j))
  have hmaps : ∀ k, maps.tk.px (rowOf Y k) (colOf X k) = t k ∧ maps.eff.px (rowOf Y k) (colOf X k) = e k ∧
      maps.phase.px (rowOf Y k) (colOf X k) = φ k * 180 / Real.pi := fun k => ⟨(m3 k).1, (m3 k).2.1, (m3 k).2.2.1⟩
  refine ⟨maps, ?_, hflag, hmaps, fun v data hd hv prev hprevs => ?_⟩
  · unfold calculateDemodulationTensor
    rw [hp, Py.ok_bind, hm]
  · have hmat : responseMatrix t e φ = responseMatrix (fun k => maps.tk.px (rowOf Y k) (colOf X k))
        (fun k => maps.eff.px (rowOf Y k) (colOf X k))
        (fun k => maps.phase.px (rowOf Y k) (colOf X k) * Real.pi / 180) := by
      congr 1
      · funext k; exact (hmaps k).1.symm
      · funext k; exact (hmaps k).2.1.symm
      · funext k
        rw [(hmaps k).2.2]
        field_simp
    refine C22_demodulation_inverts hpinv hg hm hcov hflag (responseMatrix t e φ) hmat hrank v data
      (by rw [e2, e3]; exact hd) (by rw [e2, e3]; omega) (fun k => ?_) prev (fun i => ?_)
    · rw [hv k, Fin.sum_univ_three]
      show _ = t k / 2 * v 0 + t k * e k * Real.cos (2 * φ k) / 2 * v 1 + t k * e k * Real.sin (2 * φ k) / 2 * v 2
      ring
    · rw [e2, e3, Nat.mul_div_cancel_left _ (by norm_num), Nat.mul_div_cancel_left _ (by norm_num)]
      exact hprevs i

end

/-! ## A sensor that meets all hypotheses -/

/-- An environment whose fits are exact. -/
def exactEnv : CalibEnv where
  curveFit := fun c =>
    if h : ∃ p : Fin 3 → ℝ, (∀ i, c.lower i < p i ∧ p i < c.upper i) ∧
        (∀ j, c.ydata j = Malus (c.xdata j) (p 0) (p 1) (p 2)) ∧
        ∀ q : Fin 3 → ℝ, (∀ i, c.lower i ≤ q i ∧ q i ≤ c.upper i) →
          (∀ j, c.ydata j = Malus (c.xdata j) (q 0) (q 1) (q 2)) → q = p
    then some (h.choose, fun _ _ => 0) else none
  pinv := exists_pinv.choose
  chisq := fun _ _ _ => 0

theorem exactEnv_finds : exactEnv.FindsExact := by
  intro c p _ _ h3 h4 h5
  have h : ∃ p : Fin 3 → ℝ, (∀ i, c.lower i < p i ∧ p i < c.upper i) ∧
      (∀ j, c.ydata j = Malus (c.xdata j) (p 0) (p 1) (p 2)) ∧
      ∀ q : Fin 3 → ℝ, (∀ i, c.lower i ≤ q i ∧ q i ≤ c.upper i) →
        (∀ j, c.ydata j = Malus (c.xdata j) (q 0) (q 1) (q 2)) → q = p := ⟨p, h3, h4, h5⟩
  refine ⟨fun _ _ => 0, ?_⟩
  unfold exactEnv
  dsimp only
  rw [dif_pos h]
  have := h5 _ (fun i => ⟨(h.choose_spec.1 i).1.le, (h.choose_spec.1 i).2.le⟩) h.choose_spec.2.1
  rw [this]

/-- Frames of a 2x2 sensor with throughputs and efficiencies 1/2, signal 2 per pixel. -/
def runFrame (o : ℝ) : Img ℝ := Img.ofFn 2 2 (fun y x =>
  2 * transmitted (1 / 2) (1 / 2) ((![0, 45, -45, 90] : Fin 4 → ℝ) ⟨2 * (y % 2) + x % 2, by omega⟩ * Real.pi / 180)
    (o * Real.pi / 180))

/-- Contents of the three files; they are listed as 90, 0 and 45 degrees. -/
def runContent (n : Name) : Img ℝ := runFrame (if n = ['a'] then 90 else if n = ['b'] then 0 else 45)

def runFiles (n : Name) : Option (Img ℝ) := if n = ['a'] ∨ n = ['b'] ∨ n = ['c'] then some (runContent n) else none

def runArgs : CalibArgs where
  orientations := [90, 0, 45]
  filenames := [['a'], ['b'], ['c']]
  previsions := ![0, 45, -45, 90]
  gain := 3
  binning := 1
  occulter := none
  dark := none
  flat := none
  normS := .number 2
  tkBoundary := none
  effBoundary := none

theorem run_readable : Readable runFiles runArgs 1 2 2 runContent none where
  binning := rfl
  pos := le_refl 1
  even := ⟨rfl, rfl⟩
  frames := by
    intro n hn
    have hn : n = ['a'] ∨ n = ['b'] ∨ n = ['c'] := by simpa [runArgs] using hn
    exact ⟨if_pos hn, ⟨rfl, rfl⟩⟩
  dark := Or.inl ⟨rfl, rfl⟩
  flat := rfl
  len := rfl
  some_file := by simp [runArgs]

theorem run_prescribes : Prescribes runArgs runArgs.filenames.length 1 2 2 (fun _ _ _ => 2) :=
  Or.inl ⟨2, rfl, by norm_num, fun _ _ _ => by unfold atLeast; norm_num⟩

theorem run_lit (n : Name) {y x : Nat} (hy : y < 2) (hx : x < 2) : lit (runContent n) none 1 y x = (runContent n).px y x := by
  unfold lit familySum
  dsimp only
  rw [sum_range_one, sum_range_one, show 2 * (1 * (y / 2) + 0) + y % 2 = y by omega,
    show 2 * (1 * (x / 2) + 0) + x % 2 = x by omega]

theorem run_px (o : ℝ) (k : Fin 4) : (runFrame o).px (rowOf 0 k) (colOf 0 k) =
    2 * transmitted (1 / 2) (1 / 2) ((![0, 45, -45, 90] : Fin 4 → ℝ) k * Real.pi / 180) (o * Real.pi / 180) := by
  unfold runFrame
  rw [Img.ofFn_px (by unfold rowOf; omega) (by unfold colOf; omega)]
  congr 6
  unfold rowOf colOf
  omega

theorem run_sorted : SortedList runArgs [(0, ['b']), (45, ['c']), (90, ['a'])] := by
  constructor
  · show List.Perm _ [((90 : ℝ), ['a']), (0, ['b']), (45, ['c'])]
    exact (List.perm_append_comm (l₁ := [((0 : ℝ), ['b']), (45, ['c'])]) (l₂ := [(90, ['a'])]))
  · norm_num

theorem transmitted_nonneg {t e : ℝ} (ht : 0 ≤ t) (he : 0 ≤ e) (he1 : e ≤ 1) (φ θ : ℝ) : 0 ≤ transmitted t e φ θ := by
  unfold transmitted
  have := Real.neg_one_le_cos (2 * (θ - φ))
  have : 0 ≤ 1 + e * Real.cos (2 * (θ - φ)) := by nlinarith
  positivity

theorem run_nonneg : ∀ n ∈ runArgs.filenames, ∀ y x, y < 2 → x < 2 → 0 ≤ lit (runContent n) none 1 y x := by
  intro n _ y x hy hx
  rw [run_lit n hy hx]
  unfold runContent runFrame
  rw [Img.ofFn_px hy hx]
  have := transmitted_nonneg (t := 1 / 2) (e := 1 / 2) (by norm_num) (by norm_num) (by norm_num)
    ((![0, 45, -45, 90] : Fin 4 → ℝ) ⟨2 * (y % 2) + x % 2, by omega⟩ * Real.pi / 180)
    ((if n = ['a'] then 90 else if n = ['b'] then 0 else 45) * Real.pi / 180)
  linarith

/-- `C73_frames_partial` applies: the frame at 90 degrees, listed first, is the last. -/
example : ∃ inp, prepare runFiles (fun _ _ _ => none) runArgs = .ok inp ∧ inp.n = 3 :=
  let ⟨inp, h1, h2, _⟩ := C73_frames_partial run_readable run_prescribes (by norm_num [runArgs]) run_nonneg run_sorted
  ⟨inp, h1, h2⟩

/-- The pseudo-inverse for equal throughputs and efficiencies follows from the ideal one. -/
theorem scaled_pinv {t e : ℝ} (ht : t ≠ 0) (he : e ≠ 0) {φ : Fin 4 → ℝ} {P : Fin 3 → Fin 4 → ℝ}
    (hr : FullRank (Matrix.of (responseMatrix (fun _ => t) (fun _ => e) φ)))
    (h : IsPseudoInverse (Matrix.of (responseMatrix (fun _ => t) (fun _ => e) φ)) (Matrix.of P)) :
    IsPseudoInverse (Matrix.of (idealMatrix φ)) (Matrix.of (fun i k => (![t, t * e, t * e] : Fin 3 → ℝ) i * P i k)) := by
  have hPR : Matrix.of P * Matrix.of (responseMatrix (fun _ => t) (fun _ => e) φ) = 1 := by
    apply Matrix.ext_of_mulVec_single
    intro i
    rw [← Matrix.mulVec_mulVec, left_inverse_of_pinv h hr, Matrix.one_mulVec]
  obtain ⟨dg, hdg⟩ : ∃ dg : Fin 3 → ℝ, dg = ![t, t * e, t * e] := ⟨_, rfl⟩
  have hd0 : ∀ i, dg i ≠ 0 := by
    intro i
    rw [hdg]
    fin_cases i
    · exact ht
    · exact mul_ne_zero ht he
    · exact mul_ne_zero ht he
  have e1 : Matrix.of (responseMatrix (fun _ => t) (fun _ => e) φ) = Matrix.of (idealMatrix φ) * Matrix.diagonal dg := by
    ext k i
    rw [Matrix.mul_diagonal, hdg]
    simp only [Matrix.of_apply, idealMatrix, responseMatrix]
    fin_cases i <;> simp <;> ring
  have e2 : (Matrix.of (fun i k => (![t, t * e, t * e] : Fin 3 → ℝ) i * P i k) : Matrix (Fin 3) (Fin 4) ℝ) =
      Matrix.diagonal dg * Matrix.of P := by
    ext i k
    rw [Matrix.diagonal_mul, hdg]
    rfl
  have e3 : Matrix.of (idealMatrix φ) * (Matrix.diagonal dg * Matrix.of P) =
      Matrix.of (responseMatrix (fun _ => t) (fun _ => e) φ) * Matrix.of P := by
    rw [← Matrix.mul_assoc, ← e1]
  have einv : Matrix.diagonal dg * Matrix.diagonal (fun i => (dg i)⁻¹) = 1 := by
    rw [Matrix.diagonal_mul_diagonal, ← Matrix.diagonal_one]
    congr 1
    funext i
    exact mul_inv_cancel₀ (hd0 i)
  have e4 : Matrix.diagonal dg * Matrix.of P * Matrix.of (idealMatrix φ) = 1 := by
    calc Matrix.diagonal dg * Matrix.of P * Matrix.of (idealMatrix φ)
        = Matrix.diagonal dg * Matrix.of P * Matrix.of (idealMatrix φ) *
            (Matrix.diagonal dg * Matrix.diagonal (fun i => (dg i)⁻¹)) := by rw [einv, Matrix.mul_one]
      _ = Matrix.diagonal dg * (Matrix.of P * (Matrix.of (idealMatrix φ) * Matrix.diagonal dg)) *
            Matrix.diagonal (fun i => (dg i)⁻¹) := by simp only [Matrix.mul_assoc]
      _ = 1 := by rw [← e1, hPR, Matrix.mul_one, einv]
  rw [e2]
  refine ⟨?_, ?_, ?_, ?_⟩
  · rw [Matrix.mul_assoc, e4, Matrix.mul_one]
  · rw [e4, Matrix.one_mul]
  · rw [e3, h.2.2.1]
  · rw [e4, Matrix.transpose_one]

theorem scaled_fullRank {t e : ℝ} (ht : t ≠ 0) (he : e ≠ 0) {φ : Fin 4 → ℝ} (h : FullRank (Matrix.of (idealMatrix φ))) :
    FullRank (Matrix.of (responseMatrix (fun _ => t) (fun _ => e) φ)) := by
  intro u v huv
  have key : ∀ w : Fin 3 → ℝ, (Matrix.of (responseMatrix (fun _ => t) (fun _ => e) φ)).mulVec w =
      (Matrix.of (idealMatrix φ)).mulVec ![t * w 0, t * e * w 1, t * e * w 2] := by
    intro w
    funext k
    simp only [Matrix.mulVec, dotProduct, Fin.sum_univ_three, Matrix.of_apply, idealMatrix, responseMatrix]
    simp
    ring
  rw [key, key] at huv
  have := h huv
  have h0 : t * u 0 = t * v 0 := congrFun this 0
  have h1 : t * e * u 1 = t * e * v 1 := congrFun this 1
  have h2 : t * e * u 2 = t * e * v 2 := congrFun this 2
  funext i
  fin_cases i
  · exact mul_left_cancel₀ ht h0
  · exact mul_left_cancel₀ (mul_ne_zero ht he) h1
  · exact mul_left_cancel₀ (mul_ne_zero ht he) h2

/-- Phases of the sample, in radians. -/
def runPhases : Fin 4 → ℝ := fun k => (![0, 45, -45, 90] : Fin 4 → ℝ) k * Real.pi / 180

theorem run_nominal : NominalPhases ⟨0, 1, 2, 3⟩ runPhases := by
  refine ⟨?_, ?_, ?_, ?_⟩
  · show (0 : ℝ) * Real.pi / 180 = 0; ring
  · show (45 : ℝ) * Real.pi / 180 = Real.pi / 4; ring
  · show (-45 : ℝ) * Real.pi / 180 = -(Real.pi / 4); ring
  · show (90 : ℝ) * Real.pi / 180 = Real.pi / 2; ring

theorem run_rank : FullRank (Matrix.of (responseMatrix (fun _ => 1 / 2) (fun _ => 1 / 2) runPhases)) :=
  scaled_fullRank (t := 1 / 2) (e := 1 / 2) (by norm_num) (by norm_num) (ideal_fullRank C02_polarCam.2 run_nominal)

theorem exactEnv_pinv : exactEnv.PinvCorrect := exists_pinv.choose_spec

theorem run_sane : SaneBounds (boundsOr none) := by
  refine ⟨?_, ?_, ?_⟩
  · show (0 : ℝ) < 0.1; norm_num
  · show (0.1 : ℝ) ≤ 0.5; norm_num
  · show (0.5 : ℝ) ≤ 1 - 1e-6; norm_num

theorem run_inside : boundsOr none 1 < (1 / 2 : ℝ) ∧ (1 / 2 : ℝ) < boundsOr none 2 := by
  constructor
  · show (0.1 : ℝ) < 1 / 2; norm_num
  · show (1 / 2 : ℝ) < 1 - 1e-6; norm_num

theorem run_directions : ThreeDirections ![0, 45, 90] := by
  intro i j hij n hn
  have : ∃ m : ℤ, |m| < 180 ∧ m ≠ 0 ∧ (m : ℝ) = 180 * n := by
    revert hn
    fin_cases i <;> fin_cases j <;> intro hn
    · exact absurd rfl hij
    · exact ⟨-45, by norm_num, by norm_num, by rw [← hn]; norm_num⟩
    · exact ⟨-90, by norm_num, by norm_num, by rw [← hn]; norm_num⟩
    · exact ⟨45, by norm_num, by norm_num, by rw [← hn]; norm_num⟩
    · exact absurd rfl hij
    · exact ⟨-45, by norm_num, by norm_num, by rw [← hn]; norm_num⟩
    · exact ⟨90, by norm_num, by norm_num, by rw [← hn]; norm_num⟩
    · exact ⟨45, by norm_num, by norm_num, by rw [← hn]; norm_num⟩
    · exact absurd rfl hij
  obtain ⟨m, h1, h2, h3⟩ := this
  have : m = 180 * n := by exact_mod_cast h3
  have := abs_lt.1 h1
  omega

theorem run_law : ∀ p (hp : p < [((0 : ℝ), ['b']), (45, ['c']), (90, ['a'])].length), ∀ k,
    lit (runContent [((0 : ℝ), ['b']), (45, ['c']), (90, ['a'])][p].2) none 1 (rowOf 0 k) (colOf 0 k) =
      2 * transmitted (1 / 2) (1 / 2) (runPhases k) ([((0 : ℝ), ['b']), (45, ['c']), (90, ['a'])][p].1 * Real.pi / 180) := by
  intro p hp k
  rw [run_lit _ (by unfold rowOf; omega) (by unfold colOf; omega)]
  have hp : p < 3 := hp
  interval_cases p
  · exact run_px 0 k
  · exact run_px 45 k
  · exact run_px 90 k

theorem run_big : ∀ i j, |exactEnv.pinv (responseMatrix (fun _ => 1 / 2) (fun _ => 1 / 2) runPhases) i j| ≤ 4 := by
  have hP := ideal_pinv C02_polarCam.2 run_nominal (scaled_pinv (by norm_num) (by norm_num) run_rank (exactEnv_pinv _ run_rank))
  intro i k
  obtain ⟨q0, q1, q2⟩ := hP k
  have c1 := Real.abs_cos_le_one (2 * (runPhases k))
  have c2 := Real.abs_sin_le_one (2 * (runPhases k))
  fin_cases i
  · have q : (1 / 2 : ℝ) * exactEnv.pinv (responseMatrix (fun _ => 1 / 2) (fun _ => 1 / 2)
      runPhases) 0 k = 1 / 2 := q0
    show |exactEnv.pinv _ 0 k| ≤ 4
    rw [abs_le]
    constructor <;> linarith
  · have q : (1 / 2 * (1 / 2) : ℝ) * exactEnv.pinv (responseMatrix (fun _ => 1 / 2) (fun _ => 1 / 2)
      runPhases) 1 k = _ := q1
    show |exactEnv.pinv _ 1 k| ≤ 4
    rw [← q] at c1
    rw [abs_le] at c1 ⊢
    constructor <;> linarith [c1.1, c1.2]
  · have q : (1 / 2 * (1 / 2) : ℝ) * exactEnv.pinv (responseMatrix (fun _ => 1 / 2) (fun _ => 1 / 2)
      runPhases) 2 k = _ := q2
    show |exactEnv.pinv _ 2 k| ≤ 4
    rw [← q] at c2
    rw [abs_le] at c2 ⊢
    constructor <;> linarith [c2.1, c2.2]

theorem run_near (k : Fin 4) : |runPhases k - runArgs.previsions k * Real.pi / 180| < Real.pi / 12 := by
  show |runPhases k - runPhases k| < _
  rw [sub_self, abs_zero]
  have := Real.pi_pos
  positivity

/-- All hypotheses of `C75_recovers_sensor` hold for the sample. -/
example : ∃ maps, calculateDemodulationTensor runFiles (fun _ _ _ => none) exactEnv runArgs 1 1 [0] = .ok maps ∧
    maps.fitFound.px 0 0 = 1 ∧ ∀ k, maps.tk.px (rowOf 0 k) (colOf 0 k) = 1 / 2 := by
  obtain ⟨maps, h1, h2, h3, -⟩ := C75_recovers_sensor (fit := fun _ _ _ => none) exactEnv_finds exactEnv_pinv run_readable
    run_prescribes (by norm_num [runArgs]) run_nonneg (ny := 1) (nx := 1) (schedule := [0]) (by norm_num) (by norm_num)
    (by norm_num) (by norm_num) (by rfl) (Y := 0) (X := 0) (by norm_num) (by norm_num) rfl run_sane run_sane
    (t := fun _ => 1 / 2) (e := fun _ => 1 / 2) (φ := runPhases) (fun _ => run_inside) (fun _ => run_inside) run_near
    run_directions (by intro i; fin_cases i <;> simp [runArgs]) run_sorted run_law run_rank
    (fun i j => (run_big i j).trans (by norm_num))
  exact ⟨maps, h1, h2, fun k => (h3 k).1⟩

/-- A stack of normalising images as in `C73_stack_order`: the frame at 90 degrees is divided by the image listed with the one
at 0 degrees. -/
example : ∃ inp, prepare (fun _ => some (Img.const 2 2 4)) (fun _ _ _ => none)
    { runArgs with orientations := [90, 0], filenames := [['a'], ['b']],
                   normS := .series [Img.const 2 2 1, Img.const 2 2 2] } = .ok inp ∧
    ∀ k, inp.orientations k = 90 → (inp.data k).px 0 0 = 2 := by
  have hpx : ∀ (c : ℝ) {y x : Nat}, y < 2 → x < 2 → familySum (Img.const 2 2 c) 1 y x = c := by
    intro c y x hy hx
    unfold familySum
    rw [sum_range_one, sum_range_one]
    exact Img.ofFn_px (by omega) (by omega)
  obtain ⟨inp, h1, -, h3⟩ := C73_stack_order (fs := fun _ => some (Img.const 2 2 4)) (fit := fun _ _ _ => none)
    (a := { runArgs with orientations := [90, 0], filenames := [['a'], ['b']],
                         normS := .series [Img.const 2 2 1, Img.const 2 2 2] })
    (b := 1) (H := 2) (W := 2) (F := fun _ => Img.const 2 2 4) (D := none) (o1 := 90) (o2 := 0) (by norm_num) rfl rfl rfl
    ⟨rfl, le_refl 1, ⟨rfl, rfl⟩, fun _ _ => ⟨rfl, rfl, rfl⟩, Or.inl ⟨rfl, rfl⟩, rfl, rfl, by simp⟩ ⟨rfl, rfl⟩ ⟨rfl, rfl⟩
    (fun y x hy hx => by
      unfold lit
      dsimp only
      rw [hpx _ hy hx, hpx _ hy hx, hpx _ hy hx]
      norm_num) (by norm_num [runArgs])
  refine ⟨inp, h1, fun k hk => ?_⟩
  rw [(h3 k 0 0 (by norm_num) (by norm_num)).1 hk]
  unfold lit
  dsimp only
  rw [hpx _ (by norm_num) (by norm_num), hpx _ (by norm_num) (by norm_num)]
  norm_num

/-- Another order of the same files, as in `C73_order`. -/
example : prepare runFiles (fun _ _ _ => none)
    { runArgs with orientations := [45, 90, 0], filenames := [['c'], ['a'], ['b']] } =
    prepare runFiles (fun _ _ _ => none) runArgs :=
  C73_order _ _ rfl rfl (by
    show List.Perm [((45 : ℝ), ['c']), (90, ['a']), (0, ['b'])] [((90 : ℝ), ['a']), (0, ['b']), (45, ['c'])]
    exact (List.perm_append_comm (l₁ := [((45 : ℝ), ['c'])]) (l₂ := [(90, ['a']), (0, ['b'])])))

/-- An occulter of radius 2 around (2, 2) in an image of 8x8: superpixel (1, 2) is occulted, (1, 1) and (3, 3) are not
(`C76_occulted_partial`, `C76_centre_missed`). -/
example : ∃ inp, prepare (fun _ => some (Img.const 8 8 4)) (fun _ _ _ => none)
    { runArgs with occulter := some (((2 : Nat) : ℝ), ((2 : Nat) : ℝ), ((2 : Nat) : ℝ)) } = .ok inp ∧
    Occulted inp 1 2 ∧ ¬ Occulted inp 1 1 ∧ ¬ Occulted inp 3 3 := by
  have hR : Readable (fun _ => some (Img.const 8 8 4))
      { runArgs with occulter := some (((2 : Nat) : ℝ), ((2 : Nat) : ℝ), ((2 : Nat) : ℝ)) } 1 8 8
      (fun _ => Img.const 8 8 4) none :=
    ⟨rfl, le_refl 1, ⟨rfl, rfl⟩, fun _ _ => ⟨rfl, rfl, rfl⟩, Or.inl ⟨rfl, rfl⟩, rfl, rfl, by simp [runArgs]⟩
  obtain ⟨L, hL⟩ := sorted_exists { runArgs with occulter := some (((2 : Nat) : ℝ), ((2 : Nat) : ℝ), ((2 : Nat) : ℝ)) }
  obtain ⟨inp, h1, -⟩ := C73_frames_partial (fit := fun _ _ _ => none) (S := fun _ _ _ => 2) hR
    (Or.inl ⟨2, rfl, by norm_num, fun _ _ _ => by unfold atLeast; norm_num⟩) (by norm_num [runArgs]) (fun n _ y x hy hx => by
      unfold lit familySum
      dsimp only
      rw [sum_range_one, sum_range_one, show (Img.const 8 8 (4 : ℝ)).px _ _ = 4 from Img.ofFn_px (by omega) (by omega)]
      norm_num) hL
  refine ⟨inp, h1, ?_, ?_, ?_⟩
  · rw [C76_occulted_partial hR rfl h1 (by norm_num) (by norm_num)]; norm_num
  · exact C76_centre_missed hR rfl h1 (by norm_num) (by norm_num)
  · rw [C76_occulted_partial hR rfl h1 (by norm_num) (by norm_num)]; norm_num

end

end Micropol
