import Verif.Props.CalibrationRun
import Verif.Props.Observation
import Verif.Spec.Frame

/-!
# C106: the zero of the polarizer angles

A calibration knows the orientations of the polarizer only up to the direction from which they are counted.  Another zero turns Q and U
by twice the angle, and changes nothing else, for every image that is demodulated.
-/

set_option autoImplicit false

namespace Micropol

noncomputable section

open Real

/-! ## The pseudo-inverse of a turned response -/

/-- The turn as a matrix. -/
def turnMatrix (δ : ℝ) : Matrix (Fin 3) (Fin 3) ℝ :=
  Matrix.of ![![1, 0, 0], ![0, cos (2 * δ), sin (2 * δ)], ![0, -sin (2 * δ), cos (2 * δ)]]

theorem turnMatrix_inverse (δ : ℝ) : turnMatrix δ * (turnMatrix δ).transpose = 1 := by
  have h := sin_sq_add_cos_sq (2 * δ)
  ext i j
  fin_cases i <;> fin_cases j <;>
    simp [turnMatrix, Matrix.mul_apply, Fin.sum_univ_three, Matrix.transpose_apply] <;> nlinarith

theorem response_turned (t e φ : Fin 4 → ℝ) (δ : ℝ) :
    Matrix.of (responseMatrix t e (fun k => φ k + δ)) = Matrix.of (responseMatrix t e φ) * turnMatrix δ := by
  ext k j
  rw [Matrix.mul_apply, Fin.sum_univ_three]
  fin_cases j
  · simp [responseMatrix, turnMatrix]
  · simp [responseMatrix, turnMatrix, mul_add, cos_add]
    ring
  · simp [responseMatrix, turnMatrix, mul_add, sin_add]
    ring

theorem fullRank_turned {t e φ : Fin 4 → ℝ} (δ : ℝ) (h : FullRank (Matrix.of (responseMatrix t e φ))) :
    FullRank (Matrix.of (responseMatrix t e (fun k => φ k + δ))) := by
  intro v w hvw
  rw [response_turned, ← Matrix.mulVec_mulVec, ← Matrix.mulVec_mulVec] at hvw
  have h1 := h hvw
  have h2 : (turnMatrix δ).transpose.mulVec ((turnMatrix δ).mulVec v) = (turnMatrix δ).transpose.mulVec ((turnMatrix δ).mulVec w) := by rw [h1]
  have h3 : (turnMatrix δ).transpose * turnMatrix δ = 1 := mul_eq_one_comm.1 (turnMatrix_inverse δ)
  rwa [Matrix.mulVec_mulVec, Matrix.mulVec_mulVec, h3, Matrix.one_mulVec, Matrix.one_mulVec] at h2

/-- Two matrices with the same range have pseudo-inverses with the same projection on it. -/
theorem pinv_turned {M : Matrix (Fin 4) (Fin 3) ℝ} {P P' : Matrix (Fin 3) (Fin 4) ℝ} {δ : ℝ} (h : IsPseudoInverse M P) (hr : FullRank M)
    (h' : IsPseudoInverse (M * turnMatrix δ) P') : turnMatrix δ * P' = P := by
  obtain ⟨a1, a2, a3, a4⟩ := h
  obtain ⟨b1, b2, b3, b4⟩ := h'
  have hPM : P * M = 1 := by
    have hid : ∀ v, (P * M).mulVec v = v := fun v => by
      rw [← Matrix.mulVec_mulVec]
      exact left_inverse_of_pinv ⟨a1, a2, a3, a4⟩ hr v
    ext i j
    have := congrFun (hid (Pi.single j 1)) i
    rw [Matrix.mulVec_single_one] at this
    rw [Matrix.one_apply, show (P * M) i j = (P * M).col j i from rfl, this, Pi.single_apply]
  obtain ⟨T, hT⟩ : ∃ T, T = turnMatrix δ := ⟨_, rfl⟩
  have hTT := turnMatrix_inverse δ
  rw [← hT] at b1 b2 b3 b4 hTT ⊢
  have hAB : M * P * (M * T * P') = M * T * P' := by
    rw [← Matrix.mul_assoc, ← Matrix.mul_assoc, a1]
  have hBA : M * T * P' * (M * P) = M * P := by
    have h1 : M * T * P' * M = M := by
      have : M * T * P' * (M * T) * T.transpose = M * T * T.transpose := by rw [b1]
      have hMT : M * T * T.transpose = M := by rw [Matrix.mul_assoc, hTT, Matrix.mul_one]
      rwa [Matrix.mul_assoc _ (M * T) _, hMT] at this
    rw [← Matrix.mul_assoc, h1]
  have hEq : M * T * P' = M * P := by
    have := congrArg Matrix.transpose hAB
    rw [Matrix.transpose_mul, a3, b3, hBA] at this
    exact this.symm
  have : P * (M * T * P') = P * (M * P) := by rw [hEq]
  rw [Matrix.mul_assoc M, ← Matrix.mul_assoc P M, ← Matrix.mul_assoc P M, hPM, Matrix.one_mul, Matrix.one_mul] at this
  exact this

theorem solve_turn {δ p q a b : ℝ} (h1 : cos (2 * δ) * p + sin (2 * δ) * q = a) (h2 : -sin (2 * δ) * p + cos (2 * δ) * q = b) :
    p = cos (2 * δ) * a - sin (2 * δ) * b ∧ q = sin (2 * δ) * a + cos (2 * δ) * b := by
  have h := sin_sq_add_cos_sq (2 * δ)
  constructor
  · linear_combination (-p) * h + cos (2 * δ) * h1 - sin (2 * δ) * h2
  · linear_combination (-q) * h + sin (2 * δ) * h1 + cos (2 * δ) * h2

section
variable {env : CalibEnv} {inp inp' : ChunkInput} {ny nx ny' nx' : Nat} {schedule schedule' : List Nat} {maps maps' : CalibMaps}

/-- C106: two calibrations (of images of the same size, on any grids) that found, at a superpixel, the same throughputs and efficiencies
and phases that differ by the angle `δ`: the Stokes vectors that they give for this superpixel, of any image, differ by the turn. -/
theorem C106_maps (hpinv : env.PinvCorrect) (hg : ValidGrid inp ny nx schedule) (hg' : ValidGrid inp' ny' nx' schedule')
    (hm : calibrate env inp ny nx schedule = .ok maps) (hm' : calibrate env inp' ny' nx' schedule' = .ok maps')
    (hsize : inp'.height = inp.height ∧ inp'.width = inp.width) (heven : inp.height % 2 = 0 ∧ inp.width % 2 = 0)
    {Y X : Nat} (hc : Covered inp ny nx Y X) (hc' : Covered inp' ny' nx' Y X)
    (hflag : maps.fitFound.px Y X = 1) (hflag' : maps'.fitFound.px Y X = 1) {t e φ : Fin 4 → ℝ} {δ : ℝ}
    (hpar : ∀ k, maps.tk.px (rowOf Y k) (colOf X k) = t k ∧ maps.eff.px (rowOf Y k) (colOf X k) = e k ∧
      maps.phase.px (rowOf Y k) (colOf X k) = φ k * 180 / π)
    (hpar' : ∀ k, maps'.tk.px (rowOf Y k) (colOf X k) = t k ∧ maps'.eff.px (rowOf Y k) (colOf X k) = e k ∧
      maps'.phase.px (rowOf Y k) (colOf X k) = (φ k + δ) * 180 / π)
    (hrank : FullRank (Matrix.of (responseMatrix t e φ))) (data : Img ℝ) (hdata : data.HasShape inp.height inp.width)
    (prev : Fin 3 → Img ℝ) (hprev : ∀ i, (prev i).HasShape (inp.height / 2) (inp.width / 2)) :
    ∃ T T', demodulatePlain data prev ⟨maps.mij, some maps.fitFound⟩ = .ok T ∧
      demodulatePlain data prev ⟨maps'.mij, some maps'.fitFound⟩ = .ok T' ∧
      (∀ i, (T i).HasShape (inp.height / 2) (inp.width / 2) ∧ (T' i).HasShape (inp.height / 2) (inp.width / 2)) ∧
      ∀ i, (T' i).px Y X = turnedStokes δ (fun j => (T j).px Y X) i := by
  have key : ∀ {inp : ChunkInput} {ny nx : Nat} {schedule : List Nat} {maps : CalibMaps} (hg : ValidGrid inp ny nx schedule)
      (hm : calibrate env inp ny nx schedule = .ok maps) (hc : Covered inp ny nx Y X) (hflag : maps.fitFound.px Y X = 1) (φ : Fin 4 → ℝ)
      (hpar : ∀ k, maps.tk.px (rowOf Y k) (colOf X k) = t k ∧ maps.eff.px (rowOf Y k) (colOf X k) = e k ∧
        maps.phase.px (rowOf Y k) (colOf X k) = φ k * 180 / π) (hdata : data.HasShape inp.height inp.width)
      (heven : inp.height % 2 = 0 ∧ inp.width % 2 = 0) (hprev : ∀ i, (prev i).HasShape (inp.height / 2) (inp.width / 2)),
      ∃ T, demodulatePlain data prev ⟨maps.mij, some maps.fitFound⟩ = .ok T ∧
        (∀ i, (T i).HasShape (inp.height / 2) (inp.width / 2)) ∧
        ∀ i, (T i).px Y X = ∑ k, env.pinv (responseMatrix t e φ) i k * data.px (rowOf Y k) (colOf X k) := by
    intro inp ny nx schedule maps hg hm hc hflag φ hpar hdata heven hprev
    obtain ⟨-, hfl⟩ := C33_flag hg hm hc
    obtain ⟨-, hmij, -⟩ := hfl hflag
    have hmat : responseMatrix (fun k => maps.tk.px (rowOf Y k) (colOf X k)) (fun k => maps.eff.px (rowOf Y k) (colOf X k))
        (fun k => maps.phase.px (rowOf Y k) (colOf X k) * Real.pi / 180) = responseMatrix t e φ := by
      congr 1
      · funext k; exact (hpar k).1
      · funext k; exact (hpar k).2.1
      · funext k
        rw [(hpar k).2.2]
        have := Real.pi_ne_zero
        field_simp
    rw [hmat] at hmij
    have hshape : maps.fitFound.HasShape (inp.height / 2) (inp.width / 2) ∧
        ∀ i j, (maps.mij i j).HasShape (inp.height / 2) (inp.width / 2) := by
      rw [calibrate_eq env inp hg.ny_pos hg.nx_pos hg.even_y hg.even_x hg.order] at hm
      injection hm with hm
      subst hm
      exact ⟨⟨rfl, rfl⟩, fun _ _ => ⟨rfl, rfl⟩⟩
    have hs := split_ok (d := data) (by rw [hdata.1]; exact heven.1) (by rw [hdata.2]; exact heven.2)
    obtain ⟨S, h1, h2⟩ := C24_flags data _ hs prev (by rw [hdata.1, hdata.2]; exact hprev)
      ⟨maps.mij, some maps.fitFound⟩ (by rw [hdata.1, hdata.2]; exact hshape.2) maps.fitFound rfl
      (by rw [hdata.1, hdata.2]; exact hshape.1)
    have b1 : ny * (inp.height / ny) ≤ inp.height := Nat.mul_div_le _ _
    have b2 : nx * (inp.width / nx) ≤ inp.width := Nat.mul_div_le _ _
    have p1 : ny * (inp.height / ny) % 2 = 0 := by rw [Nat.mul_mod, hg.even_y]; simp
    have p2 : nx * (inp.width / nx) % 2 = 0 := by rw [Nat.mul_mod, hg.even_x]; simp
    obtain ⟨c1, c2⟩ := hc
    have hY : Y < data.h / 2 := by rw [hdata.1]; omega
    have hX : X < data.w / 2 := by rw [hdata.2]; omega
    refine ⟨S, h1, fun i => ?_, fun i => ?_⟩
    · rw [← hdata.1, ← hdata.2]
      exact (h2 i).1
    · rw [(h2 i).2 Y X hY hX, if_pos hflag]
      refine Finset.sum_congr rfl fun k _ => ?_
      rw [hmij]
      congr 1
      rw [Img.ofFn_px hY hX]
      rfl
  obtain ⟨T, t1, t2, t3⟩ := key hg hm hc hflag φ hpar hdata heven hprev
  obtain ⟨T', u1, u2, u3⟩ := key hg' hm' hc' hflag' (fun k => φ k + δ) hpar' (by rw [hsize.1, hsize.2]; exact hdata)
    (by rw [hsize.1, hsize.2]; exact heven) (by rw [hsize.1, hsize.2]; exact hprev)
  refine ⟨T, T', t1, u1, fun i => ⟨t2 i, ?_⟩, ?_⟩
  · rw [← hsize.1, ← hsize.2]
    exact u2 i
  have hp := hpinv _ hrank
  have hp' := hpinv _ (fullRank_turned δ hrank)
  rw [response_turned] at hp'
  have hturn := pinv_turned hp hrank hp'
  obtain ⟨P, hP⟩ : ∃ P, P = env.pinv (responseMatrix t e φ) := ⟨_, rfl⟩
  obtain ⟨P', hP'⟩ : ∃ P', P' = env.pinv (responseMatrix t e (fun k => φ k + δ)) := ⟨_, rfl⟩
  rw [← hP, ← hP'] at hturn
  have e0 : ∀ k, P' 0 k = P 0 k := by
    intro k
    have := congrFun (congrFun hturn 0) k
    rw [Matrix.mul_apply, Fin.sum_univ_three] at this
    simpa [turnMatrix] using this
  have e12 : ∀ k, P' 1 k = cos (2 * δ) * P 1 k - sin (2 * δ) * P 2 k ∧ P' 2 k = sin (2 * δ) * P 1 k + cos (2 * δ) * P 2 k := by
    intro k
    have h1 := congrFun (congrFun hturn 1) k
    have h2 := congrFun (congrFun hturn 2) k
    rw [Matrix.mul_apply, Fin.sum_univ_three] at h1 h2
    refine solve_turn ?_ ?_
    · simpa [turnMatrix] using h1
    · simpa [turnMatrix] using h2
  have r0 : ∀ i, (T i).px Y X = ∑ k, P i k * data.px (rowOf Y k) (colOf X k) := fun i => by rw [t3, hP]
  have r1 : ∀ i, (T' i).px Y X = ∑ k, P' i k * data.px (rowOf Y k) (colOf X k) := fun i => by rw [u3, hP']
  intro i
  rw [r1]
  fin_cases i
  · show _ = (T 0).px Y X
    rw [r0]
    exact Finset.sum_congr rfl fun k _ => by rw [← e0]; rfl
  · show _ = cos (2 * δ) * (T 1).px Y X - sin (2 * δ) * (T 2).px Y X
    rw [r0, r0, Finset.mul_sum, Finset.mul_sum, ← Finset.sum_sub_distrib]
    refine Finset.sum_congr rfl fun k _ => ?_
    show P' 1 k * _ = _
    rw [(e12 k).1]
    ring
  · show _ = sin (2 * δ) * (T 1).px Y X + cos (2 * δ) * (T 2).px Y X
    rw [r0, r0, Finset.mul_sum, Finset.mul_sum, ← Finset.sum_add_distrib]
    refine Finset.sum_congr rfl fun k _ => ?_
    show P' 2 k * _ = _
    rw [(e12 k).2]
    ring

end

/-- The angle of linear polarization from the polar form. -/
theorem aolp_polar {S : Fin 3 → Img ℝ} (hS : SameShape S) {y x : Nat} (hy : y < (S 0).h) (hx : x < (S 0).w) {r θ : ℝ} (hr : 0 < r)
    (h1 : (S 1).px y x = r * cos (2 * θ)) (h2 : (S 2).px y x = r * sin (2 * θ)) : ∃ n : ℤ, (AoLP S).px y x = θ + n * π := by
  obtain ⟨S', hS'⟩ : ∃ S' : Fin 3 → Img ℝ, S' = ![Img.const (S 0).h (S 0).w 1, S 1, S 2] := ⟨_, rfl⟩
  have q0 : S' 0 = Img.const (S 0).h (S 0).w 1 := by rw [hS']; rfl
  have q1 : S' 1 = S 1 := by rw [hS']; rfl
  have q2 : S' 2 = S 2 := by rw [hS']; rfl
  have hsh : SameShape S' := by
    intro i
    rw [q0]
    fin_cases i
    · exact q0 ▸ ⟨rfl, rfl⟩
    · exact q1 ▸ hS 1
    · exact q2 ▸ hS 2
  have hA : AoLP S' = AoLP S := by
    unfold AoLP
    rw [q1, q2]
  have := (light_of_stokes hsh (y := y) (x := x) (by rw [q0]; exact hy) (by rw [q0]; exact hx) (g := 1) (i := 1) (p := r) (θ := θ)
    one_pos one_pos hr (by
      intro j
      fin_cases j
      · show (S' 0).px y x = 1 * 1
        rw [q0, mul_one]
        exact Img.ofFn_px hy hx
      · show (S' 1).px y x = 1 * (1 * r * cos (2 * θ))
        rw [q1, h1]
        ring
      · show (S' 2).px y x = 1 * (1 * r * sin (2 * θ))
        rw [q2, h2]
        ring)).2.2
  rw [hA] at this
  exact this

/-- C106: the turn changes neither I nor the polarized brightness nor the degree of polarization, and it adds `δ` to the angle of
polarization, up to half turns. -/
theorem C106_polarization {T T' : Fin 3 → Img ℝ} {h w Y X : Nat} (hY : Y < h) (hX : X < w) (hT : ∀ i, (T i).HasShape h w)
    (hT' : ∀ i, (T' i).HasShape h w) {δ : ℝ} (hturn : ∀ i, (T' i).px Y X = turnedStokes δ (fun j => (T j).px Y X) i) :
    (T' 0).px Y X = (T 0).px Y X ∧ (pB T').px Y X = (pB T).px Y X ∧
    (∃ D D', DoLP T = .ok D ∧ DoLP T' = .ok D' ∧ D'.px Y X = D.px Y X) ∧
    (0 < (pB T).px Y X → ∃ n : ℤ, (AoLP T').px Y X = (AoLP T).px Y X + δ + n * π) := by
  have hs : SameShape T := fun i => ⟨(hT i).1.trans (hT 0).1.symm, (hT i).2.trans (hT 0).2.symm⟩
  have hs' : SameShape T' := fun i => ⟨(hT' i).1.trans (hT' 0).1.symm, (hT' i).2.trans (hT' 0).2.symm⟩
  have y1 : Y < (T 0).h := by rw [(hT 0).1]; exact hY
  have x1 : X < (T 0).w := by rw [(hT 0).2]; exact hX
  have y2 : Y < (T' 0).h := by rw [(hT' 0).1]; exact hY
  have x2 : X < (T' 0).w := by rw [(hT' 0).2]; exact hX
  have r0 : (T' 0).px Y X = (T 0).px Y X := hturn 0
  have r1 : (T' 1).px Y X = cos (2 * δ) * (T 1).px Y X - sin (2 * δ) * (T 2).px Y X := hturn 1
  have r2 : (T' 2).px Y X = sin (2 * δ) * (T 1).px Y X + cos (2 * δ) * (T 2).px Y X := hturn 2
  have rp : (pB T').px Y X = (pB T).px Y X := by
    rw [pB_px hs y1 x1, pB_px hs' y2 x2, r1, r2]
    congr 1
    have := sin_sq_add_cos_sq (2 * δ)
    linear_combination ((T 1).px Y X ^ 2 + (T 2).px Y X ^ 2) * this
  refine ⟨r0, rp, ?_, ?_⟩
  · obtain ⟨D, d1, -, -, d2⟩ := C19_total T hs
    obtain ⟨D', e1, -, -, e2⟩ := C19_total T' hs'
    refine ⟨D, D', d1, e1, ?_⟩
    by_cases hz : (T 0).px Y X = 0
    · rw [(d2 Y X y1 x1).1 hz, (e2 Y X y2 x2).1 (by rw [r0]; exact hz)]
    · rw [(d2 Y X y1 x1).2 hz, (e2 Y X y2 x2).2 (by rw [r0]; exact hz), rp, r0]
  · intro hpos
    obtain ⟨c1, c2⟩ := C18_polar T hs Y X y1 x1
    refine aolp_polar hs' y2 x2 (r := (pB T).px Y X) (θ := (AoLP T).px Y X + δ) hpos ?_ ?_
    · rw [r1, mul_add, cos_add]
      rw [c1, c2]
      ring
    · rw [r2, mul_add, sin_add]
      rw [c1, c2]
      ring

section
variable {fs : Name → Option (Img ℝ)} {fit : GaussFit} {a : CalibArgs} {b H W : Nat} {F : Name → Img ℝ}
  {D : Option (Img ℝ)} {S : Nat → Nat → Nat → ℝ} {env : CalibEnv} {ny nx : Nat} {schedule : List Nat}

/-- C106, the whole calibration: the sensor of C75 is calibrated twice with the same frames, the second time with all polarizer
orientations read `d` degrees higher (and phases predicted accordingly).  The stored phases differ by `d`, and the Stokes vectors of
every image by the turn. -/
theorem C106_turned_polarizer (hfind : env.FindsExact) (hpinv : env.PinvCorrect)
    (hR : Readable fs a b H W F D) (hS : Prescribes a a.filenames.length b H W S) (hgain : 0 < a.gain)
    (hpos : ∀ n ∈ a.filenames, ∀ y x, y < 2 * (H / (2 * b)) → x < 2 * (W / (2 * b)) → 0 ≤ lit (F n) D b y x)
    (hny : 0 < ny) (hnx : 0 < nx) (hh : 2 * (H / (2 * b)) % (2 * ny) = 0) (hw : 2 * (W / (2 * b)) % (2 * nx) = 0)
    (hord : schedule.Perm (List.range (ny * nx)))
    {Y X : Nat} (hY : Y < H / (2 * b)) (hX : X < W / (2 * b)) (hocc : a.occulter = none)
    (hbt : SaneBounds (boundsOr a.tkBoundary)) (hbe : SaneBounds (boundsOr a.effBoundary))
    {t e φ : Fin 4 → ℝ}
    (ht : ∀ k, boundsOr a.tkBoundary 1 < t k ∧ t k < boundsOr a.tkBoundary 2)
    (he : ∀ k, boundsOr a.effBoundary 1 < e k ∧ e k < boundsOr a.effBoundary 2)
    (hφ : ∀ k, |φ k - a.previsions k * Real.pi / 180| < Real.pi / 12)
    {o : Fin 3 → ℝ} (ho : ThreeDirections o) (hoa : ∀ i, o i ∈ a.orientations)
    {L : List (ℝ × Name)} (hL : SortedList a L)
    (hlaw : ∀ p (hp : p < L.length), ∀ k, lit (F L[p].2) D b (rowOf Y k) (colOf X k) =
      S p (rowOf Y k) (colOf X k) * transmitted (t k) (e k) (φ k) (L[p].1 * Real.pi / 180))
    (hrank : FullRank (Matrix.of (responseMatrix t e φ)))
    {d : ℝ} {previsions' : Fin 4 → ℝ} (hφ' : ∀ k, |φ k + d * π / 180 - previsions' k * Real.pi / 180| < Real.pi / 12)
    (hbig : ∀ i j, |env.pinv (responseMatrix t e φ) i j| ≤ 100)
    (hbig' : ∀ i j, |env.pinv (responseMatrix t e (fun k => φ k + d * π / 180)) i j| ≤ 100) :
    ∃ maps maps', calculateDemodulationTensor fs fit env a ny nx schedule = .ok maps ∧
      calculateDemodulationTensor fs fit env (a.turned d previsions') ny nx schedule = .ok maps' ∧
      (∀ k, maps'.phase.px (rowOf Y k) (colOf X k) = maps.phase.px (rowOf Y k) (colOf X k) + d) ∧
      ∀ data : Img ℝ, data.HasShape (2 * (H / (2 * b))) (2 * (W / (2 * b))) →
        ∀ prev : Fin 3 → Img ℝ, (∀ i, (prev i).HasShape (H / (2 * b)) (W / (2 * b))) →
        ∃ T T', demodulatePlain data prev ⟨maps.mij, some maps.fitFound⟩ = .ok T ∧
          demodulatePlain data prev ⟨maps'.mij, some maps'.fitFound⟩ = .ok T' ∧
          (∀ i, (T i).HasShape (H / (2 * b)) (W / (2 * b)) ∧ (T' i).HasShape (H / (2 * b)) (W / (2 * b))) ∧
          ∀ i, (T' i).px Y X = turnedStokes (d * π / 180) (fun j => (T j).px Y X) i := by
  obtain ⟨L', hLdef⟩ : ∃ L' : List (ℝ × Name), L' = L.map (fun p => (p.1 + d, p.2)) := ⟨_, rfl⟩
  have hR' : Readable fs (a.turned d previsions') b H W F D :=
    ⟨hR.binning, hR.pos, hR.even, hR.frames, hR.dark, hR.flat, by
      show (a.orientations.map (· + d)).length = _
      rw [List.length_map]
      exact hR.len, hR.some_file⟩
  have hS' : Prescribes (a.turned d previsions') (a.turned d previsions').filenames.length b H W S := hS
  have hL' : SortedList (a.turned d previsions') L' := by
    refine ⟨?_, ?_⟩
    · rw [hLdef]
      have := hL.1.map (fun p : ℝ × Name => (p.1 + d, p.2))
      refine this.trans (List.Perm.of_eq ?_)
      show _ = (a.orientations.map (· + d)).zip a.filenames
      rw [List.zip_map_left]
      rfl
    · rw [hLdef, List.pairwise_map]
      refine hL.2.imp ?_
      intro p q h
      rcases h with h | ⟨h, h'⟩
      · exact Or.inl (by dsimp only; linarith)
      · exact Or.inr ⟨by dsimp only; rw [h], h'⟩
  have ho' : ThreeDirections (fun i => o i + d) := by
    intro i j hij
    have := ho i j hij
    simpa using this
  have hlaw' : ∀ p (hp : p < L'.length), ∀ k, lit (F L'[p].2) D b (rowOf Y k) (colOf X k) =
      S p (rowOf Y k) (colOf X k) * transmitted (t k) (e k) (φ k + d * π / 180) (L'[p].1 * Real.pi / 180) := by
    subst hLdef
    intro p hp k
    have hp' : p < L.length := by rwa [List.length_map] at hp
    have := hlaw p hp' k
    rw [List.getElem_map]
    dsimp only
    rw [this]
    unfold transmitted
    congr 6
    ring
  obtain ⟨maps, hm, hflag, hpar, -⟩ := C75_recovers_sensor (fit := fit) hfind hpinv hR hS hgain hpos hny hnx hh hw hord hY hX hocc hbt hbe ht he
    hφ ho hoa hL hlaw hrank hbig
  obtain ⟨maps', hm', hflag', hpar', -⟩ := C75_recovers_sensor (fit := fit) (a := a.turned d previsions') (φ := fun k => φ k + d * π / 180)
    hfind hpinv hR' hS' hgain hpos hny hnx hh hw hord hY hX hocc hbt hbe ht he hφ' ho'
    (fun i => List.mem_map.2 ⟨o i, hoa i, rfl⟩) hL' hlaw' (fullRank_turned _ hrank) hbig'
  refine ⟨maps, maps', hm, hm', ?_, ?_⟩
  · intro k
    rw [(hpar k).2.2, (hpar' k).2.2]
    have := Real.pi_ne_zero
    field_simp
  intro data hd prev hprev
  obtain ⟨inp, hp, e1, e2, e3, -⟩ := C73_frames_partial (fit := fit) hR hS hgain hpos hL
  obtain ⟨inp', hp', e1', e2', e3', -⟩ := C73_frames_partial (fit := fit) (a := a.turned d previsions') hR' hS' hgain hpos hL'
  obtain ⟨hg, hc⟩ := grid_divides (inp := inp) hny hnx (by rw [e2]; exact hh) (by rw [e3]; exact hw) hord
  obtain ⟨hg', hc'⟩ := grid_divides (inp := inp') hny hnx (by rw [e2']; exact hh) (by rw [e3']; exact hw) hord
  unfold calculateDemodulationTensor at hm hm'
  rw [hp, Py.ok_bind] at hm
  rw [hp', Py.ok_bind] at hm'
  have d1 : inp.height / 2 = H / (2 * b) := by rw [e2]; omega
  have d2 : inp.width / 2 = W / (2 * b) := by rw [e3]; omega
  obtain ⟨T, T', t1, t2, t3, t4⟩ := C106_maps hpinv hg hg' hm hm' ⟨e2'.trans e2.symm, e3'.trans e3.symm⟩ (by rw [e2, e3]; omega)
    (hc (Y := Y) (X := X) (by rw [e2]; omega) (by rw [e3]; omega)) (hc' (Y := Y) (X := X) (by rw [e2']; omega) (by rw [e3']; omega))
    hflag hflag' hpar hpar' hrank data (by rw [e2, e3]; exact hd) prev (by rw [d1, d2]; exact hprev)
  refine ⟨T, T', t1, t2, ?_, t4⟩
  rw [d1, d2] at t3
  exact t3

end

/-- `C106_turned_polarizer` applies to the sample of C75, with the orientations read 30 degrees higher. -/
example : ∃ maps maps', calculateDemodulationTensor runFiles (fun _ _ _ => none) exactEnv runArgs 1 1 [0] = .ok maps ∧
    calculateDemodulationTensor runFiles (fun _ _ _ => none) exactEnv (runArgs.turned 30 ![30, 75, -15, 120]) 1 1 [0] = .ok maps' ∧
    ∃ T T', demodulatePlain (runFrame 45) (fun _ => Img.const 1 1 0) ⟨maps.mij, some maps.fitFound⟩ = .ok T ∧
      demodulatePlain (runFrame 45) (fun _ => Img.const 1 1 0) ⟨maps'.mij, some maps'.fitFound⟩ = .ok T' ∧
      (pB T').px 0 0 = (pB T).px 0 0 := by
  have hbig' : ∀ i j, |exactEnv.pinv (responseMatrix (fun _ => 1 / 2) (fun _ => 1 / 2) (fun k => runPhases k + 30 * π / 180)) i j| ≤ 100 := by
    have hp' := exactEnv_pinv _ (fullRank_turned (30 * π / 180) run_rank)
    rw [response_turned] at hp'
    have hturn := pinv_turned (exactEnv_pinv _ run_rank) run_rank hp'
    intro i j
    have h0 := congrFun (congrFun hturn 0) j
    have h1 := congrFun (congrFun hturn 1) j
    have h2 := congrFun (congrFun hturn 2) j
    rw [Matrix.mul_apply, Fin.sum_univ_three] at h0 h1 h2
    simp only [turnMatrix, Matrix.of_apply, Matrix.cons_val_zero, Matrix.cons_val_one, Matrix.cons_val, one_mul, zero_mul, add_zero,
      zero_add] at h0 h1 h2
    obtain ⟨s1, s2⟩ := solve_turn h1 h2
    have b0 := run_big 0 j
    have b1 := run_big 1 j
    have b2 := run_big 2 j
    have c := abs_cos_le_one (2 * (30 * π / 180))
    have s := abs_sin_le_one (2 * (30 * π / 180))
    have cc : ∀ u v : ℝ, |u| ≤ 1 → |v| ≤ 4 → |u * v| ≤ 4 := fun u v hu hv => by
      rw [abs_mul]
      calc |u| * |v| ≤ 1 * 4 := mul_le_mul hu hv (abs_nonneg _) zero_le_one
        _ = 4 := by norm_num
    fin_cases i
    · show |exactEnv.pinv _ 0 j| ≤ 100
      rw [h0]
      linarith
    · show |exactEnv.pinv _ 1 j| ≤ 100
      rw [s1]
      exact (abs_sub _ _).trans (by linarith [cc _ _ c b1, cc _ _ s b2])
    · show |exactEnv.pinv _ 2 j| ≤ 100
      rw [s2]
      exact (abs_add_le _ _).trans (by linarith [cc _ _ s b1, cc _ _ c b2])
  obtain ⟨maps, maps', h1, h2, -, h3⟩ := C106_turned_polarizer (fit := fun _ _ _ => none) exactEnv_finds exactEnv_pinv run_readable
    run_prescribes (by norm_num [runArgs]) run_nonneg (ny := 1) (nx := 1) (schedule := [0]) (by norm_num) (by norm_num)
    (by norm_num) (by norm_num) (by rfl) (Y := 0) (X := 0) (by norm_num) (by norm_num) rfl run_sane run_sane
    (t := fun _ => 1 / 2) (e := fun _ => 1 / 2) (φ := runPhases) (fun _ => run_inside) (fun _ => run_inside) run_near
    run_directions (by intro i; fin_cases i <;> simp [runArgs]) run_sorted run_law run_rank (d := 30) (previsions' := ![30, 75, -15, 120])
    (by
      intro k
      have : runPhases k + 30 * π / 180 - (![30, 75, -15, 120] : Fin 4 → ℝ) k * π / 180 = 0 := by
        unfold runPhases
        fin_cases k <;> simp <;> ring
      rw [this, abs_zero]
      have := pi_pos
      positivity)
    (fun i j => (run_big i j).trans (by norm_num)) hbig'
  obtain ⟨T, T', t1, t2, t3, t4⟩ := h3 (runFrame 45) ⟨rfl, rfl⟩ (fun _ => Img.const 1 1 0) (fun _ => ⟨rfl, rfl⟩)
  exact ⟨maps, maps', h1, h2, T, T', t1, t2,
    (C106_polarization (h := 1) (w := 1) (by norm_num) (by norm_num) (fun i => (t3 i).1) (fun i => (t3 i).2) t4).2.1⟩

end

end Micropol
