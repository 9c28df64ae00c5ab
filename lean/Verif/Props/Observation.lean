import Verif.Spec.Observation
import Verif.Props.CalibrationRun
import Verif.Props.Corrections
import Verif.Props.Demodulate
import Verif.Props.Polarization
import Verif.Props.Rebin
import Verif.Props.Locality

/-!
# C94: from the exposure to the polarization of the light

An exposure of any scene, dark subtracted, flat corrected and demodulated, shows the Stokes vectors of the scene, up to the mean gain of
the sensor.
-/

set_option autoImplicit false
set_option linter.unusedSectionVars false

namespace Micropol

noncomputable section

open Real

/-- Brightness, degree and angle of light from its Stokes vector. -/
theorem light_of_stokes {S : Fin 3 → Img ℝ} (hS : SameShape S) {y x : Nat} (hy : y < (S 0).h) (hx : x < (S 0).w) {g i p θ : ℝ}
    (hg : 0 < g) (hi : 0 < i) (hp : 0 < p) (h : ∀ j, (S j).px y x = g * stokesOfLight i p θ j) :
    (pB S).px y x = g * (i * p) ∧ (∀ D, DoLP S = .ok D → D.px y x = p) ∧ ∃ n : ℤ, (AoLP S).px y x = θ + n * π := by
  have r0 : (S 0).px y x = g * i := h 0
  have r1 : (S 1).px y x = g * (i * p) * cos (2 * θ) := by
    rw [h 1]
    show g * (i * p * cos (2 * θ)) = _
    ring
  have r2 : (S 2).px y x = g * (i * p) * sin (2 * θ) := by
    rw [h 2]
    show g * (i * p * sin (2 * θ)) = _
    ring
  have hr : 0 < g * (i * p) := by positivity
  have rp : (pB S).px y x = g * (i * p) := by
    rw [pB_px hS hy hx, r1, r2]
    rw [show ∀ r c s : ℝ, r * c * (r * c) + r * s * (r * s) = r ^ 2 * (s ^ 2 + c ^ 2) from
      fun r c s => by ring, sin_sq_add_cos_sq, mul_one, Real.sqrt_sq hr.le]
  refine ⟨rp, ?_, ?_⟩
  · intro D hD
    obtain ⟨D', eD, -, -, h'⟩ := C19_total S hS
    rw [hD] at eD
    injection eD with eD
    subst eD
    rw [(h' y x hy hx).2 (by rw [r0]; positivity), rp, r0]
    field_simp
  · rw [AoLP_px hS hy hx, r1, r2]
    have : (⟨g * (i * p) * cos (2 * θ), g * (i * p) * sin (2 * θ)⟩ : ℂ)
        = ((g * (i * p) : ℝ) : ℂ) * (Complex.cos ((2 * θ : ℝ) : ℂ) + Complex.sin ((2 * θ : ℝ) : ℂ) * Complex.I) := by
      rw [← Complex.ofReal_cos, ← Complex.ofReal_sin]
      apply Complex.ext
      · rw [Complex.re_ofReal_mul, Complex.add_re, Complex.ofReal_re, Complex.re_ofReal_mul, Complex.I_re]
        ring
      · rw [Complex.im_ofReal_mul, Complex.add_im, Complex.ofReal_im, Complex.im_ofReal_mul, Complex.I_im]
        ring
    rw [this]
    have h := Complex.arg_mul_cos_add_sin_mul_I_sub hr (2 * θ)
    refine ⟨⌊(π - 2 * θ) / (2 * π)⌋, ?_⟩
    linarith

section
variable {raw dark flat : Img ℝ} {gain : Nat → Nat → ℝ} {R : Nat → Nat → Fin 4 → Fin 3 → ℝ} {light : Nat → Nat → Fin 3 → ℝ}

/-- C94: after dark and flat correction every pixel shows what its micropolarizer lets through, times the mean gain; the gains of the
single pixels and the dark counts are gone. -/
theorem C94_corrected (hE : Exposure raw dark gain R light) (hF : FlatOf flat raw.h raw.w gain)
    (hg : ∀ y x, y < raw.h → x < raw.w → 0 < gain y x) (hh : raw.h ≠ 0) (hw : raw.w ≠ 0) (junk : Nat → Nat → ℝ) :
    ∃ a b, subtractDarkData raw dark = .ok a ∧ correctFlatData junk a flat = .ok b ∧ b.SameShape raw ∧ 0 < meanGain raw.h raw.w gain ∧
      ∀ Y X (k : Fin 4), Y < raw.h / 2 → X < raw.w / 2 →
        b.px (2 * Y + k.val / 2) (2 * X + k.val % 2) = meanGain raw.h raw.w gain * ∑ i, R Y X k i * light Y X i := by
  obtain ⟨e1, e2, d1, d2, px⟩ := hE
  obtain ⟨f1, f2, c, hc, fp⟩ := hF
  obtain ⟨a, ha, as, ap⟩ := C35_dark raw dark ⟨d1.symm, d2.symm⟩
  have hpos : 0 < meanGain raw.h raw.w gain := by
    unfold meanGain
    refine div_pos (Finset.sum_pos (fun y hy => Finset.sum_pos (fun x hx => hg y x (Finset.mem_range.1 hy) (Finset.mem_range.1 hx))
      ⟨0, Finset.mem_range.2 (by omega)⟩) ⟨0, Finset.mem_range.2 (by omega)⟩) ?_
    have := Nat.mul_pos (Nat.pos_of_ne_zero hh) (Nat.pos_of_ne_zero hw)
    exact_mod_cast this
  have hm : flat.mean = c * meanGain raw.h raw.w gain := by
    unfold Img.mean Img.total Img.totalOn meanGain
    rw [f1, f2, ← mul_div_assoc, Finset.mul_sum]
    congr 1
    refine Finset.sum_congr rfl (fun y hy => ?_)
    rw [Finset.mul_sum]
    exact Finset.sum_congr rfl (fun x hx => fp y x (Finset.mem_range.1 hy) (Finset.mem_range.1 hx))
  obtain ⟨b, hb, bs, bp⟩ := C36_flat_partial junk a flat ⟨as.1.trans f1.symm, as.2.trans f2.symm⟩ (by rw [as.1]; exact hh)
    (by rw [as.2]; exact hw) (by rw [hm]; positivity)
  refine ⟨a, b, ha, hb, ⟨bs.1.trans as.1, bs.2.trans as.2⟩, hpos, ?_⟩
  intro Y X k hY hX
  have hk := k.isLt
  have hy : 2 * Y + k.val / 2 < raw.h := by omega
  have hx : 2 * X + k.val % 2 < raw.w := by omega
  have hgp := hg _ _ hy hx
  obtain ⟨n0, q⟩ := px Y X k hY hX
  rw [bp _ _ (by rw [as.1]; exact hy) (by rw [as.2]; exact hx) (by rw [fp _ _ hy hx]; positivity), ap _ _ hy hx, q, add_sub_cancel_right,
    max_eq_left (mul_nonneg hgp.le n0), fp _ _ hy hx, hm]
  field_simp

/-- C94: demodulated with a tensor that inverts the micropolarizers, the corrected exposure shows the Stokes vectors of the scene times the
mean gain, at every superpixel where the tensor was found. -/
theorem C94_measurement (hE : Exposure raw dark gain R light) (hF : FlatOf flat raw.h raw.w gain)
    (hg : ∀ y x, y < raw.h → x < raw.w → 0 < gain y x) (hh : raw.h ≠ 0) (hw : raw.w ≠ 0) (junk : Nat → Nat → ℝ)
    {prev : Fin 3 → Img ℝ} (hprev : ∀ i, (prev i).HasShape (raw.h / 2) (raw.w / 2)) {D : Demodulator ℝ}
    (hD : D.HasShape (raw.h / 2) (raw.w / 2)) {flags : Img ℝ} (hf : D.fitFoundFlags = some flags)
    (hfs : flags.HasShape (raw.h / 2) (raw.w / 2)) :
    ∃ a b S, subtractDarkData raw dark = .ok a ∧ correctFlatData junk a flat = .ok b ∧ demodulatePlain b prev D = .ok S ∧ SameShape S ∧
      ∀ Y X, Y < raw.h / 2 → X < raw.w / 2 → flags.px Y X = 1 →
        (∀ i j, ∑ k, (D.mij i k).px Y X * R Y X k j = if i = j then 1 else 0) →
        ∀ i, (S i).px Y X = meanGain raw.h raw.w gain * light Y X i := by
  obtain ⟨a, b, ha, hb, bs, hpos, bp⟩ := C94_corrected hE hF hg hh hw junk
  have bh : b.h % 2 = 0 := by rw [bs.1]; exact hE.1
  have bw : b.w % 2 = 0 := by rw [bs.2]; exact hE.2.1
  obtain ⟨S, hS, sp⟩ := C24_flags b _ (split_ok bh bw) prev (by rw [bs.1, bs.2]; exact hprev) D (by rw [bs.1, bs.2]; exact hD) flags hf
    (by rw [bs.1, bs.2]; exact hfs)
  refine ⟨a, b, S, ha, hb, hS, fun i => ⟨(sp i).1.1.trans (sp 0).1.1.symm, (sp i).1.2.trans (sp 0).1.2.symm⟩, ?_⟩
  intro Y X hY hX hfl hinv i
  rw [(sp i).2 Y X (by rw [bs.1]; exact hY) (by rw [bs.2]; exact hX), if_pos hfl]
  have e : ∀ k : Fin 4, (D.mij i k).px Y X * (Img.ofFn (b.h / 2) (b.w / 2) (fun Y X => b.px (2 * Y + k.val / 2) (2 * X + k.val % 2))).px Y X
      = ∑ j, meanGain raw.h raw.w gain * light Y X j * ((D.mij i k).px Y X * R Y X k j) := by
    intro k
    rw [Img.ofFn_px (by rw [bs.1]; exact hY) (by rw [bs.2]; exact hX), bp Y X k hY hX, Finset.mul_sum, Finset.mul_sum]
    exact Finset.sum_congr rfl (fun j _ => by ring)
  rw [Finset.sum_congr rfl (fun k _ => e k), Finset.sum_comm]
  simp only [← Finset.mul_sum, hinv]
  rw [Finset.sum_eq_single i (fun j _ hj => by rw [if_neg (Ne.symm hj), mul_zero]) (fun h => absurd (Finset.mem_univ i) h), if_pos rfl,
    mul_one]

/-- C94: so the degree and the angle of polarization of the light are read off exactly, and its polarized brightness times the mean gain. -/
theorem C94_polarization (hE : Exposure raw dark gain R light) (hF : FlatOf flat raw.h raw.w gain)
    (hg : ∀ y x, y < raw.h → x < raw.w → 0 < gain y x) (hh : raw.h ≠ 0) (hw : raw.w ≠ 0) (junk : Nat → Nat → ℝ)
    {prev : Fin 3 → Img ℝ} (hprev : ∀ i, (prev i).HasShape (raw.h / 2) (raw.w / 2)) {D : Demodulator ℝ}
    (hD : D.HasShape (raw.h / 2) (raw.w / 2)) {flags : Img ℝ} (hf : D.fitFoundFlags = some flags)
    (hfs : flags.HasShape (raw.h / 2) (raw.w / 2)) :
    ∃ a b S P, subtractDarkData raw dark = .ok a ∧ correctFlatData junk a flat = .ok b ∧ demodulatePlain b prev D = .ok S ∧ DoLP S = .ok P ∧
      ∀ Y X, Y < raw.h / 2 → X < raw.w / 2 → flags.px Y X = 1 →
        (∀ i j, ∑ k, (D.mij i k).px Y X * R Y X k j = if i = j then 1 else 0) →
        ∀ i p θ : ℝ, 0 < i → 0 < p → light Y X = stokesOfLight i p θ →
          (pB S).px Y X = meanGain raw.h raw.w gain * (i * p) ∧ P.px Y X = p ∧ ∃ n : ℤ, (AoLP S).px Y X = θ + n * π := by
  obtain ⟨a, b, S, ha, hb, hS, hSS, sp⟩ := C94_measurement hE hF hg hh hw junk hprev hD hf hfs
  obtain ⟨-, -, -, -, -, hpos, -⟩ := C94_corrected hE hF hg hh hw junk
  obtain ⟨P, eP, -⟩ := C19_total S hSS
  refine ⟨a, b, S, P, ha, hb, hS, eP, ?_⟩
  intro Y X hY hX hfl hinv i p θ hi hp hl
  have hsh : (S 0).h = raw.h / 2 ∧ (S 0).w = raw.w / 2 := by
    obtain ⟨a', b', ha', hb', bs, -, -⟩ := C94_corrected hE hF hg hh hw junk
    rw [ha] at ha'
    injection ha' with ha'
    subst ha'
    rw [hb] at hb'
    injection hb' with hb'
    subst hb'
    obtain ⟨T, hT, tp⟩ := C24_flags b _ (split_ok (by rw [bs.1]; exact hE.1) (by rw [bs.2]; exact hE.2.1)) prev
      (by rw [bs.1, bs.2]; exact hprev) D (by rw [bs.1, bs.2]; exact hD) flags hf (by rw [bs.1, bs.2]; exact hfs)
    rw [hS] at hT
    injection hT with hT
    subst hT
    have := (tp 0).1
    rw [bs.1, bs.2] at this
    exact this
  obtain ⟨q1, q2, q3⟩ := light_of_stokes hSS (by rw [hsh.1]; exact hY) (by rw [hsh.2]; exact hX) hpos hi hp
    (fun j => by rw [sp Y X hY hX hfl hinv j, hl])
  exact ⟨q1, q2 P eP, q3⟩

/-- C94: with ideal polarizers no tensor is needed: the Stokes maps of the corrected exposure are those of the scene times the mean gain. -/
theorem C94_ideal_polarizers {L : Layout} (hP : L.Proper) {dic : AngleDic} (hL : L.Describes dic)
    (hE : Exposure raw dark gain R light) (hF : FlatOf flat raw.h raw.w gain)
    (hg : ∀ y x, y < raw.h → x < raw.w → 0 < gain y x) (hh : raw.h ≠ 0) (hw : raw.w ≠ 0) (junk : Nat → Nat → ℝ)
    (hR : ∀ Y X, Y < raw.h / 2 → X < raw.w / 2 → R Y X L.p0 = ![1/2, 1/2, 0] ∧ R Y X L.p90 = ![1/2, -1/2, 0] ∧
      R Y X L.p45 = ![1/2, 0, 1/2] ∧ R Y X L.pm45 = ![1/2, 0, -1/2]) :
    ∃ a b S, subtractDarkData raw dark = .ok a ∧ correctFlatData junk a flat = .ok b ∧ dataStokes b dic = .ok S ∧ SameShape S ∧
      ∀ Y X, Y < raw.h / 2 → X < raw.w / 2 → ∀ i, (S i).px Y X = meanGain raw.h raw.w gain * light Y X i := by
  obtain ⟨a, b, ha, hb, bs, hpos, bp⟩ := C94_corrected hE hF hg hh hw junk
  obtain ⟨s, S, hs, hS, hspec⟩ := dataStokes_ok (d := b) (by rw [bs.1]; exact hE.1) (by rw [bs.2]; exact hE.2.1) hL
  refine ⟨a, b, S, ha, hb, hS, stokes_sameShape hspec, ?_⟩
  intro Y X hY hX i
  have hf := C02_family_pixels b s hs
  have fp : ∀ k, (s k).px Y X = meanGain raw.h raw.w gain * ∑ i, R Y X k i * light Y X i := by
    intro k
    rw [(hf k).2.2 Y X (by rw [bs.1]; exact hY) (by rw [bs.2]; exact hX)]
    exact bp Y X k hY hX
  obtain ⟨z0, z1, z2⟩ := hspec.2 Y X (by rw [(hf 0).1, bs.1]; exact hY) (by rw [(hf 0).2.1, bs.2]; exact hX)
  obtain ⟨r0, r90, r45, rm⟩ := hR Y X hY hX
  rw [hP.sum] at z0
  rw [fp, fp, fp, fp, r0, r90, r45, rm] at z0
  rw [fp, fp, r0, r90] at z1
  rw [fp, fp, r45, rm] at z2
  simp only [Fin.sum_univ_three, Matrix.cons_val_zero, Matrix.cons_val_one, Matrix.cons_val] at z0 z1 z2
  fin_cases i
  · show (S 0).px Y X = meanGain raw.h raw.w gain * light Y X 0
    rw [z0]
    ring
  · show (S 1).px Y X = meanGain raw.h raw.w gain * light Y X 1
    rw [z1]
    ring
  · show (S 2).px Y X = meanGain raw.h raw.w gain * light Y X 2
    rw [z2]
    ring

/-- C94: binned before the demodulation, the exposure shows the sum of the Stokes vectors of the binned superpixels times the mean gain, if
the tensor inverts the micropolarizers of all of them. -/
theorem C94_binned (hE : Exposure raw dark gain R light) (hF : FlatOf flat raw.h raw.w gain)
    (hg : ∀ y x, y < raw.h → x < raw.w → 0 < gain y x) (hh : raw.h ≠ 0) (hw : raw.w ≠ 0) (junk : Nat → Nat → ℝ) {n : Nat} (hn : 1 ≤ n)
    {prev : Fin 3 → Img ℝ} (hprev : ∀ i, (prev i).HasShape (raw.h / (2 * n)) (raw.w / (2 * n))) {D : Demodulator ℝ}
    (hD : D.HasShape (raw.h / (2 * n)) (raw.w / (2 * n))) {flags : Img ℝ} (hf : D.fitFoundFlags = some flags)
    (hfs : flags.HasShape (raw.h / (2 * n)) (raw.w / (2 * n))) :
    ∃ a b r S, subtractDarkData raw dark = .ok a ∧ correctFlatData junk a flat = .ok b ∧ micropolRebinData b n = .ok r ∧
      demodulatePlain r prev D = .ok S ∧
      ∀ Y X, Y < raw.h / (2 * n) → X < raw.w / (2 * n) → flags.px Y X = 1 →
        (∀ u v, u < n → v < n → ∀ i j, ∑ k, (D.mij i k).px Y X * R (n * Y + u) (n * X + v) k j = if i = j then 1 else 0) →
        ∀ i, (S i).px Y X = meanGain raw.h raw.w gain * ∑ u ∈ Finset.range n, ∑ v ∈ Finset.range n, light (n * Y + u) (n * X + v) i := by
  obtain ⟨a, b, ha, hb, bs, hpos, bp⟩ := C94_corrected hE hF hg hh hw junk
  have bh : b.h % 2 = 0 := by rw [bs.1]; exact hE.1
  have bw : b.w % 2 = 0 := by rw [bs.2]; exact hE.2.1
  have er : micropolRebinData b n = .ok (Img.ofFn (2 * (raw.h / (2 * n))) (2 * (raw.w / (2 * n)))
      (fun Y X => blockSum b (2 * n * (Y / 2) + Y % 2) (2 * n * (X / 2) + X % 2) 2 n)) := by
    unfold micropolRebinData
    rw [if_neg (by omega), micropolarrayRebin_ok b n hn bh bw, bs.1, bs.2]
  obtain ⟨r, hr⟩ : ∃ r, r = Img.ofFn (2 * (raw.h / (2 * n))) (2 * (raw.w / (2 * n)))
      (fun Y X => blockSum b (2 * n * (Y / 2) + Y % 2) (2 * n * (X / 2) + X % 2) 2 n) := ⟨_, rfl⟩
  rw [← hr] at er
  have r1 : r.h = 2 * (raw.h / (2 * n)) := by rw [hr]; rfl
  have r2 : r.w = 2 * (raw.w / (2 * n)) := by rw [hr]; rfl
  have q1 : r.h / 2 = raw.h / (2 * n) := by omega
  have q2 : r.w / 2 = raw.w / (2 * n) := by omega
  obtain ⟨S, hS, sp⟩ := C24_flags r _ (split_ok (by omega) (by omega)) prev (by rw [q1, q2]; exact hprev) D
    (by rw [q1, q2]; exact hD) flags hf (by rw [q1, q2]; exact hfs)
  refine ⟨a, b, r, S, ha, hb, er, hS, ?_⟩
  intro Y X hY hX hfl hinv i
  have lt1 : ∀ u, u < n → n * Y + u < raw.h / 2 := by
    intro u hu
    have := superIndex_lt (n := raw.h) (Y := 2 * Y) (by omega) u hu
    have e : 2 * Y / 2 = Y := by omega
    rw [e] at this
    have := hE.1
    omega
  have lt2 : ∀ u, u < n → n * X + u < raw.w / 2 := by
    intro u hu
    have := superIndex_lt (n := raw.w) (Y := 2 * X) (by omega) u hu
    have e : 2 * X / 2 = X := by omega
    rw [e] at this
    have := hE.2.1
    omega
  rw [(sp i).2 Y X (by rw [q1]; exact hY) (by rw [q2]; exact hX), if_pos hfl]
  have rp : ∀ k : Fin 4, (Img.ofFn (r.h / 2) (r.w / 2) (fun Y X => r.px (2 * Y + k.val / 2) (2 * X + k.val % 2))).px Y X =
      ∑ u ∈ Finset.range n, ∑ v ∈ Finset.range n, meanGain raw.h raw.w gain *
        ∑ j, R (n * Y + u) (n * X + v) k j * light (n * Y + u) (n * X + v) j := by
    intro k
    have hk := k.isLt
    rw [Img.ofFn_px (by rw [q1]; exact hY) (by rw [q2]; exact hX), hr, Img.ofFn_px (by omega) (by omega)]
    unfold blockSum
    refine Finset.sum_congr rfl (fun u hu => Finset.sum_congr rfl (fun v hv => ?_))
    have a1 : (2 * Y + k.val / 2) / 2 = Y := by omega
    have a2 : (2 * Y + k.val / 2) % 2 = k.val / 2 := by omega
    have a3 : (2 * X + k.val % 2) / 2 = X := by omega
    have a4 : (2 * X + k.val % 2) % 2 = k.val % 2 := by omega
    have a5 : 2 * n * Y + k.val / 2 + u * 2 = 2 * (n * Y + u) + k.val / 2 := by ring
    have a6 : 2 * n * X + k.val % 2 + v * 2 = 2 * (n * X + v) + k.val % 2 := by ring
    rw [a1, a2, a3, a4, a5, a6]
    exact bp _ _ k (lt1 u (Finset.mem_range.1 hu)) (lt2 v (Finset.mem_range.1 hv))
  rw [Finset.sum_congr rfl (fun k _ => by rw [rp k])]
  simp only [Finset.mul_sum]
  rw [Finset.sum_comm]
  refine Finset.sum_congr rfl (fun u hu => ?_)
  rw [Finset.sum_comm]
  refine Finset.sum_congr rfl (fun v hv => ?_)
  rw [Finset.sum_comm]
  have key : ∀ j, ∑ k, (D.mij i k).px Y X * (meanGain raw.h raw.w gain * (R (n * Y + u) (n * X + v) k j * light (n * Y + u) (n * X + v) j)) =
      meanGain raw.h raw.w gain * light (n * Y + u) (n * X + v) j * (if i = j then 1 else 0) := by
    intro j
    rw [← hinv u v (Finset.mem_range.1 hu) (Finset.mem_range.1 hv) i j, Finset.mul_sum]
    exact Finset.sum_congr rfl (fun k _ => by ring)
  rw [Finset.sum_congr rfl (fun j _ => key j),
    Finset.sum_eq_single i (fun j _ hj => by rw [if_neg (Ne.symm hj), mul_zero]) (fun h => absurd (Finset.mem_univ i) h), if_pos rfl, mul_one]

end

section
variable {fs : Name → Option (Img ℝ)} {fit : GaussFit} {a : CalibArgs} {b H W : Nat} {F : Name → Img ℝ}
  {D : Option (Img ℝ)} {S : Nat → Nat → Nat → ℝ} {env : CalibEnv} {ny nx : Nat} {schedule : List Nat}

/-- C94: calibration and observation together.  The sensor of C75 is calibrated with frames behind a rotating polarizer; then any exposure
by this sensor of any scene, dark subtracted, flat corrected and demodulated with the tensor of the calibration, shows the Stokes vector of
the scene times the mean gain. -/
theorem C94_calibrated (hfind : env.FindsExact) (hpinv : env.PinvCorrect)
    (hR : Readable fs a b H W F D) (hS : Prescribes a a.filenames.length b H W S) (hgain : 0 < a.gain)
    (hpos : ∀ n ∈ a.filenames, ∀ y x, y < 2 * (H / (2 * b)) → x < 2 * (W / (2 * b)) → 0 ≤ lit (F n) D b y x)
    (hny : 0 < ny) (hnx : 0 < nx) (hh : 2 * (H / (2 * b)) % (2 * ny) = 0) (hw : 2 * (W / (2 * b)) % (2 * nx) = 0)
    (hord : schedule.Perm (List.range (ny * nx)))
    {Y X : Nat} (hY : Y < H / (2 * b)) (hX : X < W / (2 * b)) (hocc : a.occulter = none)
    (hbt : SaneBounds (boundsOr a.tkBoundary)) (hbe : SaneBounds (boundsOr a.effBoundary))
    {t e φ : Fin 4 → ℝ}
    (ht : ∀ k, boundsOr a.tkBoundary 1 < t k ∧ t k < boundsOr a.tkBoundary 2)
    (he : ∀ k, boundsOr a.effBoundary 1 < e k ∧ e k < boundsOr a.effBoundary 2)
    (hφ : ∀ k, |φ k - a.previsions k * Real.pi / 180| < Real.pi / 12)
    {o : Fin 3 → ℝ} (ho : ThreeDirections o) (hoa : ∀ i, o i ∈ a.orientations)
    {L : List (ℝ × Name)} (hL : SortedList a L)
    (hlaw : ∀ p (hp : p < L.length), ∀ k, lit (F L[p].2) D b (rowOf Y k) (colOf X k) =
      S p (rowOf Y k) (colOf X k) * transmitted (t k) (e k) (φ k) (L[p].1 * Real.pi / 180))
    (hrank : FullRank (Matrix.of (responseMatrix t e φ)))
    (hbig : ∀ i j, |env.pinv (responseMatrix t e φ) i j| ≤ 100) :
    ∃ maps, calculateDemodulationTensor fs fit env a ny nx schedule = .ok maps ∧
      ∀ (raw dark flat : Img ℝ) (gain : Nat → Nat → ℝ) (R : Nat → Nat → Fin 4 → Fin 3 → ℝ) (light : Nat → Nat → Fin 3 → ℝ)
        (junk : Nat → Nat → ℝ), raw.HasShape (2 * (H / (2 * b))) (2 * (W / (2 * b))) → Exposure raw dark gain R light →
        FlatOf flat raw.h raw.w gain → (∀ y x, y < raw.h → x < raw.w → 0 < gain y x) → R Y X = responseMatrix t e φ →
        ∀ prev : Fin 3 → Img ℝ, (∀ i, (prev i).HasShape (H / (2 * b)) (W / (2 * b))) →
        ∃ p q T, subtractDarkData raw dark = .ok p ∧ correctFlatData junk p flat = .ok q ∧
          demodulatePlain q prev ⟨maps.mij, some maps.fitFound⟩ = .ok T ∧
          ∀ i, (T i).px Y X = meanGain raw.h raw.w gain * light Y X i := by
  obtain ⟨maps, hm, -, -, hdem⟩ := C75_recovers_sensor (fit := fit) hfind hpinv hR hS hgain hpos hny hnx hh hw hord hY hX hocc hbt hbe ht he
    hφ ho hoa hL hlaw hrank hbig
  refine ⟨maps, hm, ?_⟩
  intro raw dark flat gain R light junk hraw hE hF hg hRR prev hprev
  obtain ⟨p, q, hp, hq, qs, -, qp⟩ := C94_corrected hE hF hg (by rw [hraw.1]; omega) (by rw [hraw.2]; omega) junk
  obtain ⟨T, hT, tp⟩ := hdem (fun i => meanGain raw.h raw.w gain * light Y X i) q ⟨qs.1.trans hraw.1, qs.2.trans hraw.2⟩ (by
    intro k
    have := qp Y X k (by rw [hraw.1]; omega) (by rw [hraw.2]; omega)
    unfold rowOf colOf
    rw [this, hRR]
    unfold responseMatrix
    simp only [Fin.sum_univ_three, Matrix.cons_val_zero, Matrix.cons_val_one, Matrix.cons_val]
    ring) prev hprev
  exact ⟨p, q, T, hp, hq, hT, tp⟩

end

/-! Non-vacuity: light polarized at 30 degrees, a sensor with ideal polarizers and unequal gains. -/

/-- Gains of the four pixels. -/
def exGain (y x : Nat) : ℝ := 1 + y + 2 * x

/-- Ideal polarizers at 0, 45, -45 and 90 degrees. -/
def exResponse : Fin 4 → Fin 3 → ℝ := ![![1/2, 1/2, 0], ![1/2, 0, 1/2], ![1/2, 0, -1/2], ![1/2, -1/2, 0]]

/-- An exposure of partially polarized light (Stokes vector 10, 3, 4) with dark counts 7. -/
def exRaw : Img ℝ := Img.ofFn 2 2 (fun y x => exGain y x * (∑ i, exResponse (famIdx y x) i * ![10, 3, 4] i) + 7)

example : Exposure exRaw (Img.const 2 2 7) exGain (fun _ _ => exResponse) (fun _ _ => ![10, 3, 4]) ∧
    FlatOf (Img.ofFn 2 2 (fun y x => 100 * exGain y x)) 2 2 exGain ∧ ∀ y x, 0 < exGain y x := by
  refine ⟨⟨rfl, rfl, rfl, rfl, ?_⟩, ⟨rfl, rfl, 100, by norm_num, fun y x hy hx => Img.ofFn_px hy hx⟩, ?_⟩
  · intro Y X k (hY : Y < 1) (hX : X < 1)
    obtain rfl : Y = 0 := by omega
    obtain rfl : X = 0 := by omega
    have hk := k.isLt
    constructor
    · fin_cases k <;> norm_num [exResponse, Fin.sum_univ_three, Matrix.cons_val_two, Matrix.tail_cons, Matrix.head_cons]
    · unfold exRaw
      rw [Img.ofFn_px (by omega) (by omega)]
      have e : famIdx (2 * 0 + k.val / 2) (2 * 0 + k.val % 2) = k := by fin_cases k <;> rfl
      have e7 : (Img.const 2 2 (7 : ℝ)).px (2 * 0 + k.val / 2) (2 * 0 + k.val % 2) = 7 := Img.ofFn_px (by omega) (by omega)
      rw [e, e7]
  · intro y x
    unfold exGain
    positivity

end

end Micropol
