import Verif.Spec.Superposition
import Verif.Props.Locality

/-!
# C93: processing a sum or an average of frames

The result of a weighted sum of frames is the same weighted sum of the results of the frames.
-/

set_option autoImplicit false
set_option linter.unusedSectionVars false

namespace Micropol

section
variable {K : Type} [Field K]

theorem mix_sum {n : Nat} (c : Fin n → K) {ι : Type} (s : Finset ι) (g : Fin n → ι → K) :
    ∑ k ∈ s, ∑ i, c i * g i k = ∑ i, c i * ∑ k ∈ s, g i k := by
  rw [Finset.sum_comm]
  exact Finset.sum_congr rfl (fun i _ => (Finset.mul_sum _ _ _).symm)

theorem mix_mul {n : Nat} (c : Fin n → K) (a : K) (g : Fin n → K) : a * ∑ i, c i * g i = ∑ i, c i * (a * g i) := by
  rw [Finset.mul_sum]
  exact Finset.sum_congr rfl (fun i _ => by ring)

theorem mix_div {n : Nat} (c : Fin n → K) (a : K) (g : Fin n → K) : (∑ i, c i * g i) / a = ∑ i, c i * (g i / a) := by
  rw [div_eq_mul_inv, mul_comm, mix_mul]
  exact Finset.sum_congr rfl (fun i _ => by rw [div_eq_mul_inv, mul_comm (g i)])

theorem mix_add {n : Nat} (c : Fin n → K) (g h : Fin n → K) : ∑ i, c i * g i + ∑ i, c i * h i = ∑ i, c i * (g i + h i) := by
  rw [← Finset.sum_add_distrib]
  exact Finset.sum_congr rfl (fun i _ => by ring)

theorem mix_sub {n : Nat} (c : Fin n → K) (g h : Fin n → K) : ∑ i, c i * g i - ∑ i, c i * h i = ∑ i, c i * (g i - h i) := by
  rw [← Finset.sum_sub_distrib]
  exact Finset.sum_congr rfl (fun i _ => by ring)

/-- C93: plain rebinning. -/
theorem C93_rebin {n : Nat} {c : Fin n → K} {f : Fin n → Img K} {m : Img K} (h : m.IsMixOf c f) {b : Nat} (hb : 1 ≤ b) :
    ∃ (r : Img K) (g : Fin n → Img K), imageRebinData m b = .ok r ∧ (∀ i, imageRebinData (f i) b = .ok (g i)) ∧ r.IsMixOf c g := by
  obtain ⟨r, hr, r1, r2, r3⟩ := C08_rebin m b hb
  choose g hg g1 g2 g3 using fun i => C08_rebin (f i) b hb
  refine ⟨r, g, hr, hg, fun i => ⟨by rw [g1, r1, (h.1 i).1], by rw [g2, r2, (h.1 i).2]⟩, ?_⟩
  intro Y X hY hX
  have gp : ∀ i, (g i).px Y X = ∑ u ∈ Finset.range b, ∑ v ∈ Finset.range b, (f i).px (b * Y + u) (b * X + v) := fun i =>
    g3 i Y X (by rw [g1, (h.1 i).1, ← r1]; exact hY) (by rw [g2, (h.1 i).2, ← r2]; exact hX)
  rw [r3 Y X hY hX]
  rw [r1] at hY
  rw [r2] at hX
  simp only [gp, ← mix_sum]
  refine Finset.sum_congr rfl (fun u hu => Finset.sum_congr rfl (fun v hv => ?_))
  exact h.2 _ _ (index_lt hY u (Finset.mem_range.1 hu)) (index_lt hX v (Finset.mem_range.1 hv))

/-- C93: the rebinning that keeps the polarizations apart. -/
theorem C93_rebin_micropol {n : Nat} {c : Fin n → K} {f : Fin n → Img K} {m : Img K} (h : m.IsMixOf c f) (hh : m.h % 2 = 0)
    (hw : m.w % 2 = 0) {b : Nat} (hb : 1 ≤ b) :
    ∃ (r : Img K) (g : Fin n → Img K), micropolRebinData m b = .ok r ∧ (∀ i, micropolRebinData (f i) b = .ok (g i)) ∧
      r.IsMixOf c g := by
  have e : ∀ A : Img K, A.h % 2 = 0 → A.w % 2 = 0 → micropolRebinData A b = .ok (Img.ofFn (2 * (A.h / (2 * b))) (2 * (A.w / (2 * b)))
      (fun Y X => blockSum A (2 * b * (Y / 2) + Y % 2) (2 * b * (X / 2) + X % 2) 2 b)) := by
    intro A h1 h2
    unfold micropolRebinData
    rw [if_neg (by omega)]
    exact micropolarrayRebin_ok A b hb h1 h2
  refine ⟨_, _, e m hh hw, fun i => e (f i) (by rw [(h.1 i).1]; exact hh) (by rw [(h.1 i).2]; exact hw), fun i => ⟨?_, ?_⟩, ?_⟩
  · simp only [Img.ofFn_h]
    rw [(h.1 i).1]
  · simp only [Img.ofFn_w]
    rw [(h.1 i).2]
  intro Y X hY hX
  simp only [Img.ofFn_h] at hY
  simp only [Img.ofFn_w] at hX
  have ef : ∀ i, (Img.ofFn (2 * ((f i).h / (2 * b))) (2 * ((f i).w / (2 * b)))
      (fun Y X => blockSum (f i) (2 * b * (Y / 2) + Y % 2) (2 * b * (X / 2) + X % 2) 2 b)).px Y X =
      blockSum (f i) (2 * b * (Y / 2) + Y % 2) (2 * b * (X / 2) + X % 2) 2 b := fun i =>
    Img.ofFn_px (by rw [(h.1 i).1]; exact hY) (by rw [(h.1 i).2]; exact hX)
  simp only [ef]
  rw [Img.ofFn_px hY hX]
  unfold blockSum
  simp only [← mix_sum]
  refine Finset.sum_congr rfl (fun u hu => Finset.sum_congr rfl (fun v hv => ?_))
  have hu := Finset.mem_range.1 hu
  have hv := Finset.mem_range.1 hv
  have i1 := superIndex_lt hY u hu
  have i2 := superIndex_lt hX v hv
  have e1 : 2 * b * (Y / 2) + Y % 2 + u * 2 = 2 * (b * (Y / 2) + u) + Y % 2 := by ring
  have e2 : 2 * b * (X / 2) + X % 2 + v * 2 = 2 * (b * (X / 2) + v) + X % 2 := by ring
  rw [e1, e2]
  exact h.2 _ _ i1 i2

/-- C93: Stokes maps. -/
theorem C93_stokes {n : Nat} {c : Fin n → K} {f : Fin n → Img K} {m : Img K} (h : m.IsMixOf c f) (hh : m.h % 2 = 0)
    (hw : m.w % 2 = 0) {L : Layout} {dic : AngleDic} (hL : L.Describes dic) :
    ∃ (S : Fin 3 → Img K) (T : Fin n → Fin 3 → Img K), dataStokes m dic = .ok S ∧ (∀ i, dataStokes (f i) dic = .ok (T i)) ∧
      ∀ p, (S p).IsMixOf c (fun i => T i p) := by
  obtain ⟨S, hS, sh, sp⟩ := C17_stokes m hh hw L dic hL
  choose T hT th tp using fun i => C17_stokes (f i) (by rw [(h.1 i).1]; exact hh) (by rw [(h.1 i).2]; exact hw) L dic hL
  refine ⟨S, T, hS, hT, fun p => ⟨fun i => ⟨by rw [(th i p).1, (sh p).1, (h.1 i).1], by rw [(th i p).2, (sh p).2, (h.1 i).2]⟩, ?_⟩⟩
  intro Y X hY hX
  rw [(sh p).1] at hY
  rw [(sh p).2] at hX
  have px : ∀ k : Fin 4, m.px (2 * Y + k.val / 2) (2 * X + k.val % 2) = ∑ i, c i * (f i).px (2 * Y + k.val / 2) (2 * X + k.val % 2) := by
    intro k
    have := k.isLt
    exact h.2 _ _ (by omega) (by omega)
  have tp' := fun i => tp i Y X (by rw [(h.1 i).1]; exact hY) (by rw [(h.1 i).2]; exact hX)
  fin_cases p
  · show (S 0).px Y X = ∑ i, c i * (T i 0).px Y X
    rw [(sp Y X hY hX).1]
    dsimp only
    simp only [fun i => (tp' i).1]
    rw [px, px, px, px, mix_add, mix_add, mix_add, mix_div]
  · show (S 1).px Y X = ∑ i, c i * (T i 1).px Y X
    rw [(sp Y X hY hX).2.1]
    dsimp only
    simp only [fun i => (tp' i).2.1]
    rw [px, px, mix_sub]
  · show (S 2).px Y X = ∑ i, c i * (T i 2).px Y X
    rw [(sp Y X hY hX).2.2]
    dsimp only
    simp only [fun i => (tp' i).2.2]
    rw [px, px, mix_sub]

/-- C93: 'mean' demosaicing. -/
theorem C93_demosaic_mean {n : Nat} {c : Fin n → K} {f : Fin n → Img K} {m : Img K} (h : m.IsMixOf c f) (hh : m.h % 2 = 0)
    (hw : m.w % 2 = 0) :
    ∃ (r : Fin 4 → Img K) (g : Fin n → Fin 4 → Img K), demosaic m "mean" = .ok r ∧ (∀ i, demosaic (f i) "mean" = .ok (g i)) ∧
      ∀ k, (r k).IsMixOf c (fun i => g i k) := by
  unfold demosaic
  rw [if_pos rfl]
  simp only [if_pos]
  refine ⟨_, _, demosaicmean_ok m hh hw, fun i => demosaicmean_ok (f i) (by rw [(h.1 i).1]; exact hh) (by rw [(h.1 i).2]; exact hw),
    fun k => ⟨fun i => ⟨(h.1 i).1, (h.1 i).2⟩, ?_⟩⟩
  intro y x (hy : y < m.h) (hx : x < m.w)
  have hk := k.isLt
  have e : ∀ i, (Img.ofFn (f i).h (f i).w (fun y x => (f i).px (2 * (y / 2) + k.val / 2) (2 * (x / 2) + k.val % 2) * (1 / 4))).px y x =
      (f i).px (2 * (y / 2) + k.val / 2) (2 * (x / 2) + k.val % 2) * (1 / 4) := fun i =>
    Img.ofFn_px (by rw [(h.1 i).1]; exact hy) (by rw [(h.1 i).2]; exact hx)
  simp only [e]
  rw [Img.ofFn_px hy hx, h.2 _ _ (by omega) (by omega), mul_comm, mix_mul]
  exact Finset.sum_congr rfl (fun i _ => by ring)

/-- C93: 'adjacent' demosaicing. -/
theorem C93_demosaic_adjacent [CharZero K] {n : Nat} {c : Fin n → K} {f : Fin n → Img K} {m : Img K} (h : m.IsMixOf c f)
    (hh : m.h % 2 = 0) (hw : m.w % 2 = 0) :
    ∃ (r : Fin 4 → Img K) (g : Fin n → Fin 4 → Img K), demosaic m "adjacent" = .ok r ∧
      (∀ i, demosaic (f i) "adjacent" = .ok (g i)) ∧ ∀ k, (r k).IsMixOf c (fun i => g i k) := by
  obtain ⟨r, hr, rp⟩ := C14_adjacent m _ (split_ok hh hw)
  choose g hg gp using fun i => C14_adjacent (f i) _ (split_ok (by rw [(h.1 i).1]; exact hh) (by rw [(h.1 i).2]; exact hw))
  refine ⟨r, g, hr, hg, fun k => ⟨fun i => ⟨by rw [(gp i k).1, (rp k).1, (h.1 i).1], by rw [(gp i k).2.1, (rp k).2.1, (h.1 i).2]⟩, ?_⟩⟩
  intro y x hy hx
  rw [(rp k).1] at hy
  rw [(rp k).2.1] at hx
  have hk := k.isLt
  have e1 := (rp k).2.2 (y / 2) (x / 2) (y % 2) (x % 2) (by omega) (by omega) (by omega) (by omega)
  have e2 := fun i => (gp i k).2.2 (y / 2) (x / 2) (y % 2) (x % 2) (by rw [(h.1 i).1]; omega) (by rw [(h.1 i).2]; omega) (by omega)
    (by omega)
  rw [Nat.div_add_mod, Nat.div_add_mod] at e1
  simp only [Nat.div_add_mod] at e2
  simp only [e2]
  rw [e1]
  unfold bilinear
  rw [← mix_div]
  congr 1
  simp only [← mix_sum]
  refine Finset.sum_congr rfl (fun a ha => Finset.sum_congr rfl (fun b hb => ?_))
  have ha := Finset.mem_range.1 ha
  have hb := Finset.mem_range.1 hb
  simp only [Img.ofFn_h, Img.ofFn_w]
  rw [Img.ofFn_px (by omega) (by omega), h.2 _ _ (by omega) (by omega)]
  refine Finset.sum_congr rfl (fun i _ => ?_)
  rw [(h.1 i).1, (h.1 i).2, Img.ofFn_px (by omega) (by omega)]

/-- C93: field-of-view correction. -/
theorem C93_ifov [LinearOrder K] [IsStrictOrderedRing K] {n : Nat} {c : Fin n → K} {f : Fin n → Img K} {m : Img K}
    (h : m.IsMixOf c f) (hh : m.h % 2 = 0) (hw : m.w % 2 = 0) :
    ∃ (r : Img K) (g : Fin n → Img K), correctIfovData m = .ok r ∧ (∀ i, correctIfovData (f i) = .ok (g i)) ∧ r.IsMixOf c g := by
  obtain ⟨r, hr, rs, rp⟩ := C37_ifov m hh hw
  choose g hg gs gp using fun i => C37_ifov (f i) (by rw [(h.1 i).1]; exact hh) (by rw [(h.1 i).2]; exact hw)
  refine ⟨r, g, hr, hg, fun i => ⟨by rw [(gs i).1, rs.1, (h.1 i).1], by rw [(gs i).2, rs.2, (h.1 i).2]⟩, ?_⟩
  intro y x hy hx
  rw [rs.1] at hy
  rw [rs.2] at hx
  have p1 := rp y x hy hx
  have p2 := fun i => gp i y x (by rw [(h.1 i).1]; exact hy) (by rw [(h.1 i).2]; exact hx)
  by_cases hc : 2 ≤ y ∧ 2 ≤ x
  · rw [p1.2 hc.1 hc.2]
    simp only [fun i => (p2 i).2 hc.1 hc.2]
    rw [h.2 _ _ hy hx, h.2 _ _ (by omega) hx, h.2 _ _ hy (by omega), h.2 _ _ (by omega) (by omega), mix_add, mix_add, mix_add, mix_div]
  · rw [p1.1 (by omega)]
    simp only [fun i => (p2 i).1 (by omega)]
    simp

/-- C93: demodulation (the earlier maps, kept where the fit failed, combined in the same way). -/
theorem C93_demodulate [DecidableEq K] {n : Nat} {c : Fin n → K} {f : Fin n → Img K} {m : Img K} (h : m.IsMixOf c f)
    (hh : m.h % 2 = 0) (hw : m.w % 2 = 0) {S0 : Fin 3 → Img K} {T0 : Fin n → Fin 3 → Img K}
    (h0 : ∀ p, (S0 p).IsMixOf c (fun i => T0 i p)) (hs0 : ∀ p, (S0 p).HasShape (m.h / 2) (m.w / 2))
    {D : Demodulator K} (hD : D.HasShape (m.h / 2) (m.w / 2)) {flags : Img K}
    (hf : D.fitFoundFlags = some flags) (hfs : flags.HasShape (m.h / 2) (m.w / 2)) :
    ∃ (S : Fin 3 → Img K) (T : Fin n → Fin 3 → Img K), demodulatePlain m S0 D = .ok S ∧
      (∀ i, demodulatePlain (f i) (T0 i) D = .ok (T i)) ∧ ∀ p, (S p).IsMixOf c (fun i => T i p) := by
  obtain ⟨S, hS, sp⟩ := C24_flags m _ (split_ok hh hw) S0 hs0 D hD flags hf hfs
  choose T hT tp using fun i => C24_flags (f i) _ (split_ok (by rw [(h.1 i).1]; exact hh) (by rw [(h.1 i).2]; exact hw)) (T0 i) (by
    intro p
    rw [(h.1 i).1, (h.1 i).2]
    exact ⟨((h0 p).1 i).1.trans (hs0 p).1, ((h0 p).1 i).2.trans (hs0 p).2⟩) D (by rw [(h.1 i).1, (h.1 i).2]; exact hD) flags hf
    (by rw [(h.1 i).1, (h.1 i).2]; exact hfs)
  refine ⟨S, T, hS, hT, fun p => ⟨fun i => ⟨by rw [(tp i p).1.1, (sp p).1.1, (h.1 i).1], by rw [(tp i p).1.2, (sp p).1.2, (h.1 i).2]⟩, ?_⟩⟩
  intro Y X hY hX
  rw [(sp p).1.1] at hY
  rw [(sp p).1.2] at hX
  have tp' := fun i => (tp i p).2 Y X (by rw [(h.1 i).1]; exact hY) (by rw [(h.1 i).2]; exact hX)
  rw [(sp p).2 Y X hY hX]
  simp only [tp']
  by_cases h1 : flags.px Y X = 1
  · simp only [if_pos h1]
    rw [← mix_sum]
    refine Finset.sum_congr rfl (fun k _ => ?_)
    have hk := k.isLt
    rw [← mix_mul, Img.ofFn_px hY hX, h.2 _ _ (by omega) (by omega)]
    congr 1
    refine Finset.sum_congr rfl (fun i _ => ?_)
    rw [Img.ofFn_px (by rw [(h.1 i).1]; exact hY) (by rw [(h.1 i).2]; exact hX)]
  · simp only [if_neg h1]
    exact (h0 p).2 Y X (by rw [(hs0 p).1]; exact hY) (by rw [(hs0 p).2]; exact hX)

/-- C93: demodulation with demosaicing. -/
theorem C93_demodulate_demosaicing [CharZero K] [DecidableEq K] {n : Nat} {c : Fin n → K} {f : Fin n → Img K} {m : Img K}
    (h : m.IsMixOf c f) (hh : m.h % 2 = 0) (hw : m.w % 2 = 0) {L : Layout} {dic : AngleDic} (hL : L.Describes dic)
    {D : Demodulator K} (hD : D.HasShape (m.h / 2) (m.w / 2)) {flags : Img K}
    (hf : D.fitFoundFlags = some flags) (hfs : flags.HasShape (m.h / 2) (m.w / 2)) :
    ∃ (S : Fin 3 → Img K) (T : Fin n → Fin 3 → Img K), demodulateDemosaicing m dic D = .ok S ∧
      (∀ i, demodulateDemosaicing (f i) dic D = .ok (T i)) ∧ ∀ p, (S p).IsMixOf c (fun i => T i p) := by
  obtain ⟨r, g, er, eg, mix⟩ := C93_demosaic_adjacent h hh hw
  obtain ⟨r', U, S, er', hU, hS, sp⟩ := C26_demosaicing m hh hw dic L hL D hD flags hf hfs
  rw [er] at er'
  injection er' with er'
  subst er'
  choose g' V T eg' hV hT tp using fun i => C26_demosaicing (f i) (by rw [(h.1 i).1]; exact hh) (by rw [(h.1 i).2]; exact hw) dic L hL D
    (by rw [(h.1 i).1, (h.1 i).2]; exact hD) flags hf (by rw [(h.1 i).1, (h.1 i).2]; exact hfs)
  have eg2 : g' = g := by
    funext i
    have e := eg i
    rw [eg' i] at e
    injection e
  subst eg2
  have rs : ∀ k, (r k).h = m.h ∧ (r k).w = m.w := by
    obtain ⟨r', e, h'⟩ := demosaic_adjacent_ok m hh hw
    rw [er] at e
    injection e with e
    subst e
    exact fun k => ⟨(h' k).1, (h' k).2.1⟩
  refine ⟨S, T, hS, hT, fun p => ⟨fun i => ⟨by rw [(tp i p).1.1, (sp p).1.1, (h.1 i).1], by rw [(tp i p).1.2, (sp p).1.2, (h.1 i).2]⟩, ?_⟩⟩
  intro y x hy hx
  rw [(sp p).1.1] at hy
  rw [(sp p).1.2] at hx
  have px : ∀ k, (r k).px y x = ∑ i, c i * (g' i k).px y x := fun k =>
    (mix k).2 y x (by rw [(rs k).1]; exact hy) (by rw [(rs k).2]; exact hx)
  have tp' := fun i => (tp i p).2 y x (by rw [(h.1 i).1]; exact hy) (by rw [(h.1 i).2]; exact hx)
  rw [(sp p).2 y x hy hx]
  simp only [tp']
  by_cases h1 : flags.px (y / 2) (x / 2) = 1
  · simp only [if_pos h1]
    rw [← mix_sum]
    refine Finset.sum_congr rfl (fun k _ => ?_)
    rw [← mix_mul, px]
  · simp only [if_neg h1]
    have u := hU.2 y x (by rw [(rs 0).1]; exact hy) (by rw [(rs 0).2]; exact hx)
    have v := fun i => (hV i).2 y x (by rw [((mix 0).1 i).1, (rs 0).1]; exact hy) (by rw [((mix 0).1 i).2, (rs 0).2]; exact hx)
    fin_cases p
    · show (U 0).px y x = ∑ i, c i * (V i 0).px y x
      simp only [fun i => (v i).1]
      rw [u.1, ← mix_div, ← mix_sum]
      congr 1
      exact Finset.sum_congr rfl (fun k _ => px k)
    · show (U 1).px y x = ∑ i, c i * (V i 1).px y x
      simp only [fun i => (v i).2.1]
      rw [u.2.1, px, px, mix_sub]
    · show (U 2).px y x = ∑ i, c i * (V i 2).px y x
      simp only [fun i => (v i).2.2]
      rw [u.2.2, px, px, mix_sub]

/-- C93: flat field correction with one flat (at pixels where the flat is not zero; what stands there otherwise is left by numpy). -/
theorem C93_flat [LinearOrder K] [IsStrictOrderedRing K] {n : Nat} {c : Fin n → K} {f : Fin n → Img K} {m F : Img K}
    (h : m.IsMixOf c f) (junk : Nat → Nat → K) (hs : m.SameShape F) (hh : m.h ≠ 0) (hw : m.w ≠ 0) (hm : F.mean ≠ 0)
    (hF : ∀ y x, y < F.h → x < F.w → F.px y x ≠ 0) :
    ∃ (r : Img K) (g : Fin n → Img K), correctFlatData junk m F = .ok r ∧ (∀ i, correctFlatData junk (f i) F = .ok (g i)) ∧
      r.IsMixOf c g := by
  refine ⟨_, _, correctFlat_ok junk m F hs hh hw hm, fun i => correctFlat_ok junk (f i) F ⟨(h.1 i).1.trans hs.1, (h.1 i).2.trans hs.2⟩
    (by rw [(h.1 i).1]; exact hh) (by rw [(h.1 i).2]; exact hw) hm, fun i => ⟨(h.1 i).1, (h.1 i).2⟩, ?_⟩
  intro y x (hy : y < m.h) (hx : x < m.w)
  have hn : F.px y x / F.mean ≠ 0 := div_ne_zero (hF y x (by rw [← hs.1]; exact hy) (by rw [← hs.2]; exact hx)) hm
  have e : ∀ i, (Img.ofFn (f i).h (f i).w (fun y x => if F.px y x / F.mean ≠ 0 then (f i).px y x / (F.px y x / F.mean) else junk y x)).px y x
      = (f i).px y x / (F.px y x / F.mean) := fun i =>
    (Img.ofFn_px (by rw [(h.1 i).1]; exact hy) (by rw [(h.1 i).2]; exact hx)).trans (if_pos hn)
  simp only [e]
  rw [← mix_div, ← h.2 y x hy hx]
  exact (Img.ofFn_px hy hx).trans (if_pos hn)

/-- C93: the correction of Chen, Wang and Liang, which subtracts an offset: averages (weights of sum 1) go through. -/
theorem C93_chen [LinearOrder K] [IsStrictOrderedRing K] {n : Nat} {c : Fin n → K} (hc : ∑ i, c i = 1) {f : Fin n → Img K} {m : Img K}
    (h : m.IsMixOf c f) (hh : m.h % 2 = 0) (hw : m.w % 2 = 0)
    {C : Fin 4 → Fin 4 → Img K} {d : Img K} (hC : ∀ i j, (C i j).SameShape m) (hd : m.SameShape d) :
    ∃ (r : Img K) (g : Fin n → Img K), chenWanLiang C d m = .ok r ∧ (∀ i, chenWanLiang C d (f i) = .ok (g i)) ∧ r.IsMixOf c g := by
  obtain ⟨a, as, ea, ap⟩ := C69_apply C d m hh hw hC hd
  choose b bs eb bp using fun i => C69_apply C d (f i) (by rw [(h.1 i).1]; exact hh) (by rw [(h.1 i).2]; exact hw)
    (fun p q => ⟨(hC p q).1.trans (h.1 i).1.symm, (hC p q).2.trans (h.1 i).2.symm⟩) ⟨(h.1 i).1.trans hd.1, (h.1 i).2.trans hd.2⟩
  have hab : a.IsMixOf c b := by
    refine ⟨fun i => ⟨by rw [(bs i).1, as.1, (h.1 i).1], by rw [(bs i).2, as.2, (h.1 i).2]⟩, ?_⟩
    intro y x hy hx
    rw [as.1] at hy
    rw [as.2] at hx
    have e1 := ap (y / 2) (x / 2) (famIdx y x) (by omega) (by omega)
    have e2 := fun i => bp i (y / 2) (x / 2) (famIdx y x) (by rw [(h.1 i).1]; omega) (by rw [(h.1 i).2]; omega)
    unfold Img.superpixel at e1 e2
    rw [famIdx_val_div, famIdx_val_mod, Nat.div_add_mod, Nat.div_add_mod] at e1
    simp only [famIdx_val_div, famIdx_val_mod, Nat.div_add_mod] at e2
    simp only [e2]
    rw [e1, ← mix_sum]
    refine Finset.sum_congr rfl (fun k _ => ?_)
    have hk := k.isLt
    rw [← mix_mul, ← mix_sub, ← h.2 _ _ (by omega) (by omega), ← Finset.sum_mul, hc, one_mul]
  obtain ⟨r, g, hr, hg, mix⟩ := C93_ifov hab (by rw [as.1]; exact hh) (by rw [as.2]; exact hw)
  exact ⟨r, g, ea.trans hr, fun i => (eb i).trans (hg i), mix⟩

/-- C93: shifting, the uncovered pixels being filled with zero. -/
theorem C93_shift {n : Nat} {c : Fin n → K} {f : Fin n → Img K} {m : Img K} (h : m.IsMixOf c f) (y x : Int) :
    ∃ (r : Img K) (g : Fin n → Img K), shiftKernel m y x 0 = .ok r ∧ (∀ i, shiftKernel (f i) y x 0 = .ok (g i)) ∧ r.IsMixOf c g := by
  obtain ⟨r, hr, r1, r2, r3, r4⟩ := C03_shift m y x 0
  choose g hg g1 g2 g3 g4 using fun i => C03_shift (f i) y x 0
  refine ⟨r, g, hr, hg, fun i => ⟨by rw [g1, r1, (h.1 i).1], by rw [g2, r2, (h.1 i).2]⟩, ?_⟩
  intro j i hj hi
  rw [r1] at hj
  rw [r2] at hi
  by_cases hc : ∃ j' i' : Nat, j' < m.h ∧ i' < m.w ∧ (j : Int) = j' + y ∧ (i : Int) = i' + x
  · obtain ⟨j', i', hj', hi', e1, e2⟩ := hc
    rw [r3 j i j' i' hj hi hj' hi' e1 e2, h.2 j' i' hj' hi']
    refine Finset.sum_congr rfl (fun q _ => ?_)
    rw [g3 q j i j' i' (by rw [(h.1 q).1]; exact hj) (by rw [(h.1 q).2]; exact hi) (by rw [(h.1 q).1]; exact hj')
      (by rw [(h.1 q).2]; exact hi') e1 e2]
  · rw [r4 j i hj hi hc]
    symm
    refine Finset.sum_eq_zero (fun q _ => ?_)
    rw [g4 q j i (by rw [(h.1 q).1]; exact hj) (by rw [(h.1 q).2]; exact hi) (by rw [(h.1 q).1, (h.1 q).2]; exact hc), mul_zero]

/-- C93: dark subtraction of an average (non-negative weights of sum 1): a pixel of the result is at most the average of the results.
Where no frame is below the dark they are equal. -/
theorem C93_dark_partial [LinearOrder K] [IsStrictOrderedRing K] {n : Nat} {c : Fin n → K} (hc : ∑ i, c i = 1) (hc0 : ∀ i, 0 ≤ c i)
    {f : Fin n → Img K} {m : Img K} (h : m.IsMixOf c f) {d : Img K} (hd : m.SameShape d) :
    ∃ (r : Img K) (g : Fin n → Img K), subtractDarkData m d = .ok r ∧ (∀ i, subtractDarkData (f i) d = .ok (g i)) ∧
      r.SameShape m ∧ (∀ i, (g i).SameShape m) ∧ ∀ y x, y < m.h → x < m.w →
        r.px y x ≤ ∑ i, c i * (g i).px y x ∧
        ((∀ i, d.px y x ≤ (f i).px y x) → r.px y x = ∑ i, c i * (g i).px y x) := by
  obtain ⟨r, hr, rs, rp⟩ := C35_dark m d hd
  choose g hg gs gp using fun i => C35_dark (f i) d ⟨(h.1 i).1.trans hd.1, (h.1 i).2.trans hd.2⟩
  refine ⟨r, g, hr, hg, rs, fun i => ⟨(gs i).1.trans (h.1 i).1, (gs i).2.trans (h.1 i).2⟩, ?_⟩
  intro y x hy hx
  have gp' := fun i => gp i y x (by rw [(h.1 i).1]; exact hy) (by rw [(h.1 i).2]; exact hx)
  have e : m.px y x - d.px y x = ∑ i, c i * ((f i).px y x - d.px y x) := by
    rw [← mix_sub, ← h.2 y x hy hx, ← Finset.sum_mul, hc, one_mul]
  rw [rp y x hy hx, e]
  simp only [gp']
  constructor
  · refine max_le (Finset.sum_le_sum (fun i _ => mul_le_mul_of_nonneg_left (le_max_left _ _) (hc0 i))) ?_
    exact Finset.sum_nonneg (fun i _ => mul_nonneg (hc0 i) (le_max_right _ _))
  · intro hle
    rw [max_eq_left (Finset.sum_nonneg (fun i _ => mul_nonneg (hc0 i) (sub_nonneg.2 (hle i))))]
    exact Finset.sum_congr rfl (fun i _ => by rw [max_eq_left (sub_nonneg.2 (hle i))])

end

/-- Two frames of 0 and 4 counts and their average. -/
example : (Img.const 2 2 (2 : ℚ)).IsMixOf ![1/2, 1/2] ![Img.const 2 2 0, Img.const 2 2 4] := by
  refine ⟨fun i => by fin_cases i <;> exact ⟨rfl, rfl⟩, ?_⟩
  intro y x hy hx
  have e : ∀ c : ℚ, (Img.const 2 2 c).px y x = c := fun c => Img.ofFn_px hy hx
  rw [Fin.sum_univ_two]
  show (Img.const 2 2 (2 : ℚ)).px y x = 1 / 2 * (Img.const 2 2 (0 : ℚ)).px y x + 1 / 2 * (Img.const 2 2 (4 : ℚ)).px y x
  rw [e, e, e]
  norm_num

/-- C93: dark subtraction does not commute with averaging: the average of 0 and 4 counts minus 2 is 0, but the frames minus 2 average
to 1. -/
theorem C93_full_claim_false : ¬ ∀ (f : Fin 2 → Img ℚ) (m d r : Img ℚ) (g : Fin 2 → Img ℚ), m.IsMixOf ![1/2, 1/2] f → m.SameShape d →
    subtractDarkData m d = .ok r → (∀ i, subtractDarkData (f i) d = .ok (g i)) → r.IsMixOf ![1/2, 1/2] g := by
  intro hall
  have e : ∀ c : ℚ, (Img.const 2 2 c).px 0 0 = c := fun c => Img.ofFn_px (by decide) (by decide)
  have hm : (Img.const 2 2 (2 : ℚ)).IsMixOf ![1/2, 1/2] ![Img.const 2 2 0, Img.const 2 2 4] := by
    refine ⟨fun i => by fin_cases i <;> exact ⟨rfl, rfl⟩, ?_⟩
    intro y x hy hx
    have e : ∀ c : ℚ, (Img.const 2 2 c).px y x = c := fun c => Img.ofFn_px hy hx
    rw [Fin.sum_univ_two]
    show (Img.const 2 2 (2 : ℚ)).px y x = 1 / 2 * (Img.const 2 2 (0 : ℚ)).px y x + 1 / 2 * (Img.const 2 2 (4 : ℚ)).px y x
    rw [e, e, e]
    norm_num
  obtain ⟨r, hr, rs, rp⟩ := C35_dark (Img.const 2 2 (2 : ℚ)) (Img.const 2 2 2) ⟨rfl, rfl⟩
  obtain ⟨g0, h0, s0, p0⟩ := C35_dark (Img.const 2 2 (0 : ℚ)) (Img.const 2 2 2) ⟨rfl, rfl⟩
  obtain ⟨g1, h1, s1, p1⟩ := C35_dark (Img.const 2 2 (4 : ℚ)) (Img.const 2 2 2) ⟨rfl, rfl⟩
  have hmix := hall _ _ (Img.const 2 2 2) r ![g0, g1] hm ⟨rfl, rfl⟩ hr (fun i => by fin_cases i; exacts [h0, h1])
  have q := hmix.2 0 0 (by rw [rs.1]; decide) (by rw [rs.2]; decide)
  rw [Fin.sum_univ_two] at q
  have q' : r.px 0 0 = 1 / 2 * g0.px 0 0 + 1 / 2 * g1.px 0 0 := q
  rw [rp 0 0 (by decide) (by decide), p0 0 0 (by decide) (by decide), p1 0 0 (by decide) (by decide), e, e, e] at q'
  norm_num at q'

end Micropol
