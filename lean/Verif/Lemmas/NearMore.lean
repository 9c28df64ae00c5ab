import Verif.Lemmas.NearView
import Verif.Lemmas.Counts
import Mathlib.Tactic.FieldSimp
import Mathlib.Tactic.Positivity

/-! # Rotation, masks and quotients of arrays that differ a little -/

set_option autoImplicit false
set_option linter.unusedSectionVars false

namespace Micropol

noncomputable section

section
variable {ε δ : ℝ} {A B : Img ℝ}

theorem nr_mapFour {f g : Img ℝ → Py (Img ℝ)} (hf : ∀ A B, Nr ε A B → PyRel (Nr δ) (f A) (g B)) {s t : Fin 4 → Img ℝ}
    (hs : Nr4 ε s t) : PyRel (Nr4 δ) (mapFour f s) (mapFour g t) :=
  PyRel.bind (hf _ _ (hs 0)) fun _ _ h0 => PyRel.bind (hf _ _ (hs 1)) fun _ _ h1 => PyRel.bind (hf _ _ (hs 2)) fun _ _ h2 =>
  PyRel.bind (hf _ _ (hs 3)) fun _ _ h3 => Nr4.mk h0 h1 h2 h3

theorem Nr.assignPlane (h w : Nat) (hA : Nr ε A B) : PyRel (Nr ε) (assignPlane h w A) (assignPlane h w B) := by
  unfold Micropol.assignPlane
  rw [hA.h, hA.w]
  split
  · exact Nr.ofFn hA.pos fun y x _ _ => hA.px _ _
  · rfl

theorem nr_rotate {rot : Img ℝ → Py (Img ℝ)} (hrot : ∀ A B, Nr ε A B → PyRel (Nr δ) (rot A) (rot B)) (hA : Nr ε A B) :
    PyRel (Nr δ) (rotateData rot A) (rotateData rot B) := by
  refine PyRel.bind hA.split fun _ _ hs => PyRel.bind (nr_mapFour (fun A B hA => ?_) hs) fun _ _ ht => ht.merge
  rw [hA.h, hA.w]
  exact PyRel.bind (hrot _ _ hA) fun _ _ h => h.assignPlane _ _

theorem nr_roi (hA : Nr ε A B) (ctr rho : Option (ℝ × ℝ)) (theta : ℝ × ℝ) (fill : ℝ) (b : Bool) :
    PyRel (Nr ε) (roiFromPolar A ctr rho theta fill b) (roiFromPolar B ctr rho theta fill b) := by
  have hm : roiMask B ctr rho theta b = roiMask A ctr rho theta b := by
    unfold roiMask
    rw [hA.h, hA.w]
  unfold roiFromPolar
  rw [hm]
  exact PyRel.binds fun _ => nr_npWhere _ hA (Nr.refl hA.pos _)

theorem nr_occulter (hA : Nr ε A B) (y x r fill : ℝ) (b : Bool) :
    PyRel (Nr ε) (occulterRoi A y x r fill b) (occulterRoi B y x r fill b) := by
  unfold occulterRoi
  rw [hA.h, hA.w]
  exact nr_roi hA _ _ _ _ b

theorem nr_mean (hA : Nr ε A B) (hh : A.h ≠ 0) (hw : A.w ≠ 0) : |A.mean - B.mean| ≤ ε := by
  unfold Img.mean Img.total Img.totalOn
  rw [hA.h, hA.w, ← sub_div, abs_div]
  have hn : (0 : ℝ) < ((A.h * A.w : Nat) : ℝ) := by
    have : 0 < A.h * A.w := Nat.mul_pos (Nat.pos_of_ne_zero hh) (Nat.pos_of_ne_zero hw)
    exact_mod_cast this
  rw [abs_of_pos hn, div_le_iff₀ hn]
  refine (abs_sum_sub_le _ _ _ ((A.w : ℝ) * ε) fun y _ => ?_).trans ?_
  · refine (abs_sum_sub_le _ _ _ ε fun x _ => hA.px y x).trans ?_
    rw [Finset.card_range]
  · rw [Finset.card_range]
    push_cast
    exact le_of_eq (by ring)

/-- Dividing by a divisor known up to the relative error `ρ`. -/
theorem quotient_within {a a' c c' ε M G ρ : ℝ} (hρ : ρ < 1) (h0 : 0 ≤ ρ) (hG : 0 ≤ G) (ha : |a - a'| ≤ ε) (hM : |a| ≤ M)
    (hc0 : c ≠ 0) (hg : 1 ≤ G * |c|) (hc : |c - c'| ≤ ρ * |c|) : c' ≠ 0 ∧ |a / c - a' / c'| ≤ G * (ε + M * ρ) / (1 - ρ) := by
  have hp : 0 < |c| := abs_pos.2 hc0
  have hlow : (1 - ρ) * |c| ≤ |c'| := by
    have := abs_sub_abs_le_abs_sub c c'
    linarith
  have h1 : 0 < 1 - ρ := by linarith
  have hp' : 0 < |c'| := lt_of_lt_of_le (mul_pos h1 hp) hlow
  have hc0' : c' ≠ 0 := abs_pos.1 hp'
  refine ⟨hc0', ?_⟩
  have e : a / c - a' / c' = ((a - a') + a * ((c' - c) / c)) / c' := by field_simp; ring
  have hm : 0 ≤ M := (abs_nonneg _).trans hM
  have hε : 0 ≤ ε := (abs_nonneg _).trans ha
  rw [e, abs_div, div_le_div_iff₀ hp' h1]
  have n1 : |(a - a') + a * ((c' - c) / c)| ≤ ε + M * ρ := by
    refine (abs_add_le _ _).trans (add_le_add ha ?_)
    rw [abs_mul, abs_div]
    refine mul_le_mul hM ?_ (by positivity) hm
    rw [div_le_iff₀ hp, abs_sub_comm]
    exact hc
  have n2 : 1 - ρ ≤ G * |c'| := by
    calc 1 - ρ ≤ (1 - ρ) * (G * |c|) := le_mul_of_one_le_right h1.le hg
      _ = G * ((1 - ρ) * |c|) := by ring
      _ ≤ G * |c'| := mul_le_mul_of_nonneg_left hlow hG
  calc |(a - a') + a * ((c' - c) / c)| * (1 - ρ) ≤ (ε + M * ρ) * (G * |c'|) :=
        mul_le_mul n1 n2 h1.le (by positivity)
    _ = G * (ε + M * ρ) * |c'| := by ring

/-- Quotients of images. -/
theorem nr_quotient {C D : Img ℝ} {η G ρ M : ℝ} (hA : Nr ε A B) (hC : Nr η C D) (hρ : ρ < 1) (h0 : 0 ≤ ρ) (hG : 0 ≤ G)
    (hM : ∀ y x, y < A.h → x < A.w → |A.px y x| ≤ M) (hM0 : 0 ≤ M)
    (hpx : ∀ y x, y < C.h → x < C.w → C.px y x ≠ 0 ∧ 1 ≤ G * |C.px y x| ∧ η ≤ ρ * |C.px y x|) (junk junk' : Nat → Nat → ℝ) :
    PyRel (Nr (G * (ε + M * ρ) / (1 - ρ))) (arithData .div junk A (.image C)) (arithData .div junk' B (.image D)) := by
  have h1 : 0 < 1 - ρ := by linarith
  have hε := hA.pos
  unfold arithData divData
  refine nr_npBinBoth (by positivity) (fun y x i j i' j' hi hj hi' hj' => ?_) hA.h hA.w hC.h hC.w
  obtain ⟨g0, g1, g2⟩ := hpx i' j' hi' hj'
  obtain ⟨q0, q1⟩ := quotient_within hρ h0 hG (hA.px i j) (hM i j hi hj) g0 g1 ((hC.px i' j').trans g2)
  rw [if_pos g0, if_pos q0]
  exact q1

/-- Flat fields known up to the relative error `ρ`. -/
theorem flat_within {a a' c c' m m' ε η M G ρ : ℝ} (hρ : ρ < 1) (h0 : 0 ≤ ρ) (hG : 0 ≤ G) (ha : |a - a'| ≤ ε) (hM : |a| ≤ M)
    (hc0 : c ≠ 0) (hg : |m| ≤ G * |c|) (hc : |c - c'| ≤ η) (hm : |m - m'| ≤ η) (hη : η ≤ ρ * |c|) (hm0 : m ≠ 0) (hm0' : m' ≠ 0) :
    c / m ≠ 0 ∧ c' / m' ≠ 0 ∧ |a / (c / m) - a' / (c' / m')| ≤ ((G + ρ) * ε + M * (ρ * (G + 1))) / (1 - ρ) := by
  have hp : 0 < |c| := abs_pos.2 hc0
  have hlow : (1 - ρ) * |c| ≤ |c'| := by
    have := abs_sub_abs_le_abs_sub c c'
    linarith
  have h1 : 0 < 1 - ρ := by linarith
  have hp' : 0 < |c'| := lt_of_lt_of_le (mul_pos h1 hp) hlow
  have hc0' : c' ≠ 0 := abs_pos.1 hp'
  refine ⟨div_ne_zero hc0 hm0, div_ne_zero hc0' hm0', ?_⟩
  have hM0 : 0 ≤ M := (abs_nonneg _).trans hM
  have hε : 0 ≤ ε := (abs_nonneg _).trans ha
  have e : a / (c / m) - a' / (c' / m') = ((a - a') * m' + a * ((m * (c' - c) + c * (m - m')) / c)) / c' := by
    field_simp
    ring
  rw [e, abs_div, div_le_div_iff₀ hp' h1]
  have b1 : |m'| ≤ (G + ρ) * |c| := by
    have := abs_sub_abs_le_abs_sub m' m
    rw [abs_sub_comm] at this
    linarith
  have b2 : |(m * (c' - c) + c * (m - m')) / c| ≤ ρ * (G + 1) * |c| := by
    rw [abs_div, div_le_iff₀ hp]
    refine (abs_add_le _ _).trans ?_
    rw [abs_mul, abs_mul, abs_sub_comm c' c]
    have k1 : |m| * |c - c'| ≤ G * |c| * (ρ * |c|) := mul_le_mul hg (hc.trans hη) (abs_nonneg _) (by positivity)
    have k2 : |c| * |m - m'| ≤ |c| * (ρ * |c|) := mul_le_mul_of_nonneg_left (hm.trans hη) hp.le
    linarith
  have n1 : |(a - a') * m' + a * ((m * (c' - c) + c * (m - m')) / c)| ≤ ((G + ρ) * ε + M * (ρ * (G + 1))) * |c| := by
    refine (abs_add_le _ _).trans ?_
    rw [abs_mul, abs_mul]
    have k1 : |a - a'| * |m'| ≤ ε * ((G + ρ) * |c|) := mul_le_mul ha b1 (abs_nonneg _) hε
    have k2 := mul_le_mul hM b2 (abs_nonneg _) hM0
    linarith
  have hs : 0 ≤ (G + ρ) * ε + M * (ρ * (G + 1)) := by positivity
  calc _ ≤ ((G + ρ) * ε + M * (ρ * (G + 1))) * |c| * (1 - ρ) := mul_le_mul_of_nonneg_right n1 h1.le
    _ = ((G + ρ) * ε + M * (ρ * (G + 1))) * ((1 - ρ) * |c|) := by ring
    _ ≤ _ := mul_le_mul_of_nonneg_left hlow hs

theorem nr_flatError {F F' : Img ℝ} {η G ρ M : ℝ} (hA : Nr ε A B) (hF : Nr η F F') (hρ : ρ < 1) (h0 : 0 ≤ ρ) (hG : 0 ≤ G)
    (hM : ∀ y x, y < A.h → x < A.w → |A.px y x| ≤ M) (hM0 : 0 ≤ M) (hm : η = 0 ∨ η < |F.mean|)
    (hpx : ∀ y x, y < F.h → x < F.w → F.px y x ≠ 0 ∧ |F.mean| ≤ G * |F.px y x| ∧ η ≤ ρ * |F.px y x|) (junk junk' : Nat → Nat → ℝ) :
    PyRel (Nr (((G + ρ) * ε + M * (ρ * (G + 1))) / (1 - ρ))) (correctFlatData junk A F) (correctFlatData junk' B F') := by
  have h1 : 0 < 1 - ρ := by linarith
  have hε := hA.pos
  by_cases he : F.h = 0 ∨ F.w = 0
  · unfold correctFlatData npMean
    rw [hF.h, hF.w, if_pos he, if_pos he]
    rfl
  · have hh : F.h ≠ 0 := fun h => he (.inl h)
    have hw : F.w ≠ 0 := fun h => he (.inr h)
    have hmean := nr_mean hF hh hw
    have iff : F.mean = 0 ↔ F'.mean = 0 := by
      rcases hm with rfl | hlt
      · rw [sub_eq_zero.1 (abs_eq_zero.1 (le_antisymm hmean (abs_nonneg _)))]
      · constructor
        · intro h
          rw [h, abs_zero] at hlt
          exact absurd hlt (not_lt.2 hF.pos)
        · intro h
          rw [h, sub_zero] at hmean
          exact absurd hlt (not_lt.2 hmean)
    unfold correctFlatData
    rw [npMean_ok F hh hw, npMean_ok F' (by rw [hF.h]; exact hh) (by rw [hF.w]; exact hw), Py.ok_bind, Py.ok_bind]
    by_cases hz : F.mean = 0
    · rw [if_pos hz, if_pos (iff.1 hz)]
      rfl
    · have hz' : F'.mean ≠ 0 := fun h => hz (iff.2 h)
      rw [if_neg hz, if_neg hz']
      refine nr_npBinBoth (by positivity) (fun y x i j i' j' hi hj hi' hj' => ?_) hA.h hA.w hF.h hF.w
      have hi2 : i' < F.h := hi'
      have hj2 : j' < F.w := hj'
      rw [Img.map_px _ _ hi2 hj2, Img.map_px _ _ (by rw [hF.h]; exact hi2) (by rw [hF.w]; exact hj2)]
      obtain ⟨g0, g1, g2⟩ := hpx i' j' hi2 hj2
      obtain ⟨q0, q1, q2⟩ := flat_within hρ h0 hG (hA.px i j) (hM i j hi hj) g0 g1 (hF.px i' j') hmean g2 hz hz'
      rw [if_pos q0, if_pos q1]
      exact q2

end

/-! ## Images -/

variable {e f δ φ : ℝ} {v w : ImgView}

/-- Stokes vectors with bounds for the three planes. -/
def Sv (b : Fin 3 → ℝ) (S T : StokesVec) : Prop := T.isList = S.isList ∧ ∀ j, Nr (b j) (S.planes j) (T.planes j)

theorem sv_plane {F : Img ℝ → Py (Img ℝ)} {m m' : ℝ} (hF : ∀ A B, Nr m A B → PyRel (Nr m') (F A) (F B)) {b : Fin 3 → ℝ} (k : Fin 3)
    (hk : b k = m) {S T : StokesVec} (h : Sv b S T) : PyRel (Sv (Function.update b k m')) (rewritePlaneV F k S) (rewritePlaneV F k T) := by
  refine PyRel.bind (hF _ _ (hk ▸ h.2 k)) fun A B hAB => ?_
  unfold setPlaneV
  rw [h.1, (h.2 k).h, (h.2 k).w]
  refine PyRel.bind (R := Nr m') ?_ fun C D hCD => ⟨rfl, fun j => ?_⟩
  · split
    · exact hAB
    · exact hAB.assignPlane _ _
  · dsimp only
    by_cases hj : j = k
    · subst hj
      rw [if_pos rfl, if_pos rfl, Function.update_self]
      exact hCD
    · rw [if_neg hj, if_neg hj, Function.update_of_ne hj]
      exact h.2 j

theorem vc_rewrite (h : Vc e f v w) {F : Img ℝ → Py (Img ℝ)} (hf : f ≤ φ) (hF : ∀ A B, Nr f A B → PyRel (Nr φ) (F A) (F B)) :
    Rc (Vc e φ) (Vc e φ) (rewriteStokesV F v) (rewriteStokesV F w) := by
  have done : ∀ {b : Fin 3 → ℝ} {S T : StokesVec}, (∀ j, b j ≤ φ) → Sv b S T → Vc e φ { v with stokes := S } { w with stokes := T } :=
    fun hb hS => { h with isList := hS.1, maps := fun j => (hS.2 j).mono (hb j) }
  have b0 : Sv (fun _ => f) v.stokes w.stokes := ⟨h.isList, h.maps⟩
  have up : ∀ (b : Fin 3 → ℝ) (k : Fin 3), (∀ j, b j ≤ φ) → ∀ j, Function.update b k φ j ≤ φ := by
    intro b k hb j
    by_cases hj : j = k
    · subst hj; rw [Function.update_self]
    · rw [Function.update_of_ne hj]; exact hb j
  unfold rewriteStokesV rewriteV
  have r0 := sv_plane hF 0 rfl b0
  generalize rewritePlaneV F 0 v.stokes = x0 at r0
  generalize rewritePlaneV F 0 w.stokes = y0 at r0
  cases x0 <;> cases y0
  · cases r0
    exact Rc.err (done (fun _ => hf) b0) _
  · exact r0.elim
  · exact r0.elim
  rename_i s0 t0
  dsimp only
  have r1 := sv_plane hF 1 rfl r0
  generalize rewritePlaneV F 1 s0 = x1 at r1
  generalize rewritePlaneV F 1 t0 = y1 at r1
  cases x1 <;> cases y1
  · cases r1
    exact Rc.err (done (up _ _ fun _ => hf) r0) _
  · exact r1.elim
  · exact r1.elim
  rename_i s1 t1
  dsimp only
  have r2 := sv_plane hF 2 rfl r1
  generalize rewritePlaneV F 2 s1 = x2 at r2
  generalize rewritePlaneV F 2 t1 = y2 at r2
  cases x2 <;> cases y2
  · cases r2
    exact Rc.err (done (up _ _ (up _ _ fun _ => hf)) r1) _
  · exact r2.elim
  · exact r2.elim
  exact Rc.ok (done (up _ _ (up _ _ (up _ _ fun _ => hf))) r2)

theorem vc_maskDemosaiced (h : Vc e f v w) (y x r fill : ℝ) :
    Rc (Vc e f) (Vc e f) (maskDemosaicedV y x r fill v) (maskDemosaicedV y x r fill w) := by
  obtain ⟨d, st, dc, dd, dm, ds, fs, dem⟩ := v
  obtain ⟨d', st', dc', dd', dm', ds', fs', dem'⟩ := w
  have h1 := h.dm
  have h2 := h.dem
  have h3 := h.data
  dsimp only at h1 h2 h3
  subst h1
  unfold maskDemosaicedV
  dsimp only
  rw [h3.h, h3.w]
  cases dm'
  · exact Rc.ok h
  · cases dem <;> cases dem'
    · exact Rc.err h _
    · exact h2.elim
    · exact h2.elim
    · exact Rc.withVal (nr_mapFour (fun A B hA => nr_roi hA _ _ _ _ _) h2) h fun s t hst => Rc.ok { h with dem := hst }

theorem vc_mask (h : Vc e f v w) (y x r over fill : ℝ) :
    Rc (Vc e f) (Vc e f) (maskOcculterV y x r over fill v) (maskOcculterV y x r over fill w) := by
  refine Rc.withVal (nr_occulter h.data _ _ _ _ _) h fun d d' hd => Rc.andThen (R := Vc e f) ?_ fun a b hab => ?_
  · have hq := h.withData le_rfl hd
    exact vc_maskDemosaiced hq y x (r + over) fill
  · rw [hab.dm]
    split
    · exact vc_rewrite hab le_rfl fun A B hA => nr_occulter hA _ _ _ _ _
    · exact vc_rewrite hab le_rfl fun A B hA => nr_occulter hA _ _ _ _ _

theorem vc_rotate (h : Vc e f v w) {rot : Img ℝ → Py (Img ℝ)} (he : e ≤ δ) (hf : f ≤ φ)
    (hrot : ∀ A B, Nr e A B → PyRel (Nr δ) (rot A) (rot B)) (hrot' : ∀ A B, Nr f A B → PyRel (Nr φ) (rot A) (rot B)) :
    Rc (Vc δ φ) (Vc δ φ) (rotateV rot v) (rotateV rot w) := by
  refine Rc.withVal (nr_rotate hrot h.data) (h.mono he hf) fun d d' hd => ?_
  refine Rc.andThen (R := Vc e φ) ((vc_rewrite h hf hrot').weaken (fun _ _ hh => hh.mono he le_rfl) fun _ _ h => h) fun a b hab => ?_
  exact Rc.ok (hab.withData he hd)

theorem vc_flatError (h : Vc e f v w) {F F' : Img ℝ} {η G ρ M : ℝ} (hF : Nr η F F') (hρ : ρ < 1) (h0 : 0 ≤ ρ) (hG : 0 ≤ G)
    (hM : ∀ y x, y < v.data.h → x < v.data.w → |v.data.px y x| ≤ M) (hM0 : 0 ≤ M) (hm : η = 0 ∨ η < |F.mean|)
    (hpx : ∀ y x, y < F.h → x < F.w → F.px y x ≠ 0 ∧ |F.mean| ≤ G * |F.px y x| ∧ η ≤ ρ * |F.px y x|)
    (hδ : max e (((G + ρ) * e + M * (ρ * (G + 1))) / (1 - ρ)) = δ) (junk junk' : Nat → Nat → ℝ) :
    Rc (Vc δ f) (Vc δ (2 * δ)) (correctFlatV junk F v) (correctFlatV junk' F' w) := by
  have d1 : e ≤ δ := hδ ▸ le_max_left _ _
  have d2 := hδ ▸ le_max_right e (((G + ρ) * e + M * (ρ * (G + 1))) / (1 - ρ))
  refine Rc.withVal ((nr_flatError h.data hF hρ h0 hG hM hM0 hm hpx junk junk').mono' fun _ _ h => h.mono d2)
    (h.mono d1 le_rfl) fun _ _ hd => ?_
  exact Rc.andThen (R := Vc δ (2 * δ)) (vc_updateStokes (h.withData d1 hd)) fun a b hab => Rc.ok { hab with fs := rfl }

/-- All pixels are at most `M`. -/
abbrev Bounded (M : ℝ) (A : Img ℝ) : Prop := AllPx (fun v => |v| ≤ M) A

theorem bounded_of {M : ℝ} (h0 : 0 ≤ M) {A : Img ℝ} (h : ∀ y x, y < A.h → x < A.w → |A.px y x| ≤ M) : Bounded M A := by
  intro y x
  show |A.px y x| ≤ M
  by_cases hc : y < A.h ∧ x < A.w
  · exact h y x hc.1 hc.2
  · rw [A.out y x (by omega), abs_zero]
    exact h0

theorem bounded_dark {M N : ℝ} {A D : Img ℝ} (hA : Bounded M A) (hD : Bounded N D) : OkP (Bounded (M + N)) (subtractDarkData A D) := by
  have hM : 0 ≤ M := (abs_nonneg _).trans (hA 0 0)
  have hN : 0 ≤ N := (abs_nonneg _).trans (hD 0 0)
  have z : |(0 : ℝ)| ≤ M + N := by rw [abs_zero]; linarith
  unfold subtractDarkData
  refine OkP.bind (P := AllPx fun v => |if v ≥ 0 then v else 0| ≤ M + N) ?_ fun B hB => OkP.pure (all_ofFn z fun y x => hB y x)
  refine all_npBinAt (by simpa using z) hA hD fun _ _ a b ha hb => ?_
  split
  · exact (abs_sub a b).trans (add_le_add ha hb)
  · exact z

theorem subtractDarkV_bounded {M N : ℝ} {D : Img ℝ} (hA : Bounded M v.data) (hD : Bounded N D) (hok : (subtractDarkV D v).1 = .ok ()) :
    Bounded (M + N) (subtractDarkV D v).2.data := by
  cases he : subtractDarkData v.data D with
  | error x => unfold subtractDarkV at hok; rw [he] at hok; cases hok
  | ok d =>
    have q : (subtractDarkV D v).2.data = d := by
      unfold subtractDarkV
      rw [he]
      exact andThen_inv (P := fun w => w.data = d) (withVal_inv (P := fun w => w.data = d) rfl fun _ _ => rfl) fun _ h => h
    rw [q]
    exact bounded_dark hA hD d he

end

end Micropol
