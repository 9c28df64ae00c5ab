import Verif.Lemmas.UnitsExec
import Verif.Lemmas.PilRotate
import Verif.Props.ObjectPixels
import Verif.Props.ObjectStokes

/-!
# C110: the same session in other units

A session in which every image is recorded in another unit gives the same images in the other units.
-/

set_option autoImplicit false

namespace Micropol

noncomputable section

/-- C110: if the calls of a session are written in other units, with any positive factors, then after any number of calls the images,
their pixels, Stokes maps and demosaiced images are those of the first session in the other units, and all flags, headers and angle
dictionaries are the same.  (Partial: products and quotients by an image are left out when the first image was demosaiced, see
`C110_full_claim_false`.) -/
theorem C110_units_partial (u : Nat → ℝ) (hpos : ∀ p, 0 < u p) (l : List (Op × Op)) (hl : RescaledSession u l) :
    SameUpToUnits u (runOps (l.map Prod.fst)) (runOps (l.map Prod.snd)) :=
  (unit_run hpos l hl).same

/-- C110: in the other units the next call returns the same image or raises the same error. -/
theorem C110_outcomes_partial (u : Nat → ℝ) (hpos : ∀ p, 0 < u p) (l : List (Op × Op)) (hl : RescaledSession u l) (o o' : Op)
    (ho : Rescaled u (runOps (l.map Prod.fst)) o o') :
    (exec (runOps (l.map Prod.snd)).images o' (runOps (l.map Prod.snd)).heap).1 =
      (exec (runOps (l.map Prod.fst)).images o (runOps (l.map Prod.fst)).heap).1 :=
  (unit_step hpos (unit_run hpos l hl) ho).1

theorem inUnit_px (c : ℝ) (A : Img ℝ) (y x : Nat) : (inUnit c A).px y x = c * A.px y x := by
  by_cases h : y < A.h ∧ x < A.w
  · exact Img.map_px _ A h.1 h.2
  · rw [A.out y x h, mul_zero]
    exact (inUnit c A).out y x h

theorem pB_inUnit {c : ℝ} (hc : 0 < c) (S : Fin 3 → Img ℝ) : pB (fun q => inUnit c (S q)) = inUnit c (pB S) := by
  refine Img.ext_px rfl rfl fun y x hy hx => ?_
  rw [inUnit_px]
  unfold pB Img.zipWith
  dsimp only
  rw [Img.ofFn_px (show y < (inUnit c (S 1)).h from hy) (show x < (inUnit c (S 1)).w from hx),
    Img.ofFn_px (show y < (S 1).h from hy) (show x < (S 1).w from hx), inUnit_px, inUnit_px,
    show ∀ q u : ℝ, c * q * (c * q) + c * u * (c * u) = c ^ 2 * (q * q + u * u) from fun q u => by ring,
    Real.sqrt_mul (by positivity), Real.sqrt_sq hc.le]

theorem AoLP_inUnit {c : ℝ} (hc : 0 < c) (S : Fin 3 → Img ℝ) : AoLP (fun q => inUnit c (S q)) = AoLP S := by
  refine Img.ext_px rfl rfl fun y x hy hx => ?_
  unfold AoLP Img.zipWith arctan2
  dsimp only
  rw [Img.ofFn_px (show y < (inUnit c (S 2)).h from hy) (show x < (inUnit c (S 2)).w from hx),
    Img.ofFn_px (show y < (S 2).h from hy) (show x < (S 2).w from hx), inUnit_px, inUnit_px]
  have : (⟨1.0 * (c * (S 1).px y x), 1.0 * (c * (S 2).px y x)⟩ : ℂ) =
      (c : ℂ) * ⟨1.0 * (S 1).px y x, 1.0 * (S 2).px y x⟩ := by
    apply Complex.ext <;> simp [mul_left_comm]
  rw [this, Complex.arg_real_mul _ hc]

theorem DoLP_inUnit {c : ℝ} (hc : 0 < c) (S : Fin 3 → Img ℝ) : DoLP (fun q => inUnit c (S q)) = DoLP S := by
  classical
  unfold DoLP npDivideWhere
  have hm : ∀ y x, (Img.map (fun i => decide (i ≠ 0)) (inUnit c (S 0))).px y x =
      (Img.map (fun i => decide (i ≠ 0)) (S 0)).px y x := by
    intro y x
    by_cases h : y < (S 0).h ∧ x < (S 0).w
    · rw [Img.map_px _ (S 0) h.1 h.2, Img.map_px _ (inUnit c (S 0)) h.1 h.2, inUnit_px]
      simp [hc.ne']
    · rw [Img.out (Img.map (fun i => decide (i ≠ 0)) (S 0)) y x h]
      exact Img.out (Img.map (fun i => decide (i ≠ 0)) (inUnit c (S 0))) y x h
  have hz : ∀ y x, (inUnit c (S 0)).px y x = 0 ↔ (S 0).px y x = 0 := by
    intro y x
    rw [inUnit_px]
    simp [hc.ne']
  simp only [hm, hz]
  have hw : (∃ y x, y < (Img.zeros (α := ℝ) (inUnit c (S 0)).h (inUnit c (S 0)).w).h ∧
      x < (Img.zeros (α := ℝ) (inUnit c (S 0)).h (inUnit c (S 0)).w).w ∧
      (Img.map (fun i => decide (i ≠ 0)) (S 0)).px y x = true ∧ (S 0).px y x = 0) ↔
    (∃ y x, y < (Img.zeros (α := ℝ) (S 0).h (S 0).w).h ∧ x < (Img.zeros (α := ℝ) (S 0).h (S 0).w).w ∧
      (Img.map (fun i => decide (i ≠ 0)) (S 0)).px y x = true ∧ (S 0).px y x = 0) := Iff.rfl
  by_cases hb : ∃ y x, y < (Img.zeros (α := ℝ) (S 0).h (S 0).w).h ∧ x < (Img.zeros (α := ℝ) (S 0).h (S 0).w).w ∧
      (Img.map (fun i => decide (i ≠ 0)) (S 0)).px y x = true ∧ (S 0).px y x = 0
  · rw [if_pos (hw.2 hb), if_pos hb]
  · rw [if_neg (fun h => hb (hw.1 h)), if_neg hb]
    congr 1
    refine Img.ext_px rfl rfl fun y x hy hx => ?_
    have hy' : y < (S 0).h := hy
    have hx' : x < (S 0).w := hx
    rw [Img.ofFn_px (show y < (Img.zeros (α := ℝ) (inUnit c (S 0)).h (inUnit c (S 0)).w).h from hy')
      (show x < (Img.zeros (α := ℝ) (inUnit c (S 0)).h (inUnit c (S 0)).w).w from hx'), Img.ofFn_px (show y < (Img.zeros (α := ℝ) (S 0).h (S 0).w).h from hy')
      (show x < (Img.zeros (α := ℝ) (S 0).h (S 0).w).w from hx')]
    have hp : (Img.zipWith (fun q u => Real.sqrt ((q * q) + (u * u))) (inUnit c (S 1)) (inUnit c (S 2))).px y x =
        c * (Img.zipWith (fun q u => Real.sqrt ((q * q) + (u * u))) (S 1) (S 2)).px y x := by
      have := congrArg (fun A => Img.px A y x) (pB_inUnit hc S)
      rwa [inUnit_px] at this
    rw [hp, inUnit_px, mul_div_mul_left _ _ hc.ne']
    rfl

/-- C110: a change of units changes neither the degree nor the angle of polarization of any image; the polarized brightness changes
its unit. -/
theorem C110_polarization_partial (u : Nat → ℝ) (hpos : ∀ p, 0 < u p) (l : List (Op × Op)) (hl : RescaledSession u l) (p k : Nat)
    (hk : (runOps (l.map Prod.fst)).images[p]? = some k) :
    let S := (runOps (l.map Prod.fst)).stokes k
    let T := (runOps (l.map Prod.snd)).stokes k
    DoLP T = DoLP S ∧ AoLP T = AoLP S ∧ pB T = inUnit (u p) (pB S) := by
  intro S T
  have hT : T = fun q => inUnit (u p) (S q) := funext fun q => ((C110_units_partial u hpos l hl).2 p k hk).2.1 q
  rw [hT]
  exact ⟨DoLP_inUnit (hpos p) S, AoLP_inUnit (hpos p) S, pB_inUnit (hpos p) S⟩

theorem roundSingle_unit (e : ℤ) (x : ℝ) : roundSingle (2 ^ e * x) = 2 ^ e * roundSingle x := by
  by_cases hx : x = 0
  · subst hx
    unfold roundSingle
    simp [nearestEven]
  have hp : 0 < |x| := abs_pos.2 hx
  have h2 : (0 : ℝ) < 2 ^ e := zpow_pos (by norm_num) _
  have hlog : Int.log 2 |2 ^ e * x| = e + Int.log 2 |x| := by
    refine log_of_bracket ?_ ?_
    · rw [abs_mul, abs_of_pos h2, zpow_add₀ (by norm_num)]
      exact mul_le_mul_of_nonneg_left (by exact_mod_cast Int.zpow_log_le_self (b := 2) (by norm_num) hp) h2.le
    · rw [abs_mul, abs_of_pos h2, add_assoc, zpow_add₀ (by norm_num)]
      exact mul_lt_mul_of_pos_left (by exact_mod_cast Int.lt_zpow_succ_log_self (b := 2) (by norm_num) |x|) h2
  unfold roundSingle
  rw [hlog, show e + Int.log 2 |x| - 23 = e + (Int.log 2 |x| - 23) by ring, zpow_add₀ (by norm_num : (2 : ℝ) ≠ 0),
    mul_div_mul_left _ _ h2.ne']
  ring

/-- C110: the rotation that the code uses rounds to single precision, so that it commutes with the change of unit when the factor is a
power of 2. -/
theorem C110_rotation (angle : ℝ) (e : ℤ) : Homogeneous (2 ^ e) (pilRotate angle) := by
  intro A
  unfold pilRotate
  show Except.ok _ = Except.ok _
  congr 1
  refine Img.ext_px rfl rfl fun y x hy hx => ?_
  have hy' : y < A.h := hy
  have hx' : x < A.w := hx
  rw [inUnit_px, Img.ofFn_px hy' hx', Img.ofFn_px (show y < (inUnit (2 ^ e) A).h from hy') (show x < (inUnit (2 ^ e) A).w from hx')]
  rw [show (inUnit (2 ^ e) A).h = A.h from rfl, show (inUnit (2 ^ e) A).w = A.w from rfl]
  cases pilSource angle A.h A.w y x with
  | none => exact (mul_zero _).symm
  | some rc =>
    obtain ⟨r, c⟩ := rc
    show roundSingle ((inUnit (2 ^ e) A).px r c) = 2 ^ e * roundSingle (A.px r c)
    rw [inUnit_px, roundSingle_unit]

/-- An image is made, demosaiced and multiplied by itself. -/
def squareDemosaiced (A : Img ℝ) : List Op :=
  [.fromArray A none none none fun _ _ => 0, .demosaic 0 "mean", .arithImage .mul 0 0 fun _ _ => 0]

theorem squareDemosaiced_run (A : Img ℝ) (hh : A.h % 2 = 0) (hw : A.w % 2 = 0) :
    ∃ r n, demosaic A "mean" = .ok r ∧ (runOps (squareDemosaiced A)).images[2]? = some n ∧
      (runOps (squareDemosaiced A)).data n = Img.ofFn A.h A.w (fun y x => A.px y x * A.px y x) ∧
      (runOps (squareDemosaiced A)).stokes n = stokesClosed r ⟨0, 1, 2, 3⟩ := by
  obtain ⟨-, S, -, hS, -⟩ := dataStokes_ok hh hw C02_polarCam.1
  obtain ⟨mk, hmk⟩ : ∃ mk : Op, mk = .fromArray A none none none fun _ _ => 0 := ⟨_, rfl⟩
  have hrun : runOps [mk] = ⟨arrayHeap A S none initState.heap, [0]⟩ := by
    rw [hmk]
    exact (runOps_snoc [] _).trans (step_fromArray (s := initState) A none (fun _ _ => 0) hS)
  have hi : (runOps [mk]).images[0]? = some 0 := by rw [hrun]; rfl
  have hv0 : (runOps [mk]).heap.view 0 = freshView A S polarCamAngles := by
    rw [hrun]
    exact arrayHeap_view A S none initState.heap
  obtain ⟨r, hr, -⟩ := C13_mean A _ (split_ok hh hw)
  have hT : ∀ s : Fin 4 → Img ℝ, theoStokes s polarCamAngles = .ok (stokesClosed s ⟨0, 1, 2, 3⟩) := fun s =>
    theoStokes_ok s C02_polarCam.1
  have e1 : runOps [mk, .demosaic 0 "mean"] = step (runOps [mk]) (.demosaic 0 "mean") := runOps_snoc [mk] _
  have hval : demosaicV "mean" (freshView A S polarCamAngles) = (.ok (), { freshView A S polarCamAngles with
      stokes := ⟨stokesClosed r ⟨0, 1, 2, 3⟩, false⟩, demosaicedImages := some r, isDemosaiced := true }) := by
    unfold demosaicV
    rw [show (freshView A S polarCamAngles).data = A from rfl, hr]
    unfold withVal updateStokesV theoV
    dsimp only
    rw [if_pos rfl, show (freshView A S polarCamAngles).dic = polarCamAngles from rfl, hT]
    rfl
  have hv1 : (runOps [mk, .demosaic 0 "mean"]).heap.view 0 = { freshView A S polarCamAngles with
      stokes := ⟨stokesClosed r ⟨0, 1, 2, 3⟩, false⟩, demosaicedImages := some r, isDemosaiced := true } := by
    rw [e1, step_place_view (o := .demosaic 0 "mean") rfl hi rfl, hv0]
    exact congrArg Prod.snd hval
  have hi1 : (runOps [mk, .demosaic 0 "mean"]).images = [0, 0] := by
    have hx := (exec_place_value (s := runOps [mk]) (o := .demosaic 0 "mean") rfl hi rfl).1
    rw [hv0, show (Op.demosaic 0 "mean").value (runOps [mk]) (freshView A S polarCamAngles) = _ from hval] at hx
    rw [e1]
    unfold step
    obtain ⟨res, hres⟩ : ∃ res, res = exec (runOps [mk]).images (.demosaic 0 "mean") (runOps [mk]).heap := ⟨_, rfl⟩
    rw [← hres] at hx ⊢
    obtain ⟨a, h⟩ := res
    dsimp only at hx
    rw [hx]
    show (runOps [mk]).images ++ [0] = [0, 0]
    rw [hrun]
    rfl
  have hi1' : (runOps [mk, .demosaic 0 "mean"]).images[0]? = some 0 := by rw [hi1]; rfl
  have e2 : runOps [mk, .demosaic 0 "mean", .arithImage .mul 0 0 fun _ _ => 0] =
      step (runOps [mk, .demosaic 0 "mean"]) (.arithImage .mul 0 0 fun _ _ => 0) := runOps_snoc [mk, .demosaic 0 "mean"] _
  have hval2 : (Op.arithImage .mul 0 0 fun _ _ => 0).value (runOps [mk, .demosaic 0 "mean"])
      ((runOps [mk, .demosaic 0 "mean"]).heap.view 0) =
      (.ok (), { freshView (Img.ofFn A.h A.w (fun y x => A.px y x * A.px y x)) S polarCamAngles with
        stokes := ⟨stokesClosed r ⟨0, 1, 2, 3⟩, false⟩, demosaicedImages := some r, isDemosaiced := true }) := by
    unfold Op.value
    dsimp only
    unfold secondV
    rw [hi1']
    show withVal (npBin _ ((runOps [mk, .demosaic 0 "mean"]).heap.view 0).data
      ((runOps [mk, .demosaic 0 "mean"]).heap.view 0).data) _ _ = _
    rw [npBin_ok rfl rfl, hv1]
    unfold withVal updateDataAndStokesV updateStokesV theoV
    dsimp only
    rw [if_pos rfl, show (freshView A S polarCamAngles).dic = polarCamAngles from rfl, hT]
    rfl
  have hc := exec_new_value (runOps_valid [mk, .demosaic 0 "mean"]) (o := .arithImage .mul 0 0 fun _ _ => 0) rfl hi1' rfl
  rw [hval2] at hc
  obtain ⟨c1, c2⟩ := hc
  have c2 := c2 rfl
  obtain ⟨n, hn⟩ : ∃ n, n = (runOps [mk, .demosaic 0 "mean"]).heap.objs.size := ⟨_, rfl⟩
  rw [← hn] at c1 c2
  refine ⟨r, n, hr, ?_, ?_, ?_⟩
  · show (runOps [.fromArray A none none none fun _ _ => 0, _, _]).images[2]? = _
    rw [← hmk, e2]
    unfold step
    obtain ⟨res, hres⟩ : ∃ res, res = exec (runOps [mk, .demosaic 0 "mean"]).images (.arithImage .mul 0 0 fun _ _ => 0)
      (runOps [mk, .demosaic 0 "mean"]).heap := ⟨_, rfl⟩
    rw [← hres] at c1 ⊢
    obtain ⟨a, h⟩ := res
    dsimp only at c1
    rw [c1]
    show ((runOps [mk, .demosaic 0 "mean"]).images ++ [n])[2]? = _
    rw [hi1]
    rfl
  · show (runOps [.fromArray A none none none fun _ _ => 0, _, _]).data n = _
    rw [← hmk, e2]
    have := congrArg ImgView.data c2
    rw [← step_heap] at this
    exact this
  · show (runOps [.fromArray A none none none fun _ _ => 0, _, _]).stokes n = _
    rw [← hmk, e2]
    have := congrArg (fun v => v.stokes.planes) c2
    rw [← step_heap] at this
    exact this

/-- C110, violation: an image in another unit is demosaiced and squared.  The pixels of the square get the square of the factor, but
the I map of the square only gets the factor. -/
theorem C110_full_claim_false : ∃ (A : Img ℝ) (c : ℝ) (n m : Nat), 0 < c ∧
    let s := runOps (squareDemosaiced A)
    let t := runOps (squareDemosaiced (inUnit c A))
    s.images[2]? = some n ∧ t.images[2]? = some m ∧
      t.data m = inUnit (c * c) (s.data n) ∧
      t.stokes m 0 = inUnit c (s.stokes n 0) ∧ t.stokes m 0 ≠ inUnit (c * c) (s.stokes n 0) := by
  obtain ⟨r, n, hr, h1, h2, h3⟩ := squareDemosaiced_run darkBright rfl rfl
  obtain ⟨r', m, hr', k1, k2, k3⟩ := squareDemosaiced_run (inUnit 2 darkBright) rfl rfl
  have hrr : ∀ q, r' q = inUnit 2 (r q) := by
    have := sca_demosaic (c := 2) (sca_inUnit 2 darkBright) "mean"
    rw [hr, hr'] at this
    exact fun q => (this q).eq
  have hpx : (stokesClosed r ⟨0, 1, 2, 3⟩ 0).px 0 2 = 1 / 2 := by
    obtain ⟨r0, hr0, hrs⟩ := C13_mean darkBright _ (split_ok rfl rfl)
    rw [hr] at hr0
    injection hr0 with hr0
    subst hr0
    show (Img.ofFn (r 0).h (r 0).w _ : Img ℝ).px 0 2 = _
    rw [Img.ofFn_px (by rw [(hrs 0).1]; decide) (by rw [(hrs 0).2.1]; decide)]
    have hpx : ∀ q, (r q).px 0 2 = 1 / 4 := by
      intro q
      have := (hrs q).2.2 0 1 0 0 (by decide) (by decide) (by decide) (by decide)
      rw [show (r q).px 0 2 = (r q).px (2 * 0 + 0) (2 * 1 + 0) from rfl, this,
        Img.ofFn_px (show 0 < darkBright.h / 2 by decide) (show 1 < darkBright.w / 2 by decide)]
      fin_cases q <;> simp [darkBright, Img.ofFn_px]
    rw [hpx, hpx, hpx, hpx]
    norm_num
  have hI : stokesClosed r' ⟨0, 1, 2, 3⟩ 0 = inUnit 2 (stokesClosed r ⟨0, 1, 2, 3⟩ 0) := by
    have : r' = fun q => inUnit 2 (r q) := funext hrr
    rw [this]
    refine Img.ext_px rfl rfl fun y x hy hx => ?_
    have hy' : y < (r 0).h := hy
    have hx' : x < (r 0).w := hx
    rw [inUnit_px]
    show (Img.ofFn (r 0).h (r 0).w _ : Img ℝ).px y x = 2 * (Img.ofFn (r 0).h (r 0).w _ : Img ℝ).px y x
    rw [Img.ofFn_px hy' hx', Img.ofFn_px hy' hx']
    simp only [inUnit_px]
    ring
  refine ⟨darkBright, 2, n, m, by norm_num, h1, k1, ?_, ?_, ?_⟩
  · rw [h2, k2]
    refine Img.ext_px rfl rfl fun y x hy hx => ?_
    rw [inUnit_px, Img.ofFn_px (show y < (inUnit 2 darkBright).h from hy) (show x < (inUnit 2 darkBright).w from hx),
      Img.ofFn_px (show y < darkBright.h from hy) (show x < darkBright.w from hx), inUnit_px]
    ring
  · rw [h3, k3, hI]
  · rw [h3, k3, hI]
    intro h
    have := congrArg (fun A => Img.px A 0 2) h
    simp only [inUnit_px] at this
    rw [hpx] at this
    norm_num at this

theorem rescaledSession_snoc {u : Nat → ℝ} {l : List (Op × Op)} {o o' : Op} (hl : RescaledSession u l)
    (ho : Rescaled u (runOps (l.map Prod.fst)) o o') : RescaledSession u (l ++ [(o, o')]) := by
  intro k a a' hk
  rcases Nat.lt_trichotomy k l.length with hlt | rfl | hgt
  · rw [List.getElem?_append_left hlt] at hk
    rw [List.take_append_of_le_length hlt.le]
    exact hl k a a' hk
  · rw [List.getElem?_append_right (Nat.le_refl _), Nat.sub_self] at hk
    cases hk
    rw [List.take_append_of_le_length (Nat.le_refl _), List.take_length]
    exact ho
  · rw [List.getElem?_eq_none (by rw [List.length_append]; simpa using hgt)] at hk
    cases hk

/-- The hypotheses of C110 hold when all images of a session get the factor 4: made with a dark frame, rebinned, rotated by 30
degrees, with a number added, demosaiced, masked. -/
example (d dark : Img ℝ) : RescaledSession (fun _ => (4 : ℝ)) [
    (.fromArray dark none none none fun _ _ => 0, .fromArray (inUnit 4 dark) none none none fun _ _ => 4 * 0),
    (.fromArray d none (some 0) none fun _ _ => 0, .fromArray (inUnit 4 d) none (some 0) none fun _ _ => 4 * 0),
    (.rebin 1 2, .rebin 1 2), (.rotate 1 (pilRotate 30), .rotate 1 (pilRotate 30)),
    (.arithNumber .add 1 7 fun _ _ => 0, .arithNumber .add 1 (4 * 7) fun _ _ => 0), (.demosaic 1 "mean", .demosaic 1 "mean"),
    (.maskOcculter 1 0 0 10 0 1, .maskOcculter 1 0 0 10 0 (4 * 1))] := by
  have hom : Homogeneous 4 (pilRotate 30) := by
    have := C110_rotation 30 2
    rwa [show (2 : ℝ) ^ (2 : ℤ) = 4 by norm_num] at this
  refine rescaledSession_snoc (l := [_, _, _, _, _, _]) (rescaledSession_snoc (l := [_, _, _, _, _]) (rescaledSession_snoc
    (l := [_, _, _, _]) (rescaledSession_snoc (l := [_, _, _]) (rescaledSession_snoc (l := [_, _]) (rescaledSession_snoc (l := [_])
    (rescaledSession_snoc (l := []) ?_ ?_) ?_) ?_) ?_) ?_) ?_) ?_
  · intro k o o' hk
    cases hk
  · exact .fromArray dark none none none (fun _ _ => 0) (fun k hk => by cases hk)
  · exact .fromArray d none (some 0) none (fun _ _ => 0) (fun _ _ => rfl)
  · exact .rebin 1 2 rfl
  · exact .rotate 1 (pilRotate 30) rfl hom
  · exact .addNumber 1 7 _ _ rfl
  · exact .demosaic 1 "mean" rfl
  · exact .maskOcculter 1 0 0 10 0 1

/-- They hold when the factors differ: an image and its square. -/
example : RescaledSession (fun p => if p = 0 then (3 : ℝ) else 9) [
    (.fromArray darkBright none none none fun _ _ => 0, .fromArray (inUnit 3 darkBright) none none none fun _ _ => 3 * 0),
    (.arithImage .mul 0 0 fun _ _ => 0, .arithImage .mul 0 0 fun _ _ => 0)] := by
  refine rescaledSession_snoc (l := [_]) (rescaledSession_snoc (l := []) ?_ ?_) ?_
  · intro k o o' hk
    cases hk
  · exact .fromArray darkBright none none none (fun _ _ => 0) (fun k hk => by cases hk)
  · obtain ⟨S, -, -, -, -, hrun⟩ := darkBright_run
    refine .mulImage 0 0 _ _ ?_ ?_
    · show (if (runOps [_]).images.length = 0 then (3 : ℝ) else 9) = 3 * 3
      rw [hrun]
      norm_num
    · intro k hk
      change (runOps [_]).images[0]? = some k at hk
      show ((runOps [_]).heap.objs.cell k).demosaicedImages = none
      rw [hrun] at hk ⊢
      cases hk
      rfl

end

end Micropol
