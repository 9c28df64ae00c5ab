import Verif.Lemmas.ObjectShape
import Verif.Props.Object
import Verif.Props.Demosaic

/-!
# Properties of histories: C42, C44, C48

Stokes maps that follow the data, sizes, and the occulter mask.
-/

set_option autoImplicit false

namespace Micropol

open Classical

/-! ## C42 -/

/-- C42: after any history of constructions, copies, rebinnings, shifts, hot pixel cleanings, arithmetic and dark, flat and
IFOV corrections, with any mixture of failing and succeeding calls, the I, Q, U of every image are the theoretical Stokes
maps of its current data. -/
theorem C42_theoretical (ops : List Op) (hops : ∀ o ∈ ops, o.theoretical = true) (k : Nat)
    (hk : k ∈ (runOps ops).images) :
    dataStokes ((runOps ops).data k) ((runOps ops).dic k) = .ok ((runOps ops).stokes k) :=
  (run_theo ops hops k hk).2

/-- C42, pixel by pixel: I is half the sum of the superpixel, Q the difference of the pixels behind the 0° and 90°
polarizers, U that of the 45° and −45° ones. -/
theorem C42_pixels (ops : List Op) (hops : ∀ o ∈ ops, o.theoretical = true) (k : Nat)
    (hk : k ∈ (runOps ops).images) (L : Layout) (hL : L.Describes ((runOps ops).dic k)) :
    let d := (runOps ops).data k
    let S := (runOps ops).stokes k
    (∀ i, (S i).h = d.h / 2 ∧ (S i).w = d.w / 2) ∧
      ∀ y x, y < d.h / 2 → x < d.w / 2 →
        let v (q : Fin 4) := d.px (2 * y + q.val / 2) (2 * x + q.val % 2)
        (S 0).px y x = (v 0 + v 1 + v 2 + v 3) / 2 ∧
        (S 1).px y x = v L.p0 - v L.p90 ∧
        (S 2).px y x = v L.p45 - v L.pm45 := by
  have h := C42_theoretical ops hops k hk
  obtain ⟨hh, hw⟩ := dataStokes_even h
  obtain ⟨S, h1, h2, h3⟩ := C17_stokes ((runOps ops).data k) hh hw L _ hL
  rw [h] at h1
  injection h1 with h1
  rw [h1]
  exact ⟨h2, h3⟩

/-- The view of an image an in place operation was called on. -/
theorem step_place_view {s : State} {o : Op} {i k : Nat} (hsrc : o.source = some i) (hk : s.images[i]? = some k)
    (hin : o.inPlace = true) : (step s o).heap.view k = (o.value s (s.heap.view k)).2 := by
  rw [step_heap]
  exact (exec_place_value hsrc hk hin).2

theorem getElem?_step {s : State} (o : Op) {i k : Nat} (hk : s.images[i]? = some k) :
    (step s o).images[i]? = some k := by
  rcases step_images s o with h | ⟨n, -, h⟩
  · rw [h]; exact hk
  · rw [h]
    exact (List.getElem?_append_left (List.getElem?_eq_some_iff.1 hk).1).trans hk

/-- C42, violation: once an image is demosaiced, its Stokes maps no longer follow the data.  Here all pixels become 0 and I
does not. -/
theorem C42_stale_after_demosaic : ∃ (ops : List Op) (k : Nat), k ∈ (runOps ops).images ∧
    (∀ o ∈ ops, o.theoretical = true ∨ ∃ i mode, o = .demosaic i mode) ∧
    (∀ y x, y < ((runOps ops).data k).h → x < ((runOps ops).data k).w → ((runOps ops).data k).px y x = 0) ∧
    (((runOps ops).stokes k) 0).px 0 2 = 1 / 2 := by
  obtain ⟨S, hS, -, -, -, hrun⟩ := darkBright_run
  set mk : Op := .fromArray darkBright none none none fun _ _ => 0 with hmk
  have hi : (runOps [mk]).images[0]? = some 0 := by rw [hrun]; rfl
  have hv0 : (runOps [mk]).heap.view 0 = freshView darkBright S polarCamAngles := by
    rw [hrun]
    exact arrayHeap_view darkBright S none initState.heap
  obtain ⟨r, hr, hrs⟩ := C13_mean darkBright _ (split_ok rfl rfl)
  have hT : ∀ s : Fin 4 → Img ℝ, theoStokes s polarCamAngles = .ok (stokesClosed s ⟨0, 1, 2, 3⟩) := fun s =>
    theoStokes_ok s C02_polarCam.1
  have e1 : runOps [mk, .demosaic 0 "mean"] = step (runOps [mk]) (.demosaic 0 "mean") := runOps_snoc [mk] _
  have hv1 : (runOps [mk, .demosaic 0 "mean"]).heap.view 0 = { freshView darkBright S polarCamAngles with
      stokes := ⟨stokesClosed r ⟨0, 1, 2, 3⟩, false⟩, demosaicedImages := some r, isDemosaiced := true } := by
    rw [e1, step_place_view (o := .demosaic 0 "mean") rfl hi rfl, hv0]
    show (demosaicV "mean" (freshView darkBright S polarCamAngles)).2 = _
    unfold demosaicV
    rw [show (freshView darkBright S polarCamAngles).data = darkBright from rfl, hr]
    unfold withVal updateStokesV theoV
    dsimp only
    rw [if_pos rfl, show (freshView darkBright S polarCamAngles).dic = polarCamAngles from rfl, hT]
    rfl
  have hi1 : (runOps [mk, .demosaic 0 "mean"]).images[0]? = some 0 := by rw [e1]; exact getElem?_step _ hi
  have hsub : subtractDarkData darkBright darkBright = .ok (Img.ofFn 2 4 (fun _ _ => (0 : ℝ))) := by
    unfold subtractDarkData
    rw [show npBin (fun a b : ℝ => a - b) darkBright darkBright = _ from npBinAt_ok rfl rfl, Py.ok_bind]
    show Except.ok _ = Except.ok _
    congr 1
    refine Img.ext_px rfl rfl ?_
    intro y x hy hx
    have hy' : y < 2 := hy
    have hx' : x < 4 := hx
    rw [Img.ofFn_px hy' hx']
    show (Img.ofFn 2 4 _ : Img ℝ).px y x = 0
    rw [Img.ofFn_px hy' hx']
    show (if ((Img.ofFn 2 4 _ : Img ℝ).px y x) ≥ 0 then (Img.ofFn 2 4 _ : Img ℝ).px y x else 0) = 0
    rw [Img.ofFn_px hy' hx']
    simp
  have e2 : runOps [mk, .demosaic 0 "mean", .subtractDark 0 0] =
      step (runOps [mk, .demosaic 0 "mean"]) (.subtractDark 0 0) := runOps_snoc [mk, .demosaic 0 "mean"] _
  have hv2 : (runOps [mk, .demosaic 0 "mean", .subtractDark 0 0]).heap.view 0 =
      { freshView (Img.ofFn 2 4 (fun _ _ => (0 : ℝ))) S polarCamAngles with
        stokes := ⟨stokesClosed r ⟨0, 1, 2, 3⟩, false⟩, demosaicedImages := some r, isDemosaiced := true,
        darkSubtracted := true } := by
    rw [e2, step_place_view (o := .subtractDark 0 0) rfl hi1 rfl]
    show (secondV _ 0 _ _).2 = _
    unfold secondV
    rw [hi1]
    show (subtractDarkV ((runOps [mk, .demosaic 0 "mean"]).heap.view 0).data _).2 = _
    rw [hv1]
    unfold subtractDarkV
    show (withVal (subtractDarkData darkBright darkBright) _ _).2 = _
    rw [hsub]
    unfold withVal andThen updateDataAndStokesV updateStokesV theoV
    dsimp only
    rw [if_pos rfl, show (freshView darkBright S polarCamAngles).dic = polarCamAngles from rfl, hT]
    rfl
  refine ⟨[mk, .demosaic 0 "mean", .subtractDark 0 0], 0, ?_, ?_, ?_, ?_⟩
  · have : (runOps [mk, .demosaic 0 "mean", .subtractDark 0 0]).images[0]? = some 0 := by
      rw [e2]; exact getElem?_step _ hi1
    exact List.mem_of_getElem? this
  · intro o ho
    simp only [List.mem_cons, List.not_mem_nil, or_false] at ho
    rcases ho with rfl | rfl | rfl
    · exact Or.inl rfl
    · exact Or.inr ⟨0, "mean", rfl⟩
    · exact Or.inl rfl
  · have := congrArg ImgView.data hv2
    rw [show (runOps [mk, .demosaic 0 "mean", .subtractDark 0 0]).data 0 = _ from this]
    intro y x hy hx
    exact Img.ofFn_px hy hx
  · have := congrArg (fun v => v.stokes.planes) hv2
    rw [show (runOps [mk, .demosaic 0 "mean", .subtractDark 0 0]).stokes 0 = _ from this]
    show (Img.ofFn (r 0).h (r 0).w _ : Img ℝ).px 0 2 = _
    rw [Img.ofFn_px (by rw [(hrs 0).1]; decide) (by rw [(hrs 0).2.1]; decide)]
    have hpx : ∀ q, (r q).px 0 2 = 1 / 4 := by
      intro q
      have := (hrs q).2.2 0 1 0 0 (by decide) (by decide) (by decide) (by decide)
      rw [show (r q).px 0 2 = (r q).px (2 * 0 + 0) (2 * 1 + 0) from rfl, this,
        Img.ofFn_px (show 0 < darkBright.h / 2 by decide) (show 1 < darkBright.w / 2 by decide)]
      fin_cases q <;> simp [darkBright, Img.ofFn_px]
    rw [hpx, hpx, hpx, hpx]
    norm_num

/-- The hypotheses of C42 hold in a history with copies and a failing call. -/
example (d : Img ℝ) (j : Nat → Nat → ℝ) : ∀ o ∈ [Op.fromArray d none none none j, .fromImage 0 none (some 0) none j,
    .rebin 1 3, .rebin 0 (-1), .arithImage .div 0 1 j, .subtractDark 2 0, .correctIfov 1, .shift 0 1 (-2) 0],
    o.theoretical = true := by
  intro o ho
  simp only [List.mem_cons, List.not_mem_nil, or_false] at ho
  rcases ho with rfl | rfl | rfl | rfl | rfl | rfl | rfl | rfl <;> rfl

/-! ## C44 -/

/-- C44: after any history whatsoever, every image has an even number of rows and columns. -/
theorem C44_even (ops : List Op) (k : Nat) (hk : k ∈ (runOps ops).images) :
    ((runOps ops).data k).h % 2 = 0 ∧ ((runOps ops).data k).w % 2 = 0 :=
  run_even ops k hk

/-- C44: so every image of every history can be split into its four polarizations, each of half the size. -/
theorem C44_split (ops : List Op) (k : Nat) (hk : k ∈ (runOps ops).images) :
    ∃ s, splitPolarizations ((runOps ops).data k) = .ok s ∧
      ∀ q, (s q).h * 2 = ((runOps ops).data k).h ∧ (s q).w * 2 = ((runOps ops).data k).w := by
  obtain ⟨hh, hw⟩ := C44_even ops k hk
  refine ⟨_, split_ok hh hw, fun q => ⟨?_, ?_⟩⟩
  · show ((runOps ops).data k).h / 2 * 2 = _
    omega
  · show ((runOps ops).data k).w / 2 * 2 = _
    omega

/-- C44: an array with an odd side never becomes an image. -/
theorem C44_odd_rejected (ops : List Op) (d : Img ℝ) (dic : Option AngleDic) (junk : Nat → Nat → ℝ)
    (hodd : d.h % 2 = 1 ∨ d.w % 2 = 1) :
    (step (runOps ops) (.fromArray d dic none none junk)).images = (runOps ops).images := by
  rcases step_images (runOps ops) (.fromArray d dic none none junk) with h | ⟨n, hn, -⟩
  · exact h
  · exfalso
    have hc := (exec_fromArray (runOps_valid ops) d dic none none junk ((runOps ops).heap.view 0)).1
    rw [hn] at hc
    cases hx : (fromArrayV (runOps ops) d dic none none junk ((runOps ops).heap.view 0)).1 with
    | error e => rw [hx] at hc; cases hc
    | ok u =>
      unfold fromArrayV optV at hx
      obtain ⟨S, hS, -⟩ := withVal_ok hx
      have := dataStokes_even hS
      omega

/-- C44: after any history in which plain demodulations use demodulators of the right size, the Stokes maps of every image
that is neither demosaiced nor made from a `congrid` result have half the sides of the data. -/
theorem C44_stokes_half (ops : List Op) (hops : AllAlong Sized ops) (k : Nat) (hk : k ∈ (runOps ops).images)
    (hc : ¬ Congridded ops k) (hd : (runOps ops).isDemosaiced k = false) (i : Fin 3) :
    (((runOps ops).stokes k) i).h * 2 = ((runOps ops).data k).h ∧
    (((runOps ops).stokes k) i).w * 2 = ((runOps ops).data k).w := by
  obtain ⟨h1, -, h3⟩ := run_sized ops hops k hk hc
  obtain ⟨e1, e2⟩ := h3 hd i
  have e1' : (((runOps ops).stokes k) i).h = ((runOps ops).data k).h / 2 := e1
  have e2' : (((runOps ops).stokes k) i).w = ((runOps ops).data k).w / 2 := e2
  have h1' : ((runOps ops).data k).h % 2 = 0 ∧ ((runOps ops).data k).w % 2 = 0 := h1
  omega

/-- Without `congrid` nothing is congridded. -/
theorem C44_no_congrid (ops : List Op) (h : ∀ o ∈ ops, ∀ i ny nx, o ≠ .congrid i ny nx) (k : Nat) :
    ¬ Congridded ops k := by
  intro hc
  induction hc with
  | @born ops i ny nx n hn => exact h (.congrid i ny nx) (by simp) _ _ _ rfl
  | derived _ _ _ ih => exact ih fun o ho => h o (by simp [ho])
  | kept _ ih => exact ih fun o ho => h o (by simp [ho])

/-- Without plain demodulation the size condition is void; a demodulator of the right size exists. -/
example (d : Img ℝ) (j : Nat → Nat → ℝ) (rot : Img ℝ → Py (Img ℝ)) :
    AllAlong Sized [Op.fromArray d none none none j, .rotate 0 rot, .maskOcculter 1 3 4 5 0 7, .demosaic 0 "mean"] := by
  intro pre o post he i D k ho
  subst ho
  have : Op.demodulate i D false ∈ [Op.fromArray d none none none j, .rotate 0 rot, .maskOcculter 1 3 4 5 0 7,
      .demosaic 0 "mean"] := by rw [he]; simp
  simp at this

/-! ## C48 -/

/-- C48: for an image of any such history that is not demosaiced nor made by `congrid`, `mask_occulter` succeeds, and a pixel
of the data is masked exactly when its superpixel's Stokes pixel is: when the superpixel is not in the ring around the halved
and truncated centre. -/
theorem C48_consistent (ops : List Op) (hops : AllAlong Sized ops) (i k : Nat) (hk : (runOps ops).images[i]? = some k)
    (hc : ¬ Congridded ops k) (hd : (runOps ops).isDemosaiced k = false) (y x r over fill : ℝ) (cy cx r0 : ℤ)
    (hcy : IsTrunc (y / 2) cy) (hcx : IsTrunc (x / 2) cx) (hr0 : IsTrunc ((r + over) / 2) r0) :
    let s := runOps ops
    let s' := step s (.maskOcculter i y x r over fill)
    let kept (Y X : Nat) := InRegion ((cy : ℝ), (cx : ℝ)) ((r0 : ℝ), ((max (s.data k).h (s.data k).w : Nat) : ℝ)) (0, 360) Y X
    (exec s.images (.maskOcculter i y x r over fill) s.heap).1 = .ok none ∧
    IsSelection (s.data k) (fun Y X => kept (Y / 2) (X / 2)) fill (s'.data k) ∧
    ∀ j, IsSelection (s.stokes k j) kept fill (s'.stokes k j) := by
  intro s s' kept
  have hmem := List.mem_of_getElem? hk
  obtain ⟨h1, h2, h3⟩ := run_sized ops hops k hmem hc
  obtain ⟨d', S', e1, e2, e3⟩ := maskOcculterV_plain (v := s.heap.view k) hd h1.1 h1.2 (h3 hd) y x r over fill
  have hplace := exec_place_value (s := s) (o := .maskOcculter i y x r over fill) rfl hk rfl
  have hview := step_place_view (s := s) (o := .maskOcculter i y x r over fill) rfl hk rfl
  rw [show Op.value s (.maskOcculter i y x r over fill) (s.heap.view k) = _ from e1] at hview hplace
  have hkept : ∀ Y X, OutsideOcculter (s.data k).h (s.data k).w y x (r + over) Y X = kept Y X := by
    intro Y X
    unfold OutsideOcculter
    rw [← trunc_unique hcy (pyInt_trunc _), ← trunc_unique hcx (pyInt_trunc _), ← trunc_unique hr0 (pyInt_trunc _)]
  refine ⟨hplace.1, ?_, fun j => ?_⟩
  · have e : s'.data k = d' := congrArg ImgView.data hview
    rw [e]
    have := e2
    simp only [show (s.heap.view k).data = s.data k from rfl, hkept] at this
    exact this
  · have e : s'.stokes k = S' := congrArg (fun v => v.stokes.planes) hview
    rw [e]
    have := e3 j
    simp only [show (s.heap.view k).data = s.data k from rfl, hkept] at this
    exact this

/-- C48: for a centre in the image, "in the ring" just means farther from the centre than the halved radius. -/
theorem C48_kept_iff (h w : Nat) (cy cx r0 : ℤ) (hcy : 0 ≤ cy ∧ cy ≤ (h / 2 : Nat)) (hcx : 0 ≤ cx ∧ cx ≤ (w / 2 : Nat))
    (Y X : Nat) (hY : Y < h / 2) (hX : X < w / 2) :
    InRegion ((cy : ℝ), (cx : ℝ)) ((r0 : ℝ), ((max h w : Nat) : ℝ)) (0, 360) Y X ↔
      (r0 : ℝ) < Real.sqrt (((X : ℝ) - cx) ^ 2 + ((Y : ℝ) - cy) ^ 2) := by
  have hm : ∀ (n : Nat) (c : ℤ) (Z : Nat), 0 ≤ c ∧ c ≤ (n / 2 : Nat) → Z < n / 2 → n ≤ max h w →
      ((Z : ℝ) - c) ^ 2 ≤ (((max h w : Nat) : ℝ) / 2) ^ 2 := by
    intro n c Z hc hZ hn
    have a1 : (0 : ℝ) ≤ c := by exact_mod_cast hc.1
    have a2 : (c : ℝ) * 2 ≤ (n : ℝ) := by
      have : c * 2 ≤ (n : ℤ) := by omega
      exact_mod_cast this
    have a3 : (Z : ℝ) * 2 ≤ (n : ℝ) := by
      have : Z * 2 ≤ n := by omega
      exact_mod_cast this
    have a4 : (n : ℝ) ≤ ((max h w : Nat) : ℝ) := by exact_mod_cast hn
    have a5 : (0 : ℝ) ≤ Z := Nat.cast_nonneg _
    have : |(Z : ℝ) - c| ≤ ((max h w : Nat) : ℝ) / 2 := by
      rw [abs_le]
      constructor <;> linarith
    exact sq_le_sq' (by linarith [neg_abs_le ((Z : ℝ) - c)]) (le_trans (le_abs_self _) this)
  have hy2 := hm h cy Y hcy hY (le_max_left _ _)
  have hx2 := hm w cx X hcx hX (le_max_right _ _)
  have hup : Real.sqrt (((X : ℝ) - cx) ^ 2 + ((Y : ℝ) - cy) ^ 2) ≤ ((max h w : Nat) : ℝ) := by
    rw [show ((max h w : Nat) : ℝ) = Real.sqrt (((max h w : Nat) : ℝ) ^ 2) from (Real.sqrt_sq (Nat.cast_nonneg _)).symm]
    refine Real.sqrt_le_sqrt ?_
    nlinarith
  constructor
  · rintro h
    exact ((region_iff _ _ _ _ _).1 h).1.1
  · intro h
    obtain ⟨ρ, φ, hp, -⟩ := C46_polar_coordinates ((Y : ℝ) - cy) ((X : ℝ) - cx)
    have hρ : ρ = Real.sqrt (((X : ℝ) - cx) ^ 2 + ((Y : ℝ) - cy) ^ 2) := (polar_unique hp (computed_polar _ _)).1
    exact ⟨ρ, φ, hp, by rw [hρ]; exact h, by rw [hρ]; exact hup, hp.2.2.2.1, hp.2.2.2.2.1⟩

/-- C48: with fill 0, if the Stokes maps were the theoretical ones of the data before (C42), they are afterwards. -/
theorem C48_fill_zero (ops : List Op) (hops : AllAlong Sized ops) (i k : Nat) (hk : (runOps ops).images[i]? = some k)
    (hc : ¬ Congridded ops k) (hd : (runOps ops).isDemosaiced k = false) (y x r over : ℝ)
    (hth : dataStokes ((runOps ops).data k) ((runOps ops).dic k) = .ok ((runOps ops).stokes k)) :
    let s' := step (runOps ops) (.maskOcculter i y x r over 0)
    dataStokes (s'.data k) (s'.dic k) = .ok (s'.stokes k) := by
  intro s'
  obtain ⟨-, hdat, hst⟩ := C48_consistent ops hops i k hk hc hd y x r over 0 _ _ _ (pyInt_trunc _) (pyInt_trunc _)
    (pyInt_trunc _)
  have hdic : s'.dic k = (runOps ops).dic k := C45_kept ops _ k (List.mem_of_getElem? hk)
  rw [hdic]
  obtain ⟨L, hL⟩ := dataStokes_layout hth
  obtain ⟨hh, hw⟩ := dataStokes_even hth
  have hh' : (s'.data k).h % 2 = 0 := by rw [hdat.1]; exact hh
  have hw' : (s'.data k).w % 2 = 0 := by rw [hdat.2.1]; exact hw
  unfold dataStokes at hth ⊢
  rw [split_ok hh hw, Py.ok_bind, hL] at hth
  rw [split_ok hh' hw', Py.ok_bind, hL]
  injection hth with hth
  congr 1
  generalize hkept : (fun Y X : Nat => InRegion _ _ (0, 360) (Y : ℝ) (X : ℝ)) = kept at hst
  have hdat' : IsSelection ((runOps ops).data k) (fun Y X => kept (Y / 2) (X / 2)) 0 (s'.data k) := by
    rw [← hkept]; exact hdat
  clear hdat
  funext j
  have hsj := hst j
  rw [← hth] at hsj
  have hpix : ∀ Y X (q : Fin 4), Y < ((runOps ops).data k).h / 2 → X < ((runOps ops).data k).w / 2 →
      (kept Y X → (s'.data k).px (2 * Y + q / 2) (2 * X + q % 2) = ((runOps ops).data k).px (2 * Y + q / 2) (2 * X + q % 2)) ∧
      (¬ kept Y X → (s'.data k).px (2 * Y + q / 2) (2 * X + q % 2) = 0) := by
    intro Y X q hY hX
    have hq := q.isLt
    have := hdat'.2.2 (2 * Y + q / 2) (2 * X + q % 2) (by omega) (by omega)
    beta_reduce at this
    rw [show (2 * Y + (q : Nat) / 2) / 2 = Y by omega, show (2 * X + (q : Nat) % 2) / 2 = X by omega] at this
    exact this
  have e1 : (s'.data k).h = ((runOps ops).data k).h := hdat'.1
  have e2 : (s'.data k).w = ((runOps ops).data k).w := hdat'.2.1
  have hIS := stokesClosed_spec (fun q : Fin 4 => Img.ofFn ((s'.data k).h / 2) ((s'.data k).w / 2)
    (fun y x => (s'.data k).px (2 * y + q.val / 2) (2 * x + q.val % 2))) L (fun _ => rfl) (fun _ => rfl)
  have hIS0 := stokesClosed_spec (fun q : Fin 4 => Img.ofFn (((runOps ops).data k).h / 2) (((runOps ops).data k).w / 2)
    (fun y x => ((runOps ops).data k).px (2 * y + q.val / 2) (2 * x + q.val % 2))) L (fun _ => rfl) (fun _ => rfl)
  refine Img.ext_px ?_ ?_ ?_
  · refine ((hIS.1 j).1).trans ?_
    rw [hsj.1, (hIS0.1 j).1]
    show (s'.data k).h / 2 = _
    rw [e1]; rfl
  · refine ((hIS.1 j).2).trans ?_
    rw [hsj.2.1, (hIS0.1 j).2]
    show (s'.data k).w / 2 = _
    rw [e2]; rfl
  · intro Y X hY hX
    have hY1 : Y < (s'.data k).h / 2 := by
      have := (hIS.1 j).1
      rw [this] at hY
      exact hY
    have hX1 : X < (s'.data k).w / 2 := by
      have := (hIS.1 j).2
      rw [this] at hX
      exact hX
    have hY0 : Y < ((runOps ops).data k).h / 2 := by rw [← e1]; exact hY1
    have hX0 : X < ((runOps ops).data k).w / 2 := by rw [← e2]; exact hX1
    have p1 := hIS.2 Y X hY1 hX1
    have p0 := hIS0.2 Y X hY0 hX0
    simp only [Img.ofFn_px hY1 hX1] at p1
    simp only [Img.ofFn_px hY0 hX0] at p0
    have hpx := hsj.2.2 Y X (by rw [(hIS0.1 j).1]; exact hY0) (by rw [(hIS0.1 j).2]; exact hX0)
    by_cases hK : kept Y X
    · rw [hpx.1 hK]
      have hq := fun q => (hpix Y X q hY0 hX0).1 hK
      simp only [hq] at p1
      fin_cases j
      · exact p1.1.trans p0.1.symm
      · exact p1.2.1.trans p0.2.1.symm
      · exact p1.2.2.trans p0.2.2.symm
    · rw [hpx.2 hK]
      have hq := fun q => (hpix Y X q hY0 hX0).2 hK
      simp only [hq] at p1
      fin_cases j
      · exact p1.1.trans (by simp)
      · exact p1.2.1.trans (by simp)
      · exact p1.2.2.trans (by simp)

/-- C48, violation for another fill: masking everything with 7 makes I equal 7, where the theoretical value is 14. -/
theorem C48_other_fill : ∃ (ops : List Op) (k : Nat) (S : Fin 3 → Img ℝ), k ∈ (runOps ops).images ∧
    dataStokes ((runOps ops).data k) ((runOps ops).dic k) = .ok S ∧
    (S 0).px 0 0 = 14 ∧ ((runOps ops).stokes k 0).px 0 0 = 7 := by
  obtain ⟨S, hS, hsh, -, -, hrun⟩ := darkBright_run
  set mk : Op := .fromArray darkBright none none none fun _ _ => 0 with hmk
  have hi : (runOps [mk]).images[0]? = some 0 := by rw [hrun]; rfl
  have hv0 : (runOps [mk]).heap.view 0 = freshView darkBright S polarCamAngles := by
    rw [hrun]
    exact arrayHeap_view darkBright S none initState.heap
  have hsz : AllAlong Sized [mk] := by
    intro pre o post he i D k ho
    subst ho
    have : Op.demodulate i D false ∈ [mk] := by rw [he]; simp
    simp [hmk] at this
  have hnc : ¬ Congridded [mk] 0 := C44_no_congrid _ (by
    intro o ho i ny nx h
    rw [List.mem_singleton.1 ho, hmk] at h
    cases h) 0
  have hdem : (runOps [mk]).isDemosaiced 0 = false := congrArg ImgView.isDemosaiced hv0
  obtain ⟨-, hdat, hst⟩ := C48_consistent [mk] hsz 0 0 hi hnc hdem 0 0 100 0 7 0 0 50 (by unfold IsTrunc; norm_num)
    (by unfold IsTrunc; norm_num) (by unfold IsTrunc; norm_num)
  have hdata : (runOps [mk]).data 0 = darkBright := congrArg ImgView.data hv0
  have hstok : (runOps [mk]).stokes 0 = S := congrArg (fun v => v.stokes.planes) hv0
  have hdic : (runOps [mk]).dic 0 = polarCamAngles := congrArg ImgView.dic hv0
  have hno : ¬ InRegion (((0 : ℤ) : ℝ), ((0 : ℤ) : ℝ)) (((50 : ℤ) : ℝ),
      ((max ((runOps [mk]).data 0).h ((runOps [mk]).data 0).w : Nat) : ℝ)) (0, 360) ((0 : Nat) : ℝ) ((0 : Nat) : ℝ) := by
    rintro ⟨ρ, φ, -, g1, g2, -⟩
    rw [hdata] at g2
    have hmax : ((max darkBright.h darkBright.w : Nat) : ℝ) = 4 := by
      have : max darkBright.h darkBright.w = 4 := rfl
      rw [this]; norm_num
    have g2' : ρ ≤ ((max darkBright.h darkBright.w : Nat) : ℝ) := g2
    rw [hmax] at g2'
    norm_num at g1
    linarith
  set s' := step (runOps [mk]) (.maskOcculter 0 0 0 100 0 7) with hs'
  have e : runOps [mk, .maskOcculter 0 0 0 100 0 7] = s' := runOps_snoc [mk] _
  have hh : (s'.data 0).h = 2 := by rw [hdat.1, hdata]; rfl
  have hw : (s'.data 0).w = 4 := by rw [hdat.2.1, hdata]; rfl
  have hdic' : s'.dic 0 = polarCamAngles := (C45_kept [mk] _ 0 (List.mem_of_getElem? hi)).trans hdic
  obtain ⟨T, t1, -, t3⟩ := C17_stokes (s'.data 0) (by rw [hh]) (by rw [hw]) ⟨0, 1, 2, 3⟩ polarCamAngles C02_polarCam.1
  refine ⟨[mk, .maskOcculter 0 0 0 100 0 7], 0, T, ?_, ?_, ?_, ?_⟩
  · rw [e]; exact List.mem_of_getElem? (getElem?_step _ hi)
  · rw [e, hdic']; exact t1
  · rw [(t3 0 0 (by rw [hh]; decide) (by rw [hw]; decide)).1]
    have h7 : ∀ a b, a < 2 → b < 2 → (s'.data 0).px a b = 7 := by
      intro a b ha hb
      refine (hdat.2.2 a b (by rw [hdata]; exact ha) (by rw [hdata]; show b < 4; omega)).2 ?_
      beta_reduce
      rw [show a / 2 = 0 by omega, show b / 2 = 0 by omega]
      exact hno
    dsimp only
    rw [h7 _ _ (by decide) (by decide), h7 _ _ (by decide) (by decide), h7 _ _ (by decide) (by decide),
      h7 _ _ (by decide) (by decide)]
    norm_num
  · rw [e]
    exact ((hst 0).2.2 0 0 (by rw [hstok, (hsh 0).1]; decide) (by rw [hstok, (hsh 0).2]; decide)).2 hno

end Micropol
