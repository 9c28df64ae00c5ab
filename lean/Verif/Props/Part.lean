import Verif.Spec.Part
import Verif.Props.Locality
import Verif.Props.HotPixels
import Verif.Props.Polarization

/-!
# C133: working on a part of the image

Full property: working on a part of an image that consists of whole superpixels, with the same parts of dark, flat, flags and tensor,
gives the part of what working on the image gives.

True without restriction for the Stokes maps, the polarization, the dark, binning (if the part begins at a bin), averaging demosaic and
demodulation; away from the edges of the part where neighbouring superpixels are used (interpolating demosaic, IFOV, hot pixels,
Chen-Wang-Liang).  False for the flat, whose mean is another one for the part: the result has another gain (`C133_flat_partial`,
`C133_full_claim_false`).
-/

set_option autoImplicit false
set_option linter.unusedSectionVars false

namespace Micropol

theorem part_px {α : Type} [Zero α] {A : Img α} {y₀ x₀ h w y x : Nat} (hy : y < h) (hx : x < w) :
    (A.part y₀ x₀ h w).px y x = A.px (y₀ + y) (x₀ + x) := Img.ofFn_px hy hx

theorem part_super {α : Type} [Zero α] {A : Img α} {y₀ x₀ h w Y X a b : Nat} (hp : A.WholePart y₀ x₀ h w) (hY : Y < h / 2)
    (hX : X < w / 2) (ha : a < 2) (hb : b < 2) :
    (A.part y₀ x₀ h w).px (2 * Y + a) (2 * X + b) = A.px (2 * (y₀ / 2 + Y) + a) (2 * (x₀ / 2 + X) + b) := by
  have := hp.top
  have := hp.left
  rw [part_px (by omega) (by omega), show y₀ + (2 * Y + a) = 2 * (y₀ / 2 + Y) + a by omega,
    show x₀ + (2 * X + b) = 2 * (x₀ / 2 + X) + b by omega]

theorem part_shape {α β : Type} [Zero α] [Zero β] (A : Img α) (B : Img β) (y₀ x₀ h w : Nat) :
    (A.part y₀ x₀ h w).h = (B.part y₀ x₀ h w).h ∧ (A.part y₀ x₀ h w).w = (B.part y₀ x₀ h w).w := ⟨rfl, rfl⟩

section
variable {K : Type} [Field K] {A : Img K} {y₀ x₀ h w : Nat}

/-- C133: the families of pixels of the part are the parts of the families. -/
theorem C133_split (hp : A.WholePart y₀ x₀ h w) :
    ∃ s t, splitPolarizations A = .ok s ∧ splitPolarizations (A.part y₀ x₀ h w) = .ok t ∧
      ∀ k, t k = (s k).part (y₀ / 2) (x₀ / 2) (h / 2) (w / 2) := by
  refine ⟨_, _, split_ok hp.rows hp.cols, split_ok hp.height hp.width, fun k => Img.ext_px rfl rfl ?_⟩
  intro Y X (hY : Y < h / 2) (hX : X < w / 2)
  have := k.isLt
  have h1 := hp.top
  have h2 := hp.left
  have h3 := hp.below
  have h4 := hp.right
  rw [part_px hY hX, Img.ofFn_px (by exact hY) (by exact hX), Img.ofFn_px (by omega) (by omega),
    part_super hp hY hX (by omega) (by omega)]

/-- C133: the Stokes maps of the part are the parts of the Stokes maps. -/
theorem C133_stokes (hp : A.WholePart y₀ x₀ h w) {L : Layout} {dic : AngleDic} (hL : L.Describes dic) :
    ∃ S T, dataStokes A dic = .ok S ∧ dataStokes (A.part y₀ x₀ h w) dic = .ok T ∧
      ∀ i, T i = (S i).part (y₀ / 2) (x₀ / 2) (h / 2) (w / 2) := by
  obtain ⟨S, hS, -, sp⟩ := C17_stokes A hp.rows hp.cols L dic hL
  obtain ⟨T, hT, th, tp⟩ := C17_stokes (A.part y₀ x₀ h w) hp.height hp.width L dic hL
  refine ⟨S, T, hS, hT, fun i => Img.ext_px (th i).1 (th i).2 ?_⟩
  intro Y X hY hX
  rw [(th i).1] at hY
  rw [(th i).2] at hX
  have hY : Y < h / 2 := hY
  have hX : X < w / 2 := hX
  have h1 := hp.top
  have h2 := hp.left
  have h3 := hp.below
  have h4 := hp.right
  obtain ⟨t0, t1, t2⟩ := tp Y X hY hX
  obtain ⟨s0, s1, s2⟩ := sp (y₀ / 2 + Y) (x₀ / 2 + X) (by omega) (by omega)
  have e : ∀ k : Fin 4, (A.part y₀ x₀ h w).px (2 * Y + k.val / 2) (2 * X + k.val % 2) =
      A.px (2 * (y₀ / 2 + Y) + k.val / 2) (2 * (x₀ / 2 + X) + k.val % 2) := fun k => by
    have := k.isLt
    exact part_super hp hY hX (by omega) (by omega)
  rw [part_px hY hX]
  simp only [e] at t0 t1 t2
  match i with
  | 0 => exact t0.trans s0.symm
  | 1 => exact t1.trans s1.symm
  | 2 => exact t2.trans s2.symm

/-- C133: demosaicing by averages. -/
theorem C133_demosaic_mean (hp : A.WholePart y₀ x₀ h w) :
    ∃ r s, demosaic A "mean" = .ok r ∧ demosaic (A.part y₀ x₀ h w) "mean" = .ok s ∧ ∀ k, s k = (r k).part y₀ x₀ h w := by
  unfold demosaic
  rw [if_pos rfl, if_pos rfl]
  refine ⟨_, _, demosaicmean_ok A hp.rows hp.cols, demosaicmean_ok _ hp.height hp.width, fun k => Img.ext_px rfl rfl ?_⟩
  intro y x (hy : y < h) (hx : x < w)
  have := k.isLt
  have h1 := hp.top
  have h2 := hp.left
  have h3 := hp.below
  have h4 := hp.right
  have h5 := hp.height
  have h6 := hp.width
  rw [part_px hy hx, Img.ofFn_px (by exact hy) (by exact hx), Img.ofFn_px (by omega) (by omega),
    part_super hp (by omega) (by omega) (by omega) (by omega),
    show (y₀ + y) / 2 = y₀ / 2 + y / 2 by omega, show (x₀ + x) / 2 = x₀ / 2 + x / 2 by omega]

/-- C133: demosaicing by interpolation, except in the last row and column of the part. -/
theorem C133_demosaic_adjacent [CharZero K] (hp : A.WholePart y₀ x₀ h w) :
    ∃ r s, demosaic A "adjacent" = .ok r ∧ demosaic (A.part y₀ x₀ h w) "adjacent" = .ok s ∧
      ∀ k, (s k).HasShape h w ∧ ∀ y x, y + 1 < h → x + 1 < w → (s k).px y x = (r k).px (y₀ + y) (x₀ + x) := by
  obtain ⟨r, hr, rp⟩ := C14_adjacent A _ (split_ok hp.rows hp.cols)
  obtain ⟨s, hs, sp⟩ := C14_adjacent (A.part y₀ x₀ h w) _ (split_ok hp.height hp.width)
  refine ⟨r, s, hr, hs, fun k => ⟨⟨(sp k).1, (sp k).2.1⟩, ?_⟩⟩
  intro y x hy hx
  have hk := k.isLt
  have h1 := hp.top
  have h2 := hp.left
  have h3 := hp.below
  have h4 := hp.right
  have h5 := hp.height
  have h6 := hp.width
  have h7 := hp.rows
  have h8 := hp.cols
  have es := (sp k).2.2 (y / 2) (x / 2) (y % 2) (x % 2) (show y / 2 < h / 2 by omega) (show x / 2 < w / 2 by omega) (by omega) (by omega)
  have er := (rp k).2.2 (y₀ / 2 + y / 2) (x₀ / 2 + x / 2) (y % 2) (x % 2) (by omega) (by omega) (by omega) (by omega)
  rw [Nat.div_add_mod, Nat.div_add_mod] at es
  rw [show 2 * (y₀ / 2 + y / 2) + y % 2 = y₀ + y by omega, show 2 * (x₀ / 2 + x / 2) + x % 2 = x₀ + x by omega] at er
  rw [es, er]
  unfold bilinear
  congr 1
  refine Finset.sum_congr rfl fun a ha => Finset.sum_congr rfl fun b hb => ?_
  rw [Finset.mem_range] at ha hb
  simp only [Img.ofFn_h, Img.ofFn_w]
  have m1 : min (y / 2 + a) ((A.part y₀ x₀ h w).h / 2 - 1) = y / 2 + a := by
    show min (y / 2 + a) (h / 2 - 1) = _
    omega
  have m2 : min (x / 2 + b) ((A.part y₀ x₀ h w).w / 2 - 1) = x / 2 + b := by
    show min (x / 2 + b) (w / 2 - 1) = _
    omega
  have m3 : min (y₀ / 2 + y / 2 + a) (A.h / 2 - 1) = y₀ / 2 + (y / 2 + a) := by omega
  have m4 : min (x₀ / 2 + x / 2 + b) (A.w / 2 - 1) = x₀ / 2 + (x / 2 + b) := by omega
  rw [m1, m2, m3, m4, Img.ofFn_px (by exact (by omega : y / 2 + a < h / 2)) (by exact (by omega : x / 2 + b < w / 2)),
    Img.ofFn_px (by omega) (by omega), part_super hp (by omega) (by omega) (by omega) (by omega)]

/-- C133: binning, of a part that begins at a bin. -/
theorem C133_rebin {b : Nat} (hb : 1 ≤ b) (hy₀ : b ∣ y₀) (hx₀ : b ∣ x₀) (hh : y₀ + h ≤ A.h) (hw : x₀ + w ≤ A.w) :
    ∃ r s, imageRebinData A b = .ok r ∧ imageRebinData (A.part y₀ x₀ h w) b = .ok s ∧
      s = r.part (y₀ / b) (x₀ / b) (h / b) (w / b) := by
  obtain ⟨p, rfl⟩ := hy₀
  obtain ⟨q, rfl⟩ := hx₀
  obtain ⟨r, hr, r1, r2, r3⟩ := C08_rebin A b hb
  obtain ⟨s, hs, s1, s2, s3⟩ := C08_rebin (A.part (b * p) (b * q) h w) b hb
  refine ⟨r, s, hr, hs, Img.ext_px s1 s2 ?_⟩
  intro Y X hY hX
  have hv := s3 Y X hY hX
  rw [s1] at hY
  rw [s2] at hX
  have hY : Y < h / b := hY
  have hX : X < w / b := hX
  have hYb : b * (Y + 1) ≤ h := (Nat.mul_le_mul_left b hY).trans (Nat.mul_div_le h b)
  have hXb : b * (X + 1) ≤ w := (Nat.mul_le_mul_left b hX).trans (Nat.mul_div_le w b)
  rw [part_px hY hX, Nat.mul_div_cancel_left p hb, Nat.mul_div_cancel_left q hb, hv, r3]
  · refine Finset.sum_congr rfl fun u hu => Finset.sum_congr rfl fun v hv => ?_
    rw [Finset.mem_range] at hu hv
    rw [Nat.mul_succ] at hYb hXb
    rw [part_px (by omega) (by omega)]
    congr 1 <;> ring
  · rw [r1]
    refine Nat.lt_of_succ_le ((Nat.le_div_iff_mul_le hb).2 ?_)
    have : (p + Y).succ * b = b * p + b * (Y + 1) := by rw [Nat.succ_eq_add_one]; ring
    omega
  · rw [r2]
    refine Nat.lt_of_succ_le ((Nat.le_div_iff_mul_le hb).2 ?_)
    have : (q + X).succ * b = b * q + b * (X + 1) := by rw [Nat.succ_eq_add_one]; ring
    omega

/-- C133: binning of superpixels, of a part that begins at a bin of `b` superpixels. -/
theorem C133_rebin_micropol (hp : A.WholePart y₀ x₀ h w) {b : Nat} (hb : 1 ≤ b) (hy₀ : 2 * b ∣ y₀) (hx₀ : 2 * b ∣ x₀) :
    ∃ r s, micropolRebinData A b = .ok r ∧ micropolRebinData (A.part y₀ x₀ h w) b = .ok s ∧
      s = r.part (y₀ / b) (x₀ / b) (2 * (h / (2 * b))) (2 * (w / (2 * b))) := by
  unfold micropolRebinData
  rw [if_neg (by omega), if_neg (by omega), micropolarrayRebin_ok A b hb hp.rows hp.cols,
    micropolarrayRebin_ok _ b hb hp.height hp.width]
  refine ⟨_, _, rfl, rfl, Img.ext_px rfl rfl ?_⟩
  intro Y X (hY : Y < 2 * (h / (2 * b))) (hX : X < 2 * (w / (2 * b)))
  have h3 := hp.below
  have h4 := hp.right
  obtain ⟨p, rfl⟩ := hy₀
  obtain ⟨q, rfl⟩ := hx₀
  have ep : 2 * b * p / b = 2 * p := by
    rw [show 2 * b * p = b * (2 * p) by ring, Nat.mul_div_cancel_left _ hb]
  have eq : 2 * b * q / b = 2 * q := by
    rw [show 2 * b * q = b * (2 * q) by ring, Nat.mul_div_cancel_left _ hb]
  have hYb : 2 * b * (Y / 2 + 1) ≤ h := (Nat.mul_le_mul_left _ (show Y / 2 + 1 ≤ h / (2 * b) by omega)).trans (Nat.mul_div_le h _)
  have hXb : 2 * b * (X / 2 + 1) ≤ w := (Nat.mul_le_mul_left _ (show X / 2 + 1 ≤ w / (2 * b) by omega)).trans (Nat.mul_div_le w _)
  have hA : p + Y / 2 < A.h / (2 * b) := by
    refine Nat.lt_of_succ_le ((Nat.le_div_iff_mul_le (by omega)).2 ?_)
    have : (p + Y / 2).succ * (2 * b) = 2 * b * p + 2 * b * (Y / 2 + 1) := by rw [Nat.succ_eq_add_one]; ring
    omega
  have hB : q + X / 2 < A.w / (2 * b) := by
    refine Nat.lt_of_succ_le ((Nat.le_div_iff_mul_le (by omega)).2 ?_)
    have : (q + X / 2).succ * (2 * b) = 2 * b * q + 2 * b * (X / 2 + 1) := by rw [Nat.succ_eq_add_one]; ring
    omega
  rw [part_px hY hX, ep, eq, Img.ofFn_px (by exact hY) (by exact hX), Img.ofFn_px (by omega) (by omega)]
  unfold blockSum
  refine Finset.sum_congr rfl fun u hu => Finset.sum_congr rfl fun v hv => ?_
  rw [Finset.mem_range] at hu hv
  have e1 : (2 * p + Y) / 2 = p + Y / 2 := by omega
  have e2 : (2 * q + X) / 2 = q + X / 2 := by omega
  have e3 : (2 * p + Y) % 2 = Y % 2 := by omega
  have e4 : (2 * q + X) % 2 = X % 2 := by omega
  have d1 : 2 * b * (Y / 2 + 1) = 2 * b * (Y / 2) + 2 * b := by ring
  have d2 : 2 * b * (X / 2 + 1) = 2 * b * (X / 2) + 2 * b := by ring
  have d3 : 2 * b * (p + Y / 2) = 2 * b * p + 2 * b * (Y / 2) := by ring
  have d4 : 2 * b * (q + X / 2) = 2 * b * q + 2 * b * (X / 2) := by ring
  rw [part_px (by omega) (by omega), e1, e2, e3, e4, d3, d4]
  congr 1 <;> omega

/-- C133: demodulation with the part of the tensor (with or without flags), over the part of the previous maps. -/
theorem C133_demodulate [DecidableEq K] (hp : A.WholePart y₀ x₀ h w) {prev : Fin 3 → Img K}
    (hprev : ∀ i, (prev i).HasShape (A.h / 2) (A.w / 2)) {D : Demodulator K} (hD : D.HasShape (A.h / 2) (A.w / 2))
    (hF : ∀ F, D.fitFoundFlags = some F → F.HasShape (A.h / 2) (A.w / 2)) :
    ∃ S T, demodulatePlain A prev D = .ok S ∧
      demodulatePlain (A.part y₀ x₀ h w) (fun i => (prev i).part (y₀ / 2) (x₀ / 2) (h / 2) (w / 2))
        (D.part (y₀ / 2) (x₀ / 2) (h / 2) (w / 2)) = .ok T ∧
      ∀ i, T i = (S i).part (y₀ / 2) (x₀ / 2) (h / 2) (w / 2) := by
  obtain ⟨s, t, hs, ht, hst⟩ := C133_split hp
  have h1 := hp.top
  have h2 := hp.left
  have h3 := hp.below
  have h4 := hp.right
  have hDp : (D.part (y₀ / 2) (x₀ / 2) (h / 2) (w / 2)).HasShape ((A.part y₀ x₀ h w).h / 2) ((A.part y₀ x₀ h w).w / 2) :=
    fun _ _ => ⟨rfl, rfl⟩
  have hcomp : ∀ i j (Y X : Nat), Y < h / 2 → X < w / 2 →
      ((D.part (y₀ / 2) (x₀ / 2) (h / 2) (w / 2)).mij i j).px Y X * (t j).px Y X =
        (D.mij i j).px (y₀ / 2 + Y) (x₀ / 2 + X) * (s j).px (y₀ / 2 + Y) (x₀ / 2 + X) := by
    intro i j Y X hY hX
    rw [hst, part_px hY hX]
    show ((D.mij i j).part _ _ _ _).px Y X * _ = _
    rw [part_px hY hX]
  cases hfl : D.fitFoundFlags with
  | none =>
    obtain ⟨S, hS, sp⟩ := C24_no_flags A s hs prev D hD hfl
    obtain ⟨T, hT, tp⟩ := C24_no_flags (A.part y₀ x₀ h w) t ht (fun i => (prev i).part (y₀ / 2) (x₀ / 2) (h / 2) (w / 2)) _ hDp
      (show D.fitFoundFlags.map _ = none by rw [hfl]; rfl)
    refine ⟨S, T, hS, hT, fun i => Img.ext_px (tp i).1.1 (tp i).1.2 ?_⟩
    intro Y X hY hX
    rw [(tp i).1.1] at hY
    rw [(tp i).1.2] at hX
    have hY : Y < h / 2 := hY
    have hX : X < w / 2 := hX
    rw [part_px hY hX, (tp i).2 Y X hY hX, (sp i).2 _ _ (by omega) (by omega)]
    exact Finset.sum_congr rfl fun j _ => hcomp i j Y X hY hX
  | some F =>
    obtain ⟨S, hS, sp⟩ := C24_flags A s hs prev hprev D hD F hfl (hF F hfl)
    obtain ⟨T, hT, tp⟩ := C24_flags (A.part y₀ x₀ h w) t ht (fun i => (prev i).part (y₀ / 2) (x₀ / 2) (h / 2) (w / 2))
      (fun _ => ⟨rfl, rfl⟩) _ hDp (F.part (y₀ / 2) (x₀ / 2) (h / 2) (w / 2)) (show D.fitFoundFlags.map _ = _ by rw [hfl]; rfl) ⟨rfl, rfl⟩
    refine ⟨S, T, hS, hT, fun i => Img.ext_px (tp i).1.1 (tp i).1.2 ?_⟩
    intro Y X hY hX
    rw [(tp i).1.1] at hY
    rw [(tp i).1.2] at hX
    have hY : Y < h / 2 := hY
    have hX : X < w / 2 := hX
    rw [part_px hY hX, (tp i).2 Y X hY hX, (sp i).2 _ _ (by omega) (by omega), part_px hY hX, part_px hY hX,
      Finset.sum_congr rfl fun j _ => hcomp i j Y X hY hX]

/-- C133: demodulation with demosaicing, except in the last row and column of the part. -/
theorem C133_demodulate_demosaicing [CharZero K] [DecidableEq K] (hp : A.WholePart y₀ x₀ h w) {L : Layout} {dic : AngleDic}
    (hL : L.Describes dic) {D : Demodulator K} (hD : D.HasShape (A.h / 2) (A.w / 2)) {F : Img K} (hf : D.fitFoundFlags = some F)
    (hF : F.HasShape (A.h / 2) (A.w / 2)) :
    ∃ S T, demodulateDemosaicing A dic D = .ok S ∧
      demodulateDemosaicing (A.part y₀ x₀ h w) dic (D.part (y₀ / 2) (x₀ / 2) (h / 2) (w / 2)) = .ok T ∧
      ∀ i, (T i).HasShape h w ∧ ∀ y x, y + 1 < h → x + 1 < w → (T i).px y x = (S i).px (y₀ + y) (x₀ + x) := by
  obtain ⟨r, s, hr, hs, hrs⟩ := C133_demosaic_adjacent hp
  obtain ⟨r', U, S, hr', hU, hS, sp⟩ := C26_demosaicing A hp.rows hp.cols dic L hL D hD F hf hF
  obtain ⟨s', V, T, hs', hV, hT, tp⟩ := C26_demosaicing (A.part y₀ x₀ h w) hp.height hp.width dic L hL
    (D.part (y₀ / 2) (x₀ / 2) (h / 2) (w / 2)) (fun _ _ => ⟨rfl, rfl⟩) (F.part (y₀ / 2) (x₀ / 2) (h / 2) (w / 2))
    (show D.fitFoundFlags.map _ = _ by rw [hf]; rfl) ⟨rfl, rfl⟩
  obtain rfl : r = r' := by rw [hr] at hr'; injection hr'
  obtain rfl : s = s' := by rw [hs] at hs'; injection hs'
  obtain ⟨q, hq, qp⟩ := C14_adjacent A _ (split_ok hp.rows hp.cols)
  obtain rfl : r = q := by rw [hr] at hq; injection hq
  refine ⟨S, T, hS, hT, fun i => ⟨(tp i).1, ?_⟩⟩
  intro y x hy hx
  have h1 := hp.top
  have h2 := hp.left
  have h3 := hp.below
  have h4 := hp.right
  have h5 := hp.height
  have h6 := hp.width
  have hv : ∀ k, (s k).px y x = (r k).px (y₀ + y) (x₀ + x) := fun k => (hrs k).2 y x hy hx
  have hVU : (V i).px y x = (U i).px (y₀ + y) (x₀ + x) := by
    have a := hV.2 y x (by rw [(hrs 0).1.1]; omega) (by rw [(hrs 0).1.2]; omega)
    have b := hU.2 (y₀ + y) (x₀ + x) (by rw [(qp 0).1]; omega) (by rw [(qp 0).2.1]; omega)
    simp only [hv] at a
    match i with
    | 0 => exact a.1.trans b.1.symm
    | 1 => exact a.2.1.trans b.2.1.symm
    | 2 => exact a.2.2.trans b.2.2.symm
  rw [(tp i).2 y x (show y < h by omega) (show x < w by omega), (sp i).2 _ _ (by omega) (by omega), part_px (by omega) (by omega), hVU,
    show (y₀ + y) / 2 = y₀ / 2 + y / 2 by omega, show (x₀ + x) / 2 = x₀ / 2 + x / 2 by omega]
  congr 1
  refine Finset.sum_congr rfl fun j _ => ?_
  rw [hv]
  show ((D.mij i j).part _ _ _ _).px _ _ * _ = _
  rw [part_px (by omega) (by omega)]

end

section
variable {K : Type} [Field K] [LinearOrder K] [IsStrictOrderedRing K] {A : Img K} {y₀ x₀ h w : Nat}

/-- C133: the dark. -/
theorem C133_dark {D : Img K} (hs : A.SameShape D) (hh : y₀ + h ≤ A.h) (hw : x₀ + w ≤ A.w) :
    ∃ r s, subtractDarkData A D = .ok r ∧ subtractDarkData (A.part y₀ x₀ h w) (D.part y₀ x₀ h w) = .ok s ∧
      s = r.part y₀ x₀ h w := by
  obtain ⟨r, hr, -, rp⟩ := C35_dark A D hs
  obtain ⟨s, hs, ss, sp⟩ := C35_dark (A.part y₀ x₀ h w) (D.part y₀ x₀ h w) ⟨rfl, rfl⟩
  refine ⟨r, s, hr, hs, Img.ext_px ss.1 ss.2 ?_⟩
  intro y x hy hx
  rw [ss.1] at hy
  rw [ss.2] at hx
  have hy : y < h := hy
  have hx : x < w := hx
  rw [part_px hy hx, sp y x hy hx, rp _ _ (by omega) (by omega), part_px hy hx, part_px hy hx]

/-- C133: the flat.  The result has the gain `mean of the part / mean of the flat`, wherever the flat is not 0.  Missing from the full
property: that the gain is 1, see `C133_full_claim_false`. -/
theorem C133_flat_partial {F : Img K} (junk junk' : Nat → Nat → K) (hs : A.SameShape F) (hh : y₀ + h ≤ A.h) (hw : x₀ + w ≤ A.w)
    (h0 : h ≠ 0) (w0 : w ≠ 0) (hm : F.mean ≠ 0) (hm' : (F.part y₀ x₀ h w).mean ≠ 0) :
    ∃ r s, correctFlatData junk A F = .ok r ∧ correctFlatData junk' (A.part y₀ x₀ h w) (F.part y₀ x₀ h w) = .ok s ∧
      s.HasShape h w ∧ ∀ y x, y < h → x < w → F.px (y₀ + y) (x₀ + x) ≠ 0 →
        s.px y x = (F.part y₀ x₀ h w).mean / F.mean * r.px (y₀ + y) (x₀ + x) := by
  refine ⟨_, _, correctFlat_ok junk A F hs (by omega) (by omega) hm, correctFlat_ok junk' _ _ ⟨rfl, rfl⟩ h0 w0 hm', ⟨rfl, rfl⟩, ?_⟩
  intro y x hy hx hF
  rw [Img.ofFn_px (by exact hy) (by exact hx), Img.ofFn_px (by omega) (by omega), part_px hy hx, part_px hy hx,
    if_pos (div_ne_zero hF hm), if_pos (div_ne_zero hF hm')]
  field_simp

/-- C133: the IFOV correction, except in the first superpixels of the part. -/
theorem C133_ifov (hp : A.WholePart y₀ x₀ h w) :
    ∃ r s, correctIfovData A = .ok r ∧ correctIfovData (A.part y₀ x₀ h w) = .ok s ∧
      s.HasShape h w ∧ ∀ y x, y < h → x < w → 2 ≤ y → 2 ≤ x → s.px y x = r.px (y₀ + y) (x₀ + x) := by
  obtain ⟨r, hr, -, rp⟩ := C37_ifov A hp.rows hp.cols
  obtain ⟨s, hs, ss, sp⟩ := C37_ifov (A.part y₀ x₀ h w) hp.height hp.width
  refine ⟨r, s, hr, hs, ss, ?_⟩
  intro y x hy hx hy2 hx2
  have h3 := hp.below
  have h4 := hp.right
  rw [(sp y x hy hx).2 hy2 hx2, (rp _ _ (by omega) (by omega)).2 (by omega) (by omega), part_px hy hx, part_px (by omega) hx,
    part_px hy (by omega), part_px (by omega) (by omega), Nat.add_sub_assoc hy2, Nat.add_sub_assoc hx2]

/-- C133: the Chen-Wang-Liang calibration, except in the first superpixels of the part. -/
theorem C133_chen (hp : A.WholePart y₀ x₀ h w) {C : Fin 4 → Fin 4 → Img K} {d : Img K} (hC : ∀ i j, (C i j).SameShape A)
    (hd : A.SameShape d) :
    ∃ r s, chenWanLiang C d A = .ok r ∧
      chenWanLiang (fun i j => (C i j).part y₀ x₀ h w) (d.part y₀ x₀ h w) (A.part y₀ x₀ h w) = .ok s ∧
      s.HasShape h w ∧ ∀ y x, y < h → x < w → 2 ≤ y → 2 ≤ x → s.px y x = r.px (y₀ + y) (x₀ + x) := by
  obtain ⟨m, ms, em, mp⟩ := C69_apply C d A hp.rows hp.cols hC hd
  obtain ⟨n, ns, en, np⟩ := C69_apply (fun i j => (C i j).part y₀ x₀ h w) (d.part y₀ x₀ h w) (A.part y₀ x₀ h w) hp.height hp.width
    (fun _ _ => ⟨rfl, rfl⟩) ⟨rfl, rfl⟩
  have h1 := hp.top
  have h2 := hp.left
  have h3 := hp.below
  have h4 := hp.right
  have h5 := hp.height
  have h6 := hp.width
  have hn : n = m.part y₀ x₀ h w := by
    refine Img.ext_px ns.1 ns.2 ?_
    intro y x hy hx
    rw [ns.1] at hy
    rw [ns.2] at hx
    have hy : y < h := hy
    have hx : x < w := hx
    have e1 := np (y / 2) (x / 2) (famIdx y x) (show y / 2 < h / 2 by omega) (show x / 2 < w / 2 by omega)
    have e2 := mp (y₀ / 2 + y / 2) (x₀ / 2 + x / 2) (famIdx y x) (by omega) (by omega)
    unfold Img.superpixel at e1 e2
    rw [famIdx_val_div, famIdx_val_mod] at e1 e2
    rw [Nat.div_add_mod, Nat.div_add_mod] at e1
    rw [show 2 * (y₀ / 2 + y / 2) + y % 2 = y₀ + y by omega, show 2 * (x₀ / 2 + x / 2) + x % 2 = x₀ + x by omega] at e2
    rw [part_px hy hx, e1, e2]
    refine Finset.sum_congr rfl fun j _ => ?_
    have hj := j.isLt
    have hpd : d.WholePart y₀ x₀ h w := ⟨by rw [← hd.1]; exact hp.rows, by rw [← hd.2]; exact hp.cols, h1, h2, h5, h6,
      by rw [← hd.1]; exact h3, by rw [← hd.2]; exact h4⟩
    rw [part_super hp (by omega) (by omega) (by omega) (by omega), part_super hpd (by omega) (by omega) (by omega) (by omega),
      part_px (by omega) (by omega), show y₀ + 2 * (y / 2) = 2 * (y₀ / 2 + y / 2) by omega,
      show x₀ + 2 * (x / 2) = 2 * (x₀ / 2 + x / 2) by omega]
  have hpm : m.WholePart y₀ x₀ h w := ⟨by rw [ms.1]; exact hp.rows, by rw [ms.2]; exact hp.cols, h1, h2, h5, h6,
    by rw [ms.1]; exact h3, by rw [ms.2]; exact h4⟩
  obtain ⟨r, s, hr, hs, ss, sp⟩ := C133_ifov hpm
  exact ⟨r, s, by rw [em, hr], by rw [en, hn, hs], ss, sp⟩

end

/-- C133: hot pixels with the filter of the code, except in the first superpixels of the part. -/
theorem C133_hot_pixels {A F : Img ℝ} {y₀ x₀ h w : Nat} (hp : A.WholePart y₀ x₀ h w) (hs : A.SameShape F) :
    ∃ r s, cleanHotPixelsData (medianFilter 2) A F = .ok r ∧
      cleanHotPixelsData (medianFilter 2) (A.part y₀ x₀ h w) (F.part y₀ x₀ h w) = .ok s ∧
      s.HasShape h w ∧ ∀ y x, y < h → x < w → 2 ≤ y → 2 ≤ x → s.px y x = r.px (y₀ + y) (x₀ + x) := by
  obtain ⟨r, hr, rs, rp⟩ := C38_clean (medianFilter 2) (medianFilter_shape 2) A F _ (split_ok hp.rows hp.cols) hs
  obtain ⟨s, hs', ss, sp⟩ := C38_clean (medianFilter 2) (medianFilter_shape 2) (A.part y₀ x₀ h w) (F.part y₀ x₀ h w) _
    (split_ok hp.height hp.width) ⟨rfl, rfl⟩
  refine ⟨r, s, hr, hs', ss, ?_⟩
  intro y x hy hx hy2 hx2
  have h1 := hp.top
  have h2 := hp.left
  have h3 := hp.below
  have h4 := hp.right
  have h5 := hp.height
  have h6 := hp.width
  have e1 := sp (y / 2) (x / 2) (famIdx y x) (show y / 2 < h / 2 by omega) (show x / 2 < w / 2 by omega)
  have e2 := rp (y₀ / 2 + y / 2) (x₀ / 2 + x / 2) (famIdx y x) (by omega) (by omega)
  dsimp only at e1 e2
  rw [famIdx_val_div, famIdx_val_mod] at e1 e2
  rw [Nat.div_add_mod, Nat.div_add_mod] at e1
  rw [show 2 * (y₀ / 2 + y / 2) + y % 2 = y₀ + y by omega, show 2 * (x₀ / 2 + x / 2) + x % 2 = x₀ + x by omega] at e2
  rw [part_px hy hx] at e1
  by_cases hF : F.px (y₀ + y) (x₀ + x) = 1
  · rw [e1.2 hF, e2.2 hF]
    unfold medianFilter
    rw [Img.ofFn_px (by exact (by omega : y / 2 < h / 2)) (by exact (by omega : x / 2 < w / 2)),
      Img.ofFn_px (by exact (by omega : y₀ / 2 + y / 2 < A.h / 2)) (by exact (by omega : x₀ / 2 + x / 2 < A.w / 2)),
      filterWindow_two _ (by exact (by omega : y / 2 < h / 2)) (by exact (by omega : x / 2 < w / 2)),
      filterWindow_two _ (by exact (by omega : y₀ / 2 + y / 2 < A.h / 2)) (by exact (by omega : x₀ / 2 + x / 2 < A.w / 2))]
    have hv : ∀ a b : Nat, a < h / 2 → b < w / 2 →
        (Img.ofFn ((A.part y₀ x₀ h w).h / 2) ((A.part y₀ x₀ h w).w / 2) fun Y X =>
          (A.part y₀ x₀ h w).px (2 * Y + y % 2) (2 * X + x % 2)).px a b =
        (Img.ofFn (A.h / 2) (A.w / 2) fun Y X => A.px (2 * Y + y % 2) (2 * X + x % 2)).px (y₀ / 2 + a) (x₀ / 2 + b) := by
      intro a b ha hb
      rw [Img.ofFn_px (by exact ha) (by exact hb), Img.ofFn_px (by omega) (by omega), part_super hp ha hb (by omega) (by omega)]
    have b1 : before (y₀ / 2 + y / 2) = y₀ / 2 + before (y / 2) := by unfold before; omega
    have b2 : before (x₀ / 2 + x / 2) = x₀ / 2 + before (x / 2) := by unfold before; omega
    have c1 : before (y / 2) < h / 2 := by unfold before; omega
    have c2 : before (x / 2) < w / 2 := by unfold before; omega
    rw [b1, b2, hv _ _ c1 c2, hv _ _ c1 (by omega), hv _ _ (by omega) c2, hv _ _ (by omega) (by omega)]
  · rw [e1.1 hF, e2.1 hF, part_px hy hx]

/-- C133: polarized brightness, angle and degree of the part. -/
theorem C133_polarization {S : Fin 3 → Img ℝ} (hS : SameShape S) {Y₀ X₀ H W : Nat} (hh : Y₀ + H ≤ (S 0).h) (hw : X₀ + W ≤ (S 0).w) :
    pB (fun i => (S i).part Y₀ X₀ H W) = (pB S).part Y₀ X₀ H W ∧
    AoLP (fun i => (S i).part Y₀ X₀ H W) = (AoLP S).part Y₀ X₀ H W ∧
    ∃ D E, DoLP S = .ok D ∧ DoLP (fun i => (S i).part Y₀ X₀ H W) = .ok E ∧ E = D.part Y₀ X₀ H W := by
  have hP : SameShape (fun i => (S i).part Y₀ X₀ H W) := fun _ => ⟨rfl, rfl⟩
  have hpb : ∀ Y X, Y < H → X < W → (pB (fun i => (S i).part Y₀ X₀ H W)).px Y X = (pB S).px (Y₀ + Y) (X₀ + X) := by
    intro Y X hY hX
    rw [pB_px hP hY hX, pB_px hS (by omega) (by omega), part_px hY hX, part_px hY hX]
  refine ⟨Img.ext_px rfl rfl ?_, Img.ext_px rfl rfl ?_, ?_⟩
  · intro Y X (hY : Y < H) (hX : X < W)
    rw [part_px hY hX, hpb Y X hY hX]
  · intro Y X (hY : Y < H) (hX : X < W)
    rw [part_px hY hX, AoLP_px hP hY hX, AoLP_px hS (by omega) (by omega), part_px hY hX, part_px hY hX]
  · obtain ⟨D, hD, -, -, dp⟩ := C19_total S hS
    obtain ⟨E, hE, e1, e2, ep⟩ := C19_total _ hP
    refine ⟨D, E, hD, hE, Img.ext_px e1 e2 ?_⟩
    intro Y X hY hX
    rw [e1] at hY
    rw [e2] at hX
    have hY : Y < H := hY
    have hX : X < W := hX
    obtain ⟨d1, d2⟩ := dp (Y₀ + Y) (X₀ + X) (by omega) (by omega)
    obtain ⟨k1, k2⟩ := ep Y X hY hX
    rw [part_px hY hX] at k1 k2 ⊢
    by_cases h0 : (S 0).px (Y₀ + Y) (X₀ + X) = 0
    · rw [k1 h0, d1 h0]
    · rw [k2 h0, d2 h0, hpb Y X hY hX]

/-- A flat that is brighter in its right half. -/
def halfFlat : Img ℚ := Img.ofFn 2 4 fun _ x => if x < 2 then 1 else 3

/-- C133: the full claim is false.  The left half of an image that is corrected with the left half of the flat differs from the left
half of the corrected image. -/
theorem C133_full_claim_false :
    ¬ ∀ (A F r s : Img ℚ) (junk : Nat → Nat → ℚ) (y₀ x₀ h w : Nat), A.WholePart y₀ x₀ h w → A.SameShape F →
      (∀ y x, y < F.h → x < F.w → F.px y x ≠ 0) → correctFlatData junk A F = .ok r →
      correctFlatData junk (A.part y₀ x₀ h w) (F.part y₀ x₀ h w) = .ok s → s = r.part y₀ x₀ h w := by
  intro hc
  have e : ∀ y x, y < 2 → x < 4 → halfFlat.px y x = if x < 2 then 1 else 3 := fun y x hy hx => Img.ofFn_px hy hx
  have m1 : halfFlat.mean = 2 := by
    unfold Img.mean Img.total Img.totalOn
    show (∑ y ∈ Finset.range 2, ∑ x ∈ Finset.range 4, halfFlat.px y x) / (((2 * 4 : ℕ)) : ℚ) = 2
    simp [Finset.sum_range_succ, e]
    norm_num
  have m2 : (halfFlat.part 0 0 2 2).mean = 1 := by
    have e' : ∀ y x, y < 2 → x < 2 → (halfFlat.part 0 0 2 2).px y x = 1 := by
      intro y x hy hx
      rw [part_px hy hx, e _ _ (by omega) (by omega), if_pos (by omega)]
    unfold Img.mean Img.total Img.totalOn
    show (∑ y ∈ Finset.range 2, ∑ x ∈ Finset.range 2, (halfFlat.part 0 0 2 2).px y x) / (((2 * 2 : ℕ)) : ℚ) = 1
    simp [Finset.sum_range_succ, e']
    norm_num
  obtain ⟨r, s, hr, hs, -, hv⟩ := C133_flat_partial (A := Img.const 2 4 (1 : ℚ)) (F := halfFlat) (y₀ := 0) (x₀ := 0) (h := 2) (w := 2)
    (fun _ _ => 0) (fun _ _ => 0) ⟨rfl, rfl⟩ (show 0 + 2 ≤ 2 by omega) (show 0 + 2 ≤ 4 by omega) (by omega) (by omega)
    (by rw [m1]; norm_num) (by rw [m2]; norm_num)
  have hne : ∀ y x, y < halfFlat.h → x < halfFlat.w → halfFlat.px y x ≠ 0 := by
    intro y x hy hx
    rw [e y x hy hx]
    split_ifs <;> norm_num
  have := hc (Img.const 2 4 1) halfFlat r s (fun _ _ => 0) 0 0 2 2 ⟨rfl, rfl, rfl, rfl, rfl, rfl, show 0 + 2 ≤ 2 by omega, show 0 + 2 ≤ 4 by omega⟩ ⟨rfl, rfl⟩ hne hr hs
  have h0 := hv 0 0 (by omega) (by omega) (hne 0 0 (show 0 < 2 by omega) (show 0 < 4 by omega))
  rw [this, part_px (by omega) (by omega), m1, m2] at h0
  have hr0 : r.px 0 0 = 2 := by
    rw [correctFlat_ok (fun _ _ => 0) (Img.const 2 4 1) halfFlat ⟨rfl, rfl⟩ (show 2 ≠ 0 by omega) (show 4 ≠ 0 by omega) (by rw [m1]; norm_num)] at hr
    injection hr with hr
    rw [← hr, Img.ofFn_px (by exact (by omega : 0 < 2)) (by exact (by omega : 0 < 4)), m1, e 0 0 (by omega) (by omega)]
    have : (Img.const 2 4 (1 : ℚ)).px 0 0 = 1 := Img.ofFn_px (h := 2) (w := 4) (by omega) (by omega)
    rw [this]
    norm_num
  have h0 : r.px 0 0 = 1 / 2 * r.px 0 0 := h0
  rw [hr0] at h0
  norm_num at h0

/-! ## The hypotheses are met -/

/-- The lower right part of an image of six rows and eight columns. -/
example : (Img.ofFn 6 8 fun y x => (8 * y + x : ℚ)).WholePart 2 4 4 4 :=
  ⟨rfl, rfl, rfl, rfl, rfl, rfl, show 2 + 4 ≤ 6 by omega, show 4 + 4 ≤ 8 by omega⟩

/-- Its pixels. -/
example : ((Img.ofFn 6 8 fun y x => (8 * y + x : ℚ)).part 2 4 4 4).px 1 2 = 30 := by
  rw [part_px (by omega) (by omega), Img.ofFn_px (by omega) (by omega)]
  norm_num

end Micropol
