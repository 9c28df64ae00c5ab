import Verif.Props.ObjectPixels
import Verif.Props.Demosaic
import Verif.Props.Polarization
import Verif.Spec.Demosaic
import Verif.Lemmas.Blend

/-!
# C99: polarization of demosaiced images
-/

set_option autoImplicit false

namespace Micropol

noncomputable section

open Classical Finset

/-- What `demosaic` leaves in an image. -/
theorem demosaic_after {ops : List Op} {i k n : Nat} {mode : String} (hk : (runOps ops).images[i]? = some k)
    (hn : Returns ops (.demosaic i mode) n) :
    n = k ∧ (runOps (ops ++ [.demosaic i mode])).data k = (runOps ops).data k ∧
    ∃ r, demosaic ((runOps ops).data k) mode = .ok r ∧
      theoStokes r ((runOps ops).dic k) = .ok ((runOps (ops ++ [.demosaic i mode])).stokes k) := by
  have hnk : n = k := place_returns (o := .demosaic i mode) rfl rfl hk hn
  subst hnk
  obtain ⟨h1, h2⟩ := returned_data hn rfl hk
  have e : (Op.demosaic i mode).value (runOps ops) ((runOps ops).heap.view n) =
    demosaicV mode ((runOps ops).heap.view n) := rfl
  rw [e] at h1 h2
  unfold demosaicV at h1 h2
  obtain ⟨r, hr, e1⟩ := withVal_ok h1
  rw [e1] at h1 h2
  unfold updateStokesV at h1 h2
  obtain ⟨S, hS, e2⟩ := withVal_ok h1
  rw [e2] at h2
  refine ⟨rfl, congrArg ImgView.data h2, r, hr, ?_⟩
  have e3 : (runOps (ops ++ [.demosaic i mode])).stokes n = S := congrArg (fun v => v.stokes.planes) h2
  rw [e3]
  exact hS

/-- Stokes maps of demosaiced images, for a demosaicing that applies one linear rule to every family. -/
theorem demosaic_rule {A : Img ℝ} (hA : EvenImg A) {dic : AngleDic} {L : Layout} (hL : L.Describes dic) {r : Fin 4 → Img ℝ}
    {S' : Fin 3 → Img ℝ} (hS' : theoStokes r dic = .ok S')
    (hr : ∀ q, (r q).h = A.h ∧ (r q).w = A.w) (rule : Img ℝ → Nat → Nat → ℝ)
    (hadd : ∀ (B : Fin 4 → Img ℝ) (C : Img ℝ) (c : Fin 4 → ℝ), (∀ q, (B q).h = C.h ∧ (B q).w = C.w) → C.h = A.h / 2 → C.w = A.w / 2 →
      (∀ y x, y < C.h → x < C.w → C.px y x = ∑ q, c q * (B q).px y x) →
      ∀ y x, y < A.h → x < A.w → rule C y x = ∑ q, c q * rule (B q) y x)
    (s : Fin 4 → Img ℝ) (hs : splitPolarizations A = .ok s)
    (hp : ∀ q y x, y < A.h → x < A.w → (r q).px y x = rule (s q) y x) :
    ∃ S, dataStokes A dic = .ok S ∧ (∀ q, (S' q).HasShape A.h A.w) ∧
      ∀ q y x, y < A.h → x < A.w → (S' q).px y x = rule (S q) y x := by
  obtain ⟨s', S, hs', hS, hspec⟩ := dataStokes_ok (K := ℝ) hA.1 hA.2 hL
  have : s' = s := Except.ok.inj (hs'.symm.trans hs)
  subst this
  have hf := C02_family_pixels A s' hs
  rw [theoStokes_ok r hL] at hS'
  have hS' := (Except.ok.inj hS').symm
  have hspec' := stokesClosed_spec r L (fun q => (hr q).1.trans (hr 0).1.symm) (fun q => (hr q).2.trans (hr 0).2.symm)
  rw [← hS'] at hspec'
  refine ⟨S, hS, fun q => ⟨(hspec'.1 q).1.trans (hr 0).1, (hspec'.1 q).2.trans (hr 0).2⟩, ?_⟩
  have sh : ∀ q k, (s' k).h = (S q).h ∧ (s' k).w = (S q).w := fun q k =>
    ⟨((hf k).1.trans (hf 0).1.symm).trans (hspec.1 q).1.symm, ((hf k).2.1.trans (hf 0).2.1.symm).trans (hspec.1 q).2.symm⟩
  have shS : ∀ q, (S q).h = A.h / 2 ∧ (S q).w = A.w / 2 := fun q =>
    ⟨(hspec.1 q).1.trans (hf 0).1, (hspec.1 q).2.trans (hf 0).2.1⟩
  intro q y x hy hx
  have t := hspec'.2 y x (by rw [(hr 0).1]; exact hy) (by rw [(hr 0).2]; exact hx)
  fin_cases q
  · show (S' 0).px y x = rule (S 0) y x
    rw [t.1, hadd s' (S 0) (fun _ => 1 / 2) (sh 0) (shS 0).1 (shS 0).2 ?_ y x hy hx]
    · simp only [hp _ _ _ hy hx]
      rw [Fin.sum_univ_four, Fin.sum_univ_four]
      ring
    · intro y x hy hx
      rw [(hspec.2 y x (by rw [← (hspec.1 0).1]; exact hy) (by rw [← (hspec.1 0).2]; exact hx)).1, Fin.sum_univ_four,
        Fin.sum_univ_four]
      ring
  · show (S' 1).px y x = rule (S 1) y x
    rw [t.2.1, hadd s' (S 1) (fun k => (if k = L.p0 then 1 else 0) - (if k = L.p90 then 1 else 0)) (sh 1) (shS 1).1 (shS 1).2
      ?_ y x hy hx]
    · simp only [hp _ _ _ hy hx, sub_mul, sum_sub_distrib, ite_mul, one_mul, zero_mul, sum_ite_eq', mem_univ, if_true]
    · intro y x hy hx
      rw [(hspec.2 y x (by rw [← (hspec.1 1).1]; exact hy) (by rw [← (hspec.1 1).2]; exact hx)).2.1]
      simp only [sub_mul, sum_sub_distrib, ite_mul, one_mul, zero_mul, sum_ite_eq', mem_univ, if_true]
  · show (S' 2).px y x = rule (S 2) y x
    rw [t.2.2, hadd s' (S 2) (fun k => (if k = L.p45 then 1 else 0) - (if k = L.pm45 then 1 else 0)) (sh 2) (shS 2).1 (shS 2).2
      ?_ y x hy hx]
    · simp only [hp _ _ _ hy hx, sub_mul, sum_sub_distrib, ite_mul, one_mul, zero_mul, sum_ite_eq', mem_univ, if_true]
    · intro y x hy hx
      rw [(hspec.2 y x (by rw [← (hspec.1 2).1]; exact hy) (by rw [← (hspec.1 2).2]; exact hx)).2.2]
      simp only [sub_mul, sum_sub_distrib, ite_mul, one_mul, zero_mul, sum_ite_eq', mem_univ, if_true]

/-- C99: after `image.demosaic("mean")`, at any point of a session, the image is the same object with the same data, and its I, Q, U
have the size of the data: each of the four pixels of a superpixel has a quarter of the theoretical Stokes vector of the
superpixel. -/
theorem C99_mean (ops : List Op) (i k n : Nat) (hk : (runOps ops).images[i]? = some k)
    (hn : Returns ops (.demosaic i "mean") n) (L : Layout) (hL : L.Describes ((runOps ops).dic k)) :
    let A := (runOps ops).data k
    let s' := runOps (ops ++ [.demosaic i "mean"])
    n = k ∧ s'.data k = A ∧ ∃ S, dataStokes A ((runOps ops).dic k) = .ok S ∧
      ∀ q, (s'.stokes k q).HasShape A.h A.w ∧ ∀ Y X a b, Y < A.h / 2 → X < A.w / 2 → a < 2 → b < 2 →
        (s'.stokes k q).px (2 * Y + a) (2 * X + b) = (S q).px Y X / 4 := by
  intro A s'
  obtain ⟨h1, h2, r, hr, hS'⟩ := demosaic_after hk hn
  have hA : EvenImg A := even_named hk
  obtain ⟨r', e, h⟩ := C13_mean A _ (split_ok hA.1 hA.2)
  have : r' = r := Except.ok.inj (e.symm.trans hr)
  subst this
  obtain ⟨S, hS, hsh, hp⟩ := demosaic_rule hA hL hS' (fun q => ⟨(h q).1, (h q).2.1⟩) (fun B y x => B.px (y / 2) (x / 2) / 4)
    (by
      intro B C c hB hh hw hC y x hy hx
      have hy2 : y / 2 < C.h := by rw [hh]; have := hA.1; omega
      have hx2 : x / 2 < C.w := by rw [hw]; have := hA.2; omega
      show C.px (y / 2) (x / 2) / 4 = _
      rw [hC _ _ hy2 hx2, sum_div]
      exact sum_congr rfl fun q _ => by ring)
    _ (split_ok hA.1 hA.2) (by
      intro q y x hy hx
      have := (h q).2.2 (y / 2) (x / 2) (y % 2) (x % 2) (by have := hA.1; omega) (by have := hA.2; omega) (by omega) (by omega)
      rw [show 2 * (y / 2) + y % 2 = y by omega, show 2 * (x / 2) + x % 2 = x by omega] at this
      exact this)
  refine ⟨h1, h2, S, hS, fun q => ⟨hsh q, ?_⟩⟩
  intro Y X a b hY hX ha hb
  refine (hp q (2 * Y + a) (2 * X + b) (by omega) (by omega)).trans ?_
  show (S q).px ((2 * Y + a) / 2) ((2 * X + b) / 2) / 4 = _
  rw [show (2 * Y + a) / 2 = Y by omega, show (2 * X + b) / 2 = X by omega]

theorem bilinear_mix {B : Fin 4 → Img ℝ} {C : Img ℝ} {c : Fin 4 → ℝ} (hB : ∀ q, (B q).h = C.h ∧ (B q).w = C.w)
    (hC : ∀ y x, y < C.h → x < C.w → C.px y x = ∑ q, c q * (B q).px y x) {Y X : Nat} (hY : Y < C.h) (hX : X < C.w) (a b : Nat) :
    bilinear C Y X a b = ∑ q, c q * bilinear (B q) Y X a b := by
  unfold bilinear
  simp only [(hB _).1, (hB _).2]
  have : ∀ a' b', C.px (min (Y + a') (C.h - 1)) (min (X + b') (C.w - 1)) =
      ∑ q, c q * (B q).px (min (Y + a') (C.h - 1)) (min (X + b') (C.w - 1)) := fun a' b' =>
    hC _ _ (by omega) (by omega)
  simp only [this, Fin.sum_univ_four, sum_add_distrib, ← mul_sum]
  ring

/-- C99: after `image.demosaic("adjacent")` the I, Q, U have the size of the data and are the bilinear interpolation of the
theoretical Stokes maps of the superpixels; the upper left pixel of each superpixel keeps their values. -/
theorem C99_adjacent (ops : List Op) (i k n : Nat) (hk : (runOps ops).images[i]? = some k)
    (hn : Returns ops (.demosaic i "adjacent") n) (L : Layout) (hL : L.Describes ((runOps ops).dic k)) :
    let A := (runOps ops).data k
    let s' := runOps (ops ++ [.demosaic i "adjacent"])
    n = k ∧ s'.data k = A ∧ ∃ S, dataStokes A ((runOps ops).dic k) = .ok S ∧
      ∀ q, (s'.stokes k q).HasShape A.h A.w ∧ ∀ Y X, Y < A.h / 2 → X < A.w / 2 →
        (s'.stokes k q).px (2 * Y) (2 * X) = (S q).px Y X ∧
        ∀ a b, a < 2 → b < 2 → (s'.stokes k q).px (2 * Y + a) (2 * X + b) = bilinear (S q) Y X a b := by
  intro A s'
  obtain ⟨h1, h2, r, hr, hS'⟩ := demosaic_after hk hn
  have hA : EvenImg A := even_named hk
  obtain ⟨r', e, h⟩ := C14_adjacent A _ (split_ok hA.1 hA.2)
  have : r' = r := Except.ok.inj (e.symm.trans hr)
  subst this
  obtain ⟨S, hS, hsh, hp⟩ := demosaic_rule hA hL hS' (fun q => ⟨(h q).1, (h q).2.1⟩)
    (fun B y x => bilinear B (y / 2) (x / 2) (y % 2) (x % 2))
    (by
      intro B C c hB hh hw hC y x hy hx
      exact bilinear_mix hB hC (by rw [hh]; have := hA.1; omega) (by rw [hw]; have := hA.2; omega) _ _)
    _ (split_ok hA.1 hA.2) (by
      intro q y x hy hx
      have := (h q).2.2 (y / 2) (x / 2) (y % 2) (x % 2) (by have := hA.1; omega) (by have := hA.2; omega) (by omega) (by omega)
      rw [show 2 * (y / 2) + y % 2 = y by omega, show 2 * (x / 2) + x % 2 = x by omega] at this
      exact this)
  have main : ∀ q Y X a b, Y < A.h / 2 → X < A.w / 2 → a < 2 → b < 2 →
      (s'.stokes k q).px (2 * Y + a) (2 * X + b) = bilinear (S q) Y X a b := by
    intro q Y X a b hY hX ha hb
    refine (hp q (2 * Y + a) (2 * X + b) (by omega) (by omega)).trans ?_
    show bilinear (S q) ((2 * Y + a) / 2) ((2 * X + b) / 2) ((2 * Y + a) % 2) ((2 * X + b) % 2) = _
    rw [show (2 * Y + a) / 2 = Y by omega, show (2 * X + b) / 2 = X by omega, show (2 * Y + a) % 2 = a by omega,
      show (2 * X + b) % 2 = b by omega]
  refine ⟨h1, h2, S, hS, fun q => ⟨hsh q, fun Y X hY hX => ⟨?_, fun a b ha hb => main q Y X a b hY hX ha hb⟩⟩⟩
  have t := main q Y X 0 0 hY hX (by decide) (by decide)
  obtain ⟨S2, hS2, hsz, -⟩ := C17_stokes A hA.1 hA.2 L _ hL
  have : S2 = S := Except.ok.inj (hS2.symm.trans hS)
  subst this
  rw [Nat.add_zero, Nat.add_zero] at t
  rw [t]
  unfold bilinear
  rw [(hsz q).1, (hsz q).2]
  simp only [zero_add, range_one, sum_singleton, Nat.add_zero, mul_one, Nat.cast_one, div_one]
  rw [min_eq_left (by omega), min_eq_left (by omega)]

/-- C99: `demosaic` returns exactly for the two documented modes ("spline" fails, see C16), on every image of every session whose
dictionary has the four orientations. -/
theorem C99_returns (ops : List Op) (i k : Nat) (hk : (runOps ops).images[i]? = some k) (L : Layout)
    (hL : L.Describes ((runOps ops).dic k)) (mode : String) :
    (∃ n, Returns ops (.demosaic i mode) n) ↔ mode = "mean" ∨ mode = "adjacent" := by
  have hA : EvenImg ((runOps ops).data k) := even_named hk
  constructor
  · rintro ⟨n, hn⟩
    obtain ⟨-, -, r, hr, -⟩ := demosaic_after hk hn
    by_contra hc
    push Not at hc
    by_cases hs : mode = "spline"
    · subst hs
      rw [C16_spline_fails] at hr
      cases hr
    · rw [(C16_options_partial _ hA.1 hA.2 mode).2 hc.1 hc.2 hs] at hr
      cases hr
  · intro hm
    obtain ⟨r, hr⟩ := (C16_options_partial _ hA.1 hA.2 mode).1 hm
    refine ⟨k, returns_place rfl rfl rfl hk ?_⟩
    show (demosaicV mode ((runOps ops).heap.view k)).1 = .ok ()
    unfold demosaicV
    rw [show demosaic ((runOps ops).heap.view k).data mode = .ok r from hr]
    unfold withVal updateStokesV theoV
    dsimp only
    rw [if_pos rfl, show theoStokes r ((runOps ops).heap.view k).dic = _ from theoStokes_ok r hL]
    rfl

/-- Pixel of a scaled Stokes vector: polarized brightness scales, angle and degree do not. -/
theorem scaled_pixel {S T : Fin 3 → Img ℝ} (hS : SameShape S) (hT : SameShape T) {c : ℝ} (hc : 0 < c) {y x y' x' : Nat}
    (hy : y < (S 0).h) (hx : x < (S 0).w) (hy' : y' < (T 0).h) (hx' : x' < (T 0).w)
    (h : ∀ q, (T q).px y' x' = c * (S q).px y x) {D D' : Img ℝ} (hD : DoLP S = .ok D) (hD' : DoLP T = .ok D') :
    (pB T).px y' x' = c * (pB S).px y x ∧ (AoLP T).px y' x' = (AoLP S).px y x ∧ D'.px y' x' = D.px y x := by
  have hb : (pB T).px y' x' = c * (pB S).px y x := by
    rw [pB_px hT hy' hx', pB_px hS hy hx, h, h,
      show ∀ q u : ℝ, c * q * (c * q) + c * u * (c * u) = c ^ 2 * (q * q + u * u) from fun q u => by ring,
      Real.sqrt_mul (by positivity), Real.sqrt_sq hc.le]
  refine ⟨hb, ?_, ?_⟩
  · rw [AoLP_px hT hy' hx', AoLP_px hS hy hx, h, h]
    have : (⟨c * (S 1).px y x, c * (S 2).px y x⟩ : ℂ) = (c : ℂ) * ⟨(S 1).px y x, (S 2).px y x⟩ := by
      apply Complex.ext <;> simp
    rw [this, Complex.arg_real_mul _ hc]
  · obtain ⟨E, e, -, -, hE⟩ := C19_total S hS
    obtain ⟨E', e', -, -, hE'⟩ := C19_total T hT
    have e1 : E = D := Except.ok.inj (e.symm.trans hD)
    have e2 : E' = D' := Except.ok.inj (e'.symm.trans hD')
    subst e1 e2
    obtain ⟨a0, a1⟩ := hE y x hy hx
    obtain ⟨b0, b1⟩ := hE' y' x' hy' hx'
    rw [h 0] at b0 b1
    by_cases hz : (S 0).px y x = 0
    · rw [a0 hz, b0 (by rw [hz, mul_zero])]
    · rw [a1 hz, b1 (mul_ne_zero hc.ne' hz), hb, mul_div_mul_left _ _ hc.ne']

/-- C99: 'mean' demosaicing keeps the degree and the angle of polarization of each superpixel at each of its four pixels, and the
totals of I, Q and U. -/
theorem C99_mean_polarization (ops : List Op) (i k n : Nat) (hk : (runOps ops).images[i]? = some k)
    (hn : Returns ops (.demosaic i "mean") n) (L : Layout) (hL : L.Describes ((runOps ops).dic k)) :
    let A := (runOps ops).data k
    let T := (runOps (ops ++ [.demosaic i "mean"])).stokes k
    ∃ S D D', dataStokes A ((runOps ops).dic k) = .ok S ∧ DoLP S = .ok D ∧ DoLP T = .ok D' ∧
      (∀ Y X a b, Y < A.h / 2 → X < A.w / 2 → a < 2 → b < 2 →
        (pB T).px (2 * Y + a) (2 * X + b) = (pB S).px Y X / 4 ∧
        (AoLP T).px (2 * Y + a) (2 * X + b) = (AoLP S).px Y X ∧
        D'.px (2 * Y + a) (2 * X + b) = D.px Y X) ∧
      ∀ q, (T q).total = (S q).total := by
  intro A T
  obtain ⟨-, -, S, hS, h⟩ := C99_mean ops i k n hk hn L hL
  have hA : EvenImg A := even_named hk
  obtain ⟨S2, hS2, hsz, -⟩ := C17_stokes A hA.1 hA.2 L _ hL
  have : S2 = S := Except.ok.inj (hS2.symm.trans hS)
  subst this
  have sS : SameShape S2 := fun q => ⟨(hsz q).1.trans (hsz 0).1.symm, (hsz q).2.trans (hsz 0).2.symm⟩
  have sT : SameShape T := fun q => ⟨(h q).1.1.trans (h 0).1.1.symm, (h q).1.2.trans (h 0).1.2.symm⟩
  obtain ⟨D, hD, -⟩ := C19_total S2 sS
  obtain ⟨D', hD', -⟩ := C19_total T sT
  refine ⟨S2, D, D', hS, hD, hD', ?_, ?_⟩
  · intro Y X a b hY hX ha hb
    obtain ⟨h1, h2, h3⟩ := scaled_pixel sS sT (c := 1 / 4) (by norm_num) (by rw [(hsz 0).1]; exact hY)
      (by rw [(hsz 0).2]; exact hX) (y' := 2 * Y + a) (x' := 2 * X + b)
      (by have : (T 0).h = A.h := (h 0).1.1
          omega)
      (by have : (T 0).w = A.w := (h 0).1.2
          omega)
      (fun q => by rw [show (T q).px (2 * Y + a) (2 * X + b) = _ from (h q).2 Y X a b hY hX ha hb]; ring) hD hD'
    exact ⟨by rw [h1]; ring, h2, h3⟩
  · intro q
    have t1 : (T q).h = A.h := (h q).1.1
    have t2 : (T q).w = A.w := (h q).1.2
    unfold Img.total Img.totalOn
    rw [t1, t2, (hsz q).1, (hsz q).2, sum_pairs _ hA.1]
    refine sum_congr rfl (fun Y hY => ?_)
    rw [sum_pairs _ hA.2, sum_pairs _ hA.2, ← sum_add_distrib]
    refine sum_congr rfl (fun X hX => ?_)
    have hY' := mem_range.1 hY
    have hX' := mem_range.1 hX
    have a00 := (h q).2 Y X 0 0 hY' hX' (by decide) (by decide)
    have a01 := (h q).2 Y X 0 1 hY' hX' (by decide) (by decide)
    have a10 := (h q).2 Y X 1 0 hY' hX' (by decide) (by decide)
    have a11 := (h q).2 Y X 1 1 hY' hX' (by decide) (by decide)
    simp only [Nat.add_zero] at a00 a01 a10
    show (T q).px _ _ + (T q).px _ _ + ((T q).px _ _ + (T q).px _ _) = _
    rw [show (T q).px (2 * Y) (2 * X) = _ from a00, show (T q).px (2 * Y) (2 * X + 1) = _ from a01,
      show (T q).px (2 * Y + 1) (2 * X) = _ from a10, show (T q).px (2 * Y + 1) (2 * X + 1) = _ from a11]
    ring

/-- The samples of a bilinear interpolation, as one sum over different pixels. -/
theorem bilinear_weights {h w : Nat} {Y X : Nat} (hY : Y < h) (hX : X < w) (a b : Nat) :
    ∃ (P : Finset (Nat × Nat)) (c : Nat × Nat → ℝ), (∀ p ∈ P, p.1 < h ∧ p.2 < w ∧ 0 ≤ c p) ∧
      ∀ B : Img ℝ, B.h = h → B.w = w → bilinear B Y X a b = ∑ p ∈ P, c p * B.px p.1 p.2 := by
  let g : Nat × Nat → Nat × Nat := fun t => (min (Y + t.1) (h - 1), min (X + t.2) (w - 1))
  let R := range (a + 1) ×ˢ range (b + 1)
  refine ⟨R.image g, fun p => ((R.filter fun t => g t = p).card : ℝ) / (((a + 1) * (b + 1) : Nat) : ℝ), ?_, ?_⟩
  · intro p hp
    obtain ⟨t, -, rfl⟩ := mem_image.1 hp
    exact ⟨by show min _ _ < h; omega, by show min _ _ < w; omega, by positivity⟩
  · intro B hh hw
    unfold bilinear
    rw [hh, hw, ← sum_product (range (a + 1)) (range (b + 1)) (fun t => B.px (min (Y + t.1) (h - 1)) (min (X + t.2) (w - 1))),
      ← sum_fiberwise_of_maps_to (s := R) (t := R.image g) (g := g) (fun t ht => mem_image_of_mem g ht), sum_div]
    refine sum_congr rfl fun p _ => ?_
    rw [sum_congr rfl (g := fun _ => B.px p.1 p.2) (fun t ht => by rw [← (mem_filter.1 ht).2]), sum_const, nsmul_eq_mul]
    ring

/-- C99: demosaicing in either mode never raises the degree of polarization: if the pixels are not negative and DoLP is at most `M`
at every superpixel, it is at most `M` at every pixel of the demosaiced image. -/
theorem C99_depolarizes (ops : List Op) (i k n : Nat) (mode : String) (hk : (runOps ops).images[i]? = some k)
    (hn : Returns ops (.demosaic i mode) n) (L : Layout) (hL : L.Describes ((runOps ops).dic k))
    (S : Fin 3 → Img ℝ) (hS : dataStokes ((runOps ops).data k) ((runOps ops).dic k) = .ok S) (D : Img ℝ) (hD : DoLP S = .ok D)
    (hpos : ∀ y x, y < ((runOps ops).data k).h → x < ((runOps ops).data k).w → 0 ≤ ((runOps ops).data k).px y x)
    (M : ℝ) (hM : ∀ Y X, Y < ((runOps ops).data k).h / 2 → X < ((runOps ops).data k).w / 2 → D.px Y X ≤ M) :
    let A := (runOps ops).data k
    let T := (runOps (ops ++ [.demosaic i mode])).stokes k
    IsBlend S T ∧ ∃ D', DoLP T = .ok D' ∧ D'.HasShape A.h A.w ∧
      ∀ y x, y < A.h → x < A.w → 0 ≤ D'.px y x ∧ D'.px y x ≤ M := by
  intro A T
  have hA : EvenImg A := even_named hk
  obtain ⟨S2, hS2, hsz, -⟩ := C17_stokes A hA.1 hA.2 L _ hL
  have : S2 = S := Except.ok.inj (hS2.symm.trans hS)
  subst this
  have sS : SameShape S2 := fun q => ⟨(hsz q).1.trans (hsz 0).1.symm, (hsz q).2.trans (hsz 0).2.symm⟩
  have key : (∀ q, (T q).HasShape A.h A.w) ∧ IsBlend S2 T := by
    rcases (C99_returns ops i k hk L hL mode).1 ⟨n, hn⟩ with rfl | rfl
    · obtain ⟨-, -, S3, hS3, h⟩ := C99_mean ops i k n hk hn L hL
      have : S3 = S2 := Except.ok.inj (hS3.symm.trans hS)
      subst this
      refine ⟨fun q => (h q).1, fun y x hy hx => ?_⟩
      have e1 : (T 0).h = A.h := (h 0).1.1
      have e2 : (T 0).w = A.w := (h 0).1.2
      refine ⟨{(y / 2, x / 2)}, fun _ => 1 / 4, ?_, fun q => ?_⟩
      · intro p hp
        rw [mem_singleton.1 hp, (hsz 0).1, (hsz 0).2]
        exact ⟨by have := hA.1; show y / 2 < A.h / 2; omega, by have := hA.2; show x / 2 < A.w / 2; omega, by norm_num⟩
      · rw [sum_singleton]
        have := (h q).2 (y / 2) (x / 2) (y % 2) (x % 2) (by have := hA.1; show y / 2 < A.h / 2; omega)
          (by have := hA.2; show x / 2 < A.w / 2; omega) (by omega) (by omega)
        rw [show 2 * (y / 2) + y % 2 = y by omega, show 2 * (x / 2) + x % 2 = x by omega] at this
        rw [show (T q).px y x = _ from this]
        ring
    · obtain ⟨-, -, S3, hS3, h⟩ := C99_adjacent ops i k n hk hn L hL
      have : S3 = S2 := Except.ok.inj (hS3.symm.trans hS)
      subst this
      refine ⟨fun q => (h q).1, fun y x hy hx => ?_⟩
      have e1 : (T 0).h = A.h := (h 0).1.1
      have e2 : (T 0).w = A.w := (h 0).1.2
      have hy2 : y / 2 < A.h / 2 := by have := hA.1; omega
      have hx2 : x / 2 < A.w / 2 := by have := hA.2; omega
      obtain ⟨P, c, hP, hc⟩ := bilinear_weights hy2 hx2 (y % 2) (x % 2)
      refine ⟨P, c, ?_, fun q => ?_⟩
      · rw [(hsz 0).1, (hsz 0).2]
        exact hP
      · rw [← hc (S3 q) (hsz q).1 (hsz q).2]
        have := ((h q).2 (y / 2) (x / 2) hy2 hx2).2 (y % 2) (x % 2) (by omega) (by omega)
        rw [show 2 * (y / 2) + y % 2 = y by omega, show 2 * (x / 2) + x % 2 = x by omega] at this
        exact this
  obtain ⟨hT, hB⟩ := key
  have sT : SameShape T := fun q => ⟨(hT q).1.trans (hT 0).1.symm, (hT q).2.trans (hT 0).2.symm⟩
  obtain ⟨D', hD', d1, d2, -⟩ := C19_total T sT
  refine ⟨hB, D', hD', ⟨d1.trans (hT 0).1, d2.trans (hT 0).2⟩, fun y x hy hx => ?_⟩
  have hd := stokes_dark hA.1 hA.2 hL hS hpos
  have hy2 : y / 2 < A.h / 2 := by have := hA.1; omega
  have hx2 : x / 2 < A.w / 2 := by have := hA.2; omega
  have hM0 : 0 ≤ M := by
    have := (dolp_le_iff sS hD le_rfl (y := y / 2) (x := x / 2) (by rw [(hsz 0).1]; exact hy2) (by rw [(hsz 0).2]; exact hx2)
      (hd _ _ hy2 hx2).1).1
    exact this.trans (hM _ _ hy2 hx2)
  exact hB.dolp sS sT (fun y x hy hx => hd y x (by rw [← (hsz 0).1]; exact hy) (by rw [← (hsz 0).2]; exact hx)) hD hD' hM0
    (fun y x hy hx => hM y x (by rw [← (hsz 0).1]; exact hy) (by rw [← (hsz 0).2]; exact hx)) y x
    (by rw [(hT 0).1]; exact hy) (by rw [(hT 0).2]; exact hx)

/-- The example: a dark superpixel beside a bright one, demosaiced both ways. -/
theorem oneImage_layout : Layout.Describes ⟨0, 1, 2, 3⟩ ((runOps oneImage).dic 0) := by
  obtain ⟨S, -, -, -, -, hrun⟩ := darkBright_run
  have : (runOps oneImage).dic 0 = polarCamAngles := by
    unfold oneImage
    rw [hrun]
    exact congrArg ImgView.dic (arrayHeap_view darkBright S none initState.heap)
  rw [this]
  exact C02_polarCam.1

example : (∃ n, Returns oneImage (.demosaic 0 "mean") n ∧
      ((runOps (oneImage ++ [.demosaic 0 "mean"])).stokes 0 0).px 1 3 = 1 / 2) ∧
    ∃ n, Returns oneImage (.demosaic 0 "adjacent") n ∧
      ((runOps (oneImage ++ [.demosaic 0 "adjacent"])).stokes 0 0).px 0 1 = 1 := by
  obtain ⟨h1, h2, h3⟩ := oneImage_facts
  have hr := C99_returns oneImage 0 0 h1 _ oneImage_layout
  obtain ⟨n, hn⟩ := (hr "mean").2 (Or.inl rfl)
  obtain ⟨n', hn'⟩ := (hr "adjacent").2 (Or.inr rfl)
  obtain ⟨T, hT, hs, hp⟩ := C17_stokes darkBright rfl rfl _ _ oneImage_layout
  have p00 := (hp 0 0 (by decide) (by decide)).1
  have p01 := (hp 0 1 (by decide) (by decide)).1
  norm_num [darkBright, Img.ofFn_px'] at p00 p01
  refine ⟨⟨n, hn, ?_⟩, n', hn', ?_⟩
  · obtain ⟨-, -, S, hS, h⟩ := C99_mean oneImage 0 0 n h1 hn _ oneImage_layout
    rw [h2] at hS h
    have : T = S := Except.ok.inj (hT.symm.trans hS)
    subst this
    have := (h 0).2 0 1 1 1 (by decide) (by decide) (by decide) (by decide)
    rw [show 2 * 0 + 1 = 1 from rfl, show 2 * 1 + 1 = 3 from rfl, p01] at this
    rw [this]
    norm_num
  · obtain ⟨-, -, S, hS, h⟩ := C99_adjacent oneImage 0 0 n' h1 hn' _ oneImage_layout
    rw [h2] at hS h
    have : T = S := Except.ok.inj (hT.symm.trans hS)
    subst this
    have := ((h 0).2 0 0 (by decide) (by decide)).2 0 1 (by decide) (by decide)
    rw [show 2 * 0 + 0 = 0 from rfl, show 2 * 0 + 1 = 1 from rfl] at this
    rw [this]
    unfold bilinear
    rw [(hs 0).1, (hs 0).2]
    norm_num [sum_range_succ, darkBright, p00, p01]

end

end Micropol
