import Verif.Lemmas.DemodRebin
import Verif.Props.Demodulate
import Verif.Props.Folder
import Verif.Props.Rebin
import Verif.Props.Rotate
import Mathlib.Algebra.BigOperators.Ring.Finset
import Mathlib.Algebra.BigOperators.Field
import Mathlib.Tactic.FieldSimp

/-!
# C97: `Demodulator.rebin`
-/

set_option autoImplicit false
set_option linter.unusedSectionVars false

namespace Micropol

open Finset

variable {K : Type} [Field K] [DecidableEq K]

/-- C97: `demodulator.rebin(b)` gives the tensor of the demodulator's folder with every component averaged over the
complete `b × b` blocks, with the folder's fit flags as they are. -/
theorem C97_components (D N : Demodulator K) (folder : Option (Listing K)) (hN : loadDemodulator folder = .ok N)
    (h w : Nat) (hD : D.HasShape h w) (hNs : N.HasShape h w) (b : Nat) (hb : 1 ≤ b) (hh : h / b % 2 = 0)
    (hw : w / b % 2 = 0) :
    ∃ R, D.rebin folder b = .ok R ∧ R.fitFoundFlags = N.fitFoundFlags ∧
      ∀ i j, IsBlockMeanOf (N.mij i j) (R.mij i j) b := by
  unfold Demodulator.rebin
  rw [if_neg (by omega), (hD 0 0).1, (hD 0 0).2, if_neg (by omega), hN, Py.ok_bind, (hNs 0 0).1, (hNs 0 0).2,
    mapTo_ok hb hNs, Py.ok_bind]
  exact ⟨_, rfl, rfl, fun i j => binnedMean_spec _ _⟩

/-- C97: a result with an odd side is refused with `ValueError`, and binning by zero with `ZeroDivisionError`, before
anything is read. -/
theorem C97_refused (D : Demodulator K) (folder : Option (Listing K)) (h w : Nat) (hD : D.HasShape h w) (b : Nat) :
    (b = 0 → D.rebin folder b = .error .zeroDivisionError) ∧
    (1 ≤ b → h / b % 2 = 1 ∨ w / b % 2 = 1 → D.rebin folder b = .error .valueError) := by
  unfold Demodulator.rebin
  constructor
  · intro h0
    rw [if_pos h0]
  · intro hb ho
    rw [if_neg (by omega), (hD 0 0).1, (hD 0 0).2, if_pos (by omega)]

/-- C97: the result depends only on the folder: quarter turns and flips applied to the demodulator before are lost. -/
theorem C97_forgets_turns (D : Demodulator K) (folder : Option (Listing K)) (h w : Nat) (hD : D.HasShape h w)
    (k : Int) (hk : k % 2 = 0 ∨ h = w) (axis : Option Int) (D' D'' : Demodulator K) (b : Nat)
    (hr : D.rot90 k = .ok D') (hf : D.flip axis = .ok D'') :
    D'.rebin folder b = D.rebin folder b ∧ D''.rebin folder b = D.rebin folder b := by
  have key : ∀ E : Demodulator K, (E.mij 0 0).HasShape h w → E.rebin folder b = D.rebin folder b := by
    intro E hE
    unfold Demodulator.rebin
    rw [hE.1, hE.2, (hD 0 0).1, (hD 0 0).2]
  constructor
  · refine key D' ?_
    unfold Demodulator.rot90 at hr
    rw [mapPlanes_ok (g := fun A => npRot90 A k) (fun _ _ => rfl) (by
      intro i j
      by_cases he : k % 2 = 0
      · exact npRot90_shape_even _ he
      · obtain ⟨e1, e2⟩ := npRot90_shape_odd (D.mij i j) he
        have hs := hD i j
        have : h = w := hk.resolve_left he
        exact ⟨by rw [e1, hs.2, hs.1, this], by rw [e2, hs.2, hs.1, this]⟩), Py.ok_bind] at hr
    injection hr with hr
    subst hr
    by_cases he : k % 2 = 0
    · obtain ⟨e1, e2⟩ := npRot90_shape_even (D.mij 0 0) he
      exact ⟨e1.trans (hD 0 0).1, e2.trans (hD 0 0).2⟩
    · obtain ⟨e1, e2⟩ := npRot90_shape_odd (D.mij 0 0) he
      have : h = w := hk.resolve_left he
      exact ⟨by rw [e1, (hD 0 0).2, this], by rw [e2, (hD 0 0).1, this]⟩
  · refine key D'' ?_
    obtain ⟨f0, f1, fn, fe⟩ := C34_flip D axis
    have sh : (D''.mij 0 0).h = (D.mij 0 0).h ∧ (D''.mij 0 0).w = (D.mij 0 0).w := by
      cases axis with
      | none =>
        obtain ⟨E, e, g⟩ := fn rfl
        rw [hf] at e; injection e with e; subst e
        rw [g]; exact ⟨rfl, rfl⟩
      | some a =>
        by_cases h0 : a = 0 ∨ a = -2
        · obtain ⟨E, e, g⟩ := f0 (by rcases h0 with rfl | rfl <;> simp)
          rw [hf] at e; injection e with e; subst e
          rw [g]; exact ⟨rfl, rfl⟩
        · by_cases h1 : a = 1 ∨ a = -1
          · obtain ⟨E, e, g⟩ := f1 (by rcases h1 with rfl | rfl <;> simp)
            rw [hf] at e; injection e with e; subst e
            rw [g]; exact ⟨rfl, rfl⟩
          · have := fe a rfl (by omega)
            rw [hf] at this
            cases this
    exact ⟨sh.1.trans (hD 0 0).1, sh.2.trans (hD 0 0).2⟩

/-- C97 (partial: only for folders without fit flags and tensors that are constant on the blocks): demodulating the
binned image with the binned tensor is binning the demodulated image. -/
theorem C97_commutes_partial [CharZero K] (D N : Demodulator K) (folder : Option (Listing K))
    (hN : loadDemodulator folder = .ok N) (data : Img K) (hdh : data.h % 2 = 0) (hdw : data.w % 2 = 0)
    (hD : D.HasShape (data.h / 2) (data.w / 2)) (hNs : N.HasShape (data.h / 2) (data.w / 2)) (b : Nat) (hb : 1 ≤ b)
    (hh : data.h / 2 / b % 2 = 0) (hw : data.w / 2 / b % 2 = 0) (hf : N.fitFoundFlags = none)
    (hc : ∀ i j, BlockwiseConstant (N.mij i j) b) (prev prev' : Fin 3 → Img K) :
    ∃ R r S S', D.rebin folder b = .ok R ∧ micropolRebinData data b = .ok r ∧ demodulatePlain data prev N = .ok S ∧
      demodulatePlain r prev' R = .ok S' ∧ ∀ i, IsBinningOf (S i) (S' i) b := by
  obtain ⟨R, eR, fR, mR⟩ := C97_components D N folder hN _ _ hD hNs b hb hh hw
  obtain ⟨r, s, s', er, es, es', rh, rw', hbin⟩ := C09_rebin_families data b hb hdh hdw
  obtain ⟨S, eS, hS⟩ := C24_no_flags data s es prev N hNs hf
  have hq : ∀ n : Nat, 2 * (n / (2 * b)) / 2 = n / 2 / b := by
    intro n
    rw [Nat.mul_div_cancel_left _ (by decide), Nat.div_div_eq_div_mul]
  have hrh : r.h / 2 = data.h / 2 / b := by rw [rh, hq]
  have hrw : r.w / 2 = data.w / 2 / b := by rw [rw', hq]
  have hRs : R.HasShape (r.h / 2) (r.w / 2) := fun i j =>
    ⟨by rw [(mR i j).1, (hNs i j).1, hrh], by rw [(mR i j).2.1, (hNs i j).2, hrw]⟩
  obtain ⟨S', eS', hS'⟩ := C24_no_flags r s' es' prev' R hRs (fR.trans hf)
  refine ⟨R, r, S, S', eR, er, eS, eS', ?_⟩
  intro i
  refine ⟨by rw [(hS' i).1.1, (hS i).1.1, hrh], by rw [(hS' i).1.2, (hS i).1.2, hrw], ?_⟩
  intro Y X hY hX
  rw [(hS' i).1.1] at hY
  rw [(hS' i).1.2] at hX
  rw [(hS' i).2 Y X hY hX]
  have hb0 : (b : K) ≠ 0 := by exact_mod_cast (by omega : b ≠ 0)
  have inY : ∀ u, u < b → b * Y + u < data.h / 2 := by
    intro u hu
    rw [hrh] at hY
    have h1 : b * (Y + 1) ≤ b * (data.h / 2 / b) := Nat.mul_le_mul_left _ hY
    have h2 := Nat.mul_div_le (data.h / 2) b
    rw [Nat.mul_add] at h1
    omega
  have inX : ∀ u, u < b → b * X + u < data.w / 2 := by
    intro u hu
    rw [hrw] at hX
    have h1 : b * (X + 1) ≤ b * (data.w / 2 / b) := Nat.mul_le_mul_left _ hX
    have h2 := Nat.mul_div_le (data.w / 2) b
    rw [Nat.mul_add] at h1
    omega
  have rhs : ∑ u ∈ range b, ∑ v ∈ range b, (S i).px (b * Y + u) (b * X + v)
      = ∑ j, (N.mij i j).px (b * Y) (b * X) * ∑ u ∈ range b, ∑ v ∈ range b, (s j).px (b * Y + u) (b * X + v) := by
    have e1 : ∀ u ∈ range b, ∑ v ∈ range b, (S i).px (b * Y + u) (b * X + v)
        = ∑ j, (N.mij i j).px (b * Y) (b * X) * ∑ v ∈ range b, (s j).px (b * Y + u) (b * X + v) := by
      intro u hu
      rw [mem_range] at hu
      simp only [Finset.mul_sum]
      rw [Finset.sum_comm]
      refine sum_congr rfl fun v hv => ?_
      rw [mem_range] at hv
      rw [(hS i).2 _ _ (inY u hu) (inX v hv)]
      refine sum_congr rfl fun j _ => ?_
      rw [hc i j Y X u v (by rw [(hNs i j).1, ← hrh]; exact hY) (by rw [(hNs i j).2, ← hrw]; exact hX) hu hv]
    rw [sum_congr rfl e1, Finset.sum_comm]
    refine sum_congr rfl fun j _ => ?_
    rw [Finset.mul_sum]
  rw [rhs]
  refine sum_congr rfl fun j _ => ?_
  have hY2 : Y < (R.mij i j).h := by rw [(hRs i j).1]; exact hY
  have hX2 : X < (R.mij i j).w := by rw [(hRs i j).2]; exact hX
  have sh : (s j).h = data.h / 2 ∧ (s j).w = data.w / 2 := by
    rw [split_ok hdh hdw] at es
    injection es with es
    subst es
    exact ⟨rfl, rfl⟩
  rw [(mR i j).2.2 Y X hY2 hX2, (hbin j).2.2 Y X (by rw [(hbin j).1, sh.1, ← hrh]; exact hY)
    (by rw [(hbin j).2.1, sh.2, ← hrw]; exact hX)]
  congr 1
  have : ∑ u ∈ range b, ∑ v ∈ range b, (N.mij i j).px (b * Y + u) (b * X + v)
      = (b : K) * (b : K) * (N.mij i j).px (b * Y) (b * X) := by
    have e2 : ∀ u ∈ range b, ∑ v ∈ range b, (N.mij i j).px (b * Y + u) (b * X + v)
        = (b : K) * (N.mij i j).px (b * Y) (b * X) := by
      intro u hu
      rw [mem_range] at hu
      rw [sum_congr rfl (fun v hv => hc i j Y X u v (by rw [(hNs i j).1, ← hrh]; exact hY)
        (by rw [(hNs i j).2, ← hrw]; exact hX) hu (mem_range.1 hv)), sum_const, card_range, nsmul_eq_mul]
    rw [sum_congr rfl e2, sum_const, card_range, nsmul_eq_mul, mul_assoc]
  rw [this]
  field_simp

/-- C97, violation: for a folder with fit flags, as every finished calibration writes them, the binned image cannot be
demodulated with the binned tensor: the flags keep their size. -/
theorem C97_flags_refused (D N : Demodulator K) (folder : Option (Listing K)) (hN : loadDemodulator folder = .ok N)
    (data : Img K) (hdh : data.h % 2 = 0) (hdw : data.w % 2 = 0)
    (hD : D.HasShape (data.h / 2) (data.w / 2)) (hNs : N.HasShape (data.h / 2) (data.w / 2)) (flags : Img K)
    (hf : N.fitFoundFlags = some flags) (hfs : flags.HasShape (data.h / 2) (data.w / 2)) (b : Nat) (hb : 2 ≤ b)
    (hh : data.h / 2 / b % 2 = 0) (hw : data.w / 2 / b % 2 = 0) (hbig : 2 ≤ data.h / 2) :
    ∃ R r, D.rebin folder b = .ok R ∧ micropolRebinData data b = .ok r ∧
      ∀ prev : Fin 3 → Img K, (∀ i, (prev i).HasShape (r.h / 2) (r.w / 2)) →
        demodulatePlain r prev R = .error .valueError := by
  obtain ⟨R, eR, fR, mR⟩ := C97_components D N folder hN _ _ hD hNs b (by omega) hh hw
  obtain ⟨r, s, s', er, es, es', rh, rw', hbin⟩ := C09_rebin_families data b (by omega) hdh hdw
  refine ⟨R, r, eR, er, ?_⟩
  intro prev hprev
  have hq : ∀ n : Nat, 2 * (n / (2 * b)) / 2 = n / 2 / b := by
    intro n
    rw [Nat.mul_div_cancel_left _ (by decide), Nat.div_div_eq_div_mul]
  have hrh : r.h / 2 = data.h / 2 / b := by rw [rh, hq]
  have hrw : r.w / 2 = data.w / 2 / b := by rw [rw', hq]
  have hRs : R.HasShape (r.h / 2) (r.w / 2) := fun i j =>
    ⟨by rw [(mR i j).1, (hNs i j).1, hrh], by rw [(mR i j).2.1, (hNs i j).2, hrw]⟩
  obtain ⟨hre, hre'⟩ := split_even es'
  unfold demodulatePlain
  rw [split_ok hre hre', Py.ok_bind, matmulPols_ok (h := r.h / 2) (w := r.w / 2) (hRs 0 0) ⟨rfl, rfl⟩, Py.ok_bind,
    fR, hf]
  dsimp only
  unfold whereFlags npWhere
  dsimp only
  have hlt : data.h / 2 / b < data.h / 2 := Nat.div_lt_self (by omega) (by omega)
  rw [show (Img.ofFn (r.h / 2) (r.w / 2) (fun y x => ∑ j, (R.mij 0 j).px y x *
      (Img.ofFn (r.h / 2) (r.w / 2) (fun y x => r.px (2 * y + j.val / 2) (2 * x + j.val % 2))).px y x)).h = r.h / 2
      from rfl,
    show (Img.ofFn (r.h / 2) (r.w / 2) (fun y x => ∑ j, (R.mij 0 j).px y x *
      (Img.ofFn (r.h / 2) (r.w / 2) (fun y x => r.px (2 * y + j.val / 2) (2 * x + j.val % 2))).px y x)).w = r.w / 2
      from rfl, (hprev 0).1, (hprev 0).2, bdim_self, bdim_self, Py.ok_bind, Py.ok_bind,
    show (flags.map (fun v => decide (v = 1))).h = flags.h from rfl, hfs.1,
    bdim_error (by omega) (by omega) (by omega)]
  rfl

/-! ### Concrete cases -/

/-- A calibration of a 4 × 4 sensor of superpixels, the first component with a gradient. -/
def rebinOutput (grad : ℚ) : CalibOutput ℚ where
  mij := fun i j => Img.ofFn 4 4 (fun y _ => if i = 0 ∧ j = 0 then 1 + grad * y else 2)
  cov := fun _ _ => Img.const 4 4 1
  tk := Img.const 8 8 1
  eff := Img.const 8 8 2
  phase := Img.const 8 8 3
  fitFound := Img.const 4 4 1
  chisq := Img.const 4 4 4

theorem rebinOutput_shape (g : ℚ) : ∀ i j, ((rebinOutput g).mij i j).HasShape 4 4 := fun _ _ => ⟨rfl, rfl⟩

theorem rebinOutput_loads (g : ℚ) :
    loadDemodulator (some (saveCalibration (rebinOutput g) ⟨[], none⟩).top) =
      .ok ⟨(rebinOutput g).mij, some (rebinOutput g).fitFound⟩ :=
  C28_roundtrip _ 4 4 (rebinOutput_shape g) ⟨[], none⟩ ⟨by unfold UniqueNames; simp, by simp⟩ _ (List.Perm.refl _)

theorem rebinOutput_loads_plain (g : ℚ) :
    loadDemodulator (some (saveUntil (rebinOutput g) 12 ⟨[], none⟩).top) = .ok ⟨(rebinOutput g).mij, none⟩ :=
  C29_flags_lost _ 4 4 (rebinOutput_shape g) 12 (by decide) (by decide) _ (List.Perm.refl _)

/-- C97: the full claim (what is demodulated after binning both the image and the tensor is the binned result) is
false, for a freshly saved calibration and any image of its size: demodulation raises `ValueError`. -/
theorem C97_full_claim_false :
    ¬ ∀ (o : CalibOutput ℚ) (h w : Nat), (∀ i j, (o.mij i j).HasShape h w) → o.fitFound.HasShape h w →
      ∀ (data : Img ℚ) (prev prev' : Fin 3 → Img ℚ) (b : Nat), data.HasShape (2 * h) (2 * w) → 1 ≤ b →
        h / b % 2 = 0 → w / b % 2 = 0 → (∀ i, (prev i).HasShape h w) → (∀ i, (prev' i).HasShape (h / b) (w / b)) →
        ∃ N R r S S', loadDemodulator (some (saveCalibration o ⟨[], none⟩).top) = .ok N ∧
          N.rebin (some (saveCalibration o ⟨[], none⟩).top) b = .ok R ∧ micropolRebinData data b = .ok r ∧
          demodulatePlain data prev N = .ok S ∧ demodulatePlain r prev' R = .ok S' ∧
          ∀ i, IsBinningOf (S i) (S' i) b := by
  intro hc
  obtain ⟨N, R, r, S, S', eN, eR, er, -, eS', -⟩ := hc (rebinOutput 0) 4 4 (rebinOutput_shape 0) ⟨rfl, rfl⟩
    (Img.const 8 8 1) (fun _ => Img.zeros 4 4) (fun _ => Img.zeros 2 2) 2 ⟨rfl, rfl⟩ (by decide) (by decide) (by decide)
    (fun _ => ⟨rfl, rfl⟩) (fun _ => ⟨rfl, rfl⟩)
  rw [rebinOutput_loads] at eN
  injection eN with eN
  subst eN
  obtain ⟨R', r', eR', er', hno⟩ := C97_flags_refused ⟨(rebinOutput 0).mij, some (rebinOutput 0).fitFound⟩ _ _
    (rebinOutput_loads 0) (Img.const 8 8 1) rfl rfl (rebinOutput_shape 0) (rebinOutput_shape 0)
    (rebinOutput 0).fitFound rfl ⟨rfl, rfl⟩ 2 (by decide) (by decide) (by decide) (by decide)
  rw [eR] at eR'; injection eR' with eR'; subst eR'
  rw [er] at er'; injection er' with er'; subst er'
  obtain ⟨r₁, -, -, e1, -, -, h1, w1, -⟩ := C09_rebin_families (Img.const 8 8 (1 : ℚ)) 2 (by decide) rfl rfl
  rw [show ((2 : Nat) : Int) = 2 from rfl] at er e1
  rw [er] at e1; injection e1 with e1; subst e1
  have := hno (fun _ => Img.zeros 2 2) (fun i => ⟨by rw [h1]; rfl, by rw [w1]; rfl⟩)
  rw [eS'] at this
  cases this

/-- C97, violation without fit flags: for a tensor that varies inside a block the two results differ, here
`(1 + 2) / 2 · 2 = 3 ≠ 1 · 2 + 2 · 0 = 2` per column. -/
theorem C97_mean_not_enough :
    ∃ (data : Img ℚ) (prev prev' : Fin 3 → Img ℚ) (folder : Listing ℚ) (N R : Demodulator ℚ) (r : Img ℚ)
      (S S' : Fin 3 → Img ℚ), loadDemodulator (some folder) = .ok N ∧ N.fitFoundFlags = none ∧
      N.rebin (some folder) 2 = .ok R ∧ micropolRebinData data 2 = .ok r ∧ demodulatePlain data prev N = .ok S ∧
      demodulatePlain r prev' R = .ok S' ∧ ¬IsBinningOf (S 0) (S' 0) 2 := by
  -- the first family is bright in the even rows only
  obtain ⟨data, hdata⟩ : ∃ data : Img ℚ, data = Img.ofFn 8 8 (fun y x => if y % 4 = 0 ∧ x % 2 = 0 then 1 else 0) :=
    ⟨_, rfl⟩
  have hdh : data.h = 8 := by rw [hdata]; rfl
  have hdw : data.w = 8 := by rw [hdata]; rfl
  obtain ⟨R, eR, fR, mR⟩ := C97_components ⟨(rebinOutput 1).mij, none⟩ _ _ (rebinOutput_loads_plain 1) 4 4
    (rebinOutput_shape 1) (rebinOutput_shape 1) 2 (by decide) (by decide) (by decide)
  obtain ⟨r, s, s', er, es, es', rh, rw', hbin⟩ := C09_rebin_families data 2 (by decide) (by rw [hdh]) (by rw [hdw])
  obtain ⟨S, eS, hS⟩ := C24_no_flags data s es (fun _ => Img.zeros 4 4) ⟨(rebinOutput 1).mij, none⟩
    (by rw [hdh, hdw]; exact rebinOutput_shape 1) rfl
  have hrh : r.h / 2 = 2 := by rw [rh, hdh]
  have hrw : r.w / 2 = 2 := by rw [rw', hdw]
  obtain ⟨S', eS', hS'⟩ := C24_no_flags r s' es' (fun _ => Img.zeros 2 2) R (fun i j =>
    ⟨by rw [(mR i j).1, hrh]; show ((rebinOutput 1).mij i j).h / 2 = 2; rw [(rebinOutput_shape 1 i j).1],
     by rw [(mR i j).2.1, hrw]; show ((rebinOutput 1).mij i j).w / 2 = 2; rw [(rebinOutput_shape 1 i j).2]⟩) fR
  refine ⟨data, _, _, _, _, R, r, S, S', rebinOutput_loads_plain 1, rfl, eR, er, eS, eS', ?_⟩
  rintro ⟨-, -, h3⟩
  have h4 := h3 0 0 (by rw [(hS' 0).1.1, hrh]; decide) (by rw [(hS' 0).1.2, hrw]; decide)
  rw [(hS' 0).2 0 0 (by rw [hrh]; decide) (by rw [hrw]; decide)] at h4
  have hs : ∀ k : Fin 4, ∀ y x, y < 4 → x < 4 → (s k).px y x = if k = 0 ∧ y % 2 = 0 then 1 else 0 := by
    intro k y x hy hx
    rw [split_ok (by rw [hdh]) (by rw [hdw])] at es
    injection es with es
    subst es
    rw [Img.ofFn_px (by rw [hdh]; exact hy) (by rw [hdw]; exact hx), hdata, Img.ofFn_px (by omega) (by omega)]
    refine if_congr ?_ rfl rfl
    rw [Fin.ext_iff]
    have := k.isLt
    show _ ↔ k.val = 0 ∧ _
    omega
  have hss : ∀ k : Fin 4, (s k).h = 4 ∧ (s k).w = 4 := by
    intro k
    rw [split_ok (by rw [hdh]) (by rw [hdw])] at es
    injection es with es
    subst es
    exact ⟨by show data.h / 2 = 4; rw [hdh], by show data.w / 2 = 4; rw [hdw]⟩
  have hs' : ∀ k : Fin 4, (s' k).px 0 0 = if k = 0 then 2 else 0 := by
    intro k
    rw [(hbin k).2.2 0 0 (by rw [(hbin k).1, (hss k).1]; decide) (by rw [(hbin k).2.1, (hss k).2]; decide)]
    simp only [sum_range_succ, sum_range_zero]
    rw [hs k _ _ (by decide) (by decide), hs k _ _ (by decide) (by decide), hs k _ _ (by decide) (by decide),
      hs k _ _ (by decide) (by decide)]
    by_cases hk : k = 0
    · simp [hk]; norm_num
    · simp [hk]
  have hm : ∀ y x, y < 4 → x < 4 → ((rebinOutput 1).mij 0 0).px y x = 1 + 1 * (y : ℚ) := by
    intro y x hy hx
    show (Img.ofFn 4 4 _).px y x = _
    rw [Img.ofFn_px hy hx]
    simp
  have l1 : ∑ j, (R.mij 0 j).px 0 0 * (s' j).px 0 0 = 3 := by
    rw [Fin.sum_univ_four, hs', hs', hs', hs', (mR 0 0).2.2 0 0 (by rw [(mR 0 0).1]; decide)
      (by rw [(mR 0 0).2.1]; decide)]
    simp only [sum_range_succ, sum_range_zero]
    rw [hm _ _ (by decide) (by decide), hm _ _ (by decide) (by decide), hm _ _ (by decide) (by decide),
      hm _ _ (by decide) (by decide), if_pos trivial, if_neg (by decide), if_neg (by decide), if_neg (by decide)]
    norm_num
  have l2 : ∀ y x, y < 4 → x < 4 → (S 0).px y x = if y % 2 = 0 then 1 + (y : ℚ) else 0 := by
    intro y x hy hx
    rw [(hS 0).2 y x (by rw [hdh]; exact hy) (by rw [hdw]; exact hx), Fin.sum_univ_four, hs _ _ _ hy hx,
      hs _ _ _ hy hx, hs _ _ _ hy hx, hs _ _ _ hy hx, hm y x hy hx]
    by_cases h : y % 2 = 0 <;> simp [h]
  rw [l1] at h4
  simp only [sum_range_succ, sum_range_zero] at h4
  rw [l2 _ _ (by decide) (by decide), l2 _ _ (by decide) (by decide), l2 _ _ (by decide) (by decide),
    l2 _ _ (by decide) (by decide)] at h4
  norm_num at h4

/-! Non-vacuity of `C97_commutes_partial`: a uniform tensor. -/

example : ∀ i j, BlockwiseConstant ((rebinOutput 0).mij i j) 2 := by
  intro i j Y X u v hY hX hu hv
  rw [(rebinOutput_shape 0 i j).1] at hY
  rw [(rebinOutput_shape 0 i j).2] at hX
  show (Img.ofFn 4 4 _).px _ _ = (Img.ofFn 4 4 _).px _ _
  rw [Img.ofFn_px (by omega) (by omega), Img.ofFn_px (by omega) (by omega)]
  simp

example : ∃ R, Demodulator.rebin ⟨(rebinOutput 1).mij, none⟩ (some (saveUntil (rebinOutput 1) 12 ⟨[], none⟩).top) 2 =
    .ok R ∧ (R.mij 0 0).px 1 0 = 7 / 2 := by
  obtain ⟨R, e, -, h⟩ := C97_components ⟨(rebinOutput 1).mij, none⟩ _ _ (rebinOutput_loads_plain 1) 4 4
    (rebinOutput_shape 1) (rebinOutput_shape 1) 2 (by decide) (by decide) (by decide)
  refine ⟨R, e, ?_⟩
  rw [(h 0 0).2.2 1 0 (by rw [(h 0 0).1]; decide) (by rw [(h 0 0).2.1]; decide)]
  simp only [sum_range_succ, sum_range_zero, rebinOutput]
  norm_num [Img.ofFn_px']

end Micropol
