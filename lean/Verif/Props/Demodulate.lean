import Verif.Lemmas.Demodulate
import Verif.Props.Demosaic
import Verif.Spec.Shape
import Mathlib.Tactic.NormNum

/-!
# C24 – C26: what `demodulate` computes
-/

set_option autoImplicit false
set_option linter.unusedSectionVars false

namespace Micropol

open Finset

variable {K : Type} [Field K] [DecidableEq K]

/-- The tensor is `h × w`. -/
def Demodulator.HasShape (D : Demodulator K) (h w : Nat) : Prop := ∀ i j, (D.mij i j).HasShape h w

/-- C24: with a tensor and flags of the family shape, each Stokes component is the tensor applied to the superpixel
where the flag is 1, and the image's previous value elsewhere. -/
theorem C24_flags (data : Img K) (s : Fin 4 → Img K) (hs : splitPolarizations data = .ok s)
    (prev : Fin 3 → Img K) (hprev : ∀ i, (prev i).HasShape (data.h / 2) (data.w / 2))
    (D : Demodulator K) (hD : D.HasShape (data.h / 2) (data.w / 2)) (flags : Img K)
    (hf : D.fitFoundFlags = some flags) (hfs : flags.HasShape (data.h / 2) (data.w / 2)) :
    ∃ S, demodulatePlain data prev D = .ok S ∧ ∀ i, (S i).HasShape (data.h / 2) (data.w / 2) ∧
      ∀ y x, y < data.h / 2 → x < data.w / 2 → (S i).px y x =
        if flags.px y x = 1 then ∑ j, (D.mij i j).px y x * (s j).px y x else (prev i).px y x := by
  obtain ⟨hh, hw⟩ := split_even hs
  unfold demodulatePlain
  have hs0 := hs
  rw [split_ok hh hw] at hs0
  injection hs0 with hs0
  rw [hs, Py.ok_bind, matmulPols_ok (hD 0 0) (by rw [← hs0]; exact ⟨rfl, rfl⟩), Py.ok_bind, hf]
  dsimp only
  rw [whereFlags_ok hfs (fun i => ⟨rfl, rfl⟩) hprev]
  refine ⟨_, rfl, fun i => ⟨⟨rfl, rfl⟩, ?_⟩⟩
  intro y x hy hx
  rw [Img.ofFn_px hy hx, Img.ofFn_px hy hx]

/-- C24: without flags the tensor is used everywhere. -/
theorem C24_no_flags (data : Img K) (s : Fin 4 → Img K) (hs : splitPolarizations data = .ok s)
    (prev : Fin 3 → Img K) (D : Demodulator K) (hD : D.HasShape (data.h / 2) (data.w / 2))
    (hf : D.fitFoundFlags = none) :
    ∃ S, demodulatePlain data prev D = .ok S ∧ ∀ i, (S i).HasShape (data.h / 2) (data.w / 2) ∧
      ∀ y x, y < data.h / 2 → x < data.w / 2 → (S i).px y x = ∑ j, (D.mij i j).px y x * (s j).px y x := by
  obtain ⟨hh, hw⟩ := split_even hs
  unfold demodulatePlain
  have hs0 := hs
  rw [split_ok hh hw] at hs0
  injection hs0 with hs0
  rw [hs, Py.ok_bind, matmulPols_ok (hD 0 0) (by rw [← hs0]; exact ⟨rfl, rfl⟩), Py.ok_bind, hf]
  refine ⟨_, rfl, fun i => ⟨⟨rfl, rfl⟩, ?_⟩⟩
  intro y x hy hx
  rw [Img.ofFn_px hy hx]

theorem bdim_error {a b : Nat} (h : a ≠ b) (ha : a ≠ 1) (hb : b ≠ 1) : bdim a b = .error .valueError := by
  unfold bdim
  rw [if_neg h, if_neg ha, if_neg hb]

/-- C25 (partial: only when no side of the tensor and of the families is 1; the missing case is
`C25_broadcast_accepted`): a tensor of another shape than the image's families is rejected with `ValueError`. -/
theorem C25_rejects_partial (data : Img K) (hh : data.h % 2 = 0) (hw : data.w % 2 = 0) (prev : Fin 3 → Img K)
    (D : Demodulator K) (th tw : Nat) (hD : D.HasShape th tw) (hne : th ≠ data.h / 2 ∨ tw ≠ data.w / 2)
    (h1 : th ≠ 1 ∧ tw ≠ 1 ∧ data.h / 2 ≠ 1 ∧ data.w / 2 ≠ 1) :
    demodulatePlain data prev D = .error .valueError := by
  unfold demodulatePlain
  rw [split_ok hh hw, Py.ok_bind]
  have key : matmulPols D.mij (fun k : Fin 4 => Img.ofFn (data.h / 2) (data.w / 2)
      (fun y x => data.px (2 * y + k.val / 2) (2 * x + k.val % 2))) = .error .valueError := by
    unfold matmulPols
    rw [(hD 0 0).1, (hD 0 0).2]
    simp only [Img.ofFn_h, Img.ofFn_w]
    by_cases hc : th = data.h / 2
    · rw [hc, bdim_self, Py.ok_bind, bdim_error (by tauto) h1.2.1 h1.2.2.2, Py.error_bind]
    · rw [bdim_error hc h1.1 h1.2.2.1, Py.error_bind]
  rw [key, Py.error_bind]

/-- C25: the full claim is false: a 1x1 tensor is accepted by an image of any even size, without any error. -/
theorem C25_broadcast_accepted (data : Img K) (hh : data.h % 2 = 0) (hw : data.w % 2 = 0) (prev : Fin 3 → Img K)
    (D : Demodulator K) (hD : D.HasShape 1 1) (hf : D.fitFoundFlags = none) :
    ∃ S, demodulatePlain data prev D = .ok S := by
  unfold demodulatePlain
  rw [split_ok hh hw, Py.ok_bind]
  have b : ∀ n, ∃ m, bdim 1 n = .ok m := by
    intro n
    unfold bdim
    by_cases h : 1 = n
    · exact ⟨_, if_pos h⟩
    · exact ⟨n, by rw [if_neg h, if_pos rfl]⟩
  obtain ⟨m1, e1⟩ := b (data.h / 2)
  obtain ⟨m2, e2⟩ := b (data.w / 2)
  unfold matmulPols
  rw [(hD 0 0).1, (hD 0 0).2]
  simp only [Img.ofFn_h, Img.ofFn_w]
  rw [e1, e2, hf]
  exact ⟨_, rfl⟩

/-- C25: with a concrete witness: a 4x4 image (2x2 families) demodulated with a 1x1 tensor. -/
theorem C25_full_claim_false : ∃ (data : Img ℚ) (prev : Fin 3 → Img ℚ) (D : Demodulator ℚ) (th tw : Nat),
    data.h % 2 = 0 ∧ data.w % 2 = 0 ∧ D.HasShape th tw ∧ (th ≠ data.h / 2 ∨ tw ≠ data.w / 2) ∧
    demodulatePlain data prev D ≠ .error .valueError := by
  refine ⟨Img.const 4 4 1, fun _ => Img.zeros 2 2, ⟨fun _ _ => Img.const 1 1 1, none⟩, 1, 1, rfl, rfl,
    fun _ _ => ⟨rfl, rfl⟩, Or.inl (by decide), ?_⟩
  obtain ⟨S, hS⟩ := C25_broadcast_accepted (Img.const 4 4 (1 : ℚ)) rfl rfl (fun _ => Img.zeros 2 2)
    ⟨fun _ _ => Img.const 1 1 1, none⟩ (fun _ _ => ⟨rfl, rfl⟩) rfl
  rw [hS]
  intro h
  cases h

theorem repeatAll_ok (D : Demodulator K) (data : Img K) (dic : AngleDic) (L : Layout) (hL : L.Describes dic)
    (demo : Fin 4 → Img K) (hdemo : demosaic data "adjacent" = .ok demo) :
    demodulateDemosaicing data dic D = match D.fitFoundFlags with
      | none => .error .attributeError
      | some f => (
        matmulPols (fun i j => Img.ofFn (2 * (D.mij i j).h) (2 * (D.mij i j).w)
          (fun y x => (D.mij i j).px (y / 2) (x / 2))) demo >>= fun S =>
        whereFlags (Img.ofFn (2 * f.h) (2 * f.w) (fun y x => f.px (y / 2) (x / 2))) S (stokesClosed demo L)) := by
  unfold demodulateDemosaicing
  rw [hdemo, Py.ok_bind, theoStokes_ok _ hL, Py.ok_bind]
  simp only [repeatPerSuperpixel_ok, Py.ok_bind]
  have e : (![![(Img.ofFn (2 * (D.mij 0 0).h) (2 * (D.mij 0 0).w) (fun y x => (D.mij 0 0).px (y / 2) (x / 2)) : Img K),
      Img.ofFn (2 * (D.mij 0 1).h) (2 * (D.mij 0 1).w) (fun y x => (D.mij 0 1).px (y / 2) (x / 2)),
      Img.ofFn (2 * (D.mij 0 2).h) (2 * (D.mij 0 2).w) (fun y x => (D.mij 0 2).px (y / 2) (x / 2)),
      Img.ofFn (2 * (D.mij 0 3).h) (2 * (D.mij 0 3).w) (fun y x => (D.mij 0 3).px (y / 2) (x / 2))],
      ![Img.ofFn (2 * (D.mij 1 0).h) (2 * (D.mij 1 0).w) (fun y x => (D.mij 1 0).px (y / 2) (x / 2)),
      Img.ofFn (2 * (D.mij 1 1).h) (2 * (D.mij 1 1).w) (fun y x => (D.mij 1 1).px (y / 2) (x / 2)),
      Img.ofFn (2 * (D.mij 1 2).h) (2 * (D.mij 1 2).w) (fun y x => (D.mij 1 2).px (y / 2) (x / 2)),
      Img.ofFn (2 * (D.mij 1 3).h) (2 * (D.mij 1 3).w) (fun y x => (D.mij 1 3).px (y / 2) (x / 2))],
      ![Img.ofFn (2 * (D.mij 2 0).h) (2 * (D.mij 2 0).w) (fun y x => (D.mij 2 0).px (y / 2) (x / 2)),
      Img.ofFn (2 * (D.mij 2 1).h) (2 * (D.mij 2 1).w) (fun y x => (D.mij 2 1).px (y / 2) (x / 2)),
      Img.ofFn (2 * (D.mij 2 2).h) (2 * (D.mij 2 2).w) (fun y x => (D.mij 2 2).px (y / 2) (x / 2)),
      Img.ofFn (2 * (D.mij 2 3).h) (2 * (D.mij 2 3).w) (fun y x => (D.mij 2 3).px (y / 2) (x / 2))]] : Fin 3 → Fin 4 → Img K)
      = fun i j => Img.ofFn (2 * (D.mij i j).h) (2 * (D.mij i j).w) (fun y x => (D.mij i j).px (y / 2) (x / 2)) := by
    funext i j
    fin_cases i <;> fin_cases j <;> rfl
  rw [e]
  cases D.fitFoundFlags <;> rfl

/-- C26: demodulation with demosaicing works at full resolution: at pixel `(y, x)` the tensor and the flag of
superpixel `(y/2, x/2)` are applied to the four demosaiced values at `(y, x)`, with the theoretical Stokes vector of
the demosaiced images where the flag is not 1. -/
theorem C26_demosaicing [CharZero K] (data : Img K) (hh : data.h % 2 = 0) (hw : data.w % 2 = 0) (dic : AngleDic)
    (L : Layout) (hL : L.Describes dic) (D : Demodulator K) (hD : D.HasShape (data.h / 2) (data.w / 2)) (flags : Img K)
    (hf : D.fitFoundFlags = some flags) (hfs : flags.HasShape (data.h / 2) (data.w / 2)) :
    ∃ demo T S, demosaic data "adjacent" = .ok demo ∧ IsStokesOf demo L T ∧
      demodulateDemosaicing data dic D = .ok S ∧ ∀ i, (S i).SameShape data ∧
      ∀ y x, y < data.h → x < data.w → (S i).px y x =
        if flags.px (y / 2) (x / 2) = 1 then ∑ j, (D.mij i j).px (y / 2) (x / 2) * (demo j).px y x
        else (T i).px y x := by
  obtain ⟨demo, e, h⟩ := demosaic_adjacent_ok data hh hw
  have spec := stokesClosed_spec demo L (fun k => (h k).1.trans (h 0).1.symm) (fun k => (h k).2.1.trans (h 0).2.1.symm)
  rw [repeatAll_ok D data dic L hL demo e, hf]
  dsimp only
  have e2 : ∀ n, n % 2 = 0 → 2 * (n / 2) = n := fun n _ => by omega
  rw [matmulPols_ok (h := data.h) (w := data.w) (by
      constructor
      · rw [Img.ofFn_h, (hD 0 0).1]; omega
      · rw [Img.ofFn_w, (hD 0 0).2]; omega) ⟨(h 0).1, (h 0).2.1⟩, Py.ok_bind,
    whereFlags_ok (h := data.h) (w := data.w) (by rw [hfs.1, hfs.2]; exact ⟨e2 _ hh, e2 _ hw⟩)
      (S := fun _ => Img.ofFn data.h data.w _) (fun _ => ⟨rfl, rfl⟩)
      (fun i => ⟨(spec.1 i).1.trans (h 0).1, (spec.1 i).2.trans (h 0).2.1⟩)]
  refine ⟨demo, stokesClosed demo L, _, e, spec, rfl, fun i => ⟨⟨rfl, rfl⟩, ?_⟩⟩
  intro y x hy hx
  rw [Img.ofFn_px hy hx, Img.ofFn_px hy hx, Img.ofFn_px (by rw [hfs.1]; omega) (by rw [hfs.2]; omega)]
  split
  · refine sum_congr rfl (fun j _ => ?_)
    rw [Img.ofFn_px (by rw [(hD i j).1]; omega) (by rw [(hD i j).2]; omega)]
  · rfl

/-- C26: without fit flags demodulation with demosaicing fails, whatever the image. -/
theorem C26_needs_flags (data : Img K) (hh : data.h % 2 = 0) (hw : data.w % 2 = 0) (dic : AngleDic)
    (L : Layout) (hL : L.Describes dic) (D : Demodulator K) (hf : D.fitFoundFlags = none) :
    demodulateDemosaicing data dic D = .error .attributeError := by
  obtain ⟨demo, e, -⟩ := demosaic_adjacent_ok data hh hw
  rw [repeatAll_ok D data dic L hL demo e, hf]

/-! Non-vacuity: a 4x4 image, a 2x2 tensor and flags with both values. -/

def exDemod : Demodulator ℚ :=
  ⟨fun i j => Img.const 2 2 (i.val + j.val), some (Img.ofFn 2 2 (fun y x => if y = x then 1 else 0))⟩

example : exDemod.HasShape 2 2 := fun _ _ => ⟨rfl, rfl⟩
example : ∃ S, demodulatePlain (Img.ofFn 4 4 (fun y x => (y + x : ℚ))) (fun _ => Img.const 2 2 7) exDemod = .ok S ∧
    (S 1).px 0 0 = 1 * 0 + 2 * 1 + 3 * 1 + 4 * 2 ∧ (S 1).px 0 1 = 7 := by
  obtain ⟨S, e, h⟩ := C24_flags (Img.ofFn 4 4 (fun y x => (y + x : ℚ))) _ (split_ok rfl rfl)
    (fun _ => Img.const 2 2 7) (fun _ => ⟨rfl, rfl⟩) exDemod (fun _ _ => ⟨rfl, rfl⟩) _ rfl ⟨rfl, rfl⟩
  refine ⟨S, e, ?_, ?_⟩
  · rw [(h 1).2 0 0 (by decide) (by decide), if_pos (by norm_num [Img.ofFn_px']), Fin.sum_univ_four]
    norm_num [exDemod, Img.const, Img.ofFn_px']
  · rw [(h 1).2 0 1 (by decide) (by decide), if_neg (by norm_num [Img.ofFn_px'])]
    norm_num [Img.const, Img.ofFn_px']
example : (Layout.mk 0 1 2 3).Describes polarCamAngles := ⟨rfl, rfl, rfl, rfl⟩

end Micropol
