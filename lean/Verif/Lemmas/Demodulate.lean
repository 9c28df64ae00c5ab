import Verif.Model.Demodulate
import Verif.Lemmas.NumPy
import Verif.Lemmas.Split
import Verif.Lemmas.Stokes

/-! Closed forms for demodulation. -/

set_option autoImplicit false
set_option linter.unusedSectionVars false

namespace Micropol

/-- The product in the order in which it is computed. -/
theorem matmulPols_four {K : Type} [Zero K] [One K] [Add K] [Sub K] [Mul K] [Div K] [OfNat K 2] [OfNat K 4]
    {mij : Fin 3 → Fin 4 → Img K} {pols : Fin 4 → Img K} {h w : Nat}
    (hm : (mij 0 0).h = h ∧ (mij 0 0).w = w) (hp : (pols 0).h = h ∧ (pols 0).w = w) :
    matmulPols mij pols = .ok (fun i => Img.ofFn h w (fun y x => (mij i 0).px y x * (pols 0).px y x +
      (mij i 1).px y x * (pols 1).px y x + (mij i 2).px y x * (pols 2).px y x + (mij i 3).px y x * (pols 3).px y x)) := by
  unfold matmulPols
  rw [hm.1, hm.2, hp.1, hp.2, bdim_self, bdim_self, Py.ok_bind, Py.ok_bind, Py.pure_eq]
  congr 1
  funext i
  refine Img.ofFn_congr ?_
  intro y x hy hx
  dsimp only
  rw [bidx_of_lt hy, bidx_of_lt hx]

section
variable {K : Type} [Zero K] [One K] [Add K] [Sub K] [Mul K] [Div K] [OfNat K 2] [OfNat K 4] [DecidableEq K]

theorem vec3_eta {β : Type} (f : Fin 3 → β) : ![f 0, f 1, f 2] = f := by
  funext i
  fin_cases i <;> rfl

theorem whereFlags_ok {flags : Img K} {S T : Fin 3 → Img K} {h w : Nat} (hf : flags.h = h ∧ flags.w = w)
    (hS : ∀ i, (S i).h = h ∧ (S i).w = w) (hT : ∀ i, (T i).h = h ∧ (T i).w = w) :
    whereFlags flags S T = .ok (fun i => Img.ofFn h w (fun y x =>
      if flags.px y x = 1 then (S i).px y x else (T i).px y x)) := by
  have key : ∀ i, npWhere (flags.map (fun v => decide (v = 1))) (S i) (T i) = .ok (Img.ofFn h w (fun y x =>
      if flags.px y x = 1 then (S i).px y x else (T i).px y x)) := by
    intro i
    rw [npWhere_ok ((hS i).1.trans (hT i).1.symm) ((hS i).2.trans (hT i).2.symm)
      (by rw [Img.map_h, hf.1, (hT i).1]) (by rw [Img.map_w, hf.2, (hT i).2]), (hT i).1, (hT i).2]
    congr 1
    refine Img.ofFn_congr ?_
    intro y x hy hx
    rw [Img.map_px _ _ (by rw [hf.1]; exact hy) (by rw [hf.2]; exact hx)]
    simp
  unfold whereFlags
  simp only [key, Py.ok_bind, Py.pure_eq]
  rw [vec3_eta (fun i => Img.ofFn h w (fun y x => if flags.px y x = 1 then (S i).px y x else (T i).px y x))]

end

variable {K : Type} [Field K] [DecidableEq K]

theorem matmulPols_ok {mij : Fin 3 → Fin 4 → Img K} {pols : Fin 4 → Img K} {h w : Nat}
    (hm : (mij 0 0).h = h ∧ (mij 0 0).w = w) (hp : (pols 0).h = h ∧ (pols 0).w = w) :
    matmulPols mij pols = .ok (fun i => Img.ofFn h w (fun y x => ∑ j, (mij i j).px y x * (pols j).px y x)) := by
  unfold matmulPols
  rw [hm.1, hm.2, hp.1, hp.2, bdim_self, bdim_self, Py.ok_bind, Py.ok_bind, Py.pure_eq]
  congr 1
  funext i
  refine Img.ofFn_congr ?_
  intro y x hy hx
  dsimp only
  rw [bidx_of_lt hy, bidx_of_lt hx, Fin.sum_univ_four]

theorem repeatPerSuperpixel_ok (A : Img K) :
    repeatPerSuperpixel A = .ok (Img.ofFn (2 * A.h) (2 * A.w) (fun y x => A.px (y / 2) (x / 2))) := by
  unfold repeatPerSuperpixel
  rw [merge_ok (h := A.h) (w := A.w) (fun _ => rfl) (fun _ => rfl)]

end Micropol
