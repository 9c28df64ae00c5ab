import Verif.Model.Stokes
import Verif.Spec.Stokes
import Verif.Lemmas.Split
import Mathlib.Tactic.Ring
import Mathlib.Tactic.FinCases

/-! Closed forms for the theoretical Stokes maps. -/

set_option autoImplicit false

namespace Micropol

theorem sub4_ok {β : Type} (s : Fin 4 → β) (k : Fin 4) : sub4 s (k.val : Int) = .ok (s k) := by
  unfold sub4
  rw [Img.resolve_of_lt k.isLt]
  simp

theorem get_ok {dic : AngleDic} {a p : Int} (h : dic a = some p) : dic.get a = .ok p := by
  unfold AngleDic.get
  rw [h]

section
variable {K : Type} [Zero K] [One K] [Add K] [Sub K] [Mul K] [Div K] [OfNat K 2]

/-- Closed form of the Stokes maps. -/
def stokesClosed (s : Fin 4 → Img K) (L : Layout) : Fin 3 → Img K :=
  ![Img.ofFn (s 0).h (s 0).w (fun y x =>
      (1 / 2) * ((s 0).px y x + (s 1).px y x + (s 2).px y x + (s 3).px y x)),
    Img.zipWith (· - ·) (s L.p0) (s L.p90), Img.zipWith (· - ·) (s L.p45) (s L.pm45)]

theorem theoStokes_ok (s : Fin 4 → Img K) {L : Layout} {dic : AngleDic} (hL : L.Describes dic) :
    theoStokes s dic = .ok (stokesClosed s L) := by
  obtain ⟨h0, h45, hm45, h90⟩ := hL
  unfold theoStokes
  simp only [get_ok h0, get_ok h45, get_ok hm45, get_ok h90, Py.ok_bind, sub4_ok, Py.pure_eq]
  rfl

end

theorem Img.zipWith_px {α β γ : Type} [Zero α] [Zero β] [Zero γ] (f : α → β → γ) (A : Img α) (B : Img β)
    {y x : Nat} (hy : y < A.h) (hx : x < A.w) : (Img.zipWith f A B).px y x = f (A.px y x) (B.px y x) :=
  Img.ofFn_px hy hx

@[simp] theorem Img.zipWith_h {α β γ : Type} [Zero α] [Zero β] [Zero γ] (f : α → β → γ) (A : Img α)
    (B : Img β) : (Img.zipWith f A B).h = A.h := rfl
@[simp] theorem Img.zipWith_w {α β γ : Type} [Zero α] [Zero β] [Zero γ] (f : α → β → γ) (A : Img α)
    (B : Img β) : (Img.zipWith f A B).w = A.w := rfl

variable {K : Type} [Field K]

theorem stokesClosed_spec (s : Fin 4 → Img K) (L : Layout) (hh : ∀ k, (s k).h = (s 0).h)
    (hw : ∀ k, (s k).w = (s 0).w) : IsStokesOf s L (stokesClosed s L) := by
  constructor
  · intro i
    fin_cases i
    · exact ⟨rfl, rfl⟩
    · exact ⟨hh _, hw _⟩
    · exact ⟨hh _, hw _⟩
  · intro y x hy hx
    refine ⟨?_, ?_, ?_⟩
    · show (Img.ofFn _ _ _ : Img K).px y x = _
      rw [Img.ofFn_px hy hx, Fin.sum_univ_four]
      ring
    · exact Img.zipWith_px _ _ _ (by rw [hh]; exact hy) (by rw [hw]; exact hx)
    · exact Img.zipWith_px _ _ _ (by rw [hh]; exact hy) (by rw [hw]; exact hx)

/-- The specification determines the maps. -/
theorem IsStokesOf.unique {s : Fin 4 → Img K} {L : Layout} {S S' : Fin 3 → Img K}
    (h : IsStokesOf s L S) (h' : IsStokesOf s L S') : S = S' := by
  funext i
  refine Img.ext_px ((h.1 i).1.trans (h'.1 i).1.symm) ((h.1 i).2.trans (h'.1 i).2.symm) ?_
  intro y x hy hx
  rw [(h.1 i).1] at hy
  rw [(h.1 i).2] at hx
  have a := h.2 y x hy hx
  have b := h'.2 y x hy hx
  fin_cases i
  · exact a.1.trans b.1.symm
  · exact a.2.1.trans b.2.1.symm
  · exact a.2.2.trans b.2.2.symm

theorem dataStokes_ok {d : Img K} (hh : d.h % 2 = 0) (hw : d.w % 2 = 0) {L : Layout} {dic : AngleDic}
    (hL : L.Describes dic) : ∃ s S, splitPolarizations d = .ok s ∧ dataStokes d dic = .ok S ∧ IsStokesOf s L S := by
  obtain ⟨s, hs⟩ : ∃ s, splitPolarizations d = .ok s := ⟨_, split_ok hh hw⟩
  refine ⟨s, stokesClosed s L, hs, ?_, ?_⟩
  · unfold dataStokes
    rw [hs, Py.ok_bind, theoStokes_ok _ hL]
  · rw [split_ok hh hw] at hs
    injection hs with hs
    subst hs
    exact stokesClosed_spec _ _ (fun _ => rfl) (fun _ => rfl)

theorem dataStokes_spec {d : Img K} {dic : AngleDic} {L : Layout} (hL : L.Describes dic) {s : Fin 4 → Img K}
    {S : Fin 3 → Img K} (hs : splitPolarizations d = .ok s) (hS : dataStokes d dic = .ok S) :
    IsStokesOf s L S := by
  obtain ⟨hh, hw⟩ := split_even hs
  obtain ⟨s', S', e1, e2, e3⟩ := dataStokes_ok hh hw hL
  rw [hs] at e1; injection e1 with e1
  rw [hS] at e2; injection e2 with e2
  rw [e1, e2]
  exact e3

theorem dataStokes_even {d : Img K} {dic : AngleDic} {S : Fin 3 → Img K} (hS : dataStokes d dic = .ok S) :
    d.h % 2 = 0 ∧ d.w % 2 = 0 := by
  unfold dataStokes at hS
  obtain ⟨s, hs, -⟩ := Py.bind_eq_ok.1 hS
  exact split_even hs

end Micropol
