import Verif.Model.NotANumber
import Verif.Spec.NotANumber
import Verif.Lemmas.RebinFold
import Verif.Lemmas.Demosaic
import Verif.Lemmas.Demodulate
import Verif.Lemmas.Corrections
import Verif.Lemmas.Stokes
import Verif.Lemmas.Split
import Verif.Lemmas.NumPy

/-!
# Lemmas on "not a number"
-/

set_option autoImplicit false
set_option linter.unusedSectionVars false

namespace Micropol

section
variable {K : Type} [Zero K] [One K] [Add K] [Sub K] [Mul K] [Div K] {n : K}

/-- `a'` is `a`, replaced by `n` if `s`. -/
def Spo (n : K) (s : Prop) (a a' : K) : Prop := (s → a' = n) ∧ (¬ s → a' = a)

theorem Spo.const (a : K) : Spo n False a a := ⟨False.elim, fun _ => rfl⟩

theorem Spo.congr {s t : Prop} {a a' : K} (h : Spo n s a a') (e : s ↔ t) : Spo n t a a' :=
  ⟨fun ht => h.1 (e.2 ht), fun ht => h.2 (fun hs => ht (e.1 hs))⟩

theorem Spo.op {f : K → K → K} (hl : ∀ a, f n a = n) (hr : ∀ a, f a n = n) {s t : Prop} {a a' b b' : K} (h : Spo n s a a')
    (g : Spo n t b b') : Spo n (s ∨ t) (f a b) (f a' b') := by
  constructor
  · rintro (hs | ht)
    · rw [h.1 hs, hl]
    · rw [g.1 ht, hr]
  · intro hn
    rw [h.2 (fun hs => hn (Or.inl hs)), g.2 (fun ht => hn (Or.inr ht))]

variable (hn : IsNaN n)
include hn

theorem Spo.add {s t : Prop} {a a' b b' : K} (h : Spo n s a a') (g : Spo n t b b') : Spo n (s ∨ t) (a + b) (a' + b') :=
  h.op (f := fun a b => a + b) hn.add_left hn.add_right g

theorem Spo.sub {s t : Prop} {a a' b b' : K} (h : Spo n s a a') (g : Spo n t b b') : Spo n (s ∨ t) (a - b) (a' - b') :=
  h.op (f := fun a b => a - b) hn.sub_left hn.sub_right g

theorem Spo.mul {s t : Prop} {a a' b b' : K} (h : Spo n s a a') (g : Spo n t b b') : Spo n (s ∨ t) (a * b) (a' * b') :=
  h.op (f := fun a b => a * b) hn.mul_left hn.mul_right g

theorem Spo.div {s t : Prop} {a a' b b' : K} (h : Spo n s a a') (g : Spo n t b b') : Spo n (s ∨ t) (a / b) (a' / b') :=
  h.op (f := fun a b => a / b) hn.div_left hn.div_right g

theorem Spo.rowFold {f f' : Nat → K} {t : Nat → Prop} (b : Nat) (h : ∀ v, v < b → Spo n (t v) (f v) (f' v)) {s : Prop} {z z' : K}
    (hz : Spo n s z z') : Spo n (s ∨ ∃ v, v < b ∧ t v) (Micropol.rowFold f b z) (Micropol.rowFold f' b z') := by
  unfold Micropol.rowFold
  induction b with
  | zero => exact hz.congr (by simp)
  | succ b ih =>
    rw [List.range_succ, List.foldl_append, List.foldl_append]
    refine (((ih (fun v hv => h v (by omega))).add hn (h b (by omega)))).congr ?_
    constructor
    · rintro ((hs | ⟨v, hv, ht⟩) | ht)
      · exact Or.inl hs
      · exact Or.inr ⟨v, by omega, ht⟩
      · exact Or.inr ⟨b, by omega, ht⟩
    · rintro (hs | ⟨v, hv, ht⟩)
      · exact Or.inl (Or.inl hs)
      · rcases (by omega : v < b ∨ v = b) with hv' | rfl
        · exact Or.inl (Or.inr ⟨v, hv', ht⟩)
        · exact Or.inr ht

theorem Spo.blockFold {d d' : Img K} {S : Nat → Nat → Prop} (hd : Spoiled n S d d') (y0 x0 s b : Nat)
    (hy : ∀ u, u < b → y0 + u * s < d.h) (hx : ∀ v, v < b → x0 + v * s < d.w) :
    Spo n (∃ u v, u < b ∧ v < b ∧ S (y0 + u * s) (x0 + v * s)) (Micropol.blockFold d y0 x0 s b) (Micropol.blockFold d' y0 x0 s b) := by
  unfold Micropol.blockFold
  have key : ∀ m, m ≤ b → Spo n (∃ u v, u < m ∧ v < b ∧ S (y0 + u * s) (x0 + v * s)) (blockFoldFrom d y0 x0 s m b 0)
      (blockFoldFrom d' y0 x0 s m b 0) := by
    intro m hm
    induction m with
    | zero => exact (Spo.const 0).congr (by simp)
    | succ m ih =>
      unfold blockFoldFrom
      rw [List.range_succ, List.foldl_append, List.foldl_append]
      have := Spo.rowFold hn (f := fun v => d.px (y0 + m * s) (x0 + v * s)) (f' := fun v => d'.px (y0 + m * s) (x0 + v * s))
        (t := fun v => S (y0 + m * s) (x0 + v * s)) b
        (fun v hv => hd.2 _ _ (hy m (by omega)) (hx v hv)) (ih (by omega))
      refine this.congr ?_
      constructor
      · rintro (⟨u, v, hu, hv, h⟩ | ⟨v, hv, h⟩)
        · exact ⟨u, v, by omega, hv, h⟩
        · exact ⟨m, v, by omega, hv, h⟩
      · rintro ⟨u, v, hu, hv, h⟩
        rcases (by omega : u < m ∨ u = m) with hu' | rfl
        · exact Or.inl ⟨u, v, hu', hv, h⟩
        · exact Or.inr ⟨v, hv, h⟩
  exact key b le_rfl

theorem AddsUp.nan {l : List K} {a : K} (h : AddsUp l a) (hmem : n ∈ l) : a = n := by
  induction h with
  | single a => exact (List.mem_singleton.1 hmem).symm
  | plus _ _ ih ih' =>
    rcases List.mem_append.1 hmem with hm | hm
    · rw [ih hm, hn.add_left]
    · rw [ih' hm, hn.add_right]
  | reorder hp _ ih => exact ih (hp.mem_iff.2 hmem)

end

theorem Img.mem_pixels {K : Type} [Zero K] {A : Img K} {y x : Nat} (hy : y < A.h) (hx : x < A.w) : A.px y x ∈ A.pixels := by
  unfold Img.pixels
  rw [List.mem_flatMap]
  exact ⟨y, List.mem_range.2 hy, List.mem_map.2 ⟨x, List.mem_range.2 hx, rfl⟩⟩

/-- The pixel of the image extended by its last two rows and columns. -/
theorem stacked_px {K : Type} [Zero K] (d : Img K) {Y X : Nat} (hh : 2 ≤ d.h) (hw : 2 ≤ d.w) (hY : Y < d.h + 2) (hX : X < d.w + 2) :
    (hstackLast2 (vstackLast2 d)).px Y X = d.px (if Y < d.h then Y else Y - 2) (if X < d.w then X else X - 2) := by
  have e2 : min 2 d.h = 2 := by omega
  have e3 : min 2 d.w = 2 := by omega
  have hv : ∀ x, x < d.w → (vstackLast2 d).px Y x = d.px (if Y < d.h then Y else Y - 2) x := by
    intro x hx
    unfold vstackLast2
    rw [Img.ofFn_px (by rw [e2]; exact hY) (by exact hx), e2]
    split <;> rfl
  unfold hstackLast2
  have hw' : (vstackLast2 d).w = d.w := rfl
  have hh' : (vstackLast2 d).h = d.h + 2 := by show d.h + min 2 d.h = _; rw [e2]
  rw [Img.ofFn_px (by rw [hh']; exact hY) (by rw [hw', e3]; exact hX), hw', e3]
  split
  · rename_i h
    exact hv X h
  · exact hv (X - 2) (by omega)

end Micropol
