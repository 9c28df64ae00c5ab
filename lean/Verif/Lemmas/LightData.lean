import Verif.Spec.Light
import Verif.Lemmas.Stokes
import Verif.Lemmas.ObjectShape
import Verif.Lemmas.Congrid
import Verif.Lemmas.Rounding
import Verif.Lemmas.MapsBlind
import Verif.Props.Roi
import Mathlib.Tactic.Linarith
import Mathlib.Tactic.Positivity

/-! # Non-negative pixels through the functions on arrays -/

set_option autoImplicit false

namespace Micropol

open Classical

/-- No number in the array is negative (outside it is zero). -/
def Lit (A : Img ℝ) : Prop := ∀ y x, 0 ≤ A.px y x

theorem Lit.nonNeg {A : Img ℝ} (h : Lit A) : A.NonNeg := fun y x _ _ => h y x

theorem Img.NonNeg.lit {A : Img ℝ} (h : A.NonNeg) : Lit A := by
  intro y x
  by_cases hc : y < A.h ∧ x < A.w
  · exact h y x hc.1 hc.2
  · rw [A.out y x hc]

theorem lit_ofFn {h w : Nat} {f : Nat → Nat → ℝ} (hf : ∀ y x, 0 ≤ f y x) : Lit (Img.ofFn h w f) := by
  intro y x
  rw [Img.ofFn_px']
  split
  · exact hf y x
  · exact le_rfl

theorem lit_const {h w : Nat} {c : ℝ} (hc : 0 ≤ c) : Lit (Img.const h w c) := lit_ofFn fun _ _ => hc
theorem lit_zeros {h w : Nat} : Lit (Img.zeros h w) := lit_const le_rfl

/-- Whatever is returned satisfies `P`. -/
def OkP {α : Type} (P : α → Prop) (x : Py α) : Prop := ∀ a, x = .ok a → P a

section
variable {α β : Type} {P : α → Prop} {Q : β → Prop}

theorem OkP.ok {a : α} (h : P a) : OkP P (.ok a) := fun b hb => by injection hb with hb; exact hb ▸ h
theorem OkP.pure {a : α} (h : P a) : OkP P (pure a : Py α) := OkP.ok h
theorem OkP.error {e : PyErr} : OkP P (.error e : Py α) := fun b hb => by cases hb
theorem OkP.any {x : Py α} : OkP (fun _ => True) x := fun _ _ => trivial

theorem OkP.bind {x : Py α} {f : α → Py β} (hx : OkP P x) (hf : ∀ a, P a → OkP Q (f a)) : OkP Q (x >>= f) := by
  intro b hb
  obtain ⟨a, h1, h2⟩ := Py.bind_eq_ok.1 hb
  exact hf a (hx a h1) b h2

theorem OkP.mono {R : α → Prop} {x : Py α} (hx : OkP P x) (h : ∀ a, P a → R a) : OkP R x := fun a ha => h a (hx a ha)

theorem OkP.forRange {a b : Int} {st : Nat} {s : α} {body : Int → α → Py α} (hs : P s) (hb : ∀ i s, P s → OkP P (body i s)) :
    OkP P (forRange a b st s body) := by
  unfold Micropol.forRange
  generalize pyRange a b st = l
  induction l generalizing s with
  | nil => exact OkP.ok hs
  | cons i l ih => exact OkP.bind (hb i s hs) fun s' hs' => ih hs'

end

theorem ok_readE {A : Img ℝ} (hA : Lit A) (e : PyErr) (i j : Int) : OkP (fun v => 0 ≤ v) (A.readE e i j) := by
  unfold Img.readE
  split
  · exact OkP.ok (hA _ _)
  · exact OkP.error

theorem lit_setPx {A : Img ℝ} (hA : Lit A) {y x : Nat} {v : ℝ} (hv : 0 ≤ v) : Lit (A.setPx y x v) :=
  lit_ofFn fun y' x' => by split <;> [exact hv; exact hA _ _]

/-- Lit, and of the given shape. -/
def LitOf (h w : Nat) (A : Img ℝ) : Prop := Lit A ∧ A.h = h ∧ A.w = w

theorem ok_write {A : Img ℝ} {h w : Nat} (hA : LitOf h w A) (i j : Int) {v : ℝ} (hv : 0 ≤ v) : OkP (LitOf h w) (A.write i j v) := by
  unfold Img.write
  split
  · exact OkP.ok ⟨lit_setPx hA.1 hv, hA.2⟩
  · exact OkP.error

/-! ## Families -/

/-- Four lit arrays of one shape. -/
def LitFour (s : Fin 4 → Img ℝ) : Prop := (∀ q, Lit (s q)) ∧ ∀ p q, (s p).h = (s q).h ∧ (s p).w = (s q).w

theorem ok_split {d : Img ℝ} (hd : Lit d) : OkP LitFour (splitPolarizations d) := by
  unfold splitPolarizations
  split
  · exact OkP.error
  · rename_i hc
    refine OkP.ok ⟨fun q => lit_ofFn fun y x => hd _ _, fun p q => ⟨?_, ?_⟩⟩
    · show (d.h - p.val / 2 + 1) / 2 = (d.h - q.val / 2 + 1) / 2
      omega
    · show (d.w - p.val % 2 + 1) / 2 = (d.w - q.val % 2 + 1) / 2
      omega

theorem ok_assignStride {A B : Img ℝ} (hA : Lit A) (hB : Lit B) (j i : Nat) : OkP Lit (A.assignStride2 j i B) := by
  unfold Img.assignStride2
  split
  · exact OkP.ok (lit_ofFn fun y x => by split <;> [exact hB _ _; exact hA _ _])
  · exact OkP.error

theorem ok_merge {s : Fin 4 → Img ℝ} (hs : ∀ q, Lit (s q)) : OkP Lit (mergePolarizations s) :=
  OkP.bind (ok_assignStride lit_zeros (hs 0) _ _) fun _ h => OkP.bind (ok_assignStride h (hs 1) _ _) fun _ h =>
    OkP.bind (ok_assignStride h (hs 2) _ _) fun _ h => ok_assignStride h (hs 3) _ _

theorem lit_vec {a b c d : Img ℝ} (ha : Lit a) (hb : Lit b) (hc : Lit c) (hd : Lit d) : ∀ q, Lit ((![a, b, c, d] : Fin 4 → Img ℝ) q) := by
  intro q
  fin_cases q
  · exact ha
  · exact hb
  · exact hc
  · exact hd

/-! ## Kernels -/

theorem ok_addAt {A B : Img ℝ} {h w : Nat} (hA : Lit A) (hB : LitOf h w B) (i j ny nx : Int) : OkP (LitOf h w) (addAt A i j ny nx B) :=
  OkP.bind (ok_readE hA _ i j) fun _ hv => OkP.bind (ok_readE hB.1 _ ny nx) fun _ hc => ok_write hB ny nx (add_nonneg hc hv)

theorem ok_rebin {d : Img ℝ} (hd : Lit d) (b : Int) : OkP Lit (micropolarrayRebin d b) := by
  refine OkP.bind OkP.any fun hw _ => OkP.bind (P := fun A => ∃ h w, LitOf h w A) ?_ fun A hA => ?_
  · unfold npZeros
    split
    · exact OkP.error
    · exact OkP.ok ⟨_, _, lit_zeros, rfl, rfl⟩
  · obtain ⟨h, w, hA⟩ := hA
    exact (OkP.forRange (P := LitOf h w) hA fun _ _ hs => OkP.forRange hs fun _ _ hs => OkP.forRange hs fun _ _ hs =>
      OkP.forRange hs fun _ _ hs => ok_addAt hd hs _ _ _ _).mono fun _ h => h.1

theorem ok_shiftKernel {d : Img ℝ} (hd : Lit d) (y x : Int) {m : ℝ} (hm : 0 ≤ m) : OkP Lit (shiftKernel d y x m) :=
  (OkP.forRange (P := LitOf d.h d.w) ⟨lit_const hm, rfl, rfl⟩ fun _ _ hs => OkP.forRange hs fun _ _ hs =>
    OkP.bind (ok_readE hd _ _ _) fun _ hv => ok_write hs _ _ hv).mono fun _ h => h.1

theorem ok_shift {d : Img ℝ} (hd : Lit d) (y x : Int) {m : ℝ} (hm : 0 ≤ m) : OkP Lit (shiftMicropol d y x m) :=
  OkP.bind (ok_split hd) fun s hs => OkP.bind (ok_shiftKernel (hs.1 0) y x hm) fun _ h0 =>
    OkP.bind (ok_shiftKernel (hs.1 1) y x hm) fun _ h1 => OkP.bind (ok_shiftKernel (hs.1 2) y x hm) fun _ h2 =>
    OkP.bind (ok_shiftKernel (hs.1 3) y x hm) fun _ h3 => ok_merge (lit_vec h0 h1 h2 h3)

theorem ok_ifov {d : Img ℝ} (hd : Lit d) : OkP Lit (correctIfovData d) :=
  (OkP.forRange (P := LitOf d.h d.w) ⟨lit_zeros, rfl, rfl⟩ fun _ _ hs => OkP.forRange hs fun _ _ hs =>
    OkP.forRange hs fun _ _ hs => OkP.forRange hs fun _ _ hs =>
    OkP.bind (ok_readE hd _ _ _) fun _ ha => OkP.bind (ok_readE hd _ _ _) fun _ hb =>
    OkP.bind (ok_readE hd _ _ _) fun _ hc => OkP.bind (ok_readE hd _ _ _) fun _ hd' =>
    ok_write hs _ _ (by positivity)).mono fun _ h => h.1

theorem ok_setAt4 {h w n : Nat} {s : Fin 4 → Img ℝ} {A : Img ℝ} (hs : ∀ q, LitOf h w (s q)) (hA : LitOf h w A) :
    OkP (fun s : Fin 4 → Img ℝ => ∀ q, LitOf h w (s q)) (setAt4 s n A) := by
  unfold setAt4
  split
  · exact OkP.ok fun q => by split <;> [exact hA; exact hs q]
  · exact OkP.error

theorem ok_fours {d : Img ℝ} (hd : Lit d) {fam : Int → Int → Img ℝ → Py (Img ℝ)}
    (hf : ∀ j i t, LitOf d.h d.w t → OkP (LitOf d.h d.w) (fam j i t)) :
    OkP (fun s : Fin 4 → Img ℝ => ∀ q, LitOf d.h d.w (s q))
      (do
        let st ← forRange 0 2 1 ((d, fun _ => Img.zeros d.h d.w, 0) : Img ℝ × (Fin 4 → Img ℝ) × Nat)
          fun j st => forRange 0 2 1 st fun i st => do
            let temp ← fam j i st.1
            let demo ← setAt4 st.2.1 st.2.2 temp
            pure (temp, demo, st.2.2 + 1)
        pure st.2.1) := by
  refine OkP.bind (P := fun st : Img ℝ × (Fin 4 → Img ℝ) × Nat => LitOf d.h d.w st.1 ∧ ∀ q, LitOf d.h d.w (st.2.1 q)) ?_
    fun st hst => OkP.pure hst.2
  refine OkP.forRange ⟨⟨hd, rfl, rfl⟩, fun _ => ⟨lit_zeros, rfl, rfl⟩⟩ fun j st hst => OkP.forRange hst fun i st hst => ?_
  exact OkP.bind (hf j i _ hst.1) fun t ht => OkP.bind (ok_setAt4 hst.2 ht) fun s hs => OkP.pure ⟨ht, hs⟩

theorem LitFour.of {h w : Nat} {s : Fin 4 → Img ℝ} (hs : ∀ q, LitOf h w (s q)) : LitFour s :=
  ⟨fun q => (hs q).1, fun p q => ⟨(hs p).2.1.trans (hs q).2.1.symm, (hs p).2.2.trans (hs q).2.2.symm⟩⟩

theorem ok_demosaicmean {d : Img ℝ} (hd : Lit d) : OkP LitFour (demosaicmean d) := by
  refine (ok_fours hd (fam := fun j i t => demosaicmeanFamily d j i t) fun j i t ht => ?_).mono fun s hs => LitFour.of hs
  refine OkP.forRange ht fun _ _ hs => OkP.forRange hs fun _ t ht => OkP.bind (ok_readE hd _ _ _) fun v hv => OkP.pure ?_
  exact ⟨lit_ofFn fun y x => by split <;> [exact mul_nonneg hv (by norm_num); exact ht.1 _ _], ht.2⟩

theorem ok_adjacent {d : Img ℝ} (hd : Lit d) : OkP (fun s : Fin 4 → Img ℝ => ∀ q, LitOf d.h d.w (s q)) (demosaicadjacent d) := by
  refine ok_fours hd (fam := fun j i t => demosaicadjacentFamily d j i t) fun j i t ht => ?_
  refine OkP.forRange ht fun _ _ hs => OkP.forRange hs fun _ t ht => ?_
  have rd := fun i j => ok_readE hd .oob i j
  exact OkP.bind (rd _ _) fun a ha => OkP.bind (ok_write ht _ _ ha) fun t ht =>
    OkP.bind (rd _ _) fun a ha => OkP.bind (rd _ _) fun b hb => OkP.bind (ok_write ht _ _ (by positivity)) fun t ht =>
    OkP.bind (rd _ _) fun a ha => OkP.bind (rd _ _) fun c hc => OkP.bind (ok_write ht _ _ (by positivity)) fun t ht =>
    OkP.bind (rd _ _) fun a ha => OkP.bind (rd _ _) fun b hb => OkP.bind (rd _ _) fun c hc => OkP.bind (rd _ _) fun d hd =>
    ok_write ht _ _ (by positivity)

theorem ok_demosaic {d : Img ℝ} (hd : Lit d) (mode : String) : OkP LitFour (demosaic d mode) := by
  unfold demosaic
  split
  · exact ok_demosaicmean hd
  · split
    · refine OkP.bind (ok_adjacent (d := hstackLast2 (vstackLast2 d)) ?_) fun s hs => OkP.pure ⟨fun q => ?_, fun p q => ⟨?_, ?_⟩⟩
      · refine lit_ofFn fun y x => ?_
        have : Lit (vstackLast2 d) := lit_ofFn fun y x => by split <;> exact hd _ _
        split <;> exact this _ _
      · exact lit_ofFn fun y x => (hs q).1 _ _
      · show (s p).h - 2 = (s q).h - 2
        rw [(hs p).2.1, (hs q).2.1]
      · show (s p).w - 2 = (s q).w - 2
        rw [(hs p).2.2, (hs q).2.2]
    · split <;> exact OkP.error

/-! ## Elementwise operations -/

theorem ok_npBinAt {f : Nat → Nat → ℝ → ℝ → ℝ} {A B : Img ℝ} (hA : Lit A) (hB : Lit B) (hf : ∀ y x a b, 0 ≤ a → 0 ≤ b → 0 ≤ f y x a b) :
    OkP Lit (npBinAt f A B) :=
  OkP.bind OkP.any fun _ _ => OkP.bind OkP.any fun _ _ => OkP.pure (lit_ofFn fun _ _ => hf _ _ _ _ (hA _ _) (hB _ _))

theorem ok_divide {junk : Nat → Nat → ℝ} (hj : JunkNonNeg junk) {A B : Img ℝ} (hA : Lit A) (hB : Lit B) :
    OkP Lit (npDivideNoOut junk A B) :=
  ok_npBinAt hA hB fun y x a b ha hb => by split <;> [exact div_nonneg ha hb; exact hj y x]

theorem ok_flat {junk : Nat → Nat → ℝ} (hj : JunkNonNeg junk) {d flat : Img ℝ} (hd : Lit d) (hf : Lit flat) :
    OkP Lit (correctFlatData junk d flat) := by
  refine OkP.bind (P := fun m => 0 ≤ m) ?_ fun m hm => ?_
  · unfold npMean
    split
    · exact OkP.error
    · exact OkP.ok (div_nonneg (Finset.sum_nonneg fun y _ => Finset.sum_nonneg fun x _ => hf y x) (Nat.cast_nonneg _))
  · split
    · exact OkP.error
    · exact ok_divide hj hd (lit_ofFn fun y x => div_nonneg (hf y x) hm)

theorem ok_where {m : Img Bool} {A B : Img ℝ} (hA : Lit A) (hB : Lit B) : OkP Lit (npWhere m A B) :=
  OkP.bind OkP.any fun _ _ => OkP.bind OkP.any fun _ _ => OkP.bind OkP.any fun _ _ => OkP.bind OkP.any fun _ _ =>
    OkP.pure (lit_ofFn fun _ _ => by split <;> [exact hA _ _; exact hB _ _])

theorem ok_clean {median : Img ℝ → Img ℝ} (hm : ∀ A : Img ℝ, A.NonNeg → (median A).NonNeg) {d flags : Img ℝ} (hd : Lit d) :
    OkP Lit (cleanHotPixelsData median d flags) :=
  OkP.bind (ok_split hd) fun s hs => OkP.bind OkP.any fun _ _ =>
    have w : ∀ (q : Fin 4) (m : Img Bool), OkP Lit (npWhere m (median (s q)) (s q)) := fun q m =>
      ok_where (hm _ (hs.1 q).nonNeg).lit (hs.1 q)
    OkP.bind (w 0 _) fun _ h0 => OkP.bind (w 1 _) fun _ h1 => OkP.bind (w 2 _) fun _ h2 => OkP.bind (w 3 _) fun _ h3 =>
      ok_merge (lit_vec h0 h1 h2 h3)

theorem ok_arithImage {op : Arith} (hop : op ≠ .sub) {junk : Nat → Nat → ℝ} (hj : JunkNonNeg junk) {d e : Img ℝ} (hd : Lit d) (he : Lit e) :
    OkP Lit (arithData op junk d (.image e)) := by
  cases op with
  | add => exact ok_npBinAt hd he fun _ _ a b ha hb => add_nonneg ha hb
  | sub => exact absurd rfl hop
  | mul => exact ok_npBinAt hd he fun _ _ a b ha hb => mul_nonneg ha hb
  | div => exact ok_divide hj hd he

theorem lit_map {f : ℝ → ℝ} {A : Img ℝ} (hA : Lit A) (hf : ∀ v, 0 ≤ v → 0 ≤ f v) : Lit (A.map f) := lit_ofFn fun y x => hf _ (hA y x)

theorem ok_arithNumber {op : Arith} {i : Nat} {c : ℝ} {junk : Nat → Nat → ℝ} (h : (Op.arithNumber op i c junk).AddsNoNegative) {d : Img ℝ}
    (hd : Lit d) : OkP Lit (arithData op junk d (.number c)) := by
  cases op with
  | add => exact OkP.ok (lit_map hd fun v hv => add_nonneg hv h)
  | sub => exact OkP.ok (lit_map hd fun v hv => sub_nonneg.2 (le_trans h hv))
  | mul => exact OkP.ok (lit_map hd fun v hv => mul_nonneg hv h)
  | div => exact OkP.ok (lit_ofFn fun y x => by split <;> [exact div_nonneg (hd _ _) h.1; exact h.2 y x])

/-! ## Resampling, masking, turning -/

theorem interp_blend (n m : Nat) (hn : 2 ≤ n) (hm : m ≠ 1) (k : Nat) (hk : k < m) :
    ∃ (i : Nat) (t : ℝ), 0 ≤ t ∧ t ≤ 1 ∧ ∀ f : Nat → ℝ, interpLinear n f (((n : ℝ) - 1) / ((m : ℝ) - 1) * k) = (1 - t) * f i + t * f (i + 1) := by
  obtain ⟨i, t, hi, t0, t1, e⟩ := position_exists n m k hn (by omega) hk
  refine ⟨i, t, t0, t1, fun f => ?_⟩
  rw [div_mul_eq_mul_div, e]
  exact interpLinear_at n f i t hi t0 t1

/-- Every pixel of a resampled array is a blend of four pixels, the same blend for all arrays of one shape. -/
theorem congrid_blend {h w ny nx Y X : Nat} (hY : Y < ny) (hX : X < nx) (hh : 2 ≤ h) (hw : 2 ≤ w) (h1 : ny ≠ 1) (w1 : nx ≠ 1) :
    ∃ (y x : Nat) (s t : ℝ), 0 ≤ s ∧ s ≤ 1 ∧ 0 ≤ t ∧ t ≤ 1 ∧ ∀ A B : Img ℝ, A.h = h → A.w = w → congrid A ny nx = .ok B →
      B.px Y X = (1 - s) * ((1 - t) * A.px y x + t * A.px y (x + 1)) + s * ((1 - t) * A.px (y + 1) x + t * A.px (y + 1) (x + 1)) := by
  obtain ⟨y, s, s0, s1, hs⟩ := interp_blend h ny hh h1 Y hY
  obtain ⟨x, t, t0, t1, ht⟩ := interp_blend w nx hw w1 X hX
  refine ⟨y, x, s, t, s0, s1, t0, t1, fun A B e1 e2 hB => ?_⟩
  obtain ⟨B', hB', -, -, hpx⟩ := congrid_px A ny nx ⟨e1 ▸ hh, e2 ▸ hw⟩ h1 w1
  rw [hB] at hB'
  injection hB' with hB'
  subst hB'
  rw [hpx Y X hY hX, e1, e2, hs, ht, ht]

theorem congrid_facts {A B : Img ℝ} {ny nx : Nat} (h : congrid A ny nx = .ok B) :
    2 ≤ A.h ∧ 2 ≤ A.w ∧ ny ≠ 1 ∧ nx ≠ 1 ∧ B.h = ny ∧ B.w = nx := by
  by_cases hc : A.h < 2 ∨ A.w < 2 ∨ ny = 1 ∨ nx = 1
  · unfold congrid at h
    rw [if_pos hc] at h
    cases h
  · obtain ⟨B', hB', b1, b2, -⟩ := congrid_px A ny nx (by omega) (by omega) (by omega)
    rw [h] at hB'
    injection hB' with hB'
    subst hB'
    exact ⟨by omega, by omega, by omega, by omega, b1, b2⟩

theorem ok_congrid {A : Img ℝ} (hA : Lit A) (ny nx : Nat) : OkP Lit (congrid A ny nx) := by
  intro B hB
  obtain ⟨c1, c2, c3, c4, b1, b2⟩ := congrid_facts hB
  refine Img.NonNeg.lit fun Y X hY hX => ?_
  obtain ⟨y, x, s, t, s0, s1, t0, t1, h⟩ := congrid_blend (b1 ▸ hY) (b2 ▸ hX) c1 c2 c3 c4
  rw [h A B rfl rfl hB]
  have := hA y x
  have := hA y (x + 1)
  have := hA (y + 1) x
  have := hA (y + 1) (x + 1)
  have : 0 ≤ 1 - s := by linarith
  have : 0 ≤ 1 - t := by linarith
  positivity

theorem ok_congridData {d : Img ℝ} (hd : Lit d) (ny nx : Nat) : OkP Lit (congridData d ny nx) :=
  OkP.bind (ok_split hd) fun s hs => OkP.bind (ok_congrid (hs.1 0) _ _) fun _ h0 => OkP.bind (ok_congrid (hs.1 1) _ _) fun _ h1 =>
    OkP.bind (ok_congrid (hs.1 2) _ _) fun _ h2 => OkP.bind (ok_congrid (hs.1 3) _ _) fun _ h3 => ok_merge (lit_vec h0 h1 h2 h3)

theorem ok_roi {A : Img ℝ} (hA : Lit A) (c r : Option (ℝ × ℝ)) (t : ℝ × ℝ) {fill : ℝ} (hf : 0 ≤ fill) (b : Bool) :
    OkP Lit (roiFromPolar A c r t fill b) :=
  OkP.bind OkP.any fun _ _ => ok_where hA (lit_const hf)

theorem roundSingle_nonneg {v : ℝ} (hv : 0 ≤ v) : 0 ≤ roundSingle v := by
  unfold roundSingle
  have p : (0 : ℝ) < 2 ^ (Int.log 2 |v| - 23) := by positivity
  refine mul_nonneg ?_ p.le
  have h1 := abs_le.1 (nearestEven_near (v / 2 ^ (Int.log 2 |v| - 23)))
  have h2 : 0 ≤ v / 2 ^ (Int.log 2 |v| - 23) := div_nonneg hv p.le
  have h3 : (-1 : ℝ) < nearestEven (v / 2 ^ (Int.log 2 |v| - 23)) := by linarith
  have h4 : (-1 : ℤ) < nearestEven (v / 2 ^ (Int.log 2 |v| - 23)) := by exact_mod_cast h3
  have h5 : (0 : ℤ) ≤ nearestEven (v / 2 ^ (Int.log 2 |v| - 23)) := by omega
  exact_mod_cast h5

theorem ok_pil (angle : ℝ) {A : Img ℝ} (hA : Lit A) : OkP Lit (pilRotate angle A) := by
  refine OkP.ok (lit_ofFn fun y x => ?_)
  split
  · exact roundSingle_nonneg (hA _ _)
  · exact le_rfl

theorem ok_assignPlane {h w : Nat} {A : Img ℝ} (hA : Lit A) : OkP Lit (assignPlane h w A) := by
  unfold assignPlane
  split
  · exact OkP.ok (lit_ofFn fun _ _ => hA _ _)
  · exact OkP.error

theorem ok_mapFour {f : Img ℝ → Py (Img ℝ)} {s : Fin 4 → Img ℝ} (hs : ∀ q, OkP Lit (f (s q))) :
    OkP (fun t : Fin 4 → Img ℝ => ∀ q, Lit (t q)) (mapFour f s) :=
  OkP.bind (hs 0) fun _ h0 => OkP.bind (hs 1) fun _ h1 => OkP.bind (hs 2) fun _ h2 => OkP.bind (hs 3) fun _ h3 =>
    OkP.pure (lit_vec h0 h1 h2 h3)

theorem ok_rotateData (angle : ℝ) {d : Img ℝ} (hd : Lit d) : OkP Lit (rotateData (pilRotate angle) d) :=
  OkP.bind (ok_split hd) fun s hs => OkP.bind (ok_mapFour fun q => OkP.bind (ok_pil angle (hs.1 q)) fun _ h => ok_assignPlane h) fun _ h =>
    ok_merge h

/-- Four results of a function whose result shapes depend on shapes only have one shape if the arguments do. -/
theorem mapFour_shapes {f : Img ℝ → Py (Img ℝ)} (hf : FormOnly f) {s t : Fin 4 → Img ℝ}
    (hs : ∀ p q, (s p).h = (s q).h ∧ (s p).w = (s q).w) (ht : mapFour f s = .ok t) : ∀ p q, (t p).h = (t q).h ∧ (t p).w = (t q).w := by
  unfold mapFour at ht
  obtain ⟨a, ha, ht⟩ := Py.bind_eq_ok.1 ht
  obtain ⟨b, hb, ht⟩ := Py.bind_eq_ok.1 ht
  obtain ⟨c, hc, ht⟩ := Py.bind_eq_ok.1 ht
  obtain ⟨d, hd, ht⟩ := Py.bind_eq_ok.1 ht
  injection ht with ht
  subst ht
  have key : ∀ {p q : Fin 4} {u v : Img ℝ}, f (s p) = .ok u → f (s q) = .ok v → u.h = v.h ∧ u.w = v.w := by
    intro p q u v hu hv
    have := hf (s p) (s q) (hs p q)
    rw [hu, hv] at this
    exact this
  have all : ∀ q, f (s q) = .ok ((![a, b, c, d] : Fin 4 → Img ℝ) q) := by
    intro q
    fin_cases q
    · exact ha
    · exact hb
    · exact hc
    · exact hd
  exact fun p q => key (all p) (all q)

/-! ## Stokes maps -/

/-- Maps that pixels can give. -/
def LightMaps (S : Fin 3 → Img ℝ) : Prop :=
  (∀ p, (S p).h = (S 0).h ∧ (S p).w = (S 0).w) ∧ ∀ y x, |(S 1).px y x| + |(S 2).px y x| ≤ 2 * (S 0).px y x

/-- The theoretical Stokes maps of lit images are light. -/
def GoodDic (dic : AngleDic) : Prop := ∀ (s : Fin 4 → Img ℝ) (S : Fin 3 → Img ℝ), LitFour s → theoStokes s dic = .ok S → LightMaps S

theorem abs_sub_le_add {a b : ℝ} (ha : 0 ≤ a) (hb : 0 ≤ b) : |a - b| ≤ a + b := abs_le.2 ⟨by linarith, by linarith⟩

theorem proper_sum {L : Layout} (hL : L.Proper) {f : Fin 4 → ℝ} : f L.p0 + f L.p90 + (f L.p45 + f L.pm45) = f 0 + f 1 + f 2 + f 3 := by
  obtain ⟨p0, p45, pm45, p90⟩ := L
  obtain ⟨h1, h2, h3, h4, h5, h6⟩ := hL
  dsimp only at *
  fin_cases p0 <;> fin_cases p45 <;> first | exact absurd rfl h1 | skip
  all_goals fin_cases pm45 <;> first | exact absurd rfl h2 | exact absurd rfl h4 | skip
  all_goals fin_cases p90 <;> first | exact absurd rfl h3 | exact absurd rfl h5 | exact absurd rfl h6 | skip
  all_goals (show _ = _; simp; ring)

theorem ProperDic.good {dic : AngleDic} (h : ProperDic dic) : GoodDic dic := by
  obtain ⟨L, hP, hL⟩ := h
  intro s S hs hS
  rw [theoStokes_ok s hL] at hS
  injection hS with hS
  subst hS
  refine ⟨fun p => ?_, fun y x => ?_⟩
  · fin_cases p
    · exact ⟨rfl, rfl⟩
    · exact hs.2 _ _
    · exact hs.2 _ _
  · by_cases hc : y < (s 0).h ∧ x < (s 0).w
    · have hp : ∀ p, y < (s p).h ∧ x < (s p).w := fun p => ⟨(hs.2 p 0).1 ▸ hc.1, (hs.2 p 0).2 ▸ hc.2⟩
      have e1 : (stokesClosed s L 1).px y x = (s L.p0).px y x - (s L.p90).px y x := Img.ofFn_px (hp _).1 (hp _).2
      have e2 : (stokesClosed s L 2).px y x = (s L.p45).px y x - (s L.pm45).px y x := Img.ofFn_px (hp _).1 (hp _).2
      have e0 : (stokesClosed s L 0).px y x = (1 / 2) * ((s 0).px y x + (s 1).px y x + (s 2).px y x + (s 3).px y x) :=
        Img.ofFn_px hc.1 hc.2
      rw [e0, e1, e2]
      have := proper_sum hP (f := fun q => (s q).px y x)
      have h1 := abs_sub_le_add (hs.1 L.p0 y x) (hs.1 L.p90 y x)
      have h2 := abs_sub_le_add (hs.1 L.p45 y x) (hs.1 L.pm45 y x)
      linarith
    · have z : ∀ p, (stokesClosed s L p).px y x = 0 := by
        intro p
        refine Img.out _ y x ?_
        fin_cases p
        · exact hc
        · show ¬ (y < (s L.p0).h ∧ x < (s L.p0).w)
          rw [(hs.2 L.p0 0).1, (hs.2 L.p0 0).2]
          exact hc
        · show ¬ (y < (s L.p45).h ∧ x < (s L.p45).w)
          rw [(hs.2 L.p45 0).1, (hs.2 L.p45 0).2]
          exact hc
      rw [z, z, z]
      simp

theorem ok_dataStokes {dic : AngleDic} (hg : GoodDic dic) {d : Img ℝ} (hd : Lit d) : OkP LightMaps (dataStokes d dic) :=
  OkP.bind (ok_split hd) fun s hs S hS => hg s S hs hS

theorem LightMaps.congrid {S T : Fin 3 → Img ℝ} (hS : LightMaps S) {ny nx : Nat} (hT : ∀ p, congrid (S p) ny nx = .ok (T p)) :
    LightMaps T := by
  obtain ⟨c1, c2, c3, c4, -, -⟩ := congrid_facts (hT 0)
  have sh : ∀ p, (T p).h = ny ∧ (T p).w = nx := fun p => (congrid_facts (hT p)).2.2.2.2
  refine ⟨fun p => ⟨(sh p).1.trans (sh 0).1.symm, (sh p).2.trans (sh 0).2.symm⟩, fun Y X => ?_⟩
  by_cases hc : Y < ny ∧ X < nx
  · obtain ⟨y, x, s, t, s0, s1, t0, t1, h⟩ := congrid_blend hc.1 hc.2 c1 c2 c3 c4
    have e := fun p => h (S p) (T p) (hS.1 p).1 (hS.1 p).2 (hT p)
    rw [e 0, e 1, e 2]
    have a := hS.2 y x
    have b := hS.2 y (x + 1)
    have c := hS.2 (y + 1) x
    have d := hS.2 (y + 1) (x + 1)
    have s2 : 0 ≤ 1 - s := by linarith
    have t2 : 0 ≤ 1 - t := by linarith
    have tri : ∀ p q r v : ℝ, |(1 - s) * ((1 - t) * p + t * q) + s * ((1 - t) * r + t * v)| ≤
        (1 - s) * ((1 - t) * |p| + t * |q|) + s * ((1 - t) * |r| + t * |v|) := by
      intro p q r v
      refine (abs_add_le _ _).trans ?_
      rw [abs_mul, abs_mul, abs_of_nonneg s2, abs_of_nonneg s0]
      have k : ∀ p q : ℝ, |(1 - t) * p + t * q| ≤ (1 - t) * |p| + t * |q| := by
        intro p q
        refine (abs_add_le _ _).trans ?_
        rw [abs_mul, abs_mul, abs_of_nonneg t2, abs_of_nonneg t0]
      exact add_le_add (mul_le_mul_of_nonneg_left (k p q) s2) (mul_le_mul_of_nonneg_left (k r v) s0)
    refine (add_le_add (tri _ _ _ _) (tri _ _ _ _)).trans ?_
    have m1 := mul_le_mul_of_nonneg_left a (mul_nonneg s2 t2)
    have m2 := mul_le_mul_of_nonneg_left b (mul_nonneg s2 t0)
    have m3 := mul_le_mul_of_nonneg_left c (mul_nonneg s0 t2)
    have m4 := mul_le_mul_of_nonneg_left d (mul_nonneg s0 t0)
    nlinarith
  · have z : ∀ p, (T p).px Y X = 0 := fun p => (T p).out Y X (by rw [(sh p).1, (sh p).2]; exact hc)
    rw [z, z, z]
    simp

theorem LightMaps.masked {S T : Fin 3 → Img ℝ} (hS : LightMaps S) {keep : Nat → Nat → Prop} {fill : ℝ} (hf : 0 ≤ fill)
    (hT : ∀ p, IsSelection (S p) keep fill (T p)) : LightMaps T := by
  have sh : ∀ p, (T p).h = (S 0).h ∧ (T p).w = (S 0).w := fun p => ⟨(hT p).1.trans (hS.1 p).1, (hT p).2.1.trans (hS.1 p).2⟩
  refine ⟨fun p => ⟨(sh p).1.trans (sh 0).1.symm, (sh p).2.trans (sh 0).2.symm⟩, fun y x => ?_⟩
  by_cases hc : y < (S 0).h ∧ x < (S 0).w
  · have hp : ∀ p, y < (S p).h ∧ x < (S p).w := fun p => ⟨(hS.1 p).1 ▸ hc.1, (hS.1 p).2 ▸ hc.2⟩
    have e := fun p => (hT p).2.2 y x (hp p).1 (hp p).2
    by_cases hk : keep y x
    · rw [(e 0).1 hk, (e 1).1 hk, (e 2).1 hk]
      exact hS.2 y x
    · rw [(e 0).2 hk, (e 1).2 hk, (e 2).2 hk, abs_of_nonneg hf]
      linarith
  · have z : ∀ p, (T p).px y x = 0 := fun p => (T p).out y x (by rw [(sh p).1, (sh p).2]; exact hc)
    rw [z, z, z]
    simp

end Micropol
