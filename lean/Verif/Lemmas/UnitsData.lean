import Verif.Lemmas.MapsBlind
import Verif.Model.PolFunctions
import Mathlib.Tactic.Linarith
import Mathlib.Tactic.FieldSimp

/-! # Pixel operations on rescaled arrays -/

set_option autoImplicit false

namespace Micropol

noncomputable section

/-- The second number is the first in the other unit. -/
def ScN (c a b : ℝ) : Prop := b = c * a

/-- The second array is the first in the other unit. -/
structure Sca (c : ℝ) (A B : Img ℝ) : Prop where
  h : B.h = A.h
  w : B.w = A.w
  px : ∀ y x, B.px y x = c * A.px y x

theorem ScN.zero (c : ℝ) : ScN c 0 0 := (mul_zero c).symm
theorem ScN.add {c a b a' b' : ℝ} (h : ScN c a a') (k : ScN c b b') : ScN c (a + b) (a' + b') := by
  rw [ScN, h, k]; ring
theorem ScN.sub {c a b a' b' : ℝ} (h : ScN c a a') (k : ScN c b b') : ScN c (a - b) (a' - b') := by
  rw [ScN, h, k]; ring
theorem ScN.smul {c a a' : ℝ} (t : ℝ) (h : ScN c a a') : ScN c (t * a) (t * a') := by rw [ScN, h]; ring
theorem ScN.muls {c a a' : ℝ} (t : ℝ) (h : ScN c a a') : ScN c (a * t) (a' * t) := by rw [ScN, h]; ring

variable {c : ℝ}

theorem Sca.ofFn {h w : Nat} {f g : Nat → Nat → ℝ} (hfg : ∀ y x, y < h → x < w → g y x = c * f y x) :
    Sca c (Img.ofFn h w f) (Img.ofFn h w g) := by
  refine ⟨rfl, rfl, fun y x => ?_⟩
  rw [Img.ofFn_px', Img.ofFn_px']
  split
  · rename_i hc
    exact hfg y x hc.1 hc.2
  · ring

theorem Sca.ofFn' {h w h' w' : Nat} {f g : Nat → Nat → ℝ} (hh : h' = h) (hw : w' = w)
    (hfg : ∀ y x, y < h → x < w → g y x = c * f y x) : Sca c (Img.ofFn h w f) (Img.ofFn h' w' g) := by
  subst hh hw
  exact Sca.ofFn hfg

theorem Sca.const {h w : Nat} {v v' : ℝ} (hv : ScN c v v') : Sca c (Img.const h w v) (Img.const h w v') := Sca.ofFn fun _ _ _ _ => hv

theorem Sca.zeros (h w : Nat) : Sca c (Img.zeros h w) (Img.zeros h w) := Sca.const (ScN.zero c)

theorem Sca.map {A B : Img ℝ} (hA : Sca c A B) {f g : ℝ → ℝ} (hf : ∀ v, g (c * v) = c * f v) : Sca c (A.map f) (B.map g) :=
  Sca.ofFn' hA.h hA.w fun y x _ _ => by rw [hA.px, hf]

theorem Sca.eq_map {A B : Img ℝ} (hA : Sca c A B) : B = A.map (c * ·) :=
  Img.eq_ofFn hA.h hA.w fun y x _ _ => hA.px y x

theorem sca_map (A : Img ℝ) : Sca c A (A.map (c * ·)) := by
  refine ⟨rfl, rfl, fun y x => ?_⟩
  show (Img.ofFn A.h A.w _).px y x = _
  rw [Img.ofFn_px']
  split
  · rfl
  · rename_i hc
    rw [A.out y x hc, mul_zero]

/-! ## Loops and elements -/

theorem PyRel.foldlM {σ τ ι : Type} {R : σ → τ → Prop} {body : σ → ι → Py σ} {body' : τ → ι → Py τ}
    (hb : ∀ i s t, R s t → PyRel R (body s i) (body' t i)) :
    ∀ (l : List ι) (s : σ) (t : τ), R s t → PyRel R (l.foldlM body s) (l.foldlM body' t)
  | [], _, _, h => h
  | i :: l, s, t, h => by
    rw [List.foldlM_cons, List.foldlM_cons]
    exact PyRel.bind (hb i s t h) fun s t h => PyRel.foldlM hb l s t h

theorem PyRel.forRange {σ τ : Type} {R : σ → τ → Prop} {a b : Int} {n : Nat} {s : σ} {t : τ} {body : Int → σ → Py σ}
    {body' : Int → τ → Py τ} (h : R s t) (hb : ∀ i s t, R s t → PyRel R (body i s) (body' i t)) :
    PyRel R (Micropol.forRange a b n s body) (Micropol.forRange a b n t body') :=
  PyRel.foldlM (fun i s t h => hb i s t h) _ s t h

section
variable {A B : Img ℝ}

theorem Sca.read (hA : Sca c A B) (i j : Int) : PyRel (ScN c) (A.read i j) (B.read i j) := by
  unfold Img.read Img.readE
  rw [hA.h, hA.w]
  split
  · exact hA.px _ _
  · rfl

theorem Sca.setPx (hA : Sca c A B) (y x : Nat) {v v' : ℝ} (hv : ScN c v v') : Sca c (A.setPx y x v) (B.setPx y x v') := by
  refine Sca.ofFn' hA.h hA.w fun y' x' _ _ => ?_
  split
  · exact hv
  · exact hA.px _ _

theorem Sca.write (hA : Sca c A B) (i j : Int) {v v' : ℝ} (hv : ScN c v v') : PyRel (Sca c) (A.write i j v) (B.write i j v') := by
  unfold Img.write
  rw [hA.h, hA.w]
  split
  · exact hA.setPx _ _ hv
  · rfl

theorem Sca.fillSlice (hA : Sca c A B) (y0 y1 x0 x1 : Int) {v v' : ℝ} (hv : ScN c v v') :
    Sca c (A.fillSlice y0 y1 x0 x1 v) (B.fillSlice y0 y1 x0 x1 v') := by
  refine Sca.ofFn' hA.h hA.w fun y' x' _ _ => ?_
  split
  · exact hv
  · exact hA.px _ _

/-! ## Four families -/

/-- Four arrays in the other unit. -/
def Sca4 (c : ℝ) (s t : Fin 4 → Img ℝ) : Prop := ∀ k, Sca c (s k) (t k)

/-- Three arrays in the other unit. -/
def Sca3 (c : ℝ) (s t : Fin 3 → Img ℝ) : Prop := ∀ k, Sca c (s k) (t k)

theorem Sca4.mk {a b d e a' b' d' e' : Img ℝ} (ha : Sca c a a') (hb : Sca c b b') (hd : Sca c d d') (he : Sca c e e') :
    Sca4 c ![a, b, d, e] ![a', b', d', e'] := by
  intro k
  fin_cases k
  · exact ha
  · exact hb
  · exact hd
  · exact he

theorem Sca3.mk {a b d a' b' d' : Img ℝ} (ha : Sca c a a') (hb : Sca c b b') (hd : Sca c d d') :
    Sca3 c ![a, b, d] ![a', b', d'] := by
  intro k
  fin_cases k
  · exact ha
  · exact hb
  · exact hd

theorem Sca.stride2 (hA : Sca c A B) (j i : Nat) : Sca c (A.stride2 j i) (B.stride2 j i) := by
  unfold Img.stride2
  refine Sca.ofFn' ?_ ?_ fun y' x' _ _ => hA.px _ _
  · rw [hA.h]
  · rw [hA.w]

theorem Sca.split (hA : Sca c A B) : PyRel (Sca4 c) (splitPolarizations A) (splitPolarizations B) := by
  unfold splitPolarizations
  rw [hA.h, hA.w]
  split
  · rfl
  · exact fun k => hA.stride2 _ _

theorem Sca.assignStride2 (hA : Sca c A B) (j i : Nat) {s t : Img ℝ} (hs : Sca c s t) :
    PyRel (Sca c) (A.assignStride2 j i s) (B.assignStride2 j i t) := by
  unfold Img.assignStride2
  rw [hA.h, hA.w, hs.h, hs.w]
  split
  · refine Sca.ofFn fun y x _ _ => ?_
    split
    · exact hs.px _ _
    · exact hA.px _ _
  · rfl

theorem Sca4.merge {s t : Fin 4 → Img ℝ} (hs : Sca4 c s t) : PyRel (Sca c) (mergePolarizations s) (mergePolarizations t) := by
  unfold mergePolarizations
  rw [(hs 0).h, (hs 0).w]
  exact PyRel.bind ((Sca.zeros _ _).assignStride2 0 0 (hs 0)) fun _ _ h => PyRel.bind (h.assignStride2 0 1 (hs 1)) fun _ _ h =>
    PyRel.bind (h.assignStride2 1 0 (hs 2)) fun _ _ h => h.assignStride2 1 1 (hs 3)

theorem sca_mapFour {f g : Img ℝ → Py (Img ℝ)} (hf : ∀ A B, Sca c A B → PyRel (Sca c) (f A) (g B)) {s t : Fin 4 → Img ℝ}
    (hs : Sca4 c s t) : PyRel (Sca4 c) (mapFour f s) (mapFour g t) :=
  PyRel.bind (hf _ _ (hs 0)) fun _ _ h0 => PyRel.bind (hf _ _ (hs 1)) fun _ _ h1 => PyRel.bind (hf _ _ (hs 2)) fun _ _ h2 =>
  PyRel.bind (hf _ _ (hs 3)) fun _ _ h3 => Sca4.mk h0 h1 h2 h3

theorem Sca.assignPlane (h w : Nat) (hA : Sca c A B) : PyRel (Sca c) (assignPlane h w A) (assignPlane h w B) := by
  unfold Micropol.assignPlane
  rw [hA.h, hA.w]
  split
  · exact Sca.ofFn fun y x _ _ => hA.px _ _
  · rfl

/-! ## numpy -/

theorem PyRel.binds {α γ δ : Type} {T : γ → δ → Prop} {x : Py α} {f : α → Py γ} {g : α → Py δ} (hf : ∀ a, PyRel T (f a) (g a)) :
    PyRel T (x >>= f) (x >>= g) := PyRel.bind (PyRel.refl x) fun a b h => by cases h; exact hf a

theorem sca_npBinAt {a b : ℝ} {A' B' : Img ℝ} {f g : Nat → Nat → ℝ → ℝ → ℝ} (hf : ∀ y x u v, g y x (a * u) (b * v) = c * f y x u v)
    (hA : Sca a A A') (hB : Sca b B B') : PyRel (Sca c) (npBinAt f A B) (npBinAt g A' B') := by
  unfold npBinAt
  rw [hA.h, hA.w, hB.h, hB.w]
  refine PyRel.binds fun h => PyRel.binds fun w => Sca.ofFn fun y x _ _ => ?_
  rw [hA.px, hB.px, hf]

theorem sca_npWhere (M : Img Bool) {A' B' : Img ℝ} (hA : Sca c A A') (hB : Sca c B B') :
    PyRel (Sca c) (npWhere M A B) (npWhere M A' B') := by
  unfold npWhere
  rw [hA.h, hA.w, hB.h, hB.w]
  refine PyRel.binds fun h => PyRel.binds fun w => PyRel.binds fun h => PyRel.binds fun w => Sca.ofFn fun y x _ _ => ?_
  split
  · exact hA.px _ _
  · exact hB.px _ _

theorem sca_divide {a b : ℝ} (hb : b ≠ 0) {junk junk' : Nat → Nat → ℝ} (hj : ∀ y x, junk' y x = a / b * junk y x) {A' B' : Img ℝ}
    (hA : Sca a A A') (hB : Sca b B B') : PyRel (Sca (a / b)) (npDivideNoOut junk A B) (npDivideNoOut junk' A' B') := by
  refine sca_npBinAt (fun y x u v => ?_) hA hB
  by_cases hv : v = 0
  · rw [if_neg (by simp [hv]), if_neg (by simp [hv]), hj]
  · rw [if_pos hv, if_pos (mul_ne_zero hb hv)]
    field_simp

theorem sca_mean {b : ℝ} (hB : Sca b A B) : PyRel (ScN b) (npMean A) (npMean B) := by
  unfold npMean
  rw [hB.h, hB.w]
  split
  · rfl
  · show _ = _
    simp only [hB.px, ← Finset.mul_sum]
    rw [mul_div_assoc]

theorem sca_flat {b : ℝ} (hb : b ≠ 0) {junk junk' : Nat → Nat → ℝ} (hj : ∀ y x, junk' y x = c * junk y x) {F F' : Img ℝ}
    (hA : Sca c A B) (hF : Sca b F F') : PyRel (Sca c) (correctFlatData junk A F) (correctFlatData junk' B F') := by
  unfold correctFlatData
  refine PyRel.bind (sca_mean hF) fun m m' hm => ?_
  by_cases h0 : m = 0
  · rw [if_pos h0, if_pos (by rw [hm, h0, mul_zero])]
    rfl
  · rw [if_neg h0, if_neg (by rw [hm]; exact mul_ne_zero hb h0)]
    have hn : Sca 1 (F.map fun v => v / m) (F'.map fun v => v / m') := by
      refine Sca.ofFn' hF.h hF.w fun y x _ _ => ?_
      rw [hF.px, hm]
      field_simp
    have := sca_divide (junk := junk) (junk' := junk') one_ne_zero (by intro y x; rw [hj]; ring) hA hn
    rwa [div_one] at this

/-! ## The kernels -/

theorem sca_addAt {N N' : Img ℝ} (hA : Sca c A B) (i j ny nx : Int) (hN : Sca c N N') :
    PyRel (Sca c) (addAt A i j ny nx N) (addAt B i j ny nx N') :=
  PyRel.bind (hA.read i j) fun _ _ h => PyRel.bind (hN.read ny nx) fun _ _ k => hN.write ny nx (k.add h)

theorem sca_rebin (hA : Sca c A B) (b : Int) : PyRel (Sca c) (micropolarrayRebin A b) (micropolarrayRebin B b) := by
  unfold micropolarrayRebin
  rw [hA.h, hA.w]
  refine PyRel.binds fun hw => ?_
  unfold micropolarrayJitrebin
  refine PyRel.bind (R := Sca c) ?_ fun N N' hN => PyRel.forRange hN fun _ _ _ hN => PyRel.forRange hN fun _ _ _ hN =>
    PyRel.forRange hN fun _ _ _ hN => PyRel.forRange hN fun _ _ _ hN => sca_addAt hA _ _ _ _ hN
  unfold npZeros
  split
  · rfl
  · exact Sca.zeros _ _

theorem sca_ifov (hA : Sca c A B) : PyRel (Sca c) (correctIfovData A) (correctIfovData B) := by
  unfold correctIfovData ifovJitcorrect
  rw [hA.h, hA.w]
  exact PyRel.forRange (Sca.zeros _ _) fun _ _ _ hN => PyRel.forRange hN fun _ _ _ hN => PyRel.forRange hN fun _ _ _ hN =>
    PyRel.forRange hN fun _ _ _ hN => PyRel.bind (hA.read _ _) fun _ _ ha => PyRel.bind (hA.read _ _) fun _ _ hb =>
    PyRel.bind (hA.read _ _) fun _ _ hd => PyRel.bind (hA.read _ _) fun _ _ he =>
      hN.write _ _ ((((ha.add hb).add hd).add he).smul _)

theorem sca_shiftKernel (hA : Sca c A B) (y x : Int) {m m' : ℝ} (hm : ScN c m m') :
    PyRel (Sca c) (shiftKernel A y x m) (shiftKernel B y x m') := by
  unfold shiftKernel
  rw [hA.h, hA.w]
  exact PyRel.forRange (Sca.const hm) fun _ _ _ hN => PyRel.forRange hN fun _ _ _ hN =>
    PyRel.bind (hA.read _ _) fun _ _ ha => hN.write _ _ ha

theorem sca_shift (hA : Sca c A B) (y x : Int) {m m' : ℝ} (hm : ScN c m m') :
    PyRel (Sca c) (shiftMicropol A y x m) (shiftMicropol B y x m') :=
  PyRel.bind hA.split fun _ _ hs => PyRel.bind (sca_shiftKernel (hs 0) y x hm) fun _ _ h0 =>
  PyRel.bind (sca_shiftKernel (hs 1) y x hm) fun _ _ h1 => PyRel.bind (sca_shiftKernel (hs 2) y x hm) fun _ _ h2 =>
  PyRel.bind (sca_shiftKernel (hs 3) y x hm) fun _ _ h3 => (Sca4.mk h0 h1 h2 h3).merge

/-- The loop state of the two demosaicing kernels. -/
def ScaSt (c : ℝ) (s t : Img ℝ × (Fin 4 → Img ℝ) × Nat) : Prop := Sca c s.1 t.1 ∧ Sca4 c s.2.1 t.2.1 ∧ s.2.2 = t.2.2

theorem sca_setAt4 {s t : Fin 4 → Img ℝ} (hs : Sca4 c s t) (k : Nat) (hA : Sca c A B) :
    PyRel (Sca4 c) (setAt4 s k A) (setAt4 t k B) := by
  unfold setAt4
  split
  · intro j
    dsimp only
    split
    · exact hA
    · exact hs j
  · rfl

theorem sca_families {body body' : Int → Int → Img ℝ → Py (Img ℝ)}
    (hb : ∀ i j s t, Sca c s t → PyRel (Sca c) (body i j s) (body' i j t)) (h w : Nat) (hA : Sca c A B) :
    PyRel (Sca4 c)
      (do
        let st ← forRange 0 2 1 ((A, fun _ => Img.zeros h w, 0) : Img ℝ × (Fin 4 → Img ℝ) × Nat)
          fun j st => forRange 0 2 1 st fun i st => do
            let temp ← body j i st.1
            let demo ← setAt4 st.2.1 st.2.2 temp
            pure (temp, demo, st.2.2 + 1)
        pure st.2.1)
      (do
        let st ← forRange 0 2 1 ((B, fun _ => Img.zeros h w, 0) : Img ℝ × (Fin 4 → Img ℝ) × Nat)
          fun j st => forRange 0 2 1 st fun i st => do
            let temp ← body' j i st.1
            let demo ← setAt4 st.2.1 st.2.2 temp
            pure (temp, demo, st.2.2 + 1)
        pure st.2.1) := by
  refine PyRel.bind (R := ScaSt c) (PyRel.forRange ⟨hA, fun _ => Sca.zeros _ _, rfl⟩ fun j _ _ hs =>
    PyRel.forRange hs fun i s t hs => PyRel.bind (hb j i _ _ hs.1) fun a b hab => ?_) fun s t hs => hs.2.1
  rw [← hs.2.2]
  exact PyRel.bind (sca_setAt4 hs.2.1 _ hab) fun _ _ hd => ⟨hab, hd, rfl⟩

theorem sca_demosaicmean (hA : Sca c A B) : PyRel (Sca4 c) (demosaicmean A) (demosaicmean B) := by
  unfold demosaicmean
  rw [hA.h, hA.w]
  refine sca_families (fun i j s t hs => ?_) _ _ hA
  unfold demosaicmeanFamily
  rw [hA.h, hA.w]
  exact PyRel.forRange hs fun _ _ _ hs => PyRel.forRange hs fun _ _ _ hs => PyRel.bind (hA.read _ _) fun _ _ hv =>
    hs.fillSlice _ _ _ _ (hv.muls _)

theorem sca_demosaicadjacent (hA : Sca c A B) : PyRel (Sca4 c) (demosaicadjacent A) (demosaicadjacent B) := by
  unfold demosaicadjacent
  rw [hA.h, hA.w]
  refine sca_families (fun i j s t hs => ?_) _ _ hA
  unfold demosaicadjacentFamily
  rw [hA.h, hA.w]
  exact PyRel.forRange hs fun _ _ _ hs => PyRel.forRange hs fun _ _ _ hs =>
    PyRel.bind (hA.read _ _) fun _ _ ha => PyRel.bind (hs.write _ _ ha) fun _ _ hs =>
    PyRel.bind (hA.read _ _) fun _ _ ha => PyRel.bind (hA.read _ _) fun _ _ hb =>
    PyRel.bind (hs.write _ _ ((ha.add hb).smul _)) fun _ _ hs =>
    PyRel.bind (hA.read _ _) fun _ _ ha => PyRel.bind (hA.read _ _) fun _ _ hb =>
    PyRel.bind (hs.write _ _ ((ha.add hb).smul _)) fun _ _ hs =>
    PyRel.bind (hA.read _ _) fun _ _ ha => PyRel.bind (hA.read _ _) fun _ _ hb =>
    PyRel.bind (hA.read _ _) fun _ _ hd => PyRel.bind (hA.read _ _) fun _ _ he =>
    hs.write _ _ ((((ha.add hb).add hd).add he).muls _)

theorem sca_demosaic (hA : Sca c A B) (mode : String) : PyRel (Sca4 c) (demosaic A mode) (demosaic B mode) := by
  unfold demosaic
  split
  · exact sca_demosaicmean hA
  split
  · have h1 : Sca c (vstackLast2 A) (vstackLast2 B) := by
      unfold vstackLast2
      rw [hA.h, hA.w]
      refine Sca.ofFn fun y x _ _ => ?_
      split
      · exact hA.px _ _
      · exact hA.px _ _
    have h2 : Sca c (hstackLast2 (vstackLast2 A)) (hstackLast2 (vstackLast2 B)) := by
      unfold hstackLast2
      rw [h1.h, h1.w]
      refine Sca.ofFn fun y x _ _ => ?_
      split
      · exact h1.px _ _
      · exact h1.px _ _
    refine PyRel.bind (sca_demosaicadjacent h2) fun s t hs k => ?_
    unfold cropLast2
    exact Sca.ofFn' (by rw [(hs k).h]) (by rw [(hs k).w]) fun y x _ _ => (hs k).px _ _
  split
  · rfl
  · rfl

/-! ## Stokes -/

theorem Sca.zipWith {A' B' : Img ℝ} (hA : Sca c A A') (hB : Sca c B B') :
    Sca c (Img.zipWith (· - ·) A B) (Img.zipWith (· - ·) A' B') := by
  unfold Img.zipWith
  refine Sca.ofFn' (by rw [hA.h]) (by rw [hA.w]) fun y x _ _ => ?_
  rw [hA.px, hB.px]
  ring

theorem sca_sub4 {s t : Fin 4 → Img ℝ} (hs : Sca4 c s t) (i : Int) : PyRel (Sca c) (sub4 s i) (sub4 t i) := by
  unfold sub4
  split
  · split
    · exact hs _
    · rfl
  · rfl

theorem sca_theo {s t : Fin 4 → Img ℝ} (hs : Sca4 c s t) (dic : AngleDic) : PyRel (Sca3 c) (theoStokes s dic) (theoStokes t dic) := by
  unfold theoStokes
  refine PyRel.binds fun _ => PyRel.bind (sca_sub4 hs _) fun _ _ h0 => PyRel.binds fun _ => PyRel.bind (sca_sub4 hs _) fun _ _ h90 =>
    PyRel.binds fun _ => PyRel.bind (sca_sub4 hs _) fun _ _ h45 => PyRel.binds fun _ => PyRel.bind (sca_sub4 hs _) fun _ _ hm45 =>
    Sca3.mk (Sca.ofFn' (hs 0).h (hs 0).w fun y x _ _ => ?_) (h0.zipWith h90) (h45.zipWith hm45)
  rw [(hs 0).px, (hs 1).px, (hs 2).px, (hs 3).px]
  ring

theorem sca_dataStokes (hA : Sca c A B) (dic : AngleDic) : PyRel (Sca3 c) (dataStokes A dic) (dataStokes B dic) :=
  PyRel.bind hA.split fun _ _ hs => sca_theo hs dic

theorem sca_matmul (mij : Fin 3 → Fin 4 → Img ℝ) {s t : Fin 4 → Img ℝ} (hs : Sca4 c s t) :
    PyRel (Sca3 c) (matmulPols mij s) (matmulPols mij t) := by
  unfold matmulPols
  dsimp only
  rw [(hs 0).h, (hs 0).w]
  refine PyRel.binds fun h => PyRel.binds fun w => fun i => Sca.ofFn fun y x _ _ => ?_
  rw [(hs 0).px, (hs 1).px, (hs 2).px, (hs 3).px]
  ring

theorem sca_whereFlags (F : Img ℝ) {S T S' T' : Fin 3 → Img ℝ} (hS : Sca3 c S S') (hT : Sca3 c T T') :
    PyRel (Sca3 c) (whereFlags F S T) (whereFlags F S' T') :=
  PyRel.bind (sca_npWhere _ (hS 0) (hT 0)) fun _ _ h0 => PyRel.bind (sca_npWhere _ (hS 1) (hT 1)) fun _ _ h1 =>
  PyRel.bind (sca_npWhere _ (hS 2) (hT 2)) fun _ _ h2 => Sca3.mk h0 h1 h2

theorem sca_demodulatePlain (hA : Sca c A B) {S S' : Fin 3 → Img ℝ} (hS : Sca3 c S S') (D : Demodulator ℝ) :
    PyRel (Sca3 c) (demodulatePlain A S D) (demodulatePlain B S' D) := by
  unfold demodulatePlain
  refine PyRel.bind hA.split fun _ _ hs => PyRel.bind (sca_matmul _ hs) fun _ _ hT => ?_
  cases D.fitFoundFlags with
  | none => exact hT
  | some F => exact sca_whereFlags F hT hS

theorem sca_demodulateDemosaicing (hA : Sca c A B) (dic : AngleDic) (D : Demodulator ℝ) :
    PyRel (Sca3 c) (demodulateDemosaicing A dic D) (demodulateDemosaicing B dic D) := by
  unfold demodulateDemosaicing
  refine PyRel.bind (sca_demosaic hA _) fun _ _ hs => PyRel.bind (sca_theo hs dic) fun _ _ hS => ?_
  iterate 12 refine PyRel.binds fun _ => ?_
  cases D.fitFoundFlags with
  | none => rfl
  | some F => exact PyRel.binds fun _ => PyRel.bind (sca_matmul _ hs) fun _ _ hT => sca_whereFlags _ hT hS

/-! ## The rest -/

theorem sca_interp (n : Nat) {f g : Nat → ℝ} (hf : ∀ k, g k = c * f k) (x : ℝ) : interpLinear n g x = c * interpLinear n f x := by
  unfold interpLinear
  dsimp only
  rw [hf, hf]
  ring

theorem Sca.transpose (hA : Sca c A B) : Sca c (transposeImg A) (transposeImg B) :=
  Sca.ofFn' hA.w hA.h fun _ _ _ _ => hA.px _ _

theorem Sca.interpRows (hA : Sca c A B) (m : Nat) (pos : Nat → ℝ) : Sca c (interpRows A m pos) (interpRows B m pos) :=
  Sca.ofFn' hA.h rfl fun y x _ _ => by rw [hA.w]; exact sca_interp _ (fun k => hA.px _ _) _

theorem sca_congrid (hA : Sca c A B) (ny nx : Nat) : PyRel (Sca c) (congrid A ny nx) (congrid B ny nx) := by
  unfold congrid
  rw [hA.h, hA.w]
  split
  · rfl
  · exact ((hA.interpRows _ _).transpose.interpRows _ _).transpose

theorem sca_congridData (hA : Sca c A B) (ny nx : Nat) : PyRel (Sca c) (congridData A ny nx) (congridData B ny nx) :=
  PyRel.bind hA.split fun _ _ hs => PyRel.bind (sca_congrid (hs 0) _ _) fun _ _ h0 =>
  PyRel.bind (sca_congrid (hs 1) _ _) fun _ _ h1 => PyRel.bind (sca_congrid (hs 2) _ _) fun _ _ h2 =>
  PyRel.bind (sca_congrid (hs 3) _ _) fun _ _ h3 => (Sca4.mk h0 h1 h2 h3).merge

theorem sca_rotate {rot : Img ℝ → Py (Img ℝ)} (hrot : ∀ A B, Sca c A B → PyRel (Sca c) (rot A) (rot B)) (hA : Sca c A B) :
    PyRel (Sca c) (rotateData rot A) (rotateData rot B) := by
  refine PyRel.bind hA.split fun _ _ hs => PyRel.bind (sca_mapFour (fun A B hA => ?_) hs) fun _ _ ht => ht.merge
  rw [hA.h, hA.w]
  exact PyRel.bind (hrot _ _ hA) fun _ _ h => h.assignPlane _ _

theorem sca_clean {med : Img ℝ → Img ℝ} (hmed : ∀ A B, Sca c A B → Sca c (med A) (med B)) (hA : Sca c A B) (F : Img ℝ) :
    PyRel (Sca c) (cleanHotPixelsData med A F) (cleanHotPixelsData med B F) :=
  PyRel.bind hA.split fun _ _ hs => PyRel.binds fun _ =>
  PyRel.bind (sca_npWhere _ (hmed _ _ (hs 0)) (hs 0)) fun _ _ h0 => PyRel.bind (sca_npWhere _ (hmed _ _ (hs 1)) (hs 1)) fun _ _ h1 =>
  PyRel.bind (sca_npWhere _ (hmed _ _ (hs 2)) (hs 2)) fun _ _ h2 => PyRel.bind (sca_npWhere _ (hmed _ _ (hs 3)) (hs 3)) fun _ _ h3 =>
  (Sca4.mk h0 h1 h2 h3).merge

theorem sca_roi (hA : Sca c A B) (ctr rho : Option (ℝ × ℝ)) (theta : ℝ × ℝ) {fill fill' : ℝ} (hf : ScN c fill fill') (b : Bool) :
    PyRel (Sca c) (roiFromPolar A ctr rho theta fill b) (roiFromPolar B ctr rho theta fill' b) := by
  have hm : roiMask B ctr rho theta b = roiMask A ctr rho theta b := by
    unfold roiMask
    rw [hA.h, hA.w]
  unfold roiFromPolar
  rw [hm]
  exact PyRel.binds fun _ => sca_npWhere _ hA (Sca.const hf)

theorem sca_occulter (hA : Sca c A B) (y x r : ℝ) {fill fill' : ℝ} (hf : ScN c fill fill') (b : Bool) :
    PyRel (Sca c) (occulterRoi A y x r fill b) (occulterRoi B y x r fill' b) := by
  unfold occulterRoi
  rw [hA.h, hA.w]
  exact sca_roi hA _ _ _ hf b

end

end

end Micropol
