import Verif.Spec.Prepare
import Verif.Lemmas.Rebin
import Verif.Lemmas.NumPy
import Verif.Lemmas.Utils
import Verif.Props.Roi
import Mathlib.Tactic.Linarith
import Mathlib.Data.List.GetD

/-! # Lemmas about the preparation of calibration frames -/

set_option autoImplicit false

namespace Micropol

noncomputable section

open Classical Finset

theorem blockSum_family (A : Img ℝ) (b y x : Nat) :
    blockSum A (2 * b * (y / 2) + y % 2) (2 * b * (x / 2) + x % 2) 2 b = familySum A b y x := by
  unfold blockSum familySum
  refine sum_congr rfl fun u _ => sum_congr rfl fun v _ => ?_
  congr 1 <;> ring

/-- The image binned `b × b` within its families. -/
def famImg (A : Img ℝ) (b : Nat) : Img ℝ := Img.ofFn (2 * (A.h / (2 * b))) (2 * (A.w / (2 * b))) (familySum A b)

theorem rebin_fam (A : Img ℝ) {b : Nat} (hb : 1 ≤ b) (hh : A.h % 2 = 0) (hw : A.w % 2 = 0) :
    micropolarrayRebin A (b : Int) = .ok (famImg A b) := by
  rw [micropolarrayRebin_ok A b hb hh hw]
  unfold famImg
  congr 1
  exact Img.ofFn_congr fun y x _ _ => blockSum_family A b y x

theorem npInto_ok {f : ℝ → ℝ → ℝ} {A B : Img ℝ} (hh : A.h = B.h) (hw : A.w = B.w) :
    npInto f A B = .ok (Img.ofFn A.h A.w (fun y x => f (A.px y x) (B.px y x))) := by
  unfold npInto
  rw [npBin_ok hh hw, Py.ok_bind, if_pos ⟨rfl, rfl⟩]

theorem npInto_const {f : ℝ → ℝ → ℝ} {A : Img ℝ} (c : ℝ) :
    npInto f A (Img.const 1 1 c) = .ok (Img.ofFn A.h A.w (fun y x => f (A.px y x) c)) := by
  have hb : ∀ a, bdim a 1 = .ok a := by
    intro a; unfold bdim; split_ifs <;> simp_all
  unfold npInto npBin npBinAt
  rw [show (Img.const 1 1 c).h = 1 from rfl, show (Img.const 1 1 c).w = 1 from rfl, hb, hb]
  simp only [Py.ok_bind, Py.pure_eq]
  rw [if_pos ⟨rfl, rfl⟩]
  congr 1
  refine Img.ofFn_congr fun y x hy hx => ?_
  have e1 : bidx A.h y = y := by unfold bidx; split_ifs <;> omega
  have e2 : bidx A.w x = x := by unfold bidx; split_ifs <;> omega
  rw [e1, e2]
  congr 1

/-! ## Sorting -/

instance : Std.Total pairLe := ⟨by
  rintro ⟨a, s⟩ ⟨b, t⟩
  unfold pairLe
  dsimp only
  rcases lt_trichotomy a b with h | h | h
  · exact Or.inl (Or.inl h)
  · rcases le_total s t with g | g
    · exact Or.inl (Or.inr ⟨h, g⟩)
    · exact Or.inr (Or.inr ⟨h.symm, g⟩)
  · exact Or.inr (Or.inl h)⟩

instance : IsTrans (ℝ × Name) pairLe := ⟨by
  rintro ⟨a, s⟩ ⟨b, t⟩ ⟨c, u⟩
  unfold pairLe
  dsimp only
  rintro (h | ⟨h, g⟩) (h' | ⟨h', g'⟩)
  · exact Or.inl (h.trans h')
  · exact Or.inl (h' ▸ h)
  · exact Or.inl (h ▸ h')
  · exact Or.inr ⟨h.trans h', g.trans g'⟩⟩

instance : Std.Antisymm pairLe := ⟨by
  rintro ⟨a, s⟩ ⟨b, t⟩
  unfold pairLe
  dsimp only
  rintro (h | ⟨h, g⟩) (h' | ⟨h', g'⟩)
  · exact absurd (h.trans h') (lt_irrefl _)
  · exact absurd h (h' ▸ lt_irrefl _)
  · exact absurd h' (h ▸ lt_irrefl _)
  · rw [h, show s = t from le_antisymm g g']⟩

theorem sortedPairs_sorted (a : CalibArgs) : SortedList a (sortedPairs a.orientations a.filenames) :=
  ⟨List.perm_insertionSort pairLe _, List.pairwise_insertionSort pairLe _⟩

theorem SortedList.unique {a : CalibArgs} {L L' : List (ℝ × Name)} (h : SortedList a L) (h' : SortedList a L') : L = L' :=
  List.Perm.eq_of_pairwise' (r := pairLe) h.2 h'.2 (h.1.trans h'.1.symm)

/-! ## The occulter -/

theorem flagSuper_self {F : Img ℝ} {q : Nat → Nat → Prop}
    (hF : F = Img.ofFn F.h F.w (fun y x => if q (y / 2) (x / 2) then 1 else 0)) (Y X : Nat) :
    flagSuper F (2 * Y) (2 * X) = F := by
  unfold flagSuper
  split
  · rename_i h
    obtain ⟨i, j, hi, hj, hy, hx, hne⟩ := h
    have hq : q Y X := by
      by_contra hq
      apply hne
      rw [hF, Img.ofFn_px hy hx, if_neg]
      rwa [show (2 * Y + i) / 2 = Y by omega, show (2 * X + j) / 2 = X by omega]
    refine Img.ext_px rfl rfl fun y x hy hx => ?_
    rw [Img.ofFn_px (by exact hy) (by exact hx)]
    split
    · rename_i hc
      rw [hF, Img.ofFn_px (by exact hy) (by exact hx), if_pos]
      rwa [show y / 2 = Y by omega, show x / 2 = X by omega]
    · rfl
  · rfl

theorem flag_loops {F : Img ℝ} {q : Nat → Nat → Prop}
    (hF : F = Img.ofFn F.h F.w (fun y x => if q (y / 2) (x / 2) then 1 else 0)) :
    (forRange 0 F.h 2 F fun sy G => forRange 0 G.w 2 G fun sx G => .ok (flagSuper G sy.toNat sx.toNat)) = .ok F := by
  refine forRange_eq _ (fun _ => F) rfl rfl rfl ?_
  intro k _
  refine forRange_eq _ (fun _ => F) rfl rfl rfl ?_
  intro j _
  rw [show ((0 : Int) + (k : Int) * (2 : Nat)).toNat = 2 * k by omega,
    show ((0 : Int) + (j : Int) * (2 : Nat)).toNat = 2 * j by omega, flagSuper_self hF]

theorem occulterFlag_ok {h w : Nat} (hh : h % 2 = 0) (hw : w % 2 = 0) (oy ox r : ℝ) (b : Int) :
    occulterFlag h w (some (oy, ox, r)) b = .ok (Img.ofFn h w (fun y x =>
      if InRegion ((pyInt (((pyInt (oy / b) : ℤ) : ℝ) / 2) : ℤ), (pyInt (((pyInt (ox / b) : ℤ) : ℝ) / 2) : ℤ))
        ((0 : ℝ), (pyInt (((pyInt (r / b) : ℤ) : ℝ) / 2) : ℤ)) (0, 360) ((y / 2 : Nat) : ℝ) ((x / 2 : Nat) : ℝ)
      then 1 else 0)) := by
  unfold occulterFlag
  dsimp only
  have h0 : IsTrunc ((0 : ℝ) / 2) 0 := by constructor <;> norm_num
  obtain ⟨B, e, hB1, hB2, hB3⟩ := C46_superpixels (Img.const h w (1 : ℝ)) hh hw
    (((pyInt (oy / b) : ℤ) : ℝ), ((pyInt (ox / b) : ℤ) : ℝ)) (0, ((pyInt (r / b) : ℤ) : ℝ)) (0, 360) 0 _ _ 0 _
    (pyInt_trunc _) (pyInt_trunc _) h0 (pyInt_trunc _)
  rw [e, Py.ok_bind]
  have hBh : B.h = h := hB1
  have hBw : B.w = w := hB2
  have hF : B = Img.ofFn B.h B.w (fun y x =>
      if InRegion ((pyInt (((pyInt (oy / b) : ℤ) : ℝ) / 2) : ℤ), (pyInt (((pyInt (ox / b) : ℤ) : ℝ) / 2) : ℤ))
        ((0 : ℝ), (pyInt (((pyInt (r / b) : ℤ) : ℝ) / 2) : ℤ)) (0, 360) ((y / 2 : Nat) : ℝ) ((x / 2 : Nat) : ℝ)
      then 1 else 0) := by
    refine Img.ext_px rfl rfl fun y x hy hx => ?_
    rw [Img.ofFn_px hy hx]
    obtain ⟨g1, g2⟩ := hB3 y x (by rw [hBh] at hy; exact hy) (by rw [hBw] at hx; exact hx)
    rw [Int.cast_zero] at g1 g2
    split
    · rename_i hc
      rw [g1 hc]
      exact Img.ofFn_px (by omega) (by omega)
    · rename_i hc
      exact g2 hc
  rw [flag_loops (q := fun Y X => InRegion ((pyInt (((pyInt (oy / b) : ℤ) : ℝ) / 2) : ℤ),
    (pyInt (((pyInt (ox / b) : ℤ) : ℝ) / 2) : ℤ)) ((0 : ℝ), (pyInt (((pyInt (r / b) : ℤ) : ℝ) / 2) : ℤ)) (0, 360)
    ((Y : Nat) : ℝ) ((X : Nat) : ℝ)) hF, hF, hBh, hBw]

theorem occulterFlag_exists {h w : Nat} (hh : h % 2 = 0) (hw : w % 2 = 0) (o : Option (ℝ × ℝ × ℝ)) (b : Int) :
    ∃ O, occulterFlag h w o b = .ok O := by
  match o with
  | none => exact ⟨_, rfl⟩
  | some (oy, ox, r) => exact ⟨_, occulterFlag_ok hh hw oy ox r b⟩

/-! ## Reading -/

/-- The frame after binning and dark subtraction. -/
def litImg (F : Img ℝ) (D : Option (Img ℝ)) (b h w : Nat) : Img ℝ := Img.ofFn h w (lit F D b)

section
variable {fs : Name → Option (Img ℝ)} {fit : GaussFit} {a : CalibArgs} {b H W : Nat} {F : Name → Img ℝ}
  {D : Option (Img ℝ)}

theorem famImg_shape {A : Img ℝ} (h : A.HasShape H W) :
    (famImg A b).h = 2 * (H / (2 * b)) ∧ (famImg A b).w = 2 * (W / (2 * b)) := by
  unfold famImg
  rw [Img.ofFn_h, Img.ofFn_w, h.1, h.2]
  exact ⟨rfl, rfl⟩

theorem famImg_px {A : Img ℝ} (h : A.HasShape H W) {y x : Nat} (hy : y < 2 * (H / (2 * b))) (hx : x < 2 * (W / (2 * b))) :
    (famImg A b).px y x = familySum A b y x := by
  unfold famImg
  rw [Img.ofFn_px (by rw [h.1]; exact hy) (by rw [h.2]; exact hx)]

theorem Readable.rebin (hR : Readable fs a b H W F D) {A : Img ℝ} (h : A.HasShape H W) :
    micropolarrayRebin A a.binning = .ok (famImg A b) := by
  rw [hR.binning, rebin_fam A hR.pos (by rw [h.1]; exact hR.even.1) (by rw [h.2]; exact hR.even.2)]

theorem readDark_ok (hR : Readable fs a b H W F D) :
    readDark fs a.dark a.binning = .ok (D.map (fun d => famImg d b)) := by
  rcases hR.dark with ⟨h1, h2⟩ | ⟨n, d, h0, h1, h2, h3, h4⟩
  · rw [h1, h2]; rfl
  · rw [h1, h3]
    unfold readDark
    match n, h0 with
    | c :: n, _ =>
      dsimp only
      unfold openFits
      rw [h2]
      dsimp only
      rw [Py.ok_bind, hR.rebin h4, Py.ok_bind]
      rfl

theorem readFrame_ok (hR : Readable fs a b H W F D) {n : Name} (hn : n ∈ a.filenames) :
    readFrame fs a (D.map (fun d => famImg d b)) n =
      .ok (litImg (F n) D b (2 * (H / (2 * b))) (2 * (W / (2 * b)))) := by
  obtain ⟨h1, h2⟩ := hR.frames n hn
  unfold readFrame openFits
  rw [h1]
  dsimp only
  rw [Py.ok_bind, hR.rebin h2, Py.ok_bind, hR.flat]
  have hs := famImg_shape (b := b) h2
  rcases hR.dark with ⟨g1, g2⟩ | ⟨m, d, h0, g1, g2, g3, g4⟩
  · rw [g1, g2]
    dsimp only
    rw [Py.pure_eq, Py.ok_bind, Py.pure_eq]
    congr 1
    refine Img.eq_ofFn hs.1 hs.2 fun y x hy hx => ?_
    rw [famImg_px h2 hy hx]
    rfl
  · rw [g1, g3]
    dsimp only [Option.map_some]
    have hd := famImg_shape (b := b) g4
    rw [npInto_ok (by rw [hs.1, hd.1]) (by rw [hs.2, hd.2])]
    simp only [Py.ok_bind, Py.pure_eq]
    congr 1
    refine Img.eq_ofFn hs.1 hs.2 fun y x hy hx => ?_
    rw [Img.map_px _ _ (by show y < (famImg (F n) b).h; rw [hs.1]; exact hy)
      (by show x < (famImg (F n) b).w; rw [hs.2]; exact hx),
      Img.ofFn_px (by rw [hs.1]; exact hy) (by rw [hs.2]; exact hx), famImg_px h2 hy hx, famImg_px g4 hy hx]
    show _ = max 0 _
    split
    · rename_i hc; exact (max_eq_right hc).symm
    · rename_i hc; exact (max_eq_left (le_of_lt (not_le.1 hc))).symm

/-- The normalising plane of one frame stands for the signal `S`, positive everywhere. -/
def Stands (P : Img ℝ) (h w : Nat) (S : Nat → Nat → ℝ) : Prop :=
  (P.HasShape h w ∧ ∀ y x, y < h → x < w → P.px y x = S y x ∧ 0 < S y x) ∨
  ∃ c, 0 < c ∧ P = Img.const 1 1 c ∧ ∀ y x, y < h → x < w → S y x = c

theorem normalise_ok {P : Img ℝ} {h w : Nat} {S g : Nat → Nat → ℝ} (hP : Stands P h w S) :
    normalise (Img.ofFn h w g) P = .ok (Img.ofFn h w (fun y x => g y x / S y x)) := by
  unfold normalise
  rcases hP with ⟨⟨h1, h2⟩, hp⟩ | ⟨c, hc, rfl, hS⟩
  · rw [npInto_ok (by rw [h1]; rfl) (by rw [h2]; rfl), Py.ok_bind, if_neg]
    · congr 1
      refine Img.ofFn_congr fun y x hy hx => ?_
      rw [show (Img.ofFn h w g).px y x = g y x from Img.ofFn_px hy hx, (hp y x hy hx).1]
    · rintro ⟨y, x, hy, hx, h0⟩
      rw [h1] at hy
      rw [h2] at hx
      have := hp y x hy hx
      rw [this.1] at h0
      exact absurd h0 (ne_of_gt this.2)
  · rw [npInto_const, Py.ok_bind, if_neg]
    · congr 1
      refine Img.ofFn_congr fun y x hy hx => ?_
      rw [show (Img.ofFn h w g).px y x = g y x from Img.ofFn_px hy hx, hS y x hy hx]
    · rintro ⟨y, x, hy, hx, h0⟩
      rw [show (Img.const 1 1 c).px y x = c from Img.ofFn_px hy hx] at h0
      exact absurd h0 (ne_of_gt hc)

theorem frameError_ok {P : Img ℝ} {h w : Nat} {S g : Nat → Nat → ℝ} {gain : ℝ} (hP : Stands P h w S) (hg : 0 < gain)
    (h0 : ∀ y x, y < h → x < w → 0 ≤ g y x) :
    frameError gain (Img.ofFn h w g) P = .ok (Img.ofFn h w (fun y x => Real.sqrt (g y x / (S y x * gain)))) := by
  unfold frameError
  have key : npInto (fun u v : ℝ => u / (v * gain)) (Img.ofFn h w g) P =
      .ok (Img.ofFn h w (fun y x => g y x / (S y x * gain))) ∧ ∀ y x, y < h → x < w → 0 < S y x := by
    rcases hP with ⟨⟨h1, h2⟩, hp⟩ | ⟨c, hc, rfl, hS⟩
    · rw [npInto_ok (by rw [h1]; rfl) (by rw [h2]; rfl)]
      refine ⟨?_, fun y x hy hx => (hp y x hy hx).2⟩
      congr 1
      refine Img.ofFn_congr fun y x hy hx => ?_
      rw [show (Img.ofFn h w g).px y x = g y x from Img.ofFn_px hy hx, (hp y x hy hx).1]
    · rw [npInto_const]
      refine ⟨?_, fun y x hy hx => by rw [hS y x hy hx]; exact hc⟩
      congr 1
      refine Img.ofFn_congr fun y x hy hx => ?_
      rw [show (Img.ofFn h w g).px y x = g y x from Img.ofFn_px hy hx, hS y x hy hx]
  rw [key.1, Py.ok_bind, if_neg]
  · congr 1
    refine Img.ofFn_congr fun y x hy hx => ?_
    rw [Img.ofFn_px (by exact hy) (by exact hx)]
  · rintro (h | ⟨y, x, hy, hx, h⟩)
    · exact absurd h (ne_of_gt hg)
    · rw [Img.ofFn_px (by exact hy) (by exact hx)] at h
      have := div_nonneg (h0 y x hy hx) (le_of_lt (mul_pos (key.2 y x hy hx) hg))
      linarith

theorem getD_map_lt {α β : Type} {l : List α} {f : α → β} {d : β} {k : Nat} (hk : k < l.length) :
    (l.map f).getD k d = f l[k] := by
  rw [List.getD_eq_getElem _ _ (by simpa using hk), List.getElem_map]

/-- What `prepare` returns. -/
def prepared (a : CalibArgs) (F : Name → Img ℝ) (D : Option (Img ℝ)) (b h w : Nat) (L : List (ℝ × Name)) (O : Img ℝ)
    (S : Nat → Nat → Nat → ℝ) : ChunkInput where
  n := L.length
  height := h
  width := w
  data := fun k => Img.ofFn h w (fun y x => lit (F L[k].2) D b y x / S k y x)
  errors := fun k => Img.ofFn h w (fun y x => Real.sqrt (lit (F L[k].2) D b y x / S k y x / (S k y x * a.gain)))
  occulter := O
  orientations := fun k => L[k].1
  previsions := fun k => deg2rad (a.previsions k)
  tkBoundary := a.tkBoundary
  effBoundary := a.effBoundary

theorem Readable.mem (hR : Readable fs a b H W F D) {q : ℝ × Name} {L : List (ℝ × Name)} (hL : SortedList a L)
    (hq : q ∈ L) : q.2 ∈ a.filenames :=
  (List.of_mem_zip (hL.1.mem_iff.1 hq)).2

theorem Readable.length (hR : Readable fs a b H W F D) {L : List (ℝ × Name)} (hL : SortedList a L) :
    L.length = a.filenames.length := by
  rw [hL.1.length_eq, List.length_zip, hR.len, Nat.min_self]

/-- The steps before the normalisation. -/
theorem prepare_reduce (hR : Readable fs a b H W F D) {L : List (ℝ × Name)} (hL : SortedList a L)
    (hcheck : ¬ (a.normS.IsNone ∧ ¬ allIn normMinus a.orientations ∧
      ¬ allIn normPlus a.orientations)) :
    ∃ O, occulterFlag (2 * (H / (2 * b))) (2 * (W / (2 * b))) a.occulter a.binning = .ok O ∧
      prepare fs fit a = (normPlanes fit a (L.map Prod.fst) (2 * (H / (2 * b))) (2 * (W / (2 * b)))
        (L.map (fun q => litImg (F q.2) D b (2 * (H / (2 * b))) (2 * (W / (2 * b))))) >>= fun S =>
        (List.range L.length).mapM (fun k => normalise
          ((L.map (fun q => litImg (F q.2) D b (2 * (H / (2 * b))) (2 * (W / (2 * b))))).getD k (Img.zeros 0 0)) (S k)) >>=
        fun data =>
        (List.range L.length).mapM (fun k => frameError a.gain (data.getD k (Img.zeros 0 0)) (S k)) >>= fun errors =>
        pure { n := L.length
               height := 2 * (H / (2 * b))
               width := 2 * (W / (2 * b))
               data := fun k => data.getD k.val (Img.zeros 0 0)
               errors := fun k => errors.getD k.val (Img.zeros 0 0)
               occulter := O
               orientations := fun k => (L.map Prod.fst).getD k.val 0
               previsions := fun k => deg2rad (a.previsions k)
               tkBoundary := a.tkBoundary
               effBoundary := a.effBoundary }) := by
  obtain ⟨O, hO⟩ := occulterFlag_exists (h := 2 * (H / (2 * b))) (w := 2 * (W / (2 * b))) (by omega) (by omega) a.occulter
    a.binning
  refine ⟨O, hO, ?_⟩
  unfold prepare
  rw [if_neg hcheck, (sortedPairs_sorted a).unique hL]
  have hlen := hR.length hL
  match L, hL, hlen with
  | [], _, hlen =>
    exfalso
    apply hR.some_file
    exact List.eq_nil_of_length_eq_zero hlen.symm
  | p :: ps, hL, _ =>
    dsimp only
    obtain ⟨h1, h2⟩ := hR.frames p.2 (hR.mem hL (by simp))
    have hop : openFits fs p.2 = .ok (F p.2) := by unfold openFits; rw [h1]
    have hs := famImg_shape (b := b) h2
    rw [hop, Py.ok_bind, hR.rebin h2, Py.ok_bind, hs.1, hs.2, hO, Py.ok_bind, readDark_ok hR, Py.ok_bind]
    rw [show readFlat fs a.flat = .ok () by rw [hR.flat]; rfl, Py.ok_bind]
    rw [mapM_ok (g := fun q => litImg (F q.2) D b (2 * (H / (2 * b))) (2 * (W / (2 * b))))
      (fun q hq => readFrame_ok hR (hR.mem hL hq)), Py.ok_bind]
    rw [show stackFrames ((p :: ps).map (fun q => litImg (F q.2) D b (2 * (H / (2 * b))) (2 * (W / (2 * b)))))
      (2 * (H / (2 * b))) (2 * (W / (2 * b))) = .ok ((p :: ps).map
        (fun q => litImg (F q.2) D b (2 * (H / (2 * b))) (2 * (W / (2 * b))))) from ?_, Py.ok_bind]
    unfold stackFrames
    rw [if_pos]
    intro A hA
    obtain ⟨q, -, rfl⟩ := List.mem_map.1 hA
    exact ⟨rfl, rfl⟩

theorem prepare_ok (hR : Readable fs a b H W F D) {L : List (ℝ × Name)} (hL : SortedList a L)
    (hcheck : ¬ (a.normS.IsNone ∧ ¬ allIn normMinus a.orientations ∧
      ¬ allIn normPlus a.orientations))
    {P : Nat → Img ℝ} (hP : normPlanes fit a (L.map Prod.fst) (2 * (H / (2 * b))) (2 * (W / (2 * b)))
        (L.map (fun q => litImg (F q.2) D b (2 * (H / (2 * b))) (2 * (W / (2 * b))))) = .ok P)
    {S : Nat → Nat → Nat → ℝ} (hS : ∀ k, k < L.length → Stands (P k) (2 * (H / (2 * b))) (2 * (W / (2 * b))) (S k))
    (hgain : 0 < a.gain)
    (hpos : ∀ n ∈ a.filenames, ∀ y x, y < 2 * (H / (2 * b)) → x < 2 * (W / (2 * b)) → 0 ≤ lit (F n) D b y x) :
    ∃ O, occulterFlag (2 * (H / (2 * b))) (2 * (W / (2 * b))) a.occulter a.binning = .ok O ∧
      prepare fs fit a = .ok (prepared a F D b (2 * (H / (2 * b))) (2 * (W / (2 * b))) L O S) := by
  obtain ⟨O, hO, e⟩ := prepare_reduce (fit := fit) hR hL hcheck
  refine ⟨O, hO, ?_⟩
  obtain ⟨h, hh⟩ : ∃ h, h = 2 * (H / (2 * b)) := ⟨_, rfl⟩
  obtain ⟨w, hw⟩ : ∃ w, w = 2 * (W / (2 * b)) := ⟨_, rfl⟩
  rw [← hh, ← hw] at e hP hS hpos ⊢
  rw [e, hP, Py.ok_bind]
  have getq : ∀ k (hk : k < L.length), ∀ d, ((L.map (fun q => litImg (F q.2) D b h w)).getD k d) =
      litImg (F L[k].2) D b h w := fun k hk d => getD_map_lt hk
  have e1 : (List.range L.length).mapM (fun k => normalise
      ((L.map (fun q => litImg (F q.2) D b h w)).getD k (Img.zeros 0 0)) (P k)) =
      .ok ((List.range L.length).map (fun k => Img.ofFn h w (fun y x => lit (F (L.getD k (0, [])).2) D b y x / S k y x))) := by
    refine mapM_ok fun k hk => ?_
    have hk := List.mem_range.1 hk
    rw [getq k hk]
    unfold litImg
    rw [normalise_ok (hS k hk), List.getD_eq_getElem _ _ hk]
  rw [e1, Py.ok_bind]
  have e2 : (List.range L.length).mapM (fun k => frameError a.gain
      (((List.range L.length).map (fun k => Img.ofFn h w
        (fun y x => lit (F (L.getD k (0, [])).2) D b y x / S k y x))).getD k (Img.zeros 0 0)) (P k)) =
      .ok ((List.range L.length).map (fun k => Img.ofFn h w (fun y x =>
        Real.sqrt (lit (F (L.getD k (0, [])).2) D b y x / S k y x / (S k y x * a.gain))))) := by
    refine mapM_ok fun k hk => ?_
    have hk := List.mem_range.1 hk
    rw [getD_map_lt (by simpa using hk), List.getElem_range]
    refine frameError_ok (hS k hk) hgain fun y x hy hx => div_nonneg ?_ ?_
    · rw [List.getD_eq_getElem _ _ hk]
      exact hpos _ (hR.mem hL (List.getElem_mem hk)) y x hy hx
    · rcases hS k hk with ⟨-, g⟩ | ⟨c, hc, -, g⟩
      · exact le_of_lt (g y x hy hx).2
      · rw [g y x hy hx]; exact le_of_lt hc
  rw [e2, Py.ok_bind, Py.pure_eq]
  unfold prepared
  congr 1
  congr 1
  · funext k
    rw [getD_map_lt (by simp), List.getElem_range, List.getD_eq_getElem _ _ k.isLt]
    rfl
  · funext k
    rw [getD_map_lt (by simp), List.getElem_range, List.getD_eq_getElem _ _ k.isLt]
    rfl
  · funext k
    rw [getD_map_lt k.isLt]
    rfl

end

end

end Micropol
