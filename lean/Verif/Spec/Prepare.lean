import Verif.Model.Prepare
import Verif.Model.PolFunctions
import Verif.Spec.Shape

/-! # Specification of the preparation of calibration frames -/

set_option autoImplicit false

namespace Micropol

noncomputable section

open Classical Finset

/-- Sum of the `b × b` pixels of one family that pixel `(y, x)` of the binned image stands for. -/
def familySum (A : Img ℝ) (b y x : Nat) : ℝ :=
  ∑ u ∈ range b, ∑ v ∈ range b, A.px (2 * (b * (y / 2) + u) + y % 2) (2 * (b * (x / 2) + v) + x % 2)

/-- Signal of frame `F`, binned, above the dark (if there is one), never negative. -/
def lit (F : Img ℝ) (D : Option (Img ℝ)) (b y x : Nat) : ℝ :=
  match D with
  | none => familySum F b y x
  | some D => max 0 (familySum F b y x - familySum D b y x)

/-- The files exist and have the same even size; `F` is the content of the frames and `D` the dark. There is no flat, there is one
orientation for each file and at least one file. -/
structure Readable (fs : Name → Option (Img ℝ)) (a : CalibArgs) (b H W : Nat) (F : Name → Img ℝ) (D : Option (Img ℝ)) :
    Prop where
  binning : a.binning = (b : Int)
  pos : 1 ≤ b
  even : H % 2 = 0 ∧ W % 2 = 0
  frames : ∀ n ∈ a.filenames, fs n = some (F n) ∧ (F n).HasShape H W
  dark : (a.dark = none ∧ D = none) ∨ ∃ n d, n ≠ [] ∧ a.dark = some n ∧ fs n = some d ∧ D = some d ∧ d.HasShape H W
  flat : a.flat = none
  len : a.orientations.length = a.filenames.length
  some_file : a.filenames ≠ []

/-- A prescribed signal: negative values count as 1. -/
def atLeast (v : ℝ) : ℝ := if v < 0 then 1 else v

/-- The caller prescribes the signal `S k y x` of frame `k` (frames sorted by orientation) at binned pixel `(y, x)`, nowhere zero:
a number for one pixel of the unbinned image, an image, or a stack of `n` images. -/
def Prescribes (a : CalibArgs) (n b H W : Nat) (S : Nat → Nat → Nat → ℝ) : Prop :=
  (∃ s, a.normS = .number s ∧ s ≠ 0 ∧ ∀ k y x, S k y x = atLeast (s * b * b)) ∨
  (∃ A, a.normS = .image A ∧ A.HasShape H W ∧
    ∀ k y x, y < 2 * (H / (2 * b)) → x < 2 * (W / (2 * b)) →
      familySum A b y x ≠ 0 ∧ S k y x = atLeast (familySum A b y x)) ∨
  (∃ L : List (Img ℝ), a.normS = .series L ∧ L.length = n ∧ (∀ A ∈ L, A.HasShape H W) ∧
    ∀ k (hk : k < L.length), ∀ y x, y < 2 * (H / (2 * b)) → x < 2 * (W / (2 * b)) →
      familySum L[k] b y x ≠ 0 ∧ S k y x = atLeast (familySum L[k] b y x))

/-- `L` is the list of the pairs (orientation, file), by increasing orientation, equal orientations by name. -/
def SortedList (a : CalibArgs) (L : List (ℝ × Name)) : Prop :=
  L.Perm (a.orientations.zip a.filenames) ∧ L.Pairwise (fun p q => p.1 < q.1 ∨ (p.1 = q.1 ∧ p.2 ≤ q.2))

/-- What a micropolarizer with throughput `t`, efficiency `e` and phase `φ` lets through of unit light polarised at `θ` (radians). -/
def transmitted (t e φ θ : ℝ) : ℝ := t / 2 * (1 + e * Real.cos (2 * (θ - φ)))

/-- `curve_fit` does its work for the function `Malus`: started inside the bounds, with positive errors, on points that lie exactly
on the curve of one and only one choice of parameters within the bounds, it returns these parameters.  (They are strictly inside.) -/
def CalibEnv.FindsExact (env : CalibEnv) : Prop :=
  ∀ (c : FitCall) (p : Fin 3 → ℝ),
    (∀ i, c.lower i ≤ c.p0 i ∧ c.p0 i ≤ c.upper i) → (∀ j, 0 < c.sigma j) →
    (∀ i, c.lower i < p i ∧ p i < c.upper i) → (∀ j, c.ydata j = Malus (c.xdata j) (p 0) (p 1) (p 2)) →
    (∀ q : Fin 3 → ℝ, (∀ i, c.lower i ≤ q i ∧ q i ≤ c.upper i) →
      (∀ j, c.ydata j = Malus (c.xdata j) (q 0) (q 1) (q 2)) → q = p) →
    ∃ cov, env.curveFit c = some (p, cov)

/-- Lower bound positive, first guess between the bounds. -/
def SaneBounds (b : Fin 3 → ℝ) : Prop := 0 < b 1 ∧ b 1 ≤ b 0 ∧ b 0 ≤ b 2

/-- Three orientations in degrees, no two of them equal modulo 180. -/
def ThreeDirections (o : Fin 3 → ℝ) : Prop := ∀ i j, i ≠ j → ∀ n : ℤ, o i - o j ≠ 180 * n

end

end Micropol
