import Verif.Model.CalibrateCall
import Verif.Spec.Calibration
import Verif.Spec.Folder

/-! # Specification of a calibration that fails, and of debug mode -/

set_option autoImplicit false

namespace Micropol

/-- The files in a folder and in its subfolder; a path that does not exist and an empty folder have none. -/
def OutputDir.listing : OutputDir → Listing ℝ
  | .folder f => f.top
  | _ => []

/-- Files in the subfolder `covariance_tensor`. -/
def OutputDir.covListing : OutputDir → Listing ℝ
  | .folder f => f.cov.getD []
  | _ => []

/-- What `Demodulator(output_dir)` gives. -/
noncomputable def OutputDir.load : OutputDir → Py (Demodulator ℝ)
  | .missing => loadDemodulator none
  | .file => loadDemodulator (some [])
  | .folder f => loadDemodulator (some f.top)

/-- No file has been written, removed or changed. -/
def SameFiles (d d' : OutputDir) : Prop := d'.listing = d.listing ∧ d'.covListing = d.covListing

/-- Superpixel `(Y, X)` is one of those that debug mode looks at: rows and columns 100 to 149. -/
def InDebugWindow (Y X : Nat) : Prop := 50 ≤ Y ∧ Y < 75 ∧ 50 ≤ X ∧ X < 75

/-- The figure of superpixel `(Y, X)` with its measured points. -/
structure FitFigure.IsOf (f : FitFigure) (inp : ChunkInput) (Y X : Nat) : Prop where
  row : f.y = 2 * Y
  column : f.x = 2 * X
  points : ∀ k, f.points k = List.ofFn (fun p => (inp.data p).px (rowOf Y k) (colOf X k))

/-- One figure for each superpixel of the window that is not occulted, and no other, row by row. -/
structure ShowsAll (inp : ChunkInput) (figs : List FitFigure) : Prop where
  order : figs.Pairwise (fun f g => f.y < g.y ∨ (f.y = g.y ∧ f.x < g.x))
  only : ∀ f ∈ figs, ∃ Y X, InDebugWindow Y X ∧ ¬ Occulted inp Y X ∧ f.IsOf inp Y X
  all : ∀ Y X, InDebugWindow Y X → ¬ Occulted inp Y X → ∃ f ∈ figs, f.IsOf inp Y X

end Micropol
