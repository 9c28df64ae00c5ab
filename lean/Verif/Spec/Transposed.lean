import Verif.Model.Demodulate
import Verif.Spec.Calibration
import Verif.Spec.Stokes

/-! # Vocabulary for exchanging rows and columns -/

set_option autoImplicit false

namespace Micropol

/-- Rows and columns exchanged. -/
def Img.transposed {α : Type} [Zero α] (A : Img α) : Img α := Img.ofFn A.w A.h fun y x => A.px x y

/-- The place in the superpixel where a pixel comes when rows and columns are exchanged: 1 (upper right) and 2 (lower left) are
exchanged, 0 (upper left) and 3 (lower right) stay. -/
def mate (k : Fin 4) : Fin 4 :=
  match k with
  | 0 => 0
  | 1 => 2
  | 2 => 1
  | 3 => 3

/-- The same micropolarizers on a sensor whose rows and columns are exchanged. -/
def Layout.transposed (L : Layout) : Layout := ⟨mate L.p0, mate L.p45, mate L.pm45, mate L.p90⟩

/-- The tensor of a sensor whose rows and columns are exchanged: that of each superpixel comes to its new place, and in it the columns
of the exchanged pixels. -/
def Demodulator.transposed {K : Type} [Zero K] (D : Demodulator K) : Demodulator K :=
  ⟨fun i j => (D.mij i (mate j)).transposed, D.fitFoundFlags.map fun F => F.transposed⟩

noncomputable section

/-- The measurements of a calibration (in units of the source) on the sensor whose rows and columns are exchanged. -/
def ChunkInput.transposed (inp : ChunkInput) : ChunkInput :=
  { inp with
    height := inp.width
    width := inp.height
    data := fun p => (inp.data p).transposed
    errors := fun p => (inp.errors p).transposed
    occulter := inp.occulter.transposed
    previsions := fun k => inp.previsions (mate k) }

/-- The maps of a calibration with rows and columns exchanged. -/
def CalibMaps.transposed (m : CalibMaps) : CalibMaps where
  mij := fun i j => (m.mij i (mate j)).transposed
  fitFound := m.fitFound.transposed
  cov := fun a b => (m.cov a b).transposed
  tk := m.tk.transposed
  eff := m.eff.transposed
  phase := m.phase.transposed
  chisq := m.chisq.transposed

/-- `np.linalg.pinv` as documented, for every matrix: the Moore-Penrose inverse. -/
def CalibEnv.PinvAlways (env : CalibEnv) : Prop :=
  ∀ M : Fin 4 → Fin 3 → ℝ, IsPseudoInverse (Matrix.of M) (Matrix.of (env.pinv M))

end

end Micropol
