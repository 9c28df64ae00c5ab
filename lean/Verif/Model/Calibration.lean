import Verif.Basic.Img
import Verif.Basic.Loop
import Mathlib.Analysis.SpecialFunctions.Trigonometric.Basic
import Mathlib.Data.Fin.VecNotation

/-!
# Model of the calibration: `compute_demodulation_by_chunk` and the parallel part of
`calculate_demodulation_tensor` (processing/demodulation.py)

External code is a parameter (`CalibEnv`): `scipy.optimize.curve_fit` (which may raise), `np.linalg.pinv` and the
value of the reduced chi square (a float expression that may overflow; only where it is stored matters here).
-/

set_option autoImplicit false

namespace Micropol

noncomputable section

open Classical

/-- Arguments of one call of `curve_fit`.
Models: processing/demodulation.py:901-910. -/
structure FitCall where
  n : Nat
  xdata : Fin n → ℝ
  ydata : Fin n → ℝ
  p0 : Fin 3 → ℝ
  sigma : Fin n → ℝ
  lower : Fin 3 → ℝ
  upper : Fin 3 → ℝ

/-- External code used by the calibration. `none` = the call raises.
Models: the calls in processing/demodulation.py:799, :901-910, :980. -/
structure CalibEnv where
  curveFit : FitCall → Option ((Fin 3 → ℝ) × (Fin 3 → Fin 3 → ℝ))
  pinv : (Fin 4 → Fin 3 → ℝ) → Fin 3 → Fin 4 → ℝ
  chisq : FitCall → (Fin 3 → ℝ) → Int → ℝ

/-- Arguments of `compute_demodulation_by_chunk` (`n` images; orientations in degrees, previsions in radians).
Models: processing/demodulation.py:761-770. -/
structure ChunkInput where
  n : Nat
  height : Nat
  width : Nat
  data : Fin n → Img ℝ
  errors : Fin n → Img ℝ
  occulter : Img ℝ
  orientations : Fin n → ℝ
  previsions : Fin 4 → ℝ
  tkBoundary : Option (Fin 3 → ℝ)
  effBoundary : Option (Fin 3 → ℝ)

/-- `np.deg2rad`.
Models: processing/demodulation.py:330, :805, :843, :846. -/
def deg2rad (a : ℝ) : ℝ := a * (Real.pi / 180)

/-- `np.rad2deg`.
Models: processing/demodulation.py:711. -/
def rad2deg (a : ℝ) : ℝ := a * (180 / Real.pi)

/-- Default boundaries.
Models: processing/demodulation.py:777, :780. -/
def defaultBoundary : Fin 3 → ℝ := ![1 / 2, 1 / 10, 1 - 1 / 1000000]

/-- Models: processing/demodulation.py:776-778. -/
def ChunkInput.tkb (inp : ChunkInput) : Fin 3 → ℝ :=
  match inp.tkBoundary with
  | none => defaultBoundary
  | some b => b

/-- Models: processing/demodulation.py:779-781. -/
def ChunkInput.effb (inp : ChunkInput) : Fin 3 → ℝ :=
  match inp.effBoundary with
  | none => defaultBoundary
  | some b => b

/-- Degrees of freedom.
Models: processing/demodulation.py:775-781. -/
def ChunkInput.dof (inp : ChunkInput) : Int :=
  (inp.n : Int) - 2 - (if inp.tkBoundary.isNone then 1 else 0) - (if inp.effBoundary.isNone then 1 else 0)

/-- Theoretical modulation matrix (rows: pixels; columns: I, Q, U).
Models: processing/demodulation.py:784-798. -/
def theoModulationMatrix (previsions : Fin 4 → ℝ) : Fin 4 → Fin 3 → ℝ :=
  fun k => ![1 / 2, 1 / 2 * Real.cos (2 * previsions k), 1 / 2 * Real.sin (2 * previsions k)]

/-- Modulation matrix of fitted parameters.
Models: processing/demodulation.py:967-979. -/
def modulationMatrix (t eff phi : Fin 4 → ℝ) : Fin 4 → Fin 3 → ℝ :=
  fun k => ![1 / 2 * t k, 1 / 2 * t k * eff k * Real.cos (2 * phi k), 1 / 2 * t k * eff k * Real.sin (2 * phi k)]

/-- Variables that live across superpixels: `superpix_params`, `superpix_covtensor`, `chisq`.
Models: processing/demodulation.py:829-833. -/
structure FitLocals where
  params : Fin 4 → Fin 3 → ℝ
  cov : Fin 3 → Fin 3 → Fin 4 → ℝ
  chi : Fin 4 → ℝ

/-- Output maps and locals of the worker.
Models: processing/demodulation.py:810-833, :1059. -/
structure ChunkState where
  mij : Fin 3 → Fin 4 → Img ℝ
  tk : Img ℝ
  eff : Img ℝ
  phase : Img ℝ
  fitFound : Img ℝ
  cov : Fin 3 → Fin 3 → Img ℝ
  chisq : Img ℝ
  locals : FitLocals

/-- Value of pixel `k` of the superpixel with upper left pixel `(y, x)` (`reshape(·, 4)` of the 2x2 slice).
Models: processing/demodulation.py:881-887. -/
def superPx (A : Img ℝ) (y x : Nat) (k : Fin 4) : ℝ := A.px (y + k.val / 2) (x + k.val % 2)

/-- The arguments of `curve_fit` for pixel `k` of the superpixel at `(y, x)`.
Models: processing/demodulation.py:835-848, :881-888, :901-910. -/
def ChunkInput.fitCall (inp : ChunkInput) (y x : Nat) (k : Fin 4) : FitCall where
  n := inp.n
  xdata := fun p => deg2rad (inp.orientations p)
  ydata := fun p => superPx (inp.data p) y x k
  p0 := ![inp.tkb 0, inp.effb 0, inp.previsions k]
  sigma := fun p => if superPx (inp.errors p) y x k ≠ 0 then superPx (inp.errors p) y x k else 1 / 100000
  lower := ![inp.tkb 1, inp.effb 1, inp.previsions k - deg2rad 15]
  upper := ![inp.tkb 2, inp.effb 2, inp.previsions k + deg2rad 15]

/-- The loop over the four pixels with its two `break`s; the Boolean is `fit_success`.
Models: processing/demodulation.py:890-924. -/
def fitPixels (env : CalibEnv) (inp : ChunkInput) (y x : Nat) : List (Fin 4) → FitLocals → FitLocals × Bool
  | [], loc => (loc, true)
  | k :: ks, loc =>
    let call := inp.fitCall y x k
    if ∀ p, call.ydata p = 0 then (loc, false)
    else match env.curveFit call with
      | none => (loc, false)
      | some (p, c) => fitPixels env inp y x ks
          { params := fun k' => if k' = k then p else loc.params k'
            cov := fun a b k' => if k' = k then c a b else loc.cov a b k'
            chi := fun k' => if k' = k then env.chisq call p inp.dof else loc.chi k' }

/-- `A[y:y+2, x:x+2] = v.reshape(2, 2)`.
Models: processing/demodulation.py:1022-1035. -/
def setBlock (A : Img ℝ) (y x : Nat) (v : Fin 4 → ℝ) : Img ℝ :=
  Img.ofFn A.h A.w (fun y' x' =>
    if y ≤ y' ∧ y' < y + 2 ∧ x ≤ x' ∧ x' < x + 2 then v ⟨2 * ((y' - y) % 2) + (x' - x) % 2, by omega⟩
    else A.px y' x')

/-- Pseudo-inverse of the theoretical modulation matrix.
Models: processing/demodulation.py:799. -/
def theoDemodulation (env : CalibEnv) (inp : ChunkInput) : Fin 3 → Fin 4 → ℝ :=
  env.pinv (theoModulationMatrix inp.previsions)

/-- `np.any(m > 100) or np.any(m < -100)`.
Models: processing/demodulation.py:1010-1012. -/
def hasBigEntry (m : Fin 3 → Fin 4 → ℝ) : Prop := (∃ i j, m i j > 100) ∨ (∃ i j, m i j < -100)

/-- What happens after the pixel loop (`fit_success` and the fitted values are its result).
Models: processing/demodulation.py:960-1035 (without the DEBUG output). -/
def finishSuperpixel (env : CalibEnv) (inp : ChunkInput) (y x : Nat) (st : ChunkState) (loc : FitLocals)
    (fitSuccess : Bool) : ChunkState :=
  let theo := theoDemodulation env inp
  match fitSuccess with
  | false => { st with locals := loc, mij := fun i j => (st.mij i j).setPx (y / 2) (x / 2) (theo i j) }
  | true =>
    let t := fun k => loc.params k 0
    let eff := fun k => loc.params k 1
    let phi := fun k => loc.params k 2
    let demod := env.pinv (modulationMatrix t eff phi)
    let demod' := if hasBigEntry demod then theo else demod
    let flag : ℝ := if hasBigEntry demod then 0 else 1
    { mij := fun i j => (st.mij i j).setPx (y / 2) (x / 2) (demod' i j)
      fitFound := st.fitFound.setPx (y / 2) (x / 2) flag
      cov := fun a b => setBlock (st.cov a b) y x (loc.cov a b)
      chisq := setBlock st.chisq y x loc.chi
      tk := setBlock st.tk y x t
      eff := setBlock st.eff y x eff
      phase := setBlock st.phase y x phi
      locals := loc }

/-- One superpixel. A superpixel cut by an odd border makes the reshapes raise.
Models: processing/demodulation.py:876-1057 (without the DEBUG output). -/
def superpixelBody (env : CalibEnv) (inp : ChunkInput) (superY superX : Int) (st : ChunkState) : Py ChunkState :=
  let theo := theoDemodulation env inp
  let y := superY.toNat
  let x := superX.toNat
  if ¬ (y + 2 ≤ inp.height ∧ x + 2 ≤ inp.width) then .error .valueError
  else if ¬ (∃ k, superPx inp.occulter y x k ≠ 0) then
    let r := fitPixels env inp y x [0, 1, 2, 3] st.locals
    .ok (finishSuperpixel env inp y x st r.1 r.2)
  else
    .ok { st with mij := fun i j => (st.mij i j).setPx (y / 2) (x / 2) (theo i j)
                  phase := setBlock st.phase y x inp.previsions
                  tk := setBlock st.tk y x (fun _ => inp.tkb 0)
                  eff := setBlock st.eff y x (fun _ => inp.effb 0) }

/-- Initial content of the worker's arrays.
Models: processing/demodulation.py:810-833. -/
def ChunkInput.initState (inp : ChunkInput) : ChunkState where
  mij := fun _ _ => Img.zeros (inp.height / 2) (inp.width / 2)
  fitFound := Img.zeros (inp.height / 2) (inp.width / 2)
  cov := fun _ _ => Img.zeros inp.height inp.width
  tk := Img.const inp.height inp.width (inp.tkb 0)
  eff := Img.const inp.height inp.width (inp.effb 0)
  phase := Img.ofFn inp.height inp.width (fun y x => inp.previsions ⟨2 * (y % 2) + x % 2, by omega⟩)
  chisq := Img.zeros inp.height inp.width
  locals := ⟨fun _ _ => 0, fun _ _ _ => 0, fun _ => 0⟩

/-- `compute_demodulation_by_chunk(...)` with `DEBUG=False`.
Models: processing/demodulation.py:761-1059. -/
def computeByChunk (env : CalibEnv) (inp : ChunkInput) : Py ChunkState :=
  forRange 0 inp.height 2 inp.initState fun superY st =>
    forRange 0 inp.width 2 st fun superX st => superpixelBody env inp superY superX st

/-! ## Splitting into chunks, the worker pool, merging -/

/-- Slice `A[y0:y0+h, x0:x0+w]` inside the array.
Models: processing/demodulation.py:526-547. -/
def sliceOf (A : Img ℝ) (y0 x0 h w : Nat) : Img ℝ := Img.ofFn h w (fun y x => A.px (y0 + y) (x0 + x))

/-- The arguments for one worker.
Models: processing/demodulation.py:526-547, :591-603. -/
def ChunkInput.slice (inp : ChunkInput) (y0 x0 h w : Nat) : ChunkInput :=
  { inp with
    height := h
    width := w
    data := fun p => sliceOf (inp.data p) y0 x0 h w
    errors := fun p => sliceOf (inp.errors p) y0 x0 h w
    occulter := sliceOf inp.occulter y0 x0 h w }

/-- The loops that fill the array of chunks: entry `i + chunks_n_y * j` receives the chunk `(i, j)`.
Models: processing/demodulation.py:526-547.  `none` = entry never assigned (it would contain zeros). -/
def splitChunks (inp : ChunkInput) (ny nx cy cx : Nat) : Nat → Option ChunkInput :=
  (List.range ny).foldl (fun arr i =>
    (List.range nx).foldl (fun arr j =>
      fun c => if c = i + ny * j then some (inp.slice (i * cy) (j * cx) cy cx) else arr c) arr) (fun _ => none)

/-- The worker pool: tasks finish in the order `schedule`; each result is stored at its task's index.  A task that
raises makes `starmap` raise.
Models: processing/demodulation.py:609-629 (`mp.Pool.starmap` and, for a 1x1 grid, the plain loop). -/
def runPool (f : Nat → Py ChunkState) (schedule : List Nat) : Py (Nat → Option ChunkState) :=
  schedule.foldlM (fun res c => do
    let r ← f c
    pure (fun c' => if c' = c then some r else res c')) (fun _ => none)

/-- `parameter[i*cy:(i+1)*cy, j*cx:(j+1)*cx] = result[i + chunks_n_y*j].reshape(cy, cx)` for all `i`, `j`.
Models: processing/demodulation.py:654-662, :672-681, :684-697, :700-709. -/
def mergeMap (ny nx cy cx : Nat) (init : Img ℝ) (res : Nat → Option ChunkState) (sel : ChunkState → Img ℝ) :
    Py (Img ℝ) :=
  forRange 0 ny 1 init fun i P => forRange 0 nx 1 P fun j P =>
    match res (i.toNat + ny * j.toNat) with
    | none => .error .indexError
    | some r =>
      if (sel r).h = cy ∧ (sel r).w = cx ∧ (i.toNat + 1) * cy ≤ P.h ∧ (j.toNat + 1) * cx ≤ P.w then
        .ok (Img.ofFn P.h P.w (fun y x =>
          if i.toNat * cy ≤ y ∧ y < (i.toNat + 1) * cy ∧ j.toNat * cx ≤ x ∧ x < (j.toNat + 1) * cx then
            (sel r).px (y - i.toNat * cy) (x - j.toNat * cx)
          else P.px y x))
      else .error .valueError

/-- The maps that `calculate_demodulation_tensor` writes to files.
Models: processing/demodulation.py:722-754. -/
structure CalibMaps where
  mij : Fin 3 → Fin 4 → Img ℝ
  fitFound : Img ℝ
  cov : Fin 3 → Fin 3 → Img ℝ
  tk : Img ℝ
  eff : Img ℝ
  phase : Img ℝ
  chisq : Img ℝ

/-- A 4D array filled plane by plane: all planes must succeed.
Models: processing/demodulation.py:684-697, :700-709. -/
def planes {ι κ : Type} (f : ι → κ → Py (Img ℝ)) : Py (ι → κ → Img ℝ) :=
  if h : ∃ g : ι → κ → Img ℝ, ∀ i j, f i j = .ok (g i j) then .ok h.choose else .error .valueError

/-- The parallel part of `calculate_demodulation_tensor`: from the normalised data to the output maps.
Models: processing/demodulation.py:494-711; `schedule` is the order in which the workers finish. -/
def calibrate (env : CalibEnv) (inp : ChunkInput) (ny nx : Nat) (schedule : List Nat) : Py CalibMaps := do
  if ny = 0 ∨ nx = 0 then .error .zeroDivisionError
  else do
    let cy := inp.height / ny
    let cx := inp.width / nx
    if cx % 2 ≠ 0 ∨ cy % 2 ≠ 0 then .error .valueError
    else do
      let chunks := splitChunks inp ny nx cy cx
      let res ← runPool (fun c => match chunks c with
        | none => .error .indexError
        | some ci => computeByChunk env ci) schedule
      let full : Img ℝ := Img.zeros inp.height inp.width
      let half : Img ℝ := Img.zeros (inp.height / 2) (inp.width / 2)
      let tk ← mergeMap ny nx cy cx full res ChunkState.tk
      let eff ← mergeMap ny nx cy cx full res ChunkState.eff
      let phase ← mergeMap ny nx cy cx full res ChunkState.phase
      let chisq ← mergeMap ny nx cy cx full res ChunkState.chisq
      let fitFound ← mergeMap ny nx (cy / 2) (cx / 2) half res ChunkState.fitFound
      let mij ← planes (fun i j => mergeMap ny nx (cy / 2) (cx / 2) half res (fun r => r.mij i j))
      let cov ← planes (fun a b => mergeMap ny nx cy cx full res (fun r => r.cov a b))
      pure { mij := mij, fitFound := fitFound, cov := cov, tk := tk, eff := eff, phase := phase.map rad2deg,
             chisq := chisq }

end

end Micropol
