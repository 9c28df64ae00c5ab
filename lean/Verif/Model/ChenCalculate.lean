import Verif.Model.Prepare

/-!
# Model of `calculate_chen_wan_lian_calibration`

Simplifications: pixel values are reals; a division by zero is the outcome `notFinite`; `DEBUG` is false; the 17 files that are
written at the end are the result.  `np.linalg.pinv` is a parameter.  The loop over the superpixels writes its own block of every
plane of `S_input`, `C_ij` and `d_ij` and reads none of them at another place, so each plane is modelled as a loop of its own.
-/

set_option autoImplicit false

namespace Micropol

noncomputable section

open Classical

/-- Arguments of `calculate_chen_wan_lian_calibration`.
Models: processing/chen_wan_liang_calibration.py:15-23. -/
structure ChenArgs where
  orientations : List ℝ
  filenames : List Name
  previsions : Fin 4 → ℝ
  occulter : Bool
  dark : Option Name
  flat : Option Name

/-- `np.linalg.pinv` of a column of four numbers, and of a matrix with four rows and three columns (`none`: `LinAlgError`).
Models: the calls in processing/chen_wan_liang_calibration.py:187, :197. -/
structure ChenEnv where
  pinvColumn : (Fin 4 → ℝ) → Fin 4 → ℝ
  pinv : (Fin 4 → Fin 3 → ℝ) → Option (Fin 3 → Fin 4 → ℝ)

/-- `if name: open(name)`.
Models: processing/chen_wan_liang_calibration.py:88-90, :92-94. -/
def openIf (fs : Name → Option (Img ℝ)) (name : Option Name) : Py (Option (Img ℝ)) :=
  match name with
  | none => .ok none
  | some [] => .ok none
  | some n => do
    let d ← openFits fs n
    pure (some d)

/-- `fits.open(filenames_list[0])`.
Models: processing/chen_wan_liang_calibration.py:62-63. -/
def openFirst (fs : Name → Option (Img ℝ)) (pairs : List (ℝ × Name)) : Py (Img ℝ) :=
  match pairs with
  | [] => .error .indexError
  | p :: _ => openFits fs p.2

/-- The flat, less the dark if there is one.
Models: processing/chen_wan_liang_calibration.py:95-99 (without occulter). -/
def chenFlat (flat dark : Option (Img ℝ)) : Py (Img ℝ) :=
  match flat, dark with
  | none, _ => .error .unboundLocalError
  | some f, none => .ok f
  | some f, some d => do
    let f ← npInto (fun u v : ℝ => u - v) f d
    pure (f.map (fun v => if v > 0 then v else 1))

/-- `np.max(flat, axis=(0, 1))`.
Models: processing/chen_wan_liang_calibration.py:101. -/
def npMax (A : Img ℝ) : Py ℝ :=
  match pixelList A with
  | [] => .error .valueError
  | p :: l => .ok (l.foldl max p)

/-- One turn of the loop over the files.
Models: processing/chen_wan_liang_calibration.py:105-118. -/
def chenFrame (fs : Name → Option (Img ℝ)) (a : ChenArgs) (dark : Option (Img ℝ)) (nflat : Img ℝ) (name : Name) :
    Py (Img ℝ) := do
  let d ← openFits fs name
  let d ← match a.dark with
    | none => pure d
    | some _ =>
      match dark with
      | none => .error .unboundLocalError
      | some dk => do
        let s ← npInto (fun u v : ℝ => u - v) d dk
        pure (s.map (fun v => if v ≥ 0 then v else 0))
  match a.flat with
  | none => pure d
  | some _ => npBin (fun v f : ℝ => if f ≠ 0 then v / f else v) d nflat

/-- `angle_dic[angle]`: the last position with that prevision.
Models: processing/chen_wan_liang_calibration.py:60, :144-155. -/
def chenAngle (previsions : Fin 4 → ℝ) (angle : ℝ) : Py (Fin 4) :=
  if previsions 3 = angle then .ok 3
  else if previsions 2 = angle then .ok 2
  else if previsions 1 = angle then .ok 1
  else if previsions 0 = angle then .ok 0
  else .error .keyError

/-- Two nested loops over the superpixels, each turn assigning to the block of its superpixel.
Models: the loops of processing/chen_wan_liang_calibration.py:182-208, :235-257. -/
def chenTiles (h w : Nat) (block : Nat → Nat → Py (Fin 4 → ℝ)) : Py (Img ℝ) :=
  forRange 0 h 2 (Img.zeros h w) fun sy A => forRange 0 w 2 A fun sx A => do
    let v ← block sy.toNat sx.toNat
    pure (Img.ofFn A.h A.w (fun y x =>
      if sy ≤ y ∧ (y : Int) < sy + 2 ∧ sx ≤ x ∧ (x : Int) < sx + 2 then
        v ⟨2 * ((y - sy.toNat) % 2) + (x - sx.toNat) % 2, by omega⟩
      else A.px y x))

/-- `single_pol_images[pol, k]`: every second pixel.
Models: processing/chen_wan_liang_calibration.py:132-141. -/
def chenFamily (A : Img ℝ) (k : Fin 4) : Img ℝ :=
  Img.ofFn ((A.h + 1 - k.val / 2) / 2) ((A.w + 1 - k.val % 2) / 2) (fun y x => A.px (2 * y + k.val / 2) (2 * x + k.val % 2))

/-- The three planes `S_input[pol, 0..2]` of `_build_S_input`, and `S_input[pol, 3]`, for the frame `A`; `k0`, `k45`, `km`, `k90`
are the positions of the micropolarizers.
Models: processing/chen_wan_liang_calibration.py:130, :143-157, :222-257. -/
def buildSInput (A : Img ℝ) (k0 k45 km k90 : Fin 4) : Py (Fin 4 → Img ℝ) := do
  let s0 ← chenTiles A.h A.w fun sy sx => do
    let u ← (chenFamily A k0).read (sy / 2 : Nat) (sx / 2 : Nat)
    let v ← (chenFamily A k90).read (sy / 2 : Nat) (sx / 2 : Nat)
    pure (fun _ => u + v)
  let s1 ← chenTiles A.h A.w fun sy sx => do
    let u ← (chenFamily A k0).read (sy / 2 : Nat) (sx / 2 : Nat)
    let v ← (chenFamily A k90).read (sy / 2 : Nat) (sx / 2 : Nat)
    pure (fun _ => u - v)
  let s2 ← chenTiles A.h A.w fun sy sx => do
    let u ← (chenFamily A k45).read (sy / 2 : Nat) (sx / 2 : Nat)
    let v ← (chenFamily A km).read (sy / 2 : Nat) (sx / 2 : Nat)
    pure (fun _ => u - v)
  pure ![s0, s1, s2, Img.const A.h A.w 1]

/-- `W_ideal`.
Models: processing/chen_wan_liang_calibration.py:159-171. -/
def chenIdeal (previsions : Fin 4 → ℝ) (k : Fin 4) (m : Fin 3) : ℝ :=
  match m with
  | 0 => 1 / 2
  | 1 => 1 / 2 * Real.cos (2 * deg2rad (previsions k))
  | 2 => 1 / 2 * Real.sin (2 * deg2rad (previsions k))

/-- The matrix `C` and the offsets `d` of one superpixel of one frame, from its Stokes column and its four pixels.
Models: processing/chen_wan_liang_calibration.py:187-199, :205. -/
def chenTurn (env : ChenEnv) (previsions : Fin 4 → ℝ) (S P : Fin 4 → ℝ) : (Fin 4 → Fin 4 → ℝ) × (Fin 4 → ℝ) :=
  let sInv := env.pinvColumn S
  let W : Fin 4 → Fin 3 → ℝ := fun k m => P k * sInv m.castSucc
  let d : Fin 4 → ℝ := fun k => P k * sInv 3
  let wInv : Fin 3 → Fin 4 → ℝ := (env.pinv W).getD (fun _ _ => 0)
  (fun i j => chenIdeal previsions i 0 * wInv 0 j + chenIdeal previsions i 1 * wInv 1 j + chenIdeal previsions i 2 * wInv 2 j, d)

/-- The superpixel at `(sy, sx)` of the frame `A`: the slice has to have four elements.
Models: processing/chen_wan_liang_calibration.py:188-190. -/
def chenBlock (A : Img ℝ) (sy sx : Nat) : Py (Fin 4 → ℝ) :=
  if sy + 2 ≤ A.h ∧ sx + 2 ≤ A.w then .ok fun k => A.px (sy + k.val / 2) (sx + k.val % 2) else .error .valueError

/-- Plane `(i, j)` of `C_ij[pol]`.
Models: processing/chen_wan_liang_calibration.py:173, :182-208. -/
def chenPlaneC (env : ChenEnv) (previsions : Fin 4 → ℝ) (A : Img ℝ) (S : Fin 4 → Img ℝ) (i j : Fin 4) : Py (Img ℝ) :=
  chenTiles A.h A.w fun sy sx => do
    let P ← chenBlock A sy sx
    let t := chenTurn env previsions (fun m => (S m).px sy sx) P
    pure (fun _ => t.1 i j)

/-- `d_ij[pol]`.
Models: processing/chen_wan_liang_calibration.py:174-176, :195, :201-203. -/
def chenPlaneD (env : ChenEnv) (previsions : Fin 4 → ℝ) (A : Img ℝ) (S : Fin 4 → Img ℝ) : Py (Img ℝ) :=
  chenTiles A.h A.w fun sy sx => do
    let P ← chenBlock A sy sx
    let t := chenTurn env previsions (fun m => (S m).px sy sx) P
    pure t.2

/-- The same for the four values of an index.
Models: the loops over `i` and `j` in processing/chen_wan_liang_calibration.py:214-215. -/
def chenFour {α : Type} (f : Fin 4 → Py α) : Py (Fin 4 → α) := do
  let a ← f 0
  let b ← f 1
  let c ← f 2
  let d ← f 3
  pure ![a, b, c, d]

/-- `np.mean(planes, axis=0)`.
Models: processing/chen_wan_liang_calibration.py:210-211. -/
def planesMean (h w : Nat) (L : List (Img ℝ)) : Img ℝ :=
  Img.ofFn h w (fun y x => (L.map (fun A => A.px y x)).sum / (L.length : ℝ))

/-- All of `calculate_chen_wan_lian_calibration`: the contents of the files `Cij.fits` and `d_ij.fits`.  `PolarCam` has no
attribute `occulter_pos_nov2022` (cameras.py:67-110).
Models: processing/chen_wan_liang_calibration.py:42-219. -/
def calculateChen (env : ChenEnv) (fs : Name → Option (Img ℝ)) (a : ChenArgs) : Py ((Fin 4 → Fin 4 → Img ℝ) × Img ℝ) := do
  if a.orientations.length ≠ a.filenames.length then .error .valueError
  else if ¬ allIn normMinus a.orientations then .error .valueError
  else do
    let pairs := sortedPairs a.orientations a.filenames
    let first ← openFirst fs pairs
    if a.occulter = true then .error .attributeError
    else do
      let dark ← openIf fs a.dark
      let flat ← openIf fs a.flat
      let flat ← chenFlat flat dark
      let flatMax ← npMax flat
      if flatMax = 0 then .error .notFinite
      else do
        let nflat ← npBin (fun _ f : ℝ => f / flatMax) (Img.zeros first.h first.w) flat
        let frames ← pairs.mapM fun p => chenFrame fs a dark nflat p.2
        let h := (frames.headD (Img.zeros 0 0)).h
        let w := (frames.headD (Img.zeros 0 0)).w
        let frames ← stackFrames frames h w
        -- `np.array` of families of different sizes
        if h % 2 = 1 ∨ w % 2 = 1 then .error .valueError
        else do
          let k0 ← chenAngle a.previsions 0
          let k45 ← chenAngle a.previsions 45
          let km ← chenAngle a.previsions (-45)
          let k90 ← chenAngle a.previsions 90
          let inputs ← frames.mapM fun A => do
            let S ← buildSInput A k0 k45 km k90
            pure (A, S)
          let planes ← inputs.mapM fun AS => do
            let C ← chenFour fun i => chenFour fun j => chenPlaneC env a.previsions AS.1 AS.2 i j
            let D ← chenPlaneD env a.previsions AS.1 AS.2
            pure (C, D)
          pure (fun i j => planesMean h w (planes.map fun p => p.1 i j), planesMean h w (planes.map fun p => p.2))

end

end Micropol
