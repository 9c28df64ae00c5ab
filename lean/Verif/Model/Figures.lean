import Verif.Model.Save
import Verif.Model.Utils
import Verif.Model.Prepare
import Verif.Model.ChenCalculate

/-!
# Model of the figures: `show*` of the image classes

A figure is the list of its panels; of a panel the model keeps the array passed to `imshow`, the limits of the colour scale
(`none` = chosen by matplotlib), the text and the numbers of the title and the label of the colour bar.  matplotlib itself,
sizes, axis labels, colour maps and further keyword arguments are left out.  A mean that is not a number stops the model
(`notFinite`); the code goes on and draws an empty panel.
-/

set_option autoImplicit false

namespace Micropol

noncomputable section

open Classical

/-- What is drawn in one panel.
Models: image.py:242-254; micropol_image.py:452-470, :495-516, :535-545, :569-587, :610-625. -/
structure Panel where
  data : Img ℝ
  vmin : Option ℝ
  vmax : Option ℝ
  title : String
  /-- Orientation in the title of a demosaiced image. -/
  angle : Option Int
  /-- Mean and standard deviation in the title. -/
  stats : Option (ℝ × ℝ)
  unit : String

/-- `data.shape[0] / data.shape[1]`: a division of two Python integers.
Models: image.py:240; micropol_image.py:447, :485, :530, :560, :604. -/
def dataRatio (data : Img ℝ) : Py ℝ := if data.w = 0 then .error .zeroDivisionError else .ok (data.h / data.w)

/-- `np.min`.
Models: image.py:244. -/
def npMin (A : Img ℝ) : Py ℝ :=
  match pixelList A with
  | [] => .error .valueError
  | p :: l => .ok (l.foldl min p)

/-- Mean and standard deviation of the positive pixels; `none` (shown as nan) when there are none.
Models: image.py:249. -/
def positiveStats (data : Img ℝ) : Option (ℝ × ℝ) :=
  let l := (pixelList data).filter (fun v => decide (v > 0))
  if l = [] then none
  else
    let m := l.sum / l.length
    some (m, Real.sqrt ((l.map (fun v => (v - m) * (v - m))).sum / l.length))

/-- `image.show(vmin=…, vmax=…)`.
Models: image.py:228-256. -/
def showImage (data : Img ℝ) (vmin vmax : Option ℝ) : Py (List Panel) := do
  let _ratio ← dataRatio data
  let lo ← match vmin with
    | none => npMin data
    | some v => pure v
  let hi ← match vmax with
    | none => npMax data
    | some v => pure v
  pure [⟨data, some lo, some hi, "Image data", none, positiveStats data, "DN"⟩]

/-- A panel with the limits mean ∓ standard deviation.
Models: micropol_image.py:450-470, :493-516. -/
def meanPanel (data : Img ℝ) (title unit : String) : Py Panel := do
  let avg ← npMean data
  let stdev ← npStd data
  pure ⟨data, some (avg - stdev), some (avg + stdev), title, none, some (avg, stdev), unit⟩

/-- Title and unit of the six parameters.
Models: micropol_image.py:139-180. -/
def paramTitle (name : Name) : String × String :=
  if name = ['I'] then ("Stokes I", "DN")
  else if name = ['Q'] then ("Stokes Q", "DN")
  else if name = ['U'] then ("Stokes U", "DN")
  else if name = ['p', 'B'] then ("Polarized brightness", "DN")
  else if name = ['A', 'o', 'L', 'P'] then ("Angle of Linear Polarization", "rad")
  else ("Degree of Linear Polarization", "")

/-- `image.show_pol_params()` for the image with the given data and Stokes maps.
Models: micropol_image.py:475-518. -/
def showPolParams (data : Img ℝ) (S : Fin 3 → Img ℝ) : Py (List Panel) := do
  let _ratio ← dataRatio data
  let params ← polparamList S
  params.mapM (fun p => meanPanel p.2 (paramTitle p.1).1 (paramTitle p.1).2)

/-- `image.show_with_pol_params()`: the panel of the image and the ones of the parameters.
Models: micropol_image.py:434-473. -/
def showWithPolParams (data : Img ℝ) (S : Fin 3 → Img ℝ) : Py (List Panel × List Panel) := do
  let _ratio ← dataRatio data
  let image ← meanPanel data "Image data" "[DN]"
  let params ← showPolParams data S
  pure ([image], params)

/-- `image.show_single_pol_images()`.
Models: micropol_image.py:520-546, :189-227. -/
def showSinglePol (data : Img ℝ) (dic : AngleDic) : Py (List Panel) := do
  let _ratio ← dataRatio data
  let p0 ← polFamily data dic 0
  let p45 ← polFamily data dic 45
  let p90 ← polFamily data dic 90
  let pm45 ← polFamily data dic (-45)
  pure [⟨p0, none, none, "0 deg orientation pixels", none, none, "DN"⟩,
    ⟨p45, none, none, "45 deg orientation pixels", none, none, "DN"⟩,
    ⟨p90, none, none, "90 deg orientation pixels", none, none, "DN"⟩,
    ⟨pm45, none, none, "-45 deg orientation pixels", none, none, "DN"⟩]

/-- The local variables `this_vmin`, `this_vmax` of `show_demo_images`: assigned only when no limit is given.
Models: micropol_image.py:565-568. -/
def demoLimit (given : Option ℝ) (computed : Py ℝ) : Py (Option ℝ) :=
  match given with
  | none => do
    let v ← computed
    pure (some v)
  | some _ => pure none

/-- Use of a local variable.
Models: micropol_image.py:572-573. -/
def useLocal (v : Option ℝ) : Py ℝ :=
  match v with
  | none => .error .unboundLocalError
  | some v => .ok v

/-- One turn of the loop of `show_demo_images`.
Models: micropol_image.py:565-587. -/
def demoPanel (images : Option (Fin 4 → Img ℝ)) (entries : List (Int × Int)) (vmin vmax : Option ℝ) (i : Fin 4) :
    Py Panel :=
  match images with
  | none => .error .typeError
  | some im => do
    let thisVmin ← demoLimit vmin (meanMinusStd (im i) 1)
    let thisVmax ← demoLimit vmax (meanPlusStd (im i) 1)
    let lo ← useLocal thisVmin
    let hi ← useLocal thisVmax
    let a ← polId entries i.val
    pure ⟨im i, some lo, some hi, "Demosaiced image", some a, none, "DN"⟩

/-- `image.show_demo_images(vmin=…, vmax=…)`; `images` is `none` for an image that is not demosaiced (subscripting `None`
raises `TypeError`), `entries` are the entries of `angle_dic`.
Models: micropol_image.py:548-588. -/
def showDemoImages (data : Img ℝ) (images : Option (Fin 4 → Img ℝ)) (entries : List (Int × Int)) (vmin vmax : Option ℝ) :
    Py (List Panel) := do
  let _ratio ← dataRatio data
  [0, 1, 2, 3].mapM (demoPanel images entries vmin vmax)

/-- `image.show_pol_param(polparam, vmin=…, vmax=…)` for one of the six parameters.
Models: micropol_image.py:590-626. -/
def showPolParam (data : Img ℝ) (S : Fin 3 → Img ℝ) (param : Name) (vmin vmax : Option ℝ) : Py (List Panel) := do
  let d ← getParam S param
  let _ratio ← dataRatio data
  let lo ← match vmin with
    | none => meanMinusStd d 1
    | some v => pure v
  let hi ← match vmax with
    | none => meanPlusStd d 1
    | some v => pure v
  pure [⟨d, some lo, some hi, (paramTitle param).1, none, none, (paramTitle param).2⟩]

/-! ## Histograms -/

/-- Counts and edges of a histogram.
Models: image.py:268; micropol_image.py:641. -/
structure Histogram where
  counts : List Nat
  edges : List ℝ

/-- Ends of a histogram: the given range or the one of the values; equal ends are moved apart.
Models: numpy's `histogram` (`_get_outer_edges`) as used by image.py:268 and micropol_image.py:641. -/
def histEnds (range : Option (ℝ × ℝ)) (l : List ℝ) : Py (ℝ × ℝ) :=
  match range with
  | none => .ok (histRange l)
  | some (lo, hi) =>
    if lo > hi then .error .valueError
    else if lo = hi then .ok (lo - 1 / 2, hi + 1 / 2)
    else .ok (lo, hi)

/-- Edge number `i` of `n` bins between the ends.
Models: `np.histogram` in image.py:268, micropol_image.py:641. -/
def edgeAt (e : ℝ × ℝ) (n i : Nat) : ℝ := e.1 + i * ((e.2 - e.1) / n)

/-- Number of values in bin `i` of `n`: bins are half open, the last one is closed.
Models: numpy's `histogram` as used by image.py:268 and micropol_image.py:641. -/
def countAt (e : ℝ × ℝ) (n : Nat) (l : List ℝ) (i : Nat) : Nat :=
  l.countP (fun v => decide (edgeAt e n i ≤ v ∧ (v < edgeAt e n (i + 1) ∨ (i + 1 = n ∧ v ≤ edgeAt e n (i + 1)))))

/-- `np.histogram(values, bins=n, range=range)`.
Models: numpy's `histogram` as used by image.py:268 and micropol_image.py:641. -/
def npHistogram (n : Nat) (range : Option (ℝ × ℝ)) (l : List ℝ) : Py Histogram :=
  if n = 0 then .error .valueError
  else do
    let e ← histEnds range l
    pure ⟨(List.range n).map (countAt e n l), (List.range (n + 1)).map (edgeAt e n)⟩

/-- `Image.show_histogram(bins=n, range=range)`: the one curve drawn.
Models: image.py:258-275. -/
def showHistogram (data : Img ℝ) (n : Nat) (range : Option (ℝ × ℝ)) : Py (List Histogram) := do
  let histo ← npHistogram n range (pixelList data)
  pure [histo]

/-- `MicropolImage.show_histogram(split_pols, bins=n, range=range)`: the curve of the image and, with `split_pols`, the ones of
the four families.
Models: micropol_image.py:628-643. -/
def showHistogramMicropol (data : Img ℝ) (splitPols : Bool) (n : Nat) (range : Option (ℝ × ℝ)) : Py (List Histogram) := do
  let total ← showHistogram data n range
  if splitPols then do
    let subimages ← splitPolarizations data
    let parts ← [(0 : Fin 4), 1, 2, 3].mapM (fun k => npHistogram n range (pixelList (subimages k)))
    pure (total ++ parts)
  else pure total

end

end Micropol
