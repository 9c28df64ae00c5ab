import Verif.Spec.CalibrateCall
import Verif.Props.Calibration
import Verif.Props.CalibrationRun
import Verif.Props.Folder

/-!
# Calibrations that fail, and debug mode

* C135: a calibration that does not return leaves the files of the output folder alone; one that returns can be loaded; debug mode never
  writes.
* C136: the figures of debug mode.
-/

set_option autoImplicit false

namespace Micropol

variable {fs : Name → Option (Img ℝ)} {fit : GaussFit} {env : CalibEnv} {a : CalibArgs} {ny nx : Nat} {schedule : List Nat}

/-! ## C135 -/

/-- C135: a call that raises or exits has not written, removed or changed any file; at most it has made the missing folder. -/
theorem C135_untouched (debug : Bool) (d : OutputDir)
    (h : (calibrationCall fs fit env a ny nx schedule debug d).ending ≠ .returned) :
    SameFiles d (calibrationCall fs fit env a ny nx schedule debug d).dir ∧
    ((calibrationCall fs fit env a ny nx schedule debug d).dir = d ∨
      d = .missing ∧ (calibrationCall fs fit env a ny nx schedule debug d).dir = .folder ⟨[], none⟩) := by
  unfold calibrationCall at h ⊢
  cases d with
  | file => exact ⟨⟨rfl, rfl⟩, Or.inl rfl⟩
  | missing =>
    dsimp only [OutputDir.make] at h ⊢
    cases debug with
    | false =>
      dsimp only at h ⊢
      cases hm : calculateDemodulationTensor fs fit env a ny nx schedule with
      | error e => exact ⟨⟨rfl, rfl⟩, Or.inr ⟨rfl, rfl⟩⟩
      | ok maps => rw [hm] at h; exact absurd rfl h
    | true =>
      dsimp only at h ⊢
      cases hp : prepare fs fit a with
      | error e => exact ⟨⟨rfl, rfl⟩, Or.inr ⟨rfl, rfl⟩⟩
      | ok inp =>
        dsimp only
        cases hr : (calibrateDebug env inp).2 with
        | error e => exact ⟨⟨rfl, rfl⟩, Or.inr ⟨rfl, rfl⟩⟩
        | ok st => exact ⟨⟨rfl, rfl⟩, Or.inr ⟨rfl, rfl⟩⟩
  | folder f =>
    dsimp only [OutputDir.make] at h ⊢
    cases debug with
    | false =>
      dsimp only at h ⊢
      cases hm : calculateDemodulationTensor fs fit env a ny nx schedule with
      | error e => exact ⟨⟨rfl, rfl⟩, Or.inl rfl⟩
      | ok maps => rw [hm] at h; exact absurd rfl h
    | true =>
      dsimp only at h ⊢
      cases hp : prepare fs fit a with
      | error e => exact ⟨⟨rfl, rfl⟩, Or.inl rfl⟩
      | ok inp =>
        dsimp only
        cases hr : (calibrateDebug env inp).2 with
        | error e => exact ⟨⟨rfl, rfl⟩, Or.inl rfl⟩
        | ok st => exact ⟨⟨rfl, rfl⟩, Or.inl rfl⟩

/-- C135: so the earlier calibration of that folder still loads as before (or still does not load). -/
theorem C135_loads_as_before (debug : Bool) (d : OutputDir)
    (h : (calibrationCall fs fit env a ny nx schedule debug d).ending ≠ .returned) :
    (calibrationCall fs fit env a ny nx schedule debug d).dir.load = d.load := by
  rcases (C135_untouched debug d h).2 with h' | ⟨rfl, h'⟩
  · rw [h']
  · rw [h']; rfl

theorem calculate_inv {maps : CalibMaps} (hm : calculateDemodulationTensor fs fit env a ny nx schedule = .ok maps)
    (hord : schedule.Perm (List.range (ny * nx))) :
    ∃ inp, prepare fs fit a = .ok inp ∧ ValidGrid inp ny nx schedule ∧ calibrate env inp ny nx schedule = .ok maps ∧
      ∀ i j, (maps.mij i j).HasShape (inp.height / 2) (inp.width / 2) := by
  unfold calculateDemodulationTensor at hm
  obtain ⟨inp, hp, hm⟩ := Py.bind_eq_ok.1 hm
  have hc := hm
  unfold calibrate at hm
  by_cases h0 : ny = 0 ∨ nx = 0
  · rw [if_pos h0] at hm; cases hm
  rw [if_neg h0] at hm
  by_cases h1 : inp.width / nx % 2 ≠ 0 ∨ inp.height / ny % 2 ≠ 0
  · dsimp only at hm
    rw [if_pos h1] at hm; cases hm
  have hg : ValidGrid inp ny nx schedule := ⟨by omega, by omega, by omega, by omega, hord⟩
  refine ⟨inp, hp, hg, hc, ?_⟩
  rw [calibrate_eq env inp hg.ny_pos hg.nx_pos hg.even_y hg.even_x hg.order] at hc
  injection hc with hc
  subst hc
  exact fun i j => ⟨rfl, rfl⟩

/-- C135: a call that returns was not in debug mode; afterwards the folder exists and `Demodulator` loads from it, in every directory
order, the matrices and flags this calibration computed (folders that hold nothing but a calibration, or nothing). -/
theorem C135_returned (hord : schedule.Perm (List.range (ny * nx))) (debug : Bool) (d : OutputDir) (hd : CleanFolder d.listing)
    (h : (calibrationCall fs fit env a ny nx schedule debug d).ending = .returned) :
    debug = false ∧ ∃ maps f, calculateDemodulationTensor fs fit env a ny nx schedule = .ok maps ∧
      (calibrationCall fs fit env a ny nx schedule debug d).dir = .folder f ∧
      ∀ listing : Listing ℝ, listing.Perm f.top → loadDemodulator (some listing) = .ok ⟨maps.mij, some maps.fitFound⟩ := by
  unfold calibrationCall at h ⊢
  cases hmk : d.make with
  | none => rw [hmk] at h; cases h
  | some f =>
    have hf : CleanFolder f.top := by
      cases d with
      | file => cases hmk
      | missing => injection hmk with hmk; subst hmk; exact hd
      | folder g => injection hmk with hmk; subst hmk; exact hd
    rw [hmk] at h
    cases debug with
    | false =>
      dsimp only at h ⊢
      cases hm : calculateDemodulationTensor fs fit env a ny nx schedule with
      | error e => rw [hm] at h; cases h
      | ok maps =>
        obtain ⟨inp, -, -, -, hs⟩ := calculate_inv hm hord
        exact ⟨rfl, maps, _, rfl, rfl, fun listing hl => C28_roundtrip maps.output _ _ hs f hf listing hl⟩
    | true =>
      dsimp only at h ⊢
      cases hp : prepare fs fit a with
      | error e => rw [hp] at h; cases h
      | ok inp =>
        rw [hp] at h
        dsimp only at h
        cases hr : (calibrateDebug env inp).2 with
        | error e => rw [hr] at h; cases h
        | ok st => rw [hr] at h; cases h

/-- C135: in debug mode the call never returns and no file is ever touched, whatever the arguments. -/
theorem C135_debug (d : OutputDir) :
    (calibrationCall fs fit env a ny nx schedule true d).ending ≠ .returned ∧
    SameFiles d (calibrationCall fs fit env a ny nx schedule true d).dir ∧
    (calibrationCall fs fit env a ny nx schedule true d).dir.load = d.load := by
  have h : (calibrationCall fs fit env a ny nx schedule true d).ending ≠ .returned := by
    unfold calibrationCall
    cases d.make with
    | none => exact fun h => by cases h
    | some f =>
      dsimp only
      cases prepare fs fit a with
      | error e => exact fun h => by cases h
      | ok inp =>
        dsimp only
        cases (calibrateDebug env inp).2 with
        | error e => exact fun h => by cases h
        | ok st => exact fun h => by cases h
  exact ⟨h, (C135_untouched true d h).1, C135_loads_as_before true d h⟩

/-- C135: in debug mode the grid of processors has no effect. -/
theorem C135_debug_grid (d : OutputDir) (ny' nx' : Nat) (schedule' : List Nat) :
    calibrationCall fs fit env a ny nx schedule true d = calibrationCall fs fit env a ny' nx' schedule' true d := rfl

/-! ## C136 -/

theorem body_ok (st : ChunkState) (inp : ChunkInput) {y x : Nat} (hy : y + 2 ≤ inp.height) (hx : x + 2 ≤ inp.width) :
    ∃ st', superpixelBody env inp y x st = .ok st' ∧
      ((¬ ∃ k, superPx inp.occulter y x k ≠ 0) → st'.locals = (fitPixels env inp y x [0, 1, 2, 3] st.locals).1) := by
  unfold superpixelBody
  dsimp only
  rw [if_neg (by simp only [Int.toNat_natCast]; exact not_not.2 ⟨hy, hx⟩)]
  simp only [Int.toNat_natCast]
  by_cases hocc : ∃ k, superPx inp.occulter y x k ≠ 0
  · rw [if_neg (not_not.2 hocc)]
    exact ⟨_, rfl, fun h => absurd hocc h⟩
  · rw [if_pos hocc]
    refine ⟨_, rfl, fun _ => ?_⟩
    unfold finishSuperpixel
    cases (fitPixels env inp y x [0, 1, 2, 3] st.locals).2 <;> rfl

theorem body_error (st : ChunkState) (inp : ChunkInput) {y x : Nat} (h : ¬ (y + 2 ≤ inp.height ∧ x + 2 ≤ inp.width)) :
    superpixelBody env inp y x st = .error .valueError := by
  unfold superpixelBody
  dsimp only
  rw [if_pos (by simp only [Int.toNat_natCast]; exact h)]

/-- The positions of the window, as superpixels. -/
def windowSupers : List (Nat × Nat) :=
  (List.range 25).flatMap (fun i => (List.range 25).map (fun j => (50 + i, 50 + j)))

theorem debugWindow_eq : debugWindow = windowSupers.map (fun q => (((2 * q.1 : Nat) : Int), ((2 * q.2 : Nat) : Int))) := by
  decide +kernel

theorem mem_windowSupers {Y X : Nat} : (Y, X) ∈ windowSupers ↔ InDebugWindow Y X := by
  unfold windowSupers InDebugWindow
  simp only [List.mem_flatMap, List.mem_map, List.mem_range, Prod.mk.injEq]
  constructor
  · rintro ⟨i, hi, j, hj, rfl, rfl⟩; omega
  · intro h; exact ⟨Y - 50, by omega, X - 50, by omega, by omega, by omega⟩

theorem windowSupers_sorted : windowSupers.Pairwise (fun p q => p.1 < q.1 ∨ (p.1 = q.1 ∧ p.2 < q.2)) := by
  unfold windowSupers
  rw [List.pairwise_flatMap]
  refine ⟨fun i _ => ?_, ?_⟩
  · rw [List.pairwise_map]
    exact List.pairwise_lt_range.imp (fun h => Or.inr ⟨rfl, by omega⟩)
  · refine List.pairwise_lt_range.imp (fun {i j} h => ?_)
    intro p hp q hq
    simp only [List.mem_map] at hp hq
    obtain ⟨_, _, rfl⟩ := hp
    obtain ⟨_, _, rfl⟩ := hq
    exact Or.inl (by dsimp only; omega)

/-- What the loop shows, for superpixels inside the image. -/
theorem debugLoop_ok (inp : ChunkInput) (hor : ¬ ∀ p q, inp.orientations p = inp.orientations q) :
    ∀ (l : List (Nat × Nat)) (st : ChunkState), (∀ q ∈ l, 2 * q.1 + 2 ≤ inp.height ∧ 2 * q.2 + 2 ≤ inp.width) →
      ∃ st' figs, debugLoop env inp (l.map (fun q => (((2 * q.1 : Nat) : Int), ((2 * q.2 : Nat) : Int)))) st = (figs, .ok st') ∧
        (∀ f ∈ figs, ∃ q ∈ l, ¬ Occulted inp q.1 q.2 ∧ f.IsOf inp q.1 q.2 ∧
          ∃ loc, f.curves = (fitPixels env inp (2 * q.1) (2 * q.2) [0, 1, 2, 3] loc).1.params) ∧
        (∀ q ∈ l, ¬ Occulted inp q.1 q.2 → ∃ f ∈ figs, f.IsOf inp q.1 q.2) ∧
        (l.Pairwise (fun p q => p.1 < q.1 ∨ (p.1 = q.1 ∧ p.2 < q.2)) →
          figs.Pairwise (fun f g => f.y < g.y ∨ (f.y = g.y ∧ f.x < g.x))) := by
  intro l
  induction l with
  | nil => exact fun st _ => ⟨st, [], rfl, by simp, by simp, fun _ => List.Pairwise.nil⟩
  | cons q l ih =>
    intro st hl
    obtain ⟨Y, X⟩ := q
    have hq := hl (Y, X) (by simp)
    obtain ⟨st1, e1, e2⟩ := body_ok (env := env) st inp (y := 2 * Y) (x := 2 * X) hq.1 hq.2
    obtain ⟨st', figs, r1, r2, r3, r4⟩ := ih st1 (fun q hq => hl q (by simp [hq]))
    rw [List.map_cons]
    unfold debugLoop
    dsimp only
    rw [e1]
    dsimp only
    simp only [Int.toNat_natCast]
    by_cases hocc : ∃ k, superPx inp.occulter (2 * Y) (2 * X) k ≠ 0
    · rw [if_pos hocc, r1]
      refine ⟨st', figs, rfl, ?_, ?_, ?_⟩
      · intro f hf
        obtain ⟨q, hq, h⟩ := r2 f hf
        exact ⟨q, by simp [hq], h⟩
      · intro q hq hn
        rcases List.mem_cons.1 hq with rfl | hq
        · exact absurd hocc hn
        · exact r3 q hq hn
      · exact fun h => r4 (List.pairwise_cons.1 h).2
    · rw [if_neg hocc, if_neg hor, r1]
      have his : (fitFigure inp (2 * Y) (2 * X) st1.locals).IsOf inp Y X := ⟨rfl, rfl, fun _ => rfl⟩
      refine ⟨st', _, rfl, ?_, ?_, ?_⟩
      · intro f hf
        rcases List.mem_cons.1 hf with rfl | hf
        · refine ⟨(Y, X), by simp, hocc, his, st.locals, ?_⟩
          show st1.locals.params = _
          rw [e2 hocc]
        · obtain ⟨q, hq, h⟩ := r2 f hf
          exact ⟨q, by simp [hq], h⟩
      · intro q hq hn
        rcases List.mem_cons.1 hq with rfl | hq
        · exact ⟨_, by simp, his⟩
        · obtain ⟨f, hf, h⟩ := r3 q hq hn
          exact ⟨f, by simp [hf], h⟩
      · intro h
        obtain ⟨h1, h2⟩ := List.pairwise_cons.1 h
        refine List.pairwise_cons.2 ⟨?_, r4 h2⟩
        intro g hg
        obtain ⟨q, hq, -, hgq, -⟩ := r2 g hg
        have := h1 q hq
        show 2 * Y < g.y ∨ (2 * Y = g.y ∧ 2 * X < g.x)
        rw [hgq.row, hgq.column]
        dsimp only at this
        omega

/-- A superpixel outside the image stops the loop. -/
theorem debugLoop_error (inp : ChunkInput) :
    ∀ (l : List (Nat × Nat)) (st : ChunkState), (∃ q ∈ l, ¬ (2 * q.1 + 2 ≤ inp.height ∧ 2 * q.2 + 2 ≤ inp.width)) →
      (debugLoop env inp (l.map (fun q => (((2 * q.1 : Nat) : Int), ((2 * q.2 : Nat) : Int)))) st).2 = .error .valueError := by
  intro l
  induction l with
  | nil => rintro st ⟨q, hq, -⟩; simp at hq
  | cons q l ih =>
    intro st hl
    obtain ⟨Y, X⟩ := q
    rw [List.map_cons]
    unfold debugLoop
    dsimp only
    by_cases hin : 2 * Y + 2 ≤ inp.height ∧ 2 * X + 2 ≤ inp.width
    · obtain ⟨st1, e1, -⟩ := body_ok (env := env) st inp (y := 2 * Y) (x := 2 * X) hin.1 hin.2
      have hl' : ∃ q ∈ l, ¬ (2 * q.1 + 2 ≤ inp.height ∧ 2 * q.2 + 2 ≤ inp.width) := by
        obtain ⟨q, hq, h⟩ := hl
        rcases List.mem_cons.1 hq with rfl | hq
        · exact absurd hin h
        · exact ⟨q, hq, h⟩
      rw [e1]
      dsimp only
      split
      · exact ih st1 hl'
      · split
        · rfl
        · exact ih st1 hl'
    · rw [body_error st inp hin]

/-- C136: with images of at least 150 by 150 pixels (even numbers, after binning) and two different orientations, debug mode shows one
figure for each superpixel of rows and columns 100 to 149 that is not occulted, row by row, with its measured points, and exits. -/
theorem C136_figures {inp : ChunkInput} (hp : prepare fs fit a = .ok inp) (hh : 150 ≤ inp.height) (hw : 150 ≤ inp.width)
    (eh : inp.height % 2 = 0) (ew : inp.width % 2 = 0) (hor : ∃ p q, inp.orientations p ≠ inp.orientations q) (d : OutputDir)
    (hd : d ≠ .file) :
    (calibrationCall fs fit env a ny nx schedule true d).ending = .exited ∧
    ShowsAll inp (calibrationCall fs fit env a ny nx schedule true d).figures := by
  obtain ⟨f, hf⟩ : ∃ f, d.make = some f := by cases d <;> first | exact ⟨_, rfl⟩ | exact absurd rfl hd
  have hor' : ¬ ∀ p q, inp.orientations p = inp.orientations q := by
    obtain ⟨p, q, h⟩ := hor
    exact fun h' => h (h' p q)
  obtain ⟨st', figs, r1, r2, r3, r4⟩ := debugLoop_ok (env := env) inp hor' windowSupers inp.initState (by
    rintro ⟨Y, X⟩ hq
    rw [mem_windowSupers] at hq
    unfold InDebugWindow at hq
    exact ⟨by dsimp only; omega, by dsimp only; omega⟩)
  have hc : calibrateDebug env inp = (figs, .ok st') := by
    unfold calibrateDebug
    rw [if_neg (by omega), debugWindow_eq, r1]
  unfold calibrationCall
  rw [hf]
  dsimp only
  rw [hp]
  dsimp only
  rw [hc]
  refine ⟨rfl, r4 windowSupers_sorted, ?_, ?_⟩
  · intro g hg
    obtain ⟨⟨Y, X⟩, hq, h1, h2, -⟩ := r2 g hg
    exact ⟨Y, X, mem_windowSupers.1 hq, h1, h2⟩
  · intro Y X hq hn
    exact r3 (Y, X) (mem_windowSupers.2 hq) hn

/-- C136: with smaller images debug mode does not show the part there is; it raises `ValueError`. -/
theorem C136_small {inp : ChunkInput} (hp : prepare fs fit a = .ok inp) (hs : inp.height < 150 ∨ inp.width < 150) (d : OutputDir)
    (hd : d ≠ .file) : (calibrationCall fs fit env a ny nx schedule true d).ending = .raised .valueError := by
  obtain ⟨f, hf⟩ : ∃ f, d.make = some f := by cases d <;> first | exact ⟨_, rfl⟩ | exact absurd rfl hd
  have hc : (calibrateDebug env inp).2 = .error .valueError := by
    unfold calibrateDebug
    split
    · rfl
    · rw [debugWindow_eq]
      exact debugLoop_error inp _ _ ⟨(74, 74), mem_windowSupers.2 (by unfold InDebugWindow; omega), by dsimp only; omega⟩
  unfold calibrationCall
  rw [hf]
  dsimp only
  rw [hp]
  dsimp only
  rw [hc]

/-- C136: with one orientation only (or several times the same) the axis of the first figure cannot be made: no figure is shown. -/
theorem C136_one_orientation {inp : ChunkInput} (hp : prepare fs fit a = .ok inp)
    (hor : ∀ p q, inp.orientations p = inp.orientations q) (d : OutputDir) :
    (calibrationCall fs fit env a ny nx schedule true d).figures = [] := by
  have hloop : ∀ (l : List (Int × Int)) (st : ChunkState), (debugLoop env inp l st).1 = [] := by
    intro l
    induction l with
    | nil => exact fun _ => rfl
    | cons q l ih =>
      intro st
      obtain ⟨y, x⟩ := q
      unfold debugLoop
      cases superpixelBody env inp y x st with
      | error e => rfl
      | ok st1 =>
        dsimp only
        split
        · exact ih st1
        · rfl
  have hc : (calibrateDebug env inp).1 = [] := by
    unfold calibrateDebug
    split
    · rfl
    · exact hloop _ _
  unfold calibrationCall
  cases d.make with
  | none => rfl
  | some f =>
    dsimp only
    rw [hp]
    dsimp only
    cases (calibrateDebug env inp).2 <;> exact hc

/-- C136 (where the four fits succeed): the curves of a figure are those fitted to its superpixel.  Missing: where a fit fails, see
`C136_stale`. -/
theorem C136_curves_partial {inp : ChunkInput} (hp : prepare fs fit a = .ok inp) (hh : 150 ≤ inp.height) (hw : 150 ≤ inp.width)
    (eh : inp.height % 2 = 0) (ew : inp.width % 2 = 0) (hor : ∃ p q, inp.orientations p ≠ inp.orientations q) (d : OutputDir)
    (hd : d ≠ .file) {Y X : Nat} (hdark : ∀ k, ¬ Dark inp Y X k) (p : Fin 4 → Fin 3 → ℝ) (c : Fin 4 → Fin 3 → Fin 3 → ℝ)
    (hfit : ∀ k, env.curveFit (fitRequest inp Y X k) = some (p k, c k)) (g : FitFigure)
    (hg : g ∈ (calibrationCall fs fit env a ny nx schedule true d).figures) (hgY : g.y = 2 * Y) (hgX : g.x = 2 * X) :
    g.curves = p := by
  obtain ⟨f, hf⟩ : ∃ f, d.make = some f := by cases d <;> first | exact ⟨_, rfl⟩ | exact absurd rfl hd
  have hor' : ¬ ∀ p q, inp.orientations p = inp.orientations q := by
    obtain ⟨p, q, h⟩ := hor
    exact fun h' => h (h' p q)
  obtain ⟨st', figs, r1, r2, -, -⟩ := debugLoop_ok (env := env) inp hor' windowSupers inp.initState (by
    rintro ⟨Y, X⟩ hq
    rw [mem_windowSupers] at hq
    unfold InDebugWindow at hq
    exact ⟨by dsimp only; omega, by dsimp only; omega⟩)
  have hc : calibrateDebug env inp = (figs, .ok st') := by
    unfold calibrateDebug
    rw [if_neg (by omega), debugWindow_eq, r1]
  unfold calibrationCall at hg
  rw [hf] at hg
  dsimp only at hg
  rw [hp] at hg
  dsimp only at hg
  rw [hc] at hg
  obtain ⟨⟨Y', X'⟩, -, -, h2, loc, h3⟩ := r2 g hg
  have a1 := h2.row
  have a2 := h2.column
  dsimp only at a1 a2 h3
  obtain rfl : Y' = Y := by omega
  obtain rfl : X' = X := by omega
  have hf : ∀ k, inp.fits env (2 * Y') (2 * X') k = some (p k, c k) := by
    intro k
    unfold ChunkInput.fits
    rw [if_neg (by exact hdark k), fitCall_eq, hfit k]
  rw [h3]
  funext k
  have hk : k ∈ [(0 : Fin 4), 1, 2, 3] := by fin_cases k <;> simp
  rcases fitPixels_spec env inp (2 * Y') (2 * X') [0, 1, 2, 3] loc with ⟨⟨k', -, h⟩, -⟩ | ⟨-, -, h⟩
  · rw [hf k'] at h; cases h
  · rcases h k with ⟨-, h⟩ | ⟨h, -⟩
    · exact (h _ (hf k)).1
    · exact absurd hk h

/-- C136 does not hold in full: where the first pixel of a superpixel is zero in all images nothing is fitted, and the figure of that
superpixel shows, with its own points, the curves fitted to the superpixel before it. -/
theorem C136_stale {inp : ChunkInput} (hp : prepare fs fit a = .ok inp) (hh : 150 ≤ inp.height) (hw : 150 ≤ inp.width)
    (eh : inp.height % 2 = 0) (ew : inp.width % 2 = 0) (hor : ∃ p q, inp.orientations p ≠ inp.orientations q) (d : OutputDir)
    (hd : d ≠ .file) (ho : ¬ Occulted inp 50 50) (ho' : ¬ Occulted inp 50 51) (hdark : ∀ k, ¬ Dark inp 50 50 k)
    (p : Fin 4 → Fin 3 → ℝ) (c : Fin 4 → Fin 3 → Fin 3 → ℝ) (hfit : ∀ k, env.curveFit (fitRequest inp 50 50 k) = some (p k, c k))
    (hdark' : Dark inp 50 51 0) :
    ∃ g ∈ (calibrationCall fs fit env a ny nx schedule true d).figures, g.IsOf inp 50 51 ∧ g.curves = p := by
  obtain ⟨f, hf⟩ : ∃ f, d.make = some f := by cases d <;> first | exact ⟨_, rfl⟩ | exact absurd rfl hd
  have hor' : ¬ ∀ p q, inp.orientations p = inp.orientations q := by
    obtain ⟨p, q, h⟩ := hor
    exact fun h' => h (h' p q)
  obtain ⟨tl, htl⟩ : ∃ tl, debugWindow = (((100 : Nat) : Int), ((100 : Nat) : Int)) :: (((100 : Nat) : Int), ((102 : Nat) : Int)) :: tl :=
    ⟨_, rfl⟩
  obtain ⟨st1, e1, l1⟩ := body_ok (env := env) inp.initState inp (y := 100) (x := 100) (by omega) (by omega)
  obtain ⟨st2, e2, l2⟩ := body_ok (env := env) st1 inp (y := 100) (x := 102) (by omega) (by omega)
  have o1 : ¬ ∃ k, superPx inp.occulter 100 100 k ≠ 0 := ho
  have o2 : ¬ ∃ k, superPx inp.occulter 100 102 k ≠ 0 := ho'
  have hfits : ∀ k, inp.fits env 100 100 k = some (p k, c k) := by
    intro k
    unfold ChunkInput.fits
    rw [if_neg (by exact hdark k)]
    exact (congrArg env.curveFit (fitCall_eq inp 50 50 k)).trans (hfit k)
  have p1 : st1.locals.params = p := by
    rw [l1 o1]
    funext k
    have hk : k ∈ [(0 : Fin 4), 1, 2, 3] := by fin_cases k <;> simp
    rcases fitPixels_spec env inp 100 100 [0, 1, 2, 3] inp.initState.locals with ⟨⟨k', -, h⟩, -⟩ | ⟨-, -, h⟩
    · rw [hfits k'] at h; cases h
    · rcases h k with ⟨-, h⟩ | ⟨h, -⟩
      · exact (h _ (hfits k)).1
      · exact absurd hk h
  have p2 : st2.locals = st1.locals := by
    rw [l2 o2]
    unfold fitPixels
    dsimp only
    rw [if_pos (by exact hdark')]
  have hc : ∃ figs, (calibrateDebug env inp).1 =
      fitFigure inp 100 100 st1.locals :: fitFigure inp 100 102 st2.locals :: figs := by
    unfold calibrateDebug
    rw [if_neg (by omega), htl]
    unfold debugLoop
    rw [e1]
    dsimp only
    simp only [Int.toNat_natCast]
    rw [if_neg o1, if_neg hor']
    unfold debugLoop
    rw [e2]
    dsimp only
    simp only [Int.toNat_natCast]
    rw [if_neg o2, if_neg hor']
    exact ⟨_, rfl⟩
  obtain ⟨figs, hc⟩ := hc
  refine ⟨fitFigure inp 100 102 st2.locals, ?_, ⟨rfl, rfl, fun _ => rfl⟩, ?_⟩
  · unfold calibrationCall
    rw [hf]
    dsimp only
    rw [hp]
    dsimp only
    have : fitFigure inp 100 102 st2.locals ∈ (calibrateDebug env inp).1 := by rw [hc]; simp
    cases (calibrateDebug env inp).2 <;> exact this
  · show st2.locals.params = p
    rw [p2, p1]

/-! ## Samples -/

/-- A frame of 150 by 150 pixels with a dead superpixel in row 100, column 102. -/
def debugFrame : Img ℝ :=
  Img.ofFn 150 150 (fun y x => if 100 ≤ y ∧ y < 102 ∧ 102 ≤ x ∧ x < 104 then 0 else 4)

theorem debug_readable : Readable (fun _ => some debugFrame) runArgs 1 150 150 (fun _ => debugFrame) none where
  binning := rfl
  pos := le_refl 1
  even := ⟨rfl, rfl⟩
  frames := fun _ _ => ⟨rfl, rfl, rfl⟩
  dark := Or.inl ⟨rfl, rfl⟩
  flat := rfl
  len := rfl
  some_file := by simp [runArgs]

theorem debug_prescribes : Prescribes runArgs runArgs.filenames.length 1 150 150 (fun _ _ _ => 2) :=
  Or.inl ⟨2, rfl, by norm_num, fun _ _ _ => by unfold atLeast; norm_num⟩

theorem debug_lit {y x : Nat} (hy : y < 150) (hx : x < 150) :
    lit debugFrame none 1 y x = if 100 ≤ y ∧ y < 102 ∧ 102 ≤ x ∧ x < 104 then 0 else 4 := by
  unfold lit familySum
  dsimp only
  rw [Finset.sum_range_one, Finset.sum_range_one, show 2 * (1 * (y / 2) + 0) + y % 2 = y by omega,
    show 2 * (1 * (x / 2) + 0) + x % 2 = x by omega]
  exact Img.ofFn_px hy hx

theorem debug_sample (fit : GaussFit) : ∃ inp, prepare (fun _ => some debugFrame) fit runArgs = .ok inp ∧ inp.height = 150 ∧
    inp.width = 150 ∧ (∃ p q, inp.orientations p ≠ inp.orientations q) ∧ (∀ Y X, ¬ Occulted inp Y X) ∧
    (∀ k, ¬ Dark inp 50 50 k) ∧ Dark inp 50 51 0 := by
  obtain ⟨inp, h1, h2, h3, h4, -, -, -, h5⟩ := C73_frames_partial (fit := fit) debug_readable debug_prescribes
    (by norm_num [runArgs]) (by
      intro n _ y x hy hx
      rw [debug_lit (by omega) (by omega)]
      split <;> norm_num) run_sorted
  have h2 : inp.n = 3 := h2
  have h3 : inp.height = 150 := h3
  have h4 : inp.width = 150 := h4
  have hpx : ∀ (k : Fin inp.n) {y x : Nat}, y < 150 → x < 150 →
      (inp.data k).px y x = (if 100 ≤ y ∧ y < 102 ∧ 102 ≤ x ∧ x < 104 then 0 else 4) / 2 := by
    intro k y x hy hx
    rw [((h5 k (by have := k.isLt; simp; omega)).2.2.2 y x (by omega) (by omega)).1, debug_lit hy hx]
  refine ⟨inp, h1, h3, h4, ⟨⟨0, by omega⟩, ⟨1, by omega⟩, ?_⟩, ?_, ?_, ?_⟩
  · rw [(h5 ⟨0, by omega⟩ (by simp)).1, (h5 ⟨1, by omega⟩ (by simp)).1]
    norm_num
  · rintro Y X ⟨k, hk⟩
    have e : Except.ok (Img.zeros 150 150) = Except.ok (ε := PyErr) inp.occulter := (prepare_occulter debug_readable h1).1
    injection e with e
    rw [← e] at hk
    exact hk (by unfold Img.zeros Img.const Img.ofFn; simp)
  · intro k hd
    have := hd ⟨0, by omega⟩
    rw [hpx _ (by unfold rowOf; omega) (by unfold colOf; omega), if_neg (by unfold colOf; omega)] at this
    norm_num at this
  · intro k
    rw [hpx k (by decide) (by decide), if_pos (by decide)]
    norm_num

/-- An environment whose fits always give the same parameters. -/
noncomputable def steadyEnv : CalibEnv where
  curveFit := fun _ => some (![1 / 2, 1 / 2, 0], fun _ _ => 0)
  pinv := fun _ _ _ => 0
  chisq := fun _ _ _ => 0

/-- All hypotheses of `C136_figures`, `C136_curves_partial` and `C136_stale` hold for the sample: the figure of the dead superpixel
shows curves with throughput 1/2. -/
example (fit : GaussFit) (d : OutputDir) (hd : d ≠ .file) :
    (calibrationCall (fun _ => some debugFrame) fit steadyEnv runArgs 4 4 [] true d).ending = .exited ∧
    ∃ inp, prepare (fun _ => some debugFrame) fit runArgs = .ok inp ∧
      ShowsAll inp (calibrationCall (fun _ => some debugFrame) fit steadyEnv runArgs 4 4 [] true d).figures ∧
      ∃ g ∈ (calibrationCall (fun _ => some debugFrame) fit steadyEnv runArgs 4 4 [] true d).figures, g.IsOf inp 50 51 ∧
        Dark inp 50 51 0 ∧ g.curves 0 0 = 1 / 2 := by
  obtain ⟨inp, h1, h2, h3, h4, h5, h6, h7⟩ := debug_sample fit
  obtain ⟨r1, r2⟩ := C136_figures (env := steadyEnv) (ny := 4) (nx := 4) (schedule := []) h1 (by omega) (by omega) (by omega)
    (by omega) h4 d hd
  obtain ⟨g, g1, g2, g3⟩ := C136_stale (env := steadyEnv) (ny := 4) (nx := 4) (schedule := []) h1 (by omega) (by omega) (by omega)
    (by omega) h4 d hd (h5 _ _) (h5 _ _) h6 (fun _ => ![1 / 2, 1 / 2, 0]) (fun _ _ _ => 0) (fun _ => rfl) h7
  exact ⟨r1, inp, h1, r2, g, g1, g2, h7, by rw [g3]; rfl⟩

/-- `C136_curves_partial` applies to the superpixel before it. -/
example (fit : GaussFit) (g : FitFigure)
    (hg : g ∈ (calibrationCall (fun _ => some debugFrame) fit steadyEnv runArgs 4 4 [] true .missing).figures)
    (hy : g.y = 100) (hx : g.x = 100) : g.curves = fun _ => ![1 / 2, 1 / 2, 0] := by
  obtain ⟨inp, h1, h2, h3, h4, h5, h6, h7⟩ := debug_sample fit
  exact C136_curves_partial h1 (by omega) (by omega) (by omega) (by omega) h4 .missing (by exact fun h => by cases h) h6
    (fun _ => ![1 / 2, 1 / 2, 0]) (fun _ _ _ => 0) (fun _ => rfl) g hg hy hx

/-- `C136_small` and `C135_debug`: the small sensor of C75 in debug mode, over its own earlier calibration. -/
example (fit : GaussFit) (env : CalibEnv) (f : CalibFolder ℝ) :
    (calibrationCall runFiles fit env runArgs 1 1 [0] true (.folder f)).ending = .raised .valueError ∧
    (calibrationCall runFiles fit env runArgs 1 1 [0] true (.folder f)).dir.load = loadDemodulator (some f.top) := by
  obtain ⟨inp, h1, -, h3, -⟩ := C73_frames_partial (fit := fit) run_readable run_prescribes (by norm_num [runArgs]) run_nonneg
    run_sorted
  have h3 : inp.height = 2 := h3
  exact ⟨C136_small h1 (by omega) _ (by exact fun h => by cases h), (C135_debug _).2.2⟩

/-- `C135_returned`: the same sensor without debug mode. -/
example : ∃ (maps : CalibMaps) (f : CalibFolder ℝ), (calibrationCall runFiles (fun _ _ _ => none) exactEnv runArgs 1 1 [0] false .missing).dir = .folder f ∧
    loadDemodulator (some f.top) = .ok ⟨maps.mij, some maps.fitFound⟩ ∧ maps.fitFound.px 0 0 = 1 := by
  obtain ⟨maps, h1, h2, -⟩ := C75_recovers_sensor (fit := fun _ _ _ => none) exactEnv_finds exactEnv_pinv run_readable
    run_prescribes (by norm_num [runArgs]) run_nonneg (ny := 1) (nx := 1) (schedule := [0]) (by norm_num) (by norm_num)
    (by norm_num) (by norm_num) (by rfl) (Y := 0) (X := 0) (by norm_num) (by norm_num) rfl run_sane run_sane
    (t := fun _ => 1 / 2) (e := fun _ => 1 / 2) (φ := runPhases) (fun _ => run_inside) (fun _ => run_inside) run_near
    run_directions (by intro i; fin_cases i <;> simp [runArgs]) run_sorted run_law run_rank
    (fun i j => (run_big i j).trans (by norm_num))
  have hr : (calibrationCall runFiles (fun _ _ _ => none) exactEnv runArgs 1 1 [0] false .missing).ending = .returned := by
    unfold calibrationCall
    rw [h1]
    rfl
  obtain ⟨-, maps', f, e1, e2, e3⟩ := C135_returned (by rfl) false .missing
    ⟨List.nodup_nil, fun e he => by simp [OutputDir.listing] at he⟩ hr
  rw [h1] at e1
  injection e1 with e1
  subst e1
  exact ⟨maps, f, e2, e3 _ (List.Perm.refl _), h2⟩

/-- `C135_untouched`: a calibration without the reference orientations raises `ValueError`; the earlier one stays. -/
example (fit : GaussFit) (env : CalibEnv) (f : CalibFolder ℝ) :
    (calibrationCall runFiles fit env { runArgs with normS := .missing } 1 1 [0] false (.folder f)).ending = .raised .valueError ∧
    (calibrationCall runFiles fit env { runArgs with normS := .missing } 1 1 [0] false (.folder f)).dir.load =
      loadDemodulator (some f.top) := by
  have h : (calibrationCall runFiles fit env { runArgs with normS := .missing } 1 1 [0] false (.folder f)).ending =
      .raised .valueError := by
    have hp : prepare runFiles fit { runArgs with normS := .missing } = .error .valueError := by
      unfold prepare
      rw [if_pos]
      refine ⟨rfl, fun h => ?_, fun h => ?_⟩
      · have := h (-45) (by simp [normMinus])
        norm_num [runArgs] at this
      · have := h 135 (by simp [normPlus])
        norm_num [runArgs] at this
    unfold calibrationCall calculateDemodulationTensor
    rw [hp]
    rfl
  exact ⟨h, C135_loads_as_before false (.folder f) (by rw [h]; exact fun h => by cases h)⟩

end Micropol
