import Verif.Props.Calibrators
import Verif.Props.CalibrateCall

/-!
# C137, from the files: programs that calibrate with the same files and different processor grids
-/

set_option autoImplicit false

namespace Micropol

variable {fs : Name → Option (Img ℝ)} {fit : GaussFit} {env : CalibEnv} {a : CalibArgs} {n : Nat}

/-- C137: programs that calibrate with the same files and arguments, each with its own grid of processors (without a border) and its own
order of the workers, and save to the same folder at the same time: when one of them has come to its end, the folder loads as if that
program had been alone, whatever the others have done. -/
theorem C137_same_files (ny nx : Fin n → Nat) (schedule : Fin n → List Nat) (maps : Fin n → CalibMaps)
    (hm : ∀ p, calculateDemodulationTensor fs fit env a (ny p) (nx p) (schedule p) = .ok (maps p))
    (hord : ∀ p, (schedule p).Perm (List.range (ny p * nx p)))
    (hdiv : ∀ inp, prepare fs fit a = .ok inp → ∀ p, Divides inp (ny p) (nx p))
    {l : List (Fin n × FileOp ℝ)} (ht : IsTrace (fun p => (maps p).output) l) (i : Fin n)
    (hi : Finished (fun p => (maps p).output) l i) (f : CalibFolder ℝ) (hf : CleanFolder f.top)
    (listing : Listing ℝ) (hl : listing.Perm (traceRun f l).top) :
    loadDemodulator (some listing) = .ok ⟨(maps i).mij, some (maps i).fitFound⟩ ∧
    loadDemodulator (some (saveCalibration (maps i).output f).top) = loadDemodulator (some listing) := by
  obtain ⟨inp, hp, hg, hc, hs⟩ := calculate_inv (hm i) (hord i)
  have hall : ∀ p, maps p = maps i := by
    intro p
    obtain ⟨inp', hp', hg', hc', -⟩ := calculate_inv (hm p) (hord p)
    rw [hp] at hp'
    injection hp' with hp'
    subst hp'
    rw [C31_grid_independent hg' (hdiv inp hp p)] at hc'
    rw [C31_grid_independent hg (hdiv inp hp i)] at hc
    rw [hc] at hc'
    injection hc' with hc'
    exact hc'.symm
  have ho : (fun p => (maps p).output) = fun _ => (maps i).output := by
    funext p
    rw [hall p]
  rw [ho] at ht hi
  have h1 := C137_same ht i hi (h := inp.height / 2) (w := inp.width / 2) hs f hf listing hl
  refine ⟨h1, ?_⟩
  rw [C28_roundtrip (maps i).output _ _ hs f hf _ (List.Perm.refl _), h1]

/-- The sample sensor of C75, calibrated by two programs. -/
example (listing : Listing ℝ) (maps : CalibMaps)
    (hm : calculateDemodulationTensor runFiles (fun _ _ _ => none) exactEnv runArgs 1 1 [0] = .ok maps)
    (hl : listing.Perm (traceRun ⟨[], none⟩ (mixedTrace (fun _ => maps.output))).top) :
    loadDemodulator (some listing) = .ok ⟨maps.mij, some maps.fitFound⟩ :=
  (C137_same_files (n := 2) (fun _ => 1) (fun _ => 1) (fun _ => [0]) (fun _ => maps) (fun _ => hm) (fun _ => by rfl)
    (fun inp _ _ => ⟨Nat.mod_one _, Nat.mod_one _⟩) (fun i => by rw [mixed_finished _ i]) 0 (mixed_finished _ 0) ⟨[], none⟩
    ⟨by unfold UniqueNames; simp, fun e he => by simp at he⟩ listing hl).1

end Micropol
