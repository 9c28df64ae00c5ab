import Verif.Model.AngleReads
import Verif.Props.DemodObject
import Verif.Props.AngleDic
import Verif.Props.Utils

/-!
# C141: the angle dictionary while calibrations are being saved

Full property: `demodulator.angle_dic` is the dictionary of one calibration that was in the folder while it was calculated.

It is, if the phases do not change between the first and the last of its four accesses (`C141_one_partial`, `C141_layout`).  Otherwise it
is the dictionary of the phases that have each family of pixels from another reading (`C141_torn`), which need not be that of any
calibration: two directions may get the same pixel (`C141_full_claim_false`).
-/

set_option autoImplicit false
set_option linter.unusedSectionVars false

namespace Micropol

variable {pick : Finset Nat → Nat} {d : DemodObject} {s : Fin 4 → DiskState}

/-- C141: if the same phases are read at all four accesses, the dictionary is that of these phases.  Missing from the full property: the
phases may change between the accesses, see `C141_torn`. -/
theorem C141_one_partial {phi : Img ℝ} (h : ∀ k, d.phi (s k) = .ok phi) : d.angleDic pick s = demodAngleDic pick phi := by
  unfold DemodObject.angleDic angleDicReads demodAngleDic
  simp only [h, Py.ok_bind]

/-- C141: so, after a calibration of phases near a layout of the four directions was saved, every calculation of the dictionary during a
history that leaves its file alone gives this layout. -/
theorem C141_layout (hpick : ∀ S : Finset Nat, S.Nonempty → pick S ∈ S) {phi : Img ℝ} {m n : Nat} (hm : 0 < m) (hn : 0 < n)
    (hphi : phi.HasShape (2 * m) (2 * n)) {L : Layout} (hL : L.Proper) (hfit : L.Fits (placeMean phi m n)) {s₀ : DiskState}
    (h0 : s₀.fs.file (fileIn s₀.cwd d.path "phases.fits".toList) = some (.fits phi)) (l : Fin 4 → List DiskStep)
    (hl : ∀ k, (∀ c, DiskStep.change (fileIn s₀.cwd d.path "phases.fits".toList) c ∉ l k) ∧ ∀ D, DiskStep.chdir D ∉ l k) :
    d.angleDic pick (fun k => s₀.after (l k)) = .ok [(0, L.p0.val), (45, L.p45.val), (-45, L.pm45.val), (90, L.p90.val)] := by
  have hcwd : ∀ (l : List DiskStep) (s : DiskState), (∀ D, DiskStep.chdir D ∉ l) → (s.after l).cwd = s.cwd := by
    intro l
    induction l with
    | nil => intro s _; rfl
    | cons x l ih =>
      intro s h
      have : s.after (x :: l) = (s.step x).after l := rfl
      rw [this, ih _ fun D hD => h D (List.mem_cons_of_mem _ hD)]
      cases x with
      | chdir D => exact absurd List.mem_cons_self (h D)
      | change p c => rfl
  rw [C141_one_partial (phi := phi), C30_layout pick hpick phi m n hm hn hphi L hL hfit]
  intro k
  have h1 : (s₀.after (l k)).fs.file (abspath (s₀.after (l k)).cwd (d.path ++ '/' :: "phases.fits".toList)) = some (.fits phi) := by
    rw [hcwd _ _ (hl k).2, show abspath s₀.cwd (d.path ++ '/' :: "phases.fits".toList) = fileIn s₀.cwd d.path "phases.fits".toList from rfl,
      after_file (hl k).1, h0]
  unfold DemodObject.phi DemodObject.readMap readLive FileSystem.folderAt
  rw [h1]

/-- C141: in general the dictionary is that of phases in which each family of pixels is from its own reading. -/
theorem C141_torn {phi : Fin 4 → Img ℝ} {h w : Nat} (hsh : ∀ k, (phi k).HasShape h w) (hr : ∀ k, d.phi (s k) = .ok (phi k)) :
    d.angleDic pick s = demodAngleDic pick (Img.ofFn h w fun y x =>
      (phi ⟨2 * (y % 2) + x % 2, by omega⟩).px y x) := by
  have key : ∀ (k : Fin 4) (j i : Nat), j < 2 → i < 2 → k.val = 2 * j + i → (phi k).stride2 j i = (Img.ofFn h w fun y x =>
      (phi ⟨2 * (y % 2) + x % 2, by omega⟩).px y x).stride2 j i := by
    intro k j i hj hi hk
    obtain ⟨e1, e2⟩ := hsh k
    unfold Img.stride2
    rw [e1, e2, Img.ofFn_h, Img.ofFn_w]
    refine Img.ext_px rfl rfl ?_
    intro y x hy hx
    have hy : y < (h - j + 1) / 2 := hy
    have hx : x < (w - i + 1) / 2 := hx
    rw [Img.ofFn_px hy hx, Img.ofFn_px hy hx, Img.ofFn_px (by omega) (by omega)]
    congr 2
    apply Fin.ext
    show k.val = 2 * ((2 * y + j) % 2) + (2 * x + i) % 2
    omega
  unfold DemodObject.angleDic angleDicReads demodAngleDic
  simp only [hr, Py.ok_bind]
  rw [key 0 0 0 (by omega) (by omega) rfl, key 1 0 1 (by omega) (by omega) rfl, key 2 1 0 (by omega) (by omega) rfl,
    key 3 1 1 (by omega) (by omega) rfl]

/-! ## The full claim is false -/

/-- Phases of a sensor, and of the same sensor turned by 90 degrees and mirrored. -/
noncomputable def phasesBefore : Img ℝ := Img.ofFn 2 2 (fun y x => if y = 0 then (if x = 0 then 0 else 45) else (if x = 0 then -45 else 90))

noncomputable def phasesAfter : Img ℝ := Img.ofFn 2 2 (fun y x => if y = 0 then (if x = 0 then 90 else -45) else (if x = 0 then 45 else 0))

theorem dic_before (hpick : ∀ S : Finset Nat, S.Nonempty → pick S ∈ S) :
    demodAngleDic pick phasesBefore = .ok [(0, 0), (45, 1), (-45, 2), (90, 3)] :=
  C30_layout pick hpick phasesBefore 1 1 (by decide) (by decide) ⟨rfl, rfl⟩ ⟨0, 1, 2, 3⟩
    ⟨by decide, by decide, by decide, by decide, by decide, by decide⟩
    ⟨⟨0, by norm_num [placeMean, phasesBefore, Img.ofFn_px', abs_lt]⟩, ⟨0, by norm_num [placeMean, phasesBefore, Img.ofFn_px', abs_lt]⟩,
     ⟨0, by norm_num [placeMean, phasesBefore, Img.ofFn_px', abs_lt]⟩, ⟨0, by norm_num [placeMean, phasesBefore, Img.ofFn_px', abs_lt]⟩⟩

theorem dic_after (hpick : ∀ S : Finset Nat, S.Nonempty → pick S ∈ S) :
    demodAngleDic pick phasesAfter = .ok [(0, 3), (45, 2), (-45, 1), (90, 0)] :=
  C30_layout pick hpick phasesAfter 1 1 (by decide) (by decide) ⟨rfl, rfl⟩ ⟨3, 2, 1, 0⟩
    ⟨by decide, by decide, by decide, by decide, by decide, by decide⟩
    ⟨⟨0, by norm_num [placeMean, phasesAfter, Img.ofFn_px', abs_lt]⟩, ⟨0, by norm_num [placeMean, phasesAfter, Img.ofFn_px', abs_lt]⟩,
     ⟨0, by norm_num [placeMean, phasesAfter, Img.ofFn_px', abs_lt]⟩, ⟨0, by norm_num [placeMean, phasesAfter, Img.ofFn_px', abs_lt]⟩⟩

theorem dic_torn : ∃ k, demodAngleDic pick (Img.ofFn 2 2 fun y x =>
    ((![phasesBefore, phasesBefore, phasesAfter, phasesAfter] : Fin 4 → Img ℝ) ⟨2 * (y % 2) + x % 2, by omega⟩).px y x) =
      .ok [(0, 0), (45, 1), (-45, 0), (90, k)] := by
  have hmean : ∀ (A : Img ℝ), A.h = 1 → A.w = 1 → npMean A = .ok (A.px 0 0) := by
    intro A h1 h2
    unfold npMean
    rw [h1, h2, if_neg (by omega)]
    simp
  unfold demodAngleDic
  rw [hmean _ rfl rfl, Py.ok_bind, hmean _ rfl rfl, Py.ok_bind, hmean _ rfl rfl, Py.ok_bind, hmean _ rfl rfl, Py.ok_bind]
  have hl : ∀ a b c e : ℝ, a = 0 → b = 45 → c = 45 → e = 0 → ([a, b, c, e] : List ℝ) = [0, 45, 45, 0] := by
    rintro a b c e rfl rfl rfl rfl; rfl
  rw [hl _ _ _ _ (by norm_num [Img.stride2, phasesBefore, Img.ofFn_px']) (by norm_num [Img.stride2, phasesBefore, Img.ofFn_px'])
    (by norm_num [Img.stride2, phasesAfter, Img.ofFn_px']) (by norm_num [Img.stride2, phasesAfter, Img.ofFn_px']),
    C55_fixed _ (by intro a ha; simp only [List.mem_cons, List.not_mem_nil, or_false] at ha; rcases ha with rfl | rfl | rfl | rfl <;> norm_num),
    Py.ok_bind]
  have n1 : nearestIndex [0, 45, 45, 0] 0 = .ok 0 := by
    unfold nearestIndex
    norm_num [List.idxOf_cons]
  have n2 : nearestIndex [0, 45, 45, 0] 45 = .ok 1 := by
    unfold nearestIndex
    norm_num [List.idxOf_cons]
  have n3 : nearestIndex [0, 45, 45, 0] (-45) = .ok 0 := by
    unfold nearestIndex
    norm_num [List.idxOf_cons]
  obtain ⟨j, n4⟩ : ∃ j, nearestIndex [0, 45, 45, 0] 90 = .ok j := ⟨_, rfl⟩
  unfold angleDicOf
  rw [n1, Py.ok_bind, n2, Py.ok_bind, n3, Py.ok_bind, n4, Py.ok_bind]
  exact ⟨_, rfl⟩

/-- The full claim is false: a calibration is saved while `angle_dic` is being calculated.  Both the earlier and the new calibration have
four different pixels for the four directions, but the result has one pixel for two of them. -/
theorem C141_full_claim_false (pick : Finset Nat → Nat) (hpick : ∀ S : Finset Nat, S.Nonempty → pick S ∈ S) :
    ∃ (s s₀ s₁ : DiskState) (L : Listing ℝ) (d : DemodObject) (k : Nat), IsGlobListing s.cwd s.fs "cal".toList L ∧
      s.demodulator "cal".toList L = .ok d ∧
      s₀ = s.after [.change "/cal/phases.fits".toList (some (.fits phasesBefore))] ∧
      s₁ = s₀.after [.change "/cal/phases.fits".toList (some (.fits phasesAfter))] ∧
      d.angleDic pick (fun _ => s₀) = .ok [(0, 0), (45, 1), (-45, 2), (90, 3)] ∧
      d.angleDic pick (fun _ => s₁) = .ok [(0, 3), (45, 2), (-45, 1), (90, 0)] ∧
      d.angleDic pick ![s₀, s₀, s₁, s₁] = .ok [(0, 0), (45, 1), (-45, 0), (90, k)] := by
  obtain ⟨maps, final, h, h1, h2, -, -⟩ := runDisk_final
  have hw : OpenWay [] runDisk "cal".toList := runDisk_open (x := "cal".toList) (by decide) (by decide)
  obtain ⟨final', g1, g2⟩ := C140_stays_partial (dir := "cal".toList) (by simp) (by decide) hw
    (runDisk_clean (by decide) (x := "cal".toList) (by decide) (by decide)) (by rfl) h
  have : final' = final := Option.some.inj (g1.symm.trans h1)
  subst this
  obtain ⟨d, d1, -⟩ := g2 [] "cal".toList (by simp) (by decide) (by unfold PlainName; decide) rfl _ h2
  have hpath : d.path = "cal".toList := by
    unfold DiskState.demodulator at d1
    obtain ⟨t, -, ht⟩ := Py.bind_eq_ok.1 d1
    injection ht with ht
    rw [← ht]
  let p : Name := "/cal/phases.fits".toList
  let s₀ : DiskState := (DiskState.mk [] final').after [.change p (some (.fits phasesBefore))]
  let s₁ : DiskState := s₀.after [.change p (some (.fits phasesAfter))]
  have r0 : d.phi s₀ = .ok phasesBefore := by
    have : s₀.fs.file (abspath s₀.cwd (d.path ++ '/' :: "phases.fits".toList)) = some (.fits phasesBefore) := by
      have hfile : ∀ q, s₀.fs.file q = if q = p then some (.fits phasesBefore) else final'.file q := fun _ => rfl
      rw [hpath, hfile]
      exact if_pos rfl
    unfold DemodObject.phi DemodObject.readMap readLive FileSystem.folderAt
    rw [this]
  have r1 : d.phi s₁ = .ok phasesAfter := by
    have : s₁.fs.file (abspath s₁.cwd (d.path ++ '/' :: "phases.fits".toList)) = some (.fits phasesAfter) := by
      have hfile : ∀ q, s₁.fs.file q = if q = p then some (.fits phasesAfter) else s₀.fs.file q := fun _ => rfl
      rw [hpath, hfile]
      exact if_pos rfl
    unfold DemodObject.phi DemodObject.readMap readLive FileSystem.folderAt
    rw [this]
  obtain ⟨k, hk⟩ := dic_torn (pick := pick)
  refine ⟨⟨[], final'⟩, s₀, s₁, _, d, k, h2, d1, rfl, rfl, ?_, ?_, ?_⟩
  · rw [C141_one_partial fun _ => r0, dic_before hpick]
  · rw [C141_one_partial fun _ => r1, dic_after hpick]
  · rw [C141_torn (phi := ![phasesBefore, phasesBefore, phasesAfter, phasesAfter]) (h := 2) (w := 2), hk]
    · intro k; fin_cases k <;> exact ⟨rfl, rfl⟩
    · intro k
      fin_cases k
      · exact r0
      · exact r0
      · exact r1
      · exact r1

/-- `C141_layout`: the sensor before it was turned, while other files change. -/
example (hpick : ∀ S : Finset Nat, S.Nonempty → pick S ∈ S) (t : Demodulator ℝ) (fs : FileSystem)
    (h : fs.file "/cal/phases.fits".toList = some (.fits phasesBefore)) :
    (DemodObject.mk "cal".toList t).angleDic pick (fun k => (DiskState.mk [] fs).after (List.replicate k.val (.change "/a".toList none))) =
      .ok [(0, 0), (45, 1), (-45, 2), (90, 3)] := by
  refine C141_layout hpick (phi := phasesBefore) (m := 1) (n := 1) (by decide) (by decide) ⟨rfl, rfl⟩ (L := ⟨0, 1, 2, 3⟩)
    ⟨by decide, by decide, by decide, by decide, by decide, by decide⟩
    ⟨⟨0, by norm_num [placeMean, phasesBefore, Img.ofFn_px', abs_lt]⟩, ⟨0, by norm_num [placeMean, phasesBefore, Img.ofFn_px', abs_lt]⟩,
     ⟨0, by norm_num [placeMean, phasesBefore, Img.ofFn_px', abs_lt]⟩, ⟨0, by norm_num [placeMean, phasesBefore, Img.ofFn_px', abs_lt]⟩⟩ h _ ?_
  intro k
  constructor
  · intro c hc
    have := List.eq_of_mem_replicate hc
    injection this with this
    exact absurd (show "/cal/phases.fits".toList = "/a".toList from this) (by decide)
  · intro D hD
    have := List.eq_of_mem_replicate hD
    cases this

end Micropol
