import Verif.Lemmas.ObjectMask
import Verif.Props.Stokes

/-!
# Properties of histories: C40, C41, C45

`runOps ops` is the state after the calls `ops`, `step` makes one more call.  Images are objects; `s.images` are the ones
the user holds.
-/

set_option autoImplicit false

namespace Micropol

open Classical

/-- Calls only add images. -/
theorem C40_images_kept (ops : List Op) (o : Op) :
    ∃ l, (step (runOps ops) o).images = (runOps ops).images ++ l := by
  rcases step_images (runOps ops) o with h | ⟨n, -, h⟩
  · exact ⟨[], by rw [h, List.append_nil]⟩
  · exact ⟨[n], h⟩

/-- C40: after any history, a call changes the pixel data of no image, except of the one an in place operation is called
on. -/
theorem C40_data_kept (ops : List Op) (o : Op) (k : Nat) (hk : k ∈ (runOps ops).images)
    (hno : ¬ (o.inPlace = true ∧ o.CalledOn (runOps ops) k)) :
    (step (runOps ops) o).data k = (runOps ops).data k :=
  step_data_old (runOps_valid ops) o ((runOps_valid ops).2 k hk) hno

/-- C40: `demosaic` changes no pixel data at all. -/
theorem C40_demosaic (ops : List Op) (i : Nat) (mode : String) (k : Nat) (hk : k ∈ (runOps ops).images) :
    (step (runOps ops) (.demosaic i mode)).data k = (runOps ops).data k := by
  by_cases hc : (Op.demosaic i mode).CalledOn (runOps ops) k
  · obtain ⟨j, hsrc, hj⟩ := hc
    have h := (exec_place_value hsrc hj rfl).2
    have h' := congrArg ImgView.data h
    unfold State.data
    rw [step_heap]
    refine h'.trans ?_
    show (demosaicV mode _).2.data = _
    unfold demosaicV withVal
    split
    · dsimp only
      unfold updateStokesV withVal
      dsimp only
      split <;> rfl
    · rfl
  · exact C40_data_kept ops _ k hk fun h => hc h.2

/-- C40, over any continuation: as long as no in place operation is called on an image, its pixel data stay what they
are. -/
theorem C40_history (ops ops' : List Op) (k : Nat) (hk : k ∈ (runOps ops).images)
    (hno : ∀ pre o post, ops' = pre ++ o :: post → ¬ (o.inPlace = true ∧ o.CalledOn (runOps (ops ++ pre)) k)) :
    k ∈ (runOps (ops ++ ops')).images ∧ (runOps (ops ++ ops')).data k = (runOps ops).data k := by
  induction ops' using List.reverseRecOn with
  | nil => rw [List.append_nil]; exact ⟨hk, rfl⟩
  | append_singleton l o ih =>
    obtain ⟨h1, h2⟩ := ih fun pre o' post he => hno pre o' (post ++ [o]) (by rw [he]; simp)
    rw [← List.append_assoc, runOps_snoc]
    refine ⟨?_, ?_⟩
    · obtain ⟨t, ht⟩ := C40_images_kept (ops ++ l) o
      rw [ht]
      exact List.mem_append_left _ h1
    · rw [← h2]
      exact C40_data_kept _ o k h1 (hno l o [] rfl)

/-! ## C41 -/

/-- C41, the part that holds: after any history, a call other than `rotate` and `mask_occulter` changes the Stokes
parameters of no image, except of the one an in place operation is called on. -/
theorem C41_stokes_kept_partial (ops : List Op) (o : Op) (hrot : ∀ i rot, o ≠ .rotate i rot)
    (hmask : ∀ i y x r over fill, o ≠ .maskOcculter i y x r over fill) (k : Nat) (hk : k ∈ (runOps ops).images)
    (hno : ¬ (o.inPlace = true ∧ o.CalledOn (runOps ops) k)) :
    (step (runOps ops) o).stokes k = (runOps ops).stokes k := by
  rcases step_view_old (runOps_valid ops) o ((runOps_valid ops).2 k hk) hno with h | ⟨hw, -⟩
  · exact congrArg (fun v => v.stokes.planes) h
  · cases o with
    | rotate i rot => exact absurd rfl (hrot i rot)
    | maskOcculter i y x r over fill => exact absurd rfl (hmask i y x r over fill)
    | _ => cases hw

/-- A 2 × 4 image: a dark superpixel and a bright one. -/
noncomputable def darkBright : Img ℝ := Img.ofFn 2 4 (fun _ x => if x < 2 then 0 else 1)

/-- Rotation by 180°. -/
noncomputable def halfTurn (A : Img ℝ) : Py (Img ℝ) :=
  .ok (Img.ofFn A.h A.w (fun y x => A.px (A.h - 1 - y) (A.w - 1 - x)))

/-- The Stokes maps of the example. -/
theorem darkBright_stokes : ∃ S, dataStokes darkBright polarCamAngles = .ok S ∧ (∀ i, (S i).h = 1 ∧ (S i).w = 2) ∧
    (S 0).px 0 0 = 0 ∧ (S 0).px 0 1 = 2 := by
  obtain ⟨S, h1, h2, h3⟩ := C17_stokes darkBright rfl rfl ⟨0, 1, 2, 3⟩ polarCamAngles C02_polarCam.1
  refine ⟨S, h1, h2, ?_, ?_⟩
  · rw [(h3 0 0 (by decide) (by decide)).1]
    simp [darkBright, Img.ofFn_px]
  · rw [(h3 0 1 (by decide) (by decide)).1]
    simp [darkBright, Img.ofFn_px]
    norm_num

/-- The state after `img = MicropolImage(darkBright)`. -/
theorem darkBright_run : ∃ S, dataStokes darkBright polarCamAngles = .ok S ∧ (∀ i, (S i).h = 1 ∧ (S i).w = 2) ∧
    (S 0).px 0 0 = 0 ∧ (S 0).px 0 1 = 2 ∧
    runOps [.fromArray darkBright none none none fun _ _ => 0] = ⟨arrayHeap darkBright S none initState.heap, [0]⟩ := by
  obtain ⟨S, h1, h2, h3, h4⟩ := darkBright_stokes
  refine ⟨S, h1, h2, h3, h4, ?_⟩
  exact (runOps_snoc [] _).trans (step_fromArray (s := initState) darkBright none (fun _ _ => 0) h1)

theorem rotateData_halfTurn {d : Img ℝ} (hh : d.h % 2 = 0) (hw : d.w % 2 = 0) : ∃ r, rotateData halfTurn d = .ok r := by
  unfold rotateData mapFour
  rw [split_ok hh hw, Py.ok_bind]
  have hs : ∀ A : Img ℝ, (halfTurn A >>= fun B => assignPlane A.h A.w B) = .ok (Img.ofFn A.h A.w
      (fun y x => A.px (A.h - 1 - y) (A.w - 1 - x))) := by
    intro A
    unfold halfTurn
    rw [Py.ok_bind]
    exact assignPlane_same ⟨rfl, rfl⟩
  simp only [hs, Py.ok_bind, Py.pure_eq]
  refine ⟨_, merge_ok (h := d.h / 2) (w := d.w / 2) ?_ ?_⟩
  · intro k; fin_cases k <;> rfl
  · intro k; fin_cases k <;> rfl

theorem rewriteV_halfTurn (sv : StokesVec) : rewriteV halfTurn sv = (.ok (), ⟨fun k => Img.ofFn (sv.planes k).h
    (sv.planes k).w (fun y x => (sv.planes k).px ((sv.planes k).h - 1 - y) ((sv.planes k).w - 1 - x)), sv.isList⟩) :=
  rewriteV_ok (fun _ => rfl) (fun _ => rfl) (fun _ => rfl)

/-- C41, violation 1: `rotate` is documented to return a new image, but it overwrites the Stokes maps of the source. -/
theorem C41_rotate_overwrites_source : ∃ (ops : List Op) (o : Op) (k : Nat), k ∈ (runOps ops).images ∧
    o.inPlace = false ∧ (step (runOps ops) o).stokes k ≠ (runOps ops).stokes k := by
  obtain ⟨S, hS, hsh, h0, h1, hrun⟩ := darkBright_run
  refine ⟨[.fromArray darkBright none none none fun _ _ => 0], .rotate 0 halfTurn, 0, ?_, rfl, ?_⟩
  · rw [hrun]; exact List.mem_singleton.2 rfl
  · have hv := runOps_valid [.fromArray darkBright none none none fun _ _ => 0]
    have hc : (Op.rotate 0 halfTurn).CalledOn (runOps [.fromArray darkBright none none none fun _ _ => 0]) 0 :=
      ⟨0, rfl, by rw [hrun]; rfl⟩
    have hcell := shared_cell hv (o := .rotate 0 halfTurn) rfl hc
    have hview : (runOps [.fromArray darkBright none none none fun _ _ => 0]).heap.view 0 =
        freshView darkBright S polarCamAngles := by
      rw [hrun]
      exact arrayHeap_view darkBright S none initState.heap
    have hobj := (step_frame hv (.rotate 0 halfTurn)).obj 0 (hv.2 0 (by rw [hrun]; exact List.mem_singleton.2 rfl))
      (fun h => by cases h.1)
    have hnew : (step (runOps [.fromArray darkBright none none none fun _ _ => 0]) (.rotate 0 halfTurn)).stokes 0 =
        (rotateV halfTurn (freshView darkBright S polarCamAngles)).2.stokes.planes := by
      unfold State.stokes Heap.stokesOf
      rw [hobj, hcell, hview]
      rfl
    have hold : (runOps [.fromArray darkBright none none none fun _ _ => 0]).stokes 0 = S :=
      congrArg (fun v => v.stokes.planes) hview
    rw [hnew, hold]
    obtain ⟨r, hr⟩ := rotateData_halfTurn (d := darkBright) rfl rfl
    have hval : (rotateV halfTurn (freshView darkBright S polarCamAngles)).2.stokes.planes = fun k => Img.ofFn (S k).h (S k).w
        (fun y x => (S k).px ((S k).h - 1 - y) ((S k).w - 1 - x)) := by
      unfold rotateV freshView
      dsimp only
      rw [hr]
      unfold withVal rewriteStokesV andThen
      dsimp only
      rw [rewriteV_halfTurn ⟨S, false⟩]
    rw [hval]
    intro heq
    have hpx := congrArg (fun A => A.px 0 0) (congrFun heq 0)
    rw [Img.ofFn_px (by rw [(hsh 0).1]; decide) (by rw [(hsh 0).2]; decide), (hsh 0).1, (hsh 0).2, h0, h1] at hpx
    norm_num at hpx

/-- C41, violation 2: masking the occulter in a copy masks the Stokes maps of the original. -/
theorem C41_mask_changes_original : ∃ (ops : List Op) (o : Op) (k : Nat), k ∈ (runOps ops).images ∧
    ¬ o.CalledOn (runOps ops) k ∧ (step (runOps ops) o).stokes k ≠ (runOps ops).stokes k := by
  obtain ⟨S, hS, hsh, h0, h1, hrun⟩ := darkBright_run
  set mk : Op := .fromArray darkBright none none none fun _ _ => 0 with hmk
  have hrun2 : runOps [mk, .fromImage 0 none none none fun _ _ => 0] =
      ⟨copyHeap 0 none (arrayHeap darkBright S none initState.heap), [0, 1]⟩ := by
    have : runOps [mk, .fromImage 0 none none none fun _ _ => 0] = step (runOps [mk]) (.fromImage 0 none none none fun _ _ => 0) :=
      runOps_snoc [mk] _
    rw [this, hrun, step_fromImage (k := 0) rfl]
    rfl
  have hv := runOps_valid [mk, .fromImage 0 none none none fun _ _ => 0]
  refine ⟨[mk, .fromImage 0 none none none fun _ _ => 0], .maskOcculter 1 0 0 100 0 7, 0, ?_, ?_, ?_⟩
  · rw [hrun2]; simp
  · rintro ⟨i, hsrc, hi⟩
    cases hsrc
    rw [hrun2] at hi
    cases hi
  · have hc : (Op.maskOcculter 1 0 0 100 0 7).CalledOn (runOps [mk, .fromImage 0 none none none fun _ _ => 0]) 1 :=
      ⟨1, rfl, by rw [hrun2]; rfl⟩
    have hview1 : (runOps [mk, .fromImage 0 none none none fun _ _ => 0]).heap.view 1 =
        freshView darkBright S polarCamAngles := by
      rw [hrun2]
      exact (copyHeap_view_new 0 none (arrayHeap darkBright S none initState.heap)).trans
        (arrayHeap_view darkBright S none initState.heap)
    have hview0 : (runOps [mk, .fromImage 0 none none none fun _ _ => 0]).heap.view 0 =
        freshView darkBright S polarCamAngles := by
      rw [hrun2]
      exact (copyHeap_view_old 0 none (arrayHeap darkBright S none initState.heap) (Nat.zero_lt_one)).trans
        (arrayHeap_view darkBright S none initState.heap)
    have href : ((runOps [mk, .fromImage 0 none none none fun _ _ => 0]).heap.objs.cell 0).stokes =
        ((runOps [mk, .fromImage 0 none none none fun _ _ => 0]).heap.objs.cell 1).stokes := by
      rw [hrun2]
      rfl
    have hcell := shared_cell hv (o := .maskOcculter 1 0 0 100 0 7) rfl hc
    have hobj := (step_frame hv (.maskOcculter 1 0 0 100 0 7)).obj 0 (hv.2 0 (by rw [hrun2]; simp)) (by
      rintro ⟨-, i, hsrc, hi⟩
      cases hsrc
      rw [hrun2] at hi
      cases hi)
    have hnew : (step (runOps [mk, .fromImage 0 none none none fun _ _ => 0]) (.maskOcculter 1 0 0 100 0 7)).stokes 0 =
        (maskOcculterV 0 0 100 0 7 (freshView darkBright S polarCamAngles)).2.stokes.planes := by
      unfold State.stokes Heap.stokesOf
      rw [hobj, href, hcell, hview1]
      rfl
    have hold : (runOps [mk, .fromImage 0 none none none fun _ _ => 0]).stokes 0 = S :=
      congrArg (fun v => v.stokes.planes) hview0
    rw [hnew, hold]
    have hhalf : ∀ k, (S k).h = darkBright.h / 2 ∧ (S k).w = darkBright.w / 2 := hsh
    obtain ⟨d', S', hval, -, hsel⟩ := maskOcculterV_plain (v := freshView darkBright S polarCamAngles) rfl
      (show darkBright.h % 2 = 0 from rfl) (show darkBright.w % 2 = 0 from rfl) hhalf
      0 0 100 0 7
    rw [hval]
    intro heq
    have h50 : pyInt (((100 : ℝ) + 0) / 2) = 50 := trunc_unique (pyInt_trunc _) (by unfold IsTrunc; norm_num)
    have hpx := ((hsel 0).2.2 0 0 (by show 0 < (S 0).h; rw [(hsh 0).1]; decide)
      (by show 0 < (S 0).w; rw [(hsh 0).2]; decide)).2 (by
        rintro ⟨ρ, φ, -, g1, g2, -⟩
        rw [h50] at g1
        have hmax : ((max darkBright.h darkBright.w : Nat) : ℝ) = 4 := by
          have : max darkBright.h darkBright.w = 4 := rfl
          rw [this]; norm_num
        have g2' : ρ ≤ ((max darkBright.h darkBright.w : Nat) : ℝ) := g2
        rw [hmax] at g2'
        norm_num at g1
        linarith)
    have heq0 : S' 0 = S 0 := congrFun heq 0
    rw [heq0, h0] at hpx
    norm_num at hpx

/-! ## C45 -/

/-- C45: an image built from an array has the dictionary given, or the one most recently set as default, or PolarCam's. -/
theorem C45_constructed (ops : List Op) (d : Img ℝ) (dic : Option AngleDic) (dark flat : Option Nat)
    (junk : Nat → Nat → ℝ) (n : Nat)
    (hn : (step (runOps ops) (.fromArray d dic dark flat junk)).images = (runOps ops).images ++ [n]) :
    (step (runOps ops) (.fromArray d dic dark flat junk)).dic n = dic.getD ((lastDefault ops).getD polarCamAngles) := by
  rcases step_images (runOps ops) (.fromArray d dic dark flat junk) with h | ⟨n', hn', h⟩
  · rw [h] at hn
    exact absurd hn (by simp)
  · rw [h] at hn
    have hnn : n' = n := by simpa using hn
    subst hnn
    obtain ⟨h1, h2⟩ := exec_fromArray (runOps_valid ops) d dic dark flat junk ((runOps ops).heap.view 0)
    rw [hn'] at h1
    cases hx : (fromArrayV (runOps ops) d dic dark flat junk ((runOps ops).heap.view 0)).1 with
    | error e => rw [hx] at h1; cases h1
    | ok u =>
      rw [hx] at h1
      injection h1 with h1
      injection h1 with h1
      have hview := congrArg ImgView.dic (h2 hx)
      rw [fromArrayV_dic _ _ _ _ _ _ _ hx, ← h1] at hview
      unfold State.dic
      rw [step_heap]
      refine hview.trans ?_
      cases dic with
      | some e => rfl
      | none => rw [dicVal_none, run_next]; rfl

/-- C45: no call, in particular no later `set_default_angles`, changes the dictionary of an existing image. -/
theorem C45_kept (ops : List Op) (o : Op) (k : Nat) (hk : k ∈ (runOps ops).images) :
    (step (runOps ops) o).dic k = (runOps ops).dic k :=
  (step_frame (runOps_valid ops) o).dic k ((runOps_valid ops).2 k hk)

/-- C45: copies and all other images derived from an image keep its dictionary (a dictionary passed along with an image is
ignored). -/
theorem C45_derived (ops : List Op) (o : Op) (i k n : Nat) (hsrc : o.source = some i)
    (hk : (runOps ops).images[i]? = some k)
    (hn : (step (runOps ops) o).images = (runOps ops).images ++ [n]) :
    (step (runOps ops) o).dic n = (runOps ops).dic k := by
  rcases step_images (runOps ops) o with h | ⟨n', hn', h⟩
  · rw [h] at hn
    exact absurd hn (by simp)
  · rw [h] at hn
    have hnn : n' = n := by simpa using hn
    subst hnn
    have := congrArg ImgView.dic (returned_value (runOps_valid ops) hn' hsrc hk)
    rw [value_dic] at this
    exact this

/-- A default set earlier is used, and a default reset to `None` means PolarCam again. -/
example (e : AngleDic) (i : Nat) (b : Int) : lastDefault [.setDefault (some e), .rebin i b] = some e := by
  simp [lastDefault]
example (e : AngleDic) : lastDefault [.setDefault (some e), .setDefault none] = none := by
  simp [lastDefault]

/-- A history as in the theorems: an image, a copy that shares everything, and a call on the copy. -/
example : ∃ S, runOps [.fromArray darkBright none none none fun _ _ => 0, .fromImage 0 none none none fun _ _ => 0] =
    ⟨copyHeap 0 none (arrayHeap darkBright S none initState.heap), [0, 1]⟩ := by
  obtain ⟨S, hS, hsh, h0, h1, hrun⟩ := darkBright_run
  refine ⟨S, ?_⟩
  have := runOps_snoc [.fromArray darkBright none none none fun _ _ => 0] (.fromImage 0 none none none fun _ _ => 0)
  refine this.trans ?_
  rw [hrun, step_fromImage (k := 0) rfl]
  rfl

end Micropol
