import Verif.Spec.Disk
import Verif.Lemmas.Save
import Verif.Lemmas.Load
import Verif.Lemmas.ObjectDefault
import Verif.Lemmas.ObjectShape

/-!
# Facts about programs that save and load images
-/

set_option autoImplicit false

namespace Micropol

noncomputable section

variable {cwd : List Name} {c : Clock} {fs : FileSystem}

theorem diskRun_snoc (ops : List DiskOp) (o : DiskOp) : diskRun cwd c fs (ops ++ [o]) = diskStep cwd c (diskRun cwd c fs ops) o := by
  unfold diskRun
  rw [List.foldl_append]
  rfl

theorem diskRun_append (ops post : List DiskOp) :
    diskRun cwd c fs (ops ++ post) = post.foldl (diskStep cwd c) (diskRun cwd c fs ops) := by
  unfold diskRun
  rw [List.foldl_append]

theorem components_good (p : Name) : ∀ x ∈ components p, x ≠ [] ∧ x ≠ ['.'] ∧ '/' ∉ x := by
  intro y hy
  unfold components at hy
  rw [List.mem_filter] at hy
  simp only [decide_eq_true_eq] at hy
  exact ⟨hy.2.1, hy.2.2, splitChar_mem y hy.1⟩

theorem absComponents_good (hcwd : ∀ x ∈ cwd, GoodComp x) (p : Name) : ∀ x ∈ absComponents cwd p, x ≠ [] ∧ x ≠ ['.'] ∧ '/' ∉ x := by
  intro x hx
  unfold absComponents at hx
  split_ifs at hx
  · exact components_good p x hx
  · rcases List.mem_append.1 hx with h | h
    · exact ⟨(hcwd x h).1, (hcwd x h).2.1, (hcwd x h).2.2.2⟩
    · exact components_good p x h

theorem abspath_absolute (hcwd : ∀ x ∈ cwd, GoodComp x) (p : Name) : abspath [] (absoluteName cwd p) = abspath cwd p := by
  have e : absComponents [] (absoluteName cwd p) = absComponents cwd p := by
    conv_lhs => unfold absComponents
    rw [if_pos (by rfl)]
    exact components_pathString (absComponents_good hcwd p)
  unfold abspath
  rw [e]

theorem limited_fixTo (fixto : Option (ℝ × ℝ)) (d : Img ℝ) : fixTo fixto d = limited fixto d := by
  cases fixto <;> rfl

theorem save_cases (hcwd : ∀ x ∈ cwd, GoodComp x) (d : Img ℝ) (fixto : Option (ℝ × ℝ)) (name : Name) :
    ((∃ e, (saveAsFits cwd fs d fixto name).result = .error e) ∧ ∀ s ∈ (saveAsFits cwd fs d fixto name).states, s.file = fs.file) ∨
    ∃ fs' : FileSystem, fs'.file = fs.file ∧ saveAsFits cwd fs d fixto name = ⟨.ok (), [fs, fs', fs'.put (abspath cwd name) none,
      fs'.put (abspath cwd name) (some .incomplete), fs'.put (abspath cwd name) (some (.fits (limited fixto d)))]⟩ := by
  unfold saveAsFits
  split_ifs with h1
  · exact Or.inl ⟨⟨_, rfl⟩, by simp⟩
  · cases h2 : fs.mkParents (resolveDots (absComponents cwd name).dropLast) with
    | error e => exact Or.inl ⟨⟨_, rfl⟩, by simp⟩
    | ok fs' =>
      have hf : fs'.file = fs.file := by
        unfold FileSystem.mkParents at h2
        split_ifs at h2
        rw [← Except.ok.inj h2]
      dsimp only
      unfold writeMany writeFits
      by_cases h3 : fs'.dir (dirName [] (absoluteName cwd name))
      · refine Or.inr ⟨fs', hf, ?_⟩
        rw [if_pos h3, abspath_absolute hcwd, limited_fixTo]
        rfl
      · refine Or.inl ⟨⟨_, by rw [if_neg h3]⟩, ?_⟩
        rw [if_neg h3]
        intro s hs
        simp only [List.mem_cons, List.not_mem_nil, or_false] at hs
        rcases hs with rfl | rfl
        · rfl
        · exact hf

/-- The states of a save differ at most in that file. -/
theorem saving_frame (hcwd : ∀ x ∈ cwd, GoodComp x) (p : Program) (i : Nat) (name : Name) (fixto : Option (ℝ × ℝ)) {q : Name}
    (hq : q ≠ abspath cwd name) : ∀ s ∈ (saving cwd p i name fixto).states, s.file q = p.files.file q := by
  unfold saving
  cases p.mem.images[i]? with
  | none => simp
  | some k =>
    dsimp only
    rcases save_cases (fs := p.files) hcwd (p.mem.heap.dataOf k) fixto name with ⟨-, h⟩ | ⟨fs', hf, h⟩
    · intro s hs
      rw [h s hs]
    · rw [h]
      intro s hs
      simp only [List.mem_cons, List.not_mem_nil, or_false] at hs
      rcases hs with rfl | rfl | rfl | rfl | rfl
      · rfl
      · rw [hf]
      all_goals
        unfold FileSystem.put
        dsimp only
        rw [if_neg hq, hf]

/-- One event leaves the other files alone. -/
theorem diskStep_frame (hcwd : ∀ x ∈ cwd, GoodComp x) (p : Program) (o : DiskOp) {q : Name} (hq : o.target cwd ≠ some q) :
    (diskStep cwd c p o).files.file q = p.files.file q := by
  cases o with
  | call o => rfl
  | load arg dic dark flat average dates junk => rfl
  | restart => rfl
  | save i name fixto =>
    have hne : q ≠ abspath cwd name := fun e => hq (by rw [e]; rfl)
    unfold diskStep
    dsimp only
    cases h : (saving cwd p i name fixto).states.getLast? with
    | none => rfl
    | some s => exact saving_frame hcwd p i name fixto hne s (List.mem_of_getLast? h)
  | crash i name fixto moment =>
    have hne : q ≠ abspath cwd name := fun e => hq (by rw [e]; rfl)
    unfold diskStep
    dsimp only
    cases h : (saving cwd p i name fixto).states[moment]? with
    | none => rfl
    | some s => exact saving_frame hcwd p i name fixto hne s (List.mem_of_getElem? h)

theorem diskRun_frame (hcwd : ∀ x ∈ cwd, GoodComp x) (ops post : List DiskOp) {q : Name} (hq : ∀ o ∈ post, o.target cwd ≠ some q) :
    (diskRun cwd c fs (ops ++ post)).files.file q = (diskRun cwd c fs ops).files.file q := by
  induction post using List.reverseRecOn with
  | nil => rw [List.append_nil]
  | append_singleton post o ih =>
    rw [← List.append_assoc, diskRun_snoc, diskStep_frame hcwd _ _ (hq o (by simp)), ih fun o' h => hq o' (by simp [h])]

/-- After a successful save the file is the image. -/
theorem saved_file (hcwd : ∀ x ∈ cwd, GoodComp x) {ops : List DiskOp} {i k : Nat} {name : Name} {fixto : Option (ℝ × ℝ)}
    (hs : CanSave cwd c fs ops i k name fixto) : (diskRun cwd c fs (ops ++ [.save i name fixto])).files.file (abspath cwd name) =
      some (.fits (limited fixto ((diskRun cwd c fs ops).mem.data k))) := by
  obtain ⟨hk, hr⟩ := hs
  rw [diskRun_snoc]
  unfold diskStep saving
  dsimp only
  rw [hk]
  dsimp only
  rcases save_cases (fs := (diskRun cwd c fs ops).files) hcwd ((diskRun cwd c fs ops).mem.data k) fixto name with ⟨⟨e, h⟩, -⟩ | ⟨fs', hf, h⟩
  · rw [h] at hr; cases hr
  · rw [show (diskRun cwd c fs ops).mem.heap.dataOf k = (diskRun cwd c fs ops).mem.data k from rfl, h]
    simp [FileSystem.put]

/-- The memory is that of some session without a disk. -/
theorem mem_run (ops : List DiskOp) : ∃ ops', (diskRun cwd c fs ops).mem = runOps ops' ∧
    ((∀ o ∈ ops, o.theoretical = true) → ∀ o ∈ ops', o.theoretical = true) := by
  induction ops using List.reverseRecOn with
  | nil => exact ⟨[], rfl, fun _ => by simp⟩
  | append_singleton ops o ih =>
    obtain ⟨ops', h1, h2⟩ := ih
    have key : ∀ (o : DiskOp) (o' : Op), (o.theoretical = true → o'.theoretical = true) → (∀ x ∈ ops ++ [o], x.theoretical = true) →
        ∀ o ∈ ops' ++ [o'], o.theoretical = true := by
      intro o o' hh h x hx
      rcases List.mem_append.1 hx with hx | hx
      · exact h2 (fun o ho => h o (by simp [ho])) x hx
      · rw [List.mem_singleton.1 hx]
        exact hh (h o (by simp))
    rw [diskRun_snoc]
    cases o with
    | call o => exact ⟨ops' ++ [o], by rw [runOps_snoc, ← h1]; rfl, key (.call o) o id⟩
    | save i name fixto => exact ⟨ops', h1, fun h => h2 fun o ho => h o (by simp [ho])⟩
    | restart => exact ⟨[], rfl, fun _ => by simp⟩
    | crash i name fixto moment => exact ⟨[], rfl, fun _ => by simp⟩
    | load arg dic dark flat average dates junk =>
      unfold diskStep loadObj
      dsimp only
      cases h : loadImage (fitsOpen cwd (diskRun cwd c fs ops).files dates) c arg average with
      | ok r =>
        exact ⟨ops' ++ [.fromArray r.data dic dark flat junk], by rw [runOps_snoc, ← h1], key _ _ fun _ => rfl⟩
      | error e =>
        refine ⟨ops' ++ [.fromArray (Img.zeros 1 1) dic none none junk], ?_, key _ _ fun _ => rfl⟩
        rw [runOps_snoc, ← h1]
        dsimp only
        have hrun := newFromArray_run (Img.zeros 1 1) dic (diskRun cwd c fs ops).mem.heap
        have hno : ∃ e, dataStokes (Img.zeros 1 1 : Img ℝ) (dicVal dic (diskRun cwd c fs ops).mem.heap) = .error e := by
          cases hh : dataStokes (Img.zeros 1 1 : Img ℝ) (dicVal dic (diskRun cwd c fs ops).mem.heap) with
          | error e => exact ⟨e, rfl⟩
          | ok S => exact absurd (dataStokes_even hh).1 (by decide)
        obtain ⟨e', he⟩ := hno
        rw [he] at hrun
        dsimp only at hrun
        unfold step exec
        dsimp only
        rw [run_namedOpt_none, run_namedOpt_none, run_of_err hrun]
        rfl

end

end Micropol
