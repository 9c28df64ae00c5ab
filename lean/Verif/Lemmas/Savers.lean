import Verif.Spec.Savers
import Verif.Lemmas.Save
import Mathlib.Logic.Function.Iterate

/-!
# Facts about programs that save at the same time
-/

set_option autoImplicit false

namespace Micropol

noncomputable section

/-! ## Paths -/

/-- A component of a path. -/
def NiceComp (x : Name) : Prop := x ≠ [] ∧ x ≠ ['.'] ∧ '/' ∉ x

theorem absComponents_nice {cwd : List Name} (hcwd : ∀ x ∈ cwd, GoodComp x) (p : Name) : ∀ x ∈ absComponents cwd p, NiceComp x := by
  have hc : ∀ y ∈ components p, NiceComp y := by
    intro y hy
    unfold components at hy
    rw [List.mem_filter] at hy
    simp only [decide_eq_true_eq] at hy
    exact ⟨hy.2.1, hy.2.2, splitChar_mem y hy.1⟩
  intro x hx
  unfold absComponents at hx
  split_ifs at hx
  · exact hc x hx
  · rcases List.mem_append.1 hx with h | h
    · exact ⟨(hcwd x h).1, (hcwd x h).2.1, (hcwd x h).2.2.2⟩
    · exact hc x h

theorem folder_nice {cwd : List Name} (hcwd : ∀ x ∈ cwd, GoodComp x) (p : Name) :
    ∀ x ∈ resolveDots (absComponents cwd p).dropLast, NiceComp x :=
  fun x hx => absComponents_nice hcwd p x (List.dropLast_subset _ (resolveDots_mem hx).1)

theorem nice_inj {a b : List Name} (ha : ∀ x ∈ a, NiceComp x) (hb : ∀ x ∈ b, NiceComp x) (h : pathString a = pathString b) : a = b := by
  rw [← components_pathString ha, h, components_pathString hb]

theorem tree_prefix {fs : FileSystem} (ht : fs.IsTree) {l : List Name} (hl : ∀ x ∈ l, NiceComp x) (hd : fs.dir (pathString l)) :
    ∀ a, a <+: l → fs.dir (pathString a) := by
  induction l using List.reverseRecOn with
  | nil =>
    intro a ha
    rw [List.prefix_nil.1 ha]
    exact hd
  | append_singleton l x ih =>
    intro a ha
    rcases List.prefix_concat_iff.1 ha with rfl | ha
    · exact hd
    · refine ih (fun y hy => hl y (by simp [hy])) ?_ a ha
      have := ht.2 _ hl hd
      rwa [List.dropLast_concat] at this

/-- The disk with one more directory. -/
def FileSystem.withDir (fs : FileSystem) (p : Name) : FileSystem := { fs with dir := fun q => fs.dir q ∨ q = p }

theorem withDir_tree {fs : FileSystem} (ht : fs.IsTree) {l : List Name} (hl : ∀ x ∈ l, NiceComp x)
    (hp : fs.dir (pathString l.dropLast)) : (fs.withDir (pathString l)).IsTree := by
  refine ⟨Or.inl ht.1, ?_⟩
  intro a ha hd
  rcases hd with hd | hd
  · exact Or.inl (ht.2 a ha hd)
  · rw [nice_inj ha hl hd]
    exact Or.inl hp

theorem put_tree {fs : FileSystem} (ht : fs.IsTree) (p : Name) (c : Option Content) : (fs.put p c).IsTree := ht

theorem inits_split {l : List Name} {pre post : List (List Name)} {a : List Name} (h : l.inits = pre ++ a :: post) :
    a <+: l ∧ (a = [] ∧ pre = [] ∨ a.dropLast ∈ pre) ∧ (a.length < l.length ∨ a = l) ∧ ∀ c ∈ pre, c ≠ a := by
  have hget : ∀ i (hi : i < l.inits.length), l.inits[i] = l.take i := fun i hi => List.getElem_inits l i hi
  have hlen : l.inits.length = l.length + 1 := List.length_inits l
  have hi : pre.length < l.inits.length := by rw [h, List.length_append, List.length_cons]; omega
  have ha : a = l.take pre.length := by
    rw [← hget _ hi]
    simp only [h]
    rw [List.getElem_append_right (le_refl _)]
    simp
  have hpl : pre.length ≤ l.length := by omega
  refine ⟨ha ▸ List.take_prefix _ _, ?_, ?_, ?_⟩
  · rcases Nat.eq_zero_or_pos pre.length with h0 | h0
    · left
      rw [ha, h0]
      exact ⟨rfl, List.length_eq_zero_iff.1 h0⟩
    · right
      have hj : pre.length - 1 < l.inits.length := by omega
      have e1 := hget _ hj
      have e2 : l.inits[pre.length - 1] = pre[pre.length - 1]'(by omega) := by
        simp only [h]
        rw [List.getElem_append_left]
      have : a.dropLast = pre[pre.length - 1]'(by omega) := by
        rw [← e2, e1, ha, List.dropLast_eq_take, List.length_take, List.take_take]
        congr 1
        omega
      rw [this]
      exact List.getElem_mem _
  · rcases Nat.lt_or_ge pre.length l.length with h1 | h1
    · left
      rw [ha, List.length_take]
      omega
    · right
      rw [ha, List.take_of_length_le h1]
  · intro c hc e
    obtain ⟨i, hi', rfl⟩ := List.getElem_of_mem hc
    have e2 : l.inits[i]'(by omega) = pre[i] := by
      simp only [h]
      rw [List.getElem_append_left]
    rw [hget] at e2
    have := congrArg List.length (e2.trans (e.trans ha))
    rw [List.length_take, List.length_take] at this
    omega

/-! ## Writing files -/

/-- The files after some have been written. -/
def afterFile (f : Name → Option Content) (ws : List (Name × Img ℝ)) : Name → Option Content :=
  ws.foldl (fun f w q => if q = abspath [] w.1 then some (.fits w.2) else f q) f

/-- The files with one replaced. -/
def setFile (f : Name → Option Content) (p : Name) (c : Option Content) : Name → Option Content := fun q => if q = p then c else f q

theorem afterFile_snoc (f : Name → Option Content) (ws : List (Name × Img ℝ)) (w : Name × Img ℝ) :
    afterFile f (ws ++ [w]) = setFile (afterFile f ws) (abspath [] w.1) (some (.fits w.2)) := by
  unfold afterFile
  rw [List.foldl_append]
  rfl

theorem afterFile_cons (f : Name → Option Content) (ws : List (Name × Img ℝ)) (w : Name × Img ℝ) :
    afterFile f (w :: ws) = afterFile (setFile f (abspath [] w.1) (some (.fits w.2))) ws := rfl

theorem writeMany_cons {fs : FileSystem} {w : Name × Img ℝ} {ws : List (Name × Img ℝ)} (hd : fs.dir (dirName [] w.1)) :
    writeMany fs (w :: ws) = ⟨(writeMany (fs.put (abspath [] w.1) (some (.fits w.2))) ws).result,
      fs :: [fs.put (abspath [] w.1) none, fs.put (abspath [] w.1) (some .incomplete)] ++
        (writeMany (fs.put (abspath [] w.1) (some (.fits w.2))) ws).states⟩ := by
  obtain ⟨p, d⟩ := w
  rw [writeMany]
  unfold writeFits
  rw [if_pos hd]
  rfl

theorem writeMany_fails {fs : FileSystem} {w : Name × Img ℝ} {ws : List (Name × Img ℝ)} (hd : ¬ fs.dir (dirName [] w.1)) :
    writeMany fs (w :: ws) = ⟨.error .fileNotFoundError, [fs]⟩ := by
  obtain ⟨p, d⟩ := w
  rw [writeMany]
  unfold writeFits
  rw [if_neg hd]

theorem writeMany_dirs {ws : List (Name × Img ℝ)} {fs : FileSystem} (h : (writeMany fs ws).result = .ok ()) :
    ∀ w ∈ ws, fs.dir (dirName [] w.1) := by
  induction ws generalizing fs with
  | nil => simp
  | cons w ws ih =>
    by_cases hd : fs.dir (dirName [] w.1)
    · rw [writeMany_cons hd] at h
      intro v hv
      rcases List.mem_cons.1 hv with rfl | hv
      · exact hd
      · exact ih h v hv
    · rw [writeMany_fails hd] at h
      cases h

theorem writeMany_head (fs : FileSystem) (ws : List (Name × Img ℝ)) : fs ∈ (writeMany fs ws).states := by
  cases ws with
  | nil => simp [writeMany]
  | cons w ws =>
    by_cases hd : fs.dir (dirName [] w.1)
    · rw [writeMany_cons hd]; simp
    · rw [writeMany_fails hd]; simp

/-- The moments of writing several files. -/
theorem writeMany_moments {ws : List (Name × Img ℝ)} {fs : FileSystem} (h : ∀ w ∈ ws, fs.dir (dirName [] w.1)) :
    (∀ dn rest, ws = dn ++ rest → ∃ s ∈ (writeMany fs ws).states, s.file = afterFile fs.file dn) ∧
    (∀ dn w rest c, ws = dn ++ w :: rest → c = none ∨ c = some .incomplete →
      ∃ s ∈ (writeMany fs ws).states, s.file = setFile (afterFile fs.file dn) (abspath [] w.1) c) ∧
    ∃ final, (writeMany fs ws).states.getLast? = some final ∧ final.file = afterFile fs.file ws := by
  induction ws generalizing fs with
  | nil =>
    refine ⟨?_, ?_, fs, rfl, rfl⟩
    · intro dn rest e
      obtain ⟨rfl, rfl⟩ := List.append_eq_nil_iff.1 e.symm
      exact ⟨fs, by simp [writeMany], rfl⟩
    · intro dn w rest c e
      simp at e
  | cons w ws ih =>
    have hd := h w (by simp)
    obtain ⟨i1, i2, final, i3, i4⟩ := ih (fs := fs.put (abspath [] w.1) (some (.fits w.2))) (fun v hv => h v (by simp [hv]))
    rw [writeMany_cons hd]
    refine ⟨?_, ?_, final, ?_, i4⟩
    · intro dn rest e
      cases dn with
      | nil => exact ⟨fs, by simp, rfl⟩
      | cons v dn =>
        rw [List.cons_append] at e
        obtain ⟨rfl, e'⟩ := List.cons.inj e
        obtain ⟨s, hs, hf⟩ := i1 dn rest e'
        exact ⟨s, by simp [hs], hf⟩
    · intro dn v rest c e hc
      cases dn with
      | nil =>
        obtain ⟨rfl, rfl⟩ := List.cons.inj e
        rcases hc with rfl | rfl
        · exact ⟨fs.put (abspath [] w.1) none, by simp, rfl⟩
        · exact ⟨fs.put (abspath [] w.1) (some .incomplete), by simp, rfl⟩
      | cons u dn =>
        rw [List.cons_append] at e
        obtain ⟨rfl, e'⟩ := List.cons.inj e
        obtain ⟨s, hs, hf⟩ := i2 dn v rest c e' hc
        exact ⟨s, by simp [hs], hf⟩
    · dsimp only
      rw [List.getLast?_append, i3]
      rfl

/-! ## One program alone -/

/-- One action of one program. -/
def oneStep (x : FileSystem × Proc) : FileSystem × Proc := stepProc x.1 x.2

/-- The program gets from `x` to `y`; at all moments the files are among `A`. -/
def RunsIn (A : (Name → Option Content) → Prop) (x y : FileSystem × Proc) : Prop :=
  ∃ k, oneStep^[k] x = y ∧ ∀ i, i ≤ k → A (oneStep^[i] x).1.file

theorem RunsIn.refl {A : (Name → Option Content) → Prop} {x : FileSystem × Proc} (h : A x.1.file) : RunsIn A x x := by
  refine ⟨0, rfl, ?_⟩
  intro i hi
  rw [Nat.le_zero.1 hi]
  exact h

theorem RunsIn.trans {A : (Name → Option Content) → Prop} {x y z : FileSystem × Proc} (h1 : RunsIn A x y) (h2 : RunsIn A y z) :
    RunsIn A x z := by
  obtain ⟨k, e1, a1⟩ := h1
  obtain ⟨m, e2, a2⟩ := h2
  refine ⟨m + k, by rw [Function.iterate_add_apply, e1, e2], ?_⟩
  intro i hi
  rcases Nat.le_total i k with h | h
  · exact a1 i h
  · obtain ⟨j, rfl⟩ := Nat.exists_eq_add_of_le h
    rw [Nat.add_comm, Function.iterate_add_apply, e1]
    exact a2 j (by omega)

theorem RunsIn.step {A : (Name → Option Content) → Prop} {x y : FileSystem × Proc} (h : oneStep x = y) (hx : A x.1.file)
    (hy : A y.1.file) : RunsIn A x y := by
  refine ⟨1, h, ?_⟩
  intro i hi
  rcases Nat.le_one_iff_eq_zero_or_eq_one.1 hi with rfl | rfl
  · exact hx
  · rw [Function.iterate_one, h]
    exact hy

theorem run_raise {A : (Name → Option Content) → Prop} {fs : FileSystem} (e : PyErr) (rest : List Act) (h : A fs.file) :
    RunsIn A (fs, .ok (.raise e :: rest)) (fs, .error e) := .step rfl h h

theorem run_mkdir_ok {A : (Name → Option Content) → Prop} {fs : FileSystem} {l : List Name} {b : Bool} {rest : List Act} (h : A fs.file)
    (h1 : fs.file (pathString l) = none) (h2 : fs.dir (pathString l) → b = true) (h3 : fs.dir (pathString l.dropLast)) :
    RunsIn A (fs, .ok (.mkdir l b :: rest)) (fs.withDir (pathString l), .ok rest) := by
  refine .step ?_ h h
  show Act.run fs rest (.mkdir l b) = _
  unfold Act.run
  dsimp only
  rw [if_neg]
  · rfl
  · rintro (e | ⟨e1, e2⟩ | e)
    · exact e h1
    · rw [h2 e1] at e2
      cases e2
    · exact e h3

theorem run_mkdir_error {A : (Name → Option Content) → Prop} {fs : FileSystem} {l : List Name} {b : Bool} {rest : List Act} (h : A fs.file)
    (h1 : fs.file (pathString l) ≠ none ∨ (fs.dir (pathString l) ∧ b = false) ∨ ¬ fs.dir (pathString l.dropLast)) :
    RunsIn A (fs, .ok (.mkdir l b :: rest)) (fs, .error .fileNotFoundError) := by
  refine .step ?_ h h
  show Act.run fs rest (.mkdir l b) = _
  unfold Act.run
  dsimp only
  rw [if_pos h1]

/-- The disk with more directories. -/
def FileSystem.withDirs (fs : FileSystem) (l : List (List Name)) : FileSystem :=
  { fs with dir := fun q => fs.dir q ∨ ∃ a ∈ l, q = pathString a }

theorem withDirs_snoc (fs : FileSystem) (l : List (List Name)) (a : List Name) :
    (fs.withDirs l).withDir (pathString a) = fs.withDirs (l ++ [a]) := by
  unfold FileSystem.withDirs FileSystem.withDir
  congr 1
  funext q
  refine propext ⟨?_, ?_⟩
  · rintro ((h | ⟨b, hb, e⟩) | h)
    · exact Or.inl h
    · exact Or.inr ⟨b, by simp [hb], e⟩
    · exact Or.inr ⟨a, by simp, h⟩
  · rintro (h | ⟨b, hb, e⟩)
    · exact Or.inl (Or.inl h)
    · rcases List.mem_append.1 hb with hb | hb
      · exact Or.inl (Or.inr ⟨b, hb, e⟩)
      · rw [List.mem_singleton] at hb
        exact Or.inr (hb ▸ e)

/-- Making the rest of the directories. -/
theorem run_mkdirs {A : (Name → Option Content) → Prop} {fs : FileSystem} (hA : A fs.file) (hroot : fs.dir (pathString []))
    {l : List Name} (hl : ∀ x ∈ l, NiceComp x) {b : Bool} (hb : fs.dir (pathString l) → b = true) (rest : List Act)
    (post : List (List Name)) : ∀ pre, l.inits = pre ++ post →
    ((∀ a ∈ post, fs.file (pathString a) = none) →
      RunsIn A (fs.withDirs pre, .ok (post.map (fun a => .mkdir a (b || decide (a.length < l.length))) ++ rest)) (fs.withDirs l.inits, .ok rest)) ∧
    ((∃ a ∈ post, fs.file (pathString a) ≠ none) → ∃ fs', fs'.file = fs.file ∧
      RunsIn A (fs.withDirs pre, .ok (post.map (fun a => .mkdir a (b || decide (a.length < l.length))) ++ rest))
        (fs', .error .fileNotFoundError)) := by
  induction post with
  | nil =>
    intro pre e
    rw [List.append_nil] at e
    refine ⟨fun _ => ?_, ?_⟩
    · rw [e]
      exact .refl hA
    · rintro ⟨a, ha, _⟩
      cases ha
  | cons a post ih =>
    intro pre e
    obtain ⟨ha, hp, hlen, hnew⟩ := inits_split e
    have hparent : (fs.withDirs pre).dir (pathString a.dropLast) := by
      rcases hp with ⟨rfl, _⟩ | hp
      · exact Or.inl hroot
      · exact Or.inr ⟨_, hp, rfl⟩
    have hflag : (fs.withDirs pre).dir (pathString a) → (b || decide (a.length < l.length)) = true := by
      intro hd
      rcases hlen with h | rfl
      · simp [h]
      · rcases hd with hd | ⟨c, hc, hd⟩
        · simp [hb hd]
        · exfalso
          have hcpre : c <+: a := (List.mem_inits c a).1 (by rw [e]; simp [hc])
          have := nice_inj (fun x hx => hl x hx) (fun x hx => hl x (hcpre.subset hx)) hd
          exact hnew c hc this.symm
    obtain ⟨i1, i2⟩ := ih (pre ++ [a]) (by rw [e]; simp)
    rw [← withDirs_snoc] at i1 i2
    refine ⟨fun hf => ?_, ?_⟩
    · refine .trans (run_mkdir_ok (rest := post.map (fun a => Act.mkdir a (b || decide (a.length < l.length))) ++ rest) hA
        (hf a (by simp)) hflag hparent) (i1 fun c hc => hf c (by simp [hc]))
    · rintro ⟨c, hc, hcf⟩
      by_cases hfa : fs.file (pathString a) = none
      · have : ∃ c ∈ post, fs.file (pathString c) ≠ none := by
          rcases List.mem_cons.1 hc with rfl | hc
          · exact absurd hfa hcf
          · exact ⟨c, hc, hcf⟩
        obtain ⟨fs', h1, h2⟩ := i2 this
        exact ⟨fs', h1, .trans (run_mkdir_ok (rest := post.map (fun a => Act.mkdir a (b || decide (a.length < l.length))) ++ rest) hA
          hfa hflag hparent) h2⟩
      · exact ⟨fs.withDirs pre, rfl, run_mkdir_error (rest := post.map (fun a => Act.mkdir a (b || decide (a.length < l.length))) ++ rest) hA
          (Or.inl hfa)⟩

theorem withDirs_nil (fs : FileSystem) : fs.withDirs [] = fs := by
  unfold FileSystem.withDirs
  simp

theorem mkParents_ok {fs fs' : FileSystem} {l : List Name} (h : fs.mkParents l = .ok fs') :
    (∀ a ∈ l.inits, fs.file (pathString a) = none) ∧ fs' = fs.withDirs l.inits := by
  unfold FileSystem.mkParents at h
  split_ifs at h with hc
  refine ⟨?_, ?_⟩
  · intro a ha
    by_contra hn
    exact hc ⟨a, (List.mem_inits a l).1 ha, hn⟩
  · rw [← Except.ok.inj h]
    unfold FileSystem.withDirs
    simp only [List.mem_inits]

theorem mkParents_error {fs : FileSystem} {l : List Name} {e : PyErr} (h : fs.mkParents l = .error e) :
    (∃ a ∈ l.inits, fs.file (pathString a) ≠ none) ∧ e = .fileNotFoundError := by
  unfold FileSystem.mkParents at h
  split_ifs at h with hc
  obtain ⟨a, h1, h2⟩ := hc
  exact ⟨⟨a, (List.mem_inits a l).2 h1, h2⟩, (Except.error.inj h).symm⟩

theorem run_mkParents {A : (Name → Option Content) → Prop} {fs : FileSystem} (hA : A fs.file) (hroot : fs.dir (pathString []))
    {l : List Name} (hl : ∀ x ∈ l, NiceComp x) {b : Bool} (hb : fs.dir (pathString l) → b = true) (rest : List Act) :
    (∀ fs', fs.mkParents l = .ok fs' → RunsIn A (fs, .ok (mkdirActs l b ++ rest)) (fs', .ok rest)) ∧
    ∀ e, fs.mkParents l = .error e → ∃ fs', fs'.file = fs.file ∧ RunsIn A (fs, .ok (mkdirActs l b ++ rest)) (fs', .error e) := by
  obtain ⟨h1, h2⟩ := run_mkdirs hA hroot hl hb rest l.inits [] rfl
  rw [withDirs_nil] at h1 h2
  refine ⟨?_, ?_⟩
  · intro fs' h
    obtain ⟨h3, rfl⟩ := mkParents_ok h
    exact h1 h3
  · intro e h
    obtain ⟨h3, rfl⟩ := mkParents_error h
    exact h2 h3

open Classical in
theorem run_makeDir {A : (Name → Option Content) → Prop} {cwd : List Name} (hcwd : ∀ x ∈ cwd, GoodComp x) {fs : FileSystem} (hA : A fs.file)
    (hroot : fs.dir (pathString [])) (filename : Name) (rest : List Act) :
    (∀ path fs', makeAbsAndCreateDir cwd fs filename = .ok (path, fs') →
      RunsIn A (fs, .ok (makeDirActs cwd filename ++ rest)) (fs', .ok rest)) ∧
    ∀ e, makeAbsAndCreateDir cwd fs filename = .error e → ∃ fs', fs'.file = fs.file ∧
      RunsIn A (fs, .ok (makeDirActs cwd filename ++ rest)) (fs', .error e) := by
  have hlook : ∀ (l : List Name) (acts rest : List Act), RunsIn A (fs, .ok ((Act.look l acts.length :: acts) ++ rest))
      (fs, .ok (if fs.there (pathString l) then rest else acts ++ rest)) := by
    intro l acts rest
    refine .step ?_ hA hA
    show Act.run fs (acts ++ rest) (.look l acts.length) = _
    unfold Act.run
    dsimp only
    rw [List.drop_left]
  unfold makeAbsAndCreateDir makeDirActs
  dsimp only
  split_ifs with h1 h2 h2
  · obtain ⟨l, hl⟩ : ∃ l, l = resolveDots (absComponents cwd filename).dropLast := ⟨_, rfl⟩
    rw [← hl] at h2 ⊢
    have := hlook l (mkdirActs l false) rest
    rw [if_pos h2] at this
    refine ⟨?_, fun e h => by cases h⟩
    intro path fs' h
    obtain ⟨_, rfl⟩ := Prod.mk.inj (Except.ok.inj h)
    exact this
  · obtain ⟨l, hl⟩ : ∃ l, l = resolveDots (absComponents cwd filename).dropLast := ⟨_, rfl⟩
    have hnice : ∀ x ∈ l, NiceComp x := hl ▸ folder_nice hcwd filename
    rw [← hl] at h2 ⊢
    have := hlook l (mkdirActs l false) rest
    rw [if_neg h2] at this
    obtain ⟨r1, r2⟩ := run_mkParents hA hroot hnice (b := false) (fun hd => absurd (Or.inl hd) h2) rest
    refine ⟨?_, ?_⟩
    · intro path fs' h
      obtain ⟨g, hg, h⟩ := Py.bind_eq_ok.1 h
      obtain ⟨_, rfl⟩ := Prod.mk.inj (Except.ok.inj h)
      exact .trans this (r1 _ hg)
    · intro e h
      cases hg : fs.mkParents l with
      | ok g => rw [hg] at h; cases h
      | error e' =>
        rw [hg] at h
        cases h
        obtain ⟨fs', a, b⟩ := r2 _ hg
        exact ⟨fs', a, .trans this b⟩
  · have := hlook (resolveDots (absComponents cwd filename)) [.mkdir (resolveDots (absComponents cwd filename)) false] rest
    rw [if_pos h2] at this
    refine ⟨?_, fun e h => by cases h⟩
    intro path fs' h
    obtain ⟨_, rfl⟩ := Prod.mk.inj (Except.ok.inj h)
    exact this
  · have := hlook (resolveDots (absComponents cwd filename)) [.mkdir (resolveDots (absComponents cwd filename)) false] rest
    rw [if_neg h2] at this
    have hf : fs.file (pathString (resolveDots (absComponents cwd filename))) = none := by
      by_contra hn
      exact h2 (Or.inr hn)
    unfold FileSystem.mkOne
    by_cases hd : fs.dir (pathString (resolveDots (absComponents cwd filename)).dropLast)
    · rw [if_pos hd]
      refine ⟨?_, fun e h => by cases h⟩
      intro path fs' h
      obtain ⟨_, rfl⟩ := Prod.mk.inj (Except.ok.inj h)
      exact .trans this (run_mkdir_ok hA hf (fun hd => absurd (Or.inl hd) h2) hd)
    · rw [if_neg hd]
      refine ⟨?_, ?_⟩
      · intro path fs' h
        cases h
      intro e h
      cases h
      exact ⟨fs, rfl, .trans this (run_mkdir_error hA (Or.inr (Or.inr hd)))⟩

theorem writeActs_cons (w : Name × Img ℝ) (ws : List (Name × Img ℝ)) : writeActs (w :: ws) =
    .clear (dirName [] w.1) (abspath [] w.1) :: .create (abspath [] w.1) :: .finish (abspath [] w.1) w.2 :: writeActs ws := rfl

theorem run_writes {A : (Name → Option Content) → Prop} (ws : List (Name × Img ℝ)) : ∀ (fs : FileSystem) (rest : List Act),
    (∀ s ∈ (writeMany fs ws).states, A s.file) →
    ∃ final, (writeMany fs ws).states.getLast? = some final ∧
      ((writeMany fs ws).result = .ok () → RunsIn A (fs, .ok (writeActs ws ++ rest)) (final, .ok rest)) ∧
      ∀ e, (writeMany fs ws).result = .error e → RunsIn A (fs, .ok (writeActs ws ++ rest)) (final, .error e) := by
  induction ws with
  | nil =>
    intro fs rest h
    refine ⟨fs, rfl, fun _ => .refl (h fs (by simp [writeMany])), fun e h => by cases h⟩
  | cons w ws ih =>
    intro fs rest h
    by_cases hd : fs.dir (dirName [] w.1)
    · rw [writeMany_cons hd] at h ⊢
      obtain ⟨final, f1, f2, f3⟩ := ih (fs.put (abspath [] w.1) (some (.fits w.2))) rest (fun s hs => h s (by simp [hs]))
      have a0 : A fs.file := h _ (by simp)
      have a1 : A (fs.put (abspath [] w.1) none).file := h _ (by simp)
      have a2 : A (fs.put (abspath [] w.1) (some .incomplete)).file := h _ (by simp)
      have a3 : A (fs.put (abspath [] w.1) (some (.fits w.2))).file :=
        h _ (by simp only [List.mem_append]; exact Or.inr (writeMany_head _ _))
      have s1 : RunsIn A (fs, .ok (writeActs (w :: ws) ++ rest)) (fs.put (abspath [] w.1) none,
          .ok (.create (abspath [] w.1) :: .finish (abspath [] w.1) w.2 :: (writeActs ws ++ rest))) := by
        refine .step ?_ a0 a1
        show Act.run fs _ (.clear (dirName [] w.1) (abspath [] w.1)) = _
        unfold Act.run
        dsimp only
        rw [if_pos hd]
        rfl
      have pp : ∀ c d, (fs.put (abspath [] w.1) c).put (abspath [] w.1) d = fs.put (abspath [] w.1) d := by
        intro c d
        unfold FileSystem.put
        congr 1
        funext q
        dsimp only
        split_ifs <;> rfl
      have s2 : RunsIn A (fs.put (abspath [] w.1) none,
          .ok (.create (abspath [] w.1) :: .finish (abspath [] w.1) w.2 :: (writeActs ws ++ rest)))
          (fs.put (abspath [] w.1) (some .incomplete), .ok (.finish (abspath [] w.1) w.2 :: (writeActs ws ++ rest))) := by
        refine .step ?_ a1 a2
        show Act.run _ _ (.create (abspath [] w.1)) = _
        unfold Act.run
        dsimp only
        rw [pp]
      have s3 : RunsIn A (fs.put (abspath [] w.1) (some .incomplete), .ok (.finish (abspath [] w.1) w.2 :: (writeActs ws ++ rest)))
          (fs.put (abspath [] w.1) (some (.fits w.2)), .ok (writeActs ws ++ rest)) := by
        refine .step ?_ a2 a3
        show Act.run _ _ (.finish (abspath [] w.1) w.2) = _
        unfold Act.run
        dsimp only
        rw [pp]
      refine ⟨final, ?_, fun hr => ((s1.trans s2).trans s3).trans (f2 hr), fun e hr => ((s1.trans s2).trans s3).trans (f3 e hr)⟩
      dsimp only
      rw [List.getLast?_append, f1]
      rfl
    · rw [writeMany_fails hd] at h ⊢
      refine ⟨fs, rfl, ?_, ?_⟩
      · intro h
        cases h
      intro e he
      cases he
      refine .step ?_ (h fs (by simp)) (h fs (by simp))
      show Act.run fs _ (.clear (dirName [] w.1) (abspath [] w.1)) = _
      unfold Act.run
      dsimp only
      rw [if_neg hd]

/-- The directories that a call makes, alone. -/
def SaveCall.makes (cwd : List Name) (fs : FileSystem) (c : SaveCall) : Py FileSystem :=
  if c.isAsFits = true then fs.mkParents (c.folder cwd)
  else match makeAbsAndCreateDir cwd fs c.filename with
    | .error e => .error e
    | .ok x => .ok x.2

/-- The actions with which it makes them. -/
def SaveCall.dirActs (cwd : List Name) (c : SaveCall) : List Act :=
  if c.isAsFits = true then mkdirActs (c.folder cwd) true else makeDirActs cwd c.filename

/-- All calls have the same form: they raise at once, or make directories, write files, and end or raise. -/
theorem call_shape (cwd : List Name) (c : SaveCall) :
    (∃ e, c.acts cwd = [.raise e] ∧ ∀ fs, c.alone cwd fs = ⟨.error e, [fs]⟩) ∨
    ∃ ws r, c.acts cwd = c.dirActs cwd ++ (writeActs ws ++ endActs r) ∧ ∀ fs,
      (∀ e, c.makes cwd fs = .error e → c.alone cwd fs = ⟨.error e, [fs]⟩) ∧
      (∀ g, c.makes cwd fs = .ok g → c.alone cwd fs = ⟨(writeMany g ws).result >>= fun _ => r, fs :: (writeMany g ws).states⟩) := by
  have hu : ∀ t : Trace, (t.result >>= fun _ => (.ok () : Py Unit)) = t.result := by
    intro t
    cases t.result <;> rfl
  have hmk : ∀ (filename : Name) (fs : FileSystem) (k : List Name → FileSystem → Trace) (ws : List (Name × Img ℝ)) (r : Py Unit)
      (m : Py FileSystem), (m = match makeAbsAndCreateDir cwd fs filename with
        | .error e => .error e
        | .ok x => .ok x.2) →
      (∀ g, k (absComponents cwd filename) g = ⟨(writeMany g ws).result >>= fun _ => r, fs :: (writeMany g ws).states⟩) →
      (∀ e, m = .error e → (match makeAbsAndCreateDir cwd fs filename with
        | .error e => ⟨.error e, [fs]⟩
        | .ok (path, fs') => k path fs' : Trace) = ⟨.error e, [fs]⟩) ∧
      (∀ g, m = .ok g → (match makeAbsAndCreateDir cwd fs filename with
        | .error e => ⟨.error e, [fs]⟩
        | .ok (path, fs') => k path fs' : Trace) = ⟨(writeMany g ws).result >>= fun _ => r, fs :: (writeMany g ws).states⟩) := by
    intro filename fs k ws r m hm hk
    cases hx : makeAbsAndCreateDir cwd fs filename with
    | error e =>
      rw [hx] at hm
      refine ⟨?_, ?_⟩
      · intro e' he
        rw [hm] at he
        cases he
        rfl
      · intro g hg
        rw [hm] at hg
        cases hg
    | ok x =>
      obtain ⟨path, fs'⟩ := x
      obtain ⟨_, rfl⟩ := makeAbs_file hx
      rw [hx] at hm
      refine ⟨?_, ?_⟩
      · intro e' he
        rw [hm] at he
        cases he
      · intro g hg
        rw [hm] at hg
        cases hg
        exact hk _
  cases c with
  | singlePol data dic fixto filename =>
    cases hp : (do
        let p0 ← polFamily data dic 0
        let p45 ← polFamily data dic 45
        let p90 ← polFamily data dic 90
        let pm45 ← polFamily data dic (-45)
        pure [(['0'], p0), (['4', '5'], p45), (['9', '0'], p90), (['-', '4', '5'], pm45)] : Py (List (Name × Img ℝ))) with
    | error e =>
      left
      refine ⟨e, ?_, ?_⟩
      · unfold SaveCall.acts
        dsimp only
        rw [hp]
      · intro fs
        show saveSinglePol cwd fs data dic fixto filename = _
        unfold saveSinglePol
        rw [hp]
    | ok pols =>
      right
      by_cases hs : pathSuffix (pathString (absComponents cwd filename)) ≠ fitsExt
      · refine ⟨[], .error .valueError, ?_, ?_⟩
        · unfold SaveCall.acts
          dsimp only
          rw [hp]
          dsimp only
          rw [if_pos hs]
          rfl
        · intro fs
          have := hmk filename fs (fun path fs' => if pathSuffix (pathString path) ≠ fitsExt then ⟨.error .valueError, [fs, fs']⟩
            else
              let t := writeMany fs' (pols.map (fun p => (groupName path ++ ['P', 'O', 'L'] ++ p.1 ++ fitsExt, fixTo fixto p.2)))
              ⟨t.result, fs :: t.states⟩) [] (.error .valueError) _ rfl (fun g => by dsimp only; rw [if_pos hs]; rfl)
          show (∀ e, _ → saveSinglePol cwd fs data dic fixto filename = _) ∧ (∀ g, _ → saveSinglePol cwd fs data dic fixto filename = _)
          unfold saveSinglePol
          rw [hp]
          exact this
      · refine ⟨pols.map (fun p => (groupName (absComponents cwd filename) ++ ['P', 'O', 'L'] ++ p.1 ++ fitsExt, fixTo fixto p.2)),
          .ok (), ?_, ?_⟩
        · unfold SaveCall.acts
          dsimp only
          rw [hp]
          dsimp only
          rw [if_neg hs]
          exact congrArg _ (List.append_nil _).symm
        · intro fs
          have := hmk filename fs (fun path fs' => if pathSuffix (pathString path) ≠ fitsExt then ⟨.error .valueError, [fs, fs']⟩
            else
              let t := writeMany fs' (pols.map (fun p => (groupName path ++ ['P', 'O', 'L'] ++ p.1 ++ fitsExt, fixTo fixto p.2)))
              ⟨t.result, fs :: t.states⟩)
            (pols.map (fun p => (groupName (absComponents cwd filename) ++ ['P', 'O', 'L'] ++ p.1 ++ fitsExt, fixTo fixto p.2)))
            (.ok ()) _ rfl (fun g => by dsimp only; rw [if_neg hs, hu])
          show (∀ e, _ → saveSinglePol cwd fs data dic fixto filename = _) ∧ (∀ g, _ → saveSinglePol cwd fs data dic fixto filename = _)
          unfold saveSinglePol
          rw [hp]
          exact this
  | param S id fixto filename =>
    cases hp : getParam S id with
    | error e =>
      left
      refine ⟨e, ?_, ?_⟩
      · unfold SaveCall.acts
        dsimp only
        rw [hp]
      · intro fs
        show saveParam cwd fs S id fixto filename = _
        unfold saveParam
        rw [hp]
    | ok d =>
      right
      by_cases hs : pathSuffix (pathString (absComponents cwd filename)) ≠ fitsExt
      · refine ⟨[], .error .valueError, ?_, ?_⟩
        · unfold SaveCall.acts
          dsimp only
          rw [hp]
          dsimp only
          rw [if_pos hs]
          rfl
        · intro fs
          have := hmk filename fs (fun path fs' => if pathSuffix (pathString path) ≠ fitsExt then ⟨.error .valueError, [fs, fs']⟩
            else
              let t := writeMany fs' [(pathString (path.dropLast ++ [pathStem path ++ ['_'] ++ id ++ fitsExt]), fixTo fixto d)]
              ⟨t.result, fs :: t.states⟩) [] (.error .valueError) _ rfl (fun g => by dsimp only; rw [if_pos hs]; rfl)
          show (∀ e, _ → saveParam cwd fs S id fixto filename = _) ∧ (∀ g, _ → saveParam cwd fs S id fixto filename = _)
          unfold saveParam
          rw [hp]
          exact this
      · refine ⟨[(pathString ((absComponents cwd filename).dropLast ++ [pathStem (absComponents cwd filename) ++ ['_'] ++ id ++ fitsExt]),
          fixTo fixto d)], .ok (), ?_, ?_⟩
        · unfold SaveCall.acts
          dsimp only
          rw [hp]
          dsimp only
          rw [if_neg hs]
          exact congrArg _ (List.append_nil _).symm
        · intro fs
          have := hmk filename fs (fun path fs' => if pathSuffix (pathString path) ≠ fitsExt then ⟨.error .valueError, [fs, fs']⟩
            else
              let t := writeMany fs' [(pathString (path.dropLast ++ [pathStem path ++ ['_'] ++ id ++ fitsExt]), fixTo fixto d)]
              ⟨t.result, fs :: t.states⟩)
            [(pathString ((absComponents cwd filename).dropLast ++ [pathStem (absComponents cwd filename) ++ ['_'] ++ id ++ fitsExt]),
              fixTo fixto d)]
            (.ok ()) _ rfl (fun g => by dsimp only; rw [if_neg hs, hu])
          show (∀ e, _ → saveParam cwd fs S id fixto filename = _) ∧ (∀ g, _ → saveParam cwd fs S id fixto filename = _)
          unfold saveParam
          rw [hp]
          exact this
  | allParams S filename =>
    by_cases hs : pathSuffix filename ≠ fitsExt
    · left
      refine ⟨.valueError, ?_, ?_⟩
      · unfold SaveCall.acts
        dsimp only
        rw [if_pos hs]
      · intro fs
        show saveAllParams cwd fs S filename = _
        unfold saveAllParams
        rw [if_pos hs]
    · right
      cases hp : polparamList S with
      | error e =>
        refine ⟨[], .error e, ?_, ?_⟩
        · unfold SaveCall.acts
          dsimp only
          rw [if_neg hs, hp]
          rfl
        · intro fs
          have := hmk filename fs (fun path fs' => match polparamList S with
            | .error e => ⟨.error e, [fs, fs']⟩
            | .ok params =>
              let t := writeMany fs' (params.map (fun p => (groupName path ++ ['_'] ++ p.1 ++ fitsExt, p.2)))
              ⟨t.result, fs :: t.states⟩) [] (.error e) _ rfl (fun g => by rw [hp]; rfl)
          show (∀ e, _ → saveAllParams cwd fs S filename = _) ∧ (∀ g, _ → saveAllParams cwd fs S filename = _)
          unfold saveAllParams
          rw [if_neg hs]
          exact this
      | ok params =>
        refine ⟨params.map (fun p => (groupName (absComponents cwd filename) ++ ['_'] ++ p.1 ++ fitsExt, p.2)), .ok (), ?_, ?_⟩
        · unfold SaveCall.acts
          dsimp only
          rw [if_neg hs, hp]
          exact congrArg _ (List.append_nil _).symm
        · intro fs
          have := hmk filename fs (fun path fs' => match polparamList S with
            | .error e => ⟨.error e, [fs, fs']⟩
            | .ok params =>
              let t := writeMany fs' (params.map (fun p => (groupName path ++ ['_'] ++ p.1 ++ fitsExt, p.2)))
              ⟨t.result, fs :: t.states⟩)
            (params.map (fun p => (groupName (absComponents cwd filename) ++ ['_'] ++ p.1 ++ fitsExt, p.2))) (.ok ()) _ rfl
            (fun g => by rw [hp]; dsimp only; rw [hu])
          show (∀ e, _ → saveAllParams cwd fs S filename = _) ∧ (∀ g, _ → saveAllParams cwd fs S filename = _)
          unfold saveAllParams
          rw [if_neg hs]
          exact this
  | demosaiced images entries fixto filename =>
    cases images with
    | none => exact Or.inl ⟨.valueError, rfl, fun _ => rfl⟩
    | some im =>
      by_cases hs : pathSuffix filename = []
      · left
        refine ⟨.valueError, ?_, ?_⟩
        · unfold SaveCall.acts
          dsimp only
          rw [if_pos hs]
        · intro fs
          show saveDemosaiced cwd fs (some im) entries fixto filename = _
          unfold saveDemosaiced
          dsimp only
          rw [if_pos hs]
      · right
        refine ⟨(demosaicedFiles entries (groupName (absComponents cwd filename)) fixto 0 [im 0, im 1, im 2, im 3]).1,
          (demosaicedFiles entries (groupName (absComponents cwd filename)) fixto 0 [im 0, im 1, im 2, im 3]).2, ?_, ?_⟩
        · unfold SaveCall.acts
          dsimp only
          rw [if_neg hs]
          rfl
        · intro fs
          have := hmk filename fs (fun path fs' =>
            let r := demosaicedFiles entries (groupName path) fixto 0 [im 0, im 1, im 2, im 3]
            let t := writeMany fs' r.1
            ⟨t.result >>= fun _ => r.2, fs :: t.states⟩)
            (demosaicedFiles entries (groupName (absComponents cwd filename)) fixto 0 [im 0, im 1, im 2, im 3]).1
            (demosaicedFiles entries (groupName (absComponents cwd filename)) fixto 0 [im 0, im 1, im 2, im 3]).2 _ rfl (fun g => rfl)
          show (∀ e, _ → saveDemosaiced cwd fs (some im) entries fixto filename = _) ∧
            (∀ g, _ → saveDemosaiced cwd fs (some im) entries fixto filename = _)
          unfold saveDemosaiced
          dsimp only
          rw [if_neg hs]
          exact this
  | asFits data fixto filename =>
    by_cases hs : pathSuffix filename ≠ fitsExt
    · left
      refine ⟨.valueError, ?_, ?_⟩
      · unfold SaveCall.acts
        dsimp only
        rw [if_pos hs]
      · intro fs
        show saveAsFits cwd fs data fixto filename = _
        unfold saveAsFits
        rw [if_pos hs]
    · right
      refine ⟨[(absoluteName cwd filename, fixTo fixto data)], .ok (), ?_, ?_⟩
      · unfold SaveCall.acts
        dsimp only
        rw [if_neg hs]
        exact congrArg _ (List.append_nil _).symm
      · intro fs
        show (∀ e, _ → saveAsFits cwd fs data fixto filename = _) ∧ (∀ g, _ → saveAsFits cwd fs data fixto filename = _)
        unfold saveAsFits
        rw [if_neg hs]
        refine ⟨?_, ?_⟩
        · intro e he
          have he : fs.mkParents (resolveDots (absComponents cwd filename).dropLast) = .error e := he
          rw [he]
        · intro g hg
          have hg : fs.mkParents (resolveDots (absComponents cwd filename).dropLast) = .ok g := hg
          rw [hg]
          dsimp only
          rw [hu]

/-- The directory part of a call, alone. -/
theorem run_makes {cwd : List Name} (hcwd : ∀ x ∈ cwd, GoodComp x) {fs : FileSystem} (hroot : fs.dir (pathString [])) (c : SaveCall)
    {A : (Name → Option Content) → Prop} (hA : A fs.file) (rest : List Act) :
    (∀ g, c.makes cwd fs = .ok g → g.file = fs.file ∧ RunsIn A (fs, .ok (c.dirActs cwd ++ rest)) (g, .ok rest)) ∧
    ∀ e, c.makes cwd fs = .error e → ∃ g, g.file = fs.file ∧ RunsIn A (fs, .ok (c.dirActs cwd ++ rest)) (g, .error e) := by
  unfold SaveCall.makes SaveCall.dirActs
  split_ifs with hc
  · obtain ⟨r1, r2⟩ := run_mkParents hA hroot (folder_nice hcwd c.filename) (b := true) (fun _ => rfl) rest
    refine ⟨?_, r2⟩
    intro g hg
    refine ⟨?_, r1 g hg⟩
    rw [(mkParents_ok hg).2]
    rfl
  · obtain ⟨r1, r2⟩ := run_makeDir hcwd hA hroot c.filename rest
    cases hx : makeAbsAndCreateDir cwd fs c.filename with
    | error e =>
      refine ⟨?_, ?_⟩
      · intro g hg
        cases hg
      · intro e' he
        cases he
        exact r2 _ hx
    | ok x =>
      refine ⟨?_, ?_⟩
      · intro g hg
        cases hg
        exact ⟨(makeAbs_file hx).1, r1 _ _ hx⟩
      · intro e' he
        cases he

/-- What a call does alone, in the form in which the programs do it. -/
theorem run_call {cwd : List Name} (hcwd : ∀ x ∈ cwd, GoodComp x) {fs : FileSystem} (hroot : fs.dir (pathString [])) (c : SaveCall) :
    ∃ final fs' : FileSystem, (c.alone cwd fs).states.getLast? = some final ∧ fs'.file = final.file ∧
      ((c.alone cwd fs).result = .ok () → fs' = final ∧
        RunsIn (fun f => ∃ s ∈ (c.alone cwd fs).states, s.file = f) (fs, .ok (c.acts cwd)) (fs', .ok [])) ∧
      ∀ e, (c.alone cwd fs).result = .error e →
        RunsIn (fun f => ∃ s ∈ (c.alone cwd fs).states, s.file = f) (fs, .ok (c.acts cwd)) (fs', .error e) := by
  rcases call_shape cwd c with ⟨e, h1, h2⟩ | ⟨ws, r, h1, h2⟩
  · rw [h1, h2 fs]
    refine ⟨fs, fs, rfl, rfl, ?_, ?_⟩
    · intro h
      cases h
    · intro e' h
      cases h
      exact run_raise e [] ⟨fs, by simp, rfl⟩
  · obtain ⟨h3, h4⟩ := h2 fs
    rw [h1]
    cases hm : c.makes cwd fs with
    | error e =>
      rw [h3 e hm]
      obtain ⟨g, g1, g2⟩ := (run_makes hcwd hroot c (A := fun f => ∃ s ∈ (⟨.error e, [fs]⟩ : Trace).states, s.file = f)
        ⟨fs, by simp, rfl⟩ (writeActs ws ++ endActs r)).2 e hm
      refine ⟨fs, g, rfl, g1, ?_, ?_⟩
      · intro h
        cases h
      · intro e' h
        cases h
        exact g2
    | ok g =>
      rw [h4 g hm]
      dsimp only
      obtain ⟨A, hA⟩ : ∃ A : (Name → Option Content) → Prop, A = fun f => ∃ s ∈ fs :: (writeMany g ws).states, s.file = f := ⟨_, rfl⟩
      rw [← hA]
      obtain ⟨m1, m2⟩ := (run_makes hcwd hroot c (A := A) (by rw [hA]; exact ⟨fs, by simp, rfl⟩) (writeActs ws ++ endActs r)).1 g hm
      obtain ⟨final, f1, f2, f3⟩ := run_writes (A := A) ws g (endActs r) (fun s hs => by rw [hA]; exact ⟨s, by simp [hs], rfl⟩)
      have hfin : A final.file := by
        rw [hA]
        exact ⟨final, by simp [List.mem_of_getLast? f1], rfl⟩
      refine ⟨final, final, by rw [List.getLast?_cons, f1]; rfl, rfl, ?_, ?_⟩
      · intro h
        obtain ⟨_, w1, w2⟩ := Py.bind_eq_ok.1 h
        subst w2
        exact ⟨rfl, m2.trans (f2 w1)⟩
      · intro e h
        cases hw : (writeMany g ws).result with
        | error e' =>
          rw [hw] at h
          cases h
          exact m2.trans (f3 _ hw)
        | ok u =>
          rw [hw] at h
          have h : r = .error e := h
          subst h
          exact (m2.trans (f2 hw)).trans (run_raise e [] hfin)

end

end Micropol
