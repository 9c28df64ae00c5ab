import Verif.Lemmas.Savers
import Mathlib.Data.Fin.Basic
import Mathlib.Data.Fintype.BigOperators

/-!
# The invariant of programs that save at the same time
-/

set_option autoImplicit false

namespace Micropol

noncomputable section

theorem suffix_abs {cwd : List Name} (hcwd : ∀ x ∈ cwd, GoodComp x) {p : Name} (h : pathSuffix p ≠ []) :
    pathSuffix (pathString (absComponents cwd p)) = pathSuffix p := by
  have hc : components (pathString (absComponents cwd p)) = absComponents cwd p := components_pathString (absComponents_nice hcwd p)
  have hlast : (absComponents cwd p).getLast? = (components p).getLast? := by
    unfold absComponents
    split_ifs
    · rfl
    · rw [List.getLast?_append]
      cases hx : (components p).getLast? with
      | some x => rfl
      | none =>
        exfalso
        apply h
        unfold pathSuffix
        rw [hx]
  unfold pathSuffix
  rw [hc, hlast]

/-- A call that succeeds has a name with an extension. -/
theorem alone_suffix {cwd : List Name} (hcwd : ∀ x ∈ cwd, GoodComp x) {fs : FileSystem} {c : SaveCall}
    (h : (c.alone cwd fs).result = .ok ()) : pathSuffix (pathString (absComponents cwd c.filename)) ≠ [] := by
  have hm : ∀ (filename : Name) (k : List Name → FileSystem → Trace),
      (match makeAbsAndCreateDir cwd fs filename with
        | .error e => ⟨.error e, [fs]⟩
        | .ok (path, fs') => k path fs' : Trace).result = .ok () → ∃ fs', (k (absComponents cwd filename) fs').result = .ok () := by
    intro filename k hk
    cases hx : makeAbsAndCreateDir cwd fs filename with
    | error e => rw [hx] at hk; cases hk
    | ok x =>
      obtain ⟨path, fs'⟩ := x
      obtain ⟨_, rfl⟩ := makeAbs_file hx
      rw [hx] at hk
      exact ⟨fs', hk⟩
  have hf : fitsExt ≠ [] := by decide
  cases c with
  | singlePol data dic fixto filename =>
    have h : (saveSinglePol cwd fs data dic fixto filename).result = .ok () := h
    unfold saveSinglePol at h
    split at h
    · cases h
    · obtain ⟨fs', h⟩ := hm _ _ h
      dsimp only at h
      split_ifs at h with hs
      rw [not_not] at hs
      show pathSuffix (pathString (absComponents cwd filename)) ≠ []
      rw [hs]
      exact hf
  | param S id fixto filename =>
    have h : (saveParam cwd fs S id fixto filename).result = .ok () := h
    unfold saveParam at h
    split at h
    · cases h
    · obtain ⟨fs', h⟩ := hm _ _ h
      dsimp only at h
      split_ifs at h with hs
      rw [not_not] at hs
      show pathSuffix (pathString (absComponents cwd filename)) ≠ []
      rw [hs]
      exact hf
  | allParams S filename =>
    have h : (saveAllParams cwd fs S filename).result = .ok () := h
    unfold saveAllParams at h
    split_ifs at h with hs
    rw [not_not] at hs
    show pathSuffix (pathString (absComponents cwd filename)) ≠ []
    rw [suffix_abs hcwd (by rw [hs]; exact hf), hs]
    exact hf
  | demosaiced images entries fixto filename =>
    have h : (saveDemosaiced cwd fs images entries fixto filename).result = .ok () := h
    unfold saveDemosaiced at h
    split at h
    · cases h
    · split_ifs at h with hs
      show pathSuffix (pathString (absComponents cwd filename)) ≠ []
      rw [suffix_abs hcwd hs]
      exact hs
  | asFits data fixto filename =>
    have h : (saveAsFits cwd fs data fixto filename).result = .ok () := h
    unfold saveAsFits at h
    split_ifs at h with hs
    rw [not_not] at hs
    show pathSuffix (pathString (absComponents cwd filename)) ≠ []
    rw [suffix_abs hcwd (by rw [hs]; exact hf), hs]
    exact hf

/-! ## What a program plans -/

/-- Look whether the directory is there (or not), make it, write files. -/
structure SavePlan where
  l : List Name
  looks : Bool
  ws : List (Name × Img ℝ)

def SavePlan.make (P : SavePlan) (a : List Name) : Act := .mkdir a (!P.looks || decide (a.length < P.l.length))

def SavePlan.acts (P : SavePlan) : List Act :=
  (if P.looks = true then [.look P.l P.l.inits.length] else []) ++ (P.l.inits.map P.make ++ writeActs P.ws)

def SavePlan.targets (P : SavePlan) : List Name := P.ws.map (fun w => abspath [] w.1)

/-- The plan would succeed on the disk `fs`. -/
structure SavePlan.Good (P : SavePlan) (fs : FileSystem) : Prop where
  nice : ∀ x ∈ P.l, NiceComp x
  there : P.looks = true → fs.there (pathString P.l) → ∀ w ∈ P.ws, fs.dir (dirName [] w.1)
  free : (P.looks = true → ¬ fs.there (pathString P.l)) → ∀ a, a <+: P.l → fs.file (pathString a) = none
  dirs : (P.looks = true → ¬ fs.there (pathString P.l)) → ∀ w ∈ P.ws, fs.dir (dirName [] w.1) ∨ ∃ a, a <+: P.l ∧ dirName [] w.1 = pathString a

/-- A call that succeeds alone has a plan. -/
theorem call_plan {cwd : List Name} (hcwd : ∀ x ∈ cwd, GoodComp x) {fs : FileSystem} {c : SaveCall}
    (h : (c.alone cwd fs).result = .ok ()) :
    ∃ P : SavePlan, c.acts cwd = P.acts ∧ P.l = c.folder cwd ∧ P.looks = !c.isAsFits ∧ P.Good fs ∧
      ∃ g, g.file = fs.file ∧ (∀ w ∈ P.ws, g.dir (dirName [] w.1)) ∧ (c.alone cwd fs).states = fs :: (writeMany g P.ws).states ∧
        (g.dir (pathString P.l) ∨ fs.there (pathString P.l)) := by
  have hsuf := alone_suffix hcwd h
  rcases call_shape cwd c with ⟨e, h1, h2⟩ | ⟨ws, r, h1, h2⟩
  · rw [h2] at h
    cases h
  · obtain ⟨h3, h4⟩ := h2 fs
    cases hm : c.makes cwd fs with
    | error e =>
      rw [h3 e hm] at h
      cases h
    | ok g =>
      have hal := h4 g hm
      rw [hal] at h
      obtain ⟨_, w1, w2⟩ := Py.bind_eq_ok.1 h
      subst w2
      have hg := writeMany_dirs w1
      refine ⟨⟨c.folder cwd, !c.isAsFits, ws⟩, ?_, rfl, rfl, ?_, g, ?_, hg, by rw [hal], ?_⟩
      · rw [h1]
        unfold SaveCall.dirActs SavePlan.acts
        dsimp only
        have e0 : writeActs ws ++ endActs (.ok ()) = writeActs ws := List.append_nil _
        rw [e0]
        by_cases hc : c.isAsFits = true
        · rw [if_pos hc, if_neg (by simp [hc]), List.nil_append]
          unfold mkdirActs SavePlan.make
          dsimp only
          rw [hc]
          rfl
        · rw [if_neg hc, if_pos (by simp [hc])]
          unfold makeDirActs
          dsimp only
          rw [if_pos hsuf]
          unfold mkdirActs SavePlan.make
          dsimp only
          rw [show c.isAsFits = false by simpa using hc, List.length_map]
          rfl
      · unfold SaveCall.makes at hm
        by_cases hc : c.isAsFits = true
        · rw [if_pos hc] at hm
          obtain ⟨p1, p2⟩ := mkParents_ok hm
          refine ⟨folder_nice hcwd c.filename, ?_, ?_, ?_⟩
          · intro hl
            simp [hc] at hl
          · intro _ a ha
            exact p1 a ((List.mem_inits _ _).2 ha)
          · intro _ w hw
            have := hg w hw
            rw [p2] at this
            rcases this with this | ⟨a, ha, e⟩
            · exact Or.inl this
            · exact Or.inr ⟨a, (List.mem_inits _ _).1 ha, e⟩
        · rw [if_neg hc] at hm
          cases hx : makeAbsAndCreateDir cwd fs c.filename with
          | error e => rw [hx] at hm; cases hm
          | ok x =>
            obtain ⟨path, fs'⟩ := x
            rw [hx] at hm
            cases hm
            unfold makeAbsAndCreateDir at hx
            dsimp only at hx
            rw [if_pos hsuf] at hx
            by_cases ht : fs.there (pathString (c.folder cwd))
            · have ht' : fs.there (pathString (resolveDots (absComponents cwd c.filename).dropLast)) := ht
              rw [if_pos ht'] at hx
              obtain ⟨_, rfl⟩ := Prod.mk.inj (Except.ok.inj hx)
              refine ⟨folder_nice hcwd c.filename, fun _ _ => hg, ?_, ?_⟩
              · intro hn
                exact absurd ht (hn (by simp [hc]))
              · intro hn
                exact absurd ht (hn (by simp [hc]))
            · have ht' : ¬ fs.there (pathString (resolveDots (absComponents cwd c.filename).dropLast)) := ht
              rw [if_neg ht'] at hx
              obtain ⟨g', hg', hx⟩ := Py.bind_eq_ok.1 hx
              obtain ⟨_, rfl⟩ := Prod.mk.inj (Except.ok.inj hx)
              obtain ⟨p1, p2⟩ := mkParents_ok hg'
              refine ⟨folder_nice hcwd c.filename, fun _ h => absurd h ht, ?_, ?_⟩
              · intro _ a ha
                exact p1 a ((List.mem_inits _ _).2 ha)
              · intro _ w hw
                have := hg w hw
                rw [p2] at this
                rcases this with this | ⟨a, ha, e⟩
                · exact Or.inl this
                · exact Or.inr ⟨a, (List.mem_inits _ _).1 ha, e⟩
      · unfold SaveCall.makes at hm
        by_cases hc : c.isAsFits = true
        · rw [if_pos hc] at hm
          rw [(mkParents_ok hm).2]
          rfl
        · rw [if_neg hc] at hm
          cases hx : makeAbsAndCreateDir cwd fs c.filename with
          | error e => rw [hx] at hm; cases hm
          | ok x =>
            rw [hx] at hm
            cases hm
            exact (makeAbs_file hx).1
      · by_cases ht : fs.there (pathString (c.folder cwd))
        · exact Or.inr ht
        · left
          show g.dir (pathString (c.folder cwd))
          unfold SaveCall.makes at hm
          by_cases hc : c.isAsFits = true
          · rw [if_pos hc] at hm
            rw [(mkParents_ok hm).2]
            exact Or.inr ⟨_, (List.mem_inits _ _).2 (List.prefix_refl _), rfl⟩
          · rw [if_neg hc] at hm
            cases hx : makeAbsAndCreateDir cwd fs c.filename with
            | error e => rw [hx] at hm; cases hm
            | ok x =>
              obtain ⟨path, fs'⟩ := x
              rw [hx] at hm
              cases hm
              unfold makeAbsAndCreateDir at hx
              dsimp only at hx
              have ht' : ¬ fs.there (pathString (resolveDots (absComponents cwd c.filename).dropLast)) := ht
              rw [if_pos hsuf, if_neg ht'] at hx
              obtain ⟨g', hg', hx⟩ := Py.bind_eq_ok.1 hx
              obtain ⟨_, rfl⟩ := Prod.mk.inj (Except.ok.inj hx)
              rw [(mkParents_ok hg').2]
              exact Or.inr ⟨_, (List.mem_inits _ _).2 (List.prefix_refl _), rfl⟩

/-! ## The stages of a program -/

/-- Where a program with the plan `P`, which was good for the first disk `fs`, may be when the disk is `σ`. -/
inductive Stage (fs : FileSystem) (P : SavePlan) (σ : FileSystem) : Proc → Prop
  | start (hl : P.looks = true) (hf : ∀ q ∈ P.targets, σ.file q = fs.file q) : Stage fs P σ (.ok P.acts)
  | dirs (pre post : List (List Name)) (a : List Name) (hp : P.l.inits = pre ++ a :: post) (hpre : ∀ a ∈ pre, σ.dir (pathString a))
      (hf : ∀ q ∈ P.targets, σ.file q = fs.file q) (hl : P.looks = true → ¬ fs.there (pathString P.l)) :
      Stage fs P σ (.ok ((a :: post).map P.make ++ writeActs P.ws))
  | write (dn rest : List (Name × Img ℝ)) (hw : P.ws = dn ++ rest) (hd : ∀ w ∈ P.ws, σ.dir (dirName [] w.1))
      (hf : ∀ q ∈ P.targets, σ.file q = afterFile fs.file dn q) : Stage fs P σ (.ok (writeActs rest))
  | cleared (dn rest : List (Name × Img ℝ)) (w : Name × Img ℝ) (hw : P.ws = dn ++ w :: rest) (hd : ∀ w ∈ P.ws, σ.dir (dirName [] w.1))
      (hf : ∀ q ∈ P.targets, σ.file q = setFile (afterFile fs.file dn) (abspath [] w.1) none q) :
      Stage fs P σ (.ok (.create (abspath [] w.1) :: .finish (abspath [] w.1) w.2 :: writeActs rest))
  | created (dn rest : List (Name × Img ℝ)) (w : Name × Img ℝ) (hw : P.ws = dn ++ w :: rest) (hd : ∀ w ∈ P.ws, σ.dir (dirName [] w.1))
      (hf : ∀ q ∈ P.targets, σ.file q = setFile (afterFile fs.file dn) (abspath [] w.1) (some .incomplete) q) :
      Stage fs P σ (.ok (.finish (abspath [] w.1) w.2 :: writeActs rest))
  | failed (e : PyErr) (hf : ∀ q ∈ P.targets, σ.file q = fs.file q) (hl : P.looks = true) (ht : ¬ fs.there (pathString P.l)) :
      Stage fs P σ (.error e)

/-- The actions of others do not move a program. -/
theorem Stage.other {fs σ τ : FileSystem} {P : SavePlan} {p : Proc} (h : Stage fs P σ p) (hd : ∀ d, σ.dir d → τ.dir d)
    (hf : ∀ q ∈ P.targets, τ.file q = σ.file q) : Stage fs P τ p := by
  cases h with
  | start hl h => exact .start hl fun q hq => (hf q hq).trans (h q hq)
  | dirs pre post a hp hpre h hl => exact .dirs pre post a hp (fun a ha => hd _ (hpre a ha)) (fun q hq => (hf q hq).trans (h q hq)) hl
  | write dn rest hw hdd h => exact .write dn rest hw (fun w hw => hd _ (hdd w hw)) (fun q hq => (hf q hq).trans (h q hq))
  | cleared dn rest w hw hdd h => exact .cleared dn rest w hw (fun w hw => hd _ (hdd w hw)) (fun q hq => (hf q hq).trans (h q hq))
  | created dn rest w hw hdd h => exact .created dn rest w hw (fun w hw => hd _ (hdd w hw)) (fun q hq => (hf q hq).trans (h q hq))
  | failed e h hl ht => exact .failed e (fun q hq => (hf q hq).trans (h q hq)) hl ht

theorem Stage.first {fs : FileSystem} {P : SavePlan} : Stage fs P fs (.ok P.acts) := by
  by_cases hl : P.looks = true
  · exact .start hl fun _ _ => rfl
  · unfold SavePlan.acts
    rw [if_neg hl, List.nil_append]
    cases hi : P.l.inits with
    | nil =>
      have := List.length_inits P.l
      rw [hi] at this
      simp at this
    | cons a post => exact .dirs [] post a hi (by simp) (fun _ _ => rfl) (fun h => absurd h hl)

theorem target_mem {P : SavePlan} {dn rest : List (Name × Img ℝ)} {w : Name × Img ℝ} (hw : P.ws = dn ++ w :: rest) :
    abspath [] w.1 ∈ P.targets := by
  unfold SavePlan.targets
  rw [hw]
  exact List.mem_map.2 ⟨w, by simp, rfl⟩

/-- The program's own action. -/
theorem Stage.own {fs σ : FileSystem} {P : SavePlan} (hP : P.Good fs) {p : Proc} (h : Stage fs P σ p) (ht : σ.IsTree)
    (hmono : ∀ d, fs.dir d → σ.dir d) (hway : ∀ a, a <+: P.l → σ.file (pathString a) = fs.file (pathString a)) :
    Stage fs P (stepProc σ p).1 (stepProc σ p).2 ∧ (stepProc σ p).1.IsTree ∧ (∀ d, σ.dir d → (stepProc σ p).1.dir d) ∧
      ∀ q, q ∉ P.targets → (stepProc σ p).1.file q = σ.file q := by
  have hput : ∀ p c q, p ∈ P.targets → q ∉ P.targets → (σ.put p c).file q = σ.file q := by
    intro p c q hp hq
    show (if q = p then c else σ.file q) = σ.file q
    rw [if_neg]
    rintro rfl
    exact hq hp
  cases h with
  | start hl hf =>
    have hstep : stepProc σ (.ok P.acts) = Act.run σ (P.l.inits.map P.make ++ writeActs P.ws) (.look P.l P.l.inits.length) := by
      unfold SavePlan.acts
      rw [if_pos hl]
      rfl
    rw [hstep]
    unfold Act.run
    dsimp only
    refine ⟨?_, ht, fun _ h => h, fun _ _ => rfl⟩
    have hlen : P.l.inits.length = (P.l.inits.map P.make).length := (List.length_map _).symm
    rw [hlen, List.drop_left]
    split_ifs with hσ
    · refine .write [] P.ws rfl ?_ hf
      by_cases h0 : fs.there (pathString P.l)
      · exact fun w hw => hmono _ (hP.there hl h0 w hw)
      · have hfile : σ.file (pathString P.l) = none := by
          rw [hway _ (List.prefix_refl _)]
          exact hP.free (fun _ => h0) _ (List.prefix_refl _)
        have hdir : σ.dir (pathString P.l) := by
          rcases hσ with h | h
          · exact h
          · exact absurd hfile h
        intro w hw
        rcases hP.dirs (fun _ => h0) w hw with h | ⟨a, ha, e⟩
        · exact hmono _ h
        · rw [e]
          exact tree_prefix ht hP.nice hdir a ha
    · cases hi : P.l.inits with
      | nil =>
        have := List.length_inits P.l
        rw [hi] at this
        simp at this
      | cons a post =>
        refine .dirs [] post a hi (by simp) hf ?_
        intro _ h0
        apply hσ
        rcases h0 with h0 | h0
        · exact Or.inl (hmono _ h0)
        · exact Or.inr (by rw [hway _ (List.prefix_refl _)]; exact h0)
  | dirs pre post a hp hpre hf hl =>
    obtain ⟨ha, hpar, hlen, hnew⟩ := inits_split hp
    have hnone : σ.file (pathString a) = none := by
      rw [hway a ha]
      exact hP.free hl a ha
    have hparent : σ.dir (pathString a.dropLast) := by
      rcases hpar with ⟨rfl, _⟩ | h
      · exact ht.1
      · exact hpre _ h
    show Stage fs P (Act.run σ (post.map P.make ++ writeActs P.ws) (P.make a)).1 (Act.run σ (post.map P.make ++ writeActs P.ws) (P.make a)).2 ∧
      (Act.run σ (post.map P.make ++ writeActs P.ws) (P.make a)).1.IsTree ∧
      (∀ d, σ.dir d → (Act.run σ (post.map P.make ++ writeActs P.ws) (P.make a)).1.dir d) ∧
      ∀ q, q ∉ P.targets → (Act.run σ (post.map P.make ++ writeActs P.ws) (P.make a)).1.file q = σ.file q
    unfold SavePlan.make Act.run
    dsimp only
    split_ifs with hc
    · refine ⟨.failed _ hf ?_ ?_, ht, fun _ h => h, fun _ _ => rfl⟩
      · rcases hc with h | ⟨_, h⟩ | h
        · exact absurd hnone h
        · cases hL : P.looks
          · rw [hL] at h
            simp at h
          · rfl
        · exact absurd hparent h
      · rcases hc with h | ⟨_, h⟩ | h
        · exact absurd hnone h
        · refine hl ?_
          cases hL : P.looks
          · rw [hL] at h
            simp at h
          · rfl
        · exact absurd hparent h
    · have hpre' : ∀ b ∈ pre ++ [a], (σ.withDir (pathString a)).dir (pathString b) := by
        intro b hb
        rcases List.mem_append.1 hb with hb | hb
        · exact Or.inl (hpre b hb)
        · rw [List.mem_singleton] at hb
          rw [hb]
          exact Or.inr rfl
      refine ⟨?_, withDir_tree ht (fun x hx => hP.nice x (ha.subset hx)) hparent, fun _ h => Or.inl h, fun _ _ => rfl⟩
      show Stage fs P (σ.withDir (pathString a)) (.ok (post.map P.make ++ writeActs P.ws))
      cases post with
      | nil =>
        refine .write [] P.ws rfl ?_ hf
        intro w hw
        rcases hP.dirs hl w hw with h | ⟨b, hb, e⟩
        · exact Or.inl (hmono _ h)
        · rw [e]
          refine hpre' b ?_
          rw [← hp]
          exact (List.mem_inits _ _).2 hb
      | cons b post => exact .dirs (pre ++ [a]) post b (by rw [hp]; simp) hpre' hf hl
  | write dn rest hw hd hf =>
    cases rest with
    | nil => exact ⟨.write dn [] hw hd hf, ht, fun _ h => h, fun _ _ => rfl⟩
    | cons w rest =>
      have hstep : stepProc σ (.ok (writeActs (w :: rest))) =
          (σ.put (abspath [] w.1) none, .ok (.create (abspath [] w.1) :: .finish (abspath [] w.1) w.2 :: writeActs rest)) := by
        show Act.run σ _ (.clear (dirName [] w.1) (abspath [] w.1)) = _
        unfold Act.run
        dsimp only
        rw [if_pos (hd w (by rw [hw]; simp))]
        rfl
      rw [hstep]
      refine ⟨.cleared dn rest w hw hd ?_, put_tree ht _ _, fun _ h => h, fun q hq => hput _ _ q (target_mem hw) hq⟩
      intro q hq
      show (if q = abspath [] w.1 then none else σ.file q) = (if q = abspath [] w.1 then none else afterFile fs.file dn q)
      rw [hf q hq]
  | cleared dn rest w hw hd hf =>
    refine ⟨.created dn rest w hw hd ?_, put_tree ht _ _, fun _ h => h, fun q hq => hput _ _ q (target_mem hw) hq⟩
    intro q hq
    show (if q = abspath [] w.1 then some Content.incomplete else σ.file q) =
      (if q = abspath [] w.1 then some .incomplete else afterFile fs.file dn q)
    split_ifs with h
    · rfl
    · rw [hf q hq]
      show (if q = abspath [] w.1 then none else afterFile fs.file dn q) = _
      rw [if_neg h]
  | created dn rest w hw hd hf =>
    refine ⟨.write (dn ++ [w]) rest (by rw [hw]; simp) hd ?_, put_tree ht _ _, fun _ h => h, fun q hq => hput _ _ q (target_mem hw) hq⟩
    intro q hq
    rw [afterFile_snoc]
    show (if q = abspath [] w.1 then some (Content.fits w.2) else σ.file q) =
      (if q = abspath [] w.1 then some (.fits w.2) else afterFile fs.file dn q)
    split_ifs with h
    · rfl
    · rw [hf q hq]
      show (if q = abspath [] w.1 then some Content.incomplete else afterFile fs.file dn q) = _
      rw [if_neg h]
  | failed e hf hl ht' => exact ⟨.failed e hf hl ht', ht, fun _ h => h, fun _ _ => rfl⟩

/-! ## All programs -/

theorem runSavers_snoc {n : Nat} (cwd : List Name) (fs : FileSystem) (calls : Fin n → SaveCall) (sched : List (Fin n)) (j : Fin n) :
    runSavers cwd fs calls (sched ++ [j]) = turn (runSavers cwd fs calls sched) j := by
  unfold runSavers
  rw [List.foldl_append]
  rfl

/-- What is true at every moment. -/
structure Together {n : Nat} (fs : FileSystem) (P : Fin n → SavePlan) (s : Savers n) : Prop where
  tree : s.disk.IsTree
  mono : ∀ d, fs.dir d → s.disk.dir d
  rest : ∀ q, (∀ j, q ∉ (P j).targets) → s.disk.file q = fs.file q
  stage : ∀ j, Stage fs (P j) s.disk (s.proc j)

theorem together {n : Nat} {cwd : List Name} {fs : FileSystem} {calls : Fin n → SaveCall} {P : Fin n → SavePlan} (htree : fs.IsTree)
    (hacts : ∀ j, (calls j).acts cwd = (P j).acts) (hgood : ∀ j, (P j).Good fs)
    (hdis : ∀ i j, i ≠ j → ∀ p ∈ (P i).targets, p ∉ (P j).targets)
    (hway : ∀ i j, ∀ p ∈ (P i).targets, ∀ a, a <+: (P j).l → p ≠ pathString a) (sched : List (Fin n)) :
    Together fs P (runSavers cwd fs calls sched) := by
  induction sched using List.reverseRecOn with
  | nil =>
    refine ⟨htree, fun _ h => h, fun _ _ => rfl, ?_⟩
    intro j
    show Stage fs (P j) fs (.ok ((calls j).acts cwd))
    rw [hacts j]
    exact .first
  | append_singleton sched i ih =>
    rw [runSavers_snoc]
    obtain ⟨s, hs⟩ : ∃ s, s = runSavers cwd fs calls sched := ⟨_, rfl⟩
    rw [← hs] at ih ⊢
    obtain ⟨o1, o2, o3, o4⟩ := (ih.stage i).own (hgood i) ih.tree ih.mono (fun a ha =>
      ih.rest _ (fun j hj => hway j i _ hj a ha rfl))
    refine ⟨o2, fun d hd => o3 d (ih.mono d hd), ?_, ?_⟩
    · intro q hq
      exact (o4 q (hq i)).trans (ih.rest q hq)
    · intro j
      show Stage fs (P j) (stepProc s.disk (s.proc i)).1 (Function.update s.proc i (stepProc s.disk (s.proc i)).2 j)
      by_cases hj : j = i
      · subst hj
        rw [Function.update_self]
        exact o1
      · rw [Function.update_of_ne hj]
        exact (ih.stage j).other o3 (fun q hq => o4 q (hdis j i hj q hq))

/-! ## Files of the calls -/

theorem writeMany_same_dirs (ws : List (Name × Img ℝ)) : ∀ (fs : FileSystem), ∀ s ∈ (writeMany fs ws).states, s.dir = fs.dir := by
  induction ws with
  | nil =>
    intro fs s hs
    simp only [writeMany, List.mem_singleton] at hs
    rw [hs]
  | cons w ws ih =>
    intro fs s hs
    by_cases hd : fs.dir (dirName [] w.1)
    · rw [writeMany_cons hd] at hs
      simp only [List.cons_append, List.nil_append, List.mem_cons] at hs
      rcases hs with rfl | rfl | rfl | hs
      · rfl
      · rfl
      · rfl
      · rw [ih _ s hs]
        rfl
    · rw [writeMany_fails hd] at hs
      simp only [List.mem_singleton] at hs
      rw [hs]

/-- The files that a call saves are those that it writes, and perhaps some that have the right content from the beginning. -/
theorem saved_targets {fs g : FileSystem} {t : Trace} {files : List (Name × Img ℝ)} (h : SavedExactly fs t files)
    {ws : List (Name × Img ℝ)} (hg : g.file = fs.file) (hd : ∀ w ∈ ws, g.dir (dirName [] w.1)) (hs : t.states = fs :: (writeMany g ws).states) :
    (∀ w ∈ ws, abspath [] w.1 ∈ files.map Prod.fst) ∧ ∀ p d, (p, d) ∈ files → afterFile fs.file ws p = some (.fits d) := by
  obtain ⟨_, _, ⟨final, hlast, hfin⟩, hrest⟩ := h
  obtain ⟨m1, m2, last, m3, m4⟩ := writeMany_moments hd
  refine ⟨?_, ?_⟩
  · intro w hw
    by_contra hn
    obtain ⟨dn, rest, e⟩ := List.append_of_mem hw
    obtain ⟨s1, a1, b1⟩ := m2 dn w rest none e (Or.inl rfl)
    obtain ⟨s2, a2, b2⟩ := m2 dn w rest (some .incomplete) e (Or.inr rfl)
    have c1 := hrest s1 (by rw [hs]; simp [a1]) _ hn
    have c2 := hrest s2 (by rw [hs]; simp [a2]) _ hn
    rw [b1] at c1
    rw [b2, ← c1] at c2
    unfold setFile at c2
    rw [if_pos rfl, if_pos rfl] at c2
    cases c2
  · intro p d hpd
    have := hfin p d hpd
    rw [hs, List.getLast?_cons, m3] at hlast
    have e : last = final := by simpa using hlast
    rw [← hg, ← m4, e]
    exact this

/-! ## Programs end -/

/-- The number of actions that a program may still take. -/
def todo : Proc → Nat
  | .ok l => l.length
  | .error _ => 0

theorem todo_step (fs : FileSystem) (p : Proc) : todo (stepProc fs p).2 ≤ todo p - 1 := by
  rcases p with e | l
  · exact Nat.zero_le _
  · cases l with
    | nil => exact le_refl _
    | cons a rest =>
      show todo (a.run fs rest).2 ≤ rest.length
      unfold Act.run
      cases a with
      | look l skip =>
        dsimp only [todo]
        split_ifs
        · rw [List.length_drop]
          exact Nat.sub_le _ _
        · exact le_refl _
      | mkdir l b => dsimp only; split_ifs <;> simp [todo]
      | raise e => exact Nat.zero_le _
      | clear d p => dsimp only; split_ifs <;> simp [todo]
      | create p => exact le_refl _
      | finish p d => exact le_refl _

theorem todo_run {n : Nat} (cwd : List Name) (fs : FileSystem) (calls : Fin n → SaveCall) (sched : List (Fin n)) (j : Fin n) :
    todo ((runSavers cwd fs calls sched).proc j) ≤ ((calls j).acts cwd).length - sched.count j := by
  induction sched using List.reverseRecOn with
  | nil => exact Nat.le_of_eq rfl
  | append_singleton sched i ih =>
    rw [runSavers_snoc, List.count_append]
    obtain ⟨s, hs⟩ : ∃ s, s = runSavers cwd fs calls sched := ⟨_, rfl⟩
    rw [← hs] at ih ⊢
    show todo (Function.update s.proc i (stepProc s.disk (s.proc i)).2 j) ≤ _
    by_cases hj : j = i
    · subst hj
      rw [Function.update_self]
      have := todo_step s.disk (s.proc j)
      simp only [List.count_cons_self, List.count_nil]
      omega
    · rw [Function.update_of_ne hj, List.count_singleton, if_neg (by simpa using fun h => hj h.symm)]
      exact ih

theorem ended_of_todo {p : Proc} (h : todo p = 0) : p.Ended := by
  rcases p with e | l
  · exact Or.inr ⟨e, rfl⟩
  · left
    have : l = [] := List.length_eq_zero_iff.1 h
    rw [this]

end

end Micropol
