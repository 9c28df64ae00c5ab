import Verif.Lemmas.SaversTurns
import Verif.Props.Save
import Verif.Props.Polarization

/-!
# C105: saving at the same time

Several programs (or threads) call the saving methods; the schedule says whose turn it is for the next action on the disk.  A program
that dies is one that gets no more turns.  `Compatible` (`Verif/Spec/Savers.lean`): each of the calls would succeed if it were alone
and save the given files (C71 says which), and the files are different.
-/

set_option autoImplicit false

namespace Micropol

noncomputable section

variable {cwd : List Name} {fs : FileSystem} {n : Nat} {calls : Fin n → SaveCall} {files : Fin n → List (Name × Img ℝ)}

theorem compatible_plans (hcwd : ∀ x ∈ cwd, GoodComp x) (htree : fs.IsTree) (hc : Compatible cwd fs calls files) :
    ∃ P : Fin n → SavePlan, (∀ j, (P j).l = (calls j).folder cwd ∧ (P j).looks = !(calls j).isAsFits) ∧
      (∀ j, ∀ q ∈ (P j).targets, q ∈ (files j).map Prod.fst) ∧
      (∀ j p d, (p, d) ∈ files j → afterFile fs.file (P j).ws p = some (.fits d)) ∧
      (∀ j, ∃ g, g.file = fs.file ∧ (∀ w ∈ (P j).ws, g.dir (dirName [] w.1)) ∧
        ((calls j).alone cwd fs).states = fs :: (writeMany g (P j).ws).states) ∧
      (∀ j, (calls j).acts cwd = (P j).acts) ∧
      ∀ sched, Together fs P (runSavers cwd fs calls sched) := by
  have hp := fun j => call_plan hcwd (hc.alone j).1
  choose P h1 h2 h3 h4 g g1 g2 g3 _ using hp
  have ht := fun j => saved_targets (hc.alone j) (g1 j) (g2 j) (g3 j)
  have hsub : ∀ j, ∀ q ∈ (P j).targets, q ∈ (files j).map Prod.fst := by
    intro j q hq
    obtain ⟨w, hw, rfl⟩ := List.mem_map.1 hq
    exact (ht j).1 w hw
  refine ⟨P, fun j => ⟨h2 j, h3 j⟩, hsub, fun j => (ht j).2, fun j => ⟨g j, g1 j, g2 j, g3 j⟩, h1, ?_⟩
  refine together htree h1 h4 ?_ ?_
  · intro i j hij p hp hq
    exact hc.disjoint i j hij p (hsub i p hp) (hsub j p hq)
  · intro i j p hp a ha
    rw [h2 j] at ha
    exact hc.ways i j p (hsub i p hp) a ha

/-- C105: at every moment of every schedule, no file is touched but those to be saved, and the files of each call are as they are at
some moment of that call when it is alone; if the program has ended, all its files are complete, and if it has died of an exception,
they are as they were at the beginning.  An exception is only possible if the directory was missing at the beginning, and not for
`save_as_fits`. -/
theorem C105_any_schedule (hcwd : ∀ x ∈ cwd, GoodComp x) (htree : fs.IsTree) (hc : Compatible cwd fs calls files)
    (sched : List (Fin n)) :
    let s := runSavers cwd fs calls sched
    (∀ q, (∀ j, q ∉ (files j).map Prod.fst) → s.disk.file q = fs.file q) ∧
    ∀ j, (∃ m ∈ ((calls j).alone cwd fs).states, ∀ p ∈ (files j).map Prod.fst, s.disk.file p = m.file p) ∧
      (s.proc j = .ok [] → ∀ p d, (p, d) ∈ files j → s.disk.file p = some (.fits d)) ∧
      ∀ e, s.proc j = .error e → (∀ p ∈ (files j).map Prod.fst, s.disk.file p = fs.file p) ∧
        ¬ fs.there (pathString ((calls j).folder cwd)) ∧ (calls j).isAsFits = false := by
  intro s
  obtain ⟨P, hl, hsub, hafter, hst, hacts, htog⟩ := compatible_plans hcwd htree hc
  have ht := htog sched
  have hrest : ∀ q, (∀ j, q ∉ (files j).map Prod.fst) → s.disk.file q = fs.file q :=
    fun q hq => ht.rest q (fun j hj => hq j (hsub j q hj))
  -- a file that is saved without being written belongs to nobody
  have hother : ∀ j, ∀ p ∈ (files j).map Prod.fst, p ∉ (P j).targets → s.disk.file p = fs.file p := by
    intro j p hp hn
    refine ht.rest p ?_
    intro i hi
    by_cases hij : i = j
    · subst hij
      exact hn hi
    · exact hc.disjoint i j hij p (hsub i p hi) hp
  have hlift : ∀ j (f : Name → Option Content), (∀ q ∈ (P j).targets, s.disk.file q = f q) → (∀ q, q ∉ (P j).targets → f q = fs.file q) →
      ∀ p ∈ (files j).map Prod.fst, s.disk.file p = f p := by
    intro j f h1 h2 p hp
    by_cases hq : p ∈ (P j).targets
    · exact h1 p hq
    · rw [hother j p hp hq, h2 p hq]
  have hout : ∀ j (dn rest : List (Name × Img ℝ)), (P j).ws = dn ++ rest → ∀ q, q ∉ (P j).targets → afterFile fs.file dn q = fs.file q := by
    intro j dn
    induction dn using List.reverseRecOn with
    | nil => intro rest _ q _; rfl
    | append_singleton dn w ih =>
      intro rest hw q hq
      rw [List.append_assoc] at hw
      rw [afterFile_snoc]
      unfold setFile
      rw [if_neg]
      · exact ih _ hw q hq
      · rintro rfl
        exact hq (target_mem hw)
  have hset : ∀ j (dn rest : List (Name × Img ℝ)) (w : Name × Img ℝ) (c : Option Content), (P j).ws = dn ++ w :: rest → ∀ q,
      q ∉ (P j).targets → setFile (afterFile fs.file dn) (abspath [] w.1) c q = fs.file q := by
    intro j dn rest w c hw q hq
    unfold setFile
    rw [if_neg]
    · exact hout j dn _ hw q hq
    · rintro rfl
      exact hq (target_mem hw)
  refine ⟨hrest, ?_⟩
  intro j
  obtain ⟨g, g1, g2, g3⟩ := hst j
  obtain ⟨m1, m2, _⟩ := writeMany_moments g2
  have hstage := ht.stage j
  obtain ⟨p, hp⟩ : ∃ p, p = s.proc j := ⟨_, rfl⟩
  have hstage : Stage fs (P j) s.disk p := hp ▸ hstage
  rw [← hp]
  refine ⟨?_, ?_, ?_⟩
  · cases hstage with
    | start hl hf => exact ⟨fs, by rw [g3]; simp, hlift j _ hf fun _ _ => rfl⟩
    | dirs pre post a hp hpre hf hl => exact ⟨fs, by rw [g3]; simp, hlift j _ hf fun _ _ => rfl⟩
    | write dn rest hw hd hf =>
      obtain ⟨m, a, b⟩ := m1 dn rest hw
      refine ⟨m, by rw [g3]; simp [a], ?_⟩
      rw [b, g1]
      exact hlift j _ hf (hout j dn rest hw)
    | cleared dn rest w hw hd hf =>
      obtain ⟨m, a, b⟩ := m2 dn w rest none hw (Or.inl rfl)
      refine ⟨m, by rw [g3]; simp [a], ?_⟩
      rw [b, g1]
      exact hlift j _ hf (hset j dn rest w none hw)
    | created dn rest w hw hd hf =>
      obtain ⟨m, a, b⟩ := m2 dn w rest (some .incomplete) hw (Or.inr rfl)
      refine ⟨m, by rw [g3]; simp [a], ?_⟩
      rw [b, g1]
      exact hlift j _ hf (hset j dn rest w _ hw)
    | failed e hf hl ht => exact ⟨fs, by rw [g3]; simp, hlift j _ hf fun _ _ => rfl⟩
  · intro hend p' d hpd
    have hmem : p' ∈ (files j).map Prod.fst := List.mem_map.2 ⟨_, hpd, rfl⟩
    rw [hend] at hstage
    generalize hz : (Except.ok [] : Proc) = z at hstage
    cases hstage with
    | start hl hf =>
      exfalso
      unfold SavePlan.acts at hz
      rw [if_pos hl] at hz
      cases hz
    | dirs pre post a hp hpre hf hl => cases hz
    | write dn rest hw hd hf =>
      cases rest with
      | nil =>
        rw [List.append_nil] at hw
        rw [hlift j _ hf (hout j dn [] (by rw [hw]; simp)) p' hmem, ← hw]
        exact hafter j p' d hpd
      | cons w rest => cases hz
    | cleared dn rest w hw hd hf => cases hz
    | created dn rest w hw hd hf => cases hz
    | failed e hf hl ht => cases hz
  · intro e he
    rw [he] at hstage
    cases hstage with
    | failed e hf hlk hth =>
      refine ⟨hlift j _ hf fun _ _ => rfl, ?_, ?_⟩
      · rw [← (hl j).1]
        exact hth
      · rw [(hl j).2] at hlk
        simpa using hlk

/-- C105: every program ends, after a number of turns that does not depend on the others. -/
theorem C105_ends (cwd : List Name) (calls : Fin n → SaveCall) : ∃ N, ∀ (fs : FileSystem) (sched : List (Fin n)) (j : Fin n),
    N ≤ sched.count j → ((runSavers cwd fs calls sched).proc j).Ended := by
  refine ⟨∑ j, ((calls j).acts cwd).length, ?_⟩
  intro fs sched j hN
  refine ended_of_todo ?_
  have h1 := todo_run cwd fs calls sched j
  have h2 : ((calls j).acts cwd).length ≤ ∑ j, ((calls j).acts cwd).length :=
    Finset.single_le_sum (f := fun j => ((calls j).acts cwd).length) (fun _ _ => Nat.zero_le _) (Finset.mem_univ j)
  omega

/-- C105 (partial: the directories exist at the beginning, or the calls are `save_as_fits`; otherwise see `C105_race`): whatever the
schedule is, when all programs have had enough turns all have succeeded, all files are complete, and no other file has been touched. -/
theorem C105_saved_partial (hcwd : ∀ x ∈ cwd, GoodComp x) (htree : fs.IsTree) (hc : Compatible cwd fs calls files)
    (hdirs : ∀ j, fs.there (pathString ((calls j).folder cwd)) ∨ (calls j).isAsFits = true) :
    ∃ N, ∀ sched : List (Fin n), (∀ j, N ≤ sched.count j) →
      let s := runSavers cwd fs calls sched
      (∀ j, s.proc j = .ok [] ∧ ∀ p d, (p, d) ∈ files j → s.disk.file p = some (.fits d)) ∧
      ∀ q, (∀ j, q ∉ (files j).map Prod.fst) → s.disk.file q = fs.file q := by
  obtain ⟨N, hN⟩ := C105_ends cwd calls
  refine ⟨N, ?_⟩
  intro sched hsched s
  obtain ⟨h1, h2⟩ := C105_any_schedule hcwd htree hc sched
  refine ⟨?_, h1⟩
  intro j
  obtain ⟨_, k2, k3⟩ := h2 j
  have hok : s.proc j = .ok [] := by
    rcases hN fs sched j (hsched j) with h | ⟨e, h⟩
    · exact h
    · exfalso
      obtain ⟨_, a, b⟩ := k3 e h
      rcases hdirs j with d | d
      · exact a d
      · rw [d] at b
        cases b
  exact ⟨hok, k2 hok⟩

/-- A program that is the only one with turns. -/
theorem only_one (s : Savers n) (j : Fin n) (k : Nat) :
    ((List.replicate k j).foldl turn s).disk = (oneStep^[k] (s.disk, s.proc j)).1 ∧
    ((List.replicate k j).foldl turn s).proc j = (oneStep^[k] (s.disk, s.proc j)).2 ∧
    ∀ i, i ≠ j → ((List.replicate k j).foldl turn s).proc i = s.proc i := by
  induction k with
  | zero => exact ⟨rfl, rfl, fun _ _ => rfl⟩
  | succ k ih =>
    obtain ⟨h1, h2, h3⟩ := ih
    rw [List.replicate_succ', List.foldl_append, Function.iterate_succ_apply']
    obtain ⟨t, ht⟩ : ∃ t, t = (List.replicate k j).foldl turn s := ⟨_, rfl⟩
    rw [← ht] at h1 h2 h3 ⊢
    have e : oneStep (oneStep^[k] (s.disk, s.proc j)) = stepProc t.disk (t.proc j) := by
      rw [h1, h2]
      rfl
    rw [e]
    refine ⟨rfl, ?_, ?_⟩
    · show Function.update t.proc j (stepProc t.disk (t.proc j)).2 j = _
      rw [Function.update_self]
    · intro i hi
      show Function.update t.proc j (stepProc t.disk (t.proc j)).2 i = _
      rw [Function.update_of_ne hi]
      exact h3 i hi

theorem ended_stays {x : FileSystem × Proc} (h : x.2.Ended) (k : Nat) : oneStep^[k] x = x := by
  have h1 : oneStep x = x := by
    obtain ⟨fs, p⟩ := x
    rcases h with h | ⟨e, h⟩
    · have h : p = .ok [] := h
      rw [h]
      rfl
    · have h : p = .error e := h
      rw [h]
      rfl
  induction k with
  | zero => rfl
  | succ k ih => rw [Function.iterate_succ_apply, h1, ih]

/-- C105 (the programs do what the methods do): a program that is alone ends as the call of the method ends, with the same exception or
without one and with the same files; and at every moment before, the files are as at a moment of the call. -/
theorem C105_alone (hcwd : ∀ x ∈ cwd, GoodComp x) (htree : fs.IsTree) (c : SaveCall) :
    (∃ N final, (c.alone cwd fs).states.getLast? = some final ∧ ∀ k, N ≤ k →
      let s := runSavers cwd fs (fun _ : Fin 1 => c) (List.replicate k 0)
      s.disk.file = final.file ∧ ((c.alone cwd fs).result = .ok () → s.proc 0 = .ok [] ∧ s.disk = final) ∧
      ∀ e, (c.alone cwd fs).result = .error e → s.proc 0 = .error e) ∧
    ∀ k, ∃ m ∈ (c.alone cwd fs).states, (runSavers cwd fs (fun _ : Fin 1 => c) (List.replicate k 0)).disk.file = m.file := by
  obtain ⟨final, fs', f1, f2, f3, f4⟩ := run_call hcwd htree.1 c
  have hrun : ∃ (z : Proc), z.Ended ∧ RunsIn (fun f => ∃ s ∈ (c.alone cwd fs).states, s.file = f) (fs, .ok (c.acts cwd)) (fs', z) ∧
      ((c.alone cwd fs).result = .ok () → z = .ok [] ∧ fs' = final) ∧ ∀ e, (c.alone cwd fs).result = .error e → z = .error e := by
    cases hr : (c.alone cwd fs).result with
    | error e =>
      refine ⟨.error e, Or.inr ⟨e, rfl⟩, f4 e hr, ?_, ?_⟩
      · intro h
        cases h
      · intro e' h
        cases h
        rfl
    | ok u =>
      obtain ⟨a, b⟩ := f3 hr
      refine ⟨.ok [], Or.inl rfl, b, fun _ => ⟨rfl, a⟩, ?_⟩
      intro e' h
      cases h
  obtain ⟨z, z1, ⟨N, z2, z3⟩, z4, z5⟩ := hrun
  have hk : ∀ k, N ≤ k → oneStep^[k] (fs, .ok (c.acts cwd)) = (fs', z) := by
    intro k h
    obtain ⟨i, rfl⟩ := Nat.exists_eq_add_of_le h
    rw [Nat.add_comm, Function.iterate_add_apply, z2]
    exact ended_stays z1 i
  have hs : ∀ k, (runSavers cwd fs (fun _ : Fin 1 => c) (List.replicate k 0)).disk = (oneStep^[k] (fs, .ok (c.acts cwd))).1 ∧
      (runSavers cwd fs (fun _ : Fin 1 => c) (List.replicate k 0)).proc 0 = (oneStep^[k] (fs, .ok (c.acts cwd))).2 :=
    fun k => ⟨(only_one _ 0 k).1, (only_one _ 0 k).2.1⟩
  refine ⟨⟨N, final, f1, ?_⟩, ?_⟩
  · intro k h s
    have e1 : s.disk = fs' := by
      rw [(hs k).1, hk k h]
    have e2 : s.proc 0 = z := by
      rw [(hs k).2, hk k h]
    rw [e1, e2]
    exact ⟨f2, z4, z5⟩
  · intro k
    rw [(hs k).1]
    rcases Nat.le_total k N with h | h
    · obtain ⟨m, a, b⟩ := z3 k h
      exact ⟨m, a, b.symm⟩
    · obtain ⟨m, a, b⟩ := z3 N (le_refl _)
      rw [hk k h]
      rw [z2] at b
      exact ⟨m, a, b.symm⟩

/-- C105, violated: two programs that save to the same new directory (not with `save_as_fits`).  Each would succeed alone, but there is
a schedule in which the second dies of an exception and saves nothing, because the first has made the directory after the second had
looked for it. -/
theorem C105_race {calls : Fin 2 → SaveCall} {files : Fin 2 → List (Name × Img ℝ)} (hcwd : ∀ x ∈ cwd, GoodComp x) (htree : fs.IsTree)
    (hc : Compatible cwd fs calls files) (hkind : ∀ j, (calls j).isAsFits = false)
    (hsame : (calls 0).folder cwd = (calls 1).folder cwd) (hnew : ¬ fs.there (pathString ((calls 0).folder cwd))) :
    ∃ sched, (runSavers cwd fs calls sched).proc 0 = .ok [] ∧ (∃ e, (runSavers cwd fs calls sched).proc 1 = .error e) ∧
      ∀ p ∈ (files 1).map Prod.fst, (runSavers cwd fs calls sched).disk.file p = fs.file p := by
  obtain ⟨P0, a1, a2, a3, _, g, g1, g2, g3, g4⟩ := call_plan hcwd (hc.alone 0).1
  obtain ⟨P1, b1, b2, b3, _⟩ := call_plan hcwd (hc.alone 1).1
  have hl : P1.l = P0.l := by rw [a2, b2, hsame]
  rw [← a2] at hnew
  rw [hkind] at a3 b3
  -- both look
  have hlook : ∀ P : SavePlan, P.looks = true → P.l = P0.l → stepProc fs (.ok P.acts) = (fs, .ok (P.l.inits.map P.make ++ writeActs P.ws)) := by
    intro P h1 h2
    unfold SavePlan.acts
    rw [if_pos h1]
    show Act.run fs _ (.look P.l P.l.inits.length) = _
    unfold Act.run
    dsimp only
    rw [if_neg (by rw [h2]; exact hnew)]
    rfl
  obtain ⟨s, hs⟩ : ∃ s, s = runSavers cwd fs calls [0, 1] := ⟨_, rfl⟩
  have hs0 : runSavers cwd fs calls [0] = ⟨fs, Function.update (fun j => .ok ((calls j).acts cwd)) 0 (.ok (P0.l.inits.map P0.make ++ writeActs P0.ws))⟩ := by
    show turn ⟨fs, fun j => .ok ((calls j).acts cwd)⟩ 0 = _
    unfold turn
    dsimp only
    rw [a1, hlook P0 a3 rfl]
  have hs1 : s = ⟨fs, Function.update (Function.update (fun j => .ok ((calls j).acts cwd)) 0 (.ok (P0.l.inits.map P0.make ++ writeActs P0.ws)))
      1 (.ok (P1.l.inits.map P1.make ++ writeActs P1.ws))⟩ := by
    rw [hs, show ([0, 1] : List (Fin 2)) = [0] ++ [1] from rfl, runSavers_snoc, hs0]
    unfold turn
    dsimp only
    rw [Function.update_of_ne (show (1 : Fin 2) ≠ 0 by decide), b1, hlook P1 b3 hl]
  -- the first program goes on alone
  obtain ⟨final, fs', f1, f2, f3, f4⟩ := run_call hcwd htree.1 (calls 0)
  obtain ⟨rfl, k, f5, f6⟩ := f3 (hc.alone 0).1
  have hfirst : oneStep^[k] (fs, .ok (P0.l.inits.map P0.make ++ writeActs P0.ws)) = (fs', .ok []) := by
    have e : oneStep (fs, .ok ((calls 0).acts cwd)) = (fs, .ok (P0.l.inits.map P0.make ++ writeActs P0.ws)) := by
      rw [a1]
      exact hlook P0 a3 rfl
    rw [← e, ← Function.iterate_succ_apply, Function.iterate_succ_apply', f5]
    rfl
  have hdir : fs'.dir (pathString P0.l) := by
    have hg : g.dir (pathString P0.l) := g4.resolve_right hnew
    have hm : fs' ∈ (writeMany g P0.ws).states := by
      have := f1
      rw [g3, List.getLast?_cons] at this
      cases hw : (writeMany g P0.ws).states.getLast? with
      | none =>
        exfalso
        have := writeMany_head g P0.ws
        rw [List.getLast?_eq_none_iff.1 hw] at this
        cases this
      | some x =>
        rw [hw] at this
        have : x = fs' := by simpa using this
        rw [← this]
        exact List.mem_of_getLast? hw
    rw [writeMany_same_dirs P0.ws g fs' hm]
    exact hg
  obtain ⟨u, hu⟩ : ∃ u, u = runSavers cwd fs calls ([0, 1] ++ List.replicate k 0) := ⟨_, rfl⟩
  have hu' : u = (List.replicate k 0).foldl turn s := by
    rw [hu, hs]
    unfold runSavers
    rw [List.foldl_append]
  have hsp0 : s.proc 0 = .ok (P0.l.inits.map P0.make ++ writeActs P0.ws) := by
    rw [hs1]
    dsimp only
    rw [Function.update_of_ne (show (0 : Fin 2) ≠ 1 by decide), Function.update_self]
  have hsp1 : s.proc 1 = .ok (P1.l.inits.map P1.make ++ writeActs P1.ws) := by
    rw [hs1]
    dsimp only
    rw [Function.update_self]
  have hsd : s.disk = fs := by rw [hs1]
  obtain ⟨o1, o2, o3⟩ := only_one s 0 k
  rw [← hu', hsd, hsp0, hfirst] at o1 o2
  have o4 : u.proc 1 = .ok (P1.l.inits.map P1.make ++ writeActs P1.ws) := by
    rw [hu', o3 1 (by decide), hsp1]
  -- the second program cannot get past the directory
  have hstuck : ∀ m, ((oneStep^[m] (u.disk, u.proc 1)).1.dir (pathString P1.l)) ∧
      ((∃ pre a post, P1.l.inits = pre ++ a :: post ∧ (oneStep^[m] (u.disk, u.proc 1)).2 = .ok ((a :: post).map P1.make ++ writeActs P1.ws)) ∨
        ∃ e, (oneStep^[m] (u.disk, u.proc 1)).2 = .error e) := by
    intro m
    induction m with
    | zero =>
      refine ⟨?_, ?_⟩
      · show u.disk.dir (pathString P1.l)
        rw [o1, hl]
        exact hdir
      · left
        cases hi : P1.l.inits with
        | nil =>
          have := List.length_inits P1.l
          rw [hi] at this
          simp at this
        | cons a post =>
          refine ⟨[], a, post, rfl, ?_⟩
          show u.proc 1 = _
          rw [o4, hi]
    | succ m ih =>
      rw [Function.iterate_succ_apply']
      obtain ⟨x, hx⟩ : ∃ x, x = oneStep^[m] (u.disk, u.proc 1) := ⟨_, rfl⟩
      rw [← hx] at ih ⊢
      obtain ⟨σ, p⟩ := x
      obtain ⟨i1, ⟨pre, a, post, e, i2⟩ | ⟨e, i2⟩⟩ := ih
      · have i2 : p = .ok ((a :: post).map P1.make ++ writeActs P1.ws) := i2
        subst i2
        have hstep : oneStep (σ, .ok ((a :: post).map P1.make ++ writeActs P1.ws)) =
          Act.run σ (post.map P1.make ++ writeActs P1.ws) (P1.make a) := rfl
        rw [hstep]
        unfold SavePlan.make Act.run
        dsimp only
        split_ifs with hcond
        · exact ⟨i1, Or.inr ⟨_, rfl⟩⟩
        · refine ⟨Or.inl i1, Or.inl ?_⟩
          cases post with
          | nil =>
            exfalso
            apply hcond
            obtain ⟨ha, _⟩ := inits_split e
            have hal : a = P1.l := by
              have h1 := List.length_inits P1.l
              have h2 : P1.l.inits[pre.length]'(by rw [e]; simp) = a := by
                simp only [e]
                rw [List.getElem_append_right (le_refl _)]
                simp
              rw [List.getElem_inits] at h2
              rw [← h2, List.take_of_length_le]
              rw [e] at h1
              simp only [List.length_append, List.length_cons, List.length_nil] at h1
              omega
            right
            left
            rw [hal]
            exact ⟨i1, by rw [b3]; simp⟩
          | cons b post => exact ⟨pre ++ [a], b, post, by rw [e]; simp, rfl⟩
      · have i2 : p = .error e := i2
        subst i2
        exact ⟨i1, Or.inr ⟨e, rfl⟩⟩
  obtain ⟨N, hN⟩ := C105_ends cwd calls
  have hv : runSavers cwd fs calls ([0, 1] ++ List.replicate k 0 ++ List.replicate N 1) = (List.replicate N 1).foldl turn u := by
    rw [hu]
    unfold runSavers
    rw [List.foldl_append]
  obtain ⟨q1, q2, q3⟩ := only_one u 1 N
  rw [← hv] at q1 q2 q3
  have herr : ∃ e, (runSavers cwd fs calls ([0, 1] ++ List.replicate k 0 ++ List.replicate N 1)).proc 1 = .error e := by
    have hend := hN fs ([0, 1] ++ List.replicate k 0 ++ List.replicate N 1) 1 (by
      rw [List.count_append, List.count_replicate_self]
      omega)
    rcases hend with h | h
    · exfalso
      rcases (hstuck N).2 with ⟨pre, a, post, _, e⟩ | ⟨e', e⟩
      · rw [← q2, h] at e
        cases e
      · rw [← q2, h] at e
        cases e
    · exact h
  refine ⟨[0, 1] ++ List.replicate k 0 ++ List.replicate N 1, ?_, herr, ?_⟩
  · rw [q3 0 (by decide), o2]
  · obtain ⟨e, he⟩ := herr
    exact ((C105_any_schedule hcwd htree hc _).2 1).2.2 e he |>.1

/-! ## A case -/

/-- `/d/a.fits` and `/d/b.fits`. -/
def pairName (j : Fin 2) : Name := ['/', 'd', '/'] ++ ([if j = 0 then 'a' else 'b'] ++ fitsExt)

/-- Both programs save the polarization parameters of the same image. -/
def pairCalls (S : Fin 3 → Img ℝ) (j : Fin 2) : SaveCall := .allParams S (pairName j)

/-- The file with the given parameter. -/
def pairFile (j : Fin 2) (id : Name) : Name := ['/', 'd', '/'] ++ ([if j = 0 then 'a' else 'b'] ++ (['_'] ++ id ++ fitsExt))

/-- The files that are to be saved. -/
def pairFiles (S : Fin 3 → Img ℝ) (dolp : Img ℝ) (j : Fin 2) : List (Name × Img ℝ) :=
  [(pairFile j ['I'], S 0), (pairFile j ['Q'], S 1), (pairFile j ['U'], S 2), (pairFile j ['p', 'B'], pB S),
    (pairFile j ['A', 'o', 'L', 'P'], AoLP S), (pairFile j ['D', 'o', 'L', 'P'], dolp)]

theorem pair_compatible {S : Fin 3 → Img ℝ} {dolp : Img ℝ} (hd : DoLP S = .ok dolp) {fs : FileSystem} (hfs : ∀ p, fs.file p = none) :
    Compatible [['h']] fs (pairCalls S) (pairFiles S dolp) := by
  have hfold : ∀ j, (pairCalls S j).folder [['h']] = [['d']] := by
    intro j
    show resolveDots (absComponents [['h']] (pairName j)).dropLast = _
    revert j
    decide
  have hnames : ∀ j, (pairFiles S dolp j).map Prod.fst = [pairFile j ['I'], pairFile j ['Q'], pairFile j ['U'], pairFile j ['p', 'B'],
      pairFile j ['A', 'o', 'L', 'P'], pairFile j ['D', 'o', 'L', 'P']] := fun _ => rfl
  refine ⟨?_, ?_, ?_⟩
  · intro j
    have h := C71_all_params_partial (cwd := [['h']]) (fs := fs) (q := ['/', 'd', '/']) (stem := [if j = 0 then 'a' else 'b']) (S := S)
      (dolp := dolp) (by
        intro x hx
        rw [List.mem_singleton] at hx
        rw [hx]
        exact ⟨by decide, by decide, by decide, by decide⟩) (Or.inr rfl) (by revert j; decide) (by simp) (by revert j; decide)
      (fun a _ => hfs _) hd
    have e : ∀ id ∈ [['I'], ['Q'], ['U'], ['p', 'B'], ['A', 'o', 'L', 'P'], ['D', 'o', 'L', 'P']],
        abspath [['h']] (['/', 'd', '/'] ++ ([if j = 0 then 'a' else 'b'] ++ (['_'] ++ id ++ fitsExt))) = pairFile j id := by
      clear h
      revert j
      decide
    dsimp only at h
    rw [e ['I'] (by decide), e ['Q'] (by decide), e ['U'] (by decide), e ['p', 'B'] (by decide), e ['A', 'o', 'L', 'P'] (by decide),
      e ['D', 'o', 'L', 'P'] (by decide)] at h
    exact h
  · intro i j hij p hp
    rw [hnames] at hp ⊢
    have := hij
    revert p
    revert i j
    decide
  · intro i j p hp a ha
    rw [hfold] at ha
    rw [hnames] at hp
    have ha' : a ∈ [[], [['d']]] := by
      have := (List.mem_inits _ _).2 ha
      exact this
    have h : ∀ i : Fin 2, ∀ p ∈ [pairFile i ['I'], pairFile i ['Q'], pairFile i ['U'], pairFile i ['p', 'B'],
      pairFile i ['A', 'o', 'L', 'P'], pairFile i ['D', 'o', 'L', 'P']], ∀ a ∈ [[], [['d']]], p ≠ pathString a := by decide
    exact h i p hp a ha'

theorem root_tree : FileSystem.IsTree ⟨fun _ => none, fun p => p = ['/']⟩ := by
  refine ⟨rfl, ?_⟩
  intro l hl h
  have h : pathString l = ['/'] := h
  have : l = [] := nice_inj hl (fun x hx => by cases hx) (by rw [h]; rfl)
  subst this
  rfl

/-- C105: the full claim (programs that save different files do not disturb each other) is not true. -/
theorem C105_full_claim_false : ¬ ∀ (cwd : List Name) (fs : FileSystem) (n : Nat) (calls : Fin n → SaveCall)
    (files : Fin n → List (Name × Img ℝ)), (∀ x ∈ cwd, GoodComp x) → fs.IsTree → Compatible cwd fs calls files →
    ∀ sched j e, (runSavers cwd fs calls sched).proc j ≠ .error e := by
  intro hall
  obtain ⟨dolp, hd⟩ : ∃ d, DoLP (fun _ => Img.const 2 2 (3 : ℝ)) = .ok d :=
    let ⟨D, h, _⟩ := C19_total (fun _ => Img.const 2 2 (3 : ℝ)) (fun _ => ⟨rfl, rfl⟩)
    ⟨D, h⟩
  have hc := pair_compatible hd (fs := ⟨fun _ => none, fun p => p = ['/']⟩) (fun _ => rfl)
  have hcwd : ∀ x ∈ [['h']], GoodComp x := by
    intro x hx
    rw [List.mem_singleton] at hx
    rw [hx]
    exact ⟨by decide, by decide, by decide, by decide⟩
  obtain ⟨sched, _, ⟨e, he⟩, _⟩ := C105_race hcwd root_tree hc (fun _ => rfl) (by decide) (by
    rintro (h | h)
    · exact absurd h (by decide)
    · exact h rfl)
  exact hall _ _ _ _ _ hcwd root_tree hc sched 1 e he

/-- The hypotheses of `C105_saved_partial` are met: the same programs, when the directory exists. -/
example : ∃ (fs : FileSystem) (files : Fin 2 → List (Name × Img ℝ)), fs.IsTree ∧
    Compatible [['h']] fs (pairCalls fun _ => Img.const 2 2 (3 : ℝ)) files ∧
    ∀ j, fs.there (pathString ((pairCalls (fun _ => Img.const 2 2 (3 : ℝ)) j).folder [['h']])) := by
  obtain ⟨dolp, hd⟩ : ∃ d, DoLP (fun _ => Img.const 2 2 (3 : ℝ)) = .ok d :=
    let ⟨D, h, _⟩ := C19_total (fun _ => Img.const 2 2 (3 : ℝ)) (fun _ => ⟨rfl, rfl⟩)
    ⟨D, h⟩
  refine ⟨⟨fun _ => none, fun p => p = pathString [] ∨ p = pathString [['d']]⟩, _, ⟨Or.inl rfl, ?_⟩, pair_compatible hd (fun _ => rfl), ?_⟩
  · intro l hl h
    rcases h with h | h
    · have : l = [] := nice_inj hl (fun x hx => by cases hx) h
      subst this
      exact Or.inl rfl
    · have : l = [['d']] := nice_inj hl (by intro x hx; rw [List.mem_singleton] at hx; rw [hx]; exact ⟨by decide, by decide, by decide⟩) h
      subst this
      exact Or.inl rfl
  · intro j
    refine Or.inl (Or.inr ?_)
    show pathString (resolveDots (absComponents [['h']] (pairName j)).dropLast) = _
    revert j
    decide

end

end Micropol
