import Verif.Spec.Load
import Verif.Lemmas.NumPy
import Verif.Lemmas.ConvertPath

/-!
# Facts about loading files
-/

set_option autoImplicit false

namespace Micropol

noncomputable section

theorem openBody_first {fs : Name → Option FitsFile} {c : Clock} {names : List Name} {k : ℕ} {n : Name} {f : FitsFile} {d : Img ℝ}
    {t : Option ℕ} (hr : rawExt ∉ names) (hf : fs n = some f) (hd : f.data = some d) (ht : fileDate c f = .ok t) :
    openBody fs c names k n ⟨none, none, []⟩ = .ok ⟨some (d.map (fun v => v / (k : ℝ))), some f, [t]⟩ := by
  unfold openBody
  rw [if_neg hr, hf]
  dsimp only
  unfold scaledData
  rw [hd]
  dsimp only
  rw [Py.ok_bind, ht]
  rfl

theorem openBody_next {fs : Name → Option FitsFile} {c : Clock} {names : List Name} {k : ℕ} {n : Name} {f g : FitsFile} {d s : Img ℝ}
    {t : Option ℕ} {ds : List (Option ℕ)} (hr : rawExt ∉ names) (hf : fs n = some f) (hd : f.data = some d)
    (ht : fileDate c f = .ok t) (hsh : s.h = d.h ∧ s.w = d.w) :
    openBody fs c names k n ⟨some s, some g, ds⟩ =
      .ok ⟨some (Img.ofFn s.h s.w (fun y x => s.px y x + d.px y x / (k : ℝ))), some g, ds ++ [t]⟩ := by
  unfold openBody
  rw [if_neg hr, hf]
  dsimp only
  unfold scaledData
  rw [hd]
  dsimp only
  rw [Py.ok_bind, npBin_ok (B := d.map (fun v => v / (k : ℝ))) hsh.1 hsh.2, Py.ok_bind, ht]
  refine congrArg Except.ok ?_
  have e : Img.ofFn s.h s.w (fun y x => s.px y x + (d.map (fun v => v / (k : ℝ))).px y x) =
      Img.ofFn s.h s.w (fun y x => s.px y x + d.px y x / (k : ℝ)) := by
    refine Img.ofFn_congr ?_
    intro y x hy hx
    rw [Img.map_px _ _ (by rw [← hsh.1]; exact hy) (by rw [← hsh.2]; exact hx)]
  rw [e]
  rfl

theorem sum_map_div_const {α : Type} (l : List α) (f : α → ℝ) (a : ℝ) : (l.map (fun x => f x / a)).sum = (l.map f).sum / a := by
  induction l with
  | nil => simp
  | cons b l ih => simp only [List.map_cons, List.sum_cons, ih, add_div]

theorem openFold {fs : Name → Option FitsFile} {c : Clock} {all : List Name} {k h w : ℕ} {img : Name → Img ℝ} {date : Name → Option ℕ}
    (hr : rawExt ∉ all) {g : FitsFile} (names : List Name) (hg : ∀ n ∈ names, (img n).HasShape h w ∧
      ∃ f, fs n = some f ∧ f.data = some (img n) ∧ fileDate c f = .ok (date n)) (s : Img ℝ) (hs : s.HasShape h w) (ds : List (Option ℕ)) :
    forList names (⟨some s, some g, ds⟩ : OpenState) (openBody fs c all k) =
      .ok ⟨some (Img.ofFn h w (fun y x => s.px y x + (names.map (fun n => (img n).px y x / (k : ℝ))).sum)), some g, ds ++ names.map date⟩ := by
  induction names generalizing s ds with
  | nil =>
    unfold forList
    simp only [List.foldlM_nil, List.map_nil, List.sum_nil, add_zero, List.append_nil]
    refine congrArg Except.ok ?_
    congr 2
    obtain ⟨rfl, rfl⟩ := hs
    refine Img.ext_px rfl rfl ?_
    intro y x hy hx
    rw [Img.ofFn_px hy hx]
  | cons n names ih =>
    obtain ⟨hsh, f, hf, hd, ht⟩ := hg n (by simp)
    unfold forList at ih ⊢
    rw [List.foldlM_cons, openBody_next hr hf hd ht ⟨by rw [hs.1, hsh.1], by rw [hs.2, hsh.2]⟩, Py.ok_bind,
      ih (fun m hm => hg m (by simp [hm])) (Img.ofFn s.h s.w (fun y x => s.px y x + (img n).px y x / (k : ℝ))) ⟨hs.1, hs.2⟩ (ds ++ [date n])]
    have e1 : Img.ofFn h w (fun y x => (Img.ofFn s.h s.w (fun y x => s.px y x + (img n).px y x / (k : ℝ))).px y x +
        (names.map (fun n => (img n).px y x / (k : ℝ))).sum) =
        Img.ofFn h w (fun y x => s.px y x + ((n :: names).map (fun n => (img n).px y x / (k : ℝ))).sum) := by
      refine Img.ofFn_congr ?_
      intro y x hy hx
      rw [Img.ofFn_px (by rw [hs.1]; exact hy) (by rw [hs.2]; exact hx)]
      simp only [List.map_cons, List.sum_cons]
      ring
    rw [e1, List.append_assoc]
    rfl

/-- Loading a list of good files. -/
theorem loadImage_ok {fs : Name → Option FitsFile} {c : Clock} {n : Name} {names : List Name} {h w : ℕ} {img : Name → Img ℝ}
    {date : Name → Option ℕ} (average : Bool) (hg : GoodFiles fs c (n :: names) h w img date) : ∃ f, fs n = some f ∧
    loadImage fs c (.list (n :: names)) average = .ok
      { data := Img.ofFn h w (fun y x => ((n :: names).map (fun n => (img n).px y x)).sum / ((1 + average.toNat * names.length : ℕ) : ℝ)),
        filename := if names = [] then n else sumName n, first := f,
        sumOf := if names = [] then none else some (names.length + 1),
        strtObs := if names = [] then none else
          ((((n :: names).map date).filterMap id).mergeSort (fun a b => decide (a ≤ b))).head?.map c.str,
        endObs := if names = [] then none else
          ((((n :: names).map date).filterMap id).mergeSort (fun a b => decide (a ≤ b))).getLast?.map c.str } := by
  obtain ⟨hr, hg⟩ := hg
  obtain ⟨hsh, f, hf, hd, ht⟩ := hg n (by simp)
  refine ⟨f, hf, ?_⟩
  unfold loadImage
  dsimp only [FilesArg.names]
  rw [if_neg (by simp)]
  simp only [List.length_cons, Nat.add_sub_cancel]
  have hfold : forList (n :: names) (⟨none, none, []⟩ : OpenState) (openBody fs c (n :: names) (1 + average.toNat * names.length)) =
      .ok ⟨some (Img.ofFn h w (fun y x => ((n :: names).map (fun n => (img n).px y x)).sum / ((1 + average.toNat * names.length : ℕ) : ℝ))),
        some f, (n :: names).map date⟩ := by
    have h2 := openFold (k := 1 + average.toNat * names.length) hr (g := f) names (fun m hm => hg m (by simp [hm]))
      ((img n).map (fun v => v / ((1 + average.toNat * names.length : ℕ) : ℝ))) ⟨hsh.1, hsh.2⟩ [date n]
    have h1 := openBody_first (k := 1 + average.toNat * names.length) hr hf hd ht
    unfold forList at h2 ⊢
    rw [List.foldlM_cons, h1, Py.ok_bind, h2]
    refine congrArg Except.ok ?_
    congr 2
    refine Img.ofFn_congr ?_
    intro y x hy hx
    rw [Img.map_px _ _ (by rw [hsh.1]; exact hy) (by rw [hsh.2]; exact hx), List.map_cons, List.sum_cons, add_div, ← sum_map_div_const]
  rw [hfold, Py.ok_bind]
  dsimp only
  by_cases hn : names = []
  · subst hn
    rfl
  · have : 0 < names.length := List.length_pos_of_ne_nil hn
    rw [if_pos (by omega)]
    simp only [if_neg hn]
    rfl

end

end Micropol
