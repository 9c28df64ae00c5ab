import Verif.Props.LinearRoi

/-!
# C61: values along lines
-/

set_option autoImplicit false

namespace Micropol

noncomputable section

/-- The point (y, x) is a pixel of the image. -/
def Img.HasPixel (data : Img ℝ) (y x : ℤ) : Prop := 0 ≤ y ∧ y < data.h ∧ 0 ≤ x ∧ x < data.w

/-- `vals` are the values of the image at the points, all of which are pixels of the image. -/
def ValuesAt (data : Img ℝ) (ys xs : List ℤ) (vals : List ℝ) : Prop :=
  ys.length = vals.length ∧ xs.length = vals.length ∧
  ∀ k, k < vals.length → ∃ (y x : ℤ) (v : ℝ), ys[k]? = some y ∧ xs[k]? = some x ∧ vals[k]? = some v ∧
    data.HasPixel y x ∧ v = data.px y.toNat x.toNat

/-! ## Helper facts -/

theorem npGet_inside {data : Img ℝ} {y x : ℤ} (h : data.HasPixel y x) : npGet data y x = .ok (data.px y.toNat x.toNat) := by
  obtain ⟨h1, h2, h3, h4⟩ := h
  unfold npGet
  rw [if_pos ⟨by omega, h2, by omega, h4⟩, if_neg (by omega), if_neg (by omega)]

theorem npGet_cases (data : Img ℝ) (y x : ℤ) : (∃ v, npGet data y x = .ok v) ∨ npGet data y x = .error .indexError := by
  unfold npGet
  split
  · exact .inl ⟨_, rfl⟩
  · exact .inr rfl

theorem mapM_all_ok {α β : Type} {f : α → Py β} {g : α → β} {l : List α} (h : ∀ a ∈ l, f a = .ok (g a)) :
    l.mapM f = .ok (l.map g) := by
  induction l with
  | nil => rfl
  | cons a l ih =>
    rw [List.mapM_cons, h a (by simp), Py.ok_bind, ih fun b hb => h b (by simp [hb]), Py.ok_bind]
    rfl

theorem mapM_one_error {α β : Type} {f : α → Py β} {e : PyErr} {l : List α}
    (h : ∀ a ∈ l, (∃ v, f a = .ok v) ∨ f a = .error e) (he : ∃ a ∈ l, f a = .error e) : l.mapM f = .error e := by
  induction l with
  | nil => obtain ⟨a, ha, _⟩ := he; cases ha
  | cons a l ih =>
    rw [List.mapM_cons]
    rcases h a (by simp) with ⟨v, hv⟩ | ha
    · rw [hv, Py.ok_bind, ih (fun b hb => h b (by simp [hb]))]
      · rfl
      · obtain ⟨b, hb, hb'⟩ := he
        rcases List.mem_cons.1 hb with rfl | hb
        · rw [hv] at hb'; cases hb'
        · exact ⟨b, hb, hb'⟩
    · rw [ha]; rfl

theorem zip_map_range (n : ℕ) (f g : ℕ → ℤ) :
    ((List.range n).map f).zip ((List.range n).map g) = (List.range n).map (fun k => (f k, g k)) := by
  rw [List.zip_map']

theorem valuesAt_of {data : Img ℝ} {n : ℕ} {f g : ℕ → ℤ} (h : ∀ k, k < n → data.HasPixel (f k) (g k)) :
    ((List.range n).map (fun k => (f k, g k))).mapM (fun q => npGet data q.1 q.2) =
      .ok ((List.range n).map (fun k => data.px (f k).toNat (g k).toNat)) ∧
    ValuesAt data ((List.range n).map f) ((List.range n).map g) ((List.range n).map (fun k => data.px (f k).toNat (g k).toNat)) := by
  constructor
  · rw [mapM_all_ok (g := fun q : ℤ × ℤ => data.px q.1.toNat q.2.toNat)]
    · rw [List.map_map]
      rfl
    · intro q hq
      rw [List.mem_map] at hq
      obtain ⟨k, hk, rfl⟩ := hq
      exact npGet_inside (h k (List.mem_range.1 hk))
  · refine ⟨by simp, by simp, ?_⟩
    intro k hk
    have hk' : k < n := by simpa using hk
    have e : ∀ {α : Type} (f : ℕ → α), ((List.range n).map f)[k]? = some (f k) := by
      intro α f
      rw [List.getElem?_map, List.getElem?_range hk']
      rfl
    exact ⟨_, _, _, e f, e g, e _, h k hk', rfl⟩

theorem diff_ne {sy sx ey ex : ℤ} (hne : (sy, sx) ≠ (ey, ex)) : ey - sy ≠ 0 ∨ ex - sx ≠ 0 := by
  by_contra h
  push Not at h
  exact hne (Prod.ext (by simp only; omega) (by simp only; omega))

/-- The points of the line between integer points. -/
theorem dda_points {sy sx ey ex : ℤ} (hne : (sy, sx) ≠ (ey, ex)) : ∃ (n : ℕ) (f g : ℕ → ℤ) (d : ℝ), 0 < n ∧
    (n : ℤ) = max |ey - sy| |ex - sx| ∧
    dda (sy, sx) (ey, ex) = .ok ((List.range (n + 2)).map f, (List.range (n + 2)).map g, d) ∧
    (∀ k, k ≤ n → min sy ey ≤ f k ∧ f k ≤ max sy ey ∧ min sx ex ≤ g k ∧ g k ≤ max sx ex) ∧
    |f (n + 1) - ey| ≤ 1 ∧ |g (n + 1) - ex| ≤ 1 ∧
    (∀ k, k ≤ n + 1 → f k = pyInt (lineAt sy (ey - sy) n k)) ∧ (∀ k, k ≤ n + 1 → g k = pyInt (lineAt sx (ex - sx) n k)) := by
  have hpos := lineSteps_pos (diff_ne hne)
  have hge := lineSteps_ge (ey - sy) (ex - sx)
  have hnear : ∀ a b : ℤ, |b - a| ≤ lineSteps (ey - sy) (ex - sx) →
      |pyInt (lineAt a (b - a) (lineSteps (ey - sy) (ex - sx)) (lineSteps (ey - sy) (ex - sx) + 1)) - b| ≤ 1 := by
    intro a b hab
    have h1 := pyInt_step (lineAt_step a hpos hab (lineSteps (ey - sy) (ex - sx)))
    rw [lineAt_end a _ hpos, pyInt_int] at h1
    rwa [show a + (b - a) = b by omega] at h1
  refine ⟨lineSteps (ey - sy) (ex - sx), _, _, _, hpos, ?_, dda_ok ((sy : ℝ), (sx : ℝ)) ((ey : ℝ), (ex : ℝ)) (y1 := sy) (x1 := sx)
    (dy := ey - sy) (dx := ex - sx) (by simp [pyInt_int]) (by simp [pyInt_int]) (by simp [pyInt_int]) (by simp [pyInt_int]) rfl hpos,
    ?_, hnear _ _ hge.2, hnear _ _ hge.1, fun _ _ => rfl, fun _ _ => rfl⟩
  · unfold lineSteps
    rw [Int.toNat_of_nonneg (le_max_of_le_left (abs_nonneg _)), max_comm]
  · intro k hk
    have h1 := lineAt_between sy (ey - sy) hpos hk
    have h2 := lineAt_between sx (ex - sx) hpos hk
    rw [show sy + (ey - sy) = ey by omega] at h1
    rw [show sx + (ex - sx) = ex by omega] at h2
    exact ⟨h1.1, h1.2, h2.1, h2.2⟩

theorem dda_inside {data : Img ℝ} {sy sx ey ex y x : ℤ} (hs : data.HasPixel sy sx) (he : data.HasPixel ey ex)
    (h1 : min sy ey ≤ y) (h2 : y ≤ max sy ey) (h3 : min sx ex ≤ x) (h4 : x ≤ max sx ex) : data.HasPixel y x := by
  obtain ⟨a1, a2, a3, a4⟩ := hs
  obtain ⟨b1, b2, b3, b4⟩ := he
  exact ⟨by omega, by omega, by omega, by omega⟩

/-! ## C61: `linear_roi` -/

/-- The result for a segment whose end points are pixels depends on the extra point (y, x) after the end.  If it is a pixel
as well, the values are those of the image at the points; if one coordinate is too large, `IndexError`; otherwise (a
coordinate is -1) the last value is read from the opposite side of the image.  Missing from the claim: the last two
cases. -/
theorem C61_values_partial {data : Img ℝ} {sy sx ey ex : ℤ} (hs : data.HasPixel sy sx) (he : data.HasPixel ey ex)
    (hne : (sy, sx) ≠ (ey, ex)) :
    ∃ (ys xs : List ℤ) (d : ℝ) (y x : ℤ), dda (sy, sx) (ey, ex) = .ok (ys, xs, d) ∧ ys.getLast? = some y ∧ xs.getLast? = some x ∧
      (data.HasPixel y x → ∃ vals, linearRoi data (sy, sx) (ey, ex) = .ok (ys, xs, vals) ∧ ValuesAt data ys xs vals) ∧
      (y ≥ data.h ∨ x ≥ data.w → linearRoi data (sy, sx) (ey, ex) = .error .indexError) ∧
      (y < data.h → x < data.w → ¬ data.HasPixel y x → ∃ vals v, linearRoi data (sy, sx) (ey, ex) = .ok (ys, xs, vals) ∧
        vals.getLast? = some v ∧ (y = -1 ∨ x = -1) ∧
        v = data.px (if y = -1 then data.h - 1 else y.toNat) (if x = -1 then data.w - 1 else x.toNat)) := by
  obtain ⟨n, f, g, d, hpos, hn, hd, hin, hy, hx, _, _⟩ := dda_points hne
  have hlast : ∀ f : ℕ → ℤ, ((List.range (n + 2)).map f).getLast? = some (f (n + 1)) := by
    intro f
    rw [List.range_succ, List.map_append]
    simp
  refine ⟨_, _, d, f (n + 1), g (n + 1), hd, hlast f, hlast g, ?_, ?_, ?_⟩
  · intro hp
    obtain ⟨h1, h2⟩ := valuesAt_of (data := data) (n := n + 2) (f := f) (g := g) (by
      intro k hk
      by_cases hkn : k = n + 1
      · rw [hkn]; exact hp
      · obtain ⟨a1, a2, a3, a4⟩ := hin k (by omega)
        exact dda_inside hs he a1 a2 a3 a4)
    refine ⟨_, ?_, h2⟩
    unfold linearRoi
    rw [hd, Py.ok_bind]
    dsimp only
    rw [zip_map_range, h1]
    rfl
  · intro hp
    unfold linearRoi
    rw [hd, Py.ok_bind]
    dsimp only
    rw [zip_map_range, mapM_one_error (e := .indexError)]
    · rfl
    · intro q _
      exact npGet_cases data q.1 q.2
    · refine ⟨(f (n + 1), g (n + 1)), ?_, ?_⟩
      · rw [List.mem_map]
        exact ⟨n + 1, List.mem_range.2 (by omega), rfl⟩
      · unfold npGet
        rw [if_neg (by simp only; omega)]
  · intro h1 h2 hp
    obtain ⟨b1, b2, b3, b4⟩ := he
    rw [abs_le] at hy hx
    have hm : f (n + 1) = -1 ∨ g (n + 1) = -1 := by
      by_contra hc
      push Not at hc
      exact hp ⟨by omega, h1, by omega, h2⟩
    have hv : ∀ k, k < n + 2 → npGet data (f k) (g k) =
        .ok (data.px (if f k < 0 then f k + data.h else f k).toNat (if g k < 0 then g k + data.w else g k).toNat) := by
      intro k hk
      unfold npGet
      rw [if_pos]
      by_cases hkn : k = n + 1
      · rw [hkn]
        exact ⟨by omega, by omega, by omega, by omega⟩
      · obtain ⟨a1, a2, a3, a4⟩ := hin k (by omega)
        obtain ⟨c1, c2, c3, c4⟩ := dda_inside hs ⟨b1, b2, b3, b4⟩ a1 a2 a3 a4
        exact ⟨by omega, by omega, by omega, by omega⟩
    refine ⟨(List.range (n + 2)).map (fun k => data.px (if f k < 0 then f k + data.h else f k).toNat
      (if g k < 0 then g k + data.w else g k).toNat), data.px (if f (n + 1) < 0 then f (n + 1) + data.h else f (n + 1)).toNat
      (if g (n + 1) < 0 then g (n + 1) + data.w else g (n + 1)).toNat, ?_, ?_, hm, ?_⟩
    · unfold linearRoi
      rw [hd, Py.ok_bind]
      dsimp only
      rw [zip_map_range, mapM_all_ok (g := fun q : ℤ × ℤ => data.px (if q.1 < 0 then q.1 + data.h else q.1).toNat
        (if q.2 < 0 then q.2 + data.w else q.2).toNat)]
      · rw [Py.ok_bind, List.map_map]
        rfl
      · intro q hq
        rw [List.mem_map] at hq
        obtain ⟨k, hk, rfl⟩ := hq
        exact hv k (List.mem_range.1 hk)
    · rw [List.range_succ, List.map_append]
      simp
    · have e : ∀ (a : ℤ) (m : ℕ), -1 ≤ a → (if a < 0 then a + (m : ℤ) else a).toNat = if a = -1 then m - 1 else a.toNat := by
        intro a m ha
        by_cases h : a = -1
        · rw [if_pos (by omega), if_pos h]
          omega
        · rw [if_neg (by omega), if_neg h]
      rw [e _ _ (by omega), e _ _ (by omega)]

/-- In particular, if the end is not on the border of the image all is well. -/
theorem C61_interior_end_partial {data : Img ℝ} {sy sx ey ex : ℤ} (hs : data.HasPixel sy sx)
    (hy : 0 < ey ∧ ey + 1 < data.h) (hx : 0 < ex ∧ ex + 1 < data.w) (hne : (sy, sx) ≠ (ey, ex)) :
    ∃ (ys xs : List ℤ) (vals : List ℝ), linearRoi data (sy, sx) (ey, ex) = .ok (ys, xs, vals) ∧ ValuesAt data ys xs vals := by
  obtain ⟨ys, xs, d, y, x, h1, h2, h3, h4, _⟩ := C61_values_partial hs (ey := ey) (ex := ex)
    ⟨by omega, by omega, by omega, by omega⟩ hne
  obtain ⟨ys', xs', d', y', x', g1, g2, g3, _, _, _, g4, g5⟩ := C60_overshoot sy sx ey ex
    (n := (max |ey - sy| |ex - sx|).toNat) (by rw [Int.toNat_of_nonneg (le_max_of_le_left (abs_nonneg _))]) hne
  rw [h1] at g1
  cases g1
  rw [h2] at g2
  rw [h3] at g3
  cases g2
  cases g3
  rw [abs_le] at g4 g5
  obtain ⟨vals, h⟩ := h4 ⟨by omega, by omega, by omega, by omega⟩
  exact ⟨ys, xs, vals, h⟩

/-- The hypotheses are met. -/
example : (Img.ofFn 8 9 (fun y x => (y + x : ℝ))).HasPixel 0 0 ∧ ((0 : ℤ) < 3 ∧ (3 : ℤ) + 1 < (8 : ℕ)) ∧
    ((0 : ℤ) < 7 ∧ (7 : ℤ) + 1 < (9 : ℕ)) := by
  refine ⟨⟨le_refl _, ?_, le_refl _, ?_⟩, ?_, ?_⟩ <;> simp

/-- Rightwards along a row to the last column: always `IndexError`. -/
theorem C61_last_column_fails {data : Img ℝ} {y sx : ℤ} (hs : data.HasPixel y sx) (hlt : sx < data.w - 1) :
    linearRoi data (y, sx) (y, ((data.w - 1 : ℤ) : ℝ)) = .error .indexError := by
  have hne : (y, sx) ≠ (y, (data.w : ℤ) - 1) := fun h => by have := congrArg Prod.snd h; simp only at this; omega
  obtain ⟨h1, h2, h3, h4⟩ := hs
  obtain ⟨ys, xs, d, y', x', h5, h6, h7, _, h8, _⟩ := C61_values_partial ⟨h1, h2, h3, h4⟩ (ey := y) (ex := data.w - 1)
    ⟨h1, h2, by omega, by omega⟩ hne
  have habs : |(data.w : ℤ) - 1 - sx| = ((data.w : ℤ) - 1 - sx) := abs_of_nonneg (by omega)
  obtain ⟨ys', xs', d', y'', x'', g1, g2, g3, _, _, g4, _⟩ := C60_overshoot y sx y (data.w - 1)
    (n := ((data.w : ℤ) - 1 - sx).toNat) (by simp [habs]; omega) hne
  rw [h5] at g1
  cases g1
  rw [h7] at g3
  cases g3
  apply h8
  right
  rw [g4 (by rw [habs, Int.toNat_of_nonneg (by omega)]), Int.sign_eq_one_of_pos (by omega)]
  omega

/-- Leftwards along a row to column 0: the last value is taken from the other side of the image. -/
theorem C61_first_column_wraps {data : Img ℝ} {y sx : ℤ} (hs : data.HasPixel y sx) (hlt : 0 < sx) :
    ∃ (ys xs : List ℤ) (vals : List ℝ), linearRoi data (y, sx) (y, ((0 : ℤ) : ℝ)) = .ok (ys, xs, vals) ∧
      xs.getLast? = some (-1) ∧ vals.getLast? = some (data.px y.toNat (data.w - 1)) := by
  have hne : (y, sx) ≠ (y, (0 : ℤ)) := fun h => by have := congrArg Prod.snd h; simp only at this; omega
  obtain ⟨h1, h2, h3, h4⟩ := hs
  obtain ⟨ys, xs, d, y', x', h5, h6, h7, _, _, h8⟩ := C61_values_partial ⟨h1, h2, h3, h4⟩ (ey := y) (ex := 0)
    ⟨h1, h2, by omega, by omega⟩ hne
  have habs : |(0 : ℤ) - sx| = sx := by rw [zero_sub, abs_neg, abs_of_pos hlt]
  obtain ⟨n, f, g, d', hpos, hn, hd, hin, _, _, hf, hg⟩ := dda_points hne
  obtain ⟨ys', xs', d'', y'', x'', g1, g2, g3, _, _, g4, _⟩ := C60_overshoot y sx y 0 (n := sx.toNat) (by rw [habs, sub_self, abs_zero]; omega) hne
  rw [h5] at g1
  cases g1
  rw [h6] at g2
  rw [h7] at g3
  cases g2
  cases g3
  have ex : x' = -1 := by
    rw [g4 (by rw [habs, Int.toNat_of_nonneg (by omega)]), Int.sign_eq_neg_one_of_neg (by omega)]
    rfl
  have ey : y' = y := by
    rw [h5] at hd
    cases hd
    rw [List.range_succ, List.map_append, List.map_cons, List.map_nil, List.getLast?_concat] at h6
    injection h6 with h6
    rw [← h6, hf _ (by omega)]
    simp [lineAt, pyInt_int]
  subst ex ey
  obtain ⟨vals, v, k1, k2, _, k3⟩ := h8 h2 (by omega) (fun h => by have := h.2.2.1; omega)
  refine ⟨_, _, vals, k1, h7, ?_⟩
  rw [k2, k3, if_neg (by omega), if_pos rfl]

/-- The full claim is false. -/
theorem C61_full_claim_false : ¬ ∀ (data : Img ℝ) (sy sx ey ex : ℤ), data.HasPixel sy sx → data.HasPixel ey ex →
    (sy, sx) ≠ (ey, ex) → ∃ ys xs vals, linearRoi data (sy, sx) (ey, ex) = .ok (ys, xs, vals) := by
  intro h
  have hp : ∀ x : ℤ, 0 ≤ x → x < 4 → (Img.zeros 4 4 : Img ℝ).HasPixel 0 x := fun x h0 h1 => ⟨le_refl _, by
    show (0 : ℤ) < (4 : ℕ); norm_num, h0, by show x < (4 : ℕ); exact_mod_cast h1⟩
  obtain ⟨ys, xs, vals, h1⟩ := h (Img.zeros 4 4) 0 0 0 3 (hp 0 (by norm_num) (by norm_num)) (hp 3 (by norm_num) (by norm_num)) (by decide)
  have h2 := C61_last_column_fails (data := Img.zeros 4 4) (y := 0) (sx := 0) (hp 0 (by norm_num) (by norm_num)) (by
    show (0 : ℤ) < ((4 : ℕ) : ℤ) - 1; norm_num)
  have e : ((((Img.zeros 4 4 : Img ℝ).w : ℤ) - 1 : ℤ) : ℝ) = ((3 : ℤ) : ℝ) := by
    show (((4 : ℕ) : ℤ) - 1 : ℤ) = ((3 : ℤ) : ℝ)
    norm_num
  rw [e] at h2
  rw [h1] at h2
  cases h2

end

end Micropol
