/-
C90: the picture of a two-dimensional histogram shows the histogram.
-/
import Verif.Lemmas.HistPlot

namespace Verif.HistPlot
open Verif

/-- The position of a value on a colour scale from `lo` to `hi`. -/
noncomputable def position (lo hi v : ℝ) : ℝ := if lo = hi then 0 else (v - lo) / (hi - lo)

theorem level_fin (lo hi c : ℝ) (h : lo ≤ hi) : level (.fin lo) (.fin hi) (.fin c) = .ok (.fin (position lo hi c)) := by
  unfold level position
  by_cases he : lo = hi
  · subst he; rw [if_pos ⟨rfl, by simp⟩, if_pos rfl]
  · have h1 : ¬ (XF.fin lo = XF.fin hi ∧ ¬ (XF.fin lo).isNaN) := by
      rintro ⟨h, _⟩; exact he (XF.fin.inj h)
    rw [if_neg h1, if_neg (show ¬ XF.fin hi < XF.fin lo from not_lt.2 h), if_neg he]
    show Except.ok (XF.div (XF.fin (c + -lo)) (XF.fin (hi + -lo))) = _
    have hne : hi + -lo ≠ 0 := fun hz => he (by linarith)
    rw [XF.div, if_neg hne, ← sub_eq_add_neg, ← sub_eq_add_neg]

theorem shown_fin (density : Bool) (binsX : List ℝ) (binsY : List (List ℝ)) (hist : List (List ℝ)) (b : Nat × Nat)
    (hb : b ∈ Llh.cells (hist.map List.length))
    (harea : density = true → (binsX.getD (b.1 + 1) 0 - binsX.getD b.1 0) *
      ((binsY.getD b.1 []).getD (b.2 + 1) 0 - (binsY.getD b.1 []).getD b.2 0) ≠ 0) :
    shown density (rectOf binsX binsY b.1 b.2 (((hist.map (List.map XF.fin)).getD b.1 []).getD b.2 .nan)) =
      .fin (binValue density binsX binsY hist b) := by
  obtain ⟨n, hn, hlt⟩ := (mem_cells _ _).1 hb
  rw [List.getElem?_map] at hn
  cases hr : hist[b.1]? with
  | none => rw [hr] at hn; cases hn
  | some r =>
    rw [hr] at hn
    simp only [Option.map_some, Option.some.injEq] at hn
    have hv : ((hist.map (List.map XF.fin)).getD b.1 []).getD b.2 .nan = .fin ((hist.getD b.1 []).getD b.2 0) := by
      simp [List.getElem?_map, hr, List.getElem?_eq_getElem (show b.2 < r.length by omega)]
    rw [hv]
    unfold shown binValue rectOf
    cases density with
    | false => simp
    | true =>
      simp only [if_true]
      show XF.div _ _ = _
      rw [XF.div, if_neg (harea rfl)]

/-- The picture of a histogram all of whose entries belong to bins, for any limits of the colour scale in order. -/
theorem picture_spec (binsX : List ℝ) (binsY : List (List ℝ)) (hist : List (List ℝ)) (density : Bool)
    (vmin vmax : Option ℝ) (hin : ∀ b ∈ Llh.cells (hist.map List.length), Llh.IsBin (.irreg2 binsX binsY) b.1 b.2)
    (hne : hist.flatten ≠ [])
    (harea : density = true → ∀ b ∈ Llh.cells (hist.map List.length), (binsX.getD (b.1 + 1) 0 - binsX.getD b.1 0) *
      ((binsY.getD b.1 []).getD (b.2 + 1) 0 - (binsY.getD b.1 []).getD b.2 0) ≠ 0) :
    ∃ lo hi x0 x1 y0 y1,
      (lo ∈ (Llh.cells (hist.map List.length)).map (binValue density binsX binsY hist) ∧
        hi ∈ (Llh.cells (hist.map List.length)).map (binValue density binsX binsY hist) ∧
        ∀ b ∈ Llh.cells (hist.map List.length), lo ≤ binValue density binsX binsY hist b ∧
          binValue density binsX binsY hist b ≤ hi) ∧
      ((x0 ∈ binsX ∧ x1 ∈ binsX ∧ ∀ x ∈ binsX, x0 ≤ x ∧ x ≤ x1) ∧
        y0 ∈ binsY.flatten ∧ y1 ∈ binsY.flatten ∧ ∀ y ∈ binsY.flatten, y0 ≤ y ∧ y ≤ y1) ∧
      (vmin.getD lo ≤ vmax.getD hi → plotHist binsX binsY (hist.map (List.map XF.fin)) density (vmin.map XF.fin) (vmax.map XF.fin) =
        .ok ⟨(Llh.cells (hist.map List.length)).map (fun b =>
          ⟨rectOf binsX binsY b.1 b.2 (((hist.map (List.map XF.fin)).getD b.1 []).getD b.2 .nan),
            .fin (position (vmin.getD lo) (vmax.getD hi) (binValue density binsX binsY hist b))⟩),
          (.fin x0, .fin x1), (.fin y0, .fin y1)⟩) ∧
      (vmax.getD hi < vmin.getD lo →
        plotHist binsX binsY (hist.map (List.map XF.fin)) density (vmin.map XF.fin) (vmax.map XF.fin) = .error .valueError) := by
  have hshape : (hist.map (List.map XF.fin)).map List.length = hist.map List.length := by
    simp [Function.comp_def]
  have hcne : Llh.cells (hist.map List.length) ≠ [] := by
    intro h0
    apply hne
    rw [List.flatten_eq_nil_iff]
    intro r hr
    obtain ⟨i, hi, rfl⟩ := List.getElem_of_mem hr
    by_contra hc
    have : (i, 0) ∈ Llh.cells (hist.map List.length) :=
      (mem_cells _ _).2 ⟨(hist[i]).length, by simp [List.getElem?_eq_getElem hi], List.length_pos_iff.2 hc⟩
    rw [h0] at this; cases this
  obtain ⟨b0, hb0⟩ := List.exists_mem_of_ne_nil _ hcne
  obtain ⟨hx0, r0, hr0, hj0⟩ := hin b0 hb0
  have hxne : binsX ≠ [] := by rintro rfl; simp at hx0
  have hyne : binsY.flatten ≠ [] := by
    intro h0
    have := List.flatten_eq_nil_iff.1 h0 r0 (List.mem_of_getElem? hr0)
    rw [this] at hj0; simp at hj0
  have hrects := rects_ok binsX binsY (hist.map (List.map XF.fin)) (by rw [hshape]; exact hin)
  rw [hshape] at hrects
  have hsh : ((Llh.cells (hist.map List.length)).map
      (fun b => rectOf binsX binsY b.1 b.2 (((hist.map (List.map XF.fin)).getD b.1 []).getD b.2 .nan))).map (shown density) =
      ((Llh.cells (hist.map List.length)).map (binValue density binsX binsY hist)).map XF.fin := by
    rw [List.map_map, List.map_map]
    apply List.map_congr_left
    intro b hb
    exact shown_fin density binsX binsY hist b hb (fun hd => harea hd b hb)
  obtain ⟨lo, hlo, hlom, hlol⟩ := minOf_fin ((Llh.cells (hist.map List.length)).map (binValue density binsX binsY hist)) (by simpa using hcne)
  obtain ⟨hi, hhi, hhim, hhil⟩ := maxOf_fin ((Llh.cells (hist.map List.length)).map (binValue density binsX binsY hist)) (by simpa using hcne)
  obtain ⟨x0, hx0', hx0m, hx0l⟩ := minOf_fin binsX hxne
  obtain ⟨x1, hx1', hx1m, hx1l⟩ := maxOf_fin binsX hxne
  obtain ⟨y0, hy0', hy0m, hy0l⟩ := minOf_fin binsY.flatten hyne
  obtain ⟨y1, hy1', hy1m, hy1l⟩ := maxOf_fin binsY.flatten hyne
  refine ⟨lo, hi, x0, x1, y0, y1, ⟨hlom, hhim, fun b hb => ⟨hlol _ (List.mem_map_of_mem hb), hhil _ (List.mem_map_of_mem hb)⟩⟩,
    ⟨⟨hx0m, hx1m, fun x hx => ⟨hx0l x hx, hx1l x hx⟩⟩, hy0m, hy1m, fun y hy => ⟨hy0l y hy, hy1l y hy⟩⟩, ?_, ?_⟩
  all_goals intro hle
  all_goals unfold plotHist
  all_goals rw [hrects]
  all_goals simp only [bind, Except.bind]
  all_goals rw [hsh, hlo, hhi]
  all_goals simp only
  all_goals have hvmin : (vmin.map XF.fin).getD (.fin lo) = .fin (vmin.getD lo) := by cases vmin <;> rfl
  all_goals have hvmax : (vmax.map XF.fin).getD (.fin hi) = .fin (vmax.getD hi) := by cases vmax <;> rfl
  all_goals rw [hvmin, hvmax]
  · rw [mapM_ok _ (fun r => (⟨r, match level (.fin (vmin.getD lo)) (.fin (vmax.getD hi)) (shown density r) with
        | .ok l => l | .error _ => .nan⟩ : Patch)), List.map_map]
    · simp only [hx0', hx1', hy0', hy1', pure, Except.pure]
      congr 2
      apply List.map_congr_left
      intro b hb
      simp only [Function.comp_def]
      rw [shown_fin density binsX binsY hist b hb (fun hd => harea hd b hb), level_fin _ _ _ hle]
    · intro r hr
      obtain ⟨b, hb, rfl⟩ := List.mem_map.1 hr
      rw [shown_fin density binsX binsY hist b hb (fun hd => harea hd b hb), level_fin _ _ _ hle]
      rfl
  · rw [mapM_error _ .valueError]
    · intro r hr
      left
      unfold level
      rw [if_neg, if_pos (show XF.fin (vmax.getD hi) < XF.fin (vmin.getD lo) from hle)]
      rintro ⟨h, _⟩; exact absurd (XF.fin.inj h) hle.ne'
    · refine ⟨_, List.mem_map_of_mem hb0, ?_⟩
      unfold level
      rw [if_neg, if_pos (show XF.fin (vmax.getD hi) < XF.fin (vmin.getD lo) from hle)]
      rintro ⟨h, _⟩; exact absurd (XF.fin.inj h) hle.ne'

/-- **C90 (picture, partial).** If the histogram fits the bins, it and its contents are finite, it is drawn with exactly one rectangle for each bin, in order, whose corners
are those of the bin.  The position of its colour on the scale is linear in the content of the bin (with `density` in the
content divided by the area), 0 for the smallest and 1 for the largest one; the axes reach from the smallest to the largest edge. -/
theorem C90_picture_partial (binsX : List ℝ) (binsY : List (List ℝ)) (hist : List (List ℝ)) (density : Bool) (hfit : Fits binsX binsY hist)
    (hne : hist.flatten ≠ [])
    (harea : density = true → ∀ (i j : Nat) (x0 x1 : ℝ) (row : List ℝ) (y0 y1 : ℝ), binsX[i]? = some x0 → binsX[i + 1]? = some x1 →
      binsY[i]? = some row → row[j]? = some y0 → row[j + 1]? = some y1 → x0 ≠ x1 ∧ y0 ≠ y1) :
    ∃ (pic : Picture) (lo hi : ℝ),
      plotHist binsX binsY (hist.map (List.map XF.fin)) density none none = .ok pic ∧
      (∃ b ∈ Llh.binList (.irreg2 binsX binsY), binValue density binsX binsY hist b = lo) ∧
      (∃ b ∈ Llh.binList (.irreg2 binsX binsY), binValue density binsX binsY hist b = hi) ∧
      (∀ b ∈ Llh.binList (.irreg2 binsX binsY), lo ≤ binValue density binsX binsY hist b ∧
        binValue density binsX binsY hist b ≤ hi) ∧
      List.Forall₂ (fun b p => Covers binsX binsY b.1 b.2 p ∧
        p.level = .fin (if lo = hi then 0 else (binValue density binsX binsY hist b - lo) / (hi - lo)))
        (Llh.binList (.irreg2 binsX binsY)) pic.patches ∧
      ∃ x0 x1 y0 y1, pic.xlim = (.fin x0, .fin x1) ∧ pic.ylim = (.fin y0, .fin y1) ∧
        (x0 ∈ binsX ∧ x1 ∈ binsX ∧ ∀ x ∈ binsX, x0 ≤ x ∧ x ≤ x1) ∧
        y0 ∈ binsY.flatten ∧ y1 ∈ binsY.flatten ∧ ∀ y ∈ binsY.flatten, y0 ≤ y ∧ y ≤ y1 := by
  have hin := isBin_of_fits binsX binsY hist hfit
  obtain ⟨lo, hi, x0, x1, y0, y1, ⟨h1, h2, h3⟩, ⟨h4, h5⟩, h6, _⟩ :=
    picture_spec binsX binsY hist density none none hin hne (by
      intro hd b hb
      obtain ⟨hi, r, hr, hj⟩ := hin b hb
      have hr' : binsY.getD b.1 [] = r := by simp [hr]
      obtain ⟨hx, hy⟩ := harea hd b.1 b.2 (binsX.getD b.1 0) (binsX.getD (b.1 + 1) 0) r (r.getD b.2 0) (r.getD (b.2 + 1) 0)
        (by rw [List.getElem?_eq_getElem (by omega)]; simp [List.getElem?_eq_getElem (show b.1 < binsX.length by omega)])
        (by rw [List.getElem?_eq_getElem hi]; simp [List.getElem?_eq_getElem hi]) hr
        (by rw [List.getElem?_eq_getElem (by omega)]; simp [List.getElem?_eq_getElem (show b.2 < r.length by omega)])
        (by rw [List.getElem?_eq_getElem hj]; simp [List.getElem?_eq_getElem hj])
      rw [hr']
      exact mul_ne_zero (sub_ne_zero.2 hx.symm) (sub_ne_zero.2 hy.symm))
  rw [← cells_fits binsX binsY hist hfit]
  obtain ⟨b, hb, hbl⟩ := List.mem_map.1 h1
  obtain ⟨b', hb', hbl'⟩ := List.mem_map.1 h2
  have hlh : lo ≤ hi := hbl ▸ (h3 b hb).2
  refine ⟨_, lo, hi, h6 hlh, ⟨b, hb, hbl⟩, ⟨b', hb', hbl'⟩, h3, ?_, x0, x1, y0, y1, rfl, rfl, h4, h5⟩
  rw [List.forall₂_map_right_iff, List.forall₂_same]
  intro b hb
  exact ⟨rectOf_covers _ _ _ _ _ _ (hin b hb), rfl⟩

/-- **C90 (order of colours).** Positions on the colour scale are ordered as the values shown. -/
theorem C90_colours_ordered (lo hi v w : ℝ) (h : lo < hi) :
    (if lo = hi then 0 else (v - lo) / (hi - lo)) ≤ (if lo = hi then 0 else (w - lo) / (hi - lo)) ↔ v ≤ w := by
  rw [if_neg h.ne, if_neg h.ne, div_le_div_iff_of_pos_right (by linarith)]
  constructor <;> intro <;> linarith

/-- **C90 (events and rectangles).** An event counted in a bin lies in the rectangle of the bin, and an event strictly inside the
rectangle is counted in the bin. -/
theorem C90_events (binsX : List ℝ) (binsY : List (List ℝ)) (i j : Nat) (p : Patch) (h : Covers binsX binsY i j p) (x y : ℝ) :
    (Llh.EventIn (.irreg2 binsX binsY) i j [some x, some y] →
      (p.rect.x ≤ x ∧ x ≤ p.rect.x + p.rect.width) ∧ p.rect.y ≤ y ∧ y ≤ p.rect.y + p.rect.height) ∧
    ((p.rect.x < x ∧ x < p.rect.x + p.rect.width) ∧ (p.rect.y < y ∧ y < p.rect.y + p.rect.height) →
      Llh.EventIn (.irreg2 binsX binsY) i j [some x, some y]) := by
  obtain ⟨x0, x1, row, y0, y1, h1, h2, h3, h4, h5, h6, h7, h8, h9⟩ := h
  rw [h7, h9, h6, h8]
  constructor
  · rintro ⟨⟨a, b, v, ha, hb, hv, hl, hu⟩, r, hr, c, d, w, hc, hd, hw, hl', hu'⟩
    rw [h1] at ha; rw [h2] at hb; rw [h3] at hr
    cases ha; cases hb; cases hr
    rw [h4] at hc; rw [h5] at hd
    cases hc; cases hd
    simp only [List.getElem?_cons_zero, Option.some.injEq, List.getElem?_cons_succ] at hv hw
    subst hv; subst hw
    exact ⟨⟨hl.le, hu⟩, hl'.le, hu'⟩
  · rintro ⟨⟨a, b⟩, c, d⟩
    exact ⟨⟨x0, x1, x, h1, h2, rfl, a, b.le⟩, row, h3, y0, y1, y, h4, h5, rfl, c, d.le⟩

/-- **C90 (limits given).** With limits of the colour scale given in order, every rectangle stays as it is and its position on the
scale is linear between them, outside [0, 1] for values outside; in the wrong order the plot raises. -/
theorem C90_given_limits (binsX : List ℝ) (binsY : List (List ℝ)) (hist : List (List ℝ)) (hfit : Fits binsX binsY hist)
    (hne : hist.flatten ≠ []) (vmin vmax : ℝ) :
    (vmin < vmax → ∃ pic, plotHist binsX binsY (hist.map (List.map XF.fin)) false (some (.fin vmin)) (some (.fin vmax)) = .ok pic ∧
      List.Forall₂ (fun b p => Covers binsX binsY b.1 b.2 p ∧
        p.level = .fin ((binValue false binsX binsY hist b - vmin) / (vmax - vmin))) (Llh.binList (.irreg2 binsX binsY)) pic.patches) ∧
    (vmax < vmin → plotHist binsX binsY (hist.map (List.map XF.fin)) false (some (.fin vmin)) (some (.fin vmax)) = .error .valueError) := by
  have hin := isBin_of_fits binsX binsY hist hfit
  obtain ⟨lo, hi, x0, x1, y0, y1, _, _, h6, h7⟩ :=
    picture_spec binsX binsY hist false (some vmin) (some vmax) hin hne (by simp)
  refine ⟨fun hlt => ⟨_, h6 hlt.le, ?_⟩, fun hlt => h7 hlt⟩
  rw [← cells_fits binsX binsY hist hfit, List.forall₂_map_right_iff, List.forall₂_same]
  intro b hb
  refine ⟨rectOf_covers _ _ _ _ _ _ (hin b hb), ?_⟩
  simp [position, hlt.ne]

/-- **C90 (histogram of another shape).** A histogram with an entry outside the bins raises IndexError. One that is smaller than
the bins is drawn without a warning: rectangles appear only for its entries. -/
theorem C90_other_shape (binsX : List ℝ) (binsY : List (List ℝ)) (density : Bool) (vmin vmax : Option XF) :
    (∀ hist : List (List XF), (∃ i j r, hist[i]? = some r ∧ j < r.length ∧ ¬ Llh.IsBin (.irreg2 binsX binsY) i j) →
      plotHist binsX binsY hist density vmin vmax = .error .indexError) ∧
    ∀ hist : List (List ℝ), hist.flatten ≠ [] →
      (∀ i j r, hist[i]? = some r → j < r.length → Llh.IsBin (.irreg2 binsX binsY) i j) →
      ∃ pic, plotHist binsX binsY (hist.map (List.map XF.fin)) false none none = .ok pic ∧
        pic.patches.length = hist.flatten.length := by
  constructor
  · rintro hist ⟨i, j, r, hr, hj, hn⟩
    unfold plotHist
    rw [rects_error binsX binsY hist ⟨(i, j), (mem_cells _ _).2 ⟨r.length, by simp [hr], hj⟩, hn⟩]
    rfl
  · intro hist hne hin
    obtain ⟨lo, hi, x0, x1, y0, y1, ⟨h1, h2, h3⟩, _, h6, _⟩ :=
      picture_spec binsX binsY hist false none none (by
        intro b hb
        obtain ⟨n, hn, hlt⟩ := (mem_cells _ _).1 hb
        rw [List.getElem?_map] at hn
        cases hr : hist[b.1]? with
        | none => rw [hr] at hn; cases hn
        | some r =>
          rw [hr] at hn
          simp only [Option.map_some, Option.some.injEq] at hn
          exact hin b.1 b.2 r hr (by omega)) hne (by simp)
    obtain ⟨b, hb, hbl⟩ := List.mem_map.1 h1
    refine ⟨_, h6 (hbl ▸ (h3 b hb).2), ?_⟩
    have := congrArg List.length (entries_eq (0 : ℝ) hist)
    rw [List.length_map] at this ⊢
    rw [← this]
    clear this
    have key : ∀ k (l : List (List ℝ)), ((l.zipIdx k).flatMap (fun ri => ri.1.zipIdx.map (fun nj => (ri.2, nj.2, nj.1)))).length =
        l.flatten.length := by
      intro k l
      induction l generalizing k with
      | nil => rfl
      | cons r l ih => rw [List.zipIdx_cons, List.flatMap_cons, List.length_append, ih]; simp
    exact key 0 hist

/-- **C90 (empty histogram).** A histogram without entries raises ValueError, also if the limits of the colour scale are given. -/
theorem C90_empty (binsX : List ℝ) (binsY : List (List ℝ)) (hist : List (List XF)) (density : Bool) (vmin vmax : Option XF)
    (h : hist.flatten = []) : plotHist binsX binsY hist density vmin vmax = .error .valueError := by
  have hc : Llh.cells (hist.map List.length) = [] := by
    rw [List.eq_nil_iff_forall_not_mem]
    intro b hb
    obtain ⟨n, hn, hlt⟩ := (mem_cells _ _).1 hb
    rw [List.getElem?_map] at hn
    cases hr : hist[b.1]? with
    | none => rw [hr] at hn; cases hn
    | some r =>
      rw [hr] at hn
      simp only [Option.map_some, Option.some.injEq] at hn
      rw [List.flatten_eq_nil_iff.1 h r (List.mem_of_getElem? hr)] at hn
      simp at hn; omega
  unfold plotHist
  rw [rects_ok binsX binsY hist (by rw [hc]; simp), hc]
  rfl

/-- **C90 (one undefined value blanks the picture).** If the content of one bin is NaN, or with `density` a bin without events has
no area, then no rectangle has a position on the colour scale. -/
theorem C90_nan_blanks_all (binsX : List ℝ) (binsY : List (List ℝ)) (hist : List (List XF)) (density : Bool)
    (hfit : Fits binsX binsY hist) (i j : Nat) (r : List XF) (hr : hist[i]? = some r)
    (h : r[j]? = some .nan ∨ (density = true ∧ r[j]? = some (.fin 0) ∧
      ∃ x0 x1 row y0 y1, binsX[i]? = some x0 ∧ binsX[i + 1]? = some x1 ∧ binsY[i]? = some row ∧ row[j]? = some y0 ∧
        row[j + 1]? = some y1 ∧ (x0 = x1 ∨ y0 = y1))) :
    ∃ pic, plotHist binsX binsY hist density none none = .ok pic ∧ pic.patches.length = (Llh.binList (.irreg2 binsX binsY)).length ∧
      ∀ p ∈ pic.patches, p.level = .nan := by
  have hin := isBin_of_fits binsX binsY hist hfit
  have hj : j < r.length := by
    rcases h with h | ⟨_, h, _⟩ <;> exact (List.getElem?_eq_some_iff.1 h).1
  have hb0 : (i, j) ∈ Llh.cells (hist.map List.length) := (mem_cells _ _).2 ⟨r.length, by simp [hr], hj⟩
  obtain ⟨hx0, r0, hr0, hj0⟩ := hin _ hb0
  have hxne : binsX ≠ [] := by rintro rfl; simp at hx0
  have hyne : binsY.flatten ≠ [] := by
    intro h0
    have := List.flatten_eq_nil_iff.1 h0 r0 (List.mem_of_getElem? hr0)
    rw [this] at hj0; simp at hj0
  have hnan : shown density (rectOf binsX binsY i j ((hist.getD i []).getD j .nan)) = .nan := by
    rcases h with h | ⟨hd, h, x0, x1, row, y0, y1, h1, h2, h3, h4, h5, h6⟩
    · have : (hist.getD i []).getD j .nan = .nan := by simp [hr, h]
      rw [this]
      unfold shown rectOf
      cases density
      · rfl
      · rfl
    · have : (hist.getD i []).getD j .nan = .fin 0 := by simp [hr, h]
      rw [this]
      have hrow : binsY.getD i [] = row := by simp [h3]
      have harea : (rectOf binsX binsY i j (.fin 0)).area = 0 := by
        have e1 : binsX.getD i 0 = x0 := by simp [h1]
        have e2 : binsX.getD (i + 1) 0 = x1 := by simp [h2]
        have e3 : row.getD j 0 = y0 := by simp [h4]
        have e4 : row.getD (j + 1) 0 = y1 := by simp [h5]
        simp only [rectOf, hrow, e1, e2, e3, e4]
        rcases h6 with rfl | rfl <;> simp
      unfold shown
      rw [hd, if_pos rfl, harea]
      show XF.div (.fin 0) (.fin 0) = .nan
      simp [XF.div, XF.infSign]
  obtain ⟨x0, hx0', _⟩ := minOf_fin binsX hxne
  obtain ⟨x1, hx1', _⟩ := maxOf_fin binsX hxne
  obtain ⟨y0, hy0', _⟩ := minOf_fin binsY.flatten hyne
  obtain ⟨y1, hy1', _⟩ := maxOf_fin binsY.flatten hyne
  have hmem : XF.nan ∈ ((Llh.cells (hist.map List.length)).map
      (fun b => rectOf binsX binsY b.1 b.2 ((hist.getD b.1 []).getD b.2 .nan))).map (shown density) := by
    rw [List.map_map]
    exact List.mem_map.2 ⟨_, hb0, hnan⟩
  have hlevel : ∀ c, level .nan .nan c = .ok .nan := by
    intro c
    unfold level
    rw [if_neg (by simp), if_neg (show ¬ (XF.nan < XF.nan) from fun h => h)]
    show Except.ok (XF.div (XF.add c XF.nan) (XF.add XF.nan XF.nan)) = _
    have : XF.add c XF.nan = .nan := by cases c <;> rfl
    rw [this]; rfl
  unfold plotHist
  rw [rects_ok binsX binsY hist hin]
  simp only [bind, Except.bind]
  rw [minOf_nan _ hmem, maxOf_nan _ hmem]
  simp only [Option.getD_none]
  rw [mapM_ok _ (fun r => (⟨r, .nan⟩ : Patch)) _ (by intro r _; rw [hlevel]; rfl)]
  simp only [hx0', hx1', hy0', hy1', pure, Except.pure]
  refine ⟨_, rfl, by simp [cells_fits binsX binsY hist hfit], ?_⟩
  intro p hp
  obtain ⟨r, _, rfl⟩ := List.mem_map.1 hp
  rfl

/-- **C90 (one infinite value flattens the picture).** If the content of a bin is infinite, as a ratio to an empty bin is, all bins
with finite contents get the same colour, the lowest, however different they are, and the infinite one gets none. -/
theorem C90_infinite_flattens (binsX : List ℝ) (binsY : List (List ℝ)) (hist : List (List XF)) (hfit : Fits binsX binsY hist)
    (hup : ∀ r ∈ hist, ∀ a ∈ r, a = .pinf ∨ ∃ v, a = .fin v) (hinf : .pinf ∈ hist.flatten) (hfin : ∃ v, XF.fin v ∈ hist.flatten) :
    ∃ pic, plotHist binsX binsY hist false none none = .ok pic ∧ pic.patches.map (fun p => p.rect.n) = hist.flatten ∧
      ∀ p ∈ pic.patches, (∀ v, p.rect.n = .fin v → p.level = .fin 0) ∧ (p.rect.n = .pinf → p.level = .nan) := by
  have hin := isBin_of_fits binsX binsY hist hfit
  have hcont : (((Llh.cells (hist.map List.length)).map
      (fun b => rectOf binsX binsY b.1 b.2 ((hist.getD b.1 []).getD b.2 .nan))).map (shown false)) = hist.flatten := by
    rw [List.map_map]
    have h2 := congrArg (List.map (fun t : Nat × Nat × XF => t.2.2)) (entries_eq XF.nan hist)
    rw [List.map_map] at h2
    have key : ∀ k (l : List (List XF)), ((l.zipIdx k).flatMap (fun ri => ri.1.zipIdx.map (fun nj => (ri.2, nj.2, nj.1)))).map
        (fun t : Nat × Nat × XF => t.2.2) = l.flatten := by
      intro k l
      induction l generalizing k with
      | nil => rfl
      | cons r l ih =>
        rw [List.zipIdx_cons, List.flatMap_cons, List.map_append, ih, List.flatten_cons, List.map_map]
        congr 1
        exact List.zipIdx_map_fst 0 r
    rw [key 0 hist] at h2
    rw [h2]
    rfl
  have hupf : ∀ a ∈ hist.flatten, Upward a := by
    intro a ha
    obtain ⟨r, hr, har⟩ := List.mem_flatten.1 ha
    exact hup r hr a har
  obtain ⟨lo, hlo⟩ := minOf_upward hist.flatten hupf hfin
  have hhi := maxOf_upward hist.flatten hupf hinf
  have hlevel : ∀ c, level (.fin lo) .pinf c = .ok ((c - .fin lo) / (.pinf - .fin lo)) := by
    intro c
    unfold level
    rw [if_neg (by simp), if_neg (show ¬ (XF.pinf < XF.fin lo) from fun h => h)]
  have hcne : Llh.cells (hist.map List.length) ≠ [] := by
    intro h0
    rw [h0] at hcont
    rw [← hcont] at hinf
    cases hinf
  obtain ⟨b0, hb0⟩ := List.exists_mem_of_ne_nil _ hcne
  obtain ⟨hx0, r0, hr0, hj0⟩ := hin _ hb0
  have hxne : binsX ≠ [] := by rintro rfl; simp at hx0
  have hyne : binsY.flatten ≠ [] := by
    intro h0
    have := List.flatten_eq_nil_iff.1 h0 r0 (List.mem_of_getElem? hr0)
    rw [this] at hj0; simp at hj0
  obtain ⟨x0, hx0', _⟩ := minOf_fin binsX hxne
  obtain ⟨x1, hx1', _⟩ := maxOf_fin binsX hxne
  obtain ⟨y0, hy0', _⟩ := minOf_fin binsY.flatten hyne
  obtain ⟨y1, hy1', _⟩ := maxOf_fin binsY.flatten hyne
  unfold plotHist
  rw [rects_ok binsX binsY hist hin]
  simp only [bind, Except.bind]
  rw [hcont, hlo, hhi]
  simp only [Option.getD_none]
  rw [mapM_ok _ (fun r => (⟨r, (shown false r - .fin lo) / (.pinf - .fin lo)⟩ : Patch)) _ (by intro r _; rw [hlevel]; rfl)]
  simp only [hx0', hx1', hy0', hy1', pure, Except.pure]
  refine ⟨_, rfl, ?_, ?_⟩
  · rw [List.map_map]
    exact hcont
  · intro p hp
    obtain ⟨r, _, rfl⟩ := List.mem_map.1 hp
    refine ⟨fun v hv => ?_, fun hv => ?_⟩
    · show (shown false r - .fin lo) / (.pinf - .fin lo) = _
      unfold shown
      simp only [Bool.false_eq_true, if_false]
      simp only at hv
      rw [hv]; rfl
    · show (shown false r - .fin lo) / (.pinf - .fin lo) = _
      unfold shown
      simp only [Bool.false_eq_true, if_false]
      simp only at hv
      rw [hv]; rfl

/-- Non-vacuity: two x-bins with two y-bins each; the pull of the second bin is undefined in the second picture. -/
example : Fits [0, 1, 3] [[0, 1, 2], [0, 2, 4]] [[(1 : ℝ), 2], [3, 4]] ∧
    Fits [0, 1, 3] [[0, 1, 2], [0, 2, 4]] [[XF.fin 1, .nan], [.fin 3, .fin 4]] := by
  refine ⟨⟨rfl, rfl⟩, rfl, rfl⟩

example : ∃ pic, plotHist [0, 1, 3] [[0, 1, 2], [0, 2, 4]] [[.fin 1, .nan], [.fin 3, .fin 4]] false none none = .ok pic ∧
    pic.patches.length = 4 ∧ ∀ p ∈ pic.patches, p.level = .nan :=
  C90_nan_blanks_all [0, 1, 3] [[0, 1, 2], [0, 2, 4]] [[.fin 1, .nan], [.fin 3, .fin 4]] false ⟨rfl, rfl⟩ 0 1 [.fin 1, .nan] rfl (Or.inl rfl)

end Verif.HistPlot
