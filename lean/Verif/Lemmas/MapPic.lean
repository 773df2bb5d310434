/- Helper lemmas about the pictures of maps. -/
import Verif.Spec.MapPic
import Verif.Lemmas.MapPlot
import Verif.Lemmas.Interp

namespace Verif.MapPic
open Verif Verif.Plot

theorem position_preprocess (isLog : Bool) (x : ℝ) (h : Usable isLog x) : Interp.preprocess isLog x = position isLog x := by
  cases isLog with
  | false => simp [Interp.preprocess, position]
  | true =>
    have := h rfl
    simp [Interp.preprocess, position, Interp.clip_of_mem _ _ _ this.1 this.2]

/-- The nearest node to a position inside a pixel is the node of the pixel. -/
theorem nearest_inside (lo hi : ℝ) (n i : Nat) (h : n = 1 ∨ lo < hi) (hi' : i < n) (X : ℝ)
    (h1 : lo + step lo hi n * ((i : ℝ) - 1 / 2) < X) (h2 : X < lo + step lo hi n * ((i : ℝ) + 1 / 2)) :
    Interp.nearest X (Interp.linspace lo hi n) = i := by
  have hs := step_pos lo hi n (by omega) h
  set s := step lo hi n with hsd
  have hget : ∀ j, j < n → (Interp.linspace lo hi n)[j]? = some (lo + s * j) := by
    intro j hj
    rw [linspace_eq, List.getElem?_map, List.getElem?_range hj]
    rfl
  have hne : Interp.linspace lo hi n ≠ [] := by
    intro h0
    have := hget i hi'
    rw [h0] at this
    simp at this
  obtain ⟨b, hb, hmin, _⟩ := Interp.nearest_spec X _ hne
  have hlt : Interp.nearest X (Interp.linspace lo hi n) < n := by
    have := (List.getElem?_eq_some_iff.1 hb).1
    rwa [Interp.linspace_length] at this
  generalize Interp.nearest X (Interp.linspace lo hi n) = j at *
  rw [hget j hlt] at hb
  cases hb
  have hle := hmin _ (List.mem_of_getElem? (hget i hi'))
  have hi2 : |X - (lo + s * i)| < s / 2 := by
    rw [abs_lt]
    constructor <;> nlinarith
  by_contra hne'
  rcases Nat.lt_or_gt_of_ne hne' with hji | hji
  · have : (j : ℝ) + 1 ≤ i := by exact_mod_cast hji
    have h3 : s / 2 ≤ X - (lo + s * j) := by nlinarith
    have := le_abs_self (X - (lo + s * j))
    linarith
  · have : (i : ℝ) + 1 ≤ j := by exact_mod_cast hji
    have h3 : s / 2 ≤ (lo + s * j) - X := by nlinarith
    have := neg_le_abs (X - (lo + s * j))
    linarith

/-- The edges of an axis as drawn. -/
theorem shown_edges (ax : Axis) (n : Nat) (hn : 1 ≤ n) :
    ∃ ec, edgesCenters ax.lower ax.upper n ax.isLog = .ok ec ∧
      shownEdge ax.isLog (ec.1.headD 0) = position ax.isLog ax.lower -
        step (position ax.isLog ax.lower) (position ax.isLog ax.upper) n / 2 ∧
      shownEdge ax.isLog (ec.1.getLastD 0) = position ax.isLog ax.lower +
        step (position ax.isLog ax.lower) (position ax.isLog ax.upper) n * ((n : ℝ) - 1 / 2) := by
  have hhead : ∀ (f : Nat → ℝ), ((List.range (n + 1)).map f).headD 0 = f 0 := by
    intro f; rw [List.range_succ_eq_map]; simp
  have hlast : ∀ (f : Nat → ℝ), ((List.range (n + 1)).map f).getLastD 0 = f n := by
    intro f; rw [List.range_succ, List.map_append]; simp
  cases hl : ax.isLog with
  | false =>
    refine ⟨_, by simp only [edgesCenters, Bool.false_eq_true, if_false]; exact linearEdges_eq _ _ n hn, ?_, ?_⟩
    · rw [hhead]; simp [shownEdge, position]; ring
    · rw [hlast]; simp [shownEdge, position]
  | true =>
    refine ⟨_, by simp only [edgesCenters, if_true, linearEdges_eq _ _ n hn]; rfl, ?_, ?_⟩
    · rw [List.map_map, hhead]
      simp [shownEdge, position, Real.logb_rpow (by norm_num : (0:ℝ) < 10) (by norm_num)]; ring
    · rw [List.map_map, hlast]
      simp [shownEdge, position, Real.logb_rpow (by norm_num : (0:ℝ) < 10) (by norm_num)]

theorem position_lt (ax : Axis) (n : Nat) (hlog : ax.isLog = true → 0 < ax.lower) (h : n = 1 ∨ ax.lower < ax.upper) :
    n = 1 ∨ position ax.isLog ax.lower < position ax.isLog ax.upper := by
  rcases h with h | h
  · exact .inl h
  · right
    unfold position
    split
    · rename_i hl; exact Real.logb_lt_logb (by norm_num) (hlog hl) h
    · exact h

/-- A position inside a pixel is nearest to the node of the pixel. -/
theorem nearest_of_inside (ax : Axis) (n i : Nat) (hlog : ax.isLog = true → 0 < ax.lower) (h : n = 1 ∨ ax.lower < ax.upper)
    (hi : i < n) (X left right : ℝ)
    (hl : left = position ax.isLog ax.lower - step (position ax.isLog ax.lower) (position ax.isLog ax.upper) n / 2)
    (hr : right = position ax.isLog ax.lower +
        step (position ax.isLog ax.lower) (position ax.isLog ax.upper) n * ((n : ℝ) - 1 / 2))
    (hin : Inside left right n i X) :
    Interp.nearest X (Interp.linspace (position ax.isLog ax.lower) (position ax.isLog ax.upper) n) = i := by
  have hn : (0 : ℝ) < n := by exact_mod_cast (by omega : 0 < n)
  have hw : right - left = step (position ax.isLog ax.lower) (position ax.isLog ax.upper) n * n := by rw [hl, hr]; ring
  obtain ⟨h1, h2⟩ := hin
  rw [hw] at h1 h2
  refine nearest_inside _ _ n i (position_lt ax n hlog h) hi X ?_ ?_
  · calc _ = left + step (position ax.isLog ax.lower) (position ax.isLog ax.upper) n * n * (i / n) := by
            rw [hl]; field_simp; ring
      _ < X := h1
  · calc X < _ := h2
      _ = _ := by rw [hl]; field_simp; ring

end Verif.MapPic
