/-
Property theorems C58 and C75 about plotting maps (plot.py).
-/
import Verif.Lemmas.MapPlot

namespace Verif.Plot
open Verif

/-! ### C58: edges and centres -/

/-- **C58**, linear axes: with at least one bin there are as many centres as bins and one more edge; every centre lies
strictly between its edges, in the middle; centres are the nodes of the map; and the bars drawn are exactly the bins. -/
theorem C58_linear (lo hi : ℝ) (n : Nat) (hn : 1 ≤ n) (h : n = 1 ∨ lo < hi) :
    ∃ e c, edgesCenters lo hi n false = .ok (e, c) ∧ e.length = n + 1 ∧ c.length = n ∧ c = Interp.linspace lo hi n ∧
      (∀ i < n, e.getD i 0 < c.getD i 0 ∧ c.getD i 0 < e.getD (i + 1) 0 ∧
        c.getD i 0 = (e.getD i 0 + e.getD (i + 1) 0) / 2) ∧
      bars e c = e.zip e.tail := by
  refine ⟨_, _, linearEdges_eq lo hi n hn, by simp, by simp, (linspace_eq lo hi n).symm, ?_, ?_⟩
  · have hs : 0 < step lo hi n := step_pos lo hi n hn h
    intro i hi'
    have h1 : i < n + 1 := by omega
    simp only [getD_map_range _ hi', getD_map_range _ h1, getD_map_range _ (show i + 1 < n + 1 by omega)]
    push_cast
    refine ⟨by nlinarith, by nlinarith, by ring⟩
  · unfold bars
    apply List.ext_getElem
    · simp
    · intro i h1 h2
      simp
      constructor <;> ring

example : ∃ e c, edgesCenters 0 4 3 false = .ok (e, c) ∧ e.length = 4 ∧ c.length = 3 := by
  obtain ⟨e, c, h, h1, h2, _⟩ := C58_linear 0 4 3 (by norm_num) (Or.inr (by norm_num))
  exact ⟨e, c, h, h1, h2⟩

/-- **C58**, logarithmic axes with positive bounds: matching lengths, positive and interleaved edges and centres, and
every centre is the geometric mean of its edges. -/
theorem C58_log (lo hi : ℝ) (n : Nat) (hn : 1 ≤ n) (hlo : 0 < lo) (h : n = 1 ∨ lo < hi) :
    ∃ e c, edgesCenters lo hi n true = .ok (e, c) ∧ e.length = n + 1 ∧ c.length = n ∧
      c.getD 0 0 = lo ∧ (n ≠ 1 → c.getD (n - 1) 0 = hi) ∧
      ∀ i < n, 0 < e.getD i 0 ∧ e.getD i 0 < c.getD i 0 ∧ c.getD i 0 < e.getD (i + 1) 0 ∧
        c.getD i 0 ^ 2 = e.getD i 0 * e.getD (i + 1) 0 := by
  have hlog : n = 1 ∨ Real.logb 10 lo < Real.logb 10 hi := by
    rcases h with h | h
    · exact Or.inl h
    · exact Or.inr (Real.logb_lt_logb (by norm_num) hlo h)
  have hs := step_pos _ _ n hn hlog
  refine ⟨_, _, by simp only [edgesCenters, if_true, linearEdges_eq _ _ n hn]; rfl, by simp, by simp, ?_, ?_, ?_⟩
  · rw [List.map_map, getD_map_range _ (by omega)]
    simp [Real.rpow_logb (by norm_num : (0 : ℝ) < 10) (by norm_num) hlo]
  · intro hn1
    have hlt : lo < hi := h.resolve_left hn1
    rw [List.map_map, getD_map_range _ (by omega)]
    have : Real.logb 10 lo + step (Real.logb 10 lo) (Real.logb 10 hi) n * ((n - 1 : ℕ) : ℝ) = Real.logb 10 hi := by
      unfold step
      rw [if_neg hn1]
      have : (n : ℝ) - 1 ≠ 0 := by
        have : (2 : ℝ) ≤ n := by exact_mod_cast (by omega : 2 ≤ n)
        linarith
      rw [Nat.cast_sub hn, Nat.cast_one]
      field_simp
      ring
    simp only [Function.comp_apply, this]
    exact Real.rpow_logb (by norm_num) (by norm_num) (by linarith)
  · intro i hi'
    have h1 : i < n + 1 := by omega
    rw [List.map_map, List.map_map, getD_map_range _ hi', getD_map_range _ h1,
      getD_map_range _ (show i + 1 < n + 1 by omega)]
    simp only [Function.comp_apply]
    have h10 : (1 : ℝ) < 10 := by norm_num
    refine ⟨by positivity, ?_, ?_, ?_⟩
    · exact Real.rpow_lt_rpow_of_exponent_lt h10 (by nlinarith)
    · exact Real.rpow_lt_rpow_of_exponent_lt h10 (by push_cast; nlinarith)
    · rw [← Real.rpow_add (by norm_num), sq, ← Real.rpow_add (by norm_num)]
      congr 1
      push_cast
      ring

example : ∃ e c, edgesCenters 1 100 3 true = .ok (e, c) ∧ e.length = 4 ∧ c.length = 3 := by
  obtain ⟨e, c, h, h1, h2, _⟩ := C58_log 1 100 3 (by norm_num) (by norm_num) (Or.inr (by norm_num))
  exact ⟨e, c, h, h1, h2⟩

/-- **C58**: on a logarithmic axis no bar covers its bin: a bar is as wide as its bin but lies strictly to the left of
it, since it is centred on the geometric mean. -/
theorem C58_log_bars_shifted (lo hi : ℝ) (n : Nat) (hn : 1 ≤ n) (hlo : 0 < lo) (h : n = 1 ∨ lo < hi) :
    ∃ e c, edgesCenters lo hi n true = .ok (e, c) ∧ (bars e c).length = n ∧
      ∀ i < n, ((bars e c).getD i (0, 0)).1 < e.getD i 0 ∧ ((bars e c).getD i (0, 0)).2 < e.getD (i + 1) 0 ∧
        ((bars e c).getD i (0, 0)).2 - ((bars e c).getD i (0, 0)).1 = e.getD (i + 1) 0 - e.getD i 0 := by
  obtain ⟨e, c, h1, he, hc, _, _, hall⟩ := C58_log lo hi n hn hlo h
  refine ⟨e, c, h1, by simp [bars, he, hc], ?_⟩
  intro i hi'
  obtain ⟨hp, ha, hb, hsq⟩ := hall i hi'
  have hb1 : (bars e c).getD i (0, 0) = (c.getD i 0 - (e.getD (i + 1) 0 - e.getD i 0) / 2,
      c.getD i 0 + (e.getD (i + 1) 0 - e.getD i 0) / 2) := by
    simp only [List.getD_eq_getElem?_getD]
    rw [List.getElem?_eq_getElem (by simp [bars, he, hc]; omega), List.getElem?_eq_getElem (by omega : i < e.length),
      List.getElem?_eq_getElem (by omega : i + 1 < e.length), List.getElem?_eq_getElem (by omega : i < c.length)]
    simp [bars]
  rw [hb1]
  set a := e.getD i 0
  set b := e.getD (i + 1) 0
  set m := c.getD i 0
  have : m < (a + b) / 2 := by nlinarith [sq_nonneg (a - b), sq_pos_of_pos (by linarith : 0 < b - a)]
  refine ⟨by simp only; linarith, by simp only; linarith, by simp only; ring⟩

/-- **C58**: a map without bins is an IndexError. -/
theorem C58_zero_bins (lo hi : ℝ) (isLog : Bool) : edgesCenters lo hi 0 isLog = .error .indexError := by
  cases isLog <;> simp [edgesCenters, linearEdges, Interp.linspace]

/-! ### C58: collapsing -/

/-- **C58**: on an axis with bins the selection is never empty; it is exactly the bins whose centre is in the requested
range if there are any, and all bins otherwise. -/
theorem C58_selection (centers : List ℝ) (h : centers ≠ []) (r : Option (ℝ × ℝ)) :
    selectBins centers r ≠ [] ∧ (selectBins centers r).Pairwise (· < ·) ∧
      (r = none → selectBins centers r = List.range centers.length) ∧
      ∀ lo hi, r = some (lo, hi) →
        ((∃ c ∈ centers, lo ≤ c ∧ c ≤ hi) →
          ∀ i, i ∈ selectBins centers r ↔ ∃ c, centers[i]? = some c ∧ lo ≤ c ∧ c ≤ hi) ∧
        ((¬ ∃ c ∈ centers, lo ≤ c ∧ c ≤ hi) → selectBins centers r = List.range centers.length) := by
  have hr : List.range centers.length ≠ [] := by
    intro h'
    rw [List.range_eq_nil, List.length_eq_zero_iff] at h'
    exact h h'
  cases r with
  | none => exact ⟨hr, List.pairwise_lt_range, fun _ => rfl, fun lo hi h => by cases h⟩
  | some r =>
    obtain ⟨lo, hi⟩ := r
    have hmem : ∀ i, i ∈ (List.range centers.length).filter
        (fun i => decide (lo ≤ centers.getD i 0 ∧ centers.getD i 0 ≤ hi)) ↔
        ∃ c, centers[i]? = some c ∧ lo ≤ c ∧ c ≤ hi := by
      intro i
      rw [List.mem_filter, List.mem_range, decide_eq_true_eq, List.getD_eq_getElem?_getD]
      constructor
      · rintro ⟨h1, h2⟩
        rw [List.getElem?_eq_getElem h1] at h2 ⊢
        exact ⟨_, rfl, by simpa using h2⟩
      · rintro ⟨c, h1, h2⟩
        refine ⟨(List.getElem?_eq_some_iff.1 h1).1, ?_⟩
        rw [h1]; simpa using h2
    unfold selectBins
    simp only
    refine ⟨?_, ?_, by simp, ?_⟩
    · split
      · exact hr
      · assumption
    · split
      · exact List.pairwise_lt_range
      · exact List.Pairwise.filter _ List.pairwise_lt_range
    · rintro lo' hi' he
      simp at he
      obtain ⟨rfl, rfl⟩ := he
      constructor
      · rintro ⟨c, hc, hc'⟩
        obtain ⟨i, hi, rfl⟩ := List.getElem_of_mem hc
        have : i ∈ _ := (hmem i).2 ⟨_, List.getElem?_eq_getElem hi, hc'⟩
        rw [if_neg (List.ne_nil_of_mem this)]
        exact hmem
      · intro hno
        rw [if_pos]
        rw [List.eq_nil_iff_forall_not_mem]
        intro i hi
        obtain ⟨c, h1, h2⟩ := (hmem i).1 hi
        exact hno ⟨c, List.mem_of_getElem? h1, h2⟩

example : selectBins [1, 2, 3] (some (2, 5)) = [1, 2] := by
  simp [selectBins, List.range_succ]; norm_num

example : selectBins [1, 2, 3] (some (7, 9)) = [0, 1, 2] := by
  simp [selectBins, List.range_succ]; norm_num

/-- **C58**: collapsing a map with distinctly named axes, all with at least one bin, always succeeds; exactly the axes
that were not requested are kept, in order, and each value is the mean over exactly the selected bins of the requested
axes.  Names that are no axis of the map are ignored. -/
theorem C58_collapse (a : NdArr) (axes : List Axis) (collapse : PyDict String (Option (ℝ × ℝ)))
    (hkeys : collapse.keys.Nodup) (hnames : (axes.map Axis.name).Nodup) (hshape : a.shape.length = axes.length)
    (hpos : ∀ n ∈ a.shape, 1 ≤ n) :
    ∃ b, collapseMap a axes collapse = .ok (b, axes.filter (fun ax => (collapse.get? ax.name).isNone)) ∧
      b.shape = ((axes.zip a.shape).filter (fun p => (collapse.get? p.1.name).isNone)).map Prod.snd ∧
      ∀ idx : List Nat, idx.length = b.shape.length →
        b.val idx = meanOver (requested collapse axes a.shape) idx a.val := by
  obtain ⟨shape, f⟩ := a
  simp only at hshape hpos
  obtain ⟨g, hg, hval⟩ := collapse_spec (axes.map (fun ax => collapse.get? ax.name)) shape axes (by simp) hshape hpos f
  refine ⟨⟨kept (axes.map (fun ax => collapse.get? ax.name)) shape, g⟩, ?_, ?_, ?_⟩
  · unfold collapseMap
    rw [collapseOps_eq _ hnames _ hkeys, List.map_map]
    rw [← kept_axes collapse axes]
    exact hg
  · exact kept_shape collapse axes shape hshape
  · intro idx hidx
    exact (hval idx hidx).trans (by rw [requested_eq])

/-- A 2 × 2 map with axes `x` (nodes 0 and 1) and `y`: averaging over `x` averages the two rows, and asking for `x` in
`[1, 1]` picks the second row. -/
example : ∃ b, collapseMap ⟨[2, 2], fun l => 10 * (l.getD 0 0) + l.getD 1 0⟩ [⟨"x", 0, 1, false⟩, ⟨"y", 0, 1, false⟩]
      [("x", some (1, 1))] = .ok (b, [⟨"y", 0, 1, false⟩]) ∧ b.shape = [2] ∧ b.val [1] = 11 := by
  obtain ⟨b, h1, h2, h3⟩ := C58_collapse ⟨[2, 2], fun l => 10 * (l.getD 0 0) + l.getD 1 0⟩
    [⟨"x", 0, 1, false⟩, ⟨"y", 0, 1, false⟩] [("x", some (1, 1))] (by simp [PyDict.keys]) (by simp) rfl (by simp)
  have hx : PyDict.get? ([("x", some ((1 : ℝ), (1 : ℝ)))] : PyDict String (Option (ℝ × ℝ))) "x" = some (some (1, 1)) := by
    simp [PyDict.get?]
  have hy : PyDict.get? ([("x", some ((1 : ℝ), (1 : ℝ)))] : PyDict String (Option (ℝ × ℝ))) "y" = none := by
    simp [PyDict.get?]
  refine ⟨b, ?_, ?_, ?_⟩
  · rw [h1]; simp [hx, hy]
  · rw [h2]; simp [hx, hy]
  · rw [h3 [1] (by rw [h2]; simp [hx, hy])]
    simp [requested, hx, hy, meanOver, axisCenters, Interp.linspace, selectBins, List.range_succ]
    norm_num

end Verif.Plot
