/-
Property theorems C06-C09 about the histogram functions (hist.py).

Specification vocabulary: `weightOf p sw` is the total weight of the samples satisfying `p`
(`Verif/Spec/Weight.lean`).  A sample coordinate is `some r`, or `none` for NaN.
-/
import Verif.Lemmas.Hist
import Mathlib.Algebra.Order.BigOperators.Group.List
import Mathlib.Algebra.Group.Nat.Defs
import Mathlib.Algebra.Group.Hom.Defs
import Mathlib.Data.Nat.Basic

namespace Verif.Hist
open Verif

variable {K W : Type*} [LinearOrder K] [AddCommMonoid W]

/-- Lower edge excluded, upper edge included; NaN is in no bin. -/
def InBin (lo hi : K) (x : Option K) : Prop := ∃ r, x = some r ∧ lo < r ∧ r ≤ hi

instance (lo hi : K) : DecidablePred (InBin lo hi) := fun x =>
  match x with
  | none => isFalse (by rintro ⟨r, h, _⟩; cases h)
  | some r => if h : lo < r ∧ r ≤ hi then isTrue ⟨r, rfl, h⟩
              else isFalse (by rintro ⟨r', h', hh⟩; cases h'; exact h hh)

/-- **C06.** For ascending edges the irregular 1D histogram has one entry per bin, and entry `i` is
the total weight of the samples in `(b_i, b_{i+1}]`. NaN samples and samples outside contribute nothing. -/
theorem C06_hist1d_bins (bins : List K) (hs : bins.Pairwise (· ≤ ·)) (sw : List (Option K × W)) :
    (hist1d bins sw).length = bins.length - 1 ∧
    ∀ (i : Nat) (hi : i + 1 < bins.length),
      (hist1d bins sw)[i]? = some (weightOf (InBin bins[i] bins[i + 1]) sw) := by
  rw [hist1d_eq]
  refine ⟨by simp, fun i hi => ?_⟩
  have h1 : i < bins.length - 1 := by omega
  simp only [List.getElem?_map, List.getElem?_range h1, Option.map_some, Option.some.injEq]
  apply weightOf_congr
  intro e _
  exact searchLeft_eq_iff bins hs e.1 i hi

/-- Non-vacuity of C06: edges 0,2,5; samples on an edge, inside, outside and NaN, with distinct weights. -/
example : ([0, 2, 5] : List ℕ).Pairwise (· ≤ ·) ∧
    hist1d [0, 2, 5] [(some 0, 1), (some 2, 10), (some 3, 100), (some 5, 1000), (some 6, 7), (none, 9)]
      = [10, 1100] := by decide

/-- **C07.** For ascending x edges and one ascending row of y edges per x bin (all of length `m2`), the 2D
histogram has shape `(#x-1) × (m2-1)` and entry `(i,j)` is the total weight of the samples with
`x` in x-bin `i` and `y` in bin `j` of row `i`.  Samples with `x` out of range, whose row index was wrapped or
clamped, never reach a returned entry. -/
theorem C07_hist2d_bins (bx : List K) (by' : List (List K)) (m2 : Nat)
    (hx : bx.Pairwise (· ≤ ·)) (hrows : by'.length + 1 = bx.length)
    (hy : ∀ row ∈ by', row.length = m2 ∧ row.Pairwise (· ≤ ·))
    (sw : List ((Option K × Option K) × W)) :
    (hist2d bx by' m2 sw).length = bx.length - 1 ∧
    (∀ row ∈ hist2d bx by' m2 sw, row.length = m2 - 1) ∧
    ∀ (i j : Nat) (hi : i + 1 < bx.length) (row : List K) (hrow : by'[i]? = some row)
      (hj : j + 1 < row.length),
      ∃ hrow', (hist2d bx by' m2 sw)[i]? = some hrow' ∧
        hrow'[j]? = some (weightOf (fun s => InBin bx[i] bx[i + 1] s.1 ∧
          InBin row[j] row[j + 1] s.2) sw) := by
  rw [hist2d_eq]
  refine ⟨by simp, ?_, ?_⟩
  · intro row hrow
    obtain ⟨i, _, rfl⟩ := List.mem_map.1 hrow
    simp
  · intro i j hi row hrow hj
    have hmem : row ∈ by' := List.mem_of_getElem? hrow
    obtain ⟨hlen, hsort⟩ := hy row hmem
    have h1 : i < bx.length - 1 := by omega
    have h2 : j < m2 - 1 := by omega
    refine ⟨_, by rw [List.getElem?_map, List.getElem?_range h1]; rfl, ?_⟩
    rw [List.getElem?_map, List.getElem?_range h2]
    simp only [Option.map_some, Option.some.injEq]
    apply weightOf_congr
    rintro ⟨⟨x, y⟩, w⟩ _
    simp only [index2d]
    have hxi := searchLeft_eq_iff bx hx x i hi
    constructor
    · rintro ⟨ha, hb⟩
      refine ⟨hxi.1 ha, ?_⟩
      rw [ha] at hb
      have hg := gatherRow_mid by' i row hrow
      rw [hg] at hb
      exact (searchLeft_eq_iff row hsort y j hj).1 hb
    · rintro ⟨ha, hb⟩
      have ha' := hxi.2 ha
      refine ⟨ha', ?_⟩
      rw [ha']
      have hg := gatherRow_mid by' i row hrow
      rw [hg]
      exact (searchLeft_eq_iff row hsort y j hj).2 hb

/-- Non-vacuity of C07: a sample below the first x edge uses the wrapped last row, one above the last x
edge the clamped last row; neither is counted. -/
example : hist2d ([0, 10, 20] : List ℕ) [[0, 1, 2], [0, 5, 9]] 3
    [((some 0, some 1), 1), ((some 10, some 1), 10), ((some 11, some 6), 100), ((some 21, some 6), 1000)]
      = [[10, 0], [0, 100]] := by decide

/-! ### C08 -/

theorem sum_succ_cells {S : Type*} (f : S → Nat) (m : Nat) (sw : List (S × W)) :
    ((List.range m).map (fun i => weightOf (fun s => f s = i + 1) sw)).sum =
      weightOf (fun s => 1 ≤ f s ∧ f s ≤ m) sw := by
  have h := weightOf_range (fun s => if f s = 0 then m else f s - 1) m sw
  have h1 : ∀ i ∈ List.range m, weightOf (fun s => f s = i + 1) sw =
      weightOf (fun s => (if f s = 0 then m else f s - 1) = i) sw := by
    intro i hi
    have hi' := List.mem_range.1 hi
    apply weightOf_congr
    intro e _
    split <;> omega
  rw [List.map_congr_left h1, h]
  apply weightOf_congr
  intro e _
  split <;> omega

/-- **C08 (mass, 1D).** The histogram sums to the total weight of the samples in `(b_0, b_last]`. -/
theorem C08_hist1d_total (lo hi : K) (mid : List K) (hs : (lo :: mid ++ [hi]).Pairwise (· ≤ ·))
    (sw : List (Option K × W)) :
    (hist1d (lo :: mid ++ [hi]) sw).sum = weightOf (InBin lo hi) sw := by
  rw [hist1d_eq, sum_succ_cells]
  apply weightOf_congr
  rintro ⟨x, w⟩ _
  have hlen : (lo :: mid ++ [hi]).length = mid.length + 2 := by simp
  cases x with
  | none =>
    simp only [searchLeft, InBin, hlen]
    constructor
    · omega
    · rintro ⟨r, h, _⟩; cases h
  | some r =>
    have h0 := lt_countP_lt_iff (lo :: mid ++ [hi]) hs r 0 (by rw [hlen]; omega)
    have hn := lt_countP_lt_iff (lo :: mid ++ [hi]) hs r (mid.length + 1) (by rw [hlen]; omega)
    have e0 : (lo :: mid ++ [hi])[0] = lo := rfl
    have en : (lo :: mid ++ [hi])[mid.length + 1]'(by rw [hlen]; omega) = hi := by
      simp
    rw [e0] at h0
    rw [en] at hn
    simp only [searchLeft, InBin, Option.some.injEq, exists_eq_left', hlen]
    have hn' := not_congr hn
    rw [not_lt] at hn'
    rw [h0, hn']
    omega

/-- **C08 (mass, 2D).** When every row of y edges runs from `ylo` to `yhi`, the 2D histogram sums to the
total weight in the rectangle `(bx_0, bx_last] × (ylo, yhi]`. -/
theorem C08_hist2d_total (lo hi : K) (mid : List K) (hx : (lo :: mid ++ [hi]).Pairwise (· ≤ ·))
    (by' : List (List K)) (m2 : Nat) (ylo yhi : K) (hrows : by'.length = mid.length + 1)
    (hy : ∀ row ∈ by', row.length = m2 ∧ row.Pairwise (· ≤ ·) ∧
      ∃ ymid, row = ylo :: ymid ++ [yhi])
    (sw : List ((Option K × Option K) × W)) :
    ((hist2d (lo :: mid ++ [hi]) by' m2 sw).map List.sum).sum =
      weightOf (fun s => InBin lo hi s.1 ∧ InBin ylo yhi s.2) sw := by
  rw [hist2d_eq, List.map_map]
  have hcell : ∀ i ∈ List.range ((lo :: mid ++ [hi]).length - 1),
      (List.sum ∘ fun i => (List.range (m2 - 1)).map (fun j => weightOf
        (fun s => (index2d (lo :: mid ++ [hi]) by' s).1 = i + 1 ∧
          (index2d (lo :: mid ++ [hi]) by' s).2 = j + 1) sw)) i =
      weightOf (fun s => searchLeft (lo :: mid ++ [hi]) s.1 = i + 1)
        (sw.filter (fun e => decide (InBin ylo yhi e.1.2))) := by
    intro i hi'
    have hi' := List.mem_range.1 hi'
    have hi2 : i < by'.length := by simp at hi'; omega
    obtain ⟨hlen, hsort, ymid, hrow⟩ := hy by'[i] (List.getElem_mem hi2)
    simp only [Function.comp]
    have h1 : ∀ j, weightOf
        (fun s => (index2d (lo :: mid ++ [hi]) by' s).1 = i + 1 ∧
          (index2d (lo :: mid ++ [hi]) by' s).2 = j + 1) sw =
        weightOf (fun s => (index2d (lo :: mid ++ [hi]) by' s).2 = j + 1)
          (sw.filter (fun e => decide (searchLeft (lo :: mid ++ [hi]) e.1.1 = i + 1))) := by
      intro j
      rw [weightOf_filter (q := fun s : Option K × Option K =>
        searchLeft (lo :: mid ++ [hi]) s.1 = i + 1)]
      rfl
    simp only [h1]
    rw [sum_succ_cells, weightOf_filter (q := fun s : Option K × Option K =>
        searchLeft (lo :: mid ++ [hi]) s.1 = i + 1), weightOf_filter (q := fun s : Option K × Option K => InBin ylo yhi s.2)]
    apply weightOf_congr
    rintro ⟨⟨x, y⟩, w⟩ _
    simp only [index2d]
    rw [and_comm]
    apply and_congr_left
    intro hxi
    rw [hxi]
    have hg := gatherRow_mid by' i by'[i] (List.getElem?_eq_getElem hi2)
    rw [hg]
    rw [hrow] at hsort hlen ⊢
    have hm2 : m2 = ymid.length + 2 := by rw [← hlen]; simp
    cases y with
    | none =>
      simp only [searchLeft, InBin]
      constructor
      · intro h; simp only [hlen] at h; omega
      · rintro ⟨r, h, _⟩; cases h
    | some r =>
      have h0 := lt_countP_lt_iff (ylo :: ymid ++ [yhi]) hsort r 0 (by simp)
      have hn := lt_countP_lt_iff (ylo :: ymid ++ [yhi]) hsort r (ymid.length + 1) (by simp)
      have e0 : (ylo :: ymid ++ [yhi])[0] = ylo := rfl
      have en : (ylo :: ymid ++ [yhi])[ymid.length + 1]'(by simp) = yhi := by simp
      rw [e0] at h0
      rw [en] at hn
      simp only [searchLeft, InBin, Option.some.injEq, exists_eq_left']
      have hn' := not_congr hn
      rw [not_lt] at hn'
      rw [h0, hn']
      omega
  rw [List.map_congr_left hcell]
  have h := C08_hist1d_total lo hi mid hx
    ((sw.filter (fun e => decide (InBin ylo yhi e.1.2))).map (fun e => (e.1.1, e.2)))
  rw [hist1d_eq] at h
  have hmap : ∀ (p : Option K → Prop) [DecidablePred p] (l : List ((Option K × Option K) × W)),
      weightOf p (l.map (fun e => (e.1.1, e.2))) = weightOf (fun s => p s.1) l := by
    intro p _ l
    induction l with
    | nil => rfl
    | cons e l ih => rw [List.map_cons, weightOf_cons, weightOf_cons, ih]
  simp only [hmap] at h
  rw [h, weightOf_filter (q := fun s : Option K × Option K => InBin ylo yhi s.2)]
  apply weightOf_congr
  intro e _
  exact and_comm

/-- **C08 (additivity and order, 1D and 2D).** The histogram of a concatenation is the entrywise sum, and permuting
the samples changes nothing. Holds for any edges, sorted or not. -/
theorem C08_additive_and_order_independent (bins : List K) (a b : List (Option K × W))
    (bx : List K) (by' : List (List K)) (m2 : Nat) (a2 b2 : List ((Option K × Option K) × W)) :
    hist1d bins (a ++ b) = List.zipWith (· + ·) (hist1d bins a) (hist1d bins b) ∧
    hist2d bx by' m2 (a2 ++ b2) =
      List.zipWith (List.zipWith (· + ·)) (hist2d bx by' m2 a2) (hist2d bx by' m2 b2) ∧
    (a.Perm b → hist1d bins a = hist1d bins b) ∧
    (a2.Perm b2 → hist2d bx by' m2 a2 = hist2d bx by' m2 b2) := by
  refine ⟨?_, ?_, ?_, ?_⟩
  · simp only [hist1d_eq, weightOf_append, List.zipWith_map_left, List.zipWith_map_right,
      List.zipWith_self]
  · simp only [hist2d_eq, weightOf_append, List.zipWith_map_left, List.zipWith_map_right,
      List.zipWith_self]
  · intro h; simp only [hist1d_eq, weightOf_perm _ h]
  · intro h; simp only [hist2d_eq, weightOf_perm _ h]

theorem weightOf_map_hom {S W' : Type*} [AddCommMonoid W'] (φ : W →+ W') (p : S → Prop)
    [DecidablePred p] (sw : List (S × W)) :
    weightOf p (sw.map (fun e => (e.1, φ e.2))) = φ (weightOf p sw) := by
  induction sw with
  | nil => simp [weightOf_nil]
  | cons e sw ih =>
    rw [List.map_cons, weightOf_cons, weightOf_cons, ih, map_add]
    split <;> simp

/-- **C08 (linearity).** Transforming every weight by an additive map (for instance scaling by a constant)
transforms every bin by it. -/
theorem C08_weights_linear {W' : Type*} [AddCommMonoid W'] (φ : W →+ W') (bins : List K)
    (sw : List (Option K × W)) (bx : List K) (by' : List (List K)) (m2 : Nat)
    (sw2 : List ((Option K × Option K) × W)) :
    hist1d bins (sw.map (fun e => (e.1, φ e.2))) = (hist1d bins sw).map φ ∧
    hist2d bx by' m2 (sw2.map (fun e => (e.1, φ e.2))) = (hist2d bx by' m2 sw2).map (List.map φ) := by
  simp only [hist1d_eq, hist2d_eq, weightOf_map_hom, List.map_map]
  refine ⟨rfl, ?_⟩
  apply List.map_congr_left
  intro i _
  simp only [Function.comp_def, List.map_map]

theorem weightOf_nonneg {S W' : Type*} [AddCommMonoid W'] [PartialOrder W'] [IsOrderedAddMonoid W']
    (p : S → Prop) [DecidablePred p] (sw : List (S × W')) (h : ∀ e ∈ sw, 0 ≤ e.2) :
    0 ≤ weightOf p sw := by
  unfold weightOf
  apply List.sum_nonneg
  intro x hx
  obtain ⟨e, he, rfl⟩ := List.mem_map.1 hx
  exact h e (List.mem_of_mem_filter he)

/-- **C08 (sign).** Non-negative weights give non-negative bins. -/
theorem C08_nonneg {W' : Type*} [AddCommMonoid W'] [PartialOrder W'] [IsOrderedAddMonoid W']
    (bins : List K) (sw : List (Option K × W')) (h : ∀ e ∈ sw, 0 ≤ e.2)
    (bx : List K) (by' : List (List K)) (m2 : Nat) (sw2 : List ((Option K × Option K) × W'))
    (h2 : ∀ e ∈ sw2, 0 ≤ e.2) :
    (∀ x ∈ hist1d bins sw, 0 ≤ x) ∧ ∀ row ∈ hist2d bx by' m2 sw2, ∀ x ∈ row, 0 ≤ x := by
  constructor
  · intro x hx
    rw [hist1d_eq] at hx
    obtain ⟨i, _, rfl⟩ := List.mem_map.1 hx
    exact weightOf_nonneg _ _ h
  · intro row hrow x hx
    rw [hist2d_eq] at hrow
    obtain ⟨i, _, rfl⟩ := List.mem_map.1 hrow
    obtain ⟨j, _, rfl⟩ := List.mem_map.1 hx
    exact weightOf_nonneg _ _ h2

/-- **C08 (mesh-grid histograms).** The same for the histograms on mesh grids: additive, independent of the order of the samples,
linear in the weights and not negative for non-negative weights. -/
theorem C08_mesh {W' : Type*} [AddCommMonoid W'] [PartialOrder W'] [IsOrderedAddMonoid W'] (φ : W →+ W') (bins : List K)
    (a b : List (Option K × W)) (ex ey : List K) (a2 b2 : List ((Option K × Option K) × W)) (c : List (Option K × W'))
    (c2 : List ((Option K × Option K) × W')) :
    (mesh1d bins (a ++ b) = List.zipWith (· + ·) (mesh1d bins a) (mesh1d bins b) ∧
      mesh2d ex ey (a2 ++ b2) = List.zipWith (List.zipWith (· + ·)) (mesh2d ex ey a2) (mesh2d ex ey b2)) ∧
    ((a.Perm b → mesh1d bins a = mesh1d bins b) ∧ (a2.Perm b2 → mesh2d ex ey a2 = mesh2d ex ey b2)) ∧
    (mesh1d bins (a.map (fun e => (e.1, φ e.2))) = (mesh1d bins a).map φ ∧
      mesh2d ex ey (a2.map (fun e => (e.1, φ e.2))) = (mesh2d ex ey a2).map (List.map φ)) ∧
    ((∀ e ∈ c, 0 ≤ e.2) → ∀ x ∈ mesh1d bins c, 0 ≤ x) ∧
    ((∀ e ∈ c2, 0 ≤ e.2) → ∀ row ∈ mesh2d ex ey c2, ∀ x ∈ row, 0 ≤ x) := by
  refine ⟨⟨?_, ?_⟩, ⟨?_, ?_⟩, ⟨?_, ?_⟩, ?_, ?_⟩
  · simp only [mesh1d_eq, weightOf_append, List.zipWith_map_left, List.zipWith_map_right, List.zipWith_self]
  · simp only [mesh2d_eq, weightOf_append, List.zipWith_map_left, List.zipWith_map_right, List.zipWith_self]
  · intro h; simp only [mesh1d_eq, weightOf_perm _ h]
  · intro h; simp only [mesh2d_eq, weightOf_perm _ h]
  · simp only [mesh1d_eq, weightOf_map_hom, List.map_map]; rfl
  · simp only [mesh2d_eq, weightOf_map_hom, List.map_map]
    apply List.map_congr_left
    intro i _
    simp only [Function.comp_def, List.map_map]
  · intro h x hx
    rw [mesh1d_eq] at hx
    obtain ⟨i, _, rfl⟩ := List.mem_map.1 hx
    exact weightOf_nonneg _ _ h
  · intro h row hrow x hx
    rw [mesh2d_eq] at hrow
    obtain ⟨i, _, rfl⟩ := List.mem_map.1 hrow
    obtain ⟨j, _, rfl⟩ := List.mem_map.1 hx
    exact weightOf_nonneg _ _ h

/-- Non-vacuity: two samples in one bin, in either order. -/
example : mesh1d ([0, 2, 5] : List ℕ) ([(some 2, 10)] ++ [(some 3, 100)]) = [0, 110] ∧
    mesh1d ([0, 2, 5] : List ℕ) ([(some 3, 100)] ++ [(some 2, 10)]) = [0, 110] := by decide

/-- Non-vacuity of C08: the totals of the C06/C07 examples. -/
example : (hist1d [0, 2, 5] [(some 2, 10), (some 3, 100), (some 6, 7), (none, 9)]).sum = 110 ∧
    ((hist2d ([0, 10, 20] : List ℕ) [[0, 1, 9], [0, 5, 9]] 3
      [((some 10, some 9), 10), ((some 11, some 6), 100), ((some 21, some 6), 1000)]).map List.sum).sum
      = 110 := by decide

/-! ### C09 -/

/-- Bin membership of the mesh-grid histogram: lower edge included, upper edge excluded except for the last bin. -/
def InMeshBin (lo hi : K) (isLast : Bool) (x : Option K) : Prop :=
  ∃ r, x = some r ∧ lo ≤ r ∧ (r < hi ∨ (isLast = true ∧ r = hi))

theorem meshIndex_eq_iff (edges : List K) (hs : edges.Pairwise (· ≤ ·)) (x : Option K) (i : Nat)
    (hi : i + 1 < edges.length) :
    meshIndex edges x = i + 1 ↔
      InMeshBin edges[i] edges[i + 1] (decide (i + 2 = edges.length)) x := by
  cases x with
  | none => simp [meshIndex, searchRight, InMeshBin]; omega
  | some r =>
    simp only [InMeshBin, Option.some.injEq, exists_eq_left', decide_eq_true_eq]
    have hA := lt_countP_le_iff edges hs r i (by omega)
    have hB := lt_countP_le_iff edges hs r (i + 1) hi
    have hlast : edges.getLast? = some (edges[edges.length - 1]'(by omega)) := by
      rw [List.getLast?_eq_getElem?, List.getElem?_eq_getElem]
    have hmono : ∀ (a b : Nat) (ha : a < edges.length) (hb : b < edges.length), a ≤ b →
        edges[a] ≤ edges[b] := by
      intro a b ha hb hab
      rcases Nat.lt_or_ge a b with h | h
      · exact List.pairwise_iff_getElem.1 hs a b ha hb h
      · have : a = b := by omega
        subst this; exact le_refl _
    unfold meshIndex
    by_cases hr : r = edges[edges.length - 1]'(by omega)
    · have hall : edges.countP (fun b => decide (b ≤ r)) = edges.length := by
        rw [List.countP_eq_length]
        intro a ha
        obtain ⟨k, hk, rfl⟩ := List.getElem_of_mem ha
        simp only [decide_eq_true_eq]
        rw [hr]; exact hmono k _ hk (by omega) (by omega)
      have hc : (Option.some r).isSome ∧ some r = edges.getLast? := ⟨rfl, by rw [hlast, ← hr]⟩
      rw [if_pos hc]
      simp only [searchRight, hall]
      constructor
      · intro h
        have h2 : i + 2 = edges.length := by omega
        refine ⟨?_, Or.inr ⟨h2, ?_⟩⟩
        · rw [hr]; exact hmono i _ (by omega) (by omega) (by omega)
        · rw [hr]; congr 1
      · rintro ⟨_, h | ⟨h, _⟩⟩
        · exact absurd (hmono (i + 1) (edges.length - 1) hi (by omega) (by omega))
            (not_le.2 (by rw [← hr]; exact h))
        · omega
    · have hc : ¬ ((Option.some r).isSome ∧ some r = edges.getLast?) := by
        rintro ⟨_, h⟩; rw [hlast] at h; exact hr (Option.some.inj h)
      rw [if_neg hc]
      simp only [searchRight]
      constructor
      · intro h
        refine ⟨hA.2 (by omega), Or.inl ?_⟩
        rw [← not_le, hB]; omega
      · rintro ⟨h1, h2 | ⟨h2, h3⟩⟩
        · have := hA.1 h1
          rw [← not_le, hB] at h2
          omega
        · exfalso; apply hr; rw [h3]; congr 1; omega

/-- **C09 (mesh bins).** The mesh-grid histogram counts `[b_i, b_{i+1})`, with the last bin closed. -/
theorem C09_mesh1d_bins (edges : List K) (hs : edges.Pairwise (· ≤ ·))
    (sw : List (Option K × W)) [∀ lo hi b, DecidablePred (InMeshBin (K := K) lo hi b)]
    (i : Nat) (hi : i + 1 < edges.length) :
    (mesh1d edges sw)[i]? =
      some (weightOf (InMeshBin edges[i] edges[i + 1] (decide (i + 2 = edges.length))) sw) := by
  rw [mesh1d_eq]
  have h1 : i < edges.length - 1 := by omega
  simp only [List.getElem?_map, List.getElem?_range h1, Option.map_some, Option.some.injEq]
  apply weightOf_congr
  intro e _
  exact meshIndex_eq_iff edges hs e.1 i hi

/-- **C09 (mesh bins, two dimensions).** Entry `(i,j)` is the weight in x-bin `i` and y-bin `j`. -/
theorem C09_mesh2d_bins (ex ey : List K) (hx : ex.Pairwise (· ≤ ·)) (hy : ey.Pairwise (· ≤ ·))
    (sw : List ((Option K × Option K) × W))
    [∀ lo hi b, DecidablePred (InMeshBin (K := K) lo hi b)] :
    (mesh2d ex ey sw).length = ex.length - 1 ∧
    ∀ (i j : Nat) (hi : i + 1 < ex.length) (hj : j + 1 < ey.length),
      ∃ row, (mesh2d ex ey sw)[i]? = some row ∧ row.length = ey.length - 1 ∧
        row[j]? = some (weightOf (fun s =>
          InMeshBin ex[i] ex[i + 1] (decide (i + 2 = ex.length)) s.1 ∧
          InMeshBin ey[j] ey[j + 1] (decide (j + 2 = ey.length)) s.2) sw) := by
  rw [mesh2d_eq]
  refine ⟨by simp, fun i j hi hj => ?_⟩
  have h1 : i < ex.length - 1 := by omega
  have h2 : j < ey.length - 1 := by omega
  refine ⟨_, by rw [List.getElem?_map, List.getElem?_range h1]; rfl, by simp, ?_⟩
  rw [List.getElem?_map, List.getElem?_range h2]
  simp only [Option.map_some, Option.some.injEq]
  apply weightOf_congr
  intro e _
  rw [meshIndex_eq_iff ex hx e.1.1 i hi, meshIndex_eq_iff ey hy e.1.2 j hj]

/-- Non-vacuity: different axes, a sample on the last x edge. -/
example : mesh2d ([0, 10, 20] : List ℕ) [0, 1, 2] [((some 5, some 1), 1), ((some 20, some 0), 10),
    ((some 1, some 5), 100)] = [[0, 1], [10, 0]] := by decide

theorem search_agree (edges : List K) (x : Option K) (h : ∀ r, x = some r → r ∉ edges) :
    meshIndex edges x = searchLeft edges x := by
  cases x with
  | none => simp [meshIndex, searchRight, searchLeft]
  | some r =>
    have hr := h r rfl
    have hc : ¬ ((Option.some r).isSome ∧ some r = edges.getLast?) := by
      rintro ⟨_, hh⟩; exact hr (List.mem_of_getLast? hh.symm)
    rw [meshIndex, if_neg hc]
    simp only [searchRight, searchLeft]
    apply List.countP_congr
    intro b hb
    simp only [decide_eq_true_eq]
    constructor
    · intro hle; exact lt_of_le_of_ne hle (by rintro rfl; exact hr hb)
    · exact le_of_lt

theorem meshIndex_range_iff (lo hi : K) (mid : List K) (hs : (lo :: mid ++ [hi]).Pairwise (· ≤ ·)) (x : Option K) :
    1 ≤ meshIndex (lo :: mid ++ [hi]) x ∧ meshIndex (lo :: mid ++ [hi]) x ≤ (lo :: mid ++ [hi]).length - 1 ↔
      ∃ r, x = some r ∧ lo ≤ r ∧ r ≤ hi := by
  have hlen : (lo :: mid ++ [hi]).length = mid.length + 2 := by simp
  cases x with
  | none => simp [meshIndex, searchRight]
  | some r =>
    have h0 := lt_countP_le_iff (lo :: mid ++ [hi]) hs r 0 (by rw [hlen]; omega)
    have hn := lt_countP_le_iff (lo :: mid ++ [hi]) hs r (mid.length + 1) (by rw [hlen]; omega)
    have e0 : (lo :: mid ++ [hi])[0] = lo := rfl
    have en : (lo :: mid ++ [hi])[mid.length + 1]'(by rw [hlen]; omega) = hi := by simp
    rw [e0] at h0
    rw [en] at hn
    have hlast : (lo :: mid ++ [hi]).getLast? = some hi := by rw [List.getLast?_append]; rfl
    have hlohi : lo ≤ hi := by
      have := (List.pairwise_cons.1 hs).1 hi (by simp)
      exact this
    have hle : (lo :: mid ++ [hi]).countP (fun b => decide (b ≤ r)) ≤ mid.length + 2 := by
      rw [← hlen]; exact List.countP_le_length
    unfold meshIndex
    rw [hlast]
    simp only [Option.isSome_some, true_and, Option.some.injEq, searchRight, exists_eq_left', hlen]
    by_cases hr : r = hi
    · rw [if_pos hr]
      have h1 := hn.1 (le_of_eq hr.symm)
      constructor
      · intro _; exact ⟨hr ▸ hlohi, hr.le⟩
      · intro _; constructor <;> omega
    · rw [if_neg hr]
      constructor
      · rintro ⟨h1, h2⟩
        refine ⟨h0.2 (by omega), ?_⟩
        by_contra hc
        have := hn.1 (le_of_lt (not_le.1 hc))
        omega
      · rintro ⟨h1, h2⟩
        have a := h0.1 h1
        have b : ¬ hi ≤ r := fun h => hr (le_antisymm h2 h)
        rw [hn] at b
        constructor <;> omega

/-- **C09 (mass, 1D).** The mesh histogram sums to the weight in the closed range of its edges. -/
theorem C09_mesh1d_total (lo hi : K) (mid : List K) (hs : (lo :: mid ++ [hi]).Pairwise (· ≤ ·))
    (sw : List (Option K × W)) [DecidablePred (fun x : Option K => ∃ r, x = some r ∧ lo ≤ r ∧ r ≤ hi)] :
    (mesh1d (lo :: mid ++ [hi]) sw).sum = weightOf (fun x => ∃ r, x = some r ∧ lo ≤ r ∧ r ≤ hi) sw := by
  rw [mesh1d_eq, sum_succ_cells]
  apply weightOf_congr
  intro e _
  exact meshIndex_range_iff lo hi mid hs e.1

theorem sum_succ_cells2 {S : Type*} (f g : S → Nat) (m n : Nat) (sw : List (S × W)) :
    (((List.range m).map (fun i => (List.range n).map (fun j =>
      weightOf (fun s => f s = i + 1 ∧ g s = j + 1) sw))).map List.sum).sum =
      weightOf (fun s => (1 ≤ f s ∧ f s ≤ m) ∧ 1 ≤ g s ∧ g s ≤ n) sw := by
  have h1 : ∀ i, ((List.range n).map (fun j => weightOf (fun s => f s = i + 1 ∧ g s = j + 1) sw)).sum =
      weightOf (fun s => f s = i + 1) (sw.filter (fun e => decide (1 ≤ g e.1 ∧ g e.1 ≤ n))) := by
    intro i
    rw [weightOf_filter (fun s => 1 ≤ g s ∧ g s ≤ n)]
    have := sum_succ_cells g n (sw.filter (fun e => decide (f e.1 = i + 1)))
    rw [weightOf_filter (fun s => f s = i + 1)] at this
    rw [weightOf_congr (q := fun s => f s = i + 1 ∧ 1 ≤ g s ∧ g s ≤ n) sw (fun e _ => and_comm), ← this]
    congr 1
    apply List.map_congr_left
    intro j _
    rw [weightOf_filter (fun s => f s = i + 1)]
  rw [List.map_map]
  have h2 : (List.sum ∘ fun i => (List.range n).map (fun j => weightOf (fun s => f s = i + 1 ∧ g s = j + 1) sw)) =
      fun i => weightOf (fun s => f s = i + 1) (sw.filter (fun e => decide (1 ≤ g e.1 ∧ g e.1 ≤ n))) := by
    funext i; exact h1 i
  rw [h2, sum_succ_cells, weightOf_filter (fun s => 1 ≤ g s ∧ g s ≤ n)]
  exact weightOf_congr sw (fun e _ => and_comm)

/-- **C09 (mass, 2D).** -/
theorem C09_mesh2d_total (lo hi lo' hi' : K) (mid mid' : List K) (hs : (lo :: mid ++ [hi]).Pairwise (· ≤ ·))
    (hs' : (lo' :: mid' ++ [hi']).Pairwise (· ≤ ·)) (sw : List ((Option K × Option K) × W))
    [DecidablePred (fun s : Option K × Option K => (∃ r, s.1 = some r ∧ lo ≤ r ∧ r ≤ hi) ∧
      ∃ r, s.2 = some r ∧ lo' ≤ r ∧ r ≤ hi')] :
    ((mesh2d (lo :: mid ++ [hi]) (lo' :: mid' ++ [hi']) sw).map List.sum).sum =
      weightOf (fun s => (∃ r, s.1 = some r ∧ lo ≤ r ∧ r ≤ hi) ∧ ∃ r, s.2 = some r ∧ lo' ≤ r ∧ r ≤ hi') sw := by
  rw [mesh2d_eq, sum_succ_cells2 (fun s : Option K × Option K => meshIndex (lo :: mid ++ [hi]) s.1)
    (fun s => meshIndex (lo' :: mid' ++ [hi']) s.2)]
  apply weightOf_congr
  intro e _
  exact and_congr (meshIndex_range_iff lo hi mid hs e.1.1) (meshIndex_range_iff lo' hi' mid' hs' e.1.2)

/-- **C09 (agreement).** When no sample lies on an edge the two binning methods give the same histogram, in one
dimension and (with the same y edges in every row) in two dimensions. -/
theorem C09_agree_off_edges (edges : List K) (sw : List (Option K × W))
    (h : ∀ e ∈ sw, ∀ r, e.1 = some r → r ∉ edges)
    (ex ey : List K) (sw2 : List ((Option K × Option K) × W)) (hne : 2 ≤ ex.length)
    (h2 : ∀ e ∈ sw2, (∀ r, e.1.1 = some r → r ∉ ex) ∧ (∀ r, e.1.2 = some r → r ∉ ey)) :
    hist1d edges sw = mesh1d edges sw ∧
    hist2d ex (List.replicate (ex.length - 1) ey) ey.length sw2 = mesh2d ex ey sw2 := by
  constructor
  · rw [hist1d_eq, mesh1d_eq]
    apply List.map_congr_left
    intro i _
    apply weightOf_congr
    intro e he
    rw [search_agree edges e.1 (h e he)]
  · rw [hist2d_eq, mesh2d_eq]
    apply List.map_congr_left
    intro i _
    apply List.map_congr_left
    intro j _
    apply weightOf_congr
    intro e he
    rw [search_agree ex e.1.1 (h2 e he).1, search_agree ey e.1.2 (h2 e he).2]
    have hg : ∀ z : Int, gatherRow (List.replicate (ex.length - 1) ey) z = ey := by
      intro z
      unfold gatherRow
      simp only [List.length_replicate]
      rw [List.getElem?_replicate, if_pos]
      · rfl
      · split <;> omega
    simp only [index2d, hg]

/-- **C09 (disagreement on edges).** A sample on an inner edge is counted in the lower bin by the irregular
histogram and in the upper bin by the mesh-grid one; one on the first edge is lost by the former only. -/
theorem C09_disagree_on_edges :
    hist1d ([0, 1, 2] : List ℕ) [(some 1, 1)] = [1, 0] ∧
    mesh1d ([0, 1, 2] : List ℕ) [(some 1, 1)] = [0, 1] ∧
    hist1d ([0, 1, 2] : List ℕ) [(some 0, 1)] = [0, 0] ∧
    mesh1d ([0, 1, 2] : List ℕ) [(some 0, 1)] = [1, 0] := by decide

/-- Non-vacuity of C09: samples off the edges. -/
example : hist1d ([0, 10, 20] : List ℕ) [(some 5, 1), (some 15, 2), (some 25, 4), (none, 8)] = [1, 2] ∧
    mesh1d ([0, 10, 20] : List ℕ) [(some 5, 1), (some 15, 2), (some 25, 4), (none, 8)] = [1, 2] := by
  decide

end Verif.Hist
