/- Helper lemmas about the model of `hist.py` (not claims). -/
import Verif.Model.Hist
import Verif.Spec.Weight

namespace Verif.Hist
open Verif

variable {K W : Type*} [LinearOrder K] [AddCommMonoid W]

theorem lt_countP_lt_iff (bins : List K) (hs : bins.Pairwise (· ≤ ·)) (x : K) (k : Nat)
    (hk : k < bins.length) : bins[k] < x ↔ k < bins.countP (fun b => decide (b < x)) := by
  induction bins generalizing k with
  | nil => simp at hk
  | cons b bins ih =>
    rw [List.pairwise_cons] at hs
    rw [List.countP_cons]
    cases k with
    | zero =>
      simp only [List.getElem_cons_zero]
      by_cases hb : b < x
      · simp [hb]
      · simp only [hb, decide_false, Bool.false_eq_true, if_false, false_iff, not_lt]
        rw [Nat.add_zero, Nat.pos_iff_ne_zero, not_not, List.countP_eq_zero]
        intro a ha
        simp only [decide_eq_true_eq]
        exact fun h => hb (lt_of_le_of_lt (hs.1 a ha) h)
    | succ k =>
      simp only [List.getElem_cons_succ]
      rw [ih hs.2 k (by simpa using hk)]
      by_cases hb : b < x
      · simp [hb]
      · have h0 : bins.countP (fun b => decide (b < x)) = 0 := by
          rw [List.countP_eq_zero]
          intro a ha
          simp only [decide_eq_true_eq]
          exact fun h => hb (lt_of_le_of_lt (hs.1 a ha) h)
        simp [hb, h0]

theorem lt_countP_le_iff (bins : List K) (hs : bins.Pairwise (· ≤ ·)) (x : K) (k : Nat)
    (hk : k < bins.length) : bins[k] ≤ x ↔ k < bins.countP (fun b => decide (b ≤ x)) := by
  induction bins generalizing k with
  | nil => simp at hk
  | cons b bins ih =>
    rw [List.pairwise_cons] at hs
    rw [List.countP_cons]
    cases k with
    | zero =>
      simp only [List.getElem_cons_zero]
      by_cases hb : b ≤ x
      · simp [hb]
      · simp only [hb, decide_false, Bool.false_eq_true, if_false, false_iff, not_lt]
        rw [Nat.add_zero, Nat.pos_iff_ne_zero, not_not, List.countP_eq_zero]
        intro a ha
        simp only [decide_eq_true_eq]
        exact fun h => hb (le_trans (hs.1 a ha) h)
    | succ k =>
      simp only [List.getElem_cons_succ]
      rw [ih hs.2 k (by simpa using hk)]
      by_cases hb : b ≤ x
      · simp [hb]
      · have h0 : bins.countP (fun b => decide (b ≤ x)) = 0 := by
          rw [List.countP_eq_zero]
          intro a ha
          simp only [decide_eq_true_eq]
          exact fun h => hb (le_trans (hs.1 a ha) h)
        simp [hb, h0]

section weightOf
variable {S : Type*}

theorem weightOf_nil (p : S → Prop) [DecidablePred p] : weightOf p ([] : List (S × W)) = 0 := rfl

theorem weightOf_cons (p : S → Prop) [DecidablePred p] (e : S × W) (sw : List (S × W)) :
    weightOf p (e :: sw) = (if p e.1 then e.2 else 0) + weightOf p sw := by
  unfold weightOf
  by_cases h : p e.1 <;> simp [List.filter_cons, h]

theorem weightOf_congr {p q : S → Prop} [DecidablePred p] [DecidablePred q] (sw : List (S × W))
    (h : ∀ e ∈ sw, (p e.1 ↔ q e.1)) : weightOf p sw = weightOf q sw := by
  unfold weightOf
  congr 2
  apply List.filter_congr
  intro e he
  simp [h e he]

theorem weightOf_append (p : S → Prop) [DecidablePred p] (a b : List (S × W)) :
    weightOf p (a ++ b) = weightOf p a + weightOf p b := by
  simp [weightOf]

theorem weightOf_perm (p : S → Prop) [DecidablePred p] {a b : List (S × W)} (h : a.Perm b) :
    weightOf p a = weightOf p b := by
  unfold weightOf
  exact ((h.filter _).map _).sum_eq

theorem weightOf_false (p : S → Prop) [DecidablePred p] (sw : List (S × W))
    (h : ∀ e ∈ sw, ¬ p e.1) : weightOf p sw = 0 := by
  unfold weightOf
  rw [List.filter_eq_nil_iff.2]
  · rfl
  · intro e he; simp [h e he]

/-- Splitting a predicate over a range of disjoint cells. -/
theorem weightOf_range (f : S → Nat) (n : Nat) (sw : List (S × W)) :
    ((List.range n).map (fun i => weightOf (fun s => f s = i) sw)).sum =
      weightOf (fun s => f s < n) sw := by
  induction sw with
  | nil => simp [weightOf_nil]
  | cons e sw ih =>
    simp only [weightOf_cons]
    rw [List.sum_map_add, ih]
    congr 1
    clear ih
    induction n with
    | zero => simp
    | succ n ihn =>
      rw [List.range_succ, List.map_append, List.sum_append, ihn]
      by_cases h1 : f e.1 < n
      · have h2 : f e.1 ≠ n := by omega
        have h3 : f e.1 < n + 1 := by omega
        simp [h1, h2, h3]
      · by_cases h2 : f e.1 = n
        · simp [h2]
        · have h3 : ¬ f e.1 < n + 1 := by omega
          simp [h1, h2, h3]
end weightOf

theorem scatter_length {S : Type*} (f : S → Nat) (sw : List (S × W)) (h : List W) :
    (sw.foldl (fun h p => scatterAdd h (f p.1) p.2) h).length = h.length := by
  induction sw generalizing h with
  | nil => rfl
  | cons e sw ih => rw [List.foldl_cons, ih]; simp [scatterAdd]

theorem scatter_get {S : Type*} (f : S → Nat) (sw : List (S × W)) (h : List W) (k : Nat)
    (hk : k < h.length) :
    (sw.foldl (fun h p => scatterAdd h (f p.1) p.2) h)[k]? =
      some (h[k] + weightOf (fun s => f s = k) sw) := by
  induction sw generalizing h with
  | nil => simp [weightOf_nil, hk]
  | cons e sw ih =>
    rw [List.foldl_cons]
    have hl : k < (scatterAdd h (f e.1) e.2).length := by simpa [scatterAdd] using hk
    rw [ih _ hl, weightOf_cons]
    congr 1
    simp only [scatterAdd, List.getElem_modify]
    by_cases hf : f e.1 = k
    · simp [hf, add_assoc]
    · simp [hf]

theorem inner_length {α : Type*} (l : List α) : (inner l).length = l.length - 2 := by
  simp [inner]; omega

theorem inner_getElem? {α : Type*} (l : List α) (k : Nat) (hk : k + 2 < l.length) :
    (inner l)[k]? = l[k + 1]? := by
  unfold inner
  rw [List.getElem?_dropLast]
  simp only [List.length_tail]
  rw [if_pos (by omega), List.getElem?_tail]

/-- Histogram with an index function: one formula for `hist1d` and `mesh1d`. -/
theorem inner_scatter {S : Type*} (f : S → Nat) (sw : List (S × W)) (n : Nat) :
    inner (sw.foldl (fun h p => scatterAdd h (f p.1) p.2) (List.replicate (n + 1) 0)) =
      (List.range (n - 1)).map (fun i => weightOf (fun s => f s = i + 1) sw) := by
  apply List.ext_getElem?
  intro k
  by_cases hk : k < n - 1
  · rw [inner_getElem?]
    · rw [scatter_get _ _ _ _ (by simp; omega)]
      simp [hk]
    · rw [scatter_length]; simp; omega
  · rw [List.getElem?_eq_none, List.getElem?_eq_none]
    · simp; omega
    · rw [inner_length, scatter_length]; simp; omega

theorem hist1d_eq (bins : List K) (sw : List (Option K × W)) :
    hist1d bins sw = (List.range (bins.length - 1)).map
      (fun i => weightOf (fun s => searchLeft bins s = i + 1) sw) :=
  inner_scatter (searchLeft bins) sw bins.length

theorem mesh1d_eq (bins : List K) (sw : List (Option K × W)) :
    mesh1d bins sw = (List.range (bins.length - 1)).map
      (fun i => weightOf (fun s => meshIndex bins s = i + 1) sw) :=
  inner_scatter (meshIndex bins) sw bins.length

theorem scatter2_length {S : Type*} (f : S → Nat × Nat) (sw : List (S × W)) (h : List (List W)) :
    (sw.foldl (fun h p => scatterAdd2 h (f p.1).1 (f p.1).2 p.2) h).length = h.length := by
  induction sw generalizing h with
  | nil => rfl
  | cons e sw ih => rw [List.foldl_cons, ih]; simp [scatterAdd2]

theorem scatter2_row {S : Type*} (f : S → Nat × Nat) (sw : List (S × W)) (h : List (List W)) (k : Nat)
    (hk : k < h.length) :
    (sw.foldl (fun h p => scatterAdd2 h (f p.1).1 (f p.1).2 p.2) h)[k]? =
      some ((sw.filter (fun e => (f e.1).1 = k)).foldl
        (fun r p => scatterAdd r (f p.1).2 p.2) h[k]) := by
  induction sw generalizing h with
  | nil => simp [hk]
  | cons e sw ih =>
    rw [List.foldl_cons]
    have hl : k < (scatterAdd2 h (f e.1).1 (f e.1).2 e.2).length := by simpa [scatterAdd2] using hk
    rw [ih _ hl]
    congr 1
    by_cases hf : (f e.1).1 = k
    · rw [List.filter_cons_of_pos (by simp [hf]), List.foldl_cons]
      congr 1
      simp [scatterAdd2, List.getElem_modify, hf]
    · rw [List.filter_cons_of_neg (by simp [hf])]
      congr 1
      simp [scatterAdd2, List.getElem_modify, hf]

theorem weightOf_filter {S : Type*} {p : S → Prop} {_ : DecidablePred p} (q : S → Prop)
    [DecidablePred q] (sw : List (S × W)) :
    weightOf p (sw.filter (fun e => decide (q e.1))) = weightOf (fun s => q s ∧ p s) sw := by
  unfold weightOf
  rw [List.filter_filter]
  congr 2
  apply List.filter_congr
  intro e _
  simp [Bool.and_comm]

theorem inner_scatter2 {S : Type*} (f : S → Nat × Nat) (sw : List (S × W)) (n m : Nat) :
    (inner (sw.foldl (fun h p => scatterAdd2 h (f p.1).1 (f p.1).2 p.2)
      (List.replicate (n + 1) (List.replicate (m + 1) 0)))).map inner =
      (List.range (n - 1)).map (fun i => (List.range (m - 1)).map (fun j =>
        weightOf (fun s => (f s).1 = i + 1 ∧ (f s).2 = j + 1) sw)) := by
  apply List.ext_getElem?
  intro k
  rw [List.getElem?_map, List.getElem?_map]
  by_cases hk : k < n - 1
  · rw [inner_getElem?]
    · rw [scatter2_row _ _ _ _ (by simp; omega)]
      simp only [List.getElem_replicate, Option.map_some, hk, List.getElem?_range, Option.some.injEq]
      rw [inner_scatter (fun s => (f s).2)]
      apply List.map_congr_left
      intro j _
      exact weightOf_filter (fun s => (f s).1 = k + 1) sw
    · rw [scatter2_length]; simp; omega
  · rw [List.getElem?_eq_none, List.getElem?_eq_none]
    · simp
    · simp; omega
    · rw [inner_length, scatter2_length]; simp; omega

theorem hist2d_eq (bx : List K) (by' : List (List K)) (m2 : Nat)
    (sw : List ((Option K × Option K) × W)) :
    hist2d bx by' m2 sw = (List.range (bx.length - 1)).map (fun i => (List.range (m2 - 1)).map
      (fun j => weightOf (fun s => (index2d bx by' s).1 = i + 1 ∧ (index2d bx by' s).2 = j + 1) sw)) :=
  inner_scatter2 (index2d bx by') sw bx.length m2

theorem mesh2d_eq (ex ey : List K) (sw : List ((Option K × Option K) × W)) :
    mesh2d ex ey sw = (List.range (ex.length - 1)).map (fun i => (List.range (ey.length - 1)).map
      (fun j => weightOf (fun s => meshIndex ex s.1 = i + 1 ∧ meshIndex ey s.2 = j + 1) sw)) :=
  inner_scatter2 (fun s : Option K × Option K => (meshIndex ex s.1, meshIndex ey s.2)) sw
    ex.length ey.length

theorem searchLeft_eq_iff (bins : List K) (hs : bins.Pairwise (· ≤ ·)) (x : Option K) (i : Nat)
    (hi : i + 1 < bins.length) :
    searchLeft bins x = i + 1 ↔ ∃ r, x = some r ∧ bins[i] < r ∧ r ≤ bins[i + 1] := by
  cases x with
  | none => simp [searchLeft]; omega
  | some r =>
    simp only [searchLeft, Option.some.injEq, exists_eq_left']
    rw [lt_countP_lt_iff bins hs r i (by omega), ← not_lt, lt_countP_lt_iff bins hs r (i + 1) hi]
    omega

theorem gatherRow_mid {α : Type*} (rows : List (List α)) (i : Nat) (row : List α)
    (h : rows[i]? = some row) : gatherRow rows (((i + 1 : ℕ) : Int) - 1) = row := by
  have hi : i < rows.length := by
    by_contra hcon
    rw [List.getElem?_eq_none (by omega)] at h; cases h
  have e1 : (((i + 1 : ℕ) : Int) - 1) = (i : Int) := by omega
  have hi0 : ¬ ((i : Int) < 0) := by omega
  have e2 : max 0 (min (i : Int) ((rows.length : Int) - 1)) = (i : Int) := by omega
  simp only [gatherRow, e1, hi0, if_false, e2, Int.toNat_natCast, h, Option.getD_some]

theorem searchLeft_le (bins : List K) (x : Option K) : searchLeft bins x ≤ bins.length := by
  cases x with
  | none => exact Nat.le_refl _
  | some r => exact List.countP_le_length

end Verif.Hist
