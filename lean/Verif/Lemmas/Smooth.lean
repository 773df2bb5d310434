/-
Helper lemmas: piecewise linear interpolation is monotone for monotone tables and changes no faster than the table.
-/
import Verif.Lemmas.Interp

namespace Verif.Interp
open Verif

section
variable {F : Type} [Field F] [LinearOrder F] [IsStrictOrderedRing F]

theorem table_mono {pts : List (F × F)} (hs : (pts.map Prod.fst).Pairwise (· < ·)) {i j : Nat} {p q : F × F} (hp : pts[i]? = some p)
    (hq : pts[j]? = some q) (hij : i < j) : p.1 < q.1 := by
  obtain ⟨hi, rfl⟩ := List.getElem?_eq_some_iff.1 hp
  obtain ⟨hj, rfl⟩ := List.getElem?_eq_some_iff.1 hq
  have := List.pairwise_iff_getElem.1 hs i j (by simpa using hi) (by simpa using hj) hij
  simpa using this

theorem table_rel {pts : List (F × F)} {R : F × F → F × F → Prop} (hs : pts.Pairwise R) {i j : Nat} {p q : F × F} (hp : pts[i]? = some p)
    (hq : pts[j]? = some q) (hij : i < j) : R p q := by
  obtain ⟨hi, rfl⟩ := List.getElem?_eq_some_iff.1 hp
  obtain ⟨hj, rfl⟩ := List.getElem?_eq_some_iff.1 hq
  exact List.pairwise_iff_getElem.1 hs i j hi hj hij

theorem getLast_index {pts : List (F × F)} {p : F × F} (h : pts.getLast? = some p) : pts[pts.length - 1]? = some p := by
  rw [← h]
  exact List.getLast?_eq_getElem?.symm

/-- A fraction of a segment. -/
theorem fraction_range {x p q : F} (h1 : p ≤ x) (h2 : x ≤ q) (h : p < q) : 0 ≤ (x - p) / (q - p) ∧ (x - p) / (q - p) ≤ 1 :=
  ⟨div_nonneg (by linarith) (by linarith), by rw [div_le_one (by linarith)]; linarith⟩

/-- What is known about the value at `x` relative to the entry at an earlier position: `R d e` says that a rise `e` over the distance `d` is
allowed. -/
theorem interp_after {pts : List (F × F)} (hs : (pts.map Prod.fst).Pairwise (· < ·)) {D : F} (hD : 0 ≤ D)
    (hR : pts.Pairwise (fun p q => |q.2 - p.2| ≤ D * (q.1 - p.1))) {x y : F} (h : IsLinearInterp pts x y) {p : F × F} (hp : p ∈ pts)
    (hx : p.1 ≤ x) : |y - p.2| ≤ D * (x - p.1) := by
  obtain ⟨i, hi⟩ := List.getElem?_of_mem hp
  have hil := (List.getElem?_eq_some_iff.1 hi).1
  rcases h with ⟨q, h1, h2, rfl⟩ | ⟨q, h1, h2, rfl⟩ | ⟨k, q, r, h1, h2, h3, h4, rfl⟩
  · rw [List.head?_eq_getElem?] at h1
    rcases Nat.eq_zero_or_pos i with c | c
    · subst c
      rw [hi] at h1
      cases h1
      rw [sub_self, abs_zero]
      exact mul_nonneg hD (by linarith)
    · have := table_mono hs h1 hi c
      exact absurd hx (by linarith)
  · have h1 := getLast_index h1
    rcases (show i ≤ pts.length - 1 by omega).eq_or_lt with c | c
    · rw [← c, hi] at h1
      cases h1
      rw [sub_self, abs_zero]
      exact mul_nonneg hD (by linarith)
    · have a := table_rel hR hi h1 c
      have := mul_le_mul_of_nonneg_left (show q.1 - p.1 ≤ x - p.1 by linarith) hD
      linarith
  · have hqr := table_mono hs h1 h2 (Nat.lt_succ_self k)
    have hR' := table_rel hR h1 h2 (Nat.lt_succ_self k)
    obtain ⟨t0, t1⟩ := fraction_range h3 h4 hqr
    have hxt : x - q.1 = (r.1 - q.1) * ((x - q.1) / (r.1 - q.1)) := by
      have : r.1 - q.1 ≠ 0 := by linarith
      field_simp
    have hstep : |q.2 + (r.2 - q.2) * ((x - q.1) / (r.1 - q.1)) - q.2| ≤ D * (x - q.1) := by
      rw [add_sub_cancel_left, abs_mul, abs_of_nonneg t0]
      conv_rhs => rw [hxt]
      rw [← mul_assoc]
      exact mul_le_mul_of_nonneg_right hR' t0
    rcases lt_trichotomy i k with c | c | c
    · have a := table_rel hR hi h1 c
      have b := abs_add_le (q.2 + (r.2 - q.2) * ((x - q.1) / (r.1 - q.1)) - q.2) (q.2 - p.2)
      rw [sub_add_sub_cancel] at b
      have : D * (x - p.1) = D * (x - q.1) + D * (q.1 - p.1) := by ring
      linarith
    · subst c
      rw [hi] at h1
      cases h1
      exact hstep
    · rcases (show k + 1 ≤ i by omega).eq_or_lt with d | d
      · rw [← d, h2] at hi
        have er : r = p := Option.some.inj hi
        rw [← er] at hx ⊢
        have hxr : x = r.1 := le_antisymm h4 hx
        have : r.1 - q.1 ≠ 0 := by linarith
        rw [hxr, div_self this]
        have e : q.2 + (r.2 - q.2) * 1 - r.2 = 0 := by ring
        rw [e, sub_self, abs_zero, mul_zero]
      · have := table_mono hs h2 hi d
        exact absurd hx (by linarith)

/-- The same relative to the entry at a later position. -/
theorem interp_before {pts : List (F × F)} (hs : (pts.map Prod.fst).Pairwise (· < ·)) {D : F}
    (hR : pts.Pairwise (fun p q => |q.2 - p.2| ≤ D * (q.1 - p.1))) {x : F} {k : Nat} {q r : F × F} (h1 : pts[k]? = some q)
    (h2 : pts[k + 1]? = some r) (h3 : q.1 ≤ x) (h4 : x ≤ r.1) {x' : F} (h5 : x ≤ x') (h6 : x' ≤ r.1) :
    |(q.2 + (r.2 - q.2) * ((x' - q.1) / (r.1 - q.1))) - (q.2 + (r.2 - q.2) * ((x - q.1) / (r.1 - q.1)))| ≤ D * (x' - x) := by
  have hqr := table_mono hs h1 h2 (Nat.lt_succ_self k)
  have hR' := table_rel hR h1 h2 (Nat.lt_succ_self k)
  have hd : 0 < r.1 - q.1 := by linarith
  have e : (q.2 + (r.2 - q.2) * ((x' - q.1) / (r.1 - q.1))) - (q.2 + (r.2 - q.2) * ((x - q.1) / (r.1 - q.1)))
      = (r.2 - q.2) * ((x' - x) / (r.1 - q.1)) := by
    field_simp
    ring
  have t0 : 0 ≤ (x' - x) / (r.1 - q.1) := div_nonneg (by linarith) hd.le
  have hxt : x' - x = (r.1 - q.1) * ((x' - x) / (r.1 - q.1)) := by field_simp
  rw [e, abs_mul, abs_of_nonneg t0]
  conv_rhs => rw [hxt]
  rw [← mul_assoc]
  exact mul_le_mul_of_nonneg_right hR' t0

theorem interp_lipschitz_le {pts : List (F × F)} (hs : (pts.map Prod.fst).Pairwise (· < ·)) {D : F} (hD : 0 ≤ D)
    (hR : pts.Pairwise (fun p q => |q.2 - p.2| ≤ D * (q.1 - p.1))) {x x' y y' : F} (h : IsLinearInterp pts x y)
    (h' : IsLinearInterp pts x' y') (hxx : x ≤ x') : |y' - y| ≤ D * (x' - x) := by
  have hpos : 0 ≤ D * (x' - x) := mul_nonneg hD (by linarith)
  rcases h with ⟨q, h1, h2, rfl⟩ | ⟨q, h1, h2, rfl⟩ | ⟨k, q, r, h1, h2, h3, h4, rfl⟩
  · rcases le_total x' q.1 with c | c
    · have := isLinearInterp_unique pts hs x' y' q.2 h' (.inl ⟨q, h1, c, rfl⟩)
      rw [this, sub_self, abs_zero]
      exact hpos
    · have := interp_after hs hD hR h' (List.mem_of_head? h1) c
      have := mul_le_mul_of_nonneg_left (show x' - q.1 ≤ x' - x by linarith) hD
      linarith
  · have := isLinearInterp_unique pts hs x' y' q.2 h' (.inr (.inl ⟨q, h1, by linarith, rfl⟩))
    rw [this, sub_self, abs_zero]
    exact hpos
  · rcases le_total x' r.1 with c | c
    · have e := isLinearInterp_unique pts hs x' y' _ h' (.inr (.inr ⟨k, q, r, h1, h2, by linarith, c, rfl⟩))
      rw [e]
      exact interp_before hs hR h1 h2 h3 h4 hxx c
    · have a := interp_after hs hD hR h' (List.mem_of_getElem? h2) c
      have b := interp_before hs hR h1 h2 h3 h4 h4 (le_refl _)
      have hqr := table_mono hs h1 h2 (Nat.lt_succ_self k)
      rw [div_self (by linarith : r.1 - q.1 ≠ 0)] at b
      have e : q.2 + (r.2 - q.2) * 1 = r.2 := by ring
      rw [e] at b
      have t := abs_add_le (y' - r.2) (r.2 - (q.2 + (r.2 - q.2) * ((x - q.1) / (r.1 - q.1))))
      rw [sub_add_sub_cancel] at t
      have : D * (x' - x) = D * (x' - r.1) + D * (r.1 - x) := by ring
      linarith

/-- Piecewise linear interpolation changes no faster than its table. -/
theorem interp_lipschitz {pts : List (F × F)} (hs : (pts.map Prod.fst).Pairwise (· < ·)) {D : F} (hD : 0 ≤ D)
    (hR : pts.Pairwise (fun p q => |q.2 - p.2| ≤ D * (q.1 - p.1))) {x x' y y' : F} (h : IsLinearInterp pts x y)
    (h' : IsLinearInterp pts x' y') : |y' - y| ≤ D * |x' - x| := by
  rcases le_total x x' with c | c
  · rw [abs_of_nonneg (by linarith : 0 ≤ x' - x)]
    exact interp_lipschitz_le hs hD hR h h' c
  · rw [abs_sub_comm, abs_sub_comm x' x, abs_of_nonneg (by linarith : 0 ≤ x - x')]
    exact interp_lipschitz_le hs hD hR h' h c

/-- The value is at least every earlier entry of an increasing table. -/
theorem interp_ge {pts : List (F × F)} (hs : (pts.map Prod.fst).Pairwise (· < ·)) (hR : pts.Pairwise (fun p q => p.2 ≤ q.2)) {x y : F}
    (h : IsLinearInterp pts x y) {p : F × F} (hp : p ∈ pts) (hx : p.1 ≤ x) : p.2 ≤ y := by
  obtain ⟨i, hi⟩ := List.getElem?_of_mem hp
  have hil := (List.getElem?_eq_some_iff.1 hi).1
  rcases h with ⟨q, h1, h2, rfl⟩ | ⟨q, h1, h2, rfl⟩ | ⟨k, q, r, h1, h2, h3, h4, rfl⟩
  · rw [List.head?_eq_getElem?] at h1
    rcases Nat.eq_zero_or_pos i with c | c
    · subst c
      rw [hi] at h1
      cases h1
      exact le_refl _
    · have := table_mono hs h1 hi c
      exact absurd hx (by linarith)
  · have h1 := getLast_index h1
    rcases (show i ≤ pts.length - 1 by omega).eq_or_lt with c | c
    · rw [← c, hi] at h1
      cases h1
      exact le_refl _
    · exact table_rel hR hi h1 c
  · have hqr := table_mono hs h1 h2 (Nat.lt_succ_self k)
    have hR' := table_rel hR h1 h2 (Nat.lt_succ_self k)
    obtain ⟨t0, t1⟩ := fraction_range h3 h4 hqr
    have hstep : 0 ≤ (r.2 - q.2) * ((x - q.1) / (r.1 - q.1)) := mul_nonneg (by linarith) t0
    rcases lt_trichotomy i k with c | c | c
    · have a := table_rel hR hi h1 c
      linarith
    · subst c
      rw [hi] at h1
      cases h1
      linarith
    · rcases (show k + 1 ≤ i by omega).eq_or_lt with d | d
      · rw [← d, h2] at hi
        have er : r = p := Option.some.inj hi
        rw [← er] at hx ⊢
        have hxr : x = r.1 := le_antisymm h4 hx
        have : r.1 - q.1 ≠ 0 := by linarith
        rw [hxr, div_self this]
        linarith
      · have := table_mono hs h2 hi d
        exact absurd hx (by linarith)

/-- Piecewise linear interpolation of an increasing table is increasing. -/
theorem interp_increases {pts : List (F × F)} (hs : (pts.map Prod.fst).Pairwise (· < ·)) (hR : pts.Pairwise (fun p q => p.2 ≤ q.2)) {x x' y y' : F}
    (h : IsLinearInterp pts x y) (h' : IsLinearInterp pts x' y') (hxx : x ≤ x') : y ≤ y' := by
  rcases h with ⟨q, h1, h2, rfl⟩ | ⟨q, h1, h2, rfl⟩ | ⟨k, q, r, h1, h2, h3, h4, rfl⟩
  · rcases le_total x' q.1 with c | c
    · exact (isLinearInterp_unique pts hs x' y' q.2 h' (.inl ⟨q, h1, c, rfl⟩)).ge
    · exact interp_ge hs hR h' (List.mem_of_head? h1) c
  · exact (isLinearInterp_unique pts hs x' y' q.2 h' (.inr (.inl ⟨q, h1, by linarith, rfl⟩))).ge
  · have hqr := table_mono hs h1 h2 (Nat.lt_succ_self k)
    have hR' := table_rel hR h1 h2 (Nat.lt_succ_self k)
    obtain ⟨t0, t1⟩ := fraction_range h3 h4 hqr
    have hd : 0 < r.1 - q.1 := by linarith
    have hrise : 0 ≤ r.2 - q.2 := by linarith
    rcases le_total x' r.1 with c | c
    · rw [isLinearInterp_unique pts hs x' y' _ h' (.inr (.inr ⟨k, q, r, h1, h2, by linarith, c, rfl⟩))]
      have : (x - q.1) / (r.1 - q.1) ≤ (x' - q.1) / (r.1 - q.1) := div_le_div_of_nonneg_right (by linarith) hd.le
      have := mul_le_mul_of_nonneg_left this hrise
      linarith
    · have a := interp_ge hs hR h' (List.mem_of_getElem? h2) c
      have := mul_le_mul_of_nonneg_left t1 hrise
      linarith

/-! ### One axis of a grid -/

variable [FloorRing F]

theorem axisLerp_sub (n : Nat) (a : Axis F) (x : F) (v w : Nat → F) :
    axisLerp n a x v - axisLerp n a x w = axisLerp n a x (fun i => v i - w i) := by
  unfold axisLerp
  ring

theorem axisLerp_diff (n : Nat) (a : Axis F) (x : F) (v w : Nat → F) (hn : 2 ≤ n) (M : F) (h : ∀ i, i < n → |v i - w i| ≤ M) :
    |axisLerp n a x v - axisLerp n a x w| ≤ M := by
  rw [axisLerp_sub, abs_le]
  exact axisLerp_bounds n a x _ hn (-M) M (fun i hi => abs_le.1 (h i hi))

theorem nodes_sorted (n : Nat) (a : Axis F) (v : Nat → F) (hn : 2 ≤ n) (ha : a.lo < a.hi) :
    (((List.range n).map (fun i : Nat => (a.lo + binSize n a * (i : F), v i))).map Prod.fst).Pairwise (· < ·) := by
  have hb := binSize_pos n a hn ha
  rw [List.map_map, List.pairwise_map]
  refine (List.pairwise_lt_range).imp ?_
  intro i j hij
  have : (i : F) < j := by exact_mod_cast hij
  simp only [Function.comp]
  nlinarith

/-- Neighbouring entries that differ by at most `D` times their distance make all entries differ by at most that. -/
theorem neighbours_all {n : Nat} {v : Nat → F} {D : F} (h : ∀ i, i + 1 < n → |v (i + 1) - v i| ≤ D) {i j : Nat} (hij : i ≤ j) (hj : j < n) :
    |v j - v i| ≤ D * ((j : F) - i) := by
  induction j, hij using Nat.le_induction with
  | base => simp
  | succ k hk ih =>
    have a := h k hj
    have b := ih (by omega)
    have c := abs_add_le (v (k + 1) - v k) (v k - v i)
    rw [sub_add_sub_cancel] at c
    push_cast
    linarith

theorem axisLerp_lipschitz (n : Nat) (a : Axis F) (x x' : F) (v : Nat → F) (hn : 2 ≤ n) (ha : a.lo < a.hi) {D : F} (hD : 0 ≤ D)
    (h : ∀ i, i + 1 < n → |v (i + 1) - v i| ≤ D * binSize n a) : |axisLerp n a x' v - axisLerp n a x v| ≤ D * |x' - x| := by
  refine interp_lipschitz (nodes_sorted n a v hn ha) hD ?_ (axisLerp_linear n a x v hn ha) (axisLerp_linear n a x' v hn ha)
  rw [List.pairwise_map]
  rw [List.pairwise_iff_getElem]
  intro i j hi hj hij
  simp only [List.length_range] at hi hj
  simp only [List.getElem_range]
  have := neighbours_all h hij.le hj
  refine this.trans (le_of_eq ?_)
  ring

theorem axisLerp_mono (n : Nat) (a : Axis F) (x x' : F) (v : Nat → F) (hn : 2 ≤ n) (ha : a.lo < a.hi)
    (h : ∀ i, i + 1 < n → v i ≤ v (i + 1)) (hx : x ≤ x') : axisLerp n a x v ≤ axisLerp n a x' v := by
  refine interp_increases (nodes_sorted n a v hn ha) ?_ (axisLerp_linear n a x v hn ha) (axisLerp_linear n a x' v hn ha) hx
  rw [List.pairwise_map, List.pairwise_iff_getElem]
  intro i j hi hj hij
  simp only [List.length_range] at hi hj
  simp only [List.getElem_range]
  have : ∀ k, i ≤ k → k < n → v i ≤ v k := by
    intro k hk
    induction k, hk using Nat.le_induction with
    | base => intro _; exact le_refl _
    | succ k hk ih => intro hk'; exact (ih (by omega)).trans (h k hk')
  exact this j hij.le hj

end
end Verif.Interp
