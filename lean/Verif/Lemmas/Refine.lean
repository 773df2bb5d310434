/-
Helper lemmas for C134: bins and the finer bins they are made of.
-/
import Verif.Spec.Refine
import Verif.Lemmas.Weighted
import Verif.Lemmas.WholeChain
import Verif.Lemmas.Truth
import Mathlib.Algebra.BigOperators.Group.Finset.Basic

namespace Verif.Llh
open Verif Comp

/-! ### One axis -/

theorem FinerAxis.asc {f c : List ℝ} (h : FinerAxis f c) : f.Pairwise (· ≤ ·) := h.strict.imp le_of_lt
theorem FinerAxis.strictC {f c : List ℝ} (h : FinerAxis f c) : c.Pairwise (· < ·) := h.strict.sublist h.edges

theorem strict_get {e : List ℝ} (hs : e.Pairwise (· < ·)) {j k : Nat} {a b : ℝ} (hjk : j < k) (ha : e[j]? = some a)
    (hb : e[k]? = some b) : a < b := by
  obtain ⟨h1, rfl⟩ := List.getElem?_eq_some_iff.1 ha
  obtain ⟨h2, rfl⟩ := List.getElem?_eq_some_iff.1 hb
  exact List.pairwise_iff_getElem.1 hs j k h1 h2 hjk

theorem locate_upper {e : List ℝ} (hs : e.Pairwise (· ≤ ·)) {a b : Nat} {x y v : ℝ} (ha : e[a]? = some x) (hb : e[b]? = some y) (h1 : x < v)
    (h2 : v ≤ y) : ∃ j lo hi, e[j]? = some lo ∧ e[j + 1]? = some hi ∧ lo < v ∧ v ≤ hi := by
  classical
  have hex : ∃ n, ∃ y, e[n]? = some y ∧ v ≤ y := ⟨b, y, hb, h2⟩
  obtain ⟨y', h3, h4⟩ := Nat.find_spec hex
  generalize hn : Nat.find hex = n at *
  cases n with
  | zero =>
    have := sorted_get hs (Nat.zero_le a) h3 ha
    linarith
  | succ m =>
    have hl : m < e.length := by
      have := (List.getElem?_eq_some_iff.1 h3).1
      omega
    refine ⟨m, e[m], y', List.getElem?_eq_getElem hl, h3, ?_, h4⟩
    by_contra hc
    exact Nat.find_min hex (m := m) (by omega) ⟨e[m], List.getElem?_eq_getElem hl, not_lt.1 hc⟩

theorem locate_lower {e : List ℝ} (hs : e.Pairwise (· ≤ ·)) {a b : Nat} {x y v : ℝ} (ha : e[a]? = some x) (hb : e[b]? = some y) (h1 : x ≤ v)
    (h2 : v < y) : ∃ j lo hi, e[j]? = some lo ∧ e[j + 1]? = some hi ∧ lo ≤ v ∧ v < hi := by
  classical
  have hex : ∃ n, ∃ y, e[n]? = some y ∧ v < y := ⟨b, y, hb, h2⟩
  obtain ⟨y', h3, h4⟩ := Nat.find_spec hex
  generalize hn : Nat.find hex = n at *
  cases n with
  | zero =>
    have := sorted_get hs (Nat.zero_le a) h3 ha
    linarith
  | succ m =>
    have hl : m < e.length := by
      have := (List.getElem?_eq_some_iff.1 h3).1
      omega
    refine ⟨m, e[m], y', List.getElem?_eq_getElem hl, h3, ?_, h4⟩
    by_contra hc
    exact Nat.find_min hex (m := m) (by omega) ⟨e[m], List.getElem?_eq_getElem hl, not_le.1 hc⟩

theorem index_in {f c : List ℝ} (h : c.Sublist f) {j : Nat} {x : ℝ} (hx : c[j]? = some x) : ∃ i : Nat, f[i]? = some x :=
  List.mem_iff_getElem?.1 (h.subset (List.mem_of_getElem? hx))

/-- What dividing an axis further means for events. -/
structure AxisRefines (In : List ℝ → Nat → List (Option ℝ) → Nat → Prop) (f c : List ℝ) : Prop where
  split : ∀ j' row k, In c j' row k → ∃ j, In f j row k ∧ ∀ row' k', In f j row' k' → In c j' row' k'
  cover : ∀ j row k, In f j row k → ∃ j', In c j' row k

theorem axis_upper {f c : List ℝ} (h : FinerAxis f c) : AxisRefines InUpper f c := by
  constructor
  · rintro j' row k ⟨lo, hi, v, h1, h2, h3, h4, h5⟩
    obtain ⟨a, ha⟩ := index_in h.edges h1
    obtain ⟨b, hb⟩ := index_in h.edges h2
    obtain ⟨j, x, y, e1, e2, e3, e4⟩ := locate_upper h.asc ha hb h4 h5
    have hlo : lo ≤ x := by
      by_cases hab : a ≤ j
      · exact sorted_get h.asc hab ha e1
      · have := sorted_get h.asc (by omega : j + 1 ≤ a) e2 ha
        linarith
    have hhi : y ≤ hi := by
      by_cases hab : j + 1 ≤ b
      · exact sorted_get h.asc hab e2 hb
      · have := sorted_get h.asc (by omega : b ≤ j) hb e1
        linarith
    refine ⟨j, ⟨x, y, v, e1, e2, h3, e3, e4⟩, ?_⟩
    rintro row' k' ⟨x', y', v', g1, g2, g3, g4, g5⟩
    rw [e1] at g1
    rw [e2] at g2
    cases g1
    cases g2
    exact ⟨lo, hi, v', h1, h2, g3, by linarith, by linarith⟩
  · rintro j row k ⟨lo, hi, v, h1, h2, h3, h4, h5⟩
    have hne : c ≠ [] := by
      rintro rfl
      have := h.first
      simp only [List.head?_nil, List.head?_eq_none_iff] at this
      subst this
      simp at h1
    obtain ⟨x, hx⟩ : ∃ x, c[0]? = some x := ⟨_, List.getElem?_eq_getElem (List.length_pos_iff.2 hne)⟩
    obtain ⟨y, hy⟩ : ∃ y, c[c.length - 1]? = some y := ⟨_, List.getElem?_eq_getElem (by have := List.length_pos_iff.2 hne; omega)⟩
    have hx' : f[0]? = some x := by
      rw [← List.head?_eq_getElem?, h.first, List.head?_eq_getElem?, hx]
    have hy' : f[f.length - 1]? = some y := by
      rw [← List.getLast?_eq_getElem?, h.last, List.getLast?_eq_getElem?, hy]
    have hl := (List.getElem?_eq_some_iff.1 h2).1
    obtain ⟨j', a, b, e1, e2, e3, e4⟩ := locate_upper (h.strictC.imp le_of_lt) hx hy
      (lt_of_le_of_lt (sorted_get h.asc (Nat.zero_le j) hx' h1) h4) (h5.trans (sorted_get h.asc (by omega) h2 hy'))
    exact ⟨j', a, b, v, e1, e2, h3, e3, e4⟩

theorem axis_lower {f c : List ℝ} (h : FinerAxis f c) : AxisRefines InLower f c := by
  have hlastf : ∀ y, f[f.length - 1]? = some y ↔ c[c.length - 1]? = some y := by
    intro y
    rw [← List.getLast?_eq_getElem?, h.last, List.getLast?_eq_getElem?]
  -- a fine bin between two coarse edges
  have key : ∀ {j' lo hi j x y}, c[j']? = some lo → c[j' + 1]? = some hi → f[j]? = some x → f[j + 1]? = some y → lo ≤ x → y ≤ hi →
      ∀ row' k', InLower f j row' k' → InLower c j' row' k' := by
    rintro j' lo hi j x y h1 h2 e1 e2 hlo hhi row' k' ⟨x', y', v', g1, g2, g3, g4, g5⟩
    rw [e1] at g1
    rw [e2] at g2
    cases g1
    cases g2
    refine ⟨lo, hi, v', h1, h2, g3, by linarith, ?_⟩
    rcases g5 with g5 | ⟨g5, rfl⟩
    · exact .inl (by linarith)
    · rcases lt_or_eq_of_le hhi with hlt | heq
      · exact .inl hlt
      · refine .inr ⟨?_, heq⟩
        have hcl : c[c.length - 1]? = some v' := (hlastf _).1 (by rw [show f.length - 1 = j + 1 by omega]; exact e2)
        have hl := (List.getElem?_eq_some_iff.1 h2).1
        by_contra hne
        have := strict_get h.strictC (by omega : j' + 1 < c.length - 1) h2 hcl
        linarith
  constructor
  · rintro j' row k ⟨lo, hi, v, h1, h2, h3, h4, h5⟩
    obtain ⟨a, ha⟩ := index_in h.edges h1
    obtain ⟨b, hb⟩ := index_in h.edges h2
    have hlohi := strict_get h.strictC (Nat.lt_succ_self j') h1 h2
    rcases h5 with h5 | ⟨h5, rfl⟩
    · obtain ⟨j, x, y, e1, e2, e3, e4⟩ := locate_lower h.asc ha hb h4 h5
      have hlo : lo ≤ x := by
        by_cases hab : a ≤ j
        · exact sorted_get h.asc hab ha e1
        · have := sorted_get h.asc (by omega : j + 1 ≤ a) e2 ha
          linarith
      have hhi : y ≤ hi := by
        by_cases hab : j + 1 ≤ b
        · exact sorted_get h.asc hab e2 hb
        · have := sorted_get h.asc (by omega : b ≤ j) hb e1
          linarith
      exact ⟨j, ⟨x, y, v, e1, e2, h3, e3, .inl e4⟩, key h1 h2 e1 e2 hlo hhi⟩
    · have hfl : f[f.length - 1]? = some v := (hlastf v).2 (by rw [show c.length - 1 = j' + 1 by omega]; exact h2)
      have hla := (List.getElem?_eq_some_iff.1 ha).1
      have haf : a < f.length - 1 := by
        rcases Nat.lt_or_ge a (f.length - 1) with hh | hh
        · exact hh
        · have : a = f.length - 1 := by omega
          rw [this, hfl] at ha
          cases ha
          exact absurd hlohi (lt_irrefl _)
      obtain ⟨m, hm⟩ : ∃ m, f.length = m + 2 := ⟨f.length - 2, by omega⟩
      have e1 : f[m]? = some f[m] := List.getElem?_eq_getElem (by omega)
      have e2 : f[m + 1]? = some v := by rw [← hfl, hm]; rfl
      exact ⟨m, ⟨_, v, v, e1, e2, h3, (strict_get h.strict (Nat.lt_succ_self m) e1 e2).le, .inr ⟨by omega, rfl⟩⟩,
        key h1 h2 e1 e2 (sorted_get h.asc (by omega) ha e1) le_rfl⟩
  · rintro j row k ⟨lo, hi, v, h1, h2, h3, h4, h5⟩
    have hne : c ≠ [] := by
      rintro rfl
      have := h.first
      simp only [List.head?_nil, List.head?_eq_none_iff] at this
      subst this
      simp at h1
    obtain ⟨x, hx⟩ : ∃ x, c[0]? = some x := ⟨_, List.getElem?_eq_getElem (List.length_pos_iff.2 hne)⟩
    obtain ⟨y, hy⟩ : ∃ y, c[c.length - 1]? = some y := ⟨_, List.getElem?_eq_getElem (by have := List.length_pos_iff.2 hne; omega)⟩
    have hx' : f[0]? = some x := by
      rw [← List.head?_eq_getElem?, h.first, List.head?_eq_getElem?, hx]
    have hy' := (hlastf y).2 hy
    have hl := (List.getElem?_eq_some_iff.1 h2).1
    have hxv : x ≤ v := (sorted_get h.asc (Nat.zero_le j) hx' h1).trans h4
    rcases h5 with h5 | ⟨h5, rfl⟩
    · obtain ⟨j', a, b, e1, e2, e3, e4⟩ := locate_lower (h.strictC.imp le_of_lt) hx hy hxv
        (lt_of_lt_of_le h5 (sorted_get h.asc (by omega) h2 hy'))
      exact ⟨j', a, b, v, e1, e2, h3, e3, .inl e4⟩
    · have hv : y = v := by
        rw [show f.length - 1 = j + 1 by omega, h2] at hy'
        exact (Option.some.inj hy').symm
      subst hv
      have hxy : x < y := lt_of_le_of_lt (sorted_get h.asc (Nat.zero_le j) hx' h1) (strict_get h.strict (Nat.lt_succ_self j) h1 h2)
      have hc2 : 1 < c.length := by
        by_contra hc
        have : c.length - 1 = 0 := by omega
        rw [this, hx] at hy
        cases hy
        exact absurd hxy (lt_irrefl _)
      obtain ⟨m, hm⟩ : ∃ m, c.length = m + 2 := ⟨c.length - 2, by omega⟩
      have e1 : c[m]? = some c[m] := List.getElem?_eq_getElem (by omega)
      have e2 : c[m + 1]? = some y := by rw [← hy, hm]; rfl
      exact ⟨m, _, y, y, e1, e2, h3, (strict_get h.strictC (Nat.lt_succ_self m) e1 e2).le, .inr ⟨by omega, rfl⟩⟩

theorem upper_nonempty {e : List ℝ} (hs : e.Pairwise (· < ·)) {j : Nat} (hj : j + 1 < e.length) :
    ∃ v, ∀ row k, row[k]? = some (some v) → InUpper e j row k :=
  ⟨e[j + 1], fun row k h => ⟨e[j], e[j + 1], e[j + 1], List.getElem?_eq_getElem _, List.getElem?_eq_getElem _, h,
    List.pairwise_iff_getElem.1 hs j (j + 1) _ _ (Nat.lt_succ_self j), le_rfl⟩⟩

theorem lower_nonempty {e : List ℝ} (hs : e.Pairwise (· < ·)) {j : Nat} (hj : j + 1 < e.length) :
    ∃ v, ∀ row k, row[k]? = some (some v) → InLower e j row k :=
  ⟨e[j], fun row k h => ⟨e[j], e[j + 1], e[j], List.getElem?_eq_getElem _, List.getElem?_eq_getElem _, h, le_rfl,
    .inl (List.pairwise_iff_getElem.1 hs j (j + 1) _ _ (Nat.lt_succ_self j))⟩⟩

theorem InUpper.lt {e : List ℝ} {j : Nat} {row : List (Option ℝ)} {k : Nat} (h : InUpper e j row k) : j + 1 < e.length := by
  obtain ⟨_, _, _, _, h2, _⟩ := h
  exact (List.getElem?_eq_some_iff.1 h2).1

theorem InLower.lt {e : List ℝ} {j : Nat} {row : List (Option ℝ)} {k : Nat} (h : InLower e j row k) : j + 1 < e.length := by
  obtain ⟨_, _, _, _, h2, _⟩ := h
  exact (List.getElem?_eq_some_iff.1 h2).1

/-! ### Bins -/

theorem finer_split {fine coarse : Bins ℝ} (h : Finer fine coarse) {c : Nat × Nat} (hc : IsBin coarse c.1 c.2) {row : List (Option ℝ)}
    (hr : EventIn coarse c.1 c.2 row) : ∃ f : Nat × Nat, IsBin fine f.1 f.2 ∧ EventIn fine f.1 f.2 row ∧ Within fine coarse f c := by
  obtain ⟨i', j'⟩ := c
  cases fine <;> cases coarse <;> simp only [Finer] at h
  · obtain ⟨rfl, _⟩ := hc
    obtain ⟨j, h1, h2⟩ := (axis_upper h).split j' row 0 hr
    exact ⟨(0, j), ⟨rfl, h1.lt⟩, h1, fun row' hr' => h2 row' 0 hr'⟩
  · obtain ⟨hx, rfl, hy⟩ := h
    obtain ⟨hr1, r', hr2, hr3⟩ := hr
    obtain ⟨hi1, hi2⟩ := List.getElem?_eq_some_iff.1 hr2
    obtain ⟨r, hr, hfin⟩ : ∃ r, _ = some r ∧ FinerAxis r r' := by
      have := hy.get (i := i') (by rw [hy.length_eq]; exact hi1) hi1
      exact ⟨_, List.getElem?_eq_getElem (by rw [hy.length_eq]; exact hi1), by rw [← hi2]; exact this⟩
    obtain ⟨j, h1, h2⟩ := (axis_upper hfin).split j' row 1 hr3
    refine ⟨(i', j), ⟨hr1.lt, r, hr, h1.lt⟩, ⟨hr1, r, hr, h1⟩, ?_⟩
    rintro row' ⟨g1, r2, g2, g3⟩
    rw [hr] at g2
    cases g2
    exact ⟨g1, r', hr2, h2 row' 1 g3⟩
  · obtain ⟨rfl, _⟩ := hc
    obtain ⟨j, h1, h2⟩ := (axis_lower h).split j' row 0 hr
    exact ⟨(0, j), ⟨rfl, h1.lt⟩, h1, fun row' hr' => h2 row' 0 hr'⟩
  · obtain ⟨i, h1, h2⟩ := (axis_lower h.1).split i' row 0 hr.1
    obtain ⟨j, h3, h4⟩ := (axis_lower h.2).split j' row 1 hr.2
    exact ⟨(i, j), ⟨h1.lt, h3.lt⟩, ⟨h1, h3⟩, fun row' hr' => ⟨h2 row' 0 hr'.1, h4 row' 1 hr'.2⟩⟩

theorem finer_cover {fine coarse : Bins ℝ} (h : Finer fine coarse) {f : Nat × Nat} {row : List (Option ℝ)}
    (hr : EventIn fine f.1 f.2 row) : ∃ c : Nat × Nat, IsBin coarse c.1 c.2 ∧ EventIn coarse c.1 c.2 row := by
  obtain ⟨i, j⟩ := f
  cases fine <;> cases coarse <;> simp only [Finer] at h
  · obtain ⟨j', h1⟩ := (axis_upper h).cover j row 0 hr
    exact ⟨(0, j'), ⟨rfl, h1.lt⟩, h1⟩
  · obtain ⟨hx, rfl, hy⟩ := h
    obtain ⟨hr1, r, hr2, hr3⟩ := hr
    obtain ⟨hi1, hi2⟩ := List.getElem?_eq_some_iff.1 hr2
    have hfin := hy.get (i := i) hi1 (by rw [← hy.length_eq]; exact hi1)
    simp only [List.get_eq_getElem, hi2] at hfin
    obtain ⟨j', h1⟩ := (axis_upper hfin).cover j row 1 hr3
    have hl := List.getElem?_eq_getElem (show i < _ by rw [← hy.length_eq]; exact hi1)
    exact ⟨(i, j'), ⟨hr1.lt, _, hl, h1.lt⟩, hr1, _, hl, h1⟩
  · obtain ⟨j', h1⟩ := (axis_lower h).cover j row 0 hr
    exact ⟨(0, j'), ⟨rfl, h1.lt⟩, h1⟩
  · obtain ⟨i', h1⟩ := (axis_lower h.1).cover i row 0 hr.1
    obtain ⟨j', h2⟩ := (axis_lower h.2).cover j row 1 hr.2
    exact ⟨(i', j'), ⟨h1.lt, h2.lt⟩, h1, h2⟩

/-- All edges ascend strictly. -/
def Strict : Bins ℝ → Prop
  | .mesh1 e => e.Pairwise (· < ·)
  | .irreg1 e => e.Pairwise (· < ·)
  | .mesh2 x y => x.Pairwise (· < ·) ∧ y.Pairwise (· < ·)
  | .irreg2 x y => x.Pairwise (· < ·) ∧ ∀ r ∈ y, r.Pairwise (· < ·)
  | _ => False

theorem forall₂_right {α β : Type} {R : α → β → Prop} {l : List α} {l' : List β} (h : List.Forall₂ R l l') : ∀ b ∈ l', ∃ a, R a b := by
  induction h with
  | nil => simp
  | cons hd _ ih =>
    intro b hb
    rcases List.mem_cons.1 hb with rfl | hb
    · exact ⟨_, hd⟩
    · exact ih b hb

theorem forall₂_left {α β : Type} {R : α → β → Prop} {l : List α} {l' : List β} (h : List.Forall₂ R l l') : ∀ a ∈ l, ∃ b, R a b := by
  induction h with
  | nil => simp
  | cons hd _ ih =>
    intro b hb
    rcases List.mem_cons.1 hb with rfl | hb
    · exact ⟨_, hd⟩
    · exact ih b hb

theorem finer_strict {fine coarse : Bins ℝ} (h : Finer fine coarse) : Strict fine ∧ Strict coarse := by
  cases fine <;> cases coarse <;> simp only [Finer] at h
  · exact ⟨h.strict, h.strictC⟩
  · obtain ⟨hx, rfl, hy⟩ := h
    refine ⟨⟨hx, fun r hr => ?_⟩, hx, fun r hr => ?_⟩
    · obtain ⟨b, hb⟩ := forall₂_left hy r hr
      exact hb.strict
    · obtain ⟨b, hb⟩ := forall₂_right hy r hr
      exact hb.strictC
  · exact ⟨h.strict, h.strictC⟩
  · exact ⟨⟨h.1.strict, h.2.strict⟩, h.1.strictC, h.2.strictC⟩

theorem finer_dims {fine coarse : Bins ℝ} (h : Finer fine coarse) : coarse.dims = fine.dims := by
  cases fine <;> cases coarse <;> simp only [Finer] at h <;> rfl

theorem bin_nonempty {bins : Bins ℝ} (h : Strict bins) {c : Nat × Nat} (hc : IsBin bins c.1 c.2) : ∃ row, EventIn bins c.1 c.2 row := by
  obtain ⟨i, j⟩ := c
  cases bins <;> simp only [Strict] at h <;> simp only [IsBin] at hc
  · obtain ⟨v, hv⟩ := upper_nonempty h hc.2
    exact ⟨[some v], hv _ 0 rfl⟩
  · obtain ⟨hi, r, hr, hj⟩ := hc
    obtain ⟨v, hv⟩ := upper_nonempty h.1 hi
    obtain ⟨w, hw⟩ := upper_nonempty (h.2 r (List.mem_of_getElem? hr)) hj
    exact ⟨[some v, some w], hv _ 0 rfl, r, hr, hw _ 1 rfl⟩
  · obtain ⟨v, hv⟩ := lower_nonempty h hc.2
    exact ⟨[some v], hv _ 0 rfl⟩
  · obtain ⟨v, hv⟩ := lower_nonempty h.1 hc.1
    obtain ⟨w, hw⟩ := lower_nonempty h.2 hc.2
    exact ⟨[some v, some w], hv _ 0 rfl, hw _ 1 rfl⟩

theorem mem_pieces {fine coarse : Bins ℝ} (ha : Ascending fine) {f c : Nat × Nat} :
    f ∈ piecesOf fine coarse c ↔ IsBin fine f.1 f.2 ∧ Within fine coarse f c := by
  classical
  unfold piecesOf
  rw [List.mem_filter, mem_binList fine ha]
  simp

theorem within_unique {fine coarse : Bins ℝ} (h : Finer fine coarse) (ha : Ascending coarse) {f c c' : Nat × Nat} (hf : IsBin fine f.1 f.2)
    (hc : IsBin coarse c.1 c.2) (hc' : IsBin coarse c'.1 c'.2) (h1 : Within fine coarse f c) (h2 : Within fine coarse f c') : c = c' := by
  obtain ⟨row, hr⟩ := bin_nonempty (finer_strict h).1 hf
  exact eventIn_unique coarse ha row c c' hc hc' (h1 row hr) (h2 row hr)

theorem within_exists {fine coarse : Bins ℝ} (h : Finer fine coarse) (ha : Ascending fine) {f : Nat × Nat} (hf : IsBin fine f.1 f.2) :
    ∃ c : Nat × Nat, IsBin coarse c.1 c.2 ∧ Within fine coarse f c := by
  obtain ⟨row, hr⟩ := bin_nonempty (finer_strict h).1 hf
  obtain ⟨c, hc, he⟩ := finer_cover h hr
  obtain ⟨f', h1, h2, h3⟩ := finer_split h hc he
  rw [eventIn_unique fine ha row f f' hf h1 hr h2]
  exact ⟨c, hc, h3⟩

theorem pieces_ne_nil {fine coarse : Bins ℝ} (h : Finer fine coarse) (ha : Ascending fine) {c : Nat × Nat} (hc : IsBin coarse c.1 c.2) :
    piecesOf fine coarse c ≠ [] := by
  obtain ⟨row, hr⟩ := bin_nonempty (finer_strict h).2 hc
  obtain ⟨f, h1, _, h3⟩ := finer_split h hc hr
  exact List.ne_nil_of_mem ((mem_pieces ha).2 ⟨h1, h3⟩)

/-! ### Sums over the pieces -/

section
open Classical

theorem sum_unique {ι M : Type} [AddCommMonoid M] (l : List ι) (hl : l.Nodup) (P : ι → Prop) (w : M) (a : ι) (ha : a ∈ l) (hP : P a)
    (hu : ∀ b ∈ l, P b → b = a) : (l.map (fun b => if P b then w else 0)).sum = w := by
  induction l with
  | nil => cases ha
  | cons b l ih =>
    rw [List.nodup_cons] at hl
    rw [List.map_cons, List.sum_cons]
    by_cases hb : P b
    · have hba := hu b (by simp) hb
      subst hba
      have : (l.map (fun b => if P b then w else 0)).sum = 0 := by
        refine List.sum_eq_zero fun x hx => ?_
        obtain ⟨d, hd, rfl⟩ := List.mem_map.1 hx
        refine if_neg fun hp => hl.1 ?_
        rw [← hu d (by simp [hd]) hp]
        exact hd
      rw [this, if_pos hb, add_zero]
    · rw [if_neg hb, zero_add]
      refine ih hl.2 ?_ fun d hd => hu d (by simp [hd])
      rcases List.mem_cons.1 ha with rfl | h
      · exact absurd hP hb
      · exact h

theorem pieces_nodup {fine : Bins ℝ} (ha : Ascending fine) (coarse : Bins ℝ) (c : Nat × Nat) : (piecesOf fine coarse c).Nodup := by
  unfold piecesOf
  exact (nodup_cells _ : (binList fine).Nodup).filter _

/-- An event counts in a bin exactly if it counts in one of its pieces. -/
theorem indicator_pieces {M : Type} [AddCommMonoid M] {fine coarse : Bins ℝ} (h : Finer fine coarse) (ha : Ascending fine) {c : Nat × Nat}
    (hc : IsBin coarse c.1 c.2) (row : List (Option ℝ)) (w : M) :
    (if EventIn coarse c.1 c.2 row then w else 0)
      = ((piecesOf fine coarse c).map (fun f => if EventIn fine f.1 f.2 row then w else 0)).sum := by
  by_cases hr : EventIn coarse c.1 c.2 row
  · rw [if_pos hr]
    obtain ⟨f, h1, h2, h3⟩ := finer_split h hc hr
    refine (sum_unique _ (pieces_nodup ha coarse c) (fun f => EventIn fine f.1 f.2 row) w f ((mem_pieces ha).2 ⟨h1, h3⟩) h2 ?_).symm
    intro b hb hbr
    exact eventIn_unique fine ha row b f ((mem_pieces ha).1 hb).1 h1 hbr h2
  · rw [if_neg hr]
    refine (List.sum_eq_zero fun x hx => ?_).symm
    obtain ⟨f, hf, rfl⟩ := List.mem_map.1 hx
    exact if_neg fun he => hr (((mem_pieces ha).1 hf).2 row he)

theorem weight_pieces {fine coarse : Bins ℝ} (h : Finer fine coarse) (ha : Ascending fine) {c : Nat × Nat}
    (hc : IsBin coarse c.1 c.2) (sw : List (List (Option ℝ) × ℝ)) :
    Hist.weightOf (EventIn coarse c.1 c.2) sw = ((piecesOf fine coarse c).map (fun f => Hist.weightOf (EventIn fine f.1 f.2) sw)).sum := by
  induction sw with
  | nil => simp [Hist.weightOf]
  | cons e sw ih =>
    have hcons : ∀ p : List (Option ℝ) → Prop, Hist.weightOf p (e :: sw) = (if p e.1 then e.2 else 0) + Hist.weightOf p sw := by
      intro p
      unfold Hist.weightOf
      by_cases hp : p e.1 <;> simp [List.filter_cons, hp]
    simp only [hcons]
    rw [List.sum_map_add, ← ih, ← indicator_pieces h ha hc]

theorem count_pieces {fine coarse : Bins ℝ} (h : Finer fine coarse) (ha : Ascending fine) {c : Nat × Nat}
    (hc : IsBin coarse c.1 c.2) (data : List (List (Option ℝ))) :
    countIn coarse data c = ((piecesOf fine coarse c).map (fun f => countIn fine data f)).sum := by
  unfold countIn
  induction data with
  | nil => simp
  | cons e sw ih =>
    have hcons : ∀ p : List (Option ℝ) → Prop, (e :: sw).countP (fun r => decide (p r)) = (if p e then 1 else 0) + sw.countP (fun r => decide (p r)) := by
      intro p
      by_cases hp : p e <;> simp [List.countP_cons, hp, add_comm]
    simp only [hcons]
    rw [List.sum_map_add, ← ih, ← indicator_pieces h ha hc]

theorem sum_all_pieces {fine coarse : Bins ℝ} (h : Finer fine coarse) (ha : Ascending fine) (hac : Ascending coarse) (g : Nat × Nat → ℝ) :
    ((binList coarse).map (fun c => ((piecesOf fine coarse c).map g).sum)).sum = ((binList fine).map g).sum := by
  have hn : (binList fine).Nodup := nodup_cells _
  have hnc : (binList coarse).Nodup := nodup_cells _
  rw [← List.sum_toFinset _ hnc, ← List.sum_toFinset _ hn]
  have e : ∀ c, ((piecesOf fine coarse c).map g).sum = ∑ f ∈ (binList fine).toFinset, if Within fine coarse f c then g f else 0 := by
    intro c
    rw [← List.sum_toFinset _ (pieces_nodup ha coarse c), ← Finset.sum_filter]
    refine Finset.sum_congr ?_ fun _ _ => rfl
    ext f
    simp only [List.mem_toFinset, Finset.mem_filter, mem_pieces ha, mem_binList fine ha]
  simp only [e]
  rw [Finset.sum_comm]
  refine Finset.sum_congr rfl fun f hf => ?_
  have hf' := (mem_binList fine ha f.1 f.2).1 (List.mem_toFinset.1 hf)
  obtain ⟨c, hc, hw⟩ := within_exists h ha hf'
  have hm : c ∈ binList coarse := (mem_binList coarse hac c.1 c.2).2 hc
  rw [List.sum_toFinset _ hnc]
  refine sum_unique _ hnc (fun c => Within fine coarse f c) (g f) c hm hw fun b hb hbw => ?_
  exact within_unique h hac hf' ((mem_binList coarse hac b.1 b.2).1 hb) hc hbw hw

end

/-! ### Predictions -/

theorem weight_withBins (s : Sample ℝ) {coarse : Bins ℝ} (h : Finer s.cfg.bins coarse) (ha : Ascending s.cfg.bins) {c : Nat × Nat}
    (hc : IsBin coarse c.1 c.2) : (s.withBins coarse).weight c = ((piecesOf s.cfg.bins coarse c).map s.weight).sum :=
  weight_pieces h ha hc _

theorem content_eq (s : Sample ℝ) (c : Nat × Nat) : s.content c = if s.cfg.addEps then max (s.weight c) s.floor else s.weight c := rfl

theorem floor_nonneg (s : Sample ℝ) (he : ∀ e ∈ s.eff, 0 ≤ e) : 0 ≤ s.floor := by
  unfold Sample.floor
  have := List.sum_nonneg he
  positivity

theorem content_withBins (s : Sample ℝ) {coarse : Bins ℝ} (h : Finer s.cfg.bins coarse) (ha : Ascending s.cfg.bins) (hac : Ascending coarse)
    (hfill : s.cfg.addEps = true → (∀ e ∈ s.eff, 0 ≤ e) ∧ ∀ f ∈ binList s.cfg.bins, s.floor ≤ s.weight f) {c : Nat × Nat}
    (hc : c ∈ binList coarse) : (s.withBins coarse).content c = ((piecesOf s.cfg.bins coarse c).map s.content).sum := by
  have hc' := (mem_binList coarse hac c.1 c.2).1 hc
  rw [content_eq, weight_withBins s h ha hc']
  rw [show s.content = _ from funext (content_eq s)]
  have e1 : (s.withBins coarse).cfg.addEps = s.cfg.addEps := rfl
  have e2 : (s.withBins coarse).floor = s.floor := rfl
  rw [e1, e2]
  cases hb : s.cfg.addEps with
  | false => simp
  | true =>
    obtain ⟨he, hw⟩ := hfill hb
    have hp : ∀ f ∈ piecesOf s.cfg.bins coarse c, s.floor ≤ s.weight f := fun f hf =>
      hw f ((mem_binList _ ha f.1 f.2).2 ((mem_pieces ha).1 hf).1)
    simp only [if_true]
    have e3 : (piecesOf s.cfg.bins coarse c).map (fun f => max (s.weight f) s.floor) = (piecesOf s.cfg.bins coarse c).map s.weight :=
      List.map_congr_left fun f hf => max_eq_left (hp f hf)
    rw [e3]
    refine max_eq_left ?_
    have h0 := floor_nonneg s he
    obtain ⟨f, hf⟩ := List.exists_mem_of_ne_nil _ (pieces_ne_nil h ha hc')
    refine (hp f hf).trans (List.single_le_sum ?_ _ (List.mem_map.2 ⟨f, hf, rfl⟩))
    intro x hx
    obtain ⟨d, hd, rfl⟩ := List.mem_map.1 hx
    exact h0.trans (hp d hd)

theorem content_withBins_le (s : Sample ℝ) {coarse : Bins ℝ} (h : Finer s.cfg.bins coarse) (ha : Ascending s.cfg.bins) (hac : Ascending coarse)
    (he : ∀ e ∈ s.eff, 0 ≤ e) {c : Nat × Nat} (hc : c ∈ binList coarse) :
    (s.withBins coarse).content c ≤ ((piecesOf s.cfg.bins coarse c).map s.content).sum := by
  have hc' := (mem_binList coarse hac c.1 c.2).1 hc
  rw [content_eq, weight_withBins s h ha hc']
  rw [show s.content = _ from funext (content_eq s)]
  have e1 : (s.withBins coarse).cfg.addEps = s.cfg.addEps := rfl
  have e2 : (s.withBins coarse).floor = s.floor := rfl
  rw [e1, e2]
  cases hb : s.cfg.addEps with
  | false => simp
  | true =>
    simp only [if_true]
    have h0 := floor_nonneg s he
    obtain ⟨f, hf⟩ := List.exists_mem_of_ne_nil _ (pieces_ne_nil h ha hc')
    refine max_le (List.sum_le_sum fun f _ => le_max_left _ _) ((le_max_right (s.weight f) _).trans
      (List.single_le_sum ?_ _ (List.mem_map.2 ⟨f, hf, rfl⟩)))
    intro x hx
    obtain ⟨d, hd, rfl⟩ := List.mem_map.1 hx
    exact h0.trans (le_max_right _ _)

theorem norm_withBins (s : Sample ℝ) {coarse : Bins ℝ} (h : Finer s.cfg.bins coarse) (ha : Ascending s.cfg.bins) (hac : Ascending coarse)
    (hfill : s.Filled) : (s.withBins coarse).norm = s.norm := by
  unfold Sample.norm
  have e1 : (s.withBins coarse).cfg.normType = s.cfg.normType := rfl
  have e2 : (s.withBins coarse).cfg.energy = s.cfg.energy := rfl
  have e3 : (s.withBins coarse).cfg.nSelected = s.cfg.nSelected := rfl
  have e4 : (s.withBins coarse).simulated = s.simulated := rfl
  have e5 : (s.withBins coarse).cfg.bins = coarse := rfl
  rw [e1, e2, e3, e4, e5]
  congr 1
  rw [← sum_all_pieces h ha hac]
  congr 1
  exact List.map_congr_left fun c hc => content_withBins s h ha hac hfill hc

theorem expected_withBins (s : Sample ℝ) {coarse : Bins ℝ} (h : Finer s.cfg.bins coarse) (ha : Ascending s.cfg.bins) (hac : Ascending coarse)
    (hfill : s.Filled) {c : Nat × Nat} (hc : c ∈ binList coarse) :
    (s.withBins coarse).expected c = ((piecesOf s.cfg.bins coarse c).map s.expected).sum := by
  unfold Sample.expected
  rw [norm_withBins s h ha hac hfill, content_withBins s h ha hac hfill hc]
  have e : (s.withBins coarse).rate = s.rate := rfl
  have e2 : (fun b => s.rate * s.content b / s.norm) = fun b => s.rate / s.norm * s.content b := by
    funext b
    ring
  rw [e, e2, List.sum_map_mul_left]
  ring

theorem normalisable_withBins (s : Sample ℝ) {coarse : Bins ℝ} (h : Finer s.cfg.bins coarse) (ha : Ascending s.cfg.bins)
    (hac : Ascending coarse) (hfill : s.Filled) (hn : s.Normalisable) : (s.withBins coarse).Normalisable := by
  refine ⟨hn.1, ?_⟩
  rw [norm_withBins s h ha hac hfill]
  exact hn.2

theorem expectedIn_withBins (fine : Bins ℝ) (ss : List (Sample ℝ)) (hb : ∀ s ∈ ss, s.cfg.bins = fine) {coarse : Bins ℝ} (h : Finer fine coarse)
    (ha : Ascending fine) (hac : Ascending coarse) (hfill : ∀ s ∈ ss, s.Filled) {c : Nat × Nat} (hc : c ∈ binList coarse) :
    expectedIn (ss.map (fun s => s.withBins coarse)) c = ((piecesOf fine coarse c).map (expectedIn ss)).sum := by
  unfold expectedIn
  induction ss with
  | nil => simp
  | cons s ss ih =>
    have h0 := hb s (by simp)
    simp only [List.map_cons, List.sum_cons]
    rw [List.sum_map_add, ← ih (fun s hs => hb s (by simp [hs])) (fun s hs => hfill s (by simp [hs])),
      expected_withBins s (by rw [h0]; exact h) (by rw [h0]; exact ha) hac (hfill s (by simp)) hc, h0]

/-! ### The same simulation, binned differently -/

section
variable {K : Type}

theorem proper_withBins {S : Setup K} {fine coarse : Bins ℝ} {parts : List Part} (hS : S.Proper fine parts) (h : Finer fine coarse)
    (hac : Ascending coarse) : (S.withBins coarse).Proper coarse parts where
  aliases := hS.aliases
  bins_eq := fun _ _ => rfl
  ascending := hac
  dims := by rw [finer_dims h]; exact hS.dims
  no_eff := hS.no_eff
  no_batch := hS.no_batch
  provides := hS.provides
  sole := hS.sole
  returns := hS.returns
  tables := fun n d m hm => by rw [finer_dims h]; exact hS.tables n d m hm

theorem draws_withBins {S : Setup K} {order order' : String → List Plugin} {batch : Int} {q : PyDict String ℝ} {parts : List Part} {k k' : K}
    {ss : List (Sample ℝ)} (coarse : Bins ℝ) (ho : ∀ a, Part.sim a ∈ parts → order a.comp = order' a.comp)
    (h : Draws S order batch q parts k ss k') :
    Draws (S.withBins coarse) order' batch q parts k (ss.map (fun s => s.withBins coarse)) k' := by
  induction h with
  | nil => exact .nil _
  | @sim a ps k k' ss k'' val cols eff rate h1 h2 h3 h4 h5 _ ih =>
    exact .sim h1 (by rw [← ho a (by simp)]; exact h2) h3 h4 h5 (ih fun a ha => ho a (by simp [ha]))
  | fixed h1 _ ih => exact .fixed h1 (ih fun a ha => ho a (by simp [ha]))

theorem draws_bins {S : Setup K} {order : String → List Plugin} {batch : Int} {q : PyDict String ℝ} {parts : List Part} {k k' : K}
    {ss : List (Sample ℝ)} {bins : Bins ℝ} (hb : ∀ p ∈ parts, (S.cfg p.name).bins = bins)
    (h : Draws S order batch q parts k ss k') : ∀ s ∈ ss, s.cfg.bins = bins := by
  induction h with
  | nil => simp
  | @sim a ps k k' ss k'' val cols eff rate h1 h2 h3 h4 h5 _ ih =>
    intro s hs
    rcases List.mem_cons.1 hs with rfl | hs
    · exact hb (.sim a) (by simp)
    · exact ih (fun p hp => hb p (by simp [hp])) s hs
  | @fixed name data n ps k ss k' rate h1 _ ih =>
    intro s hs
    rcases List.mem_cons.1 hs with rfl | hs
    · exact hb (.fixed name data n) (by simp)
    · exact ih (fun p hp => hb p (by simp [hp])) s hs

end

/-! ### Information -/

theorem sum_map_sub {ι : Type} (l : List ι) (a b : ι → ℝ) : (l.map (fun i => a i - b i)).sum = (l.map a).sum - (l.map b).sum := by
  induction l with
  | nil => simp
  | cons x xs ih =>
    simp only [List.map_cons, List.sum_cons, ih]
    ring

/-- The log-sum inequality, for Poisson contents. -/
theorem merge_gap {ι : Type} (l : List ι) (a b : ι → ℝ) (hl : l ≠ []) (ha : ∀ i ∈ l, 0 < a i) (hb : ∀ i ∈ l, 0 < b i) :
    ((l.map a).sum * Real.log (l.map a).sum - (l.map a).sum) - ((l.map a).sum * Real.log (l.map b).sum - (l.map b).sum)
      ≤ (l.map (fun i => (a i * Real.log (a i) - a i) - (a i * Real.log (b i) - b i))).sum := by
  have pos : ∀ g : ι → ℝ, (∀ i ∈ l, 0 < g i) → 0 < (l.map g).sum := by
    intro g hg
    obtain ⟨i, hi⟩ := List.exists_mem_of_ne_nil l hl
    refine lt_of_lt_of_le (hg i hi) (List.single_le_sum ?_ _ (List.mem_map.2 ⟨i, hi, rfl⟩))
    intro x hx
    obtain ⟨d, hd, rfl⟩ := List.mem_map.1 hx
    exact (hg d hd).le
  have hA := pos a ha
  have hB := pos b hb
  set A := (l.map a).sum with hAdef
  set B := (l.map b).sum with hBdef
  have hterm : ∀ i ∈ l, a i * (Real.log A - Real.log B) - b i * (A / B) + b i ≤ (a i * Real.log (a i) - a i) - (a i * Real.log (b i) - b i) := by
    intro i hi
    have h1 := ha i hi
    have h2 := hb i hi
    have h3 : Real.log (b i * (A / B) / a i) ≤ b i * (A / B) / a i - 1 := Real.log_le_sub_one_of_pos (by positivity)
    rw [Real.log_div (by positivity) h1.ne', Real.log_mul h2.ne' (by positivity), Real.log_div hA.ne' hB.ne'] at h3
    have h4 := mul_le_mul_of_nonneg_left h3 h1.le
    have h5 : a i * (b i * (A / B) / a i - 1) = b i * (A / B) - a i := by field_simp
    rw [h5] at h4
    nlinarith
  have hsum := List.sum_le_sum hterm
  refine le_trans (le_of_eq ?_) hsum
  have e : (l.map (fun i => a i * (Real.log A - Real.log B) - b i * (A / B) + b i)).sum = A * (Real.log A - Real.log B) - B * (A / B) + B := by
    rw [List.sum_map_add, ← hBdef]
    congr 1
    have : (l.map (fun i => a i * (Real.log A - Real.log B) - b i * (A / B))).sum
        = (l.map (fun i => a i * (Real.log A - Real.log B))).sum - (l.map (fun i => b i * (A / B))).sum := by
      exact sum_map_sub l _ _
    rw [this, List.sum_map_mul_right, List.sum_map_mul_right]
  rw [e]
  have : B * (A / B) = A := by field_simp
  rw [this]
  ring

/-! ### The same likelihood with two binnings -/

section
open MeasureTheory
variable {K Ω : Type}

theorem both_binnings (fine coarse : Bins ℝ) (hf : Finer fine coarse) (hac : Ascending coarse) (S : Setup K) (parts : List Part)
    (hS : S.Proper fine parts) (g1 g1' g2 g2' : FnCache) (st st' : State K XF) (hb : S.build parts (⟨[], []⟩, g1) = ((st, g1'), .ok ()))
    (hb' : (S.withBins coarse).build parts (⟨[], []⟩, g2) = ((st', g2'), .ok ())) :
    ∃ order : String → List Plugin,
      (∀ a, Part.sim a ∈ parts → Topological a.registry (S.binsOn ++ ["eff"]) (order a.comp)) ∧
      ∀ key batch q, (∀ p ∈ parts, p.name ++ "_rate" ∈ (replaceAlias S.al q).keys) →
        ∃ ss key', Draws S order batch (replaceAlias S.al q) parts key ss key' ∧ (∀ s ∈ ss, s.cfg.bins = fine) ∧
          ((∀ s ∈ ss, s.Normalisable) → ∀ eq cfg load (b : Built ℝ), init eq cfg load = .ok b → b.bins = fine →
            (∃ h : Grid ℝ, simulateModelHist S.al b.dataHist st key batch (floats q) = .ok (key', gridFloats h) ∧
              h.flatten = (binList fine).map (expectedIn ss)) ∧
            ((∀ c ∈ binList fine, 0 < expectedIn ss c) →
              getLogLikelihood S.al b.dataHist st key batch (floats q) = .ok (key', .fin (binnedLogL fine b.data ss)))) ∧
          ((∀ s ∈ ss, (s.withBins coarse).Normalisable) → ∀ eq cfg load (b : Built ℝ), init eq cfg load = .ok b → b.bins = coarse →
            (∃ h : Grid ℝ, simulateModelHist S.al b.dataHist st' key batch (floats q) = .ok (key', gridFloats h) ∧
              h.flatten = (binList coarse).map (expectedIn (ss.map (fun s => s.withBins coarse)))) ∧
            ((∀ c ∈ binList coarse, 0 < expectedIn (ss.map (fun s => s.withBins coarse)) c) →
              getLogLikelihood S.al b.dataHist st' key batch (floats q)
                = .ok (key', .fin (binnedLogL coarse b.data (ss.map (fun s => s.withBins coarse)))))) := by
  obtain ⟨order, o1, o2⟩ := log_likelihood_ordered fine S parts hS g1 g1' st hb
  have hS' := proper_withBins hS hf hac
  obtain ⟨order', p1, p2⟩ := log_likelihood_ordered coarse (S.withBins coarse) parts hS' g2 g2' st' hb'
  refine ⟨order, fun a ha => (o1 a ha).2, fun key batch q hr => ?_⟩
  obtain ⟨ss, key', d, hv⟩ := o2 key batch q hr
  obtain ⟨ss', key'', d', hv'⟩ := p2 key batch q hr
  have d2 := draws_withBins coarse (order' := order') (fun a ha => by rw [(o1 a ha).1, (p1 a ha).1]; rfl) d
  obtain ⟨rfl, rfl⟩ := draws_unique (S.withBins coarse) coarse parts hS' order' (fun a ha => (p1 a ha).2) batch _ parts (fun _ h => h) d2 d'
  refine ⟨ss, key', d, draws_bins hS.bins_eq d, fun hn eq cfg load b h hbins => ?_, fun hn eq cfg load b h hbins => ?_⟩
  · obtain ⟨a1, a2, _⟩ := hv hn eq cfg load b h hbins
    rw [hbins] at a1 a2
    exact ⟨a1, a2⟩
  · obtain ⟨a1, a2, _⟩ := hv' (by
      intro s hs
      obtain ⟨s0, h0, rfl⟩ := List.mem_map.1 hs
      exact hn s0 h0) eq cfg load b h hbins
    rw [hbins] at a1 a2
    exact ⟨a1, a2⟩

theorem gap_pieces {fine coarse : Bins ℝ} (hf : Finer fine coarse) (ha : Ascending fine) (hac : Ascending coarse) (l m : Nat × Nat → ℝ)
    (hl : ∀ f ∈ binList fine, 0 < l f) (hm : ∀ f ∈ binList fine, 0 < m f) :
    ((binList coarse).map (fun c => (((piecesOf fine coarse c).map l).sum * Real.log ((piecesOf fine coarse c).map l).sum - ((piecesOf fine coarse c).map l).sum)
        - (((piecesOf fine coarse c).map l).sum * Real.log ((piecesOf fine coarse c).map m).sum - ((piecesOf fine coarse c).map m).sum))).sum
      ≤ ((binList fine).map (fun f => (l f * Real.log (l f) - l f) - (l f * Real.log (m f) - m f))).sum := by
  rw [← sum_all_pieces hf ha hac]
  refine List.sum_le_sum fun c hc => ?_
  have hp : ∀ f ∈ piecesOf fine coarse c, f ∈ binList fine := fun f h => (mem_binList fine ha f.1 f.2).2 ((mem_pieces ha).1 h).1
  exact merge_gap _ l m (pieces_ne_nil hf ha ((mem_binList coarse hac c.1 c.2).1 hc)) (fun f h => hl f (hp f h)) (fun f h => hm f (hp f h))

theorem binnedLogL_over_data [MeasurableSpace Ω] (μ : Measure Ω) [IsProbabilityMeasure μ] (bins : Bins ℝ) (D : Ω → List (List (Option ℝ)))
    (l : Nat × Nat → ℝ) (ss : List (Sample ℝ))
    (hi : ∀ c ∈ binList bins, Integrable (fun ω => (countIn bins (D ω) c : ℝ)) μ)
    (hl : ∀ c ∈ binList bins, ∫ ω, (countIn bins (D ω) c : ℝ) ∂μ = l c) :
    Integrable (fun ω => binnedLogL bins (D ω) ss) μ ∧
    ∫ ω, binnedLogL bins (D ω) ss ∂μ = ((binList bins).map (fun c => l c * Real.log (expectedIn ss c) - expectedIn ss c)).sum := by
  unfold binnedLogL
  exact logL_over_data μ (binList bins) (fun c ω => countIn bins (D ω) c) l (expectedIn ss) hi hl

theorem power_core [MeasurableSpace Ω] (μ : Measure Ω) [IsProbabilityMeasure μ] {fine coarse : Bins ℝ} (hf : Finer fine coarse) (ha : Ascending fine)
    (hac : Ascending coarse) (D : Ω → List (List (Option ℝ))) (ss0 ss : List (Sample ℝ)) (c0 : ∀ s ∈ ss0, s.cfg.bins = fine)
    (c1 : ∀ s ∈ ss, s.cfg.bins = fine) (hn0 : ∀ s ∈ ss0, s.Normalisable ∧ s.Filled) (hn1 : ∀ s ∈ ss, s.Normalisable ∧ s.Filled)
    (hp0 : ∀ c ∈ binList fine, 0 < expectedIn ss0 c) (hp : ∀ c ∈ binList fine, 0 < expectedIn ss c)
    (hi : ∀ c ∈ binList fine, Integrable (fun ω => (countIn fine (D ω) c : ℝ)) μ)
    (hl : ∀ c ∈ binList fine, ∫ ω, (countIn fine (D ω) c : ℝ) ∂μ = expectedIn ss0 c) :
    (∀ c ∈ binList coarse, 0 < expectedIn (ss0.map (fun s => s.withBins coarse)) c) ∧
    (∀ c ∈ binList coarse, 0 < expectedIn (ss.map (fun s => s.withBins coarse)) c) ∧
    Integrable (fun ω => binnedLogL fine (D ω) ss0) μ ∧ Integrable (fun ω => binnedLogL fine (D ω) ss) μ ∧
    Integrable (fun ω => binnedLogL coarse (D ω) (ss0.map (fun s => s.withBins coarse))) μ ∧
    Integrable (fun ω => binnedLogL coarse (D ω) (ss.map (fun s => s.withBins coarse))) μ ∧
    0 ≤ ∫ ω, binnedLogL coarse (D ω) (ss0.map (fun s => s.withBins coarse)) ∂μ - ∫ ω, binnedLogL coarse (D ω) (ss.map (fun s => s.withBins coarse)) ∂μ ∧
    ∫ ω, binnedLogL coarse (D ω) (ss0.map (fun s => s.withBins coarse)) ∂μ - ∫ ω, binnedLogL coarse (D ω) (ss.map (fun s => s.withBins coarse)) ∂μ
      ≤ ∫ ω, binnedLogL fine (D ω) ss0 ∂μ - ∫ ω, binnedLogL fine (D ω) ss ∂μ := by
  have hp' : ∀ c ∈ binList coarse, ∀ f ∈ piecesOf fine coarse c, f ∈ binList fine := fun c _ f h =>
    (mem_binList fine ha f.1 f.2).2 ((mem_pieces ha).1 h).1
  have hsum : ∀ ss' : List (Sample ℝ), (∀ s ∈ ss', s.cfg.bins = fine) → (∀ s ∈ ss', s.Normalisable ∧ s.Filled) → ∀ c ∈ binList coarse,
      expectedIn (ss'.map (fun s => s.withBins coarse)) c = ((piecesOf fine coarse c).map (expectedIn ss')).sum := fun ss' hb hn c hc =>
    expectedIn_withBins fine ss' hb hf ha hac (fun s hs => (hn s hs).2) hc
  have hpos : ∀ g : Nat × Nat → ℝ, (∀ f ∈ binList fine, 0 < g f) → ∀ c ∈ binList coarse, 0 < ((piecesOf fine coarse c).map g).sum := by
    intro g hg c hc
    obtain ⟨f, hf'⟩ := List.exists_mem_of_ne_nil _ (pieces_ne_nil hf ha ((mem_binList coarse hac c.1 c.2).1 hc))
    refine lt_of_lt_of_le (hg f (hp' c hc f hf')) (List.single_le_sum ?_ _ (List.mem_map.2 ⟨f, hf', rfl⟩))
    intro x hx
    obtain ⟨d, hd, rfl⟩ := List.mem_map.1 hx
    exact (hg d (hp' c hc d hd)).le
  obtain ⟨a1, a2⟩ := binnedLogL_over_data μ fine D (expectedIn ss0) ss0 hi hl
  obtain ⟨b1, b2⟩ := binnedLogL_over_data μ fine D (expectedIn ss0) ss hi hl
  -- the counts of the coarse bins
  have hcount : ∀ c ∈ binList coarse, (fun ω => (countIn coarse (D ω) c : ℝ))
      = fun ω => ((piecesOf fine coarse c).map (fun f => (countIn fine (D ω) f : ℝ))).sum := by
    intro c hc
    funext ω
    rw [count_pieces hf ha ((mem_binList coarse hac c.1 c.2).1 hc)]
    push_cast
    rw [List.map_map]
    rfl
  have hint : ∀ l : List (Nat × Nat), (∀ f ∈ l, f ∈ binList fine) → Integrable (fun ω => (l.map (fun f => (countIn fine (D ω) f : ℝ))).sum) μ ∧
      ∫ ω, (l.map (fun f => (countIn fine (D ω) f : ℝ))).sum ∂μ = (l.map (expectedIn ss0)).sum := by
    intro l hl'
    induction l with
    | nil => simp
    | cons f l ih =>
      obtain ⟨i1, i2⟩ := ih fun f hf => hl' f (by simp [hf])
      have j1 := hi f (hl' f (by simp))
      simp only [List.map_cons, List.sum_cons]
      exact ⟨j1.add i1, by rw [integral_add j1 i1, i2, hl f (hl' f (by simp))]⟩
  have hi' : ∀ c ∈ binList coarse, Integrable (fun ω => (countIn coarse (D ω) c : ℝ)) μ := fun c hc => by
    rw [hcount c hc]
    exact (hint _ (hp' c hc)).1
  have hl2 : ∀ c ∈ binList coarse, ∫ ω, (countIn coarse (D ω) c : ℝ) ∂μ = expectedIn (ss0.map (fun s => s.withBins coarse)) c := fun c hc => by
    rw [hcount c hc, (hint _ (hp' c hc)).2, hsum ss0 c0 hn0 c hc]
  obtain ⟨e1, e2⟩ := binnedLogL_over_data μ coarse D _ (ss0.map (fun s => s.withBins coarse)) hi' hl2
  obtain ⟨f1, f2⟩ := binnedLogL_over_data μ coarse D _ (ss.map (fun s => s.withBins coarse)) hi' hl2
  have hq0 : ∀ c ∈ binList coarse, 0 < expectedIn (ss0.map (fun s => s.withBins coarse)) c := fun c hc => by
    rw [hsum ss0 c0 hn0 c hc]
    exact hpos _ hp0 c hc
  have hq1 : ∀ c ∈ binList coarse, 0 < expectedIn (ss.map (fun s => s.withBins coarse)) c := fun c hc => by
    rw [hsum ss c1 hn1 c hc]
    exact hpos _ hp c hc
  refine ⟨hq0, hq1, a1, b1, e1, f1, ?_, ?_⟩
  · rw [e2, f2, ← sum_map_sub]
    refine List.sum_nonneg fun x hx => ?_
    obtain ⟨c, hc, rfl⟩ := List.mem_map.1 hx
    exact (sq_nonneg _).trans (Truth.gap_ge (hq0 c hc) (hq1 c hc))
  · rw [e2, f2, a2, b2, ← sum_map_sub, ← sum_map_sub]
    refine le_trans (le_of_eq ?_) (gap_pieces hf ha hac (expectedIn ss0) (expectedIn ss) hp0 hp)
    congr 1
    exact List.map_congr_left fun c hc => by rw [hsum ss0 c0 hn0 c hc, hsum ss c1 hn1 c hc]

end

/-! ### The floor -/

theorem expected_withBins_le (s : Sample ℝ) {coarse : Bins ℝ} (h : Finer s.cfg.bins coarse) (ha : Ascending s.cfg.bins) (hac : Ascending coarse)
    (hsim : s.cfg.normType = "on_sim") (hr : 0 ≤ s.rate) (hn : 0 ≤ s.norm) (he : ∀ e ∈ s.eff, 0 ≤ e) {c : Nat × Nat} (hc : c ∈ binList coarse) :
    (s.withBins coarse).expected c ≤ ((piecesOf s.cfg.bins coarse c).map s.expected).sum := by
  unfold Sample.expected
  have e2 : (fun b => s.rate * s.content b / s.norm) = fun b => s.rate / s.norm * s.content b := by
    funext b
    ring
  have e3 : (s.withBins coarse).norm = s.norm := by
    unfold Sample.norm
    simp only [Sample.withBins, hsim]
    rfl
  have e : (s.withBins coarse).rate = s.rate := rfl
  rw [e, e2, e3, List.sum_map_mul_left, mul_div_right_comm]
  exact mul_le_mul_of_nonneg_left (content_withBins_le s h ha hac he hc) (by positivity)

theorem expectedIn_withBins_le (fine : Bins ℝ) (ss : List (Sample ℝ)) (hb : ∀ s ∈ ss, s.cfg.bins = fine) {coarse : Bins ℝ} (h : Finer fine coarse)
    (ha : Ascending fine) (hac : Ascending coarse)
    (hs : ∀ s ∈ ss, s.cfg.normType = "on_sim" ∧ 0 ≤ s.rate ∧ 0 ≤ s.norm ∧ ∀ e ∈ s.eff, 0 ≤ e) {c : Nat × Nat} (hc : c ∈ binList coarse) :
    expectedIn (ss.map (fun s => s.withBins coarse)) c ≤ ((piecesOf fine coarse c).map (expectedIn ss)).sum := by
  unfold expectedIn
  induction ss with
  | nil => simp
  | cons s ss ih =>
    have h0 := hb s (by simp)
    obtain ⟨s1, s2, s3, s4⟩ := hs s (by simp)
    simp only [List.map_cons, List.sum_cons]
    rw [List.sum_map_add]
    refine add_le_add ?_ (ih (fun s hs => hb s (by simp [hs])) (fun s h => hs s (by simp [h])))
    have := expected_withBins_le s (by rw [h0]; exact h) (by rw [h0]; exact ha) hac s1 s2 s3 s4 hc
    rw [h0] at this
    exact this

theorem total_floor (bins : Bins ℝ) (ss : List (Sample ℝ)) (hs : ∀ s ∈ ss, 0 ≤ s.rate ∧ 0 ≤ s.norm ∧ ∀ e ∈ s.eff, 0 ≤ e) :
    ((ss.filter (fun s => s.cfg.addEps)).map (fun s => ((binList bins).length : ℝ) * (s.rate * s.floor / s.norm))).sum
      ≤ ((binList bins).map (expectedIn ss)).sum := by
  induction ss with
  | nil =>
    have : expectedIn [] = fun _ => (0 : ℝ) := by funext c; simp [expectedIn]
    simp [this]
  | cons s ss ih =>
    obtain ⟨s1, s2, s3⟩ := hs s (by simp)
    have e : expectedIn (s :: ss) = fun c => s.expected c + expectedIn ss c := by
      funext c
      simp [expectedIn]
    rw [e, List.sum_map_add]
    have ih := ih fun s h => hs s (by simp [h])
    have hw : ∀ c, 0 ≤ s.weight c := by
      intro c
      unfold Sample.weight Hist.weightOf
      refine List.sum_nonneg fun x hx => ?_
      obtain ⟨p, hp, rfl⟩ := List.mem_map.1 hx
      exact s3 _ (List.of_mem_zip (List.mem_of_mem_filter hp)).2
    have hexp : ∀ c, 0 ≤ s.expected c := by
      intro c
      unfold Sample.expected
      have : 0 ≤ s.content c := by
        rw [content_eq]
        split
        · exact (hw c).trans (le_max_left _ _)
        · exact hw c
      positivity
    cases hb : s.cfg.addEps with
    | false =>
      rw [List.filter_cons_of_neg (by simp [hb])]
      have : 0 ≤ ((binList bins).map s.expected).sum := List.sum_nonneg fun x hx => by
        obtain ⟨c, _, rfl⟩ := List.mem_map.1 hx
        exact hexp c
      exact ih.trans (le_add_of_nonneg_left this)
    | true =>
      rw [List.filter_cons_of_pos (by simp [hb]), List.map_cons, List.sum_cons]
      refine add_le_add ?_ ih
      have h1 : ((binList bins).length : ℝ) * (s.rate * s.floor / s.norm) = ((binList bins).map (fun _ => s.rate * s.floor / s.norm)).sum := by
        simp
      rw [h1]
      refine List.sum_le_sum fun c _ => ?_
      unfold Sample.expected
      rw [content_eq, hb]
      refine div_le_div_of_nonneg_right (mul_le_mul_of_nonneg_left (le_max_right _ _) s1) s2

end Verif.Llh
