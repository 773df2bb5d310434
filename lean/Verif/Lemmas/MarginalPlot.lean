/-
Lemmas for C139: bars of equal width.
-/
import Verif.Spec.MarginalPlot
import Verif.Lemmas.Interp
import Verif.Base.MapM
import Mathlib.Algebra.Order.Floor.Ring
import Mathlib.Data.Real.Archimedean
import Mathlib.Tactic.Linarith
import Mathlib.Tactic.FieldSimp

namespace Verif.Plot
open Verif

/-! ### The outer edges -/

theorem minmax {xs : List ℝ} (h : xs ≠ []) : ∃ a b, xs.min? = some a ∧ xs.max? = some b ∧ a ∈ xs ∧ b ∈ xs ∧ ∀ x ∈ xs, a ≤ x ∧ x ≤ b := by
  cases ha : xs.min? with
  | none => exact absurd (List.min?_eq_none_iff.1 ha) h
  | some a =>
    cases hb : xs.max? with
    | none => exact absurd (List.max?_eq_none_iff.1 hb) h
    | some b =>
      obtain ⟨a1, a2⟩ := List.min?_eq_some_iff.1 ha
      obtain ⟨b1, b2⟩ := List.max?_eq_some_iff.1 hb
      exact ⟨a, b, rfl, rfl, a1, b1, fun x hx => ⟨a2 x hx, b2 x hx⟩⟩

theorem outer_nil : outerEdges [] = (0, 1) := rfl

theorem outer_cases {xs : List ℝ} (h : xs ≠ []) :
    (∃ a, (∀ x ∈ xs, x = a) ∧ outerEdges xs = (a - 1 / 2, a + 1 / 2)) ∨
    (∃ a b, a ∈ xs ∧ b ∈ xs ∧ a < b ∧ (∀ x ∈ xs, a ≤ x ∧ x ≤ b) ∧ outerEdges xs = (a, b)) := by
  obtain ⟨a, b, ha, hb, a1, b1, hall⟩ := minmax h
  unfold outerEdges
  rw [ha, hb]
  by_cases hab : a = b
  · subst hab
    left
    exact ⟨a, fun x hx => le_antisymm (hall x hx).2 (hall x hx).1, by simp⟩
  · right
    exact ⟨a, b, a1, b1, lt_of_le_of_ne (hall b b1).1 hab, hall, by simp [hab]⟩

theorem outer_lt (xs : List ℝ) : (outerEdges xs).1 < (outerEdges xs).2 := by
  by_cases h : xs = []
  · subst h; rw [outer_nil]; norm_num
  · rcases outer_cases h with ⟨a, _, e⟩ | ⟨a, b, _, _, hab, _, e⟩
    · rw [e]; norm_num; linarith
    · rw [e]; exact hab

theorem outer_holds (xs : List ℝ) : ∀ x ∈ xs, (outerEdges xs).1 ≤ x ∧ x ≤ (outerEdges xs).2 := by
  intro x hx
  rcases outer_cases (List.ne_nil_of_mem hx) with ⟨a, hall, e⟩ | ⟨a, b, _, _, _, hall, e⟩
  · rw [e, hall x hx]; constructor <;> norm_num <;> linarith
  · rw [e]; exact hall x hx

/-! ### The edges -/

theorem barEdges_getD (n : Nat) (xs : List ℝ) (j : Nat) (h : j ≤ n) :
    (barEdges n xs).getD j 0 = (outerEdges xs).1 + ((outerEdges xs).2 - (outerEdges xs).1) / n * j := by
  unfold barEdges
  rw [List.getD_eq_getElem?_getD, Interp.linspace_get _ _ _ _ (by omega), Option.getD_some]
  push_cast
  congr 3
  ring

theorem barEdges_length (n : Nat) (xs : List ℝ) : (barEdges n xs).length = n + 1 := Interp.linspace_length _ _ _

/-! ### Every sample is in one bin -/

open Classical in
/-- The bin of a sample. -/
theorem one_bin (n : Nat) (hn : 0 < n) (lo hi x : ℝ) (hlt : lo < hi) (h1 : lo ≤ x) (h2 : x ≤ hi) :
    ∃ i < n, ∀ j < n, (lo + (hi - lo) / n * j ≤ x ∧ (x < lo + (hi - lo) / n * (j + 1 : Nat) ∨
      (j + 1 = n ∧ x ≤ lo + (hi - lo) / n * (j + 1 : Nat)))) ↔ j = i := by
  have hn' : (0 : ℝ) < n := by exact_mod_cast hn
  have hw : 0 < (hi - lo) / n := div_pos (sub_pos.2 hlt) hn'
  have hwn : (hi - lo) / n * n = hi - lo := by field_simp
  set w := (hi - lo) / n
  by_cases hx : x = hi
  · refine ⟨n - 1, by omega, fun j hj => ⟨fun ⟨_, h⟩ => ?_, fun h => ?_⟩⟩
    · rcases h with h | h
      · have : ((j + 1 : Nat) : ℝ) ≤ n := by exact_mod_cast hj
        have := mul_le_mul_of_nonneg_left this hw.le
        linarith
      · omega
    · subst h
      have e : ((n - 1 + 1 : Nat) : ℝ) = n := by exact_mod_cast Nat.sub_add_cancel hn
      refine ⟨?_, .inr ⟨by omega, by rw [e, hwn]; linarith⟩⟩
      have : ((n - 1 : Nat) : ℝ) ≤ n := by exact_mod_cast Nat.sub_le n 1
      have := mul_le_mul_of_nonneg_left this hw.le
      linarith
  · have hx' : x < hi := lt_of_le_of_ne h2 hx
    have hy : 0 ≤ (x - lo) / w := div_nonneg (by linarith) hw.le
    have hyx : (x - lo) / w * w = x - lo := by field_simp
    have f1 := Nat.floor_le hy
    have f2 := Nat.lt_floor_add_one ((x - lo) / w)
    have key : ∀ k : Nat, (lo + w * k ≤ x ↔ (k : ℝ) ≤ (x - lo) / w) := by
      intro k
      rw [le_div_iff₀ hw]
      constructor <;> intro h <;> linarith [mul_comm w k]
    have key' : ∀ k : Nat, (x < lo + w * k ↔ (x - lo) / w < (k : ℝ)) := by
      intro k
      rw [div_lt_iff₀ hw]
      constructor <;> intro h <;> linarith [mul_comm w k]
    refine ⟨⌊(x - lo) / w⌋₊, ?_, fun j hj => ⟨fun ⟨g1, g2⟩ => ?_, fun h => ?_⟩⟩
    · rw [Nat.floor_lt hy, ← key', hwn]
      linarith
    · have a1 : j ≤ ⌊(x - lo) / w⌋₊ := Nat.le_floor ((key j).1 g1)
      have a2 : x < lo + w * (j + 1 : Nat) := by
        rcases g2 with g2 | ⟨g2, _⟩
        · exact g2
        · rw [g2, hwn]; linarith
      have a3 : ⌊(x - lo) / w⌋₊ < j + 1 := (Nat.floor_lt hy).2 ((key' _).1 a2)
      omega
    · subst h
      refine ⟨(key _).2 f1, .inl ((key' _).2 ?_)⟩
      push_cast
      exact f2

theorem sum_one_of_unique {n i : Nat} (hi : i < n) : ((List.range n).map (fun j => if j = i then 1 else 0)).sum = 1 := by
  induction n with
  | zero => omega
  | succ n ih =>
    rw [List.range_succ, List.map_append, List.sum_append]
    by_cases h : i < n
    · rw [ih h]; simp; omega
    · have : i = n := by omega
      subst this
      have : ((List.range i).map (fun j => if j = i then 1 else 0)).sum = 0 := by
        rw [List.sum_eq_zero_iff]
        intro a ha
        obtain ⟨j, hj, rfl⟩ := List.mem_map.1 ha
        have := List.mem_range.1 hj
        simp; omega
      rw [this]; simp

open Classical in
theorem count_sum (n : Nat) (P : Nat → ℝ → Prop) (xs : List ℝ) (h : ∀ x ∈ xs, ∃ i < n, ∀ j < n, P j x ↔ j = i) :
    ((List.range n).map (fun j => xs.countP (fun x => decide (P j x)))).sum = xs.length := by
  induction xs with
  | nil => simp
  | cons x xs ih =>
    obtain ⟨i, hi, hj⟩ := h x (by simp)
    have e : ((List.range n).map (fun j => (x :: xs).countP (fun x => decide (P j x)))) =
        (List.range n).map (fun j => xs.countP (fun x => decide (P j x)) + if j = i then 1 else 0) := by
      refine List.map_congr_left fun j hjm => ?_
      rw [List.countP_cons]
      have := hj j (List.mem_range.1 hjm)
      by_cases hji : j = i
      · simp [this.2 hji, hji, this]
        simp [hji] at this
        simp [this]
      · have : ¬ P j x := fun hp => hji (this.1 hp)
        simp [this, hji]
    rw [e, List.sum_map_add, ih (fun y hy => h y (by simp [hy])), sum_one_of_unique hi]
    simp

/-- All samples are counted, each once. -/
theorem counts_sum (n : Nat) (hn : 0 < n) (xs : List ℝ) :
    ((List.range n).map (barCount n (barEdges n xs) xs)).sum = xs.length := by
  have key := count_sum n (fun j x => (barEdges n xs).getD j 0 ≤ x ∧ (x < (barEdges n xs).getD (j + 1) 0 ∨
    (j + 1 = n ∧ x ≤ (barEdges n xs).getD (j + 1) 0))) xs (by
    intro x hx
    obtain ⟨i, hi, h⟩ := one_bin n hn _ _ x (outer_lt xs) (outer_holds xs x hx).1 (outer_holds xs x hx).2
    refine ⟨i, hi, fun j hj => ?_⟩
    rw [← h j hj, barEdges_getD n xs j (by omega), barEdges_getD n xs (j + 1) (by omega)])
  rw [← key]
  refine congrArg List.sum (List.map_congr_left fun j _ => ?_)
  unfold barCount
  exact List.countP_congr (fun x _ => by simp)

theorem barCount_samplesIn (n : Nat) (es xs : List ℝ) (j : Nat) (hlt : es.getD j 0 < es.getD (j + 1) 0) :
    barCount n es xs j = samplesIn xs (es.getD j 0) (es.getD (j + 1) 0) (j + 1 = n) := by
  unfold barCount samplesIn
  rw [List.countP_eq_length_filter]
  congr 1
  refine List.filter_congr fun x _ => ?_
  rw [decide_eq_decide]
  constructor
  · rintro ⟨h1, h2 | ⟨h2, h3⟩⟩
    · exact ⟨h1, .inl h2⟩
    · rcases h3.lt_or_eq with h | h
      · exact ⟨h1, .inl h⟩
      · exact ⟨h1, .inr ⟨h2, h⟩⟩
  · rintro ⟨h1, h2 | ⟨h2, h3⟩⟩
    · exact ⟨h1, .inl h2⟩
    · exact ⟨h1, .inr ⟨h2, h3.le⟩⟩

/-- The bars of samples. -/
theorem hist_bars (n : Nat) (hn : 0 < n) (xs : List ℝ) (hx : xs ≠ []) :
    ∃ (lo w : ℝ) (hs : List ℝ), 0 < w ∧ barEdges n xs = (List.range (n + 1)).map (fun j : Nat => lo + w * j) ∧
      barHeights n xs = hs.map some ∧ hs.length = n ∧ (∀ x ∈ xs, lo ≤ x ∧ x ≤ lo + w * n) ∧
      (∀ (j : Nat) h, hs[j]? = some h → w * h = (samplesIn xs (lo + w * j) (lo + w * (j + 1)) (j + 1 = n) : ℝ) / xs.length) ∧
      barArea w hs = 1 ∧
      ((∃ x ∈ xs, ∃ y ∈ xs, x ≠ y) → lo ∈ xs ∧ lo + w * n ∈ xs) ∧
      (∀ a, (∀ x ∈ xs, x = a) → lo = a - 1 / 2 ∧ lo + w * n = a + 1 / 2) := by
  have hn' : (0 : ℝ) < n := by exact_mod_cast hn
  have hlt := outer_lt xs
  have hw : 0 < ((outerEdges xs).2 - (outerEdges xs).1) / n := div_pos (sub_pos.2 hlt) hn'
  have hwn : (outerEdges xs).1 + ((outerEdges xs).2 - (outerEdges xs).1) / n * n = (outerEdges xs).2 := by field_simp; ring
  have hlen : (0 : ℝ) < xs.length := by exact_mod_cast List.length_pos_iff.2 hx
  have hge := barEdges_getD n xs
  set lo := (outerEdges xs).1
  set w := ((outerEdges xs).2 - lo) / n
  have hcnt : ∀ j < n, barCount n (barEdges n xs) xs j = samplesIn xs (lo + w * j) (lo + w * (j + 1)) (j + 1 = n) := by
    intro j hj
    have e := barCount_samplesIn n (barEdges n xs) xs j (by
      rw [hge j (by omega), hge (j + 1) (by omega)]
      push_cast
      linarith)
    rw [hge j (by omega), hge (j + 1) (by omega)] at e
    push_cast at e
    exact e
  have hsum := counts_sum n hn xs
  have hdiff : ∀ j < n, (barEdges n xs).getD (j + 1) 0 - (barEdges n xs).getD j 0 = w := by
    intro j hj
    rw [hge j (by omega), hge (j + 1) (by omega)]
    push_cast
    ring
  refine ⟨lo, w, (List.range n).map (fun j => (barCount n (barEdges n xs) xs j : ℝ) / w / xs.length), hw, ?_, ?_, by simp, ?_, ?_, ?_, ?_, ?_⟩
  · unfold barEdges Interp.linspace
    refine List.map_congr_left fun j _ => ?_
    push_cast
    rw [show (n : ℝ) + 1 - 1 = n by ring]
  · simp only [barHeights, hsum, List.map_map]
    refine List.map_congr_left fun j hj => ?_
    rw [if_neg (by have := List.length_pos_iff.2 hx; omega), hdiff j (List.mem_range.1 hj)]
    rfl
  · intro x hx'
    rw [hwn]
    exact outer_holds xs x hx'
  · intro j h hj
    have hjn : j < n := by
      by_contra hc
      rw [List.getElem?_eq_none (by simp; omega)] at hj
      cases hj
    rw [List.getElem?_map, List.getElem?_range hjn] at hj
    cases hj
    simp only []
    rw [hcnt j hjn]
    field_simp
  · unfold barArea
    rw [List.map_map]
    have : ((fun x => w * x) ∘ fun j => (barCount n (barEdges n xs) xs j : ℝ) / w / xs.length) =
        fun j => ((barCount n (barEdges n xs) xs j : Nat) : ℝ) * (1 / xs.length) := by
      funext j
      simp only [Function.comp_apply]
      field_simp
    rw [this, List.sum_map_mul_right]
    have c : ((List.range n).map (fun j => ((barCount n (barEdges n xs) xs j : Nat) : ℝ))).sum = xs.length := by
      rw [← hsum]
      push_cast
      rw [List.map_map]
      rfl
    rw [c]
    field_simp
  · rintro ⟨x, hx1, y, hy1, hxy⟩
    rcases outer_cases hx with ⟨a, hall, _⟩ | ⟨a, b, ha, hb, _, _, e⟩
    · exact absurd ((hall x hx1).trans (hall y hy1).symm) hxy
    · rw [hwn]
      have e1 : lo = a := congrArg Prod.fst e
      rw [e1, e]
      exact ⟨ha, hb⟩
  · intro a ha
    rcases outer_cases hx with ⟨a', hall, e⟩ | ⟨a', b, ha', hb, hab, _, e⟩
    · obtain ⟨x, hx1⟩ := List.exists_mem_of_ne_nil xs hx
      have : a' = a := (hall x hx1).symm.trans (ha x hx1)
      subst this
      rw [hwn]
      have e1 : lo = a' - 1 / 2 := congrArg Prod.fst e
      rw [e1, e]
      exact ⟨rfl, rfl⟩
    · rw [ha a' ha', ha b hb] at hab
      exact absurd hab (lt_irrefl _)

theorem hist_bars_nil (n : Nat) : barHeights n [] = List.replicate n none := by
  have : ∀ es j, barCount n es [] j = 0 := fun es j => rfl
  have h2 : barCount n (barEdges n []) [] = fun _ => 0 := funext (this _)
  simp [barHeights, h2, List.map_const']

end Verif.Plot
