/-
Property theorems C77 about the acceptance fraction (plot.py).
-/
import Verif.Props.Chain
import Mathlib.Tactic.FieldSimp
import Mathlib.Tactic.Positivity

namespace Verif.Plot
open Verif

/-- The mean of values in `[0, 1]` is in `[0, 1]`. -/
theorem mean_mem_unit (l : List ℝ) (h : ∀ x ∈ l, 0 ≤ x ∧ x ≤ 1) : 0 ≤ mean l ∧ mean l ≤ 1 := by
  have h0 : 0 ≤ l.sum := List.sum_nonneg fun x hx => (h x hx).1
  have h1 : l.sum ≤ l.length := by
    have := List.sum_le_card_nsmul l 1 (fun x hx => (h x hx).2)
    simpa using this
  unfold mean
  refine ⟨div_nonneg h0 (by positivity), ?_⟩
  rcases eq_or_ne (l.length : ℝ) 0 with hl | hl
  · rw [hl, div_zero]; norm_num
  · rw [div_le_one (lt_of_le_of_ne (by positivity) hl.symm)]; exact h1

/-- **C77**: a chain of `n` positions has `n - 1` steps, and step `i` counts as accepted exactly if the position changed
between iterations `i` and `i + 1`. -/
theorem C77_accepted_iff_moved {P : Type} [DecidableEq P] (chain : List P) :
    (accepted chain).length = chain.length - 1 ∧
    ∀ i (h : i + 1 < chain.length), (accepted chain)[i]? = some (decide (chain[i + 1] ≠ chain[i])) := by
  refine ⟨by simp [accepted], ?_⟩
  intro i h
  have h1 : i < (accepted chain).length := by simp [accepted]; omega
  rw [List.getElem?_eq_getElem h1]
  simp [accepted]

example : accepted [3, 3, 4, 4, 5] = [false, true, false, true] := by decide

/-- **C77**: after `i + 1` steps the cumulative fraction is the number of accepted steps so far over `i + 1`. -/
theorem C77_cumulative (acc : List Bool) (i : Nat) (h : i < acc.length) :
    (cumFraction acc).getD i 0 = ((acc.take (i + 1)).count true : ℝ) / ((i + 1 : ℕ) : ℝ) ∧
      0 ≤ (cumFraction acc).getD i 0 ∧ (cumFraction acc).getD i 0 ≤ 1 := by
  have h1 : (cumFraction acc).getD i 0 = ((acc.take (i + 1)).count true : ℝ) / ((i + 1 : ℕ) : ℝ) := by
    rw [cumFraction, List.getD_eq_getElem?_getD, List.getElem?_map, List.getElem?_range h]
    simp [acceptedCount]
  refine ⟨h1, by rw [h1]; positivity, ?_⟩
  rw [h1, div_le_one (by positivity)]
  have : (acc.take (i + 1)).count true ≤ i + 1 := (List.count_le_length).trans (by simp)
  exact_mod_cast this

/-- **C77**: for every window length of at least one and every chain with at least two iterations both curves stay in
`[0, 1]` and have one entry per iteration plotted. -/
theorem C77_curves_are_fractions (window nIter : Nat) (hw : 1 ≤ window) (hn : 2 ≤ nIter) (accs : List (List Bool))
    (hl : ∀ a ∈ accs, a.length = nIter - 1) :
    (avgFraction (nIter - 1) accs).length = nIter - 1 ∧
    (movingFraction window nIter accs).length = nIter - effWindow window nIter ∧
    1 ≤ effWindow window nIter ∧ effWindow window nIter < nIter ∧
    (∀ x ∈ avgFraction (nIter - 1) accs, 0 ≤ x ∧ x ≤ 1) ∧
    ∀ x ∈ movingFraction window nIter accs, 0 ≤ x ∧ x ≤ 1 := by
  have hew : 1 ≤ effWindow window nIter ∧ effWindow window nIter < nIter := by
    unfold effWindow; split <;> omega
  refine ⟨by simp [avgFraction], by simp [movingFraction], hew.1, hew.2, ?_, ?_⟩
  · intro x hx
    simp only [avgFraction, List.mem_map, List.mem_range] at hx
    obtain ⟨i, hi, rfl⟩ := hx
    refine mean_mem_unit _ fun v hv => ?_
    obtain ⟨a, ha, rfl⟩ := List.mem_map.1 hv
    exact (C77_cumulative a i (by rw [hl a ha]; exact hi)).2
  · intro x hx
    simp only [movingFraction, List.mem_map, List.mem_range] at hx
    obtain ⟨j, hj, rfl⟩ := hx
    refine mean_mem_unit _ fun v hv => ?_
    obtain ⟨a, _, rfl⟩ := List.mem_map.1 hv
    have hpos : (0 : ℝ) < effWindow window nIter := by exact_mod_cast hew.1
    refine ⟨by positivity, ?_⟩
    rw [div_le_one hpos]
    have : ((a.drop j).take (effWindow window nIter)).count true ≤ effWindow window nIter :=
      List.count_le_length.trans (by simp)
    exact_mod_cast this

example : ∀ x ∈ movingFraction 2 4 [[true, false, true]], 0 ≤ x ∧ x ≤ 1 :=
  (C77_curves_are_fractions 2 4 (by norm_num) (by norm_num) _ (by simp)).2.2.2.2.2

/-- The accepted steps of a stretch, counted. -/
theorem count_stretch (a : List Bool) (j w : Nat) (h : j + w ≤ a.length) :
    ((a.drop j).take w).count true = ((Finset.range w).filter (fun i => a[j + i]? = some true)).card := by
  induction w with
  | zero => simp
  | succ w ih =>
    have hlt : j + w < a.length := by omega
    have e : (a.drop j).take (w + 1) = (a.drop j).take w ++ [a[j + w]] := by
      rw [List.take_add_one]
      simp [List.getElem?_drop, List.getElem?_eq_getElem hlt]
    rw [e, List.count_append, ih (by omega), Finset.range_add_one, Finset.filter_insert,
      List.getElem?_eq_getElem hlt]
    by_cases ht : a[j + w] = true
    · rw [if_pos (by rw [ht]), Finset.card_insert_of_notMem (by simp)]
      simp [ht]
    · rw [if_neg (by simpa using ht)]
      simp [ht]

/-- **C77**: the moving curve.  With a window shorter than the chain its entry `j`, drawn at iteration `window + j`, is the
average over the walkers of the share of the `window` steps before that iteration, steps `j` to `j + window - 1`, that were
accepted. -/
theorem C77_moving_average (window nIter : Nat) (hw : window < nIter) (accs : List (List Bool))
    (hl : ∀ a ∈ accs, a.length = nIter - 1) (j : Nat) (hj : window + j < nIter) :
    (movingFraction window nIter accs)[j]? = some
      ((accs.map (fun a => (((Finset.range window).filter (fun i => a[j + i]? = some true)).card : ℝ) / window)).sum
        / accs.length) := by
  have hew : effWindow window nIter = window := by unfold effWindow; rw [if_neg (by omega)]
  unfold movingFraction
  simp only
  rw [hew, List.getElem?_map, List.getElem?_range (by omega), Option.map_some, mean, List.length_map]
  congr 3
  refine List.map_congr_left fun a ha => ?_
  rw [count_stretch a j window (by rw [hl a ha]; omega)]

example : (movingFraction 2 4 [[true, false, true]])[0]? = some (1 / 2) := by
  rw [C77_moving_average 2 4 (by norm_num) _ (by simp) 0 (by norm_num)]
  simp only [List.map_cons, List.map_nil]
  rw [show ((Finset.range 2).filter (fun i => [true, false, true][0 + i]? = some true)) = {0} from by decide]
  norm_num

/-- **C77**: a window at least as long as the chain is shortened to the whole chain, and the moving average is then the
single last value of the cumulative curve. -/
theorem C77_long_window (window nIter : Nat) (hw : nIter ≤ window) (hn : 2 ≤ nIter) (accs : List (List Bool))
    (hl : ∀ a ∈ accs, a.length = nIter - 1) :
    movingFraction window nIter accs = [(avgFraction (nIter - 1) accs).getD (nIter - 2) 0] := by
  have hew : effWindow window nIter = nIter - 1 := by unfold effWindow; rw [if_pos hw]
  unfold movingFraction
  simp only
  rw [hew, show nIter - (nIter - 1) = 1 by omega, List.range_one, List.map_singleton]
  congr 1
  rw [avgFraction, List.getD_eq_getElem?_getD, List.getElem?_map, List.getElem?_range (by omega), Option.map_some,
    Option.getD_some]
  congr 1
  refine List.map_congr_left fun a ha => ?_
  rw [(C77_cumulative a (nIter - 2) (by rw [hl a ha]; omega)).1, show nIter - 2 + 1 = nIter - 1 by omega,
    List.drop_zero]

example : movingFraction 100 4 [[true, false, true]] = [2 / 3] := by
  rw [C77_long_window 100 4 (by norm_num) (by norm_num) _ (by simp)]
  simp [avgFraction, cumFraction, acceptedCount, mean, List.range_succ]
  norm_num

/-- **C77** is violated by the second panel: it shows the mean over iterations of the cumulative fractions, which is the
walker's acceptance fraction only by accident.  A walker that moves in its first step only has fraction `1 / n` and is
shown with the `n`-th harmonic number over `n`. -/
theorem C77_walker_panel (n : Nat) :
    walkerFraction (true :: List.replicate n false)
        = (∑ i ∈ Finset.range (n + 1), 1 / ((i : ℝ) + 1)) / ((n : ℝ) + 1) ∧
      (cumFraction (true :: List.replicate n false)).getD n 0 = 1 / ((n : ℝ) + 1) := by
  have hc : ∀ i, acceptedCount (true :: List.replicate n false) (i + 1) = 1 := by
    intro i
    simp [acceptedCount, List.take_replicate, List.count_replicate]
  constructor
  · unfold walkerFraction mean cumFraction
    simp only [List.length_cons, List.length_replicate, hc, List.length_map, List.length_range]
    congr 1
    · generalize n + 1 = k
      induction k with
      | zero => simp
      | succ k ih =>
        rw [List.range_succ, List.map_append, List.sum_append, ih, Finset.sum_range_succ]
        simp
    · push_cast; ring
  · have := (C77_cumulative (true :: List.replicate n false) n (by simp)).1
    rw [this]
    have h1 := hc n
    unfold acceptedCount at h1
    rw [h1]
    push_cast
    ring

/-- **C77**: so for a walker that moves only in the first of four steps the panel shows 25/48 and not 1/4. -/
theorem C77_walker_panel_negation : ¬ ∀ acc : List Bool, acc ≠ [] →
    walkerFraction acc = (acc.count true : ℝ) / acc.length := by
  intro h
  have h1 := h [true, false, false, false] (by simp)
  have h2 := (C77_walker_panel 3).1
  rw [show (true :: List.replicate 3 false) = [true, false, false, false] from rfl] at h2
  rw [h2] at h1
  simp [Finset.sum_range_succ] at h1
  norm_num at h1

/-- **C77** is violated when thinning: a sampler that moves in every second step only, read with `thin = 2`, is shown as
moving in every step. -/
theorem C77_thinning_inflates (n : Nat) :
    ∃ l, thinned 0 2 ((List.range (2 * (n + 1))).map (fun i => i / 2)) = .ok l ∧ l = List.range (n + 1) ∧
      (∀ b ∈ accepted l, b = true) ∧
      (accepted ((List.range (2 * (n + 1))).map (fun i => i / 2))).length = 2 * n + 1 ∧
      (accepted ((List.range (2 * (n + 1))).map (fun i => i / 2))).count true = n := by
  set chain := (List.range (2 * (n + 1))).map (fun i => i / 2) with hchain
  have hacc : accepted chain = (List.range (2 * n + 1)).map (fun i => decide ((i + 1) / 2 ≠ i / 2)) := by
    apply List.ext_getElem
    · simp [accepted, hchain]; omega
    · intro i h1 h2
      simp [accepted, hchain]
  refine ⟨_, rfl, ?_, ?_, by rw [hacc]; simp, ?_⟩
  · apply List.ext_getElem?
    intro k
    rw [C59_thinning 0 2 chain _ rfl k, hchain, List.getElem?_map]
    by_cases hk : k < n + 1
    · rw [List.getElem?_range (by omega), List.getElem?_range hk]
      simp; omega
    · rw [List.getElem?_eq_none (by simp; omega), List.getElem?_eq_none (by simp; omega)]
      rfl
  · have : (List.range chain.length).filterMap (fun k => chain[0 + 2 - 1 + k * 2]?) = List.range (n + 1) := by
      apply List.ext_getElem?
      intro k
      rw [C59_thinning 0 2 chain _ rfl k, hchain, List.getElem?_map]
      by_cases hk : k < n + 1
      · rw [List.getElem?_range (by omega), List.getElem?_range hk]
        simp; omega
      · rw [List.getElem?_eq_none (by simp; omega), List.getElem?_eq_none (by simp; omega)]
        rfl
    rw [this]
    intro b hb
    simp only [accepted, List.mem_map] at hb
    obtain ⟨⟨p, q⟩, hpq, rfl⟩ := hb
    obtain ⟨i, hi, he⟩ := List.getElem_of_mem hpq
    simp at he
    obtain ⟨rfl, rfl⟩ := he
    simp
  · rw [hacc]
    clear hacc hchain
    clear chain
    induction n with
    | zero => rfl
    | succ n ih =>
      rw [show 2 * (n + 1) + 1 = 2 * n + 1 + 1 + 1 by omega, List.range_succ, List.range_succ, List.map_append,
        List.map_append, List.count_append, List.count_append, ih]
      have h1 : (2 * n + 1 + 1) / 2 ≠ (2 * n + 1) / 2 := by omega
      have h2 : (2 * n + 1 + 1 + 1) / 2 = (2 * n + 1 + 1) / 2 := by omega
      have h3 : (2 * n + 1 + 1) / 2 = n + 1 := by omega
      have h4 : (2 * n + 1) / 2 = n := by omega
      simp [h2, h3, h4]

end Verif.Plot
