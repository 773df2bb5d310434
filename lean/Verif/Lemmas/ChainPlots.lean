/- Helper lemmas about the plots of the chain. -/
import Verif.Lemmas.Autocorr
import Verif.Spec.ChainPlots

namespace Verif.Plot
open Verif

theorem walkerRow_eq (chain : List (List (List ℝ))) (i n w : Nat) (hn : n ≤ chain.length) :
    walkerRow chain i n w = (List.range n).map (fun k => position chain k w i) := by
  apply List.ext_getElem
  · simp [walkerRow, hn]
  · intro k h1 h2
    have hk : k < chain.length := by simp [walkerRow] at h1; omega
    simp [walkerRow, position, List.getD_eq_getElem?_getD, hk]

theorem walkerRows_eq (walkers : Nat) (chain : List (List (List ℝ))) (i n : Nat) (hn : n ≤ chain.length) :
    walkerRows walkers chain i n = sequences walkers chain n i := by
  unfold walkerRows sequences
  exact List.map_congr_left fun w _ => walkerRow_eq chain i n w hn

theorem walkerRow_min (chain : List (List (List ℝ))) (i n w : Nat) : walkerRow chain i n w = walkerRow chain i (min n chain.length) w := by
  unfold walkerRow
  rcases le_total n chain.length with h | h
  · rw [min_eq_left h]
  · rw [min_eq_right h, List.take_of_length_le h, List.take_of_length_le le_rfl]

theorem walkerRows_min (walkers : Nat) (chain : List (List (List ℝ))) (i n : Nat) :
    walkerRows walkers chain i n = sequences walkers chain (min n chain.length) i := by
  rw [← walkerRows_eq _ _ _ _ (min_le_right _ _)]
  unfold walkerRows
  exact List.map_congr_left fun w _ => walkerRow_min chain i n w

/-- All values equal the mean exactly if all values are equal. -/
theorem varies_iff (x : List ℝ) : (∃ v ∈ x, v ≠ mean x) ↔ ∃ a ∈ x, ∃ b ∈ x, a ≠ b := by
  constructor
  · rintro ⟨v, hv, hne⟩
    by_contra hcon
    push Not at hcon
    apply hne
    have : x = List.replicate x.length v := List.eq_replicate_iff.2 ⟨rfl, fun b hb => hcon b hb v hv⟩
    have hl : (x.length : ℝ) ≠ 0 := by
      have := List.length_pos_of_mem hv
      positivity
    rw [mean, this, List.sum_replicate, List.length_replicate, nsmul_eq_mul]
    field_simp
  · rintro ⟨a, ha, b, hb, hne⟩
    by_cases h : a = mean x
    · exact ⟨b, hb, fun h' => hne (h.trans h'.symm)⟩
    · exact ⟨a, ha, h⟩

theorem raw_zero_iff (x : List ℝ) (hx : 0 < x.length) : (autocorrRaw x).getD 0 0 = 0 ↔ ∀ a ∈ x, ∀ b ∈ x, a = b := by
  rw [autocorrRaw_lag x 0 hx]
  have hp : (0 : ℝ) < 4 * nextPowTwo x.length := by
    have := nextPowTwo_pos x.length
    positivity
  rw [div_eq_zero_iff, or_iff_left hp.ne']
  constructor
  · intro h
    by_contra hcon
    push Not at hcon
    exact (lagSum_pos x ((varies_iff x).2 hcon)).ne' h
  · intro h
    have hall : ∀ v ∈ x, v = mean x := by
      by_contra hcon
      push Not at hcon
      obtain ⟨a, ha, b, hb, hne⟩ := (varies_iff x).1 hcon
      exact hne (h a ha b hb)
    refine Finset.sum_eq_zero fun j hj => ?_
    rw [Finset.mem_range, Nat.sub_zero] at hj
    rw [List.getD_eq_getElem?_getD, List.getElem?_eq_getElem hj, Option.getD_some, hall _ (List.getElem_mem hj)]
    ring

theorem moved_iff (chain : List (List (List ℝ))) (n w i : Nat) :
    Moved chain n w i ↔ ∃ a ∈ (List.range (min n chain.length)).map (fun k => position chain k w i),
      ∃ b ∈ (List.range (min n chain.length)).map (fun k => position chain k w i), a ≠ b := by
  constructor
  · rintro ⟨k, l, h1, h2, h3, h4, h5⟩
    exact ⟨_, List.mem_map.2 ⟨k, List.mem_range.2 (by omega), rfl⟩, _, List.mem_map.2 ⟨l, List.mem_range.2 (by omega), rfl⟩, h5⟩
  · rintro ⟨a, ha, b, hb, hne⟩
    obtain ⟨k, hk, rfl⟩ := List.mem_map.1 ha
    obtain ⟨l, hl, rfl⟩ := List.mem_map.1 hb
    rw [List.mem_range] at hk hl
    exact ⟨k, l, by omega, by omega, by omega, by omega, hne⟩

/-- The estimate for sequences of walkers that all moved. -/
theorem autocorrTime_moved (walkers : Nat) (chain : List (List (List ℝ))) (i n : Nat) (hw : 1 ≤ walkers)
    (hn : 1 ≤ min n chain.length) (hm : ∀ w < walkers, Moved chain n w i) :
    ∃ t, autocorrTime (min n chain.length) (walkerRows walkers chain i n) = .ok (.fin t) ∧
      IsTime (sequences walkers chain (min n chain.length) i) (min n chain.length) t := by
  rw [walkerRows_min]
  set m := min n chain.length with hmdef
  have hrow : ∀ row ∈ sequences walkers chain m i, row.length = m ∧ ∃ a ∈ row, ∃ b ∈ row, a ≠ b := by
    intro row hr
    obtain ⟨w, hw', rfl⟩ := List.mem_map.1 hr
    exact ⟨by simp, (moved_iff chain n w i).1 (hm w (List.mem_range.1 hw'))⟩
  have hne : sequences walkers chain m i ≠ [] := by
    intro h
    have := congrArg List.length h
    simp [sequences] at this
    omega
  have hvar : ∀ row ∈ sequences walkers chain m i, ∃ v ∈ row, v ≠ mean row := fun row hr => (varies_iff row).2 (hrow row hr).2
  obtain ⟨w, hw1, h1, h2, h3, h4⟩ := window_exists m _ 5 (by norm_num) hn hne (fun row hr => (hrow row hr).1) hvar
  refine ⟨tau (sequences walkers chain m i) w, ?_, w, h1, h2, rfl, h3, h4⟩
  unfold autocorrTime
  rw [if_neg (by omega), if_neg]
  · rw [autocorrNew, hw1]
    simp only [tauList_get m _ hne (fun row hr => (hrow row hr).1) hvar w h2]
  · rintro ⟨row, hr, hz⟩
    obtain ⟨hl, a, ha, b, hb, hab⟩ := hrow row hr
    exact hab ((raw_zero_iff row (by omega)).1 hz a ha b hb)

/-- The estimate if a walker did not move. -/
theorem autocorrTime_stuck (walkers : Nat) (chain : List (List (List ℝ))) (i n : Nat) (hn : 1 ≤ min n chain.length) (w : Nat)
    (hw : w < walkers) (hm : ¬ Moved chain n w i) :
    autocorrTime (min n chain.length) (walkerRows walkers chain i n) = .ok .nan := by
  rw [walkerRows_min]
  unfold autocorrTime
  rw [if_neg (by omega), if_pos]
  refine ⟨_, List.mem_map.2 ⟨w, List.mem_range.2 hw, rfl⟩, (raw_zero_iff _ (by rw [List.length_map, List.length_range]; omega)).2 ?_⟩
  by_contra hcon
  push Not at hcon
  exact hm ((moved_iff chain n w i).2 hcon)

/-- The estimate always exists. -/
theorem autocorrTime_ok (walkers : Nat) (chain : List (List (List ℝ))) (i n : Nat) (hw : 1 ≤ walkers)
    (hn : 1 ≤ min n chain.length) : ∃ t, autocorrTime (min n chain.length) (walkerRows walkers chain i n) = .ok t := by
  by_cases h : ∀ w < walkers, Moved chain n w i
  · obtain ⟨t, ht, _⟩ := autocorrTime_moved walkers chain i n hw hn h
    exact ⟨_, ht⟩
  · push Not at h
    obtain ⟨w, hw', hm⟩ := h
    exact ⟨_, autocorrTime_stuck walkers chain i n hn w hw' hm⟩

end Verif.Plot
