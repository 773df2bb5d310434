/-
Helper lemmas: the number of successes among independent uniform trials has the binomial distribution.
-/
import Mathlib.Tactic.Linarith
import Mathlib.Tactic.Ring
import Verif.Lemmas.Randgen

namespace Verif.Randgen
open Verif MeasureTheory

/-- The law of one uniform draw. -/
noncomputable def unif : Measure ℝ := volume.restrict (Set.Ico (0 : ℝ) 1)

instance : IsProbabilityMeasure unif := ⟨by simp [unif]⟩

theorem unif_lt (p : ℝ) (h0 : 0 ≤ p) (h1 : p ≤ 1) : unif (Set.Iio p) = ENNReal.ofReal p := by
  have : Set.Iio p ∩ Set.Ico (0 : ℝ) 1 = Set.Ico 0 p := by
    ext x
    simp only [Set.mem_inter_iff, Set.mem_Iio, Set.mem_Ico]
    constructor
    · rintro ⟨a, b, c⟩
      exact ⟨b, a⟩
    · rintro ⟨a, b⟩
      exact ⟨b, a, by linarith⟩
  rw [unif, Measure.restrict_apply measurableSet_Iio, this, Real.volume_Ico, sub_zero]

theorem unif_ge (p : ℝ) (h0 : 0 ≤ p) (h1 : p ≤ 1) : unif (Set.Ici p) = ENNReal.ofReal (1 - p) := by
  have : Set.Ici p ∩ Set.Ico (0 : ℝ) 1 = Set.Ico p 1 := by
    ext x
    simp only [Set.mem_inter_iff, Set.mem_Ici, Set.mem_Ico]
    constructor
    · rintro ⟨a, b, c⟩
      exact ⟨a, c⟩
    · rintro ⟨a, b⟩
      exact ⟨a, by linarith, b⟩
  rw [unif, Measure.restrict_apply measurableSet_Ici, this, Real.volume_Ico]

/-- The draws for which exactly the trials of `S` among the first `n` succeed. -/
def side (p : ℝ) (n : Nat) (S : Finset Nat) (j : Nat) : Set ℝ :=
  if j < n then (if j ∈ S then Set.Iio p else Set.Ici p) else Set.univ

theorem side_measurable (p : ℝ) (n : Nat) (S : Finset Nat) (j : Nat) : MeasurableSet (side p n S j) := by
  unfold side
  split
  · split
    · exact measurableSet_Iio
    · exact measurableSet_Ici
  · exact MeasurableSet.univ

theorem box_eq (p : ℝ) (t n : Nat) (S : Finset Nat) (hn : n ≤ t) (hS : S ⊆ Finset.range n) :
    {u : Fin t → ℝ | (Finset.range n).filter (fun j => padded u j < p) = S}
      = Set.pi Set.univ (fun j : Fin t => side p n S j) := by
  ext u
  simp only [Set.mem_setOf_eq, Set.mem_pi, Set.mem_univ, true_implies]
  constructor
  · intro h j
    unfold side
    split
    · rename_i hj
      have hp : padded u j = u j := by simp [padded]
      split
      · rename_i hjS
        rw [← h, Finset.mem_filter, hp] at hjS
        exact hjS.2
      · rename_i hjS
        rw [← h, Finset.mem_filter, hp] at hjS
        simp only [Finset.mem_range, not_and, not_lt] at hjS
        exact hjS hj
    · trivial
  · intro h
    ext j
    rw [Finset.mem_filter, Finset.mem_range]
    constructor
    · rintro ⟨hj, hlt⟩
      have hjt : j < t := by omega
      have := h ⟨j, hjt⟩
      unfold side at this
      simp only [if_pos hj] at this
      by_contra hns
      rw [if_neg hns] at this
      simp only [padded, dif_pos hjt] at hlt
      exact absurd hlt (not_lt.2 this)
    · intro hjS
      have hj : j < n := Finset.mem_range.1 (hS hjS)
      have hjt : j < t := by omega
      refine ⟨hj, ?_⟩
      have := h ⟨j, hjt⟩
      unfold side at this
      simp only [if_pos hj, if_pos hjS] at this
      simp only [padded, dif_pos hjt]
      exact this

theorem box_law (p : ℝ) (h0 : 0 ≤ p) (h1 : p ≤ 1) (t n : Nat) (S : Finset Nat) (hn : n ≤ t) (hS : S ⊆ Finset.range n) :
    trialsLaw t {u : Fin t → ℝ | (Finset.range n).filter (fun j => padded u j < p) = S}
      = ENNReal.ofReal (p ^ S.card * (1 - p) ^ (n - S.card)) := by
  rw [box_eq p t n S hn hS]
  change (Measure.pi (fun _ : Fin t => unif)) _ = _
  rw [Measure.pi_pi, Fin.prod_univ_eq_prod_range (fun j => unif (side p n S j)) t]
  have hsub : Finset.range n ⊆ Finset.range t := Finset.range_subset_range.2 hn
  rw [← Finset.prod_subset hsub (fun j _ hj => by
    have : ¬ j < n := by simpa using hj
    simp [side, this])]
  have hval : ∀ j ∈ Finset.range n, unif (side p n S j)
      = if j ∈ S then ENNReal.ofReal p else ENNReal.ofReal (1 - p) := by
    intro j hj
    have hj' : j < n := Finset.mem_range.1 hj
    unfold side
    rw [if_pos hj']
    split
    · exact unif_lt p h0 h1
    · exact unif_ge p h0 h1
  rw [Finset.prod_congr rfl hval, Finset.prod_ite, Finset.prod_const, Finset.prod_const]
  have e1 : (Finset.range n).filter (fun j => j ∈ S) = S := by
    ext j
    simp only [Finset.mem_filter]
    exact ⟨fun h => h.2, fun h => ⟨hS h, h⟩⟩
  have e2 : ((Finset.range n).filter (fun j => ¬ j ∈ S)).card = n - S.card := by
    have : (Finset.range n).filter (fun j => ¬ j ∈ S) = Finset.range n \ S := by
      ext j
      simp [Finset.mem_filter, Finset.mem_sdiff]
    rw [this, Finset.card_sdiff_of_subset hS, Finset.card_range]
  rw [e1, e2, ENNReal.ofReal_mul (pow_nonneg h0 _), ENNReal.ofReal_pow h0, ENNReal.ofReal_pow (by linarith)]

theorem count_law (p : ℝ) (h0 : 0 ≤ p) (h1 : p ≤ 1) (t n k : Nat) (hn : n ≤ t) :
    trialsLaw t {u : Fin t → ℝ | ((Finset.range n).filter (fun j => padded u j < p)).card = k}
      = ENNReal.ofReal (n.choose k * p ^ k * (1 - p) ^ (n - k)) := by
  have hU : {u : Fin t → ℝ | ((Finset.range n).filter (fun j => padded u j < p)).card = k}
      = ⋃ S ∈ (Finset.range n).powersetCard k,
          {u : Fin t → ℝ | (Finset.range n).filter (fun j => padded u j < p) = S} := by
    ext u
    simp only [Set.mem_setOf_eq, Set.mem_iUnion, Finset.mem_powersetCard, exists_prop]
    constructor
    · intro h
      exact ⟨_, ⟨Finset.filter_subset _ _, h⟩, rfl⟩
    · rintro ⟨S, ⟨-, hS⟩, he⟩
      rw [he, hS]
  rw [hU, measure_biUnion_finset]
  · rw [Finset.sum_congr rfl (fun S hS => box_law p h0 h1 t n S hn (Finset.mem_powersetCard.1 hS).1)]
    have : ∀ S ∈ (Finset.range n).powersetCard k,
        ENNReal.ofReal (p ^ S.card * (1 - p) ^ (n - S.card)) = ENNReal.ofReal (p ^ k * (1 - p) ^ (n - k)) := by
      intro S hS
      rw [(Finset.mem_powersetCard.1 hS).2]
    rw [Finset.sum_congr rfl this, Finset.sum_const, Finset.card_powersetCard, Finset.card_range, nsmul_eq_mul, mul_assoc,
      ENNReal.ofReal_mul (p := (n.choose k : ℝ)) (by positivity), ENNReal.ofReal_natCast]
  · intro S _ S' _ hne
    rw [Function.onFun, Set.disjoint_left]
    intro u hu hu'
    exact hne (hu.symm.trans hu')
  · intro S hS
    rw [box_eq p t n S hn (Finset.mem_powersetCard.1 hS).1]
    exact MeasurableSet.univ_pi (fun j => side_measurable p n S j)

end Verif.Randgen
