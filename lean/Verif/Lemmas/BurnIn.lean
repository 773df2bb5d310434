/-
Lemmas about the iterations that are left of a chain.
-/
import Verif.Model.BurnIn
import Verif.Lemmas.Plot

namespace Verif.Plot
open Verif

/-- The positions of the thinned iterations of a chain of length `n`. -/
def positions (discard thin n : Nat) : List Nat :=
  ((List.range n).filter (fun k => decide (discard + thin - 1 + k * thin < n))).map (fun k => discard + thin - 1 + k * thin)

theorem thinned_eq {α : Type} (discard thin : Nat) (ht : thin ≠ 0) (l : List (List α)) :
    thinned discard thin l = .ok ((positions discard thin l.length).map (fun n => l.getD n [])) := by
  simp only [thinned, ht, if_false, positions, List.map_map]
  congr 1
  generalize List.range l.length = ks
  induction ks with
  | nil => rfl
  | cons k ks ih =>
    simp only [List.filterMap_cons, List.filter_cons]
    by_cases h : discard + thin - 1 + k * thin < l.length
    · simp [h, ih, List.getD]
    · rw [List.getElem?_eq_none (by omega)]
      simp [h, ih]

theorem mem_positions (discard thin n m : Nat) (ht : thin ≠ 0) :
    m ∈ positions discard thin n ↔ m < n ∧ ∃ k, m = discard + thin - 1 + k * thin := by
  simp only [positions, List.mem_map, List.mem_filter, List.mem_range, decide_eq_true_eq]
  constructor
  · rintro ⟨k, ⟨_, h2⟩, rfl⟩
    exact ⟨h2, k, rfl⟩
  · rintro ⟨h, k, rfl⟩
    refine ⟨k, ⟨?_, h⟩, rfl⟩
    have : k * 1 ≤ k * thin := Nat.mul_le_mul_left k (by omega)
    omega

theorem positions_sorted (discard thin n : Nat) (ht : thin ≠ 0) : (positions discard thin n).Pairwise (· < ·) := by
  unfold positions
  rw [List.pairwise_map]
  refine List.Pairwise.imp ?_ (List.Pairwise.filter _ List.pairwise_lt_range)
  intro a b hab
  have := Nat.mul_lt_mul_of_pos_right hab (by omega : 0 < thin)
  omega

/-- The `i`-th number with a property has `i` numbers with the property below it. -/
theorem filter_range_rank (g : Nat → Bool) (N i k : Nat) (h : ((List.range N).filter g)[i]? = some k) :
    k < N ∧ g k = true ∧ i = ((List.range k).filter g).length := by
  have hm := List.mem_of_getElem? h
  rw [List.mem_filter, List.mem_range] at hm
  refine ⟨hm.1, hm.2, ?_⟩
  have hN : N = k + ((N - k - 1) + 1) := by omega
  have hsplit : (List.range N).filter g = (List.range k).filter g ++ k :: ((List.range (N - k - 1)).map (fun x => k + (x + 1))).filter g := by
    rw [hN, List.range_add, List.filter_append]
    congr 1
    rw [List.range_succ_eq_map, List.map_cons, Nat.add_zero, List.filter_cons, if_pos hm.2, List.map_map]
    have : k + (N - k - 1 + 1) - k - 1 = N - k - 1 := by omega
    rw [this]
    rfl
  have hnd : ((List.range N).filter g).Nodup := List.nodup_range.filter g
  have hk : ((List.range N).filter g)[((List.range k).filter g).length]? = some k := by
    rw [hsplit, List.getElem?_append_right (le_refl _), Nat.sub_self]
    rfl
  have h1 := (List.getElem?_eq_some_iff.1 h).1
  have h2 := (List.getElem?_eq_some_iff.1 hk).1
  exact (List.Nodup.getElem_inj_iff hnd (hi := h1) (hj := h2)).1 (by
    rw [(List.getElem?_eq_some_iff.1 h).2, (List.getElem?_eq_some_iff.1 hk).2])

theorem filter_rows {α : Type} (g : List XF → Bool) (P : Nat → List XF) (C : Nat → List α) : ∀ l : List Nat,
    (((l.map P).zip (l.map C)).filter (fun e => g e.1)).map Prod.snd = (l.filter (fun n => g (P n))).map C := by
  intro l
  induction l with
  | nil => rfl
  | cons n l ih =>
    simp only [List.map_cons, List.zip_cons_cons, List.filter_cons]
    by_cases h : g (P n) = true
    · simp [h, ih]
    · simp [h, ih]

/-- What is left of the stored arrays. -/
theorem readChain_rows {P B : Type} (discard thin : Nat) (ht : thin ≠ 0) (chain : List (List P)) (post : List (List XF))
    (prior : List (List B)) (hc : List.Forall₂ (fun a b => a.length = b.length) post chain)
    (hb : List.Forall₂ (fun a b => a.length = b.length) post prior) (r : Chains P B)
    (h : readChain discard thin chain post prior = .ok r) :
    let idx := (positions discard thin post.length).filter (fun n => rowFinite (post.getD n []))
    r.chain = idx.map (fun n => chain.getD n []) ∧ r.posterior = idx.map (fun n => post.getD n []) ∧
      r.prior = idx.map (fun n => prior.getD n []) := by
  have ep := thinned_eq discard thin ht post
  obtain ⟨c, hcc, hc2⟩ := thinned_forall₂ _ discard thin post chain hc _ ep
  obtain ⟨b, hbb, hb2⟩ := thinned_forall₂ _ discard thin post prior hb _ ep
  have ec := thinned_eq discard thin ht chain
  have eb := thinned_eq discard thin ht prior
  rw [hcc] at ec
  rw [hbb] at eb
  rw [← hc.length_eq] at ec
  rw [← hb.length_eq] at eb
  have ec' := Except.ok.inj ec
  have eb' := Except.ok.inj eb
  have heq := readChain_eq discard thin chain post prior c _ b hcc ep hbb hc2.length_eq hb2.length_eq
    (flatten_length_eq _ _ hc2) (flatten_length_eq _ _ hb2)
  rw [h] at heq
  split at heq
  · cases heq
  · split at heq
    · cases heq
    · cases heq
      subst ec' eb'
      exact ⟨filter_rows rowFinite _ _ _, filter_rows rowFinite _ _ _, filter_rows rowFinite _ _ _⟩

theorem argmax_none (l : List ℝ) : argmax l = none ↔ l = [] := by
  constructor
  · intro h
    by_contra hne
    obtain ⟨i, h1, _⟩ := argmax_spec l hne
    rw [h] at h1
    cases h1
  · rintro rfl; rfl

end Verif.Plot
