/-
Property theorems for one uniform number per key (C156).
-/
import Verif.Model.UniformKey
import Verif.Lemmas.Randgen

namespace Verif.Randgen
open Verif

/-- **C156 (values).** There is one number for each key, in the order of the keys; it is that of the key alone, so that drawing for
two arrays of keys in turn is drawing for both at once; all numbers lie in [0,1) if those of single keys do. -/
theorem C156_values (u : Key → ℝ) (keys more : List Key) (s : St) :
    (uniformKeyVectorized u keys s).1.length = keys.length ∧
    (∀ (i : Nat) k, keys[i]? = some k → (uniformKeyVectorized u keys s).1[i]? = some (u k)) ∧
    (let r := uniformKeyVectorized u keys s
     let r' := uniformKeyVectorized u more r.2
     uniformKeyVectorized u (keys ++ more) s = (r.1 ++ r'.1, r'.2)) ∧
    ((∀ k, 0 ≤ u k ∧ u k < 1) → ∀ x ∈ (uniformKeyVectorized u keys s).1, 0 ≤ x ∧ x < 1) := by
  refine ⟨by simp [uniformKeyVectorized], ?_, by simp [uniformKeyVectorized], ?_⟩
  · intro i k h
    simp [uniformKeyVectorized, h]
  · intro h x hx
    obtain ⟨k, _, rfl⟩ := List.mem_map.1 hx
    exact h k

/-- **C156 (sound use).** A program that has not reused a key, splits the key it holds into one to go on with and one for each number,
and draws from the latter, has still not reused a key, and goes on with a key that is not derived from a used one. -/
theorem C156_split (u : Key → ℝ) (n : Nat) (s : St) (hn : s.used.Nodup) (ha : ∀ k ∈ s.used, Apart k s.key) :
    let r := (uniformKeyVectorized u ((List.range n).map fun i => s.key.child (n + 1) (i + 1)) { s with key := s.key.child (n + 1) 0 }).2
    r.used.Nodup ∧ ∀ k ∈ r.used, Apart k r.key := by
  intro r
  have h : Inv r := Inv.step (s := s) ⟨hn, ha⟩ ((List.range n).map fun i => s.key.child (n + 1) (i + 1)).reverse rfl
    (suffix_child _ _ _) (by
      rw [List.nodup_reverse]
      refine List.Nodup.map_on (fun a _ b _ e => ?_) List.nodup_range
      simpa [Key.child] using e) (by
      intro x hx
      rw [List.mem_reverse, List.mem_map] at hx
      obtain ⟨i, _, rfl⟩ := hx
      exact suffix_child _ _ _) (by
      intro x hx
      rw [List.mem_reverse, List.mem_map] at hx
      obtain ⟨i, _, rfl⟩ := hx
      exact apart_siblings _ (by simp))
  exact ⟨h.nodup, h.apart⟩

/-- **C156 (keys are not updated).** As documented no new key comes back: a second call with the same keys gives the same numbers and
uses them a second time, and so does a call with a key twice in its array. -/
theorem C156_not_updated (u : Key → ℝ) (keys : List Key) (hk : keys ≠ []) (s : St) :
    let r := uniformKeyVectorized u keys s
    r.2.key = s.key ∧ (uniformKeyVectorized u keys r.2).1 = r.1 ∧ ¬ (uniformKeyVectorized u keys r.2).2.used.Nodup ∧
    ∀ (i j : Nat) k, i ≠ j → keys[i]? = some k → keys[j]? = some k → r.1[i]? = r.1[j]? ∧ ¬ r.2.used.Nodup := by
  refine ⟨rfl, rfl, ?_, ?_⟩
  · intro h
    obtain ⟨k, l, rfl⟩ := List.exists_cons_of_ne_nil hk
    simp only [uniformKeyVectorized, List.nodup_append] at h
    exact h.2.2 k (by simp) k (by simp) rfl
  · intro i j k hij hi hj
    refine ⟨by simp [uniformKeyVectorized, hi, hj], fun h => ?_⟩
    simp only [uniformKeyVectorized, List.nodup_append, List.nodup_reverse] at h
    have h1 := (List.getElem?_inj (i := i) (j := j) (List.getElem?_eq_some_iff.1 hi).1 h.1).1 (hi.trans hj.symm)
    exact hij h1

/-- Non-vacuity of C156: three numbers from a split into four, after a draw from another key. -/
example (u : Key → ℝ) :
    (uniformKeyVectorized u [[(4, 1)], [(4, 2)], [(4, 3)]] ⟨[(4, 0)], []⟩).1 = [u [(4, 1)], u [(4, 2)], u [(4, 3)]] ∧
    (uniformKeyVectorized u [[(4, 1), (2, 0)], [(4, 2), (2, 0)], [(4, 3), (2, 0)]] ⟨[(4, 0), (2, 0)], [[(2, 1)]]⟩).2.used
      = [[(4, 3), (2, 0)], [(4, 2), (2, 0)], [(4, 1), (2, 0)], [(2, 1)]] ∧
    ([[(4, 3), (2, 0)], [(4, 2), (2, 0)], [(4, 1), (2, 0)], [(2, 1)]] : List Key).Nodup := by
  refine ⟨rfl, rfl, ?_⟩
  exact (C156_split u 3 ⟨[(2, 0)], [[(2, 1)]]⟩ (by simp) (by
    simp only [List.mem_singleton, forall_eq]
    exact apart_siblings [] (by decide))).1

end Verif.Randgen
