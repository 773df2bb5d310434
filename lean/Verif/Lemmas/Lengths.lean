/-
Lemmas for C150.
-/
import Verif.Props.Likelihood
import Verif.Spec.Lengths

namespace Verif.Llh
open Verif

theorem common_mem {lens : List Nat} {n : Nat} (h : common lens = .ok n) : ∀ a ∈ lens, a ≠ 1 → a = n := by
  unfold common at h
  simp only at h
  split at h
  · rename_i hall
    cases h
    intro a ha h1
    rw [List.all_eq_true] at hall
    have := hall a (List.mem_filter.2 ⟨ha, by simpa using h1⟩)
    simpa using this
  · cases h

theorem common_agree {lens : List Nat} {n : Nat} (h : common lens = .ok n) : Agree lens :=
  fun a ha b hb h1 h2 => (common_mem h a ha h1).trans (common_mem h b hb h2).symm

theorem common_or {lens : List Nat} {n : Nat} (h : common lens = .ok n) : n = 1 ∨ n ∈ lens := by
  unfold common at h
  simp only at h
  split at h
  · cases h
    cases hr : lens.filter (· ≠ 1) with
    | nil => left; rfl
    | cons a r =>
      right
      have : a ∈ lens.filter (· ≠ 1) := by rw [hr]; simp
      exact (List.mem_filter.1 this).1
  · cases h

theorem common_refused {lens : List Nat} (h : ¬ Agree lens) : common lens = .error .valueError := by
  cases hc : common lens with
  | ok n => exact absurd (common_agree hc) h
  | error e =>
    unfold common at hc
    simp only at hc
    split at hc
    · cases hc
    · cases hc; rfl

theorem common_eq {lens : List Nat} {n : Nat} (h : ∀ k ∈ lens, k = n ∨ k = 1) (hn : n ∈ lens) : common lens = .ok n := by
  have key : Agree lens := by
    intro a ha b hb h1 h2
    rcases h a ha with rfl | rfl
    · rcases h b hb with rfl | rfl
      · rfl
      · exact absurd rfl h2
    · exact absurd rfl h1
  cases hc : common lens with
  | ok m =>
    by_cases h1 : n = 1
    · subst h1
      rcases common_or hc with rfl | hm
      · rfl
      · rcases h m hm with rfl | rfl <;> rfl
    · rw [common_mem hc n hn h1]
  | error e =>
    exfalso
    unfold common at hc
    simp only at hc
    split at hc
    · cases hc
    · rename_i hall
      apply hall
      rw [List.all_eq_true]
      cases hr : lens.filter (· ≠ 1) with
      | nil => simp
      | cons a r =>
        have hf : ∀ k ∈ a :: r, k ∈ lens ∧ k ≠ 1 := by
          intro k hk
          rw [← hr] at hk
          exact ⟨(List.mem_filter.1 hk).1, by simpa using (List.mem_filter.1 hk).2⟩
        intro k hk
        simpa using key k (hf k hk).1 a (hf a (by simp)).1 (hf k hk).2 (hf a (by simp)).2

theorem Gives.length {α : Type} {n : Nat} {l : List α} {g : Nat → α} (h : Gives n l g) : l.length = n ∨ l.length = 1 := by
  rcases h with rfl | ⟨a, rfl, _⟩
  · left; simp
  · right; rfl

theorem Gives.spread {α : Type} {n : Nat} {l : List α} {g : Nat → α} (h : Gives n l g) : spread n l = (List.range n).map g := by
  rcases h with rfl | ⟨a, rfl, h⟩
  · exact spread_same (by simp)
  · show List.replicate n a = _
    symm
    rw [List.eq_replicate_iff]
    refine ⟨by simp, ?_⟩
    · intro b hb
      obtain ⟨i, hi, rfl⟩ := List.mem_map.1 hb
      exact h i (List.mem_range.1 hi)

theorem spread_length {α : Type} {n : Nat} {l : List α} (h : l.length = n ∨ l.length = 1) : (Llh.spread n l).length = n := by
  unfold Llh.spread
  split
  · simp
  · rename_i l hl
    rcases h with h | h
    · exact h
    · obtain ⟨a, rfl⟩ := List.length_eq_one_iff.1 h
      exact absurd rfl (hl a)

/-- A sum of terms, each a value times an efficiency. -/
theorem sum_range_fin (n : Nat) (f g : Nat → ℝ) :
    XF.sum (List.zipWith (· * ·) ((List.range n).map fun i => XF.fin (g i)) ((List.range n).map fun i => XF.fin (f i))) =
      .fin (((List.range n).map fun i => f i * g i).sum) := by
  have : List.zipWith (· * ·) ((List.range n).map fun i => XF.fin (g i)) ((List.range n).map fun i => XF.fin (f i)) =
      (((List.range n).map fun i => f i * g i)).map XF.fin := by
    generalize List.range n = r
    induction r with
    | nil => rfl
    | cons a r ih => simp only [List.map_cons, List.zipWith_cons_cons, ih, XF.fin_mul_fin, mul_comm]
  rw [this, XF.sum_map_fin]

theorem lit_parts {K : Type} {al : PyDict String String} (hal : PlainAliases al) {shape : Shape} {s : LitState K} {key k' k2 : K}
    {batch : Int} {p : PyDict String XF} {v : XF} {n : String} {c : K → Int → PyDict String XF → Res (K × Grid XF)} {e y f : List XF}
    (hc : s.components = [(n, c)]) (hrun : c key 1 (replaceAlias al p) = .ok (k', [e, y, f]))
    (h : litLogLikelihood al shape s key batch p = .ok (k2, v)) :
    ∃ l m, logpdf shape e y = .ok l ∧ common [l.length, f.length] = .ok m ∧
      ((XF.sum (List.zipWith (· * ·) (Llh.spread m l) (Llh.spread m f))).isNaN ∧ v = .ninf ∨
       ¬ (XF.sum (List.zipWith (· * ·) (Llh.spread m l) (Llh.spread m f))).isNaN ∧
        v = XF.sum (List.zipWith (· * ·) (Llh.spread m l) (Llh.spread m f))) := by
  obtain ⟨n', c', e', y', f', l, m, h1, h2, h3, hm, h4⟩ := litLogLikelihood_ok hal h
  rw [hc] at h1
  simp only [List.cons.injEq, Prod.mk.injEq, and_true] at h1
  obtain ⟨rfl, rfl⟩ := h1
  rw [hrun] at h2
  cases h2
  exact ⟨l, m, h3, hm, h4⟩

/-- What is left of a literature likelihood when the component has run. -/
theorem lit_run {K : Type} (al : PyDict String String) (shape : Shape) (s : LitState K) (key k' : K)
    (batch : Int) (p : PyDict String XF) (n : String) (c : K → Int → PyDict String XF → Res (K × Grid XF)) (e y f : List XF)
    (hc : s.components = [(n, c)]) (ho : s.only = some n)
    (hrun : c key 1 (replaceAlias al (replaceAlias al p)) = .ok (k', [e, y, f])) :
    litLogLikelihood al shape s key batch p = (do
      let l ← logpdf shape e y
      let m ← common [l.length, f.length]
      let v := XF.sum (List.zipWith (· * ·) (Llh.spread m l) (Llh.spread m f))
      return (k', if v.isNaN then .ninf else v)) := by
  unfold litLogLikelihood simulateYields
  simp only [hc, ho, List.length_singleton, ne_eq, not_true_eq_false, if_false, PyDict.getItem, PyDict.get?_cons, if_true, bind, Except.bind]
  rw [hrun]

end Verif.Llh
