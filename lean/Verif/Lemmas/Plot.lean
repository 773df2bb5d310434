/- Helper lemmas about the plots: powers of two, windows, masks, geometry and collapsing. -/
import Verif.Model.Plot
import Verif.Spec.Plot
import Mathlib.Tactic.Linarith
import Mathlib.Tactic.FieldSimp
import Mathlib.Tactic.Ring
import Mathlib.Tactic.NormNum
import Mathlib.Tactic.Push

namespace Verif.Plot
open Verif

/-! ### Powers of two -/

theorem nextPowTwoLoop_spec (fuel i n : Nat) (hi : 0 < i) (hf : n ≤ i + fuel) :
    ∃ k, nextPowTwoLoop fuel i n = i * 2 ^ k ∧ n ≤ i * 2 ^ k ∧ ∀ j, n ≤ i * 2 ^ j → k ≤ j := by
  induction fuel generalizing i with
  | zero => exact ⟨0, by simp [nextPowTwoLoop], by simpa using hf, by simp⟩
  | succ fuel ih =>
    rw [nextPowTwoLoop]
    by_cases h : i < n
    · rw [if_pos h]
      obtain ⟨k, h1, h2, h3⟩ := ih (2 * i) (by omega) (by omega)
      refine ⟨k + 1, by rw [h1, pow_succ]; ring, by rw [pow_succ]; linarith, ?_⟩
      intro j hj
      cases j with
      | zero => simp at hj; omega
      | succ j =>
        have := h3 j (by rw [pow_succ] at hj; linarith)
        omega
    · rw [if_neg h]
      exact ⟨0, by simp, by simp; omega, by simp⟩

theorem nextPowTwo_spec (n : Nat) :
    ∃ k, nextPowTwo n = 2 ^ k ∧ n ≤ 2 ^ k ∧ ∀ j, n ≤ 2 ^ j → k ≤ j := by
  obtain ⟨k, h1, h2, h3⟩ := nextPowTwoLoop_spec n 1 n (by omega) (by omega)
  exact ⟨k, by simpa [nextPowTwo] using h1, by simpa using h2, fun j hj => h3 j (by simpa using hj)⟩

/-! ### Windows -/

theorem argminBool_first (m : List Bool) (h : false ∈ m) :
    m[argminBool m]? = some false ∧ ∀ i < argminBool m, m[i]? = some true := by
  have hlt : m.findIdx (fun b => !b) < m.length := List.findIdx_lt_length_of_exists ⟨false, h, rfl⟩
  unfold argminBool
  simp only [hlt, if_true]
  constructor
  · have := List.findIdx_getElem (w := hlt) (p := fun b => !b)
    rw [List.getElem?_eq_getElem hlt]
    simpa using this
  · intro i hi
    have := List.not_of_lt_findIdx hi
    rw [List.getElem?_eq_getElem (by omega)]
    simpa using this

theorem argminBool_all (m : List Bool) (h : false ∉ m) : argminBool m = 0 := by
  unfold argminBool
  have : ¬ m.findIdx (fun b => !b) < m.length := by
    intro hlt
    have h2 := List.findIdx_getElem (w := hlt) (p := fun b => !b)
    exact h (by
      have h3 : m[m.findIdx (fun b => !b)] = false := by simpa using h2
      rw [← h3]; exact List.getElem_mem _)
  simp [this]

/-! ### Masks -/

theorem applyMask_map {α β : Type} (g : α → Bool) (l : List α) (r : List β) (h : l.length = r.length) :
    applyMask (l.map g) r = .ok (((l.zip r).filter (fun e => g e.1)).map Prod.snd) := by
  unfold applyMask
  rw [if_neg (by simp [h])]
  congr 1
  clear h
  induction l generalizing r with
  | nil => simp
  | cons a l ih =>
    cases r with
    | nil => simp
    | cons b r =>
      simp only [List.map_cons, List.zip_cons_cons, List.filterMap_cons, List.filter_cons]
      cases g a <;> simp [ih]

theorem argmax_spec (l : List ℝ) (h : l ≠ []) :
    ∃ i, argmax l = some i ∧ i < l.length ∧ (∀ j < l.length, l.getD j 0 ≤ l.getD i 0) ∧
      ∀ j < i, l.getD j 0 < l.getD i 0 := by
  induction l with
  | nil => exact absurd rfl h
  | cons a l ih =>
    cases l with
    | nil => exact ⟨0, rfl, by simp, by simp, by simp⟩
    | cons b l =>
      obtain ⟨i, h1, h2, h3, h4⟩ := ih (by simp)
      rw [argmax, h1]
      simp only
      by_cases hlt : a < (b :: l).getD i 0
      · rw [if_pos hlt]
        refine ⟨i + 1, rfl, by simpa using h2, ?_, ?_⟩
        · intro j hj
          cases j with
          | zero => simpa using hlt.le
          | succ j => simpa using h3 j (by simpa using hj)
        · intro j hj
          cases j with
          | zero => simpa using hlt
          | succ j => simpa using h4 j (by omega)
      · rw [if_neg hlt]
        refine ⟨0, rfl, by simp, ?_, by simp⟩
        intro j hj
        cases j with
        | zero => simp
        | succ j =>
          have := h3 j (by simpa using hj)
          simp only [List.getD_cons_succ, List.getD_cons_zero] at *
          linarith [not_lt.1 hlt]

/-- Slices of arrays with corresponding rows have corresponding rows. -/
theorem thinned_forall₂ {α β : Type} (R : α → β → Prop) (discard thin : Nat) (l : List α) (r : List β)
    (h : List.Forall₂ R l r) (l' : List α) (hl : thinned discard thin l = .ok l') :
    ∃ r', thinned discard thin r = .ok r' ∧ List.Forall₂ R l' r' := by
  unfold thinned at hl ⊢
  by_cases ht : thin = 0
  · rw [if_pos ht] at hl; cases hl
  · rw [if_neg ht] at hl ⊢
    cases hl
    refine ⟨_, rfl, ?_⟩
    rw [← h.length_eq]
    generalize List.range l.length = ks
    induction ks with
    | nil => exact .nil
    | cons k ks ih =>
      simp only [List.filterMap_cons]
      have hrel := List.forall₂_iff_get.1 h
      by_cases hk : discard + thin - 1 + k * thin < l.length
      · have hk' : discard + thin - 1 + k * thin < r.length := hrel.1 ▸ hk
        rw [List.getElem?_eq_getElem hk, List.getElem?_eq_getElem hk']
        exact .cons (by simpa using hrel.2 _ hk hk') ih
      · have hk' : ¬ discard + thin - 1 + k * thin < r.length := hrel.1 ▸ hk
        rw [List.getElem?_eq_none (not_lt.1 hk), List.getElem?_eq_none (not_lt.1 hk')]
        exact ih

theorem flatten_length_eq {α β : Type} (l : List (List α)) (r : List (List β))
    (h : List.Forall₂ (fun a b => a.length = b.length) l r) : l.flatten.length = r.flatten.length := by
  induction h with
  | nil => rfl
  | cons h1 _ ih => simp only [List.flatten_cons, List.length_append, h1, ih]

theorem zip_filter_map {α β γ : Type} (g : β → Bool) (p : List β) (c : List α) (b : List γ)
    (h1 : p.length = c.length) (h2 : p.length = b.length) :
    (((p.zip c).filter (fun e => g e.1)).map Prod.snd).zip
      ((((p.zip p).filter (fun e => g e.1)).map Prod.snd).zip (((p.zip b).filter (fun e => g e.1)).map Prod.snd))
    = (c.zip (p.zip b)).filter (fun e => g e.2.1) := by
  induction p generalizing c b with
  | nil => cases c <;> simp
  | cons x p ih =>
    cases c with
    | nil => simp at h1
    | cons y c =>
      cases b with
      | nil => simp at h2
      | cons z b =>
        have := ih c b (by simpa using h1) (by simpa using h2)
        simp only [List.zip_cons_cons, List.filter_cons]
        cases g x <;> simp [this]

theorem filter_zip_self {β : Type} (g : β → Bool) (p : List β) :
    ((p.zip p).filter (fun e => g e.1)).map Prod.snd = p.filter g := by
  induction p with
  | nil => rfl
  | cons x p ih =>
    simp only [List.zip_cons_cons, List.filter_cons]
    cases g x <;> simp [ih]

theorem length_filter_zip {α β : Type} (g : β → Bool) (p : List β) (c : List α) (h : p.length = c.length) :
    (((p.zip c).filter (fun e => g e.1)).map Prod.snd).length = (p.filter g).length := by
  induction p generalizing c with
  | nil => rfl
  | cons x p ih =>
    cases c with
    | nil => simp at h
    | cons y c =>
      have := ih c (by simpa using h)
      simp only [List.zip_cons_cons, List.filter_cons]
      cases g x <;> simpa using this

/-- `readChain` on sliced arrays of the same shape. -/
theorem readChain_eq {P B : Type} (discard thin : Nat) (chain : List (List P)) (post : List (List XF))
    (prior : List (List B)) (c : List (List P)) (p : List (List XF)) (b : List (List B))
    (hcc : thinned discard thin chain = .ok c) (hp : thinned discard thin post = .ok p)
    (hbb : thinned discard thin prior = .ok b) (hc : p.length = c.length) (hb : p.length = b.length)
    (hfc : p.flatten.length = c.flatten.length) (hfb : p.flatten.length = b.flatten.length) :
    readChain discard thin chain post prior =
      match argmax ((p.flatten.filter valFinite).map finVal) with
      | none => .error .valueError
      | some i => match (((p.flatten.zip c.flatten).filter (fun e => valFinite e.1)).map Prod.snd)[i]? with
        | none => .error .indexError
        | some v => .ok ⟨((p.zip c).filter (fun e => rowFinite e.1)).map Prod.snd,
            ((p.zip p).filter (fun e => rowFinite e.1)).map Prod.snd,
            ((p.zip b).filter (fun e => rowFinite e.1)).map Prod.snd,
            ((p.flatten.zip c.flatten).filter (fun e => valFinite e.1)).map Prod.snd,
            ((p.flatten.zip p.flatten).filter (fun e => valFinite e.1)).map Prod.snd,
            ((p.flatten.zip b.flatten).filter (fun e => valFinite e.1)).map Prod.snd, v⟩ := by
  have e1 := applyMask_map rowFinite p c hc
  have e2 := applyMask_map rowFinite p p rfl
  have e3 := applyMask_map rowFinite p b hb
  have e4 := applyMask_map valFinite p.flatten c.flatten hfc
  have e5 := applyMask_map valFinite p.flatten p.flatten rfl
  have e6 := applyMask_map valFinite p.flatten b.flatten hfb
  unfold readChain
  simp only [hcc, hp, hbb, bind, Except.bind, e1, e2, e3, e4, e5, e6]
  rw [filter_zip_self]
  cases argmax ((p.flatten.filter valFinite).map finVal) with
  | none => rfl
  | some i =>
    simp only
    cases (((p.flatten.zip c.flatten).filter (fun e => valFinite e.1)).map Prod.snd)[i]? <;> rfl

end Verif.Plot
