/-
Property theorems C59 about reading chains and their diagnostics (plot.py).
-/
import Verif.Lemmas.Plot

namespace Verif.Plot
open Verif

/-- **C59.** `next_pow_two(n)` is the least power of two that is not below `n`. -/
theorem C59_next_pow_two (n : Nat) :
    (∃ k, nextPowTwo n = 2 ^ k) ∧ n ≤ nextPowTwo n ∧ ∀ j, n ≤ 2 ^ j → nextPowTwo n ≤ 2 ^ j := by
  obtain ⟨k, h1, h2, h3⟩ := nextPowTwo_spec n
  rw [h1]
  exact ⟨⟨k, rfl⟩, h2, fun j hj => Nat.pow_le_pow_right (by omega) (h3 j hj)⟩

example : nextPowTwo 1000 = 1024 ∧ nextPowTwo 1024 = 1024 ∧ nextPowTwo 0 = 1 := by decide

/-- **C59 (window, what holds).** If some index is below `c * tau` and some index is not, the window is the first one
that is not.  If no index is below, it is the last one.  Missing for the full claim: the case that all indices are
below, see `C59_no_window_found`. -/
theorem C59_window_partial (m : List Bool) :
    (true ∈ m → false ∈ m → ∃ i, autoWindow m = some i ∧ m[i]? = some false ∧ ∀ j < i, m[j]? = some true) ∧
    (true ∉ m → m ≠ [] → autoWindow m = some (m.length - 1)) := by
  constructor
  · intro ht hf
    have hany : m.any id = true := List.any_eq_true.2 ⟨true, ht, rfl⟩
    refine ⟨argminBool m, by simp [autoWindow, hany], argminBool_first m hf⟩
  · intro ht hne
    have hany : m.any id = false := by
      rw [Bool.eq_false_iff]
      intro h
      obtain ⟨b, hb, hb2⟩ := List.any_eq_true.1 h
      simp at hb2; subst hb2; exact ht hb
    simp [autoWindow, hany, hne]

example : autoWindow [true, true, false, true] = some 2 ∧ autoWindow [false, false, false] = some 2 := by decide

/-- **C59 fails** when every index is below `c * tau`, that is when the chain is too short for its correlation: the
window is the first index, not the last one. -/
theorem C59_no_window_found (m : List Bool) (h : false ∉ m) (hne : m ≠ []) : autoWindow m = some 0 := by
  have hany : m.any id = true := by
    cases m with
    | nil => exact absurd rfl hne
    | cons b l =>
      cases b with
      | true => simp
      | false => simp at h
  simp [autoWindow, hany, argminBool_all m h]

/-- The first index satisfying the criterion, or the last index: what the window is meant to be. -/
theorem C59_window_negation : ¬ ∀ m : List Bool, m ≠ [] → ∀ i, autoWindow m = some i →
    (m[i]? = some false ∧ ∀ j < i, m[j]? = some true) ∨ i = m.length - 1 := by
  intro h
  have := h [true, true] (by decide) 0 (by decide)
  revert this
  decide

/-- **C59 (chains).** Reading a stored chain succeeds exactly if some kept sample has a finite posterior, and keeps
samples, posteriors and priors aligned: the flat arrays together are exactly the stored triples with a finite posterior, in
order; the iteration-wise arrays are exactly the iterations in which all walkers have a finite posterior; and the best
fit is a kept sample whose posterior is largest.  `c`, `p`, `b` are the arrays after discarding and thinning. -/
theorem C59_chain_aligned {P B : Type} (discard thin : Nat) (chain : List (List P)) (post : List (List XF))
    (prior : List (List B)) (hc : List.Forall₂ (fun a b => a.length = b.length) post chain)
    (hb : List.Forall₂ (fun a b => a.length = b.length) post prior) (p : List (List XF))
    (hp : thinned discard thin post = .ok p) :
    ∃ c b, thinned discard thin chain = .ok c ∧ thinned discard thin prior = .ok b ∧
      ((∃ r, readChain discard thin chain post prior = .ok r) ↔ ∃ row ∈ p, ∃ x ∈ row, x.isFinite) ∧
      ∀ r, readChain discard thin chain post prior = .ok r →
        r.flatChain.zip (r.flatPosterior.zip r.flatPrior)
          = (c.flatten.zip (p.flatten.zip b.flatten)).filter (fun e => decide e.2.1.isFinite) ∧
        r.flatPosterior = p.flatten.filter (fun x => decide x.isFinite) ∧
        r.flatChain.length = r.flatPosterior.length ∧ r.flatPrior.length = r.flatPosterior.length ∧
        r.chain.zip (r.posterior.zip r.prior)
          = (c.zip (p.zip b)).filter (fun e => e.2.1.all (fun x => decide x.isFinite)) ∧
        ∃ (i : Nat) (v : ℝ), r.flatChain[i]? = some r.mpe ∧ r.flatPosterior[i]? = some (XF.fin v) ∧
          ∀ x ∈ r.flatPosterior, ∃ w, x = XF.fin w ∧ w ≤ v := by
  obtain ⟨c, hcc, hc2⟩ := thinned_forall₂ _ discard thin post chain hc p hp
  obtain ⟨b, hbb, hb2⟩ := thinned_forall₂ _ discard thin post prior hb p hp
  have hfc := flatten_length_eq _ _ hc2
  have hfb := flatten_length_eq _ _ hb2
  have heq := readChain_eq discard thin chain post prior c p b hcc hp hbb hc2.length_eq hb2.length_eq hfc hfb
  have hfin : ∀ x ∈ p.flatten.filter valFinite, ∃ w, x = XF.fin w := by
    intro x hx
    have h2 := (List.mem_filter.1 hx).2
    have h3 : x.isFinite := by simpa [valFinite] using h2
    cases x with
    | fin w => exact ⟨w, rfl⟩
    | _ => exact absurd h3 id
  by_cases hne : p.flatten.filter valFinite = []
  · refine ⟨c, b, hcc, hbb, ?_, ?_⟩
    · constructor
      · rintro ⟨r, hr⟩
        rw [heq, hne] at hr; cases hr
      · rintro ⟨row, hrow, x, hx, hxf⟩
        have : x ∈ p.flatten.filter valFinite :=
          List.mem_filter.2 ⟨List.mem_flatten.2 ⟨row, hrow, hx⟩, by simpa [valFinite] using hxf⟩
        rw [hne] at this; simp at this
    · intro r hr
      rw [heq, hne] at hr; cases hr
  · obtain ⟨i, h1, h2, h3, _⟩ := argmax_spec ((p.flatten.filter valFinite).map finVal) (by simpa using hne)
    have hlen := length_filter_zip valFinite p.flatten c.flatten hfc
    have hi : i < (p.flatten.filter valFinite).length := by rw [List.length_map] at h2; exact h2
    have hi' : i < (((p.flatten.zip c.flatten).filter (fun e => valFinite e.1)).map Prod.snd).length := by
      rw [hlen]; exact hi
    rw [h1] at heq
    simp only [List.getElem?_eq_getElem hi'] at heq
    refine ⟨c, b, hcc, hbb, ⟨fun _ => ?_, fun _ => ⟨_, heq⟩⟩, ?_⟩
    · obtain ⟨x, hx⟩ := List.exists_mem_of_ne_nil _ hne
      obtain ⟨hx1, hx2⟩ := List.mem_filter.1 hx
      obtain ⟨row, hr1, hr2⟩ := List.mem_flatten.1 hx1
      exact ⟨row, hr1, x, hr2, by simpa [valFinite] using hx2⟩
    · intro r hr
      rw [heq] at hr
      cases hr
      refine ⟨zip_filter_map valFinite _ _ _ hfc hfb, filter_zip_self _ _, ?_, ?_,
        zip_filter_map rowFinite _ _ _ hc2.length_eq hb2.length_eq, ?_⟩
      · simp only
        rw [hlen, filter_zip_self]
      · simp only
        rw [length_filter_zip valFinite p.flatten b.flatten hfb, filter_zip_self]
      · obtain ⟨v, hv⟩ := hfin _ (List.getElem_mem hi)
        refine ⟨i, v, List.getElem?_eq_getElem hi', ?_, ?_⟩
        · simp only
          rw [filter_zip_self, List.getElem?_eq_getElem hi, hv]
        · intro x hx
          simp only [filter_zip_self] at hx
          obtain ⟨w, rfl⟩ := hfin x hx
          refine ⟨w, rfl, ?_⟩
          obtain ⟨j, hj, hxj⟩ := List.getElem_of_mem hx
          have := h3 j (by rw [List.length_map]; exact hj)
          rw [List.getD_eq_getElem?_getD, List.getD_eq_getElem?_getD, List.getElem?_map, List.getElem?_map,
            List.getElem?_eq_getElem hj, List.getElem?_eq_getElem hi, hv, hxj] at this
          exact this

/-- Which iterations are kept: number `k` of the thinned array is iteration `discard + thin - 1 + k * thin`. -/
theorem C59_thinning {α : Type} (discard thin : Nat) (l l' : List α) (h : thinned discard thin l = .ok l') (k : Nat) :
    l'[k]? = l[discard + thin - 1 + k * thin]? := by
  unfold thinned at h
  by_cases ht : thin = 0
  · rw [if_pos ht] at h; cases h
  · rw [if_neg ht] at h
    cases h
    have gen : ∀ (n s : Nat), l.length ≤ s + n →
        ((List.range n).filterMap (fun k => l[discard + thin - 1 + (s + k) * thin]?))[k]?
          = l[discard + thin - 1 + (s + k) * thin]? := by
      induction k with
      | zero =>
        intro n s hn
        cases n with
        | zero =>
          have : l.length ≤ discard + thin - 1 + (s + 0) * thin := by
            have : s ≤ s * thin := Nat.le_mul_of_pos_right s (by omega)
            simp at hn ⊢; omega
          rw [List.getElem?_eq_none this]; rfl
        | succ n =>
          rw [List.range_succ_eq_map, List.filterMap_cons]
          cases hx : l[discard + thin - 1 + (s + 0) * thin]? with
          | some v => rfl
          | none =>
            have hle := List.getElem?_eq_none_iff.1 hx
            have : ∀ ks : List Nat, ks.filterMap (fun k => l[discard + thin - 1 + (s + k) * thin]?) = [] := by
              intro ks
              rw [List.filterMap_eq_nil_iff]
              intro a _
              apply List.getElem?_eq_none
              have : (s + 0) * thin ≤ (s + a) * thin := Nat.mul_le_mul_right _ (by omega)
              omega
            rw [this]; rfl
      | succ k ih =>
        intro n s hn
        cases n with
        | zero =>
          have : l.length ≤ discard + thin - 1 + (s + (k + 1)) * thin := by
            have : s + (k + 1) ≤ (s + (k + 1)) * thin := Nat.le_mul_of_pos_right _ (by omega)
            simp at hn; omega
          simp [List.getElem?_eq_none this]
        | succ n =>
          rw [List.range_succ_eq_map, List.filterMap_cons]
          have hih := ih n (s + 1) (by omega)
          have e1 : ((List.range n).map Nat.succ).filterMap (fun k => l[discard + thin - 1 + (s + k) * thin]?)
              = (List.range n).filterMap (fun k => l[discard + thin - 1 + (s + 1 + k) * thin]?) := by
            rw [List.filterMap_map]
            congr 1
            funext a
            simp only [Function.comp]
            congr 3
            omega
          have e2 : s + 1 + k = s + (k + 1) := by omega
          rw [e2] at hih
          cases hx : l[discard + thin - 1 + (s + 0) * thin]? with
          | some v =>
            simp only
            rw [e1, List.getElem?_cons_succ, hih]
          | none =>
            have hle := List.getElem?_eq_none_iff.1 hx
            have h3 : l[discard + thin - 1 + (s + (k + 1)) * thin]? = none := by
              apply List.getElem?_eq_none
              have : (s + 0) * thin ≤ (s + (k + 1)) * thin := Nat.mul_le_mul_right _ (by omega)
              omega
            simp only
            rw [h3]
            have : ((List.range n).map Nat.succ).filterMap (fun k => l[discard + thin - 1 + (s + k) * thin]?) = [] := by
              rw [List.filterMap_eq_nil_iff]
              intro a _
              apply List.getElem?_eq_none
              have : (s + 0) * thin ≤ (s + a) * thin := Nat.mul_le_mul_right _ (by omega)
              omega
            rw [this]; rfl
    have := gen l.length 0 (by omega)
    simpa using this

/-- Non-vacuity: two walkers, three iterations, the first one discarded; one sample has an infinite posterior. -/
example : thinned 1 1 [[XF.fin 1, XF.fin 2], [XF.ninf, XF.fin 5], [XF.fin 3, XF.fin 4]]
    = .ok [[XF.ninf, XF.fin 5], [XF.fin 3, XF.fin 4]] := by
  simp [thinned, List.range_succ]

/-- The flat arrays and the iteration-wise arrays do not drop the same samples: the best fit can be a sample that is
in no kept iteration. -/
theorem C59_best_fit_outside_chain :
    ∃ r, readChain 0 1 [["a", "b"], ["c", "d"]] [[XF.ninf, XF.fin 5], [XF.fin 3, XF.fin 4]] [[(), ()], [(), ()]] = .ok r ∧
      r.mpe = "b" ∧ r.chain = [["c", "d"]] := by
  refine ⟨⟨[["c", "d"]], [[XF.fin 3, XF.fin 4]], [[(), ()]], ["b", "c", "d"], [XF.fin 5, XF.fin 3, XF.fin 4],
    [(), (), ()], "b"⟩, ?_, rfl, rfl⟩
  have h1 : ∀ {α : Type} (x y : α), thinned 0 1 [x, y] = .ok [x, y] := by
    intro α x y; simp [thinned, List.range_succ]
  rw [readChain_eq 0 1 _ _ _ _ _ _ (h1 ["a", "b"] ["c", "d"]) (h1 [XF.ninf, XF.fin 5] [XF.fin 3, XF.fin 4])
    (h1 [(), ()] [(), ()]) rfl rfl rfl rfl]
  have hv : ∀ x : ℝ, valFinite (XF.fin x) = true := fun x => rfl
  have hn : valFinite XF.ninf = false := rfl
  have h3 : argmax [5, 3, 4] = some 0 := by norm_num [argmax]
  have hr1 : rowFinite [XF.ninf, XF.fin 5] = false := rfl
  have hr2 : rowFinite [XF.fin 3, XF.fin 4] = true := rfl
  simp [List.filter_cons, hv, hn, finVal, h3, hr1, hr2]

end Verif.Plot
