/-
Lemmas for C138: the samples of several likelihoods when only rates change, and the sum of their log likelihoods.
-/
import Verif.Lemmas.PriorConcave
import Verif.Lemmas.Noise

namespace Verif.Llh
open Verif Comp

/-! ### Values between -/

theorem between_alias {t : ℝ} {q1 q2 q : PyDict String ℝ} (h : Between t q1 q2 q) (al : PyDict String String) (ha : PlainAliases al) :
    Between t (replaceAlias al q1) (replaceAlias al q2) (replaceAlias al q) := by
  have key : ∀ k, (q1.get? k = none ∧ q2.get? k = none ∧ q.get? k = none) ∨
      (∃ a b, q1.get? k = some a ∧ q2.get? k = some b ∧ q.get? k = some (t * a + (1 - t) * b)) := by
    intro k
    cases h1 : q1.get? k with
    | none => exact .inl ⟨rfl, (h.names k).1 h1, h.absent k h1⟩
    | some a =>
      cases h2 : q2.get? k with
      | none => rw [(h.names k).2 h2] at h1; cases h1
      | some b => exact .inr ⟨a, b, rfl, rfl, h.value k a b h1 h2⟩
  have key' : ∀ k, ((replaceAlias al q1).get? k = none ∧ (replaceAlias al q2).get? k = none ∧ (replaceAlias al q).get? k = none) ∨
      (∃ a b, (replaceAlias al q1).get? k = some a ∧ (replaceAlias al q2).get? k = some b ∧
        (replaceAlias al q).get? k = some (t * a + (1 - t) * b)) := by
    intro k
    simp only [replaceAlias_get al ha]
    by_cases hk : k ∈ al.keys
    · simp [hk]
    · simp only [hk, if_false]
      rcases key (callerName al k) with ⟨e1, e2, e3⟩ | ⟨a, b, e1, e2, e3⟩
      · rw [e1, e2, e3]; exact key k
      · rw [e1, e2, e3]; exact .inr ⟨a, b, rfl, rfl, rfl⟩
  refine ⟨fun k => ?_, fun k hk => ?_, fun k a b h1 h2 => ?_⟩
  · rcases key' k with ⟨e1, e2, _⟩ | ⟨a, b, e1, e2, _⟩ <;> simp [e1, e2]
  · rcases key' k with ⟨_, _, e3⟩ | ⟨a, b, e1, _, _⟩
    · exact e3
    · rw [hk] at e1; cases e1
  · rcases key' k with ⟨e1, _, _⟩ | ⟨a', b', e1, e2, e3⟩
    · rw [h1] at e1; cases e1
    · rw [h1] at e1; rw [h2] at e2; cases e1; cases e2; exact e3

section
variable {K : Type}

theorem varies_between {S : Setup K} {parts : List Part} {t : ℝ} {q1 q2 q : PyDict String ℝ} (ha : PlainAliases S.al)
    (hr1 : ∀ p ∈ parts, p.name ++ "_rate" ∈ (replaceAlias S.al q1).keys)
    (hv : Varies S parts q1 q2) (hb : Between t q1 q2 q) :
    Varies S parts q1 q ∧ ratesOf parts (replaceAlias S.al q) =
      mixRates t (ratesOf parts (replaceAlias S.al q1)) (ratesOf parts (replaceAlias S.al q2)) := by
  have hb' := between_alias hb S.al ha
  have both : ∀ p ∈ parts, ∃ a b, (replaceAlias S.al q1).get? (p.name ++ "_rate") = some a ∧
      (replaceAlias S.al q2).get? (p.name ++ "_rate") = some b := by
    intro p hp
    obtain ⟨a, ha⟩ := (PyDict.mem_keys_iff_exists _ _).1 (hr1 p hp)
    obtain ⟨b, hb⟩ := (PyDict.mem_keys_iff_exists _ _).1 (hv.rates p hp)
    exact ⟨a, b, ha, hb⟩
  refine ⟨⟨fun k hk => ?_, fun p hp => ?_⟩, ?_⟩
  · have e := hv.same k hk
    cases h1 : (replaceAlias S.al q1).get? k with
    | none => exact (hb'.absent k h1).symm
    | some a =>
      rw [h1] at e
      rw [hb'.value k a a h1 e.symm]
      congr 1
      ring
  · obtain ⟨a, b, h1, h2⟩ := both p hp
    exact (PyDict.mem_keys_iff_exists _ _).2 ⟨_, hb'.value _ a b h1 h2⟩
  · unfold ratesOf mixRates
    rw [List.zipWith_map, List.zipWith_self]
    refine List.map_congr_left fun p hp => ?_
    obtain ⟨a, b, h1, h2⟩ := both p hp
    rw [hb'.value _ a b h1 h2, h1, h2]
    rfl

/-! ### Samples of several likelihoods -/

/-- The samples of several likelihoods at the rates of `q`. -/
def reRated (q : PyDict String ℝ) (fs : List (Fitted K)) (sss : List (List (Sample ℝ))) : List (List (Sample ℝ)) :=
  List.zipWith (fun f ss => List.zipWith (fun r s => s.withRate r) (ratesOf f.parts (replaceAlias f.setup.al q)) ss) fs sss

theorem drawsAll_reRated {order : String → String → List Plugin} {batch : Int} {q1 q : PyDict String ℝ} {fs : List (Fitted K)} {key k' : K}
    {sss : List (List (Sample ℝ))} (h : DrawsAll order batch q1 fs key sss k') (hfree : ∀ f ∈ fs, RateFree f.setup f.parts)
    (hv : ∀ f ∈ fs, Varies f.setup f.parts q1 q) : DrawsAll order batch q fs key (reRated q fs sss) k' := by
  induction h with
  | nil => exact .nil _
  | @cons f fs k ss k' sss k'' h1 _ ih =>
    refine .cons ?_ (ih (fun f hf => hfree f (by simp [hf])) (fun f hf => hv f (by simp [hf])))
    have v := hv f (by simp)
    exact draws_withRates f.setup _ batch _ _ (hfree f (by simp) _ _ v.same) f.parts h1 v.rates

theorem drawsAll_unique {order : String → String → List Plugin} {batch : Int} {q : PyDict String ℝ} {fs : List (Fitted K)} {key k1 k2 : K}
    {sss sss' : List (List (Sample ℝ))}
    (hp : ∀ f ∈ fs, f.setup.Proper f.bins f.parts)
    (hord : ∀ f ∈ fs, ∀ a, Part.sim a ∈ f.parts → Topological a.registry (f.setup.binsOn ++ ["eff"]) (order f.name a.comp))
    (h : DrawsAll order batch q fs key sss k1) (h' : DrawsAll order batch q fs key sss' k2) : sss = sss' := by
  induction h generalizing sss' with
  | nil => cases h'; rfl
  | @cons f fs k ss k' sss k'' h1 _ ih =>
    cases h' with
    | cons g1 g2 =>
      obtain ⟨rfl, rfl⟩ := draws_unique f.setup f.bins f.parts (hp f (by simp)) (order f.name) (hord f (by simp)) batch _ f.parts
        (fun _ h => h) h1 g1
      rw [ih (fun f hf => hp f (by simp [hf])) (fun f hf => hord f (by simp [hf])) g2]

theorem drawsAll_forall₂ {order : String → String → List Plugin} {batch : Int} {q : PyDict String ℝ} {fs : List (Fitted K)} {key k' : K}
    {sss : List (List (Sample ℝ))} (h : DrawsAll order batch q fs key sss k') :
    List.Forall₂ (fun f ss => ss.length = f.parts.length) fs sss := by
  induction h with
  | nil => exact .nil
  | cons h1 _ ih => exact .cons (draws_length h1) ih

theorem reRated_normalisable {q : PyDict String ℝ} {fs : List (Fitted K)} {sss : List (List (Sample ℝ))}
    (h : ∀ ss ∈ sss, ∀ s ∈ ss, s.Normalisable) : ∀ ss ∈ reRated q fs sss, ∀ s ∈ ss, s.Normalisable := by
  intro ss hss s hs
  obtain ⟨n, hn⟩ := List.mem_iff_getElem?.1 hss
  rw [reRated, List.getElem?_zipWith] at hn
  split at hn
  · rename_i f ss0 _ hss0
    cases hn
    obtain ⟨m, hm⟩ := List.mem_iff_getElem?.1 hs
    rw [List.getElem?_zipWith] at hm
    split at hm
    · rename_i r s0 _ hs0
      cases hm
      exact h ss0 (List.mem_of_getElem? hss0) s0 (List.mem_of_getElem? hs0)
    · cases hm
  · cases hn

theorem reRated_logL (q : PyDict String ℝ) (fs : List (Fitted K)) (sss : List (List (Sample ℝ))) :
    (List.zipWith (fun f ss => binnedLogL f.bins f.data ss) fs (reRated q fs sss)).sum = logLAll q fs sss := by
  unfold logLAll reRated
  congr 1
  induction fs generalizing sss with
  | nil => rfl
  | cons f fs ih =>
    cases sss with
    | nil => rfl
    | cons ss sss =>
      simp only [List.zipWith_cons_cons, ih sss]
      congr 1
      unfold binnedLogL logLAtRates
      simp only [expectedIn_withRates]

theorem reRated_positive (q : PyDict String ℝ) (fs : List (Fitted K)) (sss : List (List (Sample ℝ))) (hl : sss.length = fs.length) :
    List.Forall₂ (fun f ss => ∀ b ∈ binList f.bins, 0 < expectedIn ss b) fs (reRated q fs sss) ↔ AllPositive q fs sss := by
  unfold AllPositive
  induction fs generalizing sss with
  | nil =>
    cases sss with
    | nil => exact ⟨fun _ => .nil, fun _ => .nil⟩
    | cons => simp at hl
  | cons f fs ih =>
    cases sss with
    | nil => simp at hl
    | cons ss sss =>
      unfold reRated at ih ⊢
      rw [List.zipWith_cons_cons, List.forall₂_cons, List.forall₂_cons, ih sss (by simpa using hl)]
      simp only [expectedIn_withRates]

theorem logLAll_concave {q1 q2 q : PyDict String ℝ} {t : ℝ} {fs : List (Fitted K)} {sss : List (List (Sample ℝ))}
    (hl : List.Forall₂ (fun f ss => ss.length = f.parts.length) fs sss) (ht0 : 0 ≤ t) (ht1 : t ≤ 1)
    (hm : ∀ f ∈ fs, ratesOf f.parts (replaceAlias f.setup.al q) =
      mixRates t (ratesOf f.parts (replaceAlias f.setup.al q1)) (ratesOf f.parts (replaceAlias f.setup.al q2)))
    (h1 : AllPositive q1 fs sss) (h2 : AllPositive q2 fs sss) :
    AllPositive q fs sss ∧ t * logLAll q1 fs sss + (1 - t) * logLAll q2 fs sss ≤ logLAll q fs sss ∧
      (logLAll q fs sss = t * logLAll q1 fs sss + (1 - t) * logLAll q2 fs sss → 0 < t → t < 1 → SamePrediction q1 q2 fs sss) := by
  induction hl with
  | nil => exact ⟨.nil, by simp [logLAll], fun _ _ _ => .nil⟩
  | @cons f ss fs sss hd _ ih =>
    cases h1 with
    | cons a1 b1 =>
    cases h2 with
    | cons a2 b2 =>
    obtain ⟨c1, c2, c3⟩ := ih (fun f hf => hm f (by simp [hf])) b1 b2
    have e := hm f (by simp)
    have l1 : (ratesOf f.parts (replaceAlias f.setup.al q1)).length = ss.length := by rw [ratesOf_length, hd]
    have l2 : (ratesOf f.parts (replaceAlias f.setup.al q2)).length = ss.length := by rw [ratesOf_length, hd]
    have cc := logL_concave f.bins f.data ss _ _ l1 l2 t ht0 ht1 a1 a2
    rw [← e] at cc
    refine ⟨.cons ?_ c1, ?_, ?_⟩
    · intro b hb
      rw [e, atRates_mix ss t _ _ l1 l2]
      have p1 := a1 b hb
      have p2 := a2 b hb
      rcases ht0.eq_or_lt with rfl | h0
      · simpa using p2
      · have := mul_pos h0 p1
        have := mul_nonneg (sub_nonneg.2 ht1) p2.le
        linarith
    · unfold logLAll at c2 ⊢
      simp only [List.zipWith_cons_cons, List.sum_cons]
      linarith
    · intro he p0 p1
      unfold logLAll at he c2 c3
      simp only [List.zipWith_cons_cons, List.sum_cons] at he
      refine .cons ?_ (c3 (by linarith) p0 p1)
      exact logL_concave_eq f.bins f.data ss _ _ l1 l2 t p0 p1 a1 a2 (by rw [← e]; linarith)

end

end Verif.Llh

namespace Verif.Parameter

theorem setParameter_config (pm : PM) (k : Keys) (v : Vals) : (setParameter pm k v).1.config = pm.config := by
  have hl : ∀ ks xs, (setList pm ks xs).1.config = pm.config := by
    intro ks xs
    unfold setList
    split <;> rfl
  unfold setParameter
  split
  · rfl
  · rfl
  · split <;> (try rfl)
    · exact hl _ _
    · split
      · exact hl _ _
      · rfl

end Verif.Parameter
