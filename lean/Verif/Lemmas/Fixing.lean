/-
Lemmas for fixing a parameter (C153).
-/
import Verif.Spec.Fixing
import Verif.Lemmas.Unread
import Verif.Props.Continue

namespace Verif.Parameter
open Verif

theorem Fixes.isFitted {config config' : Config} {n : String} {s : Setting} {v : ℝ} (h : Fixes config config' n s v) (k : String) :
    IsFitted config' k ↔ IsFitted config k ∧ k ≠ n := by
  by_cases e : k = n
  · subst e
    obtain ⟨s', hs', hp⟩ := h.fixed
    simp only [ne_eq, not_true_eq_false, and_false, iff_false]
    rintro ⟨t, ht, hne⟩
    rw [hs'] at ht
    cases ht
    exact hne v hp
  · simp only [IsFitted, h.same k e, ne_eq, e, not_false_eq_true, and_true]

theorem mem_fit_iff {config : Config} {pm : PM} (h : Inv config pm) (hc : config.keys.Nodup) (k : String) :
    k ∈ parameterFit pm ↔ IsFitted config k := by
  rw [mem_parameterFit h hc]
  refine ⟨fun ⟨s, hs, hp⟩ => ⟨s, hs, fun u e => by rw [e] at hp; cases hp⟩, fun ⟨s, hs, hp⟩ => ⟨s, hs, ?_⟩⟩
  cases e : s.prior with
  | fixed u => exact absurd e (hp u)
  | _ => rfl

theorem fit_erase {config config' : Config} {n : String} {s : Setting} {v : ℝ} (h : Fixes config config' n s v)
    (hc : config.keys.Nodup) {pm pm' : PM} (hi : Inv config pm) (hi' : Inv config' pm') :
    parameterFit pm' = (parameterFit pm).erase n := by
  have hc' : config'.keys.Nodup := h.keys ▸ hc
  have hn := parameterFit_nodup hi hc
  have hp : (parameterFit pm').Perm ((parameterFit pm).erase n) := by
    rw [List.perm_ext_iff_of_nodup (parameterFit_nodup hi' hc') (hn.erase _)]
    intro k
    rw [hn.mem_erase_iff, mem_fit_iff hi' hc', mem_fit_iff hi hc, h.isFitted, and_comm]
  exact hp.eq_of_pairwise (le := (· ≤ ·)) (fun a b _ _ => le_antisymm) (parameterFit_sorted _)
    ((parameterFit_sorted pm).sublist List.erase_sublist)

end Verif.Parameter

namespace Verif.Walk
open Verif Parameter
open scoped ENNReal

section
variable {K : Type} {d : Nat}

theorem fit_index {config config' : Config} {n : String} {s : Setting} {v : ℝ} (h : Fixes config config' n s v)
    (hc : config.keys.Nodup) {pm pm' : PM} (hi : Inv config pm) (hi' : Inv config' pm') {i : Nat}
    (hn : (parameterFit pm)[i]? = some n) : parameterFit pm' = (parameterFit pm).eraseIdx i := by
  rw [fit_erase h hc hi hi']
  obtain ⟨hlt, e⟩ := List.getElem?_eq_some_iff.1 hn
  rw [← e]
  exact (parameterFit_nodup hi hc).erase_getElem i hlt

/-- The values at a position are those at the rest of the position when the parameter is fixed. -/
theorem vals_eq {config config' : Config} {n : String} {s : Setting} {v : ℝ} (h : Fixes config config' n s v)
    (hc : config.keys.Nodup) {c c' : Ctx.Ctx K} (hr : Reachable config c.pm) (hr' : Reachable config' c'.pm)
    (hv : c'.pm.vals.get? n = some (.fin v)) (hrest : ∀ k, ¬ IsFitted config k → c.pm.vals.get? k = c'.pm.vals.get? k)
    (hd : (parameterFit c.pm).length = d + 1) {i : Fin (d + 1)} (hn : (parameterFit c.pm)[i.val]? = some n) (y : Fin d → ℝ) :
    (pmAt c (i.insertNth v y : Fin (d + 1) → ℝ)).vals = (pmAt c' y).vals := by
  have hc' : config'.keys.Nodup := h.keys ▸ hc
  have hfit := fit_index h hc hr.inv hr'.inv hn
  have hd' : (parameterFit c'.pm).length = d := by
    rw [hfit, List.length_eraseIdx, hd, if_pos i.isLt]; omega
  have hval : ∀ {m : Nat} {config : Config} {c : Ctx.Ctx K} (_ : config.keys.Nodup) (_ : Reachable config c.pm)
      (_ : (parameterFit c.pm).length = m) (z : Fin m → ℝ) (j : Fin m) k, (parameterFit c.pm)[j.val]? = some k →
      (pmAt c z).vals.get? k = some (.fin (z j)) := by
    intro m config c hc hr hd z j k hk
    unfold pmAt
    rw [evalAt_eq hr.inv hc]
    refine PyDict.get?_update_nodup _ _ ?_ ?_
    · rw [zip_fst_nodup hr.inv hc _ (by simp [hd])]; exact parameterFit_nodup hr.inv hc
    · rw [List.mem_iff_getElem?]
      refine ⟨j.val, ?_⟩
      rw [List.getElem?_zip_eq_some]
      exact ⟨hk, by simp [List.getElem?_ofFn]⟩
  have hinv : Inv config (pmAt c (i.insertNth v y : Fin (d + 1) → ℝ)) := setParameter_inv _ _ hr.inv
  have hinv' : Inv config' (pmAt c' y) := setParameter_inv _ _ hr'.inv
  have hout' : ∀ k, ¬ IsFitted config' k → (pmAt c' y).vals.get? k = c'.pm.vals.get? k :=
    (C05_fit_vector_round_trip config' hc' c'.pm hr' ((List.ofFn y).map XF.fin) (by simp [hd'])).2.2
  have hout : ∀ k, ¬ IsFitted config k → (pmAt c (i.insertNth v y : Fin (d + 1) → ℝ)).vals.get? k = c.pm.vals.get? k :=
    (C05_fit_vector_round_trip config hc c.pm hr ((List.ofFn (i.insertNth v y : Fin (d + 1) → ℝ)).map XF.fin) (by simp [hd])).2.2
  refine PyDict.ext_keys _ _ (hinv.keys ▸ hc) (by rw [hinv.keys, hinv'.keys, h.keys]) fun k _ => ?_
  by_cases e : k = n
  · subst e
    rw [hval hc hr hd _ i k hn, hout' k (fun hf => ((h.isFitted k).1 hf).2 rfl), hv]
    simp
  · by_cases hf : IsFitted config k
    · have hm : k ∈ parameterFit c'.pm := (mem_fit_iff hr'.inv hc' k).2 ((h.isFitted k).2 ⟨hf, e⟩)
      obtain ⟨j, hj⟩ := List.mem_iff_getElem?.1 hm
      have hlt : j < d := by rw [← hd']; exact (List.getElem?_eq_some_iff.1 hj).1
      have hj0 : (parameterFit c.pm)[(i.succAbove ⟨j, hlt⟩).val]? = some k := by
        rw [hfit, List.getElem?_eraseIdx] at hj
        rw [← hj]
        by_cases hji : j < i.val
        · rw [if_pos hji, Fin.succAbove_of_castSucc_lt _ _ (by simpa [Fin.lt_def] using hji)]; rfl
        · rw [if_neg hji, Fin.succAbove_of_le_castSucc _ _ (by simpa [Fin.le_def] using hji)]; rfl
      rw [hval hc hr hd _ _ k hj0, hval hc' hr' hd' y ⟨j, hlt⟩ k hj]
      simp
    · rw [hout k hf, hout' k (fun hf' => hf ((h.isFitted k).1 hf').1), hrest k hf]

/-- The term of another parameter is the same with and without `n` fixed. -/
theorem term_same {config config' : Config} {n : String} {s : Setting} {v : ℝ} (h : Fixes config config' n s v) {sig : Solver}
    {pm pm' : PM} (hi : pm.config = config) (hi' : pm'.config = config') (hvals : pm.vals = pm'.vals) {k : String} (hk : k ≠ n) :
    termOf sig pm k = termOf sig pm' k := by
  simp only [termOf, PyDict.getItem, hi, hi', hvals, h.same k hk]

theorem term_fixed {config config' : Config} {n : String} {s : Setting} {v : ℝ} (h : Fixes config config' n s v) {sig : Solver}
    {pm : PM} (hi : pm.config = config) (hv : pm.vals.get? n = some (.fin v)) : termOf sig pm n = logPriorTerm sig s (.fin v) := by
  simp only [termOf, PyDict.getItem, bind, Except.bind, hi, hv, h.fitted.1]

/-- The log prior with `n` fitted is that with `n` fixed and the term of `n`. -/
theorem prior_split {config config' : Config} {n : String} {s : Setting} {v : ℝ} (h : Fixes config config' n s v) {sig : Solver}
    {pm pm' : PM} (hi : pm.config = config) (hi' : pm'.config = config') (hvals : pm.vals = pm'.vals)
    (hv : pm.vals.get? n = some (.fin v)) (hok : EvalOK sig s) {order order' : List String} (ho : order.Perm (n :: order'))
    (hn : n ∉ order') :
    (∀ lp, logPriorOver sig pm' order' = .ok (.fin lp) → ∀ lo hi, s.allowed = some (lo, hi) → lo ≤ v → v ≤ hi →
      logPriorOver sig pm order = .ok (.fin (lp + priorLogDensity sig s.prior v))) ∧
    (∀ lp, logPriorOver sig pm order = .ok (.fin lp) →
      logPriorOver sig pm' order' = .ok (.fin (lp - priorLogDensity sig s.prior v)) ∧
        ∃ lo hi, s.allowed = some (lo, hi) ∧ lo ≤ v ∧ v ≤ hi) := by
  classical
  have hsum : ∀ (g : String → ℝ) (t : ℝ), ((order.map fun k => if k = n then t else g k)).sum = (order'.map g).sum + t := by
    intro g t
    rw [(ho.map _).sum_eq, List.map_cons, List.sum_cons, if_pos rfl, List.map_congr_left (g := g) (fun j hj => by
      rw [if_neg]; rintro rfl; exact hn hj), add_comm]
  constructor
  · intro lp hlp lo hi' hal h1 h2
    obtain ⟨g, hg, rfl⟩ := logPriorOver_finite hlp
    rw [← hsum]
    refine logPriorOver_of_terms _ fun k hk => ?_
    by_cases e : k = n
    · subst e
      rw [if_pos rfl, term_fixed h hi hv, logPriorTerm_inside sig s v lo hi' hal hok h1 h2]
    · rw [if_neg e, term_same h hi (by assumption) hvals e]
      exact hg k ((List.mem_cons.1 (ho.mem_iff.1 hk)).resolve_left e)
  · intro lp hlp
    obtain ⟨g, hg, rfl⟩ := logPriorOver_finite hlp
    have hgn := hg n (ho.mem_iff.2 (.head _))
    rw [term_fixed h hi hv] at hgn
    obtain ⟨lo, hi2, hal, h1, h2, _, e⟩ := logPriorTerm_finite hgn
    refine ⟨?_, lo, hi2, hal, h1, h2⟩
    rw [(ho.map g).sum_eq, List.map_cons, List.sum_cons, e, add_sub_cancel_left]
    refine logPriorOver_of_terms _ fun k hk => ?_
    rw [← term_same h hi hi' hvals (fun e => hn (e ▸ hk))]
    exact hg k (ho.mem_iff.2 (.tail _ hk))

theorem repeated_congr {c c' : Ctx.Ctx K} {pm pm' : PM} (hl : c.likelihoods = c'.likelihoods) (hv : pm.vals = pm'.vals)
    (batch repeats : Int) (keys : Nat → K) (lp : XF) :
    Ctx.repeated { c with pm := pm } batch repeats keys lp = Ctx.repeated { c' with pm := pm' } batch repeats keys lp := by
  simp only [Ctx.repeated, Ctx.once, hl, hv]

theorem posterior_of {config : Config} (hc : config.keys.Nodup) {o : Settings} {c : Ctx.Ctx K} (hr : Reachable config c.pm)
    (x : Fin d → ℝ) (keys : Nat → K) :
    posterior o c x keys = (do
      let lp ← logPriorOver o.sig (pmAt c x) o.order
      if ¬ lp.isFinite then return (.ninf, lp)
      else
        let v ← Ctx.repeated { c with pm := pmAt c x } o.batch o.repeats keys lp
        return (v, lp)) := by
  classical
  have hset : setParameter c.pm (.dict ((parameterFit c.pm).zip ((List.ofFn x).map XF.fin))) .none = (pmAt c x, .ok ()) :=
    Prod.ext rfl (by have := evalAt_eq hr.inv hc ((List.ofFn x).map XF.fin); unfold evalAt at this; rw [this])
  unfold posterior Ctx.logPosterior
  simp only [hset]

end
end Verif.Walk
