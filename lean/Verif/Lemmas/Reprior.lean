/-
Lemmas for giving a fitted parameter another prior or allowed range (C154).
-/
import Verif.Spec.Reprior
import Verif.Lemmas.Fixing

namespace Verif.Walk
open Verif Parameter
open scoped ENNReal

section
variable {K : Type} {d : Nat}

theorem Reprior.isFitted {config config' : Config} {n : String} {s s' : Setting} {o o' : Settings} {c c' : Ctx.Ctx K}
    (h : Reprior config config' n s s' o o' c c') (k : String) : IsFitted config k ↔ IsFitted config' k := by
  by_cases e : k = n
  · subst e
    exact ⟨fun _ => ⟨s', h.second⟩, fun _ => ⟨s, h.first⟩⟩
  · simp only [IsFitted, h.same k e]

theorem Reprior.symm {config config' : Config} {n : String} {s s' : Setting} {o o' : Settings} {c c' : Ctx.Ctx K}
    (h : Reprior config config' n s s' o o' c c') : Reprior config' config n s' s o' o c' c where
  keys := h.keys.symm
  nodup := h.keys ▸ h.nodup
  first := h.second
  second := h.first
  same := fun k hk => (h.same k hk).symm
  reach := h.reach'
  reach' := h.reach
  rest := fun k hk => (h.rest k (fun hf => hk ((h.isFitted k).1 hf))).symm
  likelihoods := h.likelihoods.symm
  sig := h.sig.symm
  batch := h.batch.symm
  repeats := h.repeats.symm
  order := h.order'
  order' := h.order

theorem Reprior.fit {config config' : Config} {n : String} {s s' : Setting} {o o' : Settings} {c c' : Ctx.Ctx K}
    (h : Reprior config config' n s s' o o' c c') : parameterFit c.pm = parameterFit c'.pm :=
  Verif.Continue.parameterFit_congr h.reach.inv h.reach'.inv h.nodup (h.keys ▸ h.nodup) h.isFitted

theorem Reprior.vals {config config' : Config} {n : String} {s s' : Setting} {o o' : Settings} {c c' : Ctx.Ctx K}
    (h : Reprior config config' n s s' o o' c c') (hd : (parameterFit c.pm).length = d) (x : Fin d → ℝ) :
    (pmAt c x).vals = (pmAt c' x).vals := by
  have hc' : config'.keys.Nodup := h.keys ▸ h.nodup
  have hinv : Inv config (pmAt c x) := setParameter_inv _ _ h.reach.inv
  have hinv' : Inv config' (pmAt c' x) := setParameter_inv _ _ h.reach'.inv
  have hd' : (parameterFit c'.pm).length = d := h.fit ▸ hd
  have hout := (C05_fit_vector_round_trip config h.nodup c.pm h.reach ((List.ofFn x).map XF.fin) (by simp [hd])).2.2
  have hout' := (C05_fit_vector_round_trip config' hc' c'.pm h.reach' ((List.ofFn x).map XF.fin) (by simp [hd'])).2.2
  refine PyDict.ext_keys _ _ (hinv.keys ▸ h.nodup) (by rw [hinv.keys, hinv'.keys, h.keys]) fun k _ => ?_
  by_cases hf : IsFitted config k
  · unfold pmAt
    rw [evalAt_eq h.reach.inv h.nodup, evalAt_eq h.reach'.inv hc', ← h.fit]
    have hm : k ∈ ((parameterFit c.pm).zip ((List.ofFn x).map XF.fin)).map Prod.fst := by
      rw [zip_fst_nodup h.reach.inv h.nodup _ (by simp [hd])]
      exact (mem_fit_iff h.reach.inv h.nodup k).2 hf
    obtain ⟨⟨k', w⟩, hw, rfl⟩ := List.mem_map.1 hm
    have hnd : (((parameterFit c.pm).zip ((List.ofFn x).map XF.fin)).map Prod.fst).Nodup := by
      rw [zip_fst_nodup h.reach.inv h.nodup _ (by simp [hd])]; exact parameterFit_nodup h.reach.inv h.nodup
    rw [PyDict.get?_update_nodup _ _ hnd hw, PyDict.get?_update_nodup _ _ hnd hw]
  · have e1 : (pmAt c x).vals.get? k = c.pm.vals.get? k := hout k hf
    have e2 : (pmAt c' x).vals.get? k = c'.pm.vals.get? k := hout' k (fun hf' => hf ((h.isFitted k).2 hf'))
    rw [e1, e2, h.rest k hf]

/-- With another setting of `n`, under which its value is allowed too, the log prior changes by the terms of `n`. -/
theorem Reprior.prior {config config' : Config} {n : String} {s s' : Setting} {o o' : Settings} {c c' : Ctx.Ctx K}
    (h : Reprior config config' n s s' o o' c c') (hd : (parameterFit c.pm).length = d) {i : Fin d}
    (hn : (parameterFit c.pm)[i.val]? = some n) (hok' : EvalOK o.sig s') {lo hi : ℝ} (hal : s'.allowed = some (lo, hi)) (x : Fin d → ℝ)
    (h1 : lo ≤ x i) (h2 : x i ≤ hi) {lp : ℝ} (hlp : logPriorOver o.sig (pmAt c x) o.order = .ok (.fin lp)) :
    logPriorOver o'.sig (pmAt c' x) o'.order
      = .ok (.fin (lp + (priorLogDensity o.sig s'.prior (x i) - priorLogDensity o.sig s.prior (x i)))) := by
  classical
  have hdiff := differ_of h.nodup h.reach hd hn h.first.1 (x := x) (y := x) fun _ _ => rfl
  have hcfg' : (pmAt c' x).config = config' := (setParameter_inv _ _ h.reach'.inv : Inv config' (pmAt c' x)).cfg
  have hvals := h.vals hd x
  have hmem : n ∈ o.order := h.order.mem_iff.2 (List.mem_of_getElem? hn)
  have hperm : o'.order.Perm o.order := h.order'.trans (h.fit ▸ h.order.symm)
  have hnd : o.order.Nodup := h.order.nodup_iff.2 (parameterFit_nodup h.reach.inv h.nodup)
  obtain ⟨g, hg, rfl⟩ := logPriorOver_finite hlp
  have hga : g n = priorLogDensity o.sig s.prior (x i) := by
    have := hg n hmem
    simp only [termOf, PyDict.getItem, bind, Except.bind, hdiff.left, hdiff.cfgl, h.first.1] at this
    exact (logPriorTerm_finite this).choose_spec.choose_spec.2.2.2.2
  have hnew := logPriorOver_of_terms (sig := o'.sig) (pm := pmAt c' x) (ord := o'.order)
    (fun k => if k = n then priorLogDensity o.sig s'.prior (x i) else g k) (by
      intro k hk
      rw [h.sig]
      by_cases e : k = n
      · subst e
        rw [if_pos rfl]
        simp only [termOf, PyDict.getItem, bind, Except.bind, ← hvals, hdiff.left, hcfg', h.second.1]
        exact logPriorTerm_inside o.sig s' (x i) lo hi hal hok' h1 h2
      · rw [if_neg e, ← hg k (hperm.mem_iff.1 hk)]
        simp only [termOf, PyDict.getItem, ← hvals, hcfg', hdiff.cfgl, h.same k e])
  rw [hnew, (hperm.map _).sum_eq, ← hga]
  congr 2
  clear hnew hga hg hlp hperm h hdiff
  revert hmem hnd
  generalize o.order = l
  intro hmem hnd
  induction l with
  | nil => cases hmem
  | cons k l ih =>
    rw [List.nodup_cons] at hnd
    simp only [List.map_cons, List.sum_cons]
    rcases List.mem_cons.1 hmem with rfl | hm
    · rw [if_pos rfl, List.map_congr_left (g := g) (fun j hj => by
        rw [if_neg]; rintro rfl; exact hnd.1 hj)]
      ring
    · rw [ih hm hnd.2, if_neg (by rintro rfl; exact hnd.1 hm)]
      ring

/-- Outside the allowed range of its parameter the density is zero. -/
theorem Reprior.zero {config config' : Config} {n : String} {s s' : Setting} {o o' : Settings} {c c' : Ctx.Ctx K}
    (h : Reprior config config' n s s' o o' c c') (hd : (parameterFit c.pm).length = d) {i : Fin d}
    (hn : (parameterFit c.pm)[i.val]? = some n) (x : Fin d → ℝ) (keys : Nat → K) (hz : priorDensity o.sig s (x i) = 0) :
    density o c (x, keys) = 0 :=
  density_outside h.nodup h.reach (differ_of h.nodup h.reach hd hn h.first.1 (x := x) (y := x) fun _ _ => rfl)
    (h.order.mem_iff.2 (List.mem_of_getElem? hn)) keys hz

end
end Verif.Walk
