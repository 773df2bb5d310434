/-
Property theorems C40 (posterior), C41 (copied parameters), C42 (sanity check) and C45 (starting positions) about `Context`
(context.py).
-/
import Verif.Lemmas.Context
import Verif.Props.Parameter
import Verif.Props.Likelihood

namespace Verif.Ctx
open Verif Parameter

/-! ### C40: the posterior -/

section
variable {K : Type}

/-- The number of evaluations that `repeat_times` asks for. -/
def evaluations (repeats : Int) : Nat := max 1 repeats.toNat

theorem repeated_of_evals {c : Ctx K} {batch repeats : Int} {keys : Nat → K} {vals : Nat → List XF}
    (h : ∀ i < evaluations repeats, Evals batch c.pm.vals c.likelihoods (keys i) (vals i)) (lp : XF) :
    repeated c batch repeats keys lp =
      .ok (XF.sum ((List.range (evaluations repeats)).map (fun i => XF.sum (vals i) + lp)) /
        .fin (evaluations repeats)) := by
  unfold repeated
  split
  · rename_i hr
    have hn : evaluations repeats = repeats.toNat := by unfold evaluations; omega
    rw [hn] at h ⊢
    rw [mapM_ok_of_forall _ (fun i => XF.sum (vals i) + lp)]
    · simp [bind, Except.bind, pure, Except.pure]
    · intro i hi
      exact once_of_evals (h i (List.mem_range.1 hi)) lp
  · rename_i hr
    have hn : evaluations repeats = 1 := by unfold evaluations; omega
    rw [hn] at h ⊢
    rw [once_of_evals (h 0 (by omega)) lp]
    simp [List.range_succ, XF.sum_cons, div_one']

/-- **C40 (stored parameters).** Whatever the outcome, only the parameter manager changes, to what `set_parameter` makes it
(C03); when that raises, nothing changes and the same error is raised. -/
theorem C40_stores_parameters (sig : Solver) (order : List String) (keys : Nat → K) (c : Ctx K) (params : Keys)
    (batch repeats : Int) :
    (logPosterior sig order keys c params batch repeats).1 = { c with pm := (setParameter c.pm params .none).1 } ∧
    (∀ e, (setParameter c.pm params .none).2 = .error e →
      logPosterior sig order keys c params batch repeats = (c, .error e)) := by
  constructor
  · unfold logPosterior
    cases hs : setParameter c.pm params .none with
    | mk pm res => cases res <;> rfl
  · intro e he
    have hcases := C03_set_parameter_atomic c.pm params .none
    cases hs : setParameter c.pm params .none with
    | mk pm res =>
      rw [hs] at he
      simp only at he
      subst he
      have hpm : pm = c.pm := by
        by_cases hreq : ∀ as, requested params .none = some as → ¬ ∀ a ∈ as, a.1 ∈ c.pm.vals.keys
        · obtain ⟨e', he'⟩ := hcases.2 hreq
          rw [hs] at he'
          exact (Prod.mk.inj he').1
        · push Not at hreq
          obtain ⟨as, h1, h2⟩ := hreq
          have := hcases.1 as h1 h2
          rw [hs] at this
          cases this
      subst hpm
      unfold logPosterior
      rw [hs]

/-- **C40 (invalid prior).** When the prior at the given parameters is not finite the posterior is minus infinity and no
likelihood is evaluated: the outcome is the same whatever the likelihoods, even if they raise. -/
theorem C40_invalid_prior (sig : Solver) (order : List String) (keys : Nat → K) (c : Ctx K) (params : Keys)
    (batch repeats : Int) (pm : PM) (lp : XF) (hset : setParameter c.pm params .none = (pm, .ok ()))
    (hlp : logPriorOver sig pm order = .ok lp) (hfin : ¬ lp.isFinite) (other : PyDict String (Obj K)) :
    (logPosterior sig order keys { c with likelihoods := other } params batch repeats).2 = .ok (.ninf, lp) := by
  unfold logPosterior
  simp only [hset]
  rw [hlp]
  simp [bind, Except.bind, pure, Except.pure, hfin]

/-- **C40 (value).** With a finite prior the posterior is the mean over the evaluations of the sum of the log likelihoods, in
registration order with the key handed from one to the next and a key of its own for each evaluation, plus the log prior. -/
theorem C40_value (sig : Solver) (order : List String) (keys : Nat → K) (c : Ctx K) (params : Keys)
    (batch repeats : Int) (pm : PM) (lp : ℝ) (hset : setParameter c.pm params .none = (pm, .ok ()))
    (hlp : logPriorOver sig pm order = .ok (.fin lp)) (vals : Nat → List ℝ)
    (hrun : ∀ i < evaluations repeats, Evals batch pm.vals c.likelihoods (keys i) ((vals i).map XF.fin)) :
    (logPosterior sig order keys c params batch repeats).2 =
      .ok (.fin (((List.range (evaluations repeats)).map (fun i => (vals i).sum)).sum / evaluations repeats + lp),
        .fin lp) := by
  unfold logPosterior
  simp only [hset, hlp]
  have hpos : 0 < evaluations repeats := by unfold evaluations; omega
  rw [show (do
      let lp' ← (Except.ok (.fin lp) : Res XF)
      if ¬ lp'.isFinite then return (XF.ninf, lp')
      else
        let v ← repeated { c with pm := pm } batch repeats keys lp'
        return (v, lp')) = (do
        let v ← repeated { c with pm := pm } batch repeats keys (.fin lp)
        return (v, XF.fin lp) : Res (XF × XF)) from by simp [bind, Except.bind]]
  rw [repeated_of_evals (c := { c with pm := pm }) (vals := fun i => (vals i).map XF.fin) hrun]
  simp only [bind, Except.bind, pure, Except.pure]
  have h1 : (fun i => XF.sum ((vals i).map XF.fin) + XF.fin lp) = fun i => XF.fin ((vals i).sum + lp) := by
    funext i
    rw [XF.sum_map_fin, XF.fin_add_fin]
  rw [h1]
  have h2 : (List.range (evaluations repeats)).map (fun i => XF.fin ((vals i).sum + lp)) =
      ((List.range (evaluations repeats)).map (fun i => (vals i).sum + lp)).map XF.fin := by simp
  have hne : ((evaluations repeats : ℕ) : ℝ) ≠ 0 := by positivity
  rw [h2, XF.sum_map_fin, XF.fin_div_fin_of_ne _ hne, List.sum_map_add]
  congr 3
  simp
  field_simp

/-- **C40 (impossible).** With a finite prior, if each log likelihood is finite or minus infinity and one of them is minus
infinity in some evaluation, so is the posterior. -/
theorem C40_minus_infinity (sig : Solver) (order : List String) (keys : Nat → K) (c : Ctx K) (params : Keys)
    (batch repeats : Int) (pm : PM) (lp : ℝ) (hset : setParameter c.pm params .none = (pm, .ok ()))
    (hlp : logPriorOver sig pm order = .ok (.fin lp)) (vals : Nat → List XF)
    (hrun : ∀ i < evaluations repeats, Evals batch pm.vals c.likelihoods (keys i) (vals i))
    (hok : ∀ i < evaluations repeats, ∀ v ∈ vals i, v.isFinite ∨ v = .ninf)
    (hinf : ∃ i < evaluations repeats, .ninf ∈ vals i) :
    (logPosterior sig order keys c params batch repeats).2 = .ok (.ninf, .fin lp) := by
  have hsum : ∀ l : List XF, (∀ v ∈ l, v.isFinite ∨ v = .ninf) → XF.ninf ∈ l → XF.sum l = .ninf := by
    intro l hl hm
    obtain ⟨a, b, rfl⟩ := List.append_of_mem hm
    have ha := XF.sum_finite_or_ninf a (fun v hv => hl v (by simp [hv]))
    have hb := XF.sum_finite_or_ninf b (fun v hv => hl v (by simp [hv]))
    rw [XF.sum_append, XF.sum_cons]
    rcases ha with ⟨ha, _⟩ | ⟨ha, _⟩ <;> rcases hb with ⟨hb, _⟩ | ⟨hb, _⟩
    · rw [ha, hb]; rfl
    · obtain ⟨y, hy⟩ := (XF.isFinite_iff _).1 hb
      rw [ha, hy]; rfl
    · obtain ⟨x, hx⟩ := (XF.isFinite_iff _).1 ha
      rw [hx, hb]; rfl
    · obtain ⟨x, hx⟩ := (XF.isFinite_iff _).1 ha
      obtain ⟨y, hy⟩ := (XF.isFinite_iff _).1 hb
      rw [hx, hy]; rfl
  have hpos : 0 < evaluations repeats := by unfold evaluations; omega
  have hval := repeated_of_evals (c := { c with pm := pm }) hrun (.fin lp)
  have h1 : XF.sum ((List.range (evaluations repeats)).map (fun i => XF.sum (vals i) + .fin lp)) = .ninf := by
    apply hsum
    · intro v hv
      obtain ⟨i, hi, rfl⟩ := List.mem_map.1 hv
      rcases XF.sum_finite_or_ninf _ (hok i (List.mem_range.1 hi)) with ⟨h, _⟩ | ⟨h, _⟩
      · rw [h]; exact .inr rfl
      · obtain ⟨x, hx⟩ := (XF.isFinite_iff _).1 h
        rw [hx]; exact .inl trivial
    · obtain ⟨i, hi, hm⟩ := hinf
      exact List.mem_map.2 ⟨i, List.mem_range.2 hi, by rw [hsum _ (hok i hi) hm]; rfl⟩
  have hne : (0 : ℝ) < ((evaluations repeats : ℕ) : ℝ) := by exact_mod_cast hpos
  rw [h1] at hval
  unfold logPosterior
  simp only [hset, hlp]
  simp only [bind, Except.bind, pure, Except.pure, XF.isFinite_fin, not_true_eq_false, if_false, hval]
  simp [XF.infSign, hne, not_lt.2 hne.le, hne.ne']

/-- **C40 (evaluable).** With a finite prior the posterior is returned exactly when every evaluation of every likelihood
returns. -/
theorem C40_returns_iff (sig : Solver) (order : List String) (keys : Nat → K) (c : Ctx K) (params : Keys)
    (batch repeats : Int) (pm : PM) (lp : ℝ) (hset : setParameter c.pm params .none = (pm, .ok ()))
    (hlp : logPriorOver sig pm order = .ok (.fin lp)) :
    (∃ v, (logPosterior sig order keys c params batch repeats).2 = .ok v) ↔
      ∀ i < evaluations repeats, ∃ vs, Evals batch pm.vals c.likelihoods (keys i) vs := by
  constructor
  · rintro ⟨v, hv⟩
    unfold logPosterior at hv
    simp only [hset, hlp, bind, Except.bind, pure, Except.pure, XF.isFinite_fin, not_true_eq_false, if_false] at hv
    cases hr : repeated { c with pm := pm } batch repeats keys (.fin lp) with
    | error e => rw [hr] at hv; cases hv
    | ok r =>
      unfold repeated at hr
      split at hr
      · rename_i h1
        have hn : evaluations repeats = repeats.toNat := by unfold evaluations; omega
        rw [hn]
        cases hm : (List.range repeats.toNat).mapM (fun i => once { c with pm := pm } batch (keys i) (.fin lp)) with
        | error e => rw [hm] at hr; cases hr
        | ok vs =>
          intro i hi
          have hf := (mapM_ok_iff _ _ _).1 hm
          obtain ⟨hlen, hget⟩ := mapM_ok_get _ _ _ hm
          have hil : i < vs.length := by rw [hlen]; simpa using hi
          obtain ⟨a, ha, hb⟩ := hget i vs[i] (by simp [hil])
          rw [List.getElem?_range hi] at ha
          cases ha
          obtain ⟨ws, hw, _⟩ := evals_of_once hb
          exact ⟨ws, hw⟩
      · rename_i h1
        have hn : evaluations repeats = 1 := by unfold evaluations; omega
        rw [hn]
        intro i hi
        have : i = 0 := by omega
        subst this
        obtain ⟨ws, hw, _⟩ := evals_of_once hr
        exact ⟨ws, hw⟩
  · intro h
    choose! vals hvals using h
    unfold logPosterior
    simp only [hset, hlp, bind, Except.bind, pure, Except.pure, XF.isFinite_fin, not_true_eq_false, if_false]
    rw [repeated_of_evals (c := { c with pm := pm }) hvals]
    exact ⟨_, rfl⟩

theorem logL_good {p : PyDict String XF} {o : Obj K} (hg : GoodObj p o) {key k' : K} {batch : Int} {v : XF}
    (h : o.logL key batch p = .ok (k', v)) : v.isFinite ∨ v = .ninf := by
  cases o with
  | binned al data st =>
    simp only [Obj.logL, Llh.getLogLikelihood] at h
    cases hm : Llh.simulateModelHist al data st key batch (Llh.replaceAlias al p) with
    | error e => rw [hm] at h; cases h
    | ok r =>
      rw [hm] at h
      obtain ⟨w, hw, hfin⟩ := Llh.C38_never_nan data r.2
      simp only [bind, Except.bind, hw, pure, Except.pure, Except.ok.injEq, Prod.mk.injEq] at h
      rw [← h.2]; exact hfin
  | lit al shape n st =>
    exact Llh.C39_finite_or_minus_infinity al hg.1 shape st key k' batch p v (hg.2 key) h

theorem evals_good {batch : Int} {p : PyDict String XF} {ls : List (String × Obj K)} {key : K} {vs : List XF}
    (h : Evals batch p ls key vs) (hg : ∀ n o, (n, o) ∈ ls → GoodObj p o) : ∀ v ∈ vs, v.isFinite ∨ v = .ninf := by
  induction h with
  | nil k => simp
  | cons h1 h2 ih =>
    intro v hv
    rcases List.mem_cons.1 hv with rfl | hv
    · exact logL_good (hg _ _ List.mem_cons_self) (logL_iff.2 h1)
    · exact ih (fun n o ho => hg n o (by simp [ho])) v hv

/-- **C40 (never NaN).** For every context whose literature likelihoods see efficiencies that are NaN or not negative, a
returned posterior is finite or minus infinity. -/
theorem C40_never_nan (sig : Solver) (order : List String) (keys : Nat → K) (c : Ctx K) (params : Keys)
    (batch repeats : Int) (hg : ∀ n o, (n, o) ∈ c.likelihoods → GoodObj (setParameter c.pm params .none).1.vals o)
    (v lp : XF) (h : (logPosterior sig order keys c params batch repeats).2 = .ok (v, lp)) :
    v.isFinite ∨ v = .ninf := by
  cases hset : setParameter c.pm params .none with
  | mk pm res =>
    rw [hset] at hg
    cases res with
    | error e =>
      unfold logPosterior at h
      rw [hset] at h
      cases h
    | ok u =>
      cases hlp : logPriorOver sig pm order with
      | error e =>
        unfold logPosterior at h
        simp only [hset, hlp] at h
        cases h
      | ok q =>
        by_cases hfin : q.isFinite
        · obtain ⟨r, rfl⟩ := (XF.isFinite_iff q).1 hfin
          have hex := (C40_returns_iff sig order keys c params batch repeats pm r hset hlp).1 ⟨_, h⟩
          choose! vals hvals using hex
          have hgood : ∀ i < evaluations repeats, ∀ v ∈ vals i, v.isFinite ∨ v = .ninf := fun i hi =>
            evals_good (hvals i hi) hg
          by_cases hinf : ∃ i < evaluations repeats, XF.ninf ∈ vals i
          · rw [C40_minus_infinity sig order keys c params batch repeats pm r hset hlp vals hvals hgood hinf] at h
            cases h
            exact .inr rfl
          · have hall : ∀ i, i < evaluations repeats → ∃ w : List ℝ, vals i = w.map XF.fin := by
              intro i hi
              have : ∀ v ∈ vals i, ∃ r, XF.fin r = v := by
                intro v hv
                rcases hgood i hi v hv with h' | rfl
                · obtain ⟨x, hx⟩ := (XF.isFinite_iff _).1 h'
                  exact ⟨x, hx.symm⟩
                · exact absurd ⟨i, hi, hv⟩ hinf
              choose! f hf using this
              refine ⟨(vals i).map f, ?_⟩
              rw [List.map_map]
              conv_lhs => rw [← List.map_id (vals i)]
              exact List.map_congr_left (fun v hv => (hf v hv).symm)
            choose! w hw using hall
            rw [C40_value sig order keys c params batch repeats pm r hset hlp w
              (fun i hi => by rw [← hw i hi]; exact hvals i hi)] at h
            cases h
            exact .inl trivial
        · have := C40_invalid_prior sig order keys c params batch repeats pm q hset hlp hfin c.likelihoods
          rw [h] at this
          cases this
          exact .inr rfl

/-- **C40 (no memory).** The posterior of a walker does not depend on which walkers were evaluated before it. -/
theorem C40_no_memory (config : Config) (hc : config.keys.Nodup) (sig : Solver) (order : List String) (keys : Nat → K)
    (c : Ctx K) (hr : Reachable config c.pm) (batch repeats : Int) (hist : List (List XF)) (last : List XF)
    (hlast : last.length = (parameterFit c.pm).length)
    (hhist : ∀ xs ∈ hist, xs.length = (parameterFit c.pm).length) :
    let at' := fun (c : Ctx K) (xs : List XF) =>
      logPosterior sig order keys c (.dict ((parameterFit c.pm).zip xs)) batch repeats
    at' (hist.foldl (fun c xs => (at' c xs).1) c) last = at' c last := by
  intro at'
  have hstep : ∀ (c : Ctx K) (xs : List XF), (at' c xs).1 = { c with pm := (evalAt c.pm xs).1 } := fun c xs =>
    (C40_stores_parameters sig order keys c _ batch repeats).1
  have hfold : ∀ (hist : List (List XF)) (c : Ctx K),
      hist.foldl (fun c xs => (at' c xs).1) c =
        { c with pm := hist.foldl (fun p xs => (evalAt p xs).1) c.pm } := by
    intro hist
    induction hist with
    | nil => intro c; rfl
    | cons xs hist ih => intro c; rw [List.foldl_cons, ih, hstep]; rfl
  rw [hfold]
  have hinv : ∀ (hist : List (List XF)) (p : PM), Inv config p →
      Inv config (hist.foldl (fun p xs => (evalAt p xs).1) p) := by
    intro hist
    induction hist with
    | nil => intro p hp; exact hp
    | cons xs hist ih => intro p hp; exact ih _ (setParameter_inv _ _ hp)
  have h1 := C05_no_leakage config hc c.pm hr hist last hlast hhist
  have hp := hinv hist c.pm hr.inv
  have e1 := evalAt_eq hp hc last
  have e2 := evalAt_eq hr.inv hc last
  have h2 : evalAt (hist.foldl (fun p xs => (evalAt p xs).1) c.pm) last = evalAt c.pm last := by
    apply Prod.ext h1
    rw [e1, e2]
  simp only [at', logPosterior]
  change (match evalAt (hist.foldl (fun p xs => (evalAt p xs).1) c.pm) last with
    | (pm, .error e) => _
    | (pm, .ok ()) => _) = _
  rw [h2]
  unfold evalAt
  cases setParameter c.pm (.dict ((parameterFit c.pm).zip last)) .none with
  | mk pm res => cases res <;> rfl

end

section
/-- A likelihood with three events in its one bin. -/
noncomputable def exObj : Obj Nat :=
  .binned [] [[3]] ⟨[("er", .sim ["g"] (fun k _ p => do let v ← p.getItem "g"; return (k + 1, [[v]]))
    (fun k _ _ => .ok (k, [])))], ["g"]⟩

/-- Two of them, with one free parameter in `[0, 10]`. -/
noncomputable def exCtx : Ctx Nat where
  parConfig := [("g", ⟨.free, some (0, 10), some (2, 1)⟩)]
  pm := ⟨[("g", ⟨.free, some (0, 10), some (2, 1)⟩)], [], ["g"], [("g", .fin 5)]⟩
  needed := ["g"]
  likelihoods := [("a", exObj), ("b", exObj)]

theorem exObj_logL (k : Nat) (batch : Int) (g : ℝ) (hg : 0 < g) :
    exObj.logL k batch [("g", .fin g)] = .ok (k + 1, .fin (3 * Real.log g - g)) := by
  have h1 : Llh.simulateModelHist [] [[(3 : ℝ)]] ⟨[("er", Llh.LComp.sim ["g"]
      (fun k _ p => do let v ← p.getItem "g"; return (k + 1, [[v]])) (fun k _ _ => .ok (k, [])))], ["g"]⟩ k batch
      (Llh.replaceAlias [] [("g", XF.fin g)]) = .ok (k + 1, [[XF.fin g]]) := by
    simp [Llh.simulateModelHist, Llh.replaceAlias, Llh.modelLoop, PyDict.getItem, PyDict.get?, bind, Except.bind, pure,
      Except.pure, Llh.addGrid, Llh.zeros]
  have h2 := Llh.C38_value [[3]] [[.fin g]] [g] rfl (by simpa using hg)
  simp only [exObj, Obj.logL, Llh.getLogLikelihood, h1]
  simp only [bind, Except.bind, h2, pure, Except.pure]
  simp [Llh.poissonValue]

/-- Non-vacuity of C40: two likelihoods, two evaluations, the second parameter out of range. -/
example : (logPosterior (fun _ => none) ["g"] (fun i => i) exCtx (.dict [("g", .fin 4)]) 1 2).2 =
    .ok (.fin ((((3 * Real.log 4 - 4) + (3 * Real.log 4 - 4)) + ((3 * Real.log 4 - 4) + (3 * Real.log 4 - 4))) / 2 + 0),
      .fin 0) := by
  have hset : setParameter exCtx.pm (.dict [("g", .fin 4)]) .none =
      ({ exCtx.pm with vals := [("g", .fin 4)] }, .ok ()) := by
    simp [setParameter, checkExist, exCtx, PyDict.keys, PyDict.has, PyDict.get?, setList, PyDict.update, PyDict.set]
  have hlp : logPriorOver (fun _ => none) { exCtx.pm with vals := [("g", .fin 4)] } ["g"] = .ok (.fin 0) := by
    have h1 : ¬ ((4 : ℝ) < 0 ∨ (10 : ℝ) < 4) := by norm_num
    simp [logPriorOver, exCtx, PyDict.getItem, PyDict.get?, logPriorTerm, bind, Except.bind, pure, Except.pure, XF.sum, h1]
  have := C40_value (fun _ => none) ["g"] (fun i => i) exCtx (.dict [("g", .fin 4)]) 1 2 _ 0 hset hlp
    (fun _ => [3 * Real.log 4 - 4, 3 * Real.log 4 - 4])
    (fun i _ => .cons (logL_iff.1 (exObj_logL i 1 4 (by norm_num)))
      (.cons (logL_iff.1 (exObj_logL (i + 1) 1 4 (by norm_num))) (.nil _)))
  rw [this]
  simp [evaluations, List.range_succ]

example : (logPosterior (fun _ => none) ["g"] (fun i => i) exCtx (.dict [("g", .fin 40)]) 1 2).2 = .ok (.ninf, .ninf) := by
  refine C40_invalid_prior (fun _ => none) ["g"] (fun i => i) exCtx (.dict [("g", .fin 40)]) 1 2
    { exCtx.pm with vals := [("g", .fin 40)] } .ninf ?_ ?_ (by simp) exCtx.likelihoods
  · simp [setParameter, checkExist, exCtx, PyDict.keys, PyDict.has, PyDict.get?, setList, PyDict.update, PyDict.set]
  · have h1 : ((40 : ℝ) < 0 ∨ (10 : ℝ) < 40) := by norm_num
    simp [logPriorOver, exCtx, PyDict.getItem, PyDict.get?, logPriorTerm, bind, Except.bind, pure, Except.pure, h1,
      XF.sum_cons]

end

/-! ### C41: copied parameters -/

section
variable {S : Type}

open Classical in
theorem update_ok {ls : List CopyInstr} {pc pc' : PyDict String S} {needed : List String}
    (h : updateParameterConfig ls pc = .ok (pc', needed)) :
    ∃ st, likelihoodLoop ls { parConfig := pc } = .ok st ∧ needed = st.needed ∧
      ∀ n, pc'.get? n = if IsSource ls n ∧ ¬ IsRate ls n then none else st.parConfig.get? n := by
  unfold updateParameterConfig at h
  cases hl : likelihoodLoop ls { parConfig := pc } with
  | error e => rw [hl] at h; cases h
  | ok st =>
    rw [hl] at h
    simp only [bind, Except.bind, pure, Except.pure, Except.ok.injEq, Prod.mk.injEq] at h
    refine ⟨st, rfl, h.2.symm, ?_⟩
    intro n
    rw [← h.1, get?_foldl_dropStep]
    obtain ⟨h1, h2, _⟩ := likelihoodLoop_ok hl
    simp only [h1, h2, List.not_mem_nil, false_or]

/-- **C41 (copies).** With no copy of a copy and one source for each copied parameter, updating succeeds exactly when all
sources are configured, and each copied parameter then has the configuration of its source. -/
theorem C41_copied (ls : List CopyInstr) (hp : PlainCopies ls) (pc : PyDict String S) :
    ((∀ v, IsSource ls v → v ∈ pc.keys) →
      ∃ pc' needed, updateParameterConfig ls pc = .ok (pc', needed) ∧
        ∀ k v, Copies ls k v → pc'.get? k = pc.get? v) ∧
    ((∃ v, IsSource ls v ∧ v ∉ pc.keys) → updateParameterConfig ls pc = .error .keyError) := by
  constructor
  · intro hs
    obtain ⟨st, h1, h2⟩ := likelihoodLoop_plain (st := { parConfig := pc }) hp (by
      intro v hv
      have := hs v hv
      rwa [PyDict.mem_keys_iff] at this)
    have hu : updateParameterConfig ls pc = .ok (st.sources.foldl (dropStep st.rates) st.parConfig, st.needed) := by
      unfold updateParameterConfig
      rw [h1]; rfl
    refine ⟨_, _, hu, ?_⟩
    intro k v hk
    obtain ⟨st', g1, _, g3⟩ := update_ok hu
    rw [h1] at g1
    cases g1
    rw [g3, if_neg (fun h => hp.separate k ⟨v, hk⟩ h.1)]
    exact h2 k v hk
  · rintro ⟨v, hv, hnot⟩
    have herr : ∀ (c : List (String × String)) (st : CopyState S) (e : PyErr), copyLoop c st = .error e → e = .keyError := by
      intro c
      induction c with
      | nil => intro st e h; cases h
      | cons kv c ih =>
        intro st e h
        unfold copyLoop at h
        split at h
        · cases h; rfl
        · exact ih _ _ h
    have herr2 : ∀ (ls : List CopyInstr) (st : CopyState S) (e : PyErr), likelihoodLoop ls st = .error e → e = .keyError := by
      intro ls
      induction ls with
      | nil => intro st e h; cases h
      | cons l ls ih =>
        intro st e h
        unfold likelihoodLoop at h
        split at h
        · cases h; rfl
        · rename_i c hc
          cases hl : copyLoop c st with
          | error e' => rw [hl] at h; cases h; exact herr _ _ _ hl
          | ok s1 => rw [hl] at h; exact ih _ _ h
    have hread : ∀ (c : List (String × String)) (st st' : CopyState S), copyLoop c st = .ok st' →
        ∀ k v, (k, v) ∈ c → v ∉ c.map Prod.fst → (st.parConfig.get? v).isSome := by
      intro c
      induction c with
      | nil => intro st st' _ k v hm; simp at hm
      | cons kv c ih =>
        obtain ⟨k0, v0⟩ := kv
        intro st st' h k v hm hv
        simp only [List.map_cons, List.mem_cons, not_or] at hv
        unfold copyLoop at h
        cases hg : st.parConfig.get? v0 with
        | none => simp [hg] at h
        | some s =>
          simp only [hg] at h
          rcases List.mem_cons.1 hm with he | hm
          · cases he
            rw [hg]; rfl
          · have := ih _ _ h k v hm hv.2
            simp only at this
            rwa [PyDict.get?_set_ne _ _ (Ne.symm hv.1)] at this
    have hread2 : ∀ (ls : List CopyInstr) (st st' : CopyState S), likelihoodLoop ls st = .ok st' →
        ∀ v, IsSource ls v → ¬ IsTarget ls v → (st.parConfig.get? v).isSome := by
      intro ls
      induction ls with
      | nil => rintro st st' _ v ⟨k, l, hl, _⟩; simp at hl
      | cons l ls ih =>
        rintro st st' h v ⟨k, hk⟩ hnt
        unfold likelihoodLoop at h
        cases hc : l.copy with
        | none => simp [hc] at h
        | some c =>
          simp only [hc] at h
          cases hl : copyLoop c st with
          | error e => rw [hl] at h; cases h
          | ok s1 =>
            rw [hl] at h
            have hvc : v ∉ c.map Prod.fst := by
              intro hm
              obtain ⟨⟨k2, v2⟩, hk2, he⟩ := List.mem_map.1 hm
              exact hnt ⟨v2, l, by simp, c, hc, by rw [← he]; exact hk2⟩
            rcases (copies_cons ..).1 hk with ⟨c', hc', hm⟩ | hk'
            · rw [hc] at hc'; cases hc'
              exact hread c st s1 hl k v hm hvc
            · have := ih _ _ h v ⟨k, hk'⟩ (fun ⟨w, hw⟩ => hnt ⟨w, (copies_cons ..).2 (.inr hw)⟩)
              simp only at this
              rwa [(copyLoop_ok hl).2.2.2.1 v hvc] at this
    unfold updateParameterConfig
    cases hl : likelihoodLoop ls { parConfig := pc } with
    | error e => rw [herr2 _ _ _ hl]; rfl
    | ok st =>
      exfalso
      apply hnot
      rw [PyDict.mem_keys_iff]
      exact hread2 ls _ st hl v hv (fun ht => hp.separate v ht hv)

/-- **C41 (the rest).** For every copy table: names that are neither copied nor made keep their configuration, and so do
copied names that are the rate of a component and are not themselves made; the parameters reported as needed are the ones
made by copying. -/
theorem C41_others_unchanged (ls : List CopyInstr) (pc pc' : PyDict String S) (needed : List String)
    (h : updateParameterConfig ls pc = .ok (pc', needed)) :
    (∀ n, ¬ IsTarget ls n → (IsSource ls n → IsRate ls n) → pc'.get? n = pc.get? n) ∧
    (∀ n, n ∈ needed ↔ IsTarget ls n) ∧
    (∀ n, IsTarget ls n → (IsSource ls n → IsRate ls n) → n ∈ pc'.keys) ∧
    (∀ n ∈ pc'.keys, n ∈ pc.keys ∨ IsTarget ls n) := by
  obtain ⟨st, h1, h2, h3⟩ := update_ok h
  obtain ⟨g1, g2, g3, g4, g5, g6⟩ := likelihoodLoop_ok h1
  refine ⟨?_, ?_, ?_, ?_⟩
  · intro n hn hs
    rw [h3, if_neg (fun hh => hh.2 (hs hh.1)), g4 n hn]
  · intro n
    rw [h2, g3]; simp
  · intro n hn hs
    rw [PyDict.mem_keys_iff, h3, if_neg (fun hh => hh.2 (hs hh.1))]
    exact g6 n hn
  · intro n hn
    by_cases ht : IsTarget ls n
    · exact .inr ht
    · left
      rw [PyDict.mem_keys_iff, h3] at hn
      split at hn
      · cases hn
      · rw [g4 n ht] at hn
        rw [PyDict.mem_keys_iff]; exact hn

/-- **C41 fails.** Every copied name that is not the rate of a component is dropped, whether or not some likelihood needs it
and even if it was itself made by copying. -/
theorem C41_sources_dropped (ls : List CopyInstr) (pc pc' : PyDict String S) (needed : List String)
    (h : updateParameterConfig ls pc = .ok (pc', needed)) (n : String) (hs : IsSource ls n) (hr : ¬ IsRate ls n) :
    n ∉ pc'.keys := by
  obtain ⟨st, h1, h2, h3⟩ := update_ok h
  rw [PyDict.mem_keys_iff, h3, if_pos ⟨hs, hr⟩]
  simp

/-- **C41 (missing entry).** A likelihood without a `copy_parameters` entry makes the construction raise a KeyError. -/
theorem C41_missing_entry_raises (ls : List CopyInstr) (pc : PyDict String S) (h : ∃ l ∈ ls, l.copy = none) :
    updateParameterConfig ls pc = .error .keyError := by
  unfold updateParameterConfig
  rw [likelihoodLoop_missing h]
  rfl

/-- Non-vacuity of C41 (missing entry): the second of two likelihoods lacks it. -/
example (s : S) : updateParameterConfig [⟨some [("b", "a")], ["er"]⟩, ⟨none, ["er"]⟩] [("a", s)] = .error .keyError :=
  C41_missing_entry_raises _ _ ⟨⟨none, ["er"]⟩, by simp, rfl⟩

/-- Two likelihoods, the second copying what the first made: the needed parameter `b` is gone. -/
theorem C41_copy_of_copy_is_lost (s : S) :
    updateParameterConfig [⟨some [("b", "a")], ["er"]⟩, ⟨some [("c", "b")], ["er"]⟩] [("a", s)] =
      .ok ([("c", s)], ["b", "c"]) := by
  simp [updateParameterConfig, likelihoodLoop, copyLoop, PyDict.get?, PyDict.set, bind, Except.bind, pure, Except.pure,
    dropStep, PyDict.has, PyDict.del]

/-- Non-vacuity of C41: a rate shared by two components under different names. -/
example (s t : S) :
    updateParameterConfig [⟨some [("ac_rate", "er_rate")], ["er", "ac"]⟩, ⟨some [], []⟩] [("er_rate", s), ("w", t)] =
      .ok ([("er_rate", s), ("w", t), ("ac_rate", s)], ["ac_rate"]) := by
  simp [updateParameterConfig, likelihoodLoop, copyLoop, PyDict.get?, PyDict.set, bind, Except.bind, pure, Except.pure,
    dropStep, PyDict.has]

example : PlainCopies [⟨some [("ac_rate", "er_rate")], ["er", "ac"]⟩, ⟨some [], []⟩] := by
  refine ⟨by simp, ?_, ?_⟩
  · rintro n ⟨v, hv⟩ ⟨k, hk⟩
    simp [Copies] at hv hk
    rw [hv.1] at hk
    exact absurd hk.2 (by decide)
  · intro k v v' h h'
    simp [Copies] at h h'
    rw [h.2, h'.2]

end

/-! ### C42: the sanity check -/

section
variable {K : Type}

/-- **C42 (what is checked, part of the property).** For a context built from any instruction, in every later state of its
parameter manager, the check passes exactly when every configured parameter is made by copying or needed by a component;
otherwise it raises RuntimeError.  The property asks for the other inclusion, which is not checked (below). -/
theorem C42_check_partial (sig : Solver) (draw : String → ℝ) (pc : Config) (ls : PyDict String (LInstr K)) (c : Ctx K)
    (h : mk sig draw pc ls = .ok c) (hf : ∀ n l o, (n, l) ∈ ls → l.make = .ok o → Fresh o) (pm : PM)
    (hr : Reachable c.parConfig pm) :
    ((∀ n ∈ c.parConfig.keys, IsTarget (copyInstr ls) n ∨ NeededByComponent ls n) →
      sanityCheck { c with pm := pm } = .ok ()) ∧
    ((∃ n ∈ c.parConfig.keys, ¬ IsTarget (copyInstr ls) n ∧ ¬ NeededByComponent ls n) →
      sanityCheck { c with pm := pm } = .error .runtimeError) := by
  obtain ⟨pc', needed, pm0, h1, h2, h3⟩ := mk_ok h
  obtain ⟨g1, g2, g3, g4⟩ := registerAll_ok hf h3
  have hneed : ∀ x, x ∈ c.needed ↔ IsTarget (copyInstr ls) x ∨ NeededByComponent ls x := by
    intro x
    rw [g4]
    simp only
    rw [(C41_others_unchanged _ _ _ _ h1).2.1]
  have hkeys : pm.vals.keys = c.parConfig.keys := hr.inv.keys
  constructor
  · intro hall
    unfold sanityCheck
    rw [if_pos]
    intro p hp
    simp only at hp ⊢
    rw [hkeys] at hp
    exact (hneed p).2 (hall p hp)
  · rintro ⟨n, hn, h4, h5⟩
    unfold sanityCheck
    rw [if_neg]
    intro hall
    simp only at hall
    rcases (hneed n).1 (hall n (by rw [hkeys]; exact hn)) with h' | h'
    · exact h4 h'
    · exact h5 h'

/-- **C42 (what is needed).** In a built context the likelihoods keep the order of the instruction, the parameters are those of
the updated configuration, and the needed parameters are exactly the ones made by copying and the ones components need. -/
theorem C42_needed_parameters (sig : Solver) (draw : String → ℝ) (pc : Config) (ls : PyDict String (LInstr K)) (c : Ctx K)
    (h : mk sig draw pc ls = .ok c) (hf : ∀ n l o, (n, l) ∈ ls → l.make = .ok o → Fresh o) :
    c.likelihoods.keys = ls.keys ∧ Reachable c.parConfig c.pm ∧
      (∀ x, x ∈ c.needed ↔ IsTarget (copyInstr ls) x ∨ NeededByComponent ls x) := by
  obtain ⟨pc', needed, pm0, h1, h2, h3⟩ := mk_ok h
  obtain ⟨g1, g2, g3, g4⟩ := registerAll_ok hf h3
  refine ⟨by rw [g3]; simp [PyDict.keys], ?_, ?_⟩
  · refine ⟨sig, draw, [], ?_⟩
    rw [g1, g2]
    simp only [run, List.foldl_nil]
    rw [h2]
  · intro x
    rw [g4]
    simp only
    rw [(C41_others_unchanged _ _ _ _ h1).2.1]

/-- **C42 (everything is built).** A context exists only if every configured likelihood and every one of its components could
be built: a part that raises makes the construction raise. -/
theorem C42_all_parts_built (sig : Solver) (draw : String → ℝ) (pc : Config) (ls : PyDict String (LInstr K)) (c : Ctx K)
    (h : mk sig draw pc ls = .ok c) (n : String) (l : LInstr K) (hl : (n, l) ∈ ls) :
    (∃ o, l.make = .ok o) ∧ ∀ m b, (m, b) ∈ l.comps → ∃ cb, b = .ok cb := by
  obtain ⟨_, _, _, _, _, h3⟩ := mk_ok h
  exact registerAll_built h3 n l hl

/-- **C42 (registering).** Registering a likelihood under a name in use raises, and a likelihood that cannot be built raises its
own exception, in both cases without changing the context; otherwise the object is added and nothing else changes. -/
theorem C42_register_likelihood (c : Ctx K) (name : String) (make : Res (Obj K)) :
    (name ∈ c.likelihoods.keys → registerLikelihood c name make = (c, .error .valueError)) ∧
    (∀ e, name ∉ c.likelihoods.keys → make = .error e → registerLikelihood c name make = (c, .error e)) ∧
    ∀ o, name ∉ c.likelihoods.keys → make = .ok o → ∃ c', registerLikelihood c name make = (c', .ok ()) ∧
      c'.likelihoods.get? name = some o ∧ (∀ k, k ≠ name → c'.likelihoods.get? k = c.likelihoods.get? k) ∧
      c'.likelihoods.keys = c.likelihoods.keys ++ [name] ∧ c'.pm = c.pm ∧ c'.parConfig = c.parConfig ∧ c'.needed = c.needed := by
  have hhas : c.likelihoods.has name = true ↔ name ∈ c.likelihoods.keys := PyDict.has_iff ..
  refine ⟨fun hn => ?_, fun e hn he => ?_, fun o hn ho => ?_⟩
  · simp [registerLikelihood, hhas.2 hn]
  · have : c.likelihoods.has name = false := by simpa [hn] using hhas
    simp [registerLikelihood, this, he]
  · have : c.likelihoods.has name = false := by simpa [hn] using hhas
    refine ⟨{ c with likelihoods := c.likelihoods.set name o }, by simp [registerLikelihood, this, ho], PyDict.get?_set_self .., fun k hk => PyDict.get?_set_ne _ _ (Ne.symm hk),
      ?_, rfl, rfl, rfl⟩
    rw [PyDict.keys_set, if_neg hn]

/-- Non-vacuity of C42 (registering): a second likelihood under the first one's name.  `C42_missing_parameter_passes` below has a
context that `mk` returns. -/
example (pm : PM) (o : Obj K) : (registerLikelihood ⟨[], pm, [], [("rn", o)]⟩ "rn" (.ok o)).2 = .error .valueError := by
  rw [(C42_register_likelihood _ _ _).1 (by simp [PyDict.keys])]

/-- A component needing `x` and its rate; its histogram has one bin with `x` in it. -/
def needsX : CompBuild Unit where
  comp := .sim ["x", "er_rate"] (fun k _ p => do let v ← p.getItem "x"; return (k, [[v]]))
    (fun k _ p => do let v ← p.getItem "x"; return (k, [[v]]))
  simulate := fun k _ p => do let v ← p.getItem "x"; return (k, [[v]])

/-- The second likelihood copies `x`, which the component of the first needs. -/
noncomputable def badInstr : PyDict String (LInstr Unit) :=
  [("rn", { make := .ok (.binned [] [[1]] {}), copy := some [], comps := [("er", .ok needsX)] }),
   ("ar", { make := .ok (.binned [("y", "x")] [[1]] {}), copy := some [("y", "x")], comps := [("er", .ok needsX)] })]

/-- Parameters `x` and the rate, both fixed. -/
noncomputable def badConfig : Config := [("x", ⟨.fixed 1, none, none⟩), ("er_rate", ⟨.fixed 2, none, none⟩)]

/-- **C42 fails.** A context can be built whose sanity check passes although a component needs a parameter that is not
provided; evaluating the posterior then raises KeyError.  Here the parameter was configured, and dropped because another
likelihood copies it (C41). -/
theorem C42_missing_parameter_passes :
    ∃ c : Ctx Unit, mk (fun _ => none) (fun _ => 0) badConfig badInstr = .ok c ∧
      "x" ∈ c.needed ∧ "x" ∉ c.pm.vals.keys ∧ "x" ∈ badConfig.keys ∧ sanityCheck c = .ok () ∧
      (logPosterior (fun _ => none) [] (fun _ => ()) c (.dict []) 1 1).2 = .error .keyError := by
  refine ⟨⟨[("er_rate", ⟨.fixed 2, none, none⟩), ("y", ⟨.fixed 1, none, none⟩)],
    ⟨[("er_rate", ⟨.fixed 2, none, none⟩), ("y", ⟨.fixed 1, none, none⟩)], ["er_rate", "y"], [],
      [("er_rate", .fin 2), ("y", .fin 1)]⟩, ["y", "x", "er_rate"],
    [("rn", .binned [] [[1]] ⟨[("er", needsX.comp)], ["x", "er_rate"]⟩),
     ("ar", .binned [("y", "x")] [[1]] ⟨[("er", needsX.comp)], ["er_rate", "y"]⟩)]⟩, ?_, by simp, by simp [PyDict.keys],
    by simp [PyDict.keys, badConfig], ?_, ?_⟩
  · simp [mk, updateParameterConfig, likelihoodLoop, copyLoop, PyDict.get?, PyDict.set, bind, Except.bind, pure, Except.pure,
      dropStep, PyDict.has, PyDict.del, badConfig, badInstr, PyDict.keys, Parameter.mk, samplePrior, sampleLoop, mkRaw,
      samplePriorOne, Prior.isFixed, registerAll, registerLikelihood, registerComps, registerComponent, Obj.register,
      Llh.register, needsX, Except.map, Llh.LComp.needed, setUnion, Obj.needed, Llh.aliasNeeded]
  · simp [sanityCheck, PyDict.keys]
  · simp [logPosterior, setParameter, checkExist, PyDict.keys, setList, PyDict.update, logPriorOver, bind, Except.bind, pure,
      Except.pure, repeated, once, onceLoop, Obj.logL, Llh.getLogLikelihood, Llh.simulateModelHist, Llh.replaceAlias,
      Llh.modelLoop, needsX, PyDict.getItem, PyDict.get?, XF.sum]

end

/-! ### C45: starting positions -/

section
variable {K : Type}

theorem reachable_sampleInit {config : Config} {pm : PM} (h : Reachable config pm) (draw : String → ℝ) :
    Reachable config (sampleInit draw pm).1 := by
  obtain ⟨sig, d, ops, rfl⟩ := h
  exact ⟨sig, d, ops ++ [.sampleInit draw], by simp [run, step]⟩

/-- Each walker's row is the fit vector right after its `sample_init`. -/
theorem startLoop_ok {config : Config} {draws : Nat → String → ℝ} {n : Nat} {pm pm' : PM} {rows : List Got}
    (hr : Reachable config pm) (h : startLoop draws n pm = (pm', .ok rows)) :
    rows.length = n ∧ Reachable config pm' ∧
      ∀ row ∈ rows, ∃ draw p, Reachable config p ∧ (sampleInit draw p).2 = .ok () ∧
        parameterFitArray (sampleInit draw p).1 = .ok row := by
  induction n generalizing draws pm rows with
  | zero =>
    simp only [startLoop, Prod.mk.injEq, Except.ok.injEq] at h
    obtain ⟨rfl, rfl⟩ := h
    exact ⟨rfl, hr, by simp⟩
  | succ n ih =>
    unfold startLoop at h
    cases hs : sampleInit (draws 0) pm with
    | mk p1 res =>
      rw [hs] at h
      cases res with
      | error e => cases h
      | ok u =>
        simp only at h
        have hr1 : Reachable config p1 := by
          have := reachable_sampleInit hr (draws 0)
          rw [hs] at this; exact this
        cases ha : parameterFitArray p1 with
        | error e => rw [ha] at h; cases h
        | ok row =>
          rw [ha] at h
          simp only at h
          cases hl : startLoop (fun i => draws (i + 1)) n p1 with
          | mk p2 res2 =>
            rw [hl] at h
            cases res2 with
            | error e => cases h
            | ok rs =>
              simp only [Prod.mk.injEq, Except.ok.injEq] at h
              obtain ⟨rfl, rfl⟩ := h
              obtain ⟨i1, i2, i3⟩ := ih hr1 hl
              refine ⟨by simp [i1], i2, ?_⟩
              intro r hr'
              rcases List.mem_cons.1 hr' with rfl | hr'
              · exact ⟨draws 0, pm, hr, by rw [hs], by rw [hs]; exact ha⟩
              · exact i3 r hr'

/-- **C45.** When the fitted parameters have evaluable priors and ordered ranges, the starting positions of a fit are one row per
walker; each row has one finite number per fitted parameter, in `parameter_fit` order and within its range, and the prior
there is finite. -/
theorem C45_start_positions (config : Config) (hc : config.keys.Nodup) (sig : Solver)
    (hwf : ∀ n s, config.get? n = some s → (∀ v, s.prior ≠ .fixed v) → EvalOK sig s ∧ ∀ lo hi, s.allowed = some (lo, hi) → lo ≤ hi)
    (c c' : Ctx K) (hr : Reachable config c.pm) (draws : Nat → String → ℝ) (nwalkers : Nat) (rows : List Got)
    (h : startPositions draws nwalkers c = (c', .ok rows)) :
    rows.length = nwalkers ∧
    ∀ row ∈ rows, ∃ xs : List ℝ, row = .many (xs.map XF.fin) ∧
      List.Forall₂ (fun n x => ∃ s lo hi, config.get? n = some s ∧ s.allowed = some (lo, hi) ∧ lo ≤ x ∧ x ≤ hi)
        (parameterFit c.pm) xs ∧
      ∀ order : List String, order.Perm (parameterFit c.pm) →
        ∃ L : ℝ, logPriorOver sig (evalAt c.pm (xs.map XF.fin)).1 order = .ok (.fin L) := by
  unfold startPositions at h
  cases hsc : sanityCheck c with
  | error e => rw [hsc] at h; cases h
  | ok u =>
    rw [hsc] at h
    simp only at h
    obtain ⟨hc1, hres⟩ := Prod.mk.inj h
    obtain ⟨hlen, _, hrows⟩ := startLoop_ok (pm' := (startLoop draws nwalkers c.pm).1) hr (Prod.ext rfl hres)
    refine ⟨hlen, ?_⟩
    intro row hrow
    obtain ⟨draw, p, hp, hok, harr⟩ := hrows row hrow
    have hfit : ∀ q : PM, Inv config q → parameterFit q = parameterFit c.pm := by
      intro q hq
      unfold parameterFit
      rw [hq.fitEq, hr.inv.fitEq]
    have hp' := (reachable_sampleInit hp draw)
    have hfitted : ∀ n ∈ parameterFit c.pm, ∃ s, config.get? n = some s ∧ ∀ v, s.prior ≠ .fixed v := by
      intro n hn
      have := (mem_parameterFit hr.inv hc n).1 hn
      rwa [← isFitted_iff] at this
    have hval : ∀ n ∈ parameterFit c.pm, ∃ r s lo hi, config.get? n = some s ∧ s.allowed = some (lo, hi) ∧ lo ≤ r ∧ r ≤ hi ∧
        (sampleInit draw p).1.vals.get? n = some (.fin r) := by
      intro n hn
      obtain ⟨s, hs, hnf⟩ := hfitted n hn
      obtain ⟨lo, hi, ha, hin⟩ := (C02_sample_init_in_range config hc p hp draw hok n s hs).2 hnf
      obtain ⟨x, hx, r, rfl, h1, h2⟩ := hin ((hwf n s hs hnf).2 lo hi ha)
      exact ⟨r, s, lo, hi, hs, ha, h1, h2, hx⟩
    choose! r hr1 using hval
    have hrowv : row = .many ((parameterFit c.pm).map (fun n => XF.fin (r n))) := by
      unfold parameterFitArray getParameter at harr
      rw [hfit _ hp'.inv] at harr
      have hall : (parameterFit c.pm).all (sampleInit draw p).1.vals.has = true := by
        rw [List.all_eq_true]
        intro n hn
        obtain ⟨s, lo, hi, _, _, _, _, hx⟩ := hr1 n hn
        simp [PyDict.has, hx]
      simp only [checkExist, hall, getItem] at harr
      rw [mapM_ok_of_forall _ (fun n => XF.fin (r n))] at harr
      · cases harr; rfl
      · intro n hn
        obtain ⟨s, lo, hi, _, _, _, _, hx⟩ := hr1 n hn
        simp only [PyDict.getItem, hx]
    refine ⟨(parameterFit c.pm).map r, ?_, ?_, ?_⟩
    · rw [hrowv]; simp
    · rw [List.forall₂_map_right_iff, List.forall₂_same]
      intro n hn
      obtain ⟨s, lo, hi, h1, h2, h3, h4, _⟩ := hr1 n hn
      exact ⟨s, lo, hi, h1, h2, h3, h4⟩
    · intro order hperm
      have hxs : (((parameterFit c.pm).map r).map XF.fin).length = (parameterFit c.pm).length := by simp
      have he := evalAt_eq hr.inv hc (((parameterFit c.pm).map r).map XF.fin)
      have hinv : Reachable config (evalAt c.pm (((parameterFit c.pm).map r).map XF.fin)).1 := by
        obtain ⟨sg, d, ops, hpm⟩ := hr
        exact ⟨sg, d, ops ++ [.setParameter (.dict ((parameterFit c.pm).zip (((parameterFit c.pm).map r).map XF.fin))) .none],
          by rw [hpm]; simp [run, step, evalAt]⟩
      have hfe := hfit _ hinv.inv
      refine ⟨_, (C04_log_prior config hc _ hinv sig order (by rw [hfe]; exact hperm)
        (fun n s hs hnf => (hwf n s hs hnf).1)).2 r ?_⟩
      intro n hn
      have hn' := hperm.mem_iff.1 hn
      obtain ⟨s, lo, hi, h1, h2, h3, h4, _⟩ := hr1 n hn'
      refine ⟨s, lo, hi, h1, h2, ?_, h3, h4⟩
      rw [he]
      simp only
      apply PyDict.get?_update_nodup
      · rw [zip_fst_nodup hr.inv hc _ hxs]; exact parameterFit_nodup hr.inv hc
      · rw [List.map_map]
        obtain ⟨i, hi, rfl⟩ := List.getElem_of_mem hn'
        rw [List.mem_iff_getElem]
        exact ⟨i, by simp [hi], by simp⟩

/-- **C45 (no failure).** If the sanity check passes and every fitted parameter has a range and an initial width that is not
negative, starting positions are produced for any number of walkers and any draws. -/
theorem C45_completes (config : Config) (hc : config.keys.Nodup)
    (hwf : ∀ n s, config.get? n = some s → (∀ v, s.prior ≠ .fixed v) →
      (∃ r, s.allowed = some r) ∧ ∃ m std, s.init = some (m, std) ∧ 0 ≤ std)
    (c : Ctx K) (hr : Reachable config c.pm) (hs : sanityCheck c = .ok ()) (draws : Nat → String → ℝ) (nwalkers : Nat) :
    ∃ rows, (startPositions draws nwalkers c).2 = .ok rows := by
  unfold startPositions
  rw [hs]
  simp only
  generalize c.pm = pm at hr
  clear hs
  induction nwalkers generalizing draws pm with
  | zero => exact ⟨[], rfl⟩
  | succ n ih =>
    unfold startLoop
    have hok := C02_sample_init_completes config pm hr hwf (draws 0)
    have hr1 := reachable_sampleInit hr (draws 0)
    cases hsi : sampleInit (draws 0) pm with
    | mk p1 res =>
      rw [hsi] at hok hr1
      simp only at hok hr1
      subst hok
      simp only
      have hall : ∀ k ∈ parameterFit p1, k ∈ p1.vals.keys := by
        intro k hk
        obtain ⟨s, hs, _⟩ := (mem_parameterFit hr1.inv hc k).1 hk
        rw [hr1.inv.keys, PyDict.mem_keys_iff, hs]; rfl
      have harr : ∃ row, parameterFitArray p1 = .ok row := by
        unfold parameterFitArray getParameter
        have : (parameterFit p1).all p1.vals.has = true := by
          rw [List.all_eq_true]
          intro k hk
          rw [PyDict.has_iff]; exact hall k hk
        simp only [checkExist, this, getItem]
        obtain ⟨xs, hxs⟩ : ∃ xs, (parameterFit p1).mapM p1.vals.getItem = .ok xs := by
          obtain ⟨xs, hxs, _⟩ := mapM_getItem_ok p1.vals (parameterFit p1) hall
          exact ⟨xs, hxs⟩
        rw [hxs]; exact ⟨_, rfl⟩
      obtain ⟨row, hrow⟩ := harr
      rw [hrow]
      simp only
      obtain ⟨rows, hrows⟩ := ih (fun i => draws (i + 1)) p1 hr1
      cases hl : startLoop (fun i => draws (i + 1)) n p1 with
      | mk p2 res2 =>
        rw [hl] at hrows
        simp only at hrows
        subst hrows
        exact ⟨_, rfl⟩

/-- Non-vacuity of C45: two walkers, one draw inside the range and one above it. -/
example : (startPositions (fun i _ => if i = 0 then 3 else 30) 2 exCtx).2 =
    .ok [.many [.fin 3], .many [.fin 10]] := by
  have h1 : ¬ ((1 : ℝ) < 0) := by norm_num
  have h2 : clip 3 0 10 = 3 := by unfold clip; norm_num
  have h3 : clip 30 0 10 = 10 := by unfold clip; norm_num
  simp [startPositions, sanityCheck, exCtx, PyDict.keys, startLoop, sampleInit, sampleLoop, PyDict.get?, sampleInitOne,
    drawInit, drawNormal, clipRange, bind, Except.bind, h1, h2, h3, PyDict.set, parameterFitArray, getParameter,
    parameterFit, checkExist, PyDict.has, getItem, PyDict.getItem, pure, Except.pure]

end

/-! ### C65: expected events -/

section
variable {K : Type}

/-- **C65.** When each binned likelihood gives its number of events, the context gives their sum, whatever literature
likelihoods lie between them and in whatever order they are. -/
theorem C65_events_are_summed (batch : Int) (p : PyDict String XF) (keyOf : String → K) (c : Ctx K) (n : String → XF)
    (h : ∀ k al data st, (k, Obj.binned al data st) ∈ c.likelihoods →
      Llh.getNumEvents al data st (keyOf k) batch p = .ok (n k)) :
    numEvents batch p keyOf c = .ok (XF.sum (((c.likelihoods.filter (fun l => l.2.isBinned)).map (fun l => n l.1)))) := by
  have key : ∀ (ls : List (String × Obj K)) (acc : XF),
      (∀ k al data st, (k, Obj.binned al data st) ∈ ls → Llh.getNumEvents al data st (keyOf k) batch p = .ok (n k)) →
      numEventsLoop batch p keyOf ls acc = .ok (acc + XF.sum ((ls.filter (fun l => l.2.isBinned)).map (fun l => n l.1))) := by
    intro ls
    induction ls with
    | nil => intro acc _; simp [numEventsLoop, XF.add_comm' acc, XF.fin_zero_add]
    | cons a ls ih =>
      intro acc hl
      obtain ⟨k, o⟩ := a
      have ih' := fun acc => ih acc (fun k al data st hm => hl k al data st (List.mem_cons_of_mem _ hm))
      cases o with
      | binned al data st =>
        rw [numEventsLoop, hl k al data st List.mem_cons_self]
        simp only [bind, Except.bind]
        rw [ih', List.filter_cons_of_pos (by rfl), List.map_cons, XF.sum_cons, XF.add_assoc']
      | lit al shape nd st =>
        rw [numEventsLoop, ih', List.filter_cons_of_neg (by simp [Obj.isBinned])]
  unfold numEvents
  rw [key c.likelihoods (.fin 0) h, XF.fin_zero_add]

/-- **C65 (errors).** If a binned likelihood raises, the context raises. -/
theorem C65_error (batch : Int) (p : PyDict String XF) (keyOf : String → K) (c : Ctx K) (k : String)
    (al : PyDict String String) (data : Llh.Grid ℝ) (st : Llh.State K XF) (hm : (k, Obj.binned al data st) ∈ c.likelihoods)
    (e : PyErr) (h : Llh.getNumEvents al data st (keyOf k) batch p = .error e) : ∃ e', numEvents batch p keyOf c = .error e' := by
  have key : ∀ (ls : List (String × Obj K)) (acc : XF), (k, Obj.binned al data st) ∈ ls →
      ∃ e', numEventsLoop batch p keyOf ls acc = .error e' := by
    intro ls
    induction ls with
    | nil => intro acc h; cases h
    | cons a ls ih =>
      intro acc hm
      obtain ⟨k', o⟩ := a
      rcases List.mem_cons.1 hm with h' | h'
      · cases h'
        rw [numEventsLoop, h]
        exact ⟨e, rfl⟩
      · cases o with
        | binned al' data' st' =>
          rw [numEventsLoop]
          cases hg : Llh.getNumEvents al' data' st' (keyOf k') batch p with
          | error e => exact ⟨e, rfl⟩
          | ok v => exact ih _ h'
        | lit al' shape nd st' =>
          rw [numEventsLoop]
          exact ih _ h'
  exact key _ _ hm

/-- Non-vacuity: two binned likelihoods of four expected events each with a literature likelihood between them. -/
example : numEvents 1 [("g", .fin 4)] (fun _ => 0) { exCtx with
      likelihoods := [("a", exObj), ("l", .lit [] (.band [] [] [] []) [] ⟨[], none⟩), ("b", exObj)] } = .ok (.fin 8) := by
  have h1 : Llh.simulateModelHist [] [[(3 : ℝ)]] ⟨[("er", Llh.LComp.sim ["g"]
      (fun k _ p => do let v ← p.getItem "g"; return (k + 1, [[v]])) (fun k _ _ => .ok (k, [])))], ["g"]⟩ 0 1
      (Llh.replaceAlias [] [("g", XF.fin 4)]) = .ok (0 + 1, [[XF.fin 4]]) := by
    simp [Llh.simulateModelHist, Llh.replaceAlias, Llh.modelLoop, PyDict.getItem, PyDict.get?, bind, Except.bind, pure,
      Except.pure, Llh.addGrid, Llh.zeros]
  rw [C65_events_are_summed 1 _ _ _ (fun _ => .fin 4)]
  · simp [Obj.isBinned, exObj, XF.sum_cons]
    norm_num
  · intro k al data st hm
    have : Obj.binned al data st = exObj := by
      simp at hm
      rcases hm with h | h <;> exact h.2
    simp only [exObj, Obj.binned.injEq] at this
    obtain ⟨rfl, rfl, rfl⟩ := this
    simp only [Llh.getNumEvents, h1]
    simp [bind, Except.bind, pure, Except.pure, XF.sum_cons]

end

/-! ### C66: the restored context -/

section
variable {K : Type}

/-- **C66 (part of the property).** A context made without a manual configuration, or with the one of the file its instruction
names, is restored the same, given the same files and draws. -/
theorem C66_restored_partial (sig : Solver) (draw : String → ℝ) (files : String → Option Config) (named : Option String)
    (arg : Option Config) (ls : PyDict String (LInstr K))
    (h : arg = none ∨ ∃ f pc, named = some f ∧ files f = some pc ∧ arg = some pc) :
    init sig draw files named none ls = init sig draw files named arg ls := by
  rcases h with rfl | ⟨f, pc, rfl, hf, rfl⟩
  · rfl
  · unfold init chooseParConfig
    simp only [hf]

/-- **C66 fails.** A configuration given by hand is not stored: the restored context takes the one of the file, or raises if the
instruction names none. -/
theorem C66_manual_configuration_is_lost (sig : Solver) (draw : String → ℝ) (files : String → Option Config)
    (manual : Config) (ls : PyDict String (LInstr K)) :
    init sig draw files none (some manual) ls = mk sig draw manual ls ∧
    init sig draw files none none ls = .error .keyError ∧
    ∀ f pc, files f = some pc → init sig draw files (some f) (some manual) ls = mk sig draw manual ls ∧
      init sig draw files (some f) none ls = mk sig draw pc ls := by
  refine ⟨rfl, rfl, ?_⟩
  intro f pc hf
  refine ⟨rfl, ?_⟩
  unfold init chooseParConfig
  simp only [hf]
  rfl

/-- **C66 (missing file).** When the named parameter file is gone the restoration raises, whatever the stored context was. -/
theorem C66_missing_file_raises (sig : Solver) (draw : String → ℝ) (files : String → Option Config) (f : String)
    (hf : files f = none) (ls : PyDict String (LInstr K)) : init sig draw files (some f) none ls = .error .runtimeError := by
  unfold init chooseParConfig
  simp only [hf]
  rfl

/-- Non-vacuity of C66 (missing file). -/
example : (fun n : String => if n = "er.json" then some ([] : Config) else none) "nr.json" = none := by decide

/-- Two configurations that differ: the restored context has another parameter. -/
example : ∃ c c' : Ctx Nat,
    init (fun _ => none) (fun _ => 0) (fun _ => some [("g", ⟨.fixed 1, none, none⟩)]) (some "f")
      (some [("h", ⟨.fixed 2, none, none⟩)]) [] = .ok c ∧
    init (fun _ => none) (fun _ => 0) (fun _ => some [("g", ⟨.fixed 1, none, none⟩)]) (some "f") none [] = .ok c' ∧
    c.parConfig.keys = ["h"] ∧ c'.parConfig.keys = ["g"] := by
  refine ⟨_, _, rfl, rfl, rfl, rfl⟩

end
end Verif.Ctx
