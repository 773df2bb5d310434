/-
C110: adding components and data sets leaves the rest of a model as it was.
-/
import Verif.Lemmas.Composition

namespace Verif.Llh
open Verif

section
variable {K V W : Type} [AddCommMonoid V]

/-- **C110 (simulated component added).** Registering one more simulated component: where the model histogram came out as `h`
with the key `k` left over, the components that were there keep their random numbers; the new one starts from `k`, and its
histogram is added. -/
theorem C110_simulated_component_added (al : PyDict String String) (data : Grid W) (s s' : State K V) (name : String)
    (needed : List String) (hist weighted : K → Int → PyDict String V → Res (K × Grid V))
    (hreg : register al s name (.ok (.sim needed hist weighted)) = (s', .ok ()))
    (key k : K) (batch : Int) (p : PyDict String V) (h : Grid V) (hm : simulateModelHist al data s key batch p = .ok (k, h))
    (k' : K) (h' : Grid V) :
    simulateModelHist al data s' key batch p = .ok (k', h') ↔
      ∃ g, hist k batch (replaceAlias al p) = .ok (k', g) ∧ IsSum h g h' := by
  have hc : s'.components = s.components ++ [(name, .sim needed hist weighted)] := by
    unfold register at hreg
    split at hreg
    · cases hreg
    · rename_i hn
      simp only [Prod.mk.injEq] at hreg
      rw [← hreg.1]
      exact Llh.set_of_not_mem _ _ _ (fun hk => hn ((PyDict.has_iff _ _).2 hk))
  unfold simulateModelHist at hm ⊢
  rw [hc, modelLoop_append, hm]
  simp only [Except.bind, modelLoop, bind]
  constructor
  · intro hh
    cases hg : hist k batch (replaceAlias al p) with
    | error e => rw [hg] at hh; cases hh
    | ok r =>
      rw [hg] at hh
      simp only at hh
      cases ha : addGrid h r.2 with
      | error e => rw [ha] at hh; cases hh
      | ok a =>
        rw [ha] at hh
        cases hh
        exact ⟨r.2, rfl, (addGrid_iff _ _ _).1 ha⟩
  · rintro ⟨g, hg, ha⟩
    rw [hg]
    simp only
    rw [(addGrid_iff _ _ _).2 ha]

/-- **C110 (error).** Where the model histogram could not be made, it cannot be made with more components either, and the same
error is raised. -/
theorem C110_error_stays (al : PyDict String String) (data : Grid W) (s s' : State K V) (name : String) (c : LComp K V)
    (hreg : register al s name (.ok c) = (s', .ok ())) (key : K) (batch : Int) (p : PyDict String V) (e : PyErr)
    (hm : simulateModelHist al data s key batch p = .error e) : simulateModelHist al data s' key batch p = .error e := by
  have hc : s'.components = s.components ++ [(name, c)] := by
    unfold register at hreg
    split at hreg
    · cases hreg
    · rename_i hn
      simp only [Prod.mk.injEq] at hreg
      rw [← hreg.1]
      exact Llh.set_of_not_mem _ _ _ (fun hk => hn ((PyDict.has_iff _ _).2 hk))
  unfold simulateModelHist at hm ⊢
  rw [hc, modelLoop_append, hm]
  rfl

/-- **C110 (fixed component anywhere).** A component made from a table, wherever it stands among the others, only adds its
histogram: the others keep their random numbers, and the key left over is the same. -/
theorem C110_fixed_component_anywhere (al : PyDict String String) (data : Grid W) (pre post : PyDict String (LComp K V))
    (name : String) (nd needed needed' : List String) (hist weighted : PyDict String V → Res (Grid V)) (key k : K)
    (batch : Int) (p : PyDict String V) (h' : Grid V) :
    simulateModelHist al data ⟨pre ++ (name, .fixed nd hist weighted) :: post, needed⟩ key batch p = .ok (k, h') ↔
      ∃ g h, hist (replaceAlias al p) = .ok g ∧ simulateModelHist al data ⟨pre ++ post, needed'⟩ key batch p = .ok (k, h) ∧
        IsSum h g h' := by
  unfold simulateModelHist
  simp only
  rw [modelLoop_append, modelLoop_append]
  cases hp : modelLoop batch (replaceAlias al p) pre key (zeros data) with
  | error e =>
    simp only [Except.bind]
    constructor
    · intro hh; cases hh
    · rintro ⟨_, _, _, hh, _⟩; cases hh
  | ok r =>
    simp only [Except.bind, modelLoop, bind]
    cases hg : hist (replaceAlias al p) with
    | error e =>
      simp only
      constructor
      · intro hh; cases hh
      · rintro ⟨_, _, hh, _⟩; cases hh
    | ok g =>
      simp only
      have hlen : ∀ h, modelLoop batch (replaceAlias al p) post r.1 r.2 = .ok (k, h) →
          h.map List.length = r.2.map List.length := by
        intro h hh
        obtain ⟨hs, _, h2, rfl⟩ := (modelLoop_iff _ _ _ _ _ _ _).1 hh
        exact (sumFrom_spec hs r.2 h2).1
      cases ha : addGrid r.2 g with
      | error e =>
        simp only
        constructor
        · intro hh; cases hh
        · rintro ⟨g', h, hg', hh, hsum⟩
          cases hg'
          exfalso
          unfold addGrid at ha
          rw [if_pos ((hlen h hh).symm.trans hsum.1.symm)] at ha
          cases ha
      | ok a =>
        simp only
        rw [modelLoop_acc _ _ _ _ _ _ _ ha]
        constructor
        · intro hh
          cases hl : modelLoop batch (replaceAlias al p) post r.1 r.2 with
          | error e => rw [hl] at hh; cases hh
          | ok q =>
            rw [hl] at hh
            simp only [Except.bind] at hh
            cases hb : addGrid q.2 g with
            | error e => rw [hb] at hh; cases hh
            | ok b =>
              rw [hb] at hh
              cases hh
              exact ⟨g, q.2, rfl, rfl, (addGrid_iff _ _ _).1 hb⟩
        · rintro ⟨g', h, hg', hh, hsum⟩
          cases hg'
          rw [hh]
          simp only [Except.bind]
          rw [(addGrid_iff _ _ _).2 hsum]

end

/-- **C110 (order of simulated components).** Two simulated components do not commute: the one registered first gets the first
random numbers, so exchanging them changes the model histogram. -/
theorem C110_order_matters :
    ∃ (a b : LComp Nat ℚ) (h h' : Grid ℚ),
      simulateModelHist [] [[(0 : ℚ)]] ⟨[("a", a), ("b", b)], []⟩ 0 1 [] = .ok (2, h) ∧
      simulateModelHist [] [[(0 : ℚ)]] ⟨[("b", b), ("a", a)], []⟩ 0 1 [] = .ok (2, h') ∧ h ≠ h' := by
  refine ⟨.sim [] (fun k _ _ => .ok (k + 1, [[(k : ℚ)]])) (fun k _ _ => .ok (k, [])),
    .sim [] (fun k _ _ => .ok (k + 1, [[2 * (k : ℚ)]])) (fun k _ _ => .ok (k, [])), [[2]], [[1]], ?_, ?_, ?_⟩ <;> decide +kernel

section
variable {K F : Type} [Field F] [LinearOrder F]

/-- **C110 (same key).** The histogram and the weighted data of a likelihood whose components simulate from plugins or are made
from tables pass the key on in the same way: from the same key they leave the same key, so they are made from the same events. -/
theorem C110_same_key (al : PyDict String String) {W : Type} (data : Grid W) (s : State K F)
    (hs : ∀ c ∈ s.components, Shipped c.2) (key k k' : K) (batch : Int) (p : PyDict String F) (h w : Grid F)
    (hm : simulateModelHist al data s key batch p = .ok (k, h)) (hw : simulateWeighted al s key batch p = .ok (k', w)) :
    k = k' := by
  unfold simulateModelHist at hm
  unfold simulateWeighted at hw
  simp only [bind, Except.bind, pure, Except.pure] at hw
  cases hl : weightedLoop batch (replaceAlias al p) s.components key [] with
  | error e => rw [hl] at hw; cases hw
  | ok r =>
    rw [hl] at hw
    simp only at hw
    split at hw
    · cases hw
    cases hw
    exact weightedLoop_key batch _ _ hs key k r.1 _ h _ r.2 hm hl

end

/-- Non-vacuity of C110: a simulated component is registered after another one. -/
example : ∃ s s' : State Nat ℚ,
    s.components = [("a", .sim [] (fun k _ _ => .ok (k + 1, [[(k : ℚ)]])) (fun k _ _ => .ok (k, [])))] ∧
    register [] s "b" (.ok (.sim ["x"] (fun k _ _ => .ok (k + 1, [[2 * (k : ℚ)]])) (fun k _ _ => .ok (k, [])))) = (s', .ok ()) ∧
    simulateModelHist [] [[(0 : ℚ)]] s 5 1 [] = .ok (6, [[5]]) ∧
    simulateModelHist [] [[(0 : ℚ)]] s' 5 1 [] = .ok (7, [[17]]) := by
  refine ⟨⟨_, []⟩, _, rfl, rfl, ?_, ?_⟩ <;> decide +kernel

/-- Non-vacuity of C110 (fixed component anywhere): a table in front of a simulated component. -/
example : simulateModelHist (K := Nat) [] [[(0 : ℚ)]]
    ⟨[("t", .fixed [] (fun _ => .ok [[(3 : ℚ)]]) (fun _ => .ok [])), ("a", .sim [] (fun k _ _ => .ok (k + 1, [[(k : ℚ)]]))
      (fun k _ _ => .ok (k, [])))], []⟩ 5 1 [] = .ok (6, [[8]]) := by decide +kernel

/-- A simulated component with one event at 1/2 and a key that counts. -/
private def exSim : SimDesc Nat ℚ :=
  ⟨{ bins := .irreg1 [0, 1, 2], normType := "on_pdf", addEps := false, nSelected := 0 }, false, "a_rate", [], fun k _ _ => .ok (k + 1, [[1 / 2], [1]])⟩

/-- Non-vacuity of C110 (same key). -/
example : simulateModelHist [] [[(0 : ℚ), 0]] ⟨[("a", exSim.comp), ("b", exSim.comp)], []⟩ 5 1 [("a_rate", 3)] =
      .ok (7, [[6, 0]]) ∧
    simulateWeighted [] ⟨[("a", exSim.comp), ("b", exSim.comp)], []⟩ 5 1 [("a_rate", 3)] = .ok (7, [[1 / 2, 1 / 2], [3, 3]]) := by
  constructor <;> decide +kernel

end Verif.Llh

namespace Verif.Ctx
open Verif Parameter

section
variable {K : Type}

/-- **C110 (likelihood added).** A context with a finite posterior: one more likelihood, registered at the end, leaves the values
of the others as they were and starts from the keys they leave over.  The new posterior exists exactly when the new likelihood
can be evaluated there, and is the old one plus the mean over the repetitions of its log likelihood. -/
theorem C110_likelihood_added (sig : Solver) (order : List String) (keys : Nat → K) (c : Ctx K) (params : Keys)
    (batch repeats : Int) (pm : PM) (lp v : ℝ) (hset : setParameter c.pm params .none = (pm, .ok ()))
    (hlp : logPriorOver sig pm order = .ok (.fin lp))
    (hv : (logPosterior sig order keys c params batch repeats).2 = .ok (.fin v, .fin lp)) :
    ∃ ends : Nat → K, (∀ i < evaluations repeats, ∃ vs, EvalsTo batch pm.vals c.likelihoods (keys i) vs (ends i)) ∧
      ∀ c' name o, registerLikelihood c name (.ok o) = (c', .ok ()) →
        ((∃ r, (logPosterior sig order keys c' params batch repeats).2 = .ok r) ↔
          ∀ i < evaluations repeats, ∃ k' w, GivesLogL o (ends i) batch pm.vals k' w) ∧
        ∀ w : Nat → ℝ, (∀ i < evaluations repeats, ∃ k', GivesLogL o (ends i) batch pm.vals k' (.fin (w i))) →
          (logPosterior sig order keys c' params batch repeats).2 =
            .ok (.fin (v + ((List.range (evaluations repeats)).map w).sum / evaluations repeats), .fin lp) := by
  have hev := (C40_returns_iff sig order keys c params batch repeats pm lp hset hlp).1 ⟨_, hv⟩
  have hev' : ∀ i, ∃ vs k, i < evaluations repeats → EvalsTo batch pm.vals c.likelihoods (keys i) vs k := by
    intro i
    by_cases hi : i < evaluations repeats
    · obtain ⟨vs, h⟩ := hev i hi
      obtain ⟨k, h⟩ := evalsTo_of_evals h
      exact ⟨vs, k, fun _ => h⟩
    · exact ⟨[], keys 0, fun h => absurd h hi⟩
  choose vals ends he using hev'
  refine ⟨ends, fun i hi => ⟨_, he i hi⟩, ?_⟩
  intro c' name o hreg
  have hc' : c'.likelihoods = c.likelihoods ++ [(name, o)] ∧ c'.pm = c.pm := by
    unfold registerLikelihood at hreg
    split at hreg
    · cases hreg
    · rename_i hn
      simp only [Prod.mk.injEq] at hreg
      rw [← hreg.1]
      exact ⟨Llh.set_of_not_mem _ _ _ (fun hk => hn ((PyDict.has_iff _ _).2 hk)), rfl⟩
  have hset' : setParameter c'.pm params .none = (pm, .ok ()) := by rw [hc'.2]; exact hset
  constructor
  · rw [C40_returns_iff sig order keys c' params batch repeats pm lp hset' hlp]
    constructor
    · intro h i hi
      obtain ⟨vs, h⟩ := h i hi
      obtain ⟨k, h⟩ := evalsTo_of_evals h
      rw [hc'.1] at h
      obtain ⟨us, ws, k', h1, h2, rfl⟩ := evalsTo_append.1 h
      obtain ⟨_, rfl⟩ := evalsTo_unique h1 (he i hi)
      cases h2 with
      | cons g _ => exact ⟨_, _, g⟩
    · intro h i hi
      obtain ⟨k', w, g⟩ := h i hi
      refine ⟨vals i ++ [w], evals_of_evalsTo (k := k') ?_⟩
      rw [hc'.1]
      exact evalsTo_append.2 ⟨_, _, _, he i hi, .cons g (.nil _), rfl⟩
  · intro w hw
    refine posterior_add sig order keys c c' hc'.2 params batch repeats pm lp v hset hlp hv vals
      (fun i => vals i ++ [.fin (w i)]) w (fun i hi => evals_of_evalsTo (he i hi)) ?_ ?_
    · intro i hi
      obtain ⟨k', g⟩ := hw i hi
      refine evals_of_evalsTo (k := k') ?_
      rw [hc'.1]
      exact evalsTo_append.2 ⟨_, _, _, he i hi, .cons g (.nil _), rfl⟩
    · intro i _
      rw [XF.sum_append, XF.sum_cons]
      simp [XF.sum]

/-- **C110 (likelihood without simulation).** A likelihood whose components are all made from tables, wherever it stands among
the others, adds its log likelihood to the posterior and leaves the others as they were. -/
theorem C110_fixed_likelihood_anywhere (sig : Solver) (order : List String) (keys : Nat → K) (c c' : Ctx K)
    (params : Keys) (batch repeats : Int) (pm : PM) (lp v w : ℝ) (hset : setParameter c.pm params .none = (pm, .ok ()))
    (hlp : logPriorOver sig pm order = .ok (.fin lp))
    (hv : (logPosterior sig order keys c params batch repeats).2 = .ok (.fin v, .fin lp))
    (pre post : PyDict String (Obj K)) (name : String) (al : PyDict String String) (data : Llh.Grid ℝ)
    (st : Llh.State K XF) (hfix : ∀ x ∈ st.components, ∃ nd hist w, x.2 = Llh.LComp.fixed nd hist w)
    (hl : c.likelihoods = pre ++ post) (hl' : c'.likelihoods = pre ++ (name, .binned al data st) :: post)
    (hpm : c'.pm = c.pm) (key k : K) (hw : Llh.getLogLikelihood al data st key batch pm.vals = .ok (k, .fin w)) :
    (logPosterior sig order keys c' params batch repeats).2 = .ok (.fin (v + w), .fin lp) := by
  have hev := (C40_returns_iff sig order keys c params batch repeats pm lp hset hlp).1 ⟨_, hv⟩
  have hgive : ∀ key', GivesLogL (.binned al data st) key' batch pm.vals key' (.fin w) := by
    intro key'
    show Llh.getLogLikelihood al data st key' batch pm.vals = .ok (key', .fin w)
    unfold Llh.getLogLikelihood Llh.simulateModelHist at hw ⊢
    simp only [bind, Except.bind, pure, Except.pure] at hw ⊢
    cases hm : Llh.modelLoop batch (Llh.replaceAlias al (Llh.replaceAlias al pm.vals)) st.components key (Llh.zeros data) with
    | error e => rw [hm] at hw; cases hw
    | ok r =>
      rw [hm] at hw
      rw [Llh.modelLoop_fixed batch _ st.components hfix key r.1 _ r.2 hm key']
      simp only at hw ⊢
      split at hw
      · cases hw
      · cases hw
        rfl
  have hev' : ∀ i, ∃ us ws, i < evaluations repeats → ∃ k k', EvalsTo batch pm.vals pre (keys i) us k ∧
      EvalsTo batch pm.vals post k ws k' := by
    intro i
    by_cases hi : i < evaluations repeats
    · obtain ⟨vs, h⟩ := hev i hi
      obtain ⟨k, h⟩ := evalsTo_of_evals h
      rw [hl] at h
      obtain ⟨us, ws, k', h1, h2, _⟩ := evalsTo_append.1 h
      exact ⟨us, ws, fun _ => ⟨k', k, h1, h2⟩⟩
    · exact ⟨[], [], fun h => absurd h hi⟩
  choose us ws he using hev'
  have hpos : 0 < evaluations repeats := by unfold evaluations; omega
  have hne : ((evaluations repeats : ℕ) : ℝ) ≠ 0 := by positivity
  have := posterior_add sig order keys c c' hpm params batch repeats pm lp v hset hlp hv (fun i => us i ++ ws i)
    (fun i => us i ++ .fin w :: ws i) (fun _ => w)
    (fun i hi => by
      obtain ⟨k, k', a, b⟩ := he i hi
      rw [hl]
      exact evals_of_evalsTo (evalsTo_append.2 ⟨_, _, _, a, b, rfl⟩))
    (fun i hi => by
      obtain ⟨k, k', a, b⟩ := he i hi
      rw [hl']
      exact evals_of_evalsTo (evalsTo_append.2 ⟨_, _, _, a, .cons (hgive k) b, rfl⟩))
    (fun i _ => by
      rw [XF.sum_append, XF.sum_append, XF.sum_cons, XF.add_comm' (.fin w), XF.add_assoc'])
  rw [this]
  congr 3
  simp
  field_simp

end

/-- Non-vacuity of C110 (likelihood added): a third data set in the context of C40, with two repetitions. -/
example : ∃ c' v, registerLikelihood exCtx "c" (.ok exObj) = (c', .ok ()) ∧
    (logPosterior (fun _ => none) ["g"] (fun i => i) exCtx (.dict [("g", .fin 4)]) 1 2).2 = .ok (.fin v, .fin 0) ∧
    (logPosterior (fun _ => none) ["g"] (fun i => i) c' (.dict [("g", .fin 4)]) 1 2).2 =
      .ok (.fin (v + (3 * Real.log 4 - 4)), .fin 0) := by
  have hset : setParameter exCtx.pm (.dict [("g", .fin 4)]) .none =
      ({ exCtx.pm with vals := [("g", .fin 4)] }, .ok ()) := by
    simp [setParameter, checkExist, exCtx, PyDict.keys, PyDict.has, PyDict.get?, setList, PyDict.update, PyDict.set]
  have hlp : logPriorOver (fun _ => none) { exCtx.pm with vals := [("g", .fin 4)] } ["g"] = .ok (.fin 0) := by
    have h1 : ¬ ((4 : ℝ) < 0 ∨ (10 : ℝ) < 4) := by norm_num
    simp [logPriorOver, exCtx, PyDict.getItem, PyDict.get?, logPriorTerm, bind, Except.bind, pure, Except.pure, XF.sum, h1]
  have hv := C40_value (fun _ => none) ["g"] (fun i => i) exCtx (.dict [("g", .fin 4)]) 1 2 _ 0 hset hlp
    (fun _ => [3 * Real.log 4 - 4, 3 * Real.log 4 - 4])
    (fun i _ => .cons (logL_iff.1 (exObj_logL i 1 4 (by norm_num)))
      (.cons (logL_iff.1 (exObj_logL (i + 1) 1 4 (by norm_num))) (.nil _)))
  have hreg : registerLikelihood exCtx "c" (.ok exObj) = ((registerLikelihood exCtx "c" (.ok exObj)).1, .ok ()) := by
    simp [registerLikelihood, exCtx, PyDict.has, PyDict.get?]
  refine ⟨_, _, hreg, hv, ?_⟩
  obtain ⟨ends, _, h2⟩ := C110_likelihood_added _ _ _ _ _ _ _ _ _ _ hset hlp hv
  rw [(h2 _ _ _ hreg).2 (fun _ => 3 * Real.log 4 - 4)
    (fun i _ => ⟨_, logL_iff.1 (exObj_logL (ends i) 1 4 (by norm_num))⟩)]
  congr 3
  simp [evaluations, List.range_succ]

end Verif.Ctx
