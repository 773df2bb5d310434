/-
C145: the order in which components and likelihoods are listed does not change the law of the log posterior.
-/
import Verif.Lemmas.Order
import Verif.Props.Peak

namespace Verif.Order
open Verif MeasureTheory
open scoped ENNReal

section
variable {K : Type} [MeasurableSpace K]

/-- The law of the log likelihood does not depend on the order of the components, nor does the law of the key left over. -/
theorem C145_likelihood (ρ : Measure K) [IsProbabilityMeasure ρ] (batch : Int) (p : PyDict String XF) (o o' : Ctx.Obj K)
    (ho : RandomObj ρ batch p o) (h : Reordered o o') :
    ∃ s s' : K → K × XF, (∀ key, o.logL key batch p = .ok (s key)) ∧ (∀ key, o'.logL key batch p = .ok (s' key)) ∧
      Measurable s ∧ Measurable s' ∧ ρ.map s = ρ.map s' := by
  obtain ⟨s, s', h1, h2, h3, h4, h5⟩ := obj_steps ho h
  refine ⟨s, s', h3, h4, h1.1, h2.1, ?_⟩
  have e := h1.2.trans ((congrArg (·.prod ρ) h5).trans h2.2.symm)
  have e' := congrArg (Measure.map Prod.swap) e
  rw [Measure.map_map measurable_swap (h1.1.snd.prodMk h1.1.fst), Measure.map_map measurable_swap (h2.1.snd.prodMk h2.1.fst)] at e'
  exact e'

/-- The law of the log posterior does not depend on the order of the likelihoods and of their components: the same error for
all keys, or the same log prior and a value with the same law. -/
theorem C145_posterior (ρ : Measure K) [IsProbabilityMeasure ρ] (c c' : Ctx.Ctx K) (h : SameUpToOrder c c')
    (sig : Parameter.Solver) (order : List String) (params : Parameter.Keys) (batch repeats : Int)
    (hr : ∀ m o, (m, o) ∈ c.likelihoods → RandomObj ρ batch (Parameter.setParameter c.pm params .none).1.vals o) :
    (∃ e, ∀ keys, (Ctx.logPosterior sig order keys c params batch repeats).2 = .error e ∧
      (Ctx.logPosterior sig order keys c' params batch repeats).2 = .error e) ∨
    ∃ (lp : XF) (v v' : (Nat → K) → XF), Measurable v ∧ Measurable v' ∧
      (∀ keys, (Ctx.logPosterior sig order keys c params batch repeats).2 = .ok (v keys, lp)) ∧
      (∀ keys, (Ctx.logPosterior sig order keys c' params batch repeats).2 = .ok (v' keys, lp)) ∧
      (Measure.infinitePi fun _ : Nat => ρ).map v = (Measure.infinitePi fun _ : Nat => ρ).map v' := by
  obtain ⟨hpm, mid, hperm, hmid⟩ := h
  cases hset : Parameter.setParameter c.pm params .none with
  | mk pm r =>
    rw [hset] at hr
    cases r with
    | error e => exact .inl ⟨e, fun keys => by simp [Ctx.logPosterior, hpm, hset]⟩
    | ok u =>
      cases hlp : Parameter.logPriorOver sig pm order with
      | error e => exact .inl ⟨e, fun keys => by simp [Ctx.logPosterior, hpm, hset, hlp, bind, Except.bind]⟩
      | ok lp =>
        refine .inr ⟨lp, ?_⟩
        by_cases hf : lp.isFinite
        · obtain ⟨ss, ms, ss', f1, f2, q1, q2, q3, q4⟩ := context_steps hperm hmid hr
          have hv : ∀ (c2 : Ctx.Ctx K) (l : List (K → K × XF)), c2.pm = c.pm →
              List.Forall₂ (fun a s => ∀ key, a.2.logL key batch pm.vals = .ok (s key)) c2.likelihoods l →
              ∀ keys, (Ctx.logPosterior sig order keys c2 params batch repeats).2
                = .ok (average repeats (fun i => (run (· + ·) l (keys i) (.fin 0)).2 + lp), lp) := by
            intro c2 l e2 hl keys
            simp only [Ctx.logPosterior, e2, hset, hlp, bind, Except.bind]
            rw [if_neg (not_not.2 hf)]
            rw [repeated_average (c := { c2 with pm := pm }) hl]
            rfl
          have hm : ∀ l : List (K → K × XF), (∀ s ∈ l, Fresh ρ s) → Measurable fun k => (run (· + ·) l k (.fin 0)).2 + lp := fun l hl =>
            measurable_add.comp ((measurable_run_acc measurable_add hl _).snd.prodMk measurable_const)
          have hpi : ∀ l : List (K → K × XF), (∀ s ∈ l, Fresh ρ s) →
              Measurable fun (keys : Nat → K) (i : Nat) => (run (· + ·) l (keys i) (.fin 0)).2 + lp := fun l hl =>
            measurable_pi_iff.2 fun i => (hm l hl).comp (measurable_pi_apply i)
          refine ⟨_, _, (measurable_average repeats).comp (hpi ss f1), (measurable_average repeats).comp (hpi ss' f2),
            hv c ss rfl q1, hv c' ss' hpm q2, ?_⟩
          have a1 := Measure.map_map (μ := Measure.infinitePi fun _ : Nat => ρ) (measurable_average repeats) (hpi ss f1)
          have a2 := Measure.map_map (μ := Measure.infinitePi fun _ : Nat => ρ) (measurable_average repeats) (hpi ss' f2)
          rw [← a1, ← a2, Measure.infinitePi_map_pi (f := fun _ k => (run (· + ·) ss k (.fin 0)).2 + lp) _ (fun _ => hm ss f1),
            Measure.infinitePi_map_pi (f := fun _ k => (run (· + ·) ss' k (.fin 0)).2 + lp) _ (fun _ => hm ss' f2)]
          have e := run_law (ρ := ρ) measurable_add add_right q3 q4 f1 f2 (.fin 0)
          have hp : Measurable fun x : XF => x + lp := measurable_add.comp (measurable_id.prodMk measurable_const)
          have b1 := Measure.map_map (μ := ρ) hp (measurable_run_acc measurable_add f1 (.fin 0)).snd
          have b2 := Measure.map_map (μ := ρ) hp (measurable_run_acc measurable_add f2 (.fin 0)).snd
          have e2 : (ρ.map fun k => (run (· + ·) ss k (.fin 0)).2 + lp) = ρ.map fun k => (run (· + ·) ss' k (.fin 0)).2 + lp := by
            rw [e] at b1
            exact b1.symm.trans b2
          rw [e2]
        · refine ⟨fun _ => .ninf, fun _ => .ninf, measurable_const, measurable_const, fun keys => ?_, fun keys => ?_, rfl⟩ <;>
            simp [Ctx.logPosterior, hpm, hset, hlp, bind, Except.bind, hf, pure, Except.pure]

end

/-! ### A case with two likelihoods -/

/-- Keys that are sequences of independent throws of a coin. -/
abbrev Throws := Nat → Bool

/-- The coin. -/
noncomputable def coin : Measure Bool := (2⁻¹ : ℝ≥0∞) • Measure.dirac true + (2⁻¹ : ℝ≥0∞) • Measure.dirac false

instance : IsProbabilityMeasure coin := ⟨by simp [coin, ENNReal.inv_two_add_inv_two]⟩

/-- The law of the keys. -/
noncomputable def throws : Measure Throws := Measure.infinitePi fun _ : Nat => coin

instance : IsProbabilityMeasure throws := by unfold throws; infer_instance

/-- One throw: one event is expected, or two. -/
noncomputable def throwComp : Llh.LComp Throws XF :=
  .sim [] (fun key _ _ => .ok ((fun n => key (n + 1)), [[.fin (if key 0 then 1 else 2)]])) (fun key _ _ => .ok (key, []))

/-- Always the same. -/
noncomputable def steadyComp : Llh.LComp Throws XF := .fixed [] (fun _ => .ok [[.fin 0]]) (fun _ => .ok [])

/-- A likelihood of one bin with `n` events and the given components. -/
noncomputable def throwObj (n : ℝ) (cs : PyDict String (Llh.LComp Throws XF)) : Ctx.Obj Throws := .binned [] [[n]] ⟨cs, []⟩

noncomputable def throwCtx (ls : PyDict String (Ctx.Obj Throws)) : Ctx.Ctx Throws := ⟨[], Llh.peakPM 3, [], ls⟩

/-- Two likelihoods. -/
noncomputable def throwsA : Ctx.Ctx Throws :=
  throwCtx [("a", throwObj 1 [("x", throwComp), ("y", steadyComp)]), ("b", throwObj 2 [("x", throwComp)])]

/-- The same, with the order of the likelihoods and of the components of the first one exchanged. -/
noncomputable def throwsB : Ctx.Ctx Throws :=
  throwCtx [("b", throwObj 2 [("x", throwComp)]), ("a", throwObj 1 [("y", steadyComp), ("x", throwComp)])]

theorem throws_same : SameUpToOrder throwsA throwsB := by
  refine ⟨rfl, [("b", throwObj 2 [("x", throwComp)]), ("a", throwObj 1 [("x", throwComp), ("y", steadyComp)])], .swap _ _ _, ?_⟩
  exact .cons ⟨rfl, rfl, rfl, .refl _⟩ (.cons ⟨rfl, rfl, rfl, .swap _ _ _⟩ .nil)

theorem throws_random (batch : Int) (p : PyDict String XF) : ∀ m o, (m, o) ∈ throwsA.likelihoods → RandomObj throws batch p o := by
  have hx : ∀ (n : ℝ) q, RandomComp throws [[n]] batch q throwComp := fun n q => by
    refine ⟨fun k => ((fun n => k (n + 1)), fun _ => .fin (if k 0 then 1 else 2)), ?_, fun key => by simp [gridOf]⟩
    exact fresh_stream coin (f := fun b => fun _ : Nat × Nat => XF.fin (if b then 1 else 2)) (measurable_of_finite _)
  have hy : ∀ (n : ℝ) q, RandomComp throws [[n]] batch q steadyComp := fun n q => ⟨fun _ => .fin 0, by simp [gridOf]⟩
  intro m o h
  simp only [throwsA, throwCtx, List.mem_cons, Prod.mk.injEq, List.not_mem_nil, or_false] at h
  rcases h with ⟨-, rfl⟩ | ⟨-, rfl⟩ <;> intro m c hc <;>
    simp only [List.mem_cons, Prod.mk.injEq, List.not_mem_nil, or_false] at hc
  · rcases hc with ⟨-, rfl⟩ | ⟨-, rfl⟩
    · exact hx _ _
    · exact hy _ _
  · rcases hc with ⟨-, rfl⟩
    exact hx _ _

theorem throws_logL (n : ℝ) (key : Throws) (batch : Int) (p : PyDict String XF) (cs : PyDict String (Llh.LComp Throws XF))
    (hcs : cs = [("x", throwComp)] ∨ cs = [("x", throwComp), ("y", steadyComp)] ∨ cs = [("y", steadyComp), ("x", throwComp)]) :
    (throwObj n cs).logL key batch p = .ok ((fun i => key (i + 1)),
      .fin (n * Real.log (if key 0 then 1 else 2) - (if key 0 then 1 else 2))) := by
  have h0 : (0 : XF) = .fin 0 := rfl
  have hm : Llh.simulateModelHist (V := XF) [] [[n]] ⟨cs, []⟩ key batch (Llh.replaceAlias [] p)
      = .ok ((fun i => key (i + 1)), [[.fin (if key 0 then 1 else 2)]]) := by
    rcases hcs with rfl | rfl | rfl <;>
      simp [Llh.simulateModelHist, Llh.modelLoop, throwComp, steadyComp, Llh.zeros, bind, Except.bind, Llh.addGrid, h0]
  have hl := Llh.C38_value [[n]] [[.fin (if key 0 then 1 else 2)]] [if key 0 then 1 else 2] (by simp) (by
    intro m hm; simp only [List.mem_singleton] at hm; subst hm; split <;> norm_num)
  simp only [throwObj, Ctx.Obj.logL, Llh.getLogLikelihood, hm, bind, Except.bind, hl]
  simp [Llh.poissonValue, pure, Except.pure]

/-- For given keys the order does matter: other random numbers are used, and the values differ. -/
theorem C145_given_keys : ∃ keys : Nat → Throws,
    (Ctx.logPosterior (fun _ => none) ["er_rate"] keys throwsA (.dict [("er_rate", .fin 3)]) 10 1).2
      = .ok (.fin (2 * Real.log 2 - 3), .fin 0) ∧
    (Ctx.logPosterior (fun _ => none) ["er_rate"] keys throwsB (.dict [("er_rate", .fin 3)]) 10 1).2
      = .ok (.fin (Real.log 2 - 3), .fin 0) := by
  refine ⟨fun _ n => n == 0, ?_, ?_⟩
  · simp only [throwsA, throwCtx, Ctx.logPosterior, Llh.peakSet, Llh.peakPrior 3 (by norm_num) (by norm_num), bind, Except.bind,
      XF.isFinite_fin, not_true_eq_false, if_false, Ctx.repeated, Ctx.once, Ctx.onceLoop]
    rw [throws_logL 1 _ _ _ _ (.inr (.inl rfl))]
    simp only [throws_logL 2 _ _ _ _ (.inl rfl)]
    norm_num [pure, Except.pure]
    ring
  · simp only [throwsB, throwCtx, Ctx.logPosterior, Llh.peakSet, Llh.peakPrior 3 (by norm_num) (by norm_num), bind, Except.bind,
      XF.isFinite_fin, not_true_eq_false, if_false, Ctx.repeated, Ctx.once, Ctx.onceLoop]
    rw [throws_logL 2 _ _ _ _ (.inl rfl)]
    simp only [throws_logL 1 _ _ _ _ (.inr (.inr rfl))]
    norm_num [pure, Except.pure]
    ring

/-- The two contexts of the case: the order is exchanged, the values for the same keys differ, and their laws agree for any
number of repeats. -/
example (repeats : Int) : ∃ (lp : XF) (v v' : (Nat → Throws) → XF),
    (∀ keys, (Ctx.logPosterior (fun _ => none) ["er_rate"] keys throwsA (.dict [("er_rate", .fin 3)]) 10 repeats).2 = .ok (v keys, lp)) ∧
    (∀ keys, (Ctx.logPosterior (fun _ => none) ["er_rate"] keys throwsB (.dict [("er_rate", .fin 3)]) 10 repeats).2 = .ok (v' keys, lp)) ∧
    (Measure.infinitePi fun _ : Nat => throws).map v = (Measure.infinitePi fun _ : Nat => throws).map v' := by
  rcases C145_posterior throws throwsA throwsB throws_same (fun _ => none) ["er_rate"] (.dict [("er_rate", .fin 3)]) 10 repeats
    (throws_random 10 _) with ⟨e, h⟩ | ⟨lp, v, v', -, -, h1, h2, h3⟩
  · exfalso
    have h1 := (h fun _ _ => true).1
    simp only [throwsA, throwCtx, Ctx.logPosterior, Llh.peakSet, Llh.peakPrior 3 (by norm_num) (by norm_num), bind, Except.bind,
      XF.isFinite_fin, not_true_eq_false, if_false] at h1
    split at h1
    · rename_i he
      rw [repeated_average (l := [fun k => ((fun i => k (i + 1)), .fin (1 * Real.log (if k 0 then 1 else 2) - (if k 0 then 1 else 2))),
        fun k => ((fun i => k (i + 1)), .fin (2 * Real.log (if k 0 then 1 else 2) - (if k 0 then 1 else 2)))])
        (.cons (fun key => throws_logL 1 _ _ _ _ (.inr (.inl rfl))) (.cons (fun key => throws_logL 2 _ _ _ _ (.inl rfl)) .nil))] at he
      cases he
    · exact absurd h1 (by simp [pure, Except.pure])
  · exact ⟨lp, v, v', h1, h2, h3⟩

end Verif.Order
