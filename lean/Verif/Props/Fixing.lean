/-
Property theorems for fixing a parameter (C153).
-/
import Verif.Lemmas.Fixing
import Verif.Props.Unread

namespace Verif.Walk
open Verif Parameter MeasureTheory
open scoped ENNReal

section
variable {K : Type} {d : Nat}

/-- **C153 (names).** The parameters that are fitted when `n` is fixed are the others, in the same order. -/
theorem C153_names {config config' : Config} {n : String} {s : Setting} {v : ℝ} {o o' : Settings} {c c' : Ctx.Ctx K}
    (h : Fixing config config' n s v o o' c c') (i : Nat) (hn : (parameterFit c.pm)[i]? = some n) :
    parameterFit c'.pm = (parameterFit c.pm).eraseIdx i := fit_index h.fixes h.nodup h.reach.inv h.reach'.inv hn

theorem orders {config config' : Config} {n : String} {s : Setting} {v : ℝ} {o o' : Settings} {c c' : Ctx.Ctx K}
    (h : Fixing config config' n s v o o' c c') : o.order.Perm (n :: o'.order) ∧ n ∉ o'.order := by
  have hm : n ∈ parameterFit c.pm := (mem_fit_iff h.reach.inv h.nodup n).2 ⟨s, h.fixes.fitted⟩
  have he := fit_erase h.fixes h.nodup h.reach.inv h.reach'.inv
  refine ⟨h.order.trans ((List.perm_cons_erase hm).trans (.cons _ (he ▸ h.order'.symm))), fun hm' => ?_⟩
  have := h.order'.mem_iff.1 hm'
  rw [he, (parameterFit_nodup h.reach.inv h.nodup).mem_erase_iff] at this
  exact this.1 rfl

theorem holds_at {config config' : Config} {n : String} {s : Setting} {v : ℝ} {o o' : Settings} {c c' : Ctx.Ctx K}
    (h : Fixing config config' n s v o o' c c') (hd : (parameterFit c.pm).length = d + 1) {i : Fin (d + 1)}
    (hn : (parameterFit c.pm)[i.val]? = some n) (y : Fin d → ℝ) :
    (pmAt c (i.insertNth v y : Fin (d + 1) → ℝ)).vals.get? n = some (.fin v) := by
  have := (differ_of h.nodup h.reach hd hn h.fixes.fitted.1 (x := (i.insertNth v y : Fin (d + 1) → ℝ)) (y := i.insertNth v y)
    fun _ _ => rfl).left
  simpa using this

/-- **C153 (posterior).** Let the context with `n` fixed at `v`, inside the allowed range, return a log posterior and a finite log
prior at the other parameters `y`.  Then the context where `n` is fitted returns both at the position with `v` for `n` and `y`
for the others, each with the log prior density of `n` at `v` added. -/
theorem C153_posterior {config config' : Config} {n : String} {s : Setting} {v : ℝ} {o o' : Settings} {c c' : Ctx.Ctx K}
    (h : Fixing config config' n s v o o' c c') (hok : EvalOK o.sig s) (lo hi : ℝ) (hal : s.allowed = some (lo, hi)) (h1 : lo ≤ v)
    (h2 : v ≤ hi) (hd : (parameterFit c.pm).length = d + 1) (i : Fin (d + 1)) (hn : (parameterFit c.pm)[i.val]? = some n)
    (y : Fin d → ℝ) (keys : Nat → K) (w : XF) (lp : ℝ) (hp : posterior o' c' y keys = .ok (w, .fin lp)) :
    posterior o c (i.insertNth v y : Fin (d + 1) → ℝ) keys
      = .ok (w + .fin (priorLogDensity o.sig s.prior v), .fin (lp + priorLogDensity o.sig s.prior v)) := by
  have hc' : config'.keys.Nodup := h.fixes.keys ▸ h.nodup
  have hvals := vals_eq h.fixes h.nodup h.reach h.reach' h.holds h.rest hd hn y
  have hi1 : Inv config (pmAt c (i.insertNth v y : Fin (d + 1) → ℝ)) := setParameter_inv _ _ h.reach.inv
  have hi2 : Inv config' (pmAt c' y) := setParameter_inv _ _ h.reach'.inv
  rw [posterior_of hc' h.reach'] at hp
  rw [posterior_of h.nodup h.reach]
  cases hlp : logPriorOver o'.sig (pmAt c' y) o'.order with
  | error e => simp [hlp, bind, Except.bind] at hp
  | ok z =>
    have hz : z = .fin lp := by
      rw [hlp] at hp
      cases z with
      | fin a =>
        simp only [bind, Except.bind, XF.isFinite_fin, not_true_eq_false, if_false] at hp
        split at hp
        · cases hp
        · simp only [pure, Except.pure, Except.ok.injEq, Prod.mk.injEq] at hp; exact hp.2
      | _ => simp [bind, Except.bind, pure, Except.pure] at hp
    subst hz
    have := (prior_split h.fixes hi1.cfg hi2.cfg hvals (holds_at h hd hn y) hok (orders h).1 (orders h).2).1 lp (by rw [← h.sig]; exact hlp)
      lo hi hal h1 h2
    rw [this]
    rw [hlp] at hp
    simp only [bind, Except.bind, XF.isFinite_fin, not_true_eq_false, if_false, pure, Except.pure] at hp ⊢
    rw [Ctx.repeated_shift, repeated_congr h.likelihoods hvals]
    rw [h.batch, h.repeats] at hp
    cases hrep : Ctx.repeated { c' with pm := pmAt c' y } o.batch o.repeats keys (.fin lp) with
    | error e => simp [hrep] at hp
    | ok u =>
      simp only [hrep, Except.ok.injEq, Prod.mk.injEq] at hp
      simp [Except.map, hp.1]

/-- **C153 (density).** The posterior density of the fit with `n` free, at the value `v` of `n`, is the prior density of `n` at `v`
times the posterior density of the fit with `n` fixed at `v`, at all values of the other parameters; for a value outside the allowed
range both are zero. -/
theorem C153_density {config config' : Config} {n : String} {s : Setting} {v : ℝ} {o o' : Settings} {c c' : Ctx.Ctx K}
    (h : Fixing config config' n s v o o' c c') (hok : EvalOK o.sig s) (hd : (parameterFit c.pm).length = d + 1) (i : Fin (d + 1))
    (hn : (parameterFit c.pm)[i.val]? = some n) (y : Fin d → ℝ) (keys : Nat → K) :
    density o c ((i.insertNth v y : Fin (d + 1) → ℝ), keys) = priorDensity o.sig s v * density o' c' (y, keys) := by
  have hc' : config'.keys.Nodup := h.fixes.keys ▸ h.nodup
  have hvals := vals_eq h.fixes h.nodup h.reach h.reach' h.holds h.rest hd hn y
  have hi1 : Inv config (pmAt c (i.insertNth v y : Fin (d + 1) → ℝ)) := setParameter_inv _ _ h.reach.inv
  have hi2 : Inv config' (pmAt c' y) := setParameter_inv _ _ h.reach'.inv
  have hsplit := prior_split h.fixes hi1.cfg hi2.cfg hvals (holds_at h hd hn y) hok (orders h).1 (orders h).2
  obtain ⟨⟨lo, hi⟩, hal⟩ := hok.1
  by_cases hin : lo ≤ v ∧ v ≤ hi
  · by_cases hfin : ∃ lp : ℝ, logPriorOver o.sig (pmAt c' y) o'.order = .ok (.fin lp)
    · obtain ⟨lp, hlp⟩ := hfin
      rw [density_of h.nodup h.reach (hsplit.1 lp hlp lo hi hal hin.1 hin.2),
        density_of hc' h.reach' (by rw [h.sig]; exact hlp), Ctx.repeated_shift, densityRes_shift,
        repeated_congr h.likelihoods hvals, h.batch, h.repeats, mul_comm]
      simp only [priorDensity, hal, hin, and_self, if_true]
    · rw [density_zero hc' h.reach' (by rw [h.sig]; exact fun lp hlp => hfin ⟨lp, hlp⟩), mul_zero]
      exact density_zero h.nodup h.reach fun lp hlp => hfin ⟨_, (hsplit.2 lp hlp).1⟩
  · have hz : priorDensity o.sig s v = 0 := by simp only [priorDensity, hal, hin, if_false]
    rw [hz, zero_mul]
    refine density_zero h.nodup h.reach fun lp hlp => ?_
    obtain ⟨lo', hi', hal', h1, h2⟩ := (hsplit.2 lp hlp).2
    rw [hal] at hal'
    cases hal'
    exact hin ⟨h1, h2⟩

/-- **C153 (conditional).** The posterior of the other parameters under the condition that `n` has the value `v` is the posterior of
the fit with `n` fixed at `v`: the expectations of any quantity `F` under both, each normalised, agree. -/
theorem C153_conditional [MeasurableSpace K] {config config' : Config} {n : String} {s : Setting} {v : ℝ} {o o' : Settings} {c c' : Ctx.Ctx K}
    (h : Fixing config config' n s v o o' c c') (hok : EvalOK o.sig s) (hd : (parameterFit c.pm).length = d + 1) (i : Fin (d + 1))
    (hn : (parameterFit c.pm)[i.val]? = some n) (μ : Measure (Nat → K)) (F : (Fin d → ℝ) → ℝ≥0∞) :
    (∫⁻ y, F y * ∫⁻ keys, density o c ((i.insertNth v y : Fin (d + 1) → ℝ), keys) ∂μ) * ∫⁻ y : Fin d → ℝ, ∫⁻ keys, density o' c' (y, keys) ∂μ
      = (∫⁻ y, F y * ∫⁻ keys, density o' c' (y, keys) ∂μ) * ∫⁻ y, ∫⁻ keys, density o c ((i.insertNth v y : Fin (d + 1) → ℝ), keys) ∂μ := by
  have hfin : priorDensity o.sig s v ≠ ⊤ := by
    unfold priorDensity
    split
    · split <;> simp
    · simp
  simp only [C153_density h hok hd i hn, lintegral_const_mul' _ _ hfin, mul_left_comm (F _)]
  ring

/-- **C153 (evidence).** The evidence of the fit with `n` free is the evidence of the fits with `n` fixed at each value, averaged
over the prior of `n`. -/
theorem C153_evidence {config : Config} {n : String} {s : Setting} {o : Settings} {c : Ctx.Ctx K} (config' : ℝ → Config)
    (o' : ℝ → Settings) (c' : ℝ → Ctx.Ctx K) (h : ∀ v, Fixing config (config' v) n s v o (o' v) c (c' v)) (hok : EvalOK o.sig s)
    (hd : (parameterFit c.pm).length = d + 1) (i : Fin (d + 1)) (hn : (parameterFit c.pm)[i.val]? = some n) (keys : Nat → K)
    (hm : Measurable fun x : Fin (d + 1) → ℝ => density o c (x, keys)) :
    ∫⁻ x : Fin (d + 1) → ℝ, density o c (x, keys)
      = ∫⁻ v, priorDensity o.sig s v * ∫⁻ y : Fin d → ℝ, density (o' v) (c' v) (y, keys) := by
  have hfin : ∀ v, priorDensity o.sig s v ≠ ⊤ := by
    intro v
    unfold priorDensity
    split
    · split <;> simp
    · simp
  have hp := (volume_preserving_piFinSuccAbove (fun _ : Fin (d + 1) => ℝ) i).symm
  rw [← hp.lintegral_comp hm]
  rw [Measure.volume_eq_prod, lintegral_prod (fun a : ℝ × (Fin d → ℝ) => density o c ((MeasurableEquiv.piFinSuccAbove (fun _ => ℝ) i).symm a, keys))
    ((hm.comp hp.measurable).aemeasurable)]
  refine lintegral_congr fun v => ?_
  rw [← lintegral_const_mul' _ _ (hfin v)]
  refine lintegral_congr fun y => ?_
  exact C153_density (h v) hok hd i hn y keys

end

/-! ### A concrete case: the two parameters of the example of C144, the one that the likelihood reads fixed -/

/-- The configuration of the example with `g` fixed. -/
noncomputable def fixedConfig (v : ℝ) : Config := [("g", ⟨.fixed v, none, none⟩), ("h", ⟨.norm 0 1, some (-3, 3), some (0, 1)⟩)]

noncomputable def fixedCtx (v : ℝ) : Ctx.Ctx Bool where
  parConfig := fixedConfig v
  pm := ⟨fixedConfig v, ["g"], ["h"], [("g", .fin v), ("h", .fin 1)]⟩
  needed := ["g"]
  likelihoods := [("a", exObj)]

noncomputable def fixedSettings : Settings := ⟨fun _ => none, ["h"], 1, 2, 2⟩

theorem fixedReachable (v : ℝ) : Reachable (fixedConfig v) (fixedCtx v).pm := by
  refine ⟨fun _ => none, fun _ => 1, [], ?_⟩
  have h' : clip 1 (-3) 3 = 1 := by norm_num [clip]
  have h1 : ¬ ((1 : ℝ) < 0) := by norm_num
  simp [run, mk, mkRaw, samplePrior, sampleLoop, samplePriorOne, clipRange, fixedCtx, fixedConfig, Prior.isFixed,
    PyDict.keys, PyDict.get?, PyDict.set, drawNormal, bind, Except.bind, h1, h']

theorem exFixing (v : ℝ) : Fixing twoConfig (fixedConfig v) "g" ⟨.free, some (1, 10), some (2, 1)⟩ v twoSettings fixedSettings
    twoCtx (fixedCtx v) where
  fixes := by
    refine ⟨rfl, ⟨rfl, by simp⟩, ⟨_, rfl, rfl⟩, ?_⟩
    intro k hk
    simp [twoConfig, fixedConfig, PyDict.get?, Ne.symm hk]
  nodup := by simp [twoConfig, PyDict.keys]
  reach := twoReachable
  reach' := fixedReachable v
  holds := rfl
  rest := by
    intro k hk
    have h1 : k ≠ "g" := by rintro rfl; exact hk ⟨_, rfl, by simp⟩
    have h2 : k ≠ "h" := by rintro rfl; exact hk ⟨_, rfl, by simp⟩
    simp [twoCtx, fixedCtx, PyDict.get?, Ne.symm h1, Ne.symm h2]
  likelihoods := rfl
  sig := rfl
  batch := rfl
  repeats := rfl
  order := by rw [twoFit]; exact List.Perm.swap _ _ _
  order' := by simp [fixedSettings, fixedCtx, parameterFit]

/-- Non-vacuity of C153: the parameter that the likelihood reads, with a flat prior, fixed at 4 in the second fit; the second
parameter keeps its normal prior.  The evidence is the average over all values of the first parameter. -/
example (y : Fin 1 → ℝ) (keys : Nat → Bool) :
    parameterFit (fixedCtx 4).pm = ["h"] ∧
    density fixedSettings (fixedCtx 4) (y, keys) = density twoSettings twoCtx (((0 : Fin 2).insertNth 4 y : Fin 2 → ℝ), keys) ∧
    (-3 ≤ y 0 → y 0 ≤ 3 → density fixedSettings (fixedCtx 4) (y, keys) = ENNReal.ofReal (Real.exp (exMean 2 4 keys + -(y 0 * y 0) / 2))) ∧
    ∫⁻ x : Fin 2 → ℝ, density twoSettings twoCtx (x, keys)
      = ∫⁻ v, (if 1 ≤ v ∧ v ≤ 10 then 1 else 0) * ∫⁻ y : Fin 1 → ℝ, density fixedSettings (fixedCtx v) (y, keys) := by
  have hok : EvalOK twoSettings.sig ⟨.free, some (1, 10), some (2, 1)⟩ :=
    ⟨⟨_, rfl⟩, (by intro m std h; cases h), (by intro mu sp sn h; cases h)⟩
  have hd : (parameterFit twoCtx.pm).length = 1 + 1 := by rw [twoFit]; rfl
  have hn : (parameterFit twoCtx.pm)[(0 : Fin (1 + 1)).val]? = some "g" := by rw [twoFit]; rfl
  have hP : ∀ v, priorDensity twoSettings.sig ⟨.free, some (1, 10), some (2, 1)⟩ v = if 1 ≤ v ∧ v ≤ 10 then 1 else 0 := by
    intro v
    simp [priorDensity, priorLogDensity]
  have hdens : density fixedSettings (fixedCtx 4) (y, keys) = density twoSettings twoCtx (((0 : Fin 2).insertNth 4 y : Fin 2 → ℝ), keys) := by
    have := C153_density (exFixing 4) hok hd 0 hn y keys
    rw [hP, if_pos (by norm_num), one_mul] at this
    exact this.symm
  refine ⟨?_, hdens, ?_, ?_⟩
  · have := C153_names (exFixing 4) 0 hn
    rw [this, twoFit]; rfl
  · intro h1 h2
    have e : ((0 : Fin 2).insertNth 4 y : Fin 2 → ℝ) 1 = y 0 := rfl
    rw [hdens, twoDensity, e]
    norm_num [h1, h2]
  · have := C153_evidence fixedConfig (fun _ => fixedSettings) fixedCtx exFixing hok hd 0 hn keys
      (twoMeasurable.comp (measurable_id.prodMk measurable_const))
    simp only [hP] at this
    exact this

end Verif.Walk
