/-
Property theorems for giving a fitted parameter another prior or allowed range (C154).
-/
import Verif.Lemmas.Reprior
import Verif.Props.Unread

namespace Verif.Walk
open Verif Parameter MeasureTheory
open scoped ENNReal

section
variable {K : Type} {d : Nat}

theorem priorDensity_inside {sig : Solver} {s : Setting} {lo hi t : ℝ} (hal : s.allowed = some (lo, hi)) (h1 : lo ≤ t) (h2 : t ≤ hi) :
    priorDensity sig s t = ENNReal.ofReal (Real.exp (priorLogDensity sig s.prior t)) := by
  simp only [priorDensity, hal, h1, h2, and_self, if_true]

theorem priorDensity_outside {sig : Solver} {s : Setting} {lo hi t : ℝ} (hal : s.allowed = some (lo, hi)) (h : ¬ (lo ≤ t ∧ t ≤ hi)) :
    priorDensity sig s t = 0 := by
  simp only [priorDensity, hal, h, if_false]

/-- **C154 (reweight).** With another prior or allowed range of one fitted parameter the posterior density is the old one times the
new prior density of the parameter over the old one, at every position and for all keys. -/
theorem C154_reweight {config config' : Config} {n : String} {s s' : Setting} {o o' : Settings} {c c' : Ctx.Ctx K}
    (h : Reprior config config' n s s' o o' c c') (hok : EvalOK o.sig s) (hok' : EvalOK o.sig s')
    (hd : (parameterFit c.pm).length = d) (i : Fin d) (hn : (parameterFit c.pm)[i.val]? = some n) (x : Fin d → ℝ) (keys : Nat → K) :
    priorDensity o.sig s (x i) * density o' c' (x, keys) = priorDensity o.sig s' (x i) * density o c (x, keys) := by
  have hd' : (parameterFit c'.pm).length = d := h.fit ▸ hd
  have hn' : (parameterFit c'.pm)[i.val]? = some n := h.fit ▸ hn
  obtain ⟨⟨lo, hi⟩, hal⟩ := hok.1
  obtain ⟨⟨lo', hi'⟩, hal'⟩ := hok'.1
  by_cases hin : lo ≤ x i ∧ x i ≤ hi
  · by_cases hin' : lo' ≤ x i ∧ x i ≤ hi'
    · by_cases hfin : ∃ lp : ℝ, logPriorOver o.sig (pmAt c x) o.order = .ok (.fin lp)
      · obtain ⟨lp, hlp⟩ := hfin
        rw [density_of (h.keys ▸ h.nodup) h.reach' (h.prior hd hn hok' hal' x hin'.1 hin'.2 hlp), density_of h.nodup h.reach hlp,
          Ctx.repeated_shift, densityRes_shift, ← repeated_congr h.likelihoods (h.vals hd x), h.batch, h.repeats,
          priorDensity_inside hal hin.1 hin.2, priorDensity_inside hal' hin'.1 hin'.2, mul_left_comm, ← ENNReal.ofReal_mul (Real.exp_pos _).le,
          ← Real.exp_add, mul_comm]
        congr 3
        ring
      · rw [density_zero h.nodup h.reach fun lp hlp => hfin ⟨lp, hlp⟩, mul_zero,
          density_zero (h.keys ▸ h.nodup) h.reach' fun lp hlp => hfin ⟨_, h.symm.prior hd' hn' (h.sig ▸ hok) hal x hin.1 hin.2 hlp⟩, mul_zero]
    · have hz := priorDensity_outside (sig := o.sig) hal' hin'
      rw [hz, zero_mul, h.symm.zero hd' hn' x keys (by rw [h.sig]; exact hz), mul_zero]
  · have hz := priorDensity_outside (sig := o.sig) hal hin
    rw [hz, zero_mul, h.zero hd hn x keys hz, mul_zero]

/-- **C154 (narrow).** Narrowing the allowed range of a fitted parameter leaves the posterior density as it is inside the new range,
and makes it zero outside. -/
theorem C154_narrow {config config' : Config} {n : String} {s : Setting} {o o' : Settings} {c c' : Ctx.Ctx K} {lo hi lo' hi' : ℝ}
    (h : Reprior config config' n s { s with allowed := some (lo', hi') } o o' c c') (hal : s.allowed = some (lo, hi)) (h1 : lo ≤ lo')
    (h2 : hi' ≤ hi) (hok : EvalOK o.sig s) (hd : (parameterFit c.pm).length = d) (i : Fin d)
    (hn : (parameterFit c.pm)[i.val]? = some n) (x : Fin d → ℝ) (keys : Nat → K) :
    (lo' ≤ x i ∧ x i ≤ hi' → density o' c' (x, keys) = density o c (x, keys)) ∧
    (¬ (lo' ≤ x i ∧ x i ≤ hi') → density o' c' (x, keys) = 0) := by
  constructor
  · rintro ⟨a, b⟩
    have := C154_reweight h hok ⟨⟨_, rfl⟩, hok.2⟩ hd i hn x keys
    rw [priorDensity_inside hal (h1.trans a) (b.trans h2), priorDensity_inside (s := { s with allowed := some (lo', hi') }) rfl a b] at this
    exact (ENNReal.mul_right_inj (by simp [Real.exp_pos]) ENNReal.ofReal_ne_top).1 this
  · intro ho
    refine h.symm.zero (h.fit ▸ hd) (h.fit ▸ hn) x keys ?_
    exact priorDensity_outside rfl ho

/-- **C154 (truncated).** The posterior of the fit with the narrower range is the posterior of the other one, cut to that range: the
integrals of any quantity `F` agree. -/
theorem C154_truncated [MeasurableSpace K] {config config' : Config} {n : String} {s : Setting} {o o' : Settings} {c c' : Ctx.Ctx K}
    {lo hi lo' hi' : ℝ} (h : Reprior config config' n s { s with allowed := some (lo', hi') } o o' c c')
    (hal : s.allowed = some (lo, hi)) (h1 : lo ≤ lo') (h2 : hi' ≤ hi) (hok : EvalOK o.sig s) (hd : (parameterFit c.pm).length = d)
    (i : Fin d) (hn : (parameterFit c.pm)[i.val]? = some n) (μ : Measure (Nat → K)) (F : (Fin d → ℝ) → ℝ≥0∞) :
    ∫⁻ x, F x * ∫⁻ keys, density o' c' (x, keys) ∂μ = ∫⁻ x in {x | lo' ≤ x i ∧ x i ≤ hi'}, F x * ∫⁻ keys, density o c (x, keys) ∂μ := by
  have hm : MeasurableSet {x : Fin d → ℝ | lo' ≤ x i ∧ x i ≤ hi'} :=
    MeasurableSet.inter (measurableSet_le measurable_const (measurable_pi_apply i)) (measurableSet_le (measurable_pi_apply i) measurable_const)
  rw [← lintegral_indicator hm]
  refine lintegral_congr fun x => ?_
  by_cases hx : lo' ≤ x i ∧ x i ≤ hi'
  · rw [Set.indicator_of_mem (show x ∈ {x : Fin d → ℝ | lo' ≤ x i ∧ x i ≤ hi'} from hx)]
    simp only [(C154_narrow h hal h1 h2 hok hd i hn x _).1 hx]
  · rw [Set.indicator_of_notMem (show x ∉ {x : Fin d → ℝ | lo' ≤ x i ∧ x i ≤ hi'} from hx)]
    simp only [(C154_narrow h hal h1 h2 hok hd i hn x _).2 hx, lintegral_zero, mul_zero]

end

/-! ### A concrete case: the two parameters of the example of C144, another range for the one that the likelihood reads -/

/-- The configuration of the example with the range of `g` from 3 to 6. -/
noncomputable def narrowConfig : Config :=
  [("g", ⟨.free, some (3, 6), some (2, 1)⟩), ("h", ⟨.norm 0 1, some (-3, 3), some (0, 1)⟩)]

noncomputable def narrowCtx : Ctx.Ctx Bool where
  parConfig := narrowConfig
  pm := ⟨narrowConfig, [], ["g", "h"], [("g", .fin 6), ("h", .fin 1)]⟩
  needed := ["g"]
  likelihoods := [("a", exObj)]

theorem narrowReachable : Reachable narrowConfig narrowCtx.pm := by
  refine ⟨fun _ => none, fun n => if n = "g" then 7 else 1, [], ?_⟩
  have h : clip 7 3 6 = 6 := by norm_num [clip]
  have h' : clip 1 (-3) 3 = 1 := by norm_num [clip]
  have h1 : ¬ ((1 : ℝ) < 0) := by norm_num
  simp [run, mk, mkRaw, samplePrior, sampleLoop, samplePriorOne, clipRange, narrowCtx, narrowConfig, Prior.isFixed,
    PyDict.keys, PyDict.get?, PyDict.set, drawInit, drawNormal, bind, Except.bind, h1, h, h']

theorem exReprior : Reprior twoConfig narrowConfig "g" ⟨.free, some (1, 10), some (2, 1)⟩ ⟨.free, some (3, 6), some (2, 1)⟩
    twoSettings { twoSettings with order := ["g", "h"] } twoCtx narrowCtx where
  keys := rfl
  nodup := by simp [twoConfig, PyDict.keys]
  first := ⟨rfl, by simp⟩
  second := ⟨rfl, by simp⟩
  same := by
    intro k hk
    simp [twoConfig, narrowConfig, PyDict.get?, Ne.symm hk]
  reach := twoReachable
  reach' := narrowReachable
  rest := by
    intro k hk
    have h1 : k ≠ "g" := by rintro rfl; exact hk ⟨_, rfl, by simp⟩
    have h2 : k ≠ "h" := by rintro rfl; exact hk ⟨_, rfl, by simp⟩
    simp [twoCtx, narrowCtx, PyDict.get?, Ne.symm h1, Ne.symm h2]
  likelihoods := rfl
  sig := rfl
  batch := rfl
  repeats := rfl
  order := by rw [twoFit]; exact List.Perm.swap _ _ _
  order' := by simp only [parameterFit, narrowCtx]; exact (List.mergeSort_perm _ _).symm

/-- Non-vacuity of C154: at 4 the density with the range from 3 to 6 is that with the range from 1 to 10, which is positive; at 8 it
is zero, although the other is positive. -/
example (keys : Nat → Bool) :
    density { twoSettings with order := ["g", "h"] } narrowCtx (![4, 1], keys) = ENNReal.ofReal (Real.exp (exMean 2 4 keys + -(1 * 1) / 2)) ∧
    density { twoSettings with order := ["g", "h"] } narrowCtx (![8, 1], keys) = 0 ∧ 0 < density twoSettings twoCtx (![8, 1], keys) := by
  have hok : EvalOK twoSettings.sig ⟨.free, some (1, 10), some (2, 1)⟩ :=
    ⟨⟨_, rfl⟩, (by intro m std h; cases h), (by intro mu sp sn h; cases h)⟩
  have hd : (parameterFit twoCtx.pm).length = 2 := by rw [twoFit]; rfl
  have hn : (parameterFit twoCtx.pm)[(0 : Fin 2).val]? = some "g" := by rw [twoFit]; rfl
  have key := C154_narrow (s := ⟨.free, some (1, 10), some (2, 1)⟩) exReprior rfl (by norm_num) (by norm_num) hok hd 0 hn
  refine ⟨?_, ?_, ?_⟩
  · rw [(key ![4, 1] keys).1 (by norm_num), twoDensity]
    norm_num
  · exact (key ![8, 1] keys).2 (by norm_num)
  · rw [twoDensity]
    norm_num [Real.exp_pos]

end Verif.Walk
