/-
C146: repeating the simulation makes the log posterior less noisy; what the fit then samples.
-/
import Verif.Spec.Repeats
import Verif.Lemmas.Repeats
import Verif.Props.Order

namespace Verif.Repeats
open Verif MeasureTheory ProbabilityTheory Topology
open Filter (Tendsto atTop)
open scoped ENNReal

section
variable {K : Type}

/-- **C146 (repeats).** With `n` repeats the log posterior is the mean of the values for the `n` keys; the log prior returned
with it is the same. -/
theorem C146_mean_of_keys (W : K → ℝ) (c : Ctx.Ctx K) (sig : Parameter.Solver) (order : List String) (params : Parameter.Keys) (batch : Int)
    (lp : XF) (h : OneRepeat W c sig order params batch lp) (n : Nat) (hn : 1 ≤ n) (keys : Nat → K) :
    (Ctx.logPosterior sig order keys c params batch n).2 = .ok (.fin ((∑ i ∈ Finset.range n, W (keys i)) / n), lp) :=
  posterior_mean h hn keys

variable [MeasurableSpace K]

/-- **C146 (noise).** For independent keys of one law the expectation of the log posterior does not depend on the number of
repeats, and its variance is the variance for one repeat divided by their number. -/
theorem C146_noise (ρ : Measure K) [IsProbabilityMeasure ρ] (W : K → ℝ) (hW : Measurable W) (h2 : MemLp W 2 ρ) (c : Ctx.Ctx K)
    (sig : Parameter.Solver) (order : List String) (params : Parameter.Keys) (batch : Int) (lp : XF)
    (h : OneRepeat W c sig order params batch lp) (n : Nat) (hn : 1 ≤ n) :
    ∃ v : (Nat → K) → ℝ, (∀ keys, (Ctx.logPosterior sig order keys c params batch n).2 = .ok (.fin (v keys), lp)) ∧
      ∫ keys, v keys ∂(Measure.infinitePi fun _ : Nat => ρ) = ∫ k, W k ∂ρ ∧
      variance v (Measure.infinitePi fun _ : Nat => ρ) = variance W ρ / n :=
  ⟨mean W n, posterior_mean h hn, mean_integral ρ hW (h2.integrable one_le_two) hn, mean_variance ρ hW h2 hn⟩

/-- **C146 (many repeats).** As the number of repeats grows the log posterior converges for almost all sequences of keys, to its
expectation. -/
theorem C146_limit (ρ : Measure K) [IsProbabilityMeasure ρ] (W : K → ℝ) (hW : Measurable W) (hi : Integrable W ρ) (c : Ctx.Ctx K)
    (sig : Parameter.Solver) (order : List String) (params : Parameter.Keys) (batch : Int) (lp : XF)
    (h : OneRepeat W c sig order params batch lp) :
    ∃ v : Nat → (Nat → K) → ℝ, (∀ (n : Nat) keys, 1 ≤ n → (Ctx.logPosterior sig order keys c params batch n).2 = .ok (.fin (v n keys), lp)) ∧
      ∀ᵐ keys ∂(Measure.infinitePi fun _ : Nat => ρ), Tendsto (fun n => v n keys) atTop (𝓝 (∫ k, W k ∂ρ)) :=
  ⟨mean W, fun _ keys hn => posterior_mean h hn keys, mean_limit ρ hW hi⟩

/-- **C146 (what is sampled).** The density sampled with `n` repeats is the `n`-th power of the mean of the `n`-th root of the
density for one repeat.  It decreases when the number of repeats grows, never below the exponential of the mean log posterior,
and converges to that if the log posterior is bounded above (C143). -/
theorem C146_sampled (ρ : Measure K) [IsProbabilityMeasure ρ] (W : K → ℝ) (hW : Measurable W) (hi : Integrable W ρ) (c : Ctx.Ctx K)
    (sig : Parameter.Solver) (order : List String) (params : Parameter.Keys) (batch : Int) (lp : XF)
    (h : OneRepeat W c sig order params batch lp) :
    (∀ n : Nat, 1 ≤ n → sampled ρ c sig order params batch n = (∫⁻ k, ENNReal.ofReal (Real.exp (W k / n)) ∂ρ) ^ n) ∧
    (∀ n m : Nat, 1 ≤ n → n ≤ m → sampled ρ c sig order params batch m ≤ sampled ρ c sig order params batch n) ∧
    (∀ n : Nat, 1 ≤ n → ENNReal.ofReal (Real.exp (∫ k, W k ∂ρ)) ≤ sampled ρ c sig order params batch n) ∧
    ∀ B : ℝ, (∀ k, W k ≤ B) → Tendsto (fun n : Nat => sampled ρ c sig order params batch n) atTop
      (𝓝 (ENNReal.ofReal (Real.exp (∫ k, W k ∂ρ)))) := by
  have e : ∀ n : Nat, 1 ≤ n → sampled ρ c sig order params batch n
      = ∫⁻ keys, ENNReal.ofReal (Real.exp (mean W n keys)) ∂(keysLaw ρ) := fun n hn => by
    unfold sampled
    refine lintegral_congr fun keys => ?_
    rw [posterior_mean h hn keys]
    rfl
  have e' : ∀ n : Nat, 1 ≤ n → sampled ρ c sig order params batch n = (∫⁻ k, ENNReal.ofReal (Real.exp (W k / n)) ∂ρ) ^ n :=
    fun n hn => (e n hn).trans (density_mean ρ hW)
  refine ⟨e', fun n m hn hm => ?_, fun n hn => ?_, fun B hB => ?_⟩
  · rw [e' n hn, e' m (hn.trans hm)]
    exact density_antitone ρ hW hn hm
  · rw [e' n hn]
    exact density_low ρ hW hi hn
  · refine (density_limit ρ hW hi hB).congr' ?_
    filter_upwards [Filter.eventually_ge_atTop 1] with n hn
    exact (e n hn).symm

end

/-! ### A case: two likelihoods whose predictions are thrown -/

/-- The log posterior for one repeat. -/
noncomputable def throwsW (k : Order.Throws) : ℝ :=
  (1 * Real.log (if k 0 then 1 else 2) - (if k 0 then 1 else 2)) + (2 * Real.log (if k 1 then 1 else 2) - (if k 1 then 1 else 2))

theorem throws_one : OneRepeat throwsW Order.throwsA (fun _ => none) ["er_rate"] (.dict [("er_rate", .fin 3)]) 10 (.fin 0) := by
  intro keys
  simp only [Order.throwsA, Order.throwCtx, Ctx.logPosterior, Llh.peakSet, Llh.peakPrior 3 (by norm_num) (by norm_num), bind, Except.bind,
    XF.isFinite_fin, not_true_eq_false, if_false, Ctx.repeated, Ctx.once, Ctx.onceLoop, lt_self_iff_false]
  rw [Order.throws_logL 1 _ _ _ _ (.inr (.inl rfl))]
  simp only [Order.throws_logL 2 _ _ _ _ (.inl rfl)]
  simp [pure, Except.pure, throwsW]

theorem throwsW_measurable : Measurable throwsW := by
  have h : Measurable fun b : Bool × Bool => ((1 * Real.log (if b.1 then 1 else 2) - (if b.1 then 1 else 2))
      + (2 * Real.log (if b.2 then 1 else 2) - (if b.2 then 1 else 2)) : ℝ) := measurable_of_finite _
  have h' : Measurable fun k : Order.Throws => (k 0, k 1) := (measurable_pi_apply 0).prodMk (measurable_pi_apply 1)
  exact h.comp h'

theorem throwsW_bound (k : Order.Throws) : |throwsW k| ≤ 10 := by
  have h2 : Real.log 2 ≤ 1 := by linarith [Real.log_le_sub_one_of_pos (show (0 : ℝ) < 2 by norm_num)]
  have h0 : 0 ≤ Real.log 2 := Real.log_nonneg (by norm_num)
  unfold throwsW
  rw [abs_le]
  cases k 0 <;> cases k 1 <;> simp <;> constructor <;> linarith

/-- In the case all hypotheses hold, and the values do vary: ten repeats have a tenth of the variance, and the sampled density
with two repeats is smaller than with one, but at least its limit. -/
example : ∃ v : (Nat → Order.Throws) → ℝ,
    (∀ keys, (Ctx.logPosterior (fun _ => none) ["er_rate"] keys Order.throwsA (.dict [("er_rate", .fin 3)]) 10 (10 : Nat)).2 = .ok (.fin (v keys), .fin 0)) ∧
    ∫ keys, v keys ∂(Measure.infinitePi fun _ : Nat => Order.throws) = ∫ k, throwsW k ∂Order.throws ∧
    variance v (Measure.infinitePi fun _ : Nat => Order.throws) = variance throwsW Order.throws / (10 : Nat) ∧
    sampled Order.throws Order.throwsA (fun _ => none) ["er_rate"] (.dict [("er_rate", .fin 3)]) 10 2
      ≤ sampled Order.throws Order.throwsA (fun _ => none) ["er_rate"] (.dict [("er_rate", .fin 3)]) 10 1 ∧
    Tendsto (fun n : Nat => sampled Order.throws Order.throwsA (fun _ => none) ["er_rate"] (.dict [("er_rate", .fin 3)]) 10 n) atTop
      (𝓝 (ENNReal.ofReal (Real.exp (∫ k, throwsW k ∂Order.throws)))) := by
  have h2 : MemLp throwsW 2 Order.throws := MemLp.of_bound throwsW_measurable.aestronglyMeasurable 10 (.of_forall throwsW_bound)
  obtain ⟨v, a1, a2, a3⟩ := C146_noise Order.throws throwsW throwsW_measurable h2 _ _ _ _ _ _ throws_one 10 (by norm_num)
  obtain ⟨-, b2, -, b4⟩ := C146_sampled Order.throws throwsW throwsW_measurable (h2.integrable one_le_two) _ _ _ _ _ _ throws_one
  exact ⟨v, a1, a2, a3, b2 1 2 le_rfl (by norm_num), b4 10 fun k => (abs_le.1 (throwsW_bound k)).2⟩

/-- The values of the case vary. -/
example : throwsW (fun _ => true) ≠ throwsW (fun n => n != 0) := by
  have h2 : Real.log 2 < 1 := by
    have := Real.log_lt_sub_one_of_pos (show (0 : ℝ) < 2 by norm_num) (by norm_num)
    linarith
  unfold throwsW
  simp
  intro h
  linarith

end Verif.Repeats
