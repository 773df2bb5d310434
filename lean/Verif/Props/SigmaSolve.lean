/-
C130: asymmetric errors determine the sigmas of a two-half-normal.
-/
import Verif.Lemmas.SigmaSolve
import Verif.Props.Sigmas
import Verif.Props.ShippedPars

namespace Verif.Randgen
open Verif MeasureTheory ProbabilityTheory

/-- The sigmas whose two-half-normal has the percentiles of one standard deviation at the given errors. -/
def HasPercentiles (errors sig : ℝ × ℝ) : Prop :=
  0 < sig.1 ∧ 0 < sig.2 ∧ ∃ l : ℝ → ℝ, (∀ x, thnLogpdf x 0 sig.1 sig.2 = .ok (l x)) ∧
    lawOf l (Set.Ioi errors.1) = gaussianReal 0 1 (Set.Ioi 1) ∧ lawOf l (Set.Iio (-errors.2)) = gaussianReal 0 1 (Set.Ioi 1)

theorem hasPercentiles_iff {errors sig : ℝ × ℝ} (h1 : 0 ≤ errors.1) (h2 : 0 ≤ errors.2) :
    HasPercentiles errors sig ↔ toSolve erf pOut errors sig = (0, 0) := by
  have ht : ∀ {p q e : ℝ}, 0 < p → 0 < q →
      (ENNReal.ofReal (p / (p + q) * (1 - erf (e / p / √2))) = gaussianReal 0 1 (Set.Ioi 1) ↔ p / (p + q) * tl (e / p) - pOut / 2 = 0) := by
    intro p q e hp hq
    have hG : gaussianReal 0 1 (Set.Ioi 1) = ENNReal.ofReal (pOut / 2) := by
      rw [gaussian_tail, pOut_eq]
      rfl
    have hp0 := pOut_pos
    have htl := tl_pos (e / p)
    have hs : 0 < p / (p + q) := div_pos hp (add_pos hp hq)
    have he : 1 - erf (e / p / √2) = tl (e / p) := rfl
    rw [hG, he, ENNReal.ofReal_eq_ofReal_iff (by positivity) (by positivity), sub_eq_zero]
  constructor
  · rintro ⟨p1, p2, l, hl, u, v⟩
    have hle : l = ell 0 sig.1 sig.2 := by
      funext x
      have := hl x
      rw [thnLogpdf_ok 0 sig.1 sig.2 x p1 p2] at this
      simp only [Except.ok.injEq] at this
      exact this.symm
    have a := thn_upper_tail 0 sig.1 sig.2 errors.1 p1 p2 h1
    have b := thn_lower_tail 0 sig.1 sig.2 errors.2 p1 p2 h2
    rw [zero_add, ← hle, u] at a
    rw [zero_sub, ← hle, v] at b
    refine Prod.ext ?_ ?_
    · exact (ht p1 p2).1 a.symm
    · have := (ht p2 p1).1 (by rw [add_comm sig.2]; exact b.symm)
      rw [toSolve_snd, add_comm sig.1]
      exact this
  · intro h
    obtain ⟨p1, p2⟩ := root_pos h1 h2 h
    refine ⟨p1, p2, ell 0 sig.1 sig.2, fun x => thnLogpdf_ok 0 sig.1 sig.2 x p1 p2, ?_, ?_⟩
    · have a := thn_upper_tail 0 sig.1 sig.2 errors.1 p1 p2 h1
      rw [zero_add] at a
      rw [a, ht p1 p2]
      exact congrArg Prod.fst h
    · have b := thn_lower_tail 0 sig.1 sig.2 errors.2 p1 p2 h2
      rw [zero_sub] at b
      rw [b, add_comm sig.1, ht p2 p1, add_comm sig.2]
      exact congrArg Prod.snd h

/-- **C130 (well defined).** For errors that are not negative and not both zero there is exactly one pair of sigmas whose two-half-normal has its percentiles at the errors;
for two zeros there is none. -/
theorem C130_exactly_one (errors : ℝ × ℝ) (h1 : 0 ≤ errors.1) (h2 : 0 ≤ errors.2) :
    (0 < errors.1 ∨ 0 < errors.2 → ∃! sig, HasPercentiles errors sig) ∧ (errors = (0, 0) → ¬ ∃ sig, HasPercentiles errors sig) := by
  constructor
  · intro h
    obtain ⟨x, hx⟩ := exists_root errors h1 h2 (by rcases h with h | h <;> linarith)
    refine ⟨x, (hasPercentiles_iff h1 h2).2 hx, fun y hy => ?_⟩
    exact root_unique h1 h2 ((hasPercentiles_iff h1 h2).1 hy) hx
  · rintro rfl ⟨x, hx⟩
    exact no_root_zero x ((hasPercentiles_iff le_rfl le_rfl).1 hx)

/-- A solver whose answers solve the equations. -/
def Exact (root : (ℝ × ℝ → ℝ × ℝ) → ℝ × ℝ → Option (ℝ × ℝ)) : Prop := ∀ f x0 x, root f x0 = some x → f x = (0, 0)

/-- **C130 (conversion).** When the conversion succeeds, it returns those sigmas, whatever the solver; they are positive. For two zero errors it raises. -/
theorem C130_conversion (root : (ℝ × ℝ → ℝ × ℝ) → ℝ × ℝ → Option (ℝ × ℝ)) (hr : Exact root) (errors : ℝ × ℝ) (h1 : 0 ≤ errors.1) (h2 : 0 ≤ errors.2) :
    (∀ sig, errorsToSigmas root erf oneSigma errors = .ok sig → HasPercentiles errors sig) ∧
    (errors = (0, 0) → errorsToSigmas root erf oneSigma errors = .error .assertionError) := by
  have key : ∀ sig, errorsToSigmas root erf oneSigma errors = .ok sig → HasPercentiles errors sig := by
    intro sig h
    rw [hasPercentiles_iff h1 h2]
    unfold errorsToSigmas at h
    cases hroot : root (toSolve erf (1 - oneSigma) errors) errors with
    | none => rw [hroot] at h; cases h
    | some x =>
      rw [hroot] at h
      simp only [Except.ok.injEq] at h
      subst h
      exact hr _ _ _ hroot
  refine ⟨key, fun h => ?_⟩
  cases hc : errorsToSigmas root erf oneSigma errors with
  | ok sig => exact absurd ⟨sig, key sig hc⟩ ((C130_exactly_one errors h1 h2).2 h)
  | error er =>
    unfold errorsToSigmas at hc
    split at hc
    · cases hc
    · cases hc
      rfl

/-- **C130 (same answer).** Two solvers that succeed give the same sigmas. -/
theorem C130_solver_independent (root root' : (ℝ × ℝ → ℝ × ℝ) → ℝ × ℝ → Option (ℝ × ℝ)) (hr : Exact root) (hr' : Exact root') (errors sig sig' : ℝ × ℝ)
    (h1 : 0 ≤ errors.1) (h2 : 0 ≤ errors.2) (h : errorsToSigmas root erf oneSigma errors = .ok sig) (h' : errorsToSigmas root' erf oneSigma errors = .ok sig') :
    sig = sig' :=
  root_unique h1 h2 ((hasPercentiles_iff h1 h2).1 ((C130_conversion root hr errors h1 h2).1 sig h))
    ((hasPercentiles_iff h1 h2).1 ((C130_conversion root' hr' errors h1 h2).1 sig' h'))

/-- **C130 (symmetries).** The sigmas of errors in other units are the sigmas in these units, exchanged errors have exchanged sigmas, and equal errors are their own sigmas. -/
theorem C130_symmetries (errors sig : ℝ × ℝ) (h1 : 0 ≤ errors.1) (h2 : 0 ≤ errors.2) (h : HasPercentiles errors sig) :
    (∀ k : ℝ, 0 < k → HasPercentiles (k * errors.1, k * errors.2) (k * sig.1, k * sig.2)) ∧ HasPercentiles errors.swap sig.swap ∧
    (errors.1 = errors.2 → sig = errors) := by
  have hx := (hasPercentiles_iff h1 h2).1 h
  refine ⟨fun k hk => ?_, ?_, fun he => ?_⟩
  · rw [hasPercentiles_iff (mul_nonneg hk.le h1) (mul_nonneg hk.le h2), toSolve_scale _ _ hk.ne']
    exact hx
  · rw [hasPercentiles_iff (by simpa using h2) (by simpa using h1), toSolve_swap, hx]
    rfl
  · rcases lt_or_eq_of_le h1 with hp | hz
    · have := C68_symmetric errors.1 hp
      have hee : errors = (errors.1, errors.1) := Prod.ext rfl he.symm
      refine root_unique h1 h2 hx ?_
      rw [hee]
      exact this
    · exfalso
      have hee : errors = (0, 0) := Prod.ext hz.symm (by rw [← he]; exact hz.symm)
      rw [hee] at hx
      exact no_root_zero _ hx

/-- **C130 (between).** Unequal errors have sigmas ordered like them and strictly between them; neither sigma is less than a fixed share of the sum, about one sixth. -/
theorem C130_between (errors sig : ℝ × ℝ) (h1 : 0 ≤ errors.1) (h2 : 0 ≤ errors.2) (h : HasPercentiles errors sig) :
    (errors.1 < errors.2 → errors.1 < sig.1 ∧ sig.1 < sig.2 ∧ sig.2 < errors.2) ∧
    (errors.2 < errors.1 → errors.2 < sig.2 ∧ sig.2 < sig.1 ∧ sig.1 < errors.1) ∧
    (1 - oneSigma) / 2 * (sig.1 + sig.2) ≤ min sig.1 sig.2 := by
  have hx := (hasPercentiles_iff h1 h2).1 h
  refine ⟨fun hlt => root_between h1 hlt hx, fun hlt => ?_, ?_⟩
  · have hs : toSolve erf pOut errors.swap sig.swap = (0, 0) := by rw [toSolve_swap, hx]; rfl
    exact root_between (e := errors.swap) (by simpa using h2) (by simpa using hlt) hs
  · exact le_min (root_share h1 h2 hx).1 (root_share h1 h2 hx).2

/-- **C130 (tolerance).** A solver that stops early: whatever point it returns, the tail probabilities differ from the wanted ones by exactly the remaining values of the equations; and if
these are small, the sigmas are positive. -/
theorem C130_tolerance (errors sig : ℝ × ℝ) (h1 : 0 ≤ errors.1) (h2 : 0 ≤ errors.2) (d1 d2 : ℝ) (hr1 : |(toSolve erf (1 - oneSigma) errors sig).1| ≤ d1)
    (hr2 : |(toSolve erf (1 - oneSigma) errors sig).2| ≤ d2) (hd1 : d1 < (1 - oneSigma) / 2) (hd2 : d2 < (1 - oneSigma) / 2) (hd : d1 + d2 < oneSigma) :
    0 < sig.1 ∧ 0 < sig.2 ∧ ∀ mu l, (∀ x, thnLogpdf x mu sig.1 sig.2 = .ok (l x)) →
      |(lawOf l).real (Set.Ioi (mu + errors.1)) - (gaussianReal 0 1).real (Set.Ioi 1)| ≤ d1 ∧
      |(lawOf l).real (Set.Iio (mu - errors.2)) - (gaussianReal 0 1).real (Set.Ioi 1)| ≤ d2 := by
  obtain ⟨p1, p2⟩ := near_root_pos h1 h2 hr1 hr2 hd1 hd2 (by unfold pOut; linarith)
  refine ⟨p1, p2, fun mu l hl => ?_⟩
  have hle : l = ell mu sig.1 sig.2 := by
    funext x
    have := hl x
    rw [thnLogpdf_ok mu sig.1 sig.2 x p1 p2] at this
    simp only [Except.ok.injEq] at this
    exact this.symm
  have hG : (gaussianReal 0 1).real (Set.Ioi 1) = pOut / 2 := by
    rw [measureReal_def, gaussian_tail, ENNReal.toReal_ofReal (tail_nonneg 1), pOut_eq]
    rfl
  have t1 := tl_pos (errors.1 / sig.1)
  have t2 := tl_pos (errors.2 / sig.2)
  have s : 0 < sig.1 + sig.2 := add_pos p1 p2
  rw [hG, hle, measureReal_def, measureReal_def, thn_upper_tail mu _ _ _ p1 p2 h1, thn_lower_tail mu _ _ _ p1 p2 h2,
    show 1 - erf (errors.1 / sig.1 / √2) = tl (errors.1 / sig.1) from rfl, show 1 - erf (errors.2 / sig.2 / √2) = tl (errors.2 / sig.2) from rfl]
  constructor
  · rw [ENNReal.toReal_ofReal (mul_nonneg (div_nonneg p1.le s.le) t1.le)]
    exact hr1
  · rw [ENNReal.toReal_ofReal (mul_nonneg (div_nonneg p2.le s.le) t2.le)]
    exact hr2

/-- The solver of the parameter manager, by the conversion. -/
noncomputable def solverOf (root : (ℝ × ℝ → ℝ × ℝ) → ℝ × ℝ → Option (ℝ × ℝ)) : Parameter.Solver := fun e =>
  match errorsToSigmas root erf oneSigma e with
  | .ok sig => some sig
  | .error _ => none

/-- **C130 (priors).** Whenever the solver succeeds on errors that are not negative, the prior has positive sigmas, as C04 asks for; so with the shipped parameter files (C129)
it is enough that the solver succeeds on the errors written there. -/
theorem C130_shipped (root : (ℝ × ℝ → ℝ × ℝ) → ℝ × ℝ → Option (ℝ × ℝ)) (hr : Exact root) :
    (∀ a b sig, 0 ≤ a → 0 ≤ b → solverOf root (a, b) = some sig → 0 < sig.1 ∧ 0 < sig.2) ∧
    ((∀ f ∈ ShippedPars.files, ∀ e ∈ f.2, ∀ mu a b, e.2.prior = .twohalfnorm mu a b → solverOf root (a, b) ≠ none) → ShippedPars.Solves (solverOf root)) := by
  have key : ∀ a b sig, 0 ≤ a → 0 ≤ b → solverOf root (a, b) = some sig → 0 < sig.1 ∧ 0 < sig.2 := by
    intro a b sig ha hb h
    unfold solverOf at h
    split at h
    · rename_i s hs
      cases h
      obtain ⟨p1, p2, -⟩ := (C130_conversion root hr (a, b) ha hb).1 sig hs
      exact ⟨p1, p2⟩
    · cases h
  refine ⟨key, fun hs f hf e he mu a b hp => ?_⟩
  cases hc : solverOf root (a, b) with
  | none => exact absurd hc (hs f hf e he mu a b hp)
  | some sig =>
    have hg := ShippedPars.good_spec e.2 ((ShippedPars.files_good f hf).2 e he)
    have hab : 0 ≤ a ∧ 0 ≤ b := by
      rcases hg with ⟨v, t, ar⟩ | ⟨lo, hi, m, std, -, -, -, -, -, -, h7⟩
      · simp [ShippedPars.Entry.prior, t, ar, PyDict.get?_cons] at hp
      · rcases h7 with ⟨t, -⟩ | ⟨t, ar⟩ | ⟨mean, sd, t, ar, -⟩ | ⟨mu', x, y, t, ar, hx, hy, -⟩
        · simp [ShippedPars.Entry.prior, t] at hp
        · simp [ShippedPars.Entry.prior, t, ar, PyDict.get?_cons] at hp
        · simp [ShippedPars.Entry.prior, t, ar, PyDict.get?_cons] at hp
        · simp [ShippedPars.Entry.prior, t, ar, PyDict.get?_cons] at hp
          obtain ⟨-, rfl, rfl⟩ := hp
          constructor
          · exact_mod_cast hx.le
          · exact_mod_cast hy.le
    obtain ⟨p1, p2⟩ := key a b sig hab.1 hab.2 hc
    exact ⟨sig.1, sig.2, rfl, p1, p2⟩

/-- Non-vacuity: errors 1 and 3 have sigmas, between 1 and 3. -/
example : ∃ sig, HasPercentiles (1, 3) sig ∧ 1 < sig.1 ∧ sig.1 < sig.2 ∧ sig.2 < 3 := by
  obtain ⟨sig, h, -⟩ := (C130_exactly_one (1, 3) (by norm_num) (by norm_num)).1 (.inl one_pos)
  exact ⟨sig, h, (C130_between (1, 3) sig (by norm_num) (by norm_num) h).1 (by norm_num)⟩

open Classical in
/-- Non-vacuity: an exact solver that succeeds wherever there is a solution. -/
example : ∃ root, Exact root ∧ ∀ a b : ℝ, 0 < a → 0 < b → ∃ sig, errorsToSigmas root erf oneSigma (a, b) = .ok sig := by
  refine ⟨fun f _ => if h : ∃ x, f x = (0, 0) then some h.choose else none, ?_, ?_⟩
  · intro f x0 x h
    simp only at h
    by_cases hc : ∃ x, f x = (0, 0)
    · rw [dif_pos hc] at h
      cases h
      exact hc.choose_spec
    · rw [dif_neg hc] at h
      cases h
  · intro a b ha hb
    have := exists_root (a, b) ha.le hb.le (add_pos ha hb)
    unfold errorsToSigmas
    simp only [show (1 - oneSigma) = pOut from rfl, dif_pos this]
    exact ⟨_, rfl⟩

end Verif.Randgen
