/-
C138: the posterior as a function of the rates has one peak.
-/
import Verif.Lemmas.Peak
import Verif.Props.Noise

namespace Verif.Llh
open Verif Comp

section
variable {K : Type}

/-- **C138 (rates).** In the situation of C79, with plugins that read no rate, let the keys, the batch size and the number of repetitions be
given.  Whatever the rates, the events of every repetition are the same, and the log posterior is the log prior plus the mean over the
repetitions of the Poisson log likelihoods of all data for predictions that are linear in the rates; minus infinity if in some
repetition some bin expects no events. -/
theorem C138_rates (c : Ctx.Ctx K) (fs : List (Fitted K)) (hfs : List.Forall₂ (fun e f => Fitted.Made f e) c.likelihoods fs)
    (hnames : (fs.map Fitted.name).Nodup) (hfree : ∀ f ∈ fs, RateFree f.setup f.parts) :
    ∃ order : String → String → List Plugin,
      (∀ f ∈ fs, ∀ a, Part.sim a ∈ f.parts → Topological a.registry (f.setup.binsOn ++ ["eff"]) (order f.name a.comp)) ∧
      ∀ (keys : Nat → K) batch q0, (∀ f ∈ fs, ∀ p ∈ f.parts, p.name ++ "_rate" ∈ (replaceAlias f.setup.al q0).keys) →
        ∃ sss : Nat → List (List (Sample ℝ)),
          (∀ i, ∃ key', DrawsAll order batch q0 fs (keys i) (sss i) key') ∧
          ∀ repeats, (∀ i < Ctx.evaluations repeats, ∀ ss ∈ sss i, ∀ s ∈ ss, s.Normalisable) →
            ∀ sig ord params pm lp q, Parameter.setParameter c.pm params .none = (pm, .ok ()) → pm.vals = floats q →
              Parameter.logPriorOver sig pm ord = .ok (.fin lp) → (∀ f ∈ fs, Varies f.setup f.parts q0 q) →
              ((∀ i < Ctx.evaluations repeats, AllPositive q fs (sss i)) →
                (Ctx.logPosterior sig ord keys c params batch repeats).2 =
                  .ok (.fin (meanOf (Ctx.evaluations repeats) (fun i => logLAll q fs (sss i)) + lp), .fin lp)) ∧
              ((∃ i < Ctx.evaluations repeats, ¬ AllPositive q fs (sss i)) →
                (Ctx.logPosterior sig ord keys c params batch repeats).2 = .ok (.ninf, .fin lp)) := by
  obtain ⟨order, h1, h2⟩ := all_likelihoods c.likelihoods fs hfs hnames
  have hproper : ∀ f ∈ fs, f.setup.Proper f.bins f.parts := by
    intro f hf
    obtain ⟨e, _, he⟩ := Parameter.partner (List.Forall₂.flip hfs) f hf
    obtain ⟨_, _, _, _, _, _, _, _, _, _, hp, _⟩ := he
    exact hp
  refine ⟨order, h1, fun keys batch q0 hr0 => ?_⟩
  choose sss key' d0 l0 _ using fun i => h2 order (fun _ _ => rfl) (keys i) batch q0 hr0
  refine ⟨sss, fun i => ⟨_, d0 i⟩, fun repeats hn sig ord params pm lp q hset hq hlp hv => ?_⟩
  have e3 : ∀ i < Ctx.evaluations repeats, Ctx.Evals batch pm.vals c.likelihoods (keys i) (List.zipWith valueOf fs (reRated q fs (sss i))) := by
    intro i hi
    obtain ⟨sss', k', d1, _, ev⟩ := h2 order (fun _ _ => rfl) (keys i) batch q (fun f hf => (hv f hf).rates)
    have := drawsAll_unique hproper h1 d1 (drawsAll_reRated (d0 i) hfree hv)
    subst this
    rw [hq]
    exact ev (reRated_normalisable (hn i hi))
  have hlen : ∀ i, (reRated q fs (sss i)).length = fs.length := fun i => by simp [reRated, l0 i]
  constructor
  · intro hp
    have e4 : ∀ i < Ctx.evaluations repeats, Ctx.Evals batch pm.vals c.likelihoods (keys i)
        ((List.zipWith (fun f ss => binnedLogL f.bins f.data ss) fs (reRated q fs (sss i))).map XF.fin) := by
      intro i hi
      rw [← values_fin fs _ ((reRated_positive q fs (sss i) (l0 i)).2 (hp i hi))]
      exact e3 i hi
    have := Ctx.C40_value sig ord keys c params batch repeats pm lp hset hlp _ e4
    simp only [reRated_logL] at this
    exact this
  · rintro ⟨i, hi, hneg⟩
    refine Ctx.C40_minus_infinity sig ord keys c params batch repeats pm lp hset hlp
      (fun i => List.zipWith valueOf fs (reRated q fs (sss i))) e3 ?_ ⟨i, hi, ?_⟩
    · exact fun j _ v hv => values_good fs _ v hv
    · exact values_ninf fs _ (hlen i) (fun hh => hneg ((reRated_positive q fs (sss i) (l0 i)).1 hh))

/-- A finite log posterior has a finite log prior. -/
theorem finite_posterior {sig : Parameter.Solver} {ord : List String} {keys : Nat → K} {c : Ctx.Ctx K} {params : Parameter.Keys}
    {batch repeats : Int} {pm : Parameter.PM} {v : ℝ} {l : XF} (hset : Parameter.setParameter c.pm params .none = (pm, .ok ()))
    (h : (Ctx.logPosterior sig ord keys c params batch repeats).2 = .ok (.fin v, l)) :
    ∃ lp, l = .fin lp ∧ Parameter.logPriorOver sig pm ord = .ok (.fin lp) := by
  unfold Ctx.logPosterior at h
  rw [hset] at h
  simp only [bind, Except.bind, pure, Except.pure] at h
  split at h
  · cases h
  · rename_i lp hlp
    split at h
    · cases h
    · rename_i hfin
      split at h
      · cases h
      · simp only [Except.ok.injEq, Prod.mk.injEq] at h
        obtain ⟨x, hx⟩ := (XF.isFinite_iff lp).1 (not_not.1 hfin)
        exact ⟨x, by rw [← h.2, hx], by rw [hlp, hx]⟩

/-- **C138 (concave).** In the same situation let the log posterior be finite at two sets of parameters that differ in nothing but rates.
On the straight line between them it is finite and at least the mean of the two values, and so is the log prior.  Strictly between, it can
equal that mean only if both sets expect the same number of events in every bin that holds data, in all repetitions, and agree in every
fitted parameter with a normal or two-half-normal prior. -/
theorem C138_concave (c : Ctx.Ctx K) (fs : List (Fitted K)) (hfs : List.Forall₂ (fun e f => Fitted.Made f e) c.likelihoods fs)
    (hnames : (fs.map Fitted.name).Nodup) (hfree : ∀ f ∈ fs, RateFree f.setup f.parts) :
    ∃ order : String → String → List Plugin,
      (∀ f ∈ fs, ∀ a, Part.sim a ∈ f.parts → Topological a.registry (f.setup.binsOn ++ ["eff"]) (order f.name a.comp)) ∧
      ∀ (keys : Nat → K) batch q1, (∀ f ∈ fs, ∀ p ∈ f.parts, p.name ++ "_rate" ∈ (replaceAlias f.setup.al q1).keys) →
        ∃ sss : Nat → List (List (Sample ℝ)),
          (∀ i, ∃ key', DrawsAll order batch q1 fs (keys i) (sss i) key') ∧
          ∀ repeats, (∀ i < Ctx.evaluations repeats, ∀ ss ∈ sss i, ∀ s ∈ ss, s.Normalisable) →
            ∀ sig ord params1 pm1 params2 pm2 q2 params pm q t v1 v2 l1 l2,
              Parameter.setParameter c.pm params1 .none = (pm1, .ok ()) → pm1.vals = floats q1 →
              Parameter.setParameter c.pm params2 .none = (pm2, .ok ()) → pm2.vals = floats q2 →
              Parameter.setParameter c.pm params .none = (pm, .ok ()) → pm.vals = floats q →
              (∀ f ∈ fs, Varies f.setup f.parts q1 q2) → Between t q1 q2 q → 0 ≤ t → t ≤ 1 →
              (Ctx.logPosterior sig ord keys c params1 batch repeats).2 = .ok (.fin v1, l1) →
              (Ctx.logPosterior sig ord keys c params2 batch repeats).2 = .ok (.fin v2, l2) →
              ∃ v lp lp1 lp2, (Ctx.logPosterior sig ord keys c params batch repeats).2 = .ok (.fin v, .fin lp) ∧
                l1 = .fin lp1 ∧ l2 = .fin lp2 ∧ t * lp1 + (1 - t) * lp2 ≤ lp ∧ t * v1 + (1 - t) * v2 ≤ v ∧
                (v = t * v1 + (1 - t) * v2 → 0 < t → t < 1 →
                  (∀ i < Ctx.evaluations repeats, SamePrediction q1 q2 fs (sss i)) ∧
                  ∀ n ∈ ord, ∀ s, c.pm.config.get? n = some s → Curved s.prior → q1.get? n = q2.get? n) := by
  obtain ⟨order, h1, h2⟩ := C138_rates c fs hfs hnames hfree
  have hal : ∀ f ∈ fs, PlainAliases f.setup.al := by
    intro f hf
    obtain ⟨e, _, he⟩ := Parameter.partner (List.Forall₂.flip hfs) f hf
    obtain ⟨_, _, _, _, _, _, _, _, _, _, hp, _⟩ := he
    exact hp.aliases
  refine ⟨order, h1, fun keys batch q1 hr1 => ?_⟩
  obtain ⟨sss, d, hv⟩ := h2 keys batch q1 hr1
  refine ⟨sss, d, ?_⟩
  intro repeats hn sig ord params1 pm1 params2 pm2 q2 params pm q t v1 v2 l1 l2 hs1 hq1 hs2 hq2 hs hq hvar hb ht0 ht1 e1 e2
  obtain ⟨lp1, rfl, p1⟩ := finite_posterior hs1 e1
  obtain ⟨lp2, rfl, p2⟩ := finite_posterior hs2 e2
  have hc : ∀ params pm, Parameter.setParameter c.pm params .none = (pm, .ok ()) → pm.config = c.pm.config := by
    intro params pm h
    have := Parameter.setParameter_config c.pm params .none
    rw [h] at this
    exact this
  obtain ⟨lp, p3, p4, p5⟩ := Parameter.logPriorOver_concave ((hc _ _ hs2).trans (hc _ _ hs1).symm) ((hc _ _ hs).trans (hc _ _ hs1).symm)
    hq1 hq2 hq hb ht0 ht1 p1 p2
  have vself : ∀ f ∈ fs, Varies f.setup f.parts q1 q1 := fun f hf => ⟨fun _ _ => rfl, hr1 f hf⟩
  have vmid := fun f hf => varies_between (hal f hf) (hr1 f hf) (hvar f hf) hb
  obtain ⟨a1, b1⟩ := hv repeats hn sig ord params1 pm1 lp1 q1 hs1 hq1 p1 vself
  obtain ⟨a2, b2⟩ := hv repeats hn sig ord params2 pm2 lp2 q2 hs2 hq2 p2 hvar
  obtain ⟨a3, _⟩ := hv repeats hn sig ord params pm lp q hs hq p3 (fun f hf => (vmid f hf).1)
  have pos1 : ∀ i < Ctx.evaluations repeats, AllPositive q1 fs (sss i) := by
    by_contra hneg
    push Not at hneg
    rw [b1 hneg] at e1
    cases e1
  have pos2 : ∀ i < Ctx.evaluations repeats, AllPositive q2 fs (sss i) := by
    by_contra hneg
    push Not at hneg
    rw [b2 hneg] at e2
    cases e2
  rw [a1 pos1] at e1
  rw [a2 pos2] at e2
  simp only [Except.ok.injEq, Prod.mk.injEq, XF.fin.injEq, and_true] at e1 e2
  have cc := fun i hi => logLAll_concave (drawsAll_forall₂ (d i).choose_spec) ht0 ht1 (fun f hf => (vmid f hf).2) (pos1 i hi) (pos2 i hi)
  have hpos : (0 : ℝ) < Ctx.evaluations repeats := by
    exact_mod_cast Nat.lt_of_lt_of_le Nat.one_pos (le_max_left _ _)
  have hmean : t * meanOf (Ctx.evaluations repeats) (fun i => logLAll q1 fs (sss i)) +
      (1 - t) * meanOf (Ctx.evaluations repeats) (fun i => logLAll q2 fs (sss i)) =
      ((List.range (Ctx.evaluations repeats)).map (fun i => t * logLAll q1 fs (sss i) + (1 - t) * logLAll q2 fs (sss i))).sum /
        Ctx.evaluations repeats := by
    unfold meanOf
    rw [List.sum_map_add, List.sum_map_mul_left, List.sum_map_mul_left]
    ring
  have hle : ∀ i ∈ List.range (Ctx.evaluations repeats),
      t * logLAll q1 fs (sss i) + (1 - t) * logLAll q2 fs (sss i) ≤ logLAll q fs (sss i) :=
    fun i hi => (cc i (List.mem_range.1 hi)).2.1
  have hsum : t * meanOf (Ctx.evaluations repeats) (fun i => logLAll q1 fs (sss i)) +
      (1 - t) * meanOf (Ctx.evaluations repeats) (fun i => logLAll q2 fs (sss i)) ≤
      meanOf (Ctx.evaluations repeats) (fun i => logLAll q fs (sss i)) := by
    rw [hmean]
    exact div_le_div_of_nonneg_right (List.sum_le_sum hle) hpos.le
  refine ⟨_, lp, lp1, lp2, a3 (fun i hi => (cc i hi).1), rfl, rfl, p4, by rw [← e1, ← e2]; linarith, ?_⟩
  intro he q0 q1'
  rw [← e1, ← e2] at he
  have hlp : lp = t * lp1 + (1 - t) * lp2 := by linarith
  have hm : meanOf (Ctx.evaluations repeats) (fun i => logLAll q fs (sss i)) =
      t * meanOf (Ctx.evaluations repeats) (fun i => logLAll q1 fs (sss i)) +
      (1 - t) * meanOf (Ctx.evaluations repeats) (fun i => logLAll q2 fs (sss i)) := by linarith
  rw [hmean] at hm
  unfold meanOf at hm
  have hs' := (div_left_inj' hpos.ne').1 hm
  constructor
  · intro i hi
    exact (cc i hi).2.2 (sum_eq_of_le _ _ _ hle hs'.symm i (List.mem_range.2 hi)).symm q0 q1'
  · intro n hn' s hsn hcv
    exact p5 hlp q0 q1' n hn' s (by rw [hc _ _ hs1]; exact hsn) hcv

/-- **C138 (no dip).** In the same situation, strictly between two sets of parameters that differ only in rates the log posterior is at least
the smaller of the two values; and once it does not rise from the first set on, it does not rise on the way to the second either. -/
theorem C138_no_dip (c : Ctx.Ctx K) (fs : List (Fitted K)) (hfs : List.Forall₂ (fun e f => Fitted.Made f e) c.likelihoods fs)
    (hnames : (fs.map Fitted.name).Nodup) (hfree : ∀ f ∈ fs, RateFree f.setup f.parts) :
    ∃ order : String → String → List Plugin,
      (∀ f ∈ fs, ∀ a, Part.sim a ∈ f.parts → Topological a.registry (f.setup.binsOn ++ ["eff"]) (order f.name a.comp)) ∧
      ∀ (keys : Nat → K) batch q1, (∀ f ∈ fs, ∀ p ∈ f.parts, p.name ++ "_rate" ∈ (replaceAlias f.setup.al q1).keys) →
        ∃ sss : Nat → List (List (Sample ℝ)),
          (∀ i, ∃ key', DrawsAll order batch q1 fs (keys i) (sss i) key') ∧
          ∀ repeats, (∀ i < Ctx.evaluations repeats, ∀ ss ∈ sss i, ∀ s ∈ ss, s.Normalisable) →
            ∀ sig ord params1 pm1 params2 pm2 q2 params pm q t v1 v2 l1 l2 v l,
              Parameter.setParameter c.pm params1 .none = (pm1, .ok ()) → pm1.vals = floats q1 →
              Parameter.setParameter c.pm params2 .none = (pm2, .ok ()) → pm2.vals = floats q2 →
              Parameter.setParameter c.pm params .none = (pm, .ok ()) → pm.vals = floats q →
              (∀ f ∈ fs, Varies f.setup f.parts q1 q2) → Between t q1 q2 q → 0 < t → t < 1 →
              (Ctx.logPosterior sig ord keys c params1 batch repeats).2 = .ok (.fin v1, l1) →
              (Ctx.logPosterior sig ord keys c params2 batch repeats).2 = .ok (.fin v2, l2) →
              (Ctx.logPosterior sig ord keys c params batch repeats).2 = .ok (v, l) →
              ∃ r, v = .fin r ∧ min v1 v2 ≤ r ∧ (r ≤ v1 → v2 ≤ r) := by
  obtain ⟨order, h1, h2⟩ := C138_concave c fs hfs hnames hfree
  refine ⟨order, h1, fun keys batch q1 hr1 => ?_⟩
  obtain ⟨sss, d, hv⟩ := h2 keys batch q1 hr1
  refine ⟨sss, d, ?_⟩
  intro repeats hn sig ord params1 pm1 params2 pm2 q2 params pm q t v1 v2 l1 l2 v l hs1 hq1 hs2 hq2 hs hq hvar hb ht0 ht1 e1 e2 e
  obtain ⟨r, lp, lp1, lp2, a, _, _, _, hle, _⟩ := hv repeats hn sig ord params1 pm1 params2 pm2 q2 params pm q t v1 v2 l1 l2 hs1 hq1 hs2 hq2
    hs hq hvar hb ht0.le ht1.le e1 e2
  rw [a] at e
  simp only [Except.ok.injEq, Prod.mk.injEq] at e
  refine ⟨r, e.1.symm, ?_, fun h => ?_⟩
  · have m1 := mul_le_mul_of_nonneg_left (min_le_left v1 v2) ht0.le
    have m2 := mul_le_mul_of_nonneg_left (min_le_right v1 v2) (sub_pos.2 ht1).le
    linarith
  · have m1 := mul_le_mul_of_nonneg_left h ht0.le
    have : (1 - t) * v2 ≤ (1 - t) * r := by linarith
    exact le_of_mul_le_mul_left this (sub_pos.2 ht1)

/-- **C138 (prior).** The log prior alone: where it is finite at two sets of values of the parameters it is finite at every mean of them, and
at least the mean of the two. -/
theorem C138_prior (sig : Parameter.Solver) (ord : List String) (pm : Parameter.PM) (params1 params2 params : Parameter.Keys)
    (pm1 pm2 pm3 : Parameter.PM) (q1 q2 q : PyDict String ℝ) (t lp1 lp2 : ℝ)
    (hs1 : Parameter.setParameter pm params1 .none = (pm1, .ok ())) (hq1 : pm1.vals = floats q1)
    (hs2 : Parameter.setParameter pm params2 .none = (pm2, .ok ())) (hq2 : pm2.vals = floats q2)
    (hs : Parameter.setParameter pm params .none = (pm3, .ok ())) (hq : pm3.vals = floats q)
    (hb : Between t q1 q2 q) (ht0 : 0 ≤ t) (ht1 : t ≤ 1)
    (e1 : Parameter.logPriorOver sig pm1 ord = .ok (.fin lp1)) (e2 : Parameter.logPriorOver sig pm2 ord = .ok (.fin lp2)) :
    ∃ lp, Parameter.logPriorOver sig pm3 ord = .ok (.fin lp) ∧ t * lp1 + (1 - t) * lp2 ≤ lp := by
  have hc : ∀ params pm', Parameter.setParameter pm params .none = (pm', .ok ()) → pm'.config = pm.config := by
    intro params pm' h
    have := Parameter.setParameter_config pm params .none
    rw [h] at this
    exact this
  obtain ⟨lp, a, b, _⟩ := Parameter.logPriorOver_concave ((hc _ _ hs2).trans (hc _ _ hs1).symm) ((hc _ _ hs).trans (hc _ _ hs1).symm)
    hq1 hq2 hq hb ht0 ht1 e1 e2
  exact ⟨lp, a, b⟩

end

/-! ### A concrete case: the likelihood of C112, with a normal prior on its rate -/

noncomputable def peakPM (r : ℝ) : Parameter.PM :=
  ⟨[("er_rate", ⟨.norm 3 1, some (0, 10), none⟩)], [], ["er_rate"], [("er_rate", .fin r)]⟩

theorem peakSet (r : ℝ) : Parameter.setParameter (peakPM 3) (.dict [("er_rate", .fin r)]) .none = (peakPM r, .ok ()) := by
  simp [Parameter.setParameter, Parameter.checkExist, peakPM, PyDict.keys, PyDict.has, PyDict.get?, Parameter.setList, PyDict.update, PyDict.set]

theorem peakPrior (r : ℝ) (h0 : 0 ≤ r) (h1 : r ≤ 10) :
    Parameter.logPriorOver (fun _ => none) (peakPM r) ["er_rate"] = .ok (.fin (-(r - 3) ^ 2 / 2)) := by
  have h := Parameter.logPriorTerm_inside (fun _ => none) ⟨.norm 3 1, some (0, 10), none⟩ r 0 10 rfl
    ⟨⟨_, rfl⟩, by rintro m std h; cases h; norm_num, by rintro _ _ _ h; cases h⟩ h0 h1
  have := Parameter.logPriorOver_of_terms (sig := fun _ => none) (pm := peakPM r) (ord := ["er_rate"]) (fun _ => -(r - 3) ^ 2 / 2) (by
    intro n hn
    simp only [List.mem_singleton] at hn
    subst hn
    refine Parameter.termOf_of (q := [("er_rate", r)]) (x := r) (s := ⟨.norm 3 1, some (0, 10), none⟩) rfl (by simp [PyDict.get?]) rfl ?_
    rw [h]
    simp [Parameter.priorLogDensity])
  simpa using this

theorem peakRates (r : ℝ) : ∀ p ∈ [Part.sim exArgs], p.name ++ "_rate" ∈ (replaceAlias noisySetup.al [("er_rate", r)]).keys := by
  intro p hp
  simp only [List.mem_singleton] at hp
  subst hp
  simp [noisySetup, Part.name, exArgs, replaceAlias, PyDict.keys]

theorem peakVaries (r r' : ℝ) : Varies noisySetup [.sim exArgs] [("er_rate", r)] [("er_rate", r')] := by
  refine ⟨fun k hk => ?_, peakRates r'⟩
  have hk' : k ≠ "er_rate" := by
    rintro rfl
    exact hk ⟨.sim exArgs, by simp, rfl⟩
  simp [noisySetup, replaceAlias, PyDict.get?, Ne.symm hk']

theorem peakBetween : Between (1 / 2) [("er_rate", 3)] [("er_rate", 7)] [("er_rate", 5)] := by
  refine ⟨fun k => ?_, fun k h => ?_, fun k a b h1 h2 => ?_⟩
  · by_cases hk : "er_rate" = k <;> simp [PyDict.get?, hk]
  · by_cases hk : "er_rate" = k
    · simp [PyDict.get?, hk] at h
    · simp [PyDict.get?, hk]
  · by_cases hk : "er_rate" = k
    · simp [PyDict.get?, hk] at h1 h2 ⊢
      rw [← h1, ← h2]
      norm_num
    · simp [PyDict.get?, hk] at h1

/-- Non-vacuity of C138: at rates 3, 5 and 7 the log posterior is finite, and at 5 it is larger than the mean of the other two. -/
example (eq : Equi ℝ) : ∃ (c : Ctx.Ctx Bool) (v1 v2 v : ℝ) (l1 l2 l : XF),
    (Ctx.logPosterior (fun _ => none) ["er_rate"] (fun i => i == 0) c (.dict [("er_rate", .fin 3)]) 10 2).2 = .ok (.fin v1, l1) ∧
    (Ctx.logPosterior (fun _ => none) ["er_rate"] (fun i => i == 0) c (.dict [("er_rate", .fin 7)]) 10 2).2 = .ok (.fin v2, l2) ∧
    (Ctx.logPosterior (fun _ => none) ["er_rate"] (fun i => i == 0) c (.dict [("er_rate", .fin 5)]) 10 2).2 = .ok (.fin v, l) ∧
    (v1 + v2) / 2 < v := by
  obtain ⟨st, g', hb⟩ := noisyBuild
  obtain ⟨b, hinit, hbins, hdata⟩ := noisyInit eq
  let f : Fitted Bool := ⟨"l", noisySetup, [.sim exArgs], b.bins, b.data⟩
  let c : Ctx.Ctx Bool := ⟨[], peakPM 3, [], [("l", .binned [] b.dataHist st)]⟩
  have hfs : List.Forall₂ (fun e f => Fitted.Made f e) c.likelihoods [f] := .cons ⟨eq, _, _, b, {}, st, g', hinit, rfl, rfl, by
    simpa only [f, hbins] using noisyProper, hb, rfl⟩ .nil
  have hfree : ∀ f' ∈ [f], RateFree f'.setup f'.parts := by
    intro f' hf' q q' _ p
    simp only [List.mem_singleton] at hf'
    subst hf'
    rfl
  have one : ∀ {P : Fitted Bool → Prop}, P f → ∀ f' ∈ [f], P f' := by
    intro P h f' hf'
    simp only [List.mem_singleton] at hf'
    subst hf'
    exact h
  obtain ⟨order, h1, h2⟩ := C138_rates c [f] hfs (by simp) hfree
  obtain ⟨order', h1', h2'⟩ := C138_concave c [f] hfs (by simp) hfree
  obtain ⟨sss, d, hv⟩ := h2 (fun i => i == 0) 10 [("er_rate", 3)] (one (peakRates 3))
  obtain ⟨sss', d', hv'⟩ := h2' (fun i => i == 0) 10 [("er_rate", 3)] (one (peakRates 3))
  have shape : ∀ {order : String → String → List Plugin} {i : Nat} {l : List (List (Sample ℝ))} {k' : Bool},
      (∀ a, Part.sim a ∈ f.parts → Topological a.registry (f.setup.binsOn ++ ["eff"]) (order f.name a.comp)) →
      DrawsAll order 10 [("er_rate", 3)] [f] (i == 0) l k' → l = [[noisySample 10 (i == 0)]] := by
    intro order i l k' ht hd
    cases hd with
    | cons d1 d2 =>
      cases d2
      rw [(noisyDraws (ht exArgs (by simp [f])) d1).1]
      simp
  have hs : ∀ i, sss i = [[noisySample 10 (i == 0)]] := fun i => shape (h1 f (by simp)) (d i).choose_spec
  have hs' : ∀ i, sss' i = [[noisySample 10 (i == 0)]] := fun i => shape (h1' f (by simp)) (d' i).choose_spec
  have norm : ∀ (i : Nat), ∀ ss ∈ [[noisySample 10 (i == 0)]], ∀ s ∈ ss, s.Normalisable := by
    intro i ss hss s hs'
    simp only [List.mem_singleton] at hss
    subst hss
    simp only [List.mem_singleton] at hs'
    subst hs'
    exact (noisyExpected _ _).1
  have pos : ∀ (i : Nat) (r : ℝ), 0 < r → AllPositive [("er_rate", r)] [f] [[noisySample 10 (i == 0)]] := by
    intro i r hr
    refine .cons ?_ .nil
    intro b' hb'
    have hb'' : b' ∈ binList (.irreg1 ([0, 1, 2] : List ℝ)) := by simpa only [f, hbins] using hb'
    have e := noisyPos 10 (i == 0) b' hb''
    have e1 : expectedIn [noisySample 10 (i == 0)] b' = 3 * (noisySample 10 (i == 0)).template b' := by
      simp only [expectedIn, List.map_cons, List.map_nil, List.sum_cons, List.sum_nil, add_zero, Sample.expected, Sample.template]
      exact mul_div_assoc _ _ _
    have e2 : ratesOf f.parts (replaceAlias f.setup.al [("er_rate", r)]) = [r] := rfl
    rw [e2]
    simp only [atRates, List.zipWith_cons_cons, List.zipWith_nil_right, List.sum_cons, List.sum_nil, add_zero]
    rw [e1] at e
    exact mul_pos hr (by linarith)
  have val := fun r (h0 : (0 : ℝ) < r) (h10 : r ≤ 10) =>
    (hv 2 (fun i _ => by rw [hs i]; exact norm i) (fun _ => none) ["er_rate"] (.dict [("er_rate", .fin r)]) (peakPM r) _ [("er_rate", r)]
      (peakSet r) rfl (peakPrior r h0.le h10) (one (peakVaries 3 r))).1 (fun i _ => by rw [hs i]; exact pos i r h0)
  have e1 := val 3 (by norm_num) (by norm_num)
  have e2 := val 7 (by norm_num) (by norm_num)
  obtain ⟨v, lp, lp1, lp2, e, _, _, _, hle, heq⟩ := hv' 2 (fun i _ => by rw [hs' i]; exact norm i) (fun _ => none) ["er_rate"] (.dict [("er_rate", .fin 3)]) (peakPM 3)
    (.dict [("er_rate", .fin 7)]) (peakPM 7) [("er_rate", 7)] (.dict [("er_rate", .fin 5)]) (peakPM 5) [("er_rate", 5)] (1 / 2) _ _ _ _
    (peakSet 3) rfl (peakSet 7) rfl (peakSet 5) rfl (one (peakVaries 3 7)) peakBetween (by norm_num) (by norm_num) e1 e2
  refine ⟨c, _, _, v, _, _, _, e1, e2, e, lt_of_le_of_ne (by linarith) ?_⟩
  intro hne
  have := (heq (by linarith) (by norm_num) (by norm_num)).2 "er_rate" (by simp) _ rfl trivial
  simp [PyDict.get?] at this

end Verif.Llh
