/- Lemmas for the law of the negative binomial sampler: a draw whose argument is another, independent draw. -/
import Verif.Lemmas.GenPoisson
import Verif.Props.Sigmas

namespace Verif.Randgen
open Verif MeasureTheory ProbabilityTheory
open scoped ENNReal

/-- A number drawn with a random argument: condition on the argument. -/
theorem mix_law {Ω Ω' A : Type} [MeasurableSpace Ω] [MeasurableSpace Ω'] [MeasurableSpace A] (P : Measure Ω) [IsProbabilityMeasure P]
    (G : Ω → A) (X : Ω → Ω') (hG : Measurable G) (hX : Measurable X) (hind : IndepFun G X P) (f : A × Ω' → ℕ) (hf : Measurable f)
    (n : ℕ) : P {ω | f (G ω, X ω) = n} = ∫⁻ a, P {ω | f (a, X ω) = n} ∂(P.map G) := by
  have hS : MeasurableSet {x : A × Ω' | f x = n} := hf (measurableSet_singleton n)
  have h := (indepFun_iff_map_prod_eq_prod_map_map hG.aemeasurable hX.aemeasurable).1 hind
  have h1 : P {ω | f (G ω, X ω) = n} = (P.map (fun ω => (G ω, X ω))) {x | f x = n} := by
    rw [Measure.map_apply (hG.prodMk hX) hS]; rfl
  have := Measure.isProbabilityMeasure_map (μ := P) hX.aemeasurable
  rw [h1, h, Measure.prod_apply hS]
  apply lintegral_congr
  intro a
  rw [Measure.map_apply hX (measurable_prodMk_left hS)]
  rfl

variable {m : Nat} {Ω : Type} [mΩ : MeasurableSpace Ω] {P : Measure Ω} [IsProbabilityMeasure P] {r : Ω → Rng m}
  {sig : Key → MeasurableSpace Ω}

/-- A Poisson draw whose expectation is computed from a gamma draw of another key. -/
theorem poisson_of_gamma (hr : IdealDraws P r sig) (k1 k2 : Key) (hne : k1 ≠ k2) (a : Fin m → ℝ)
    (g : (Fin m → ℝ) → Fin m → ℝ) (hg : Measurable g) (i : Fin m) (n : ℕ) :
    P {ω | (r ω).poisson k2 (g ((r ω).gamma k1 a)) i = n} =
      ∫⁻ x, P {ω | (r ω).poisson k2 (g x) i = n} ∂(P.map (fun ω => (r ω).gamma k1 a)) := by
  have hG : Measurable (fun ω => (r ω).gamma k1 a) := (hr.gamma_meas k1 a).mono (hr.le k1) le_rfl
  have hind : Indep (sig k1) (sig k2) P := hr.indep.indep hne
  refine @mix_law Ω Ω (Fin m → ℝ) mΩ (sig k2) _ P _ (fun ω => (r ω).gamma k1 a) id hG (measurable_id'' (hr.le k2)) ?_
    (fun x => (r x.2).poisson k2 (g x.1) i) ?_ n
  · show Indep _ _ P
    rw [MeasurableSpace.comap_id]
    exact indep_of_indep_of_le_left hind (hr.gamma_meas k1 a).comap_le
  · have h1 := hr.poisson_meas k2
    have h2 : @Measurable _ _ ((inferInstance : MeasurableSpace (Fin m → ℝ)).prod (sig k2))
        ((inferInstance : MeasurableSpace (Fin m → ℝ)).prod (sig k2)) (fun x : (Fin m → ℝ) × Ω => (g x.1, x.2)) := by
      letI : MeasurableSpace Ω := sig k2
      exact (hg.comp measurable_fst).prodMk measurable_snd
    exact (measurable_pi_apply i).comp (h1.comp h2)

/-- Averaging Poisson probabilities over a gamma law gives the negative binomial law. -/
theorem gamma_poisson_lintegral (n p : ℝ) (hn : 0 < n) (h0 : 0 < p) (h1 : p < 1) (k : Nat) :
    ∫⁻ x, ENNReal.ofReal (poisW (x / (p / (1 - p))) k) ∂(gammaMeasure n 1) =
      ENNReal.ofReal (Real.Gamma (n + k) / (k.factorial * Real.Gamma n) * p ^ n * (1 - p) ^ k) := by
  have hq : 0 < 1 - p := by linarith
  have hmeas : Measurable (fun x : ℝ => ENNReal.ofReal (poisW (x / (p / (1 - p))) k)) := by
    unfold poisW; fun_prop
  rw [gammaMeasure, lintegral_withDensity_eq_lintegral_mul _ (by unfold gammaPDF; exact (measurable_gammaPDFReal n 1).ennreal_ofReal) hmeas]
  have hG : 0 < Real.Gamma n := Real.Gamma_pos_of_pos hn
  have hd := C69_distribution n p hn h0 h1 k
  have hsplit : ∫⁻ x, (gammaPDF n 1 * fun x => ENNReal.ofReal (poisW (x / (p / (1 - p))) k)) x =
      ∫⁻ x in Set.Ioi (0 : ℝ), (gammaPDF n 1 * fun x => ENNReal.ofReal (poisW (x / (p / (1 - p))) k)) x := by
    rw [← lintegral_indicator measurableSet_Ioi]
    apply lintegral_congr_ae
    have h00 : ∀ᵐ x : ℝ, x ≠ 0 := by simp [ae_iff]
    filter_upwards [h00] with x hx
    by_cases hp : 0 < x
    · rw [Set.indicator_of_mem (show x ∈ Set.Ioi (0 : ℝ) from hp)]
    · rw [Set.indicator_of_notMem (show x ∉ Set.Ioi (0 : ℝ) from hp)]
      have : x < 0 := lt_of_le_of_ne (not_lt.1 hp) hx
      rw [Pi.mul_apply, gammaPDF_of_neg this, zero_mul]
  rw [hsplit]
  have hcongr : ∫⁻ x in Set.Ioi (0 : ℝ), (gammaPDF n 1 * fun x => ENNReal.ofReal (poisW (x / (p / (1 - p))) k)) x =
      ∫⁻ x in Set.Ioi (0 : ℝ), ENNReal.ofReal ((x ^ (n - 1) * Real.exp (-x) / Real.Gamma n)
        * (Real.exp (-(x / (p / (1 - p)))) * (x / (p / (1 - p))) ^ k / k.factorial)) := by
    apply setLIntegral_congr_fun measurableSet_Ioi
    intro x hx
    have hx' : 0 < x := hx
    simp only [Pi.mul_apply]
    rw [gammaPDF_of_nonneg hx'.le, ← ENNReal.ofReal_mul (by positivity)]
    congr 1
    unfold poisW
    rw [Real.one_rpow, one_mul]
    ring
  rw [hcongr, ← hd, ofReal_integral_eq_lintegral_ofReal]
  · by_contra hni
    have := integral_undef hni
    rw [hd] at this
    have hpos : 0 < Real.Gamma (n + k) / (k.factorial * Real.Gamma n) * p ^ n * (1 - p) ^ k := by
      have : 0 < Real.Gamma (n + k) := Real.Gamma_pos_of_pos (by positivity)
      positivity
    exact hpos.ne' this
  · filter_upwards [ae_restrict_mem measurableSet_Ioi] with x hx
    have hx' : 0 < x := hx
    positivity

/-- The law of a negative binomial draw. -/
theorem negBinom_law (hr : IdealDraws P r sig) (k1 k2 : Key) (hne : k1 ≠ k2) (p a : Fin m → ℝ) (i : Fin m) (ha : 0 < a i)
    (h0 : 0 < p i) (h1 : p i < 1) (k : ℕ) :
    P {ω | (r ω).poisson k2 (fun j => (r ω).gamma k1 a j / (p j / (1 - p j))) i = k} =
      ENNReal.ofReal (Real.Gamma (a i + k) / (k.factorial * Real.Gamma (a i)) * p i ^ a i * (1 - p i) ^ k) := by
  have hq : 0 < 1 - p i := by linarith
  have hG : Measurable (fun ω => (r ω).gamma k1 a) := (hr.gamma_meas k1 a).mono (hr.le k1) le_rfl
  rw [poisson_of_gamma hr k1 k2 hne a (fun x j => x j / (p j / (1 - p j)))
    (measurable_pi_lambda _ (fun j => (measurable_pi_apply j).div_const _)) i k]
  have hae : ∀ᵐ x ∂(P.map (fun ω => (r ω).gamma k1 a)), 0 ≤ x i := by
    rw [ae_map_iff hG.aemeasurable (show MeasurableSet {x : Fin m → ℝ | 0 ≤ x i} from measurable_pi_apply i measurableSet_Ici)]
    have h2 : ∀ᵐ y ∂(P.map (fun ω => (r ω).gamma k1 a i)), 0 ≤ y := by
      rw [hr.gamma_law k1 a i ha, gammaMeasure, ae_withDensity_iff (by unfold gammaPDF; exact (measurable_gammaPDFReal _ 1).ennreal_ofReal)]
      filter_upwards with y hy
      by_contra hc
      exact hy (gammaPDF_of_neg (not_le.1 hc))
    exact (ae_map_iff ((measurable_pi_apply i).comp hG).aemeasurable measurableSet_Ici).1 h2
  have hmeas : Measurable (fun y : ℝ => ENNReal.ofReal (poisW (y / (p i / (1 - p i))) k)) := by
    unfold poisW; fun_prop
  calc ∫⁻ x, P {ω | (r ω).poisson k2 (fun j => x j / (p j / (1 - p j))) i = k} ∂(P.map (fun ω => (r ω).gamma k1 a))
      = ∫⁻ x, ENNReal.ofReal (poisW (x i / (p i / (1 - p i))) k) ∂(P.map (fun ω => (r ω).gamma k1 a)) := by
        apply lintegral_congr_ae
        filter_upwards [hae] with x hx
        exact hr.poisson_law k2 _ i k (by positivity)
    _ = ∫⁻ y, ENNReal.ofReal (poisW (y / (p i / (1 - p i))) k) ∂(P.map (fun ω => (r ω).gamma k1 a i)) := by
        have e1 := lintegral_map (μ := P) (hmeas.comp (measurable_pi_apply (X := fun _ : Fin m => ℝ) i)) hG
        have e2 := lintegral_map (μ := P) hmeas ((measurable_pi_apply (X := fun _ : Fin m => ℝ) i).comp hG)
        exact e1.trans e2.symm
    _ = _ := by rw [hr.gamma_law k1 a i ha, gamma_poisson_lintegral (a i) (p i) ha h0 h1 k]

/-! ### Ideal draws exist -/

theorem poisQuantile_joint : Measurable (fun x : ℝ × ℝ => poisQuantile x.1 x.2) := by
  have hc : ∀ k, Measurable (fun x : ℝ × ℝ => poisCum x.1 k) := by
    intro k
    unfold poisCum poisW
    fun_prop
  apply measurable_to_countable'
  intro n
  have : (fun x : ℝ × ℝ => poisQuantile x.1 x.2) ⁻¹' {n} =
      ({x : ℝ × ℝ | x.2 < poisCum x.1 n} ∩ ⋂ k : Fin n, {x : ℝ × ℝ | poisCum x.1 k ≤ x.2}) ∪
      ({_x : ℝ × ℝ | n = 0} ∩ ⋂ k, {x : ℝ × ℝ | poisCum x.1 k ≤ x.2}) := by
    ext u
    simp only [Set.mem_preimage, Set.mem_singleton_iff, poisQuantile_eq, Set.mem_union, Set.mem_inter_iff, Set.mem_setOf_eq,
      Set.mem_iInter]
    constructor
    · rintro (⟨h1, h2⟩ | h)
      · exact Or.inl ⟨h1, fun k => h2 k k.2⟩
      · exact Or.inr h
    · rintro (⟨h1, h2⟩ | h)
      · exact Or.inl ⟨h1, fun k hk => h2 ⟨k, hk⟩⟩
      · exact Or.inr h
  rw [this]
  refine MeasurableSet.union (MeasurableSet.inter (measurableSet_lt measurable_snd (hc n))
    (MeasurableSet.iInter (fun k => measurableSet_le (hc k) measurable_snd)))
    (MeasurableSet.inter (MeasurableSet.const _) (MeasurableSet.iInter (fun k => measurableSet_le (hc k) measurable_snd)))

/-- The randomness of one key: uniform numbers for the elements and a gamma number for each shape. -/
abbrev KeySpace (m : Nat) := (Fin m → ℝ) × (ℝ → ℝ)

/-- A source with Poisson draws from the uniform numbers and gamma draws from the gamma numbers of a key. -/
noncomputable def mixedRng (m : Nat) (ω : Key → KeySpace m) : Rng m where
  normal := fun _ _ => 0
  uniform := fun k => (ω k).1
  trials := fun _ _ _ => 0
  poisson := fun k lam i => poisQuantile (lam i) ((ω k).1 i)
  gamma := fun k a i => (ω k).2 (a i)
  bernoulli := fun _ _ _ => false
  binomial := fun _ _ _ _ => 0
  normal1 := fun _ => 0
  numpyro := fun _ _ _ => 0

/-- The gamma law of a shape that is positive. -/
noncomputable def shapeLaw (a : ℝ) : Measure ℝ := gammaMeasure (if 0 < a then a else 1) 1

instance (a : ℝ) : IsProbabilityMeasure (shapeLaw a) := by
  unfold shapeLaw
  exact isProbabilityMeasure_gammaMeasure (by split <;> [assumption; exact one_pos]) one_pos

noncomputable def keyLaw (m : Nat) : Measure (KeySpace m) := (trialsLaw m).prod (Measure.infinitePi shapeLaw)

instance (m : Nat) : IsProbabilityMeasure (keyLaw m) := by unfold keyLaw; infer_instance

noncomputable def mixedLaw (m : Nat) : Measure (Key → KeySpace m) := Measure.infinitePi (fun _ : Key => keyLaw m)

instance (m : Nat) : IsProbabilityMeasure (mixedLaw m) := by unfold mixedLaw; infer_instance

theorem idealDraws_exist (m : Nat) :
    IdealDraws (mixedLaw m) (mixedRng m) (fun k => MeasurableSpace.comap (fun ω => ω k) inferInstance) where
  le k := (measurable_pi_apply k).comap_le
  indep := iIndepFun_infinitePi (P := fun _ : Key => keyLaw m) (X := fun (_ : Key) (u : KeySpace m) => u) (fun _ => measurable_id)
  gamma_meas k a := by
    have h : Measurable (fun u : KeySpace m => fun i : Fin m => u.2 (a i)) :=
      measurable_pi_lambda _ (fun i => (measurable_pi_apply (a i)).comp measurable_snd)
    exact h.comp (comap_measurable _)
  poisson_meas k := by
    have h : Measurable (fun x : (Fin m → ℝ) × KeySpace m => fun i : Fin m => poisQuantile (x.1 i) (x.2.1 i)) :=
      measurable_pi_lambda _ (fun i => by
        have h5 : Measurable (fun x : (Fin m → ℝ) × KeySpace m => (x.1 i, x.2.1 i)) :=
          ((measurable_pi_apply i).comp measurable_fst).prodMk ((measurable_pi_apply i).comp (measurable_fst.comp measurable_snd))
        exact poisQuantile_joint.comp h5)
    letI : MeasurableSpace (Key → KeySpace m) := MeasurableSpace.comap (fun ω => ω k) inferInstance
    have h2 : Measurable (fun ω : Key → KeySpace m => ω k) := comap_measurable _
    exact h.comp (measurable_fst.prodMk (h2.comp measurable_snd))
  gamma_law k a i h := by
    have h1 : MeasurePreserving (fun ω : Key → KeySpace m => ω k) (mixedLaw m) (keyLaw m) :=
      measurePreserving_eval_infinitePi _ k
    have h2 : MeasurePreserving (Prod.snd : KeySpace m → _) (keyLaw m) (Measure.infinitePi shapeLaw) := measurePreserving_snd
    have h3 : MeasurePreserving (fun g : ℝ → ℝ => g (a i)) (Measure.infinitePi shapeLaw) (shapeLaw (a i)) :=
      measurePreserving_eval_infinitePi _ (a i)
    have h4 := (h3.comp (h2.comp h1)).map_eq
    unfold shapeLaw at h4
    rw [if_pos h] at h4
    exact h4
  poisson_law k lam i n h := by
    have h1 : MeasurePreserving (fun ω : Key → KeySpace m => ω k) (mixedLaw m) (keyLaw m) :=
      measurePreserving_eval_infinitePi _ k
    have h2 : MeasurePreserving (Prod.fst : KeySpace m → _) (keyLaw m) (trialsLaw m) := measurePreserving_fst
    have h3 : MeasurePreserving (fun u : Fin m → ℝ => u i) (trialsLaw m) (volume.restrict (Set.Ico (0 : ℝ) 1)) :=
      measurePreserving_eval _ i
    have h4 := (h3.comp (h2.comp h1)).measure_preimage
      (poisQuantile_meas (lam i) (measurableSet_singleton n)).nullMeasurableSet
    refine Eq.trans ?_ (h4.trans (poisQuantile_law h n))
    rfl

end Verif.Randgen
