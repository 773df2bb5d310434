/-
Properties of the shipped plugins: quanta (C50), efficiencies (C51) and signals (C53).
-/
import Verif.Lemmas.Plugins
import Verif.Lemmas.Randgen

namespace Verif.Plugins
open Verif

/-! ### C50: quanta are conserved -/

/-- C50: the first ER model conserves quanta for every energy, parameter and draw, special floats included. -/
theorem C50_er (r : Rounding) (big : Nat) (b1 b2 : Binomial) (h1 : BinomialOk b1) (h2 : BinomialOk b2) (z1 z2 : ℝ)
    (w fano nexNi mean std energy : XF) : Conserved (chainER r big b1 b2 z1 z2 w fano nexNi mean std energy) := by
  have hq : 0 ≤ quanta r big z1 w fano energy := roundInt_truncLow r big z1 _ _
  have hi := h1 (.fin 1 / (.fin 1 + nexNi)) _ hq
  have he := h2 (.fin 1 - trueRecombER z2 mean std) _ hi.1
  unfold chainER ionizationER recombinationER
  constructor <;> simp only [] <;> omega

/-- C50: the NEST NR model conserves quanta for every mean, parameter and draw, special floats included. -/
theorem C50_nr (r : Rounding) (big : Nat) (z1 z2 z3 z4 alpha2 : ℝ) (fanoNi fanoNex nph ne ratio alf recombProb var : XF) :
    Conserved (chainNR r big z1 z2 z3 z4 alpha2 fanoNi fanoNex nph ne ratio alf recombProb var) := by
  have hi : 0 ≤ (trueExcitonIonNR r big z1 z2 fanoNi fanoNex nph ne ratio alf).1 := roundInt_truncLow r big z1 _ _
  have hx : 0 ≤ (trueExcitonIonNR r big z1 z2 fanoNi fanoNex nph ne ratio alf).2.1 := roundInt_truncLow r big z2 _ _
  have hq : (trueExcitonIonNR r big z1 z2 fanoNi fanoNex nph ne ratio alf).2.2
      = (trueExcitonIonNR r big z1 z2 fanoNi fanoNex nph ne ratio alf).2.1
        + (trueExcitonIonNR r big z1 z2 fanoNi fanoNex nph ne ratio alf).1 := rfl
  unfold chainNR truePhotonElectronNR
  generalize trueExcitonIonNR r big z1 z2 fanoNi fanoNex nph ne ratio alf = t at *
  simp only []
  generalize roundInt r big _ = k
  have hk := clipInt_range (x := k) hi
  constructor <;> simp only [] <;> omega

/-- C50: the NEST ER model conserves quanta for every mean, parameter and draw, special floats included. -/
theorem C50_nest_er (r : Rounding) (big : Nat) (b : Binomial) (hb : BinomialOk b) (z1 z2 : ℝ)
    (nph ne fano alf recombProb var : XF) : Conserved (chainNestER r big b z1 z2 nph ne fano alf recombProb var) := by
  have hq : 0 ≤ (trueExcitonIonER r big b z1 nph ne fano alf).2.2 := roundInt_trunc r big z1 _ _
  have hi : (trueExcitonIonER r big b z1 nph ne fano alf).1
      = clipInt (b alf (trueExcitonIonER r big b z1 nph ne fano alf).2.2) 0 (trueExcitonIonER r big b z1 nph ne fano alf).2.2 := rfl
  have hx : (trueExcitonIonER r big b z1 nph ne fano alf).2.1
      = clipInt ((trueExcitonIonER r big b z1 nph ne fano alf).2.2 - b alf (trueExcitonIonER r big b z1 nph ne fano alf).2.2) 0
        (trueExcitonIonER r big b z1 nph ne fano alf).2.2 := rfl
  unfold chainNestER truePhotonElectronER
  generalize trueExcitonIonER r big b z1 nph ne fano alf = t at *
  have hbt := hb alf _ hq
  have hi' : t.1 = b alf t.2.2 := by rw [hi]; unfold clipInt; omega
  have hx' : t.2.1 = t.2.2 - b alf t.2.2 := by rw [hx]; unfold clipInt; omega
  simp only []
  generalize roundInt r big _ = k
  have hk := clipInt_range (x := k) (n := t.1) (by omega)
  constructor <;> simp only [] <;> omega

/-- C50: the binomial sampler the package uses by default (C46) fulfils what the chains ask of theirs, whatever value it gives
for a probability that is not finite, as long as that is a count. -/
theorem C50_sampler (rnd : ℝ → ℤ) (threshold : Nat) (z : ℝ) (u : Nat → ℝ) (other : ℤ → ℤ) (ho : ∀ n, 0 ≤ n → 0 ≤ other n ∧ other n ≤ n) :
    BinomialOk (fun p n => match p with | .fin p => Randgen.hybrid rnd threshold p n z u | _ => other n) := by
  intro p n hn
  cases p with
  | fin p =>
    have h := Randgen.hybrid_range rnd threshold p n z u
    exact ⟨h.1, h.2.trans (by omega)⟩
  | nan => exact ho n hn
  | ninf => exact ho n hn
  | pinf => exact ho n hn

/-- C50, NR from yields: photons and electrons are drawn on their own, neither is negative. -/
theorem C50_yields (p : Poisson) (hp : PoissonOk p) (median t energy : ℝ) (he : 0 ≤ energy) :
    0 ≤ numberQuanta p (.fin energy) (scaledYield (.fin median) (.fin t)) := by
  apply hp
  unfold scaledYield clip
  rw [jmin_pinf]
  rcases jmax_zero_cases (.fin median * (.fin 1 + .fin t)) with h | h | ⟨y, hy, h⟩
  · exfalso
    simp only [XF.fin_add_fin, XF.fin_mul_fin, jmax] at h
    split_ifs at h
  · exfalso
    simp only [XF.fin_add_fin, XF.fin_mul_fin, jmax] at h
    split_ifs at h
  · rw [h, XF.fin_mul_fin, XF.fin_le_fin]
    exact mul_nonneg hy he

/-- Rounding down is a rounding. -/
noncomputable def floorRounding : Rounding := ⟨Int.floor, Int.floor_mono, Int.floor_intCast⟩

/-- Half of the trials succeed. -/
def halfBinomial : Binomial := fun _ n => n / 2

theorem halfBinomial_ok : BinomialOk halfBinomial := by
  intro p n hn
  unfold halfBinomial
  omega

/-- A case of C50 that is not trivial: ten quanta, five ions, two electrons. -/
example : chainER floorRounding 0 halfBinomial halfBinomial 0 0 (.fin 1) (.fin 1) (.fin 1) (.fin 0) (.fin 0) (.fin 10)
    = ⟨10, 5, 5, 8, 2⟩ := by
  have h : quanta floorRounding 0 0 (.fin 1) (.fin 1) (.fin 10) = 10 := by
    simp only [quanta, truncLow, normal, XF.fin_div_fin_of_ne _ one_ne_zero, XF.fin_mul_fin, xsqrt, floorRounding]
    rw [if_neg (by norm_num)]
    simp only [XF.fin_mul_fin, XF.fin_add_fin, jmax, XF.fin_lt_fin]
    rw [if_neg (by norm_num)]
    simp only [roundInt]
    norm_num
  simp only [chainER, h, ionizationER, recombinationER, halfBinomial]
  norm_num

/-! ### C51: efficiencies are probabilities -/

/-- C51: the efficiency is a probability for every area, threshold and every map value that is a number or infinite. -/
theorem C51_efficiency (threshold area m1 m2 m3 : XF) (h1 : m1 ≠ .nan) (h2 : m2 ≠ .nan) (h3 : m3 ≠ .nan) :
    IsProb (eff (s2Threshold threshold area) (clippedMap m1) (clippedMap m2) (clippedMap m3)) := by
  have h0 : IsProb (s2Threshold threshold area) := by
    unfold s2Threshold
    split_ifs
    · exact ⟨1, rfl, zero_le_one, le_refl _⟩
    · exact ⟨0, rfl, le_refl _, zero_le_one⟩
  exact ((h0.mul (clip_prob m1 h1)).mul (clip_prob m2 h2)).mul (clip_prob m3 h3)

/-- C51: a map that returns NaN is the only way to an efficiency that is no probability, and it makes the efficiency NaN. -/
theorem C51_nan (threshold area m1 m2 m3 : XF) :
    eff (s2Threshold threshold area) (clippedMap m1) (clippedMap m2) (clippedMap m3) = .nan ↔ m1 = .nan ∨ m2 = .nan ∨ m3 = .nan := by
  constructor
  · intro h
    by_contra hc
    push Not at hc
    obtain ⟨y, hy, _⟩ := C51_efficiency threshold area m1 m2 m3 hc.1 hc.2.1 hc.2.2
    rw [hy] at h
    cases h
  · intro h
    unfold eff
    rcases h with rfl | rfl | rfl
    · simp [show clippedMap .nan = .nan from rfl]
    · simp [show clippedMap .nan = .nan from rfl]
    · simp [show clippedMap .nan = .nan from rfl]

/-- C51: an event at or below the S2 threshold, or without an S2 area, has efficiency zero; above it the threshold changes nothing. -/
theorem C51_threshold (threshold area m1 m2 m3 : XF) (h1 : m1 ≠ .nan) (h2 : m2 ≠ .nan) (h3 : m3 ≠ .nan) :
    (¬ threshold < area → eff (s2Threshold threshold area) (clippedMap m1) (clippedMap m2) (clippedMap m3) = .fin 0)
    ∧ (threshold < area → eff (s2Threshold threshold area) (clippedMap m1) (clippedMap m2) (clippedMap m3)
        = clippedMap m1 * clippedMap m2 * clippedMap m3) := by
  obtain ⟨a, ha, -⟩ := clip_prob m1 h1
  obtain ⟨b, hb, -⟩ := clip_prob m2 h2
  obtain ⟨c, hc, -⟩ := clip_prob m3 h3
  constructor <;> intro h
  · simp only [eff, s2Threshold, if_neg h, clippedMap, ha, hb, hc, XF.fin_mul_fin, zero_mul]
  · simp only [eff, s2Threshold, if_pos h, clippedMap, ha, hb, hc, XF.fin_mul_fin, one_mul]

/-- C51: the efficiency of the yield components is one inside the energy range and zero outside, NaN energies included. -/
theorem C51_clip (lower upper : ℝ) (center : XF) :
    (monoEnergiesClipEff lower upper center = .fin 1 ↔ ∃ e, center = .fin e ∧ lower ≤ e ∧ e ≤ upper)
    ∧ (monoEnergiesClipEff lower upper center = .fin 0 ↔ ¬ ∃ e, center = .fin e ∧ lower ≤ e ∧ e ≤ upper) := by
  have hk : (XF.fin lower ≤ center ∧ center ≤ XF.fin upper) ↔ ∃ e, center = .fin e ∧ lower ≤ e ∧ e ≤ upper := by
    cases center with
    | nan => simp
    | ninf => simp
    | pinf => simp
    | fin e => simp
  unfold monoEnergiesClipEff
  rw [← hk]
  by_cases h : XF.fin lower ≤ center ∧ center ≤ XF.fin upper <;> simp [h]

/-- A case of C51 that is not trivial: a map value above one and another below zero after shifting by sigmas. -/
example : eff (s2Threshold (.fin 100) (.fin 200)) (clippedMap (.fin (3 / 2))) (clippedMap (.fin (1 / 2))) (clippedMap .pinf) = .fin (1 / 2) := by
  have h1 : (XF.fin 100) < .fin 200 := by rw [XF.fin_lt_fin]; norm_num
  simp only [eff, s2Threshold, if_pos h1, clippedMap, clip, jmax, jmin, XF.fin_lt_fin]
  norm_num [XF.fin_mul_fin]

/-! ### C53: signals -/

/-- C53: detected photons are at most the produced ones, photoelectrons between once and twice the detected photons. -/
theorem C53_s1 (b1 b2 : Binomial) (h1 : BinomialOk b1) (h2 : BinomialOk b2) (g1 pDpe lce : XF) (photons : ℤ) (h : 0 ≤ photons) :
    0 ≤ photonDetection b1 g1 pDpe lce photons ∧ photonDetection b1 g1 pDpe lce photons ≤ photons
    ∧ photonDetection b1 g1 pDpe lce photons ≤ s1PE b2 pDpe (photonDetection b1 g1 pDpe lce photons)
    ∧ s1PE b2 pDpe (photonDetection b1 g1 pDpe lce photons) ≤ 2 * photonDetection b1 g1 pDpe lce photons := by
  have hd := h1 (clip (g1 * lce / (.fin 1 + pDpe)) (.fin 0) (.fin 1)) photons h
  have hp := h2 pDpe _ hd.1
  unfold s1PE photonDetection
  omega

/-- C53: the probability a photon is detected with is a probability unless it is NaN. -/
theorem C53_detection_probability (g1 pDpe lce : ℝ) (h : 1 + pDpe ≠ 0) :
    IsProb (clip (.fin g1 * .fin lce / (.fin 1 + .fin pDpe)) (.fin 0) (.fin 1)) := by
  apply clip_prob
  rw [XF.fin_mul_fin, XF.fin_add_fin, XF.fin_div_fin_of_ne _ h]
  exact fun h => by cases h

/-- C53: drifted electrons are at most the produced ones, extracted electrons at most the drifted ones, S2 photoelectrons
between once and twice the detected photons, for every extraction efficiency. -/
theorem C53_s2 (b0 b1 b2 : Binomial) (p : Poisson) (h0 : BinomialOk b0) (h1 : BinomialOk b1) (h2 : BinomialOk b2) (hp : PoissonOk p)
    (survive : XF) (g2 gasGain pDpe rel lce : ℝ) (hg : 0 ≤ gasGain * rel * lce) (hd : 0 < 1 + pDpe) (electrons : ℤ) (he : 0 ≤ electrons) :
    let d := electronDrifted b0 survive electrons
    let s := s2PE b1 b2 p (.fin g2) (.fin gasGain) (.fin pDpe) (.fin rel) (.fin lce) d
    0 ≤ d ∧ d ≤ electrons ∧ 0 ≤ s.1 ∧ s.1 ≤ d ∧ 0 ≤ s.2.1 ∧ s.2.1 ≤ s.2.2 ∧ s.2.2 ≤ 2 * s.2.1 := by
  have hdr := h0 survive electrons he
  have hex := h1 (.fin g2 / (.fin gasGain * .fin rel)) _ hdr.1
  unfold electronDrifted s2PE
  simp only []
  generalize b0 survive electrons = d at *
  generalize b1 (.fin g2 / (.fin gasGain * .fin rel)) d = x at *
  have hph : 0 ≤ p (.fin x * (.fin gasGain * .fin rel * .fin lce / (.fin 1 + .fin pDpe))) := by
    apply hp
    rw [XF.fin_mul_fin, XF.fin_mul_fin, XF.fin_add_fin, XF.fin_div_fin_of_ne _ hd.ne', XF.fin_mul_fin, XF.fin_le_fin]
    have : (0 : ℝ) ≤ x := by exact_mod_cast hex.1
    positivity
  generalize p (.fin x * (.fin gasGain * .fin rel * .fin lce / (.fin 1 + .fin pDpe))) = k at *
  have hk := h2 (.fin pDpe) k hph
  refine ⟨hdr.1, hdr.2, hex.1, hex.2, hph, ?_, ?_⟩ <;> omega

/-- C53: the survival probability of a drifting electron is positive, and a probability exactly when velocity and lifetime have
one sign or the event is at the top. -/
theorem C53_survival (velocity sigma elife z : ℝ) (hv : 0 < velocity) (hl : elife * (1 + sigma) ≠ 0) :
    0 < driftLoss velocity sigma elife z ∧ (driftLoss velocity sigma elife z ≤ 1 ↔ 0 < elife * (1 + sigma) ∨ z = 0) := by
  unfold driftLoss
  refine ⟨Real.exp_pos _, ?_⟩
  rw [Real.exp_le_one_iff]
  rcases lt_or_gt_of_ne hl with h | h
  · constructor
    · intro hle
      right
      by_contra hz
      have : 0 < -|z| / velocity / (elife * (1 + sigma)) :=
        div_pos_of_neg_of_neg (div_neg_of_neg_of_pos (neg_neg_of_pos (abs_pos.2 hz)) hv) h
      linarith
    · rintro (h' | rfl)
      · linarith
      · simp
  · refine ⟨fun _ => Or.inl h, fun _ => ?_⟩
    exact div_nonpos_of_nonpos_of_nonneg (div_nonpos_of_nonpos_of_nonneg (neg_nonpos.2 (abs_nonneg z)) hv.le) h.le

/-- A case of C53 that is not trivial: four of nine photons are detected and give six photoelectrons. -/
example : photonDetection halfBinomial (.fin 1) (.fin 0) (.fin 1) 9 = 4 ∧ s1PE halfBinomial (.fin 0) 4 = 6 := by decide

/-- Non-vacuity of `C53_s2` and `C53_survival`: a Poisson source that gives no photons, and an event half a life time below the gate. -/
example : BinomialOk halfBinomial ∧ PoissonOk (fun _ => 0) ∧
    (s2PE halfBinomial halfBinomial (fun _ => 0) (.fin 10) (.fin 20) (.fin (1 / 5)) (.fin 1) (.fin 1) (electronDrifted halfBinomial (.fin 1) 9)).1 = 2 ∧
    driftLoss 1 0 2 (-1) ≤ 1 := by
  refine ⟨fun p n hn => by unfold halfBinomial; omega, fun _ _ => le_rfl, ?_, ?_⟩
  · rfl
  · exact (C53_survival 1 0 2 (-1) one_pos (by norm_num)).2.2 (.inl (by norm_num))

end Verif.Plugins
