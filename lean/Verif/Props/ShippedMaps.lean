/-
The shipped maps: C93.
-/
import Verif.Lemmas.ShippedMaps
import Verif.Props.Quantile
import Verif.Props.Plugins
import Verif.Props.Omega
import Verif.Props.Config

namespace Verif.MapFile
open Verif Verif.Interp Verif.Plugins MeasureTheory

/-! ### C93 -/

/-- **C93.** Every default file exists and builds with the declared method. -/
theorem C93_every_default_builds : ∀ u ∈ mapUses, u.files ≠ [] ∧ ∀ f ∈ u.files, ∃ b, readFile u.method f = .ok b := by
  have h : ∀ u ∈ mapUses, u.files ≠ [] ∧ ∀ f ∈ u.files, (mapFiles.get? f).any (Raw.plain u.method) = true := by
    decide +kernel
  intro u hu
  refine ⟨(h u hu).1, fun f hf => ?_⟩
  have := (h u hu).2 f hf
  unfold readFile
  cases hg : mapFiles.get? f with
  | none => rw [hg] at this; cases this
  | some r =>
    rw [hg] at this
    exact plain_builds u.method r this

/-- **C93.** The table of maps misses none: every configuration of a shipped plugin whose default names a file is in it. -/
theorem C93_every_map_listed :
    ∀ m ∈ [Shipped.mod_common, Shipped.mod_er_microphys, Shipped.mod_lyqy, Shipped.mod_detector, Shipped.mod_reconstruction,
      Shipped.mod_efficiency, Shipped.mod_nestv2, Shipped.mod_er_nestv2], ∀ p ∈ m, ∀ c ∈ p.configs,
      (".json".toList <:+: (c.default.getD "").toList) → ∃ u ∈ mapUses, u.plugin = p ∧ u.name = c.name := by
  decide +kernel

/-- **C93.** Every shipped map file is the default of some plugin. -/
theorem C93_every_file_used : ∀ p ∈ mapFiles, ∃ u ∈ mapUses, p.1 ∈ u.files := by
  have h : ∀ k ∈ mapFiles.keys, ∃ u ∈ mapUses, k ∈ u.files := by decide +kernel
  exact fun p hp => h p.1 (List.mem_map_of_mem hp)

/-- **C93 (nothing else).** A value can be read only from a declared map. -/
theorem C93_only_declared (name : String) (h : ∀ u ∈ mapUses, u.name ≠ name) (σ x y z : ℝ) :
    apply1 name x = .error .attributeError ∧ apply2 name x y = .error .attributeError ∧ apply3 name x y z = .error .attributeError ∧
    applySigma name σ x = .error .attributeError := by
  have hn : useOf name = none := by
    unfold useOf
    rw [List.find?_eq_none]
    intro u hu
    simpa using h u hu
  unfold apply1 apply2 apply3 applySigma
  rw [hn]
  exact ⟨rfl, rfl, rfl, rfl⟩

/-- Non-vacuity: a name that is only part of the name of a map. -/
example : apply2 "efield" 0 0 = .error .attributeError := (C93_only_declared "efield" (by decide +kernel) 0 0 0 0).2.1

/-- **C93 (uncertain maps).** A map with three files, whatever they are, is read as its first file for sigma zero, towards the
third in proportion to a positive sigma and towards the second for a negative one; without a scaler sigma is not read. -/
theorem C93_sigma (u : Use) (med low upp : String) (hf : u.files = [med, low, upp]) (x a b c : ℝ)
    (ha : read1 u.method med x = .ok a) (hb : read1 u.method low x = .ok b) (hc : read1 u.method upp x = .ok c) :
    (∀ σ, u.scaler = none → readSigma u σ x = .ok c) ∧
    (∀ σ, u.scaler ≠ none → 0 ≤ σ → readSigma u σ x = .ok (a + (c - a) * σ)) ∧
    (∀ σ, u.scaler ≠ none → σ ≤ 0 → readSigma u σ x = .ok (a + (a - b) * σ)) := by
  have e : ∀ σ, readSigma u σ x = .ok (Conf.sigmaApply a b c (u.scaler.map fun _ => σ)) := fun σ => by
    simp only [readSigma, hf, ha, hb, hc, bind, Except.bind]
  obtain ⟨-, -, -, q4, q5, q6⟩ := Conf.C24_anchor_values a b c
  refine ⟨fun σ hs => ?_, fun σ hs h0 => ?_, fun σ hs h0 => ?_⟩
  · rw [e, hs]; exact congrArg _ q4
  · obtain ⟨s, hs⟩ := Option.ne_none_iff_exists'.1 hs
    rw [e, hs]; exact congrArg _ (q5 σ h0)
  · obtain ⟨s, hs⟩ := Option.ne_none_iff_exists'.1 hs
    rw [e, hs]; exact congrArg _ (q6 σ h0)

/-- **C93 (declared maps).** Every declared map is read as declared, with its own method, files and scaler. -/
theorem C93_declared : ∀ u ∈ mapUses,
    (∀ σ x, u.files.length = 3 → applySigma u.name σ x = readSigma u σ x) ∧
    ∀ f, u.files = [f] → (∀ x, apply1 u.name x = read1 u.method f x) ∧ (∀ x y, apply2 u.name x y = read2 u.method f x y) ∧
      ∀ x y z, apply3 u.name x y z = read3 u.method f x y z := by
  have h : ∀ u ∈ mapUses, useOf u.name = some u := by decide +kernel
  intro u hu
  have h1 := h u hu
  refine ⟨fun σ x _ => by simp only [applySigma, h1], fun f hf => ?_⟩
  obtain ⟨p, n, m, fs, s⟩ := u
  cases hf
  refine ⟨fun x => ?_, fun x y => ?_, fun x y z => ?_⟩
  · simp only [apply1, h1]
  · simp only [apply2, h1]
  · simp only [apply3, h1]

/-- Non-vacuity: a map whose files differ, read half way between the median and the lower one. -/
example (x : ℝ) : ∃ b, read1 "LERP" "_3fold_recon_eff.json" x = .ok b ∧
    readSigma ⟨Shipped.efficiency_S1CutAccept, "m", "LERP", ["_s1_cut_acc.json", "_3fold_recon_eff.json", "_s1_cut_acc.json"], some "m_sigma"⟩
      (-1 / 2) x = .ok ((1 + b) / 2) := by
  obtain ⟨y, hy, h1, h2⟩ := read1_lerp_bounds "_s1_cut_acc.json" "s1_area" 1 10 file_s1_cut_acc.cs file_s1_cut_acc.vs 10 10
    rfl (by decide) (by decide) (by decide) (by decide +kernel) (by decide +kernel) (by decide +kernel) (by decide +kernel) x
  obtain rfl : y = 1 := by norm_num at h1 h2; linarith
  have hr := read1_lerp "_3fold_recon_eff.json" "hit" 10 10 [0, 10, 20, 30, 40, 50] [0, 0, 0, 10, 10, 10] rfl (by decide) x
  refine ⟨_, hr, ?_⟩
  rw [(C93_sigma _ _ _ _ rfl x 1 _ 1 hy hr hy).2.2 (-1 / 2) (by simp) (by norm_num)]
  congr 1
  ring

/-- **C93 (efficiency).** With the shipped maps the efficiency of an event is one when its S2 lies above the threshold and its
S1 has more than 2.5 detected photons (three or more, for whole numbers) and zero otherwise, whatever the three scalers are.
So the scalers `s1_cut_acc_sigma` and `s2_cut_acc_sigma`, which the component asks for, have no effect. -/
theorem C93_efficiency (threshold s1 s2 phd σ0 σ1 σ2 : ℝ) :
    ∃ m0 m1 m2, applySigma "s1_eff_3f" σ0 phd = .ok m0 ∧ applySigma "s1_cut_acc" σ1 s1 = .ok m1 ∧
      applySigma "s2_cut_acc" σ2 s2 = .ok m2 ∧
      eff (s2Threshold (.fin threshold) (.fin s2)) (clippedMap (.fin m0)) (clippedMap (.fin m1)) (clippedMap (.fin m2))
        = if threshold < s2 ∧ 5 / 2 < phd then .fin 1 else .fin 0 := by
  refine ⟨_, _, _, s1_eff_step σ0 phd, s1_cut_acc_one σ1 s1, s2_cut_acc_one σ2 s2, ?_⟩
  have c1 : clippedMap (.fin 1) = .fin 1 := by
    have e : jmax (.fin 1) (.fin 0) = .fin 1 := by
      simp only [jmax]
      rw [if_neg (by rw [XF.fin_lt_fin]; norm_num)]
    simp [clippedMap, Plugins.clip, e, jmin]
  have c0 : clippedMap (.fin 0) = .fin 0 := by simp [clippedMap, Plugins.clip, jmax, jmin]
  unfold eff s2Threshold
  by_cases ht : threshold < s2 <;> by_cases hp : 5 / 2 < phd <;> simp [ht, hp, c0, c1]

/-- A whole number of photons passes exactly from three on. -/
theorem C93_threefold (n : Nat) (σ : ℝ) : applySigma "s1_eff_3f" σ n = .ok (if 3 ≤ n then 1 else 0) := by
  rw [s1_eff_step]
  have : (5 / 2 : ℝ) < n ↔ 3 ≤ n := by
    constructor
    · intro h
      by_contra hn
      have : (n : ℝ) ≤ 2 := by exact_mod_cast (by omega : n ≤ 2)
      linarith
    · intro h
      have : (3 : ℝ) ≤ n := by exact_mod_cast h
      linarith
  simp only [this]

/-- **C93 (spectrum).** The energies drawn from the shipped spectrum lie between 0.3 (less a rounding error of the file) and 4,
increase with the draw, and have the tabulated distribution: the chance of at most `e` is the table's cumulative value at `e`. -/
theorem C93_spectrum :
    ∃ f : ℝ → ℝ, (∀ u, apply1 "energy_spectrum" u = .ok (f u)) ∧
      (∀ u, 29999999999999993 / 10 ^ 17 ≤ f u ∧ f u ≤ 4) ∧ (∀ u u', u ≤ u' → f u ≤ f u') ∧
      ∀ e p : ℝ, 29999999999999993 / 10 ^ 17 ≤ e → e ≤ 4 →
        IsLinearInterp ((decimals (10 ^ 17) file_nr_spectrum.vs).zip (decimals (10 ^ 18) file_nr_spectrum.cs)) e p →
        volume {u : ℝ | 0 ≤ u ∧ u < 1 ∧ f u ≤ e} = ENNReal.ofReal p := by
  have hu : useOf "energy_spectrum" = some ⟨Shipped.common_FixedEnergySpectra, "energy_spectrum", "LERP", ["_nr_spectrum.json"], none⟩ := by
    decide +kernel
  have hr := read1_lerp "_nr_spectrum.json" "cdf" (10 ^ 18) (10 ^ 17) file_nr_spectrum.cs file_nr_spectrum.vs rfl (by decide)
  have hc : (decimals (10 ^ 18) file_nr_spectrum.cs).Pairwise (· < ·) := decimals_strict _ (by decide) _ (by decide +kernel)
  have hv : (decimals (10 ^ 17) file_nr_spectrum.vs).Pairwise (· < ·) := decimals_strict _ (by decide) _ (by decide +kernel)
  have hlen : (decimals (10 ^ 18) file_nr_spectrum.cs).length = (decimals (10 ^ 17) file_nr_spectrum.vs).length := by
    simp only [decimals_length]; decide +kernel
  have h2 : 2 ≤ (decimals (10 ^ 18) file_nr_spectrum.cs).length := by
    simp only [decimals_length]; decide +kernel
  have hint : ∀ u, IsLinearInterp ((decimals (10 ^ 18) file_nr_spectrum.cs).zip (decimals (10 ^ 17) file_nr_spectrum.vs)) u
      (linear1d (decimals (10 ^ 18) file_nr_spectrum.cs) (decimals (10 ^ 17) file_nr_spectrum.vs) u) :=
    fun u => (C28_lerp_is_linear_interpolation _ _ hlen h2 hc u _).1 rfl
  have c0 : (decimals (10 ^ 18) file_nr_spectrum.cs).head? = some 0 := by
    rw [decimals, List.head?_map, show file_nr_spectrum.cs.head? = some 0 by decide +kernel]; simp
  have c1 : (decimals (10 ^ 18) file_nr_spectrum.cs).getLast? = some 1 := by
    rw [decimals, List.getLast?_map, show file_nr_spectrum.cs.getLast? = some (10 ^ 18) by decide +kernel]; norm_num
  have v0 : (decimals (10 ^ 17) file_nr_spectrum.vs).head? = some (29999999999999993 / 10 ^ 17) := by
    rw [decimals, List.head?_map, show file_nr_spectrum.vs.head? = some 29999999999999993 by decide +kernel]; norm_num
  have v1 : (decimals (10 ^ 17) file_nr_spectrum.vs).getLast? = some 4 := by
    rw [decimals, List.getLast?_map, show file_nr_spectrum.vs.getLast? = some 400000000000000000 by decide +kernel]; norm_num
  refine ⟨linear1d (decimals (10 ^ 18) file_nr_spectrum.cs) (decimals (10 ^ 17) file_nr_spectrum.vs), ?_, ?_, ?_, ?_⟩
  · intro u
    unfold apply1
    rw [hu]
    exact hr u
  · intro u
    obtain ⟨y, hy, h3, h4⟩ := read1_lerp_bounds "_nr_spectrum.json" "cdf" (10 ^ 18) (10 ^ 17) file_nr_spectrum.cs file_nr_spectrum.vs
      29999999999999993 400000000000000000 rfl (by decide) (by decide) (by decide) (by decide +kernel) (by decide +kernel)
      (by decide +kernel) (by decide +kernel) u
    rw [hr u] at hy
    rw [Except.ok.inj hy]
    norm_num at h3 h4 ⊢
    exact ⟨h3, h4⟩
  · intro u u' h
    refine interp_mono _ ?_ ?_ u u' _ _ (hint u) (hint u') h
    · rw [List.map_fst_zip (by omega)]; exact hc
    · rw [List.map_snd_zip (by omega)]; exact hv.imp le_of_lt
  · intro e p he1 he2 hp
    obtain ⟨f, hf, h⟩ := C64_given_cdf_partial "LERP" (.inr rfl) _ _ hlen h2 hc hv c0 c1
    have hf' : f = linear1d (decimals (10 ^ 18) file_nr_spectrum.cs) (decimals (10 ^ 17) file_nr_spectrum.vs) := by
      have e2 := build_raw_point "LERP" "cdf" (10 ^ 18) (10 ^ 17) file_nr_spectrum.cs file_nr_spectrum.vs (by decide) linear1d rfl
      simp only [Raw.file] at e2
      rw [hf] at e2
      have e3 := Built.of1.inj (Except.ok.inj e2)
      funext u
      exact Except.ok.inj (congrFun e3 u)
    rw [← hf']
    exact (h _ _ e p v0 v1 he1 he2 hp).2

/-- Non-vacuity: the table has a cumulative value at every energy, here at 2 keV. -/
example : ∃ p : ℝ, IsLinearInterp ((decimals (10 ^ 17) file_nr_spectrum.vs).zip (decimals (10 ^ 18) file_nr_spectrum.cs)) 2 p :=
  ⟨_, (C28_lerp_is_linear_interpolation _ _ (by simp only [decimals_length]; decide +kernel) (by simp only [decimals_length]; decide +kernel)
    (decimals_strict _ (by decide) _ (by decide +kernel)) 2 _).1 rfl⟩

/-- **C93 (yields).** At every energy the shipped light and charge yields are non-negative and together below 15.002 quanta per
keV, well under the 73 quanta per keV a work function of 13.7 eV allows. -/
theorem C93_yields (energy : ℝ) :
    ∃ ly qy, apply1 "ly_median" energy = .ok ly ∧ apply1 "qy_median" energy = .ok qy ∧ 0 ≤ ly ∧ 0 ≤ qy ∧
      ly ≤ 8.656 ∧ qy ≤ 6.346 ∧ ly + qy ≤ 1 / 0.0137 := by
  have hu1 : useOf "ly_median" = some ⟨Shipped.lyqy_LightYield, "ly_median", "LERP", ["_nr_ly.json"], none⟩ := by decide +kernel
  have hu2 : useOf "qy_median" = some ⟨Shipped.lyqy_ChargeYield, "qy_median", "LERP", ["_nr_qy.json"], none⟩ := by decide +kernel
  obtain ⟨ly, h1, a1, b1⟩ := read1_lerp_bounds "_nr_ly.json" "recoil energy" (10 ^ 17) (10 ^ 16) file_nr_ly.cs file_nr_ly.vs 0 86560000000000000
    rfl (by decide) (by decide) (by decide) (by decide +kernel) (by decide +kernel) (by decide +kernel) (by decide +kernel) energy
  obtain ⟨qy, h2, a2, b2⟩ := read1_lerp_bounds "_nr_qy.json" "recoil energy" (10 ^ 17) (10 ^ 16) file_nr_qy.cs file_nr_qy.vs 0 63460000000000000
    rfl (by decide) (by decide) (by decide) (by decide +kernel) (by decide +kernel) (by decide +kernel) (by decide +kernel) energy
  refine ⟨ly, qy, by unfold apply1; rw [hu1]; exact h1, by unfold apply1; rw [hu2]; exact h2, ?_⟩
  norm_num at a1 b1 a2 b2 ⊢
  exact ⟨a1, a2, by linarith, by linarith, by linarith⟩

/-- **C93 (positions).** The shipped position maps are constant: both corrections, both light collection efficiencies and the
relative gas gain are one and the field is 23 V/cm at every position, also outside the maps. -/
theorem C93_positions (x y z : ℝ) :
    apply3 "s1_lce" x y z = .ok 1 ∧ apply2 "s2_lce" x y = .ok 1 ∧ apply2 "gas_gain_relative" x y = .ok 1 ∧
    apply3 "s1_correction" x y z = .ok 1 ∧ apply2 "s2_correction" x y = .ok 1 ∧ apply2 "efield_map" x y = .ok 23 := by
  have u1 : useOf "s1_lce" = some ⟨Shipped.detector_S1LCE, "s1_lce", "IDW", ["_s1_correction.json"], none⟩ := by decide +kernel
  have u2 : useOf "s2_lce" = some ⟨Shipped.detector_S2LCE, "s2_lce", "IDW", ["_s2_correction.json"], none⟩ := by decide +kernel
  have u3 : useOf "gas_gain_relative" = some ⟨Shipped.detector_S2PE, "gas_gain_relative", "IDW", ["_gas_gain_relative.json"], none⟩ := by
    decide +kernel
  have u4 : useOf "s1_correction" = some ⟨Shipped.reconstruction_S1Correction, "s1_correction", "IDW", ["_s1_correction.json"], none⟩ := by
    decide +kernel
  have u5 : useOf "s2_correction" = some ⟨Shipped.reconstruction_S2Correction, "s2_correction", "IDW", ["_s2_correction.json"], none⟩ := by
    decide +kernel
  have u6 : useOf "efield_map" = some ⟨Shipped.detector_EField, "efield_map", "IDW", ["_efield_map.json"], none⟩ := by decide +kernel
  have r1 : read3 "IDW" "_s1_correction.json" x y z = .ok 1 := by
    rw [read3_const "IDW" "_s1_correction.json" ["x", "y", "z"] 1 10 [-70, -70, -140] [70, 70, 0] file_s1_correction.vs 5 5 5 10 rfl
      (by decide +kernel) (by omega) (by omega) (by omega) (by decide +kernel) (by decide +kernel)]
    norm_num
  have r2 : read2 "IDW" "_s2_correction.json" x y = .ok 1 := by
    rw [read2_const "IDW" "_s2_correction.json" ["x", "y"] 1 10 [-70, -70] [70, 70] file_s2_correction.vs 5 5 10 rfl
      (by decide +kernel) (by omega) (by omega) (by decide +kernel) (by decide +kernel)]
    norm_num
  have r3 : read2 "IDW" "_gas_gain_relative.json" x y = .ok 1 := by
    rw [read2_const "IDW" "_gas_gain_relative.json" ["x", "y"] 1 10 [-70, -70] [70, 70] file_gas_gain_relative.vs 5 5 10 rfl
      (by decide +kernel) (by omega) (by omega) (by decide +kernel) (by decide +kernel)]
    norm_num
  have r6 : read2 "IDW" "_efield_map.json" x y = .ok 23 := by
    rw [read2_const "IDW" "_efield_map.json" ["r", "z"] 100 10 [0, -14865] [6640, 0] file_efield_map.vs 5 5 230 rfl
      (by decide +kernel) (by omega) (by omega) (by decide +kernel) (by decide +kernel)]
    norm_num
  unfold apply2 apply3
  rw [u1, u2, u3, u4, u5, u6]
  exact ⟨r1, r2, r3, r1, r2, r6⟩

/-- **C93 (areas).** Without bias, and with smearing of at most 23.1 % (S1) and 4.25 % (S2), an area comes out negative only
for a draw below -4.3 (S1) or -23.5 (S2) standard deviations; a draw of zero gives the number of photoelectrons. -/
theorem C93_areas (pe z : ℝ) (hpe : 0 ≤ pe) :
    ∃ b1 s1 b2 s2, apply1 "s1_bias_3f" pe = .ok b1 ∧ apply1 "s1_smear_3f" pe = .ok s1 ∧
      apply1 "s2_bias" pe = .ok b2 ∧ apply1 "s2_smear" pe = .ok s2 ∧
      area b1 s1 0 pe = pe ∧ area b2 s2 0 pe = pe ∧
      (-4.3 ≤ z → 0 ≤ area b1 s1 z pe) ∧ (-23.5 ≤ z → 0 ≤ area b2 s2 z pe) := by
  have u1 : useOf "s1_bias_3f" = some ⟨Shipped.reconstruction_S1, "s1_bias_3f", "LERP", ["_s1_bias.json"], none⟩ := by decide +kernel
  have u2 : useOf "s1_smear_3f" = some ⟨Shipped.reconstruction_S1, "s1_smear_3f", "LERP", ["_s1_smearing.json"], none⟩ := by decide +kernel
  have u3 : useOf "s2_bias" = some ⟨Shipped.reconstruction_S2, "s2_bias", "LERP", ["_s2_bias.json"], none⟩ := by decide +kernel
  have u4 : useOf "s2_smear" = some ⟨Shipped.reconstruction_S2, "s2_smear", "LERP", ["_s2_smearing.json"], none⟩ := by decide +kernel
  obtain ⟨b1, e1, a1, c1⟩ := read1_lerp_bounds "_s1_bias.json" "hit" 1 1 file_s1_bias.cs file_s1_bias.vs 0 0
    rfl (by decide) (by decide) (by decide) (by decide +kernel) (by decide +kernel) (by decide +kernel) (by decide +kernel) pe
  obtain ⟨s1, e2, a2, c2⟩ := read1_lerp_bounds "_s1_smearing.json" "hit" 10 (10 ^ 18) file_s1_smearing.cs file_s1_smearing.vs 0 231000000000000000
    rfl (by decide) (by decide) (by decide) (by decide +kernel) (by decide +kernel) (by decide +kernel) (by decide +kernel) pe
  obtain ⟨b2, e3, a3, c3⟩ := read1_lerp_bounds "_s2_bias.json" "hit" 1 1 file_s2_bias.cs file_s2_bias.vs 0 0
    rfl (by decide) (by decide) (by decide) (by decide +kernel) (by decide +kernel) (by decide +kernel) (by decide +kernel) pe
  obtain ⟨s2, e4, a4, c4⟩ := read1_lerp_bounds "_s2_smearing.json" "hit" (10 ^ 14) (10 ^ 19) file_s2_smearing.cs file_s2_smearing.vs 0 425000000000000000
    rfl (by decide) (by decide) (by decide) (by decide +kernel) (by decide +kernel) (by decide +kernel) (by decide +kernel) pe
  refine ⟨b1, s1, b2, s2, by unfold apply1; rw [u1]; exact e1, by unfold apply1; rw [u2]; exact e2,
    by unfold apply1; rw [u3]; exact e3, by unfold apply1; rw [u4]; exact e4, ?_⟩
  norm_num at a1 c1 a2 c2 a3 c3 a4 c4
  have hb1 : b1 = 0 := le_antisymm c1 a1
  have hb2 : b2 = 0 := le_antisymm c3 a3
  subst hb1 hb2
  refine ⟨by simp [area], by simp [area], fun hz => ?_, fun hz => ?_⟩
  · unfold area
    refine mul_nonneg hpe ?_
    norm_num at hz
    nlinarith
  · unfold area
    refine mul_nonneg hpe ?_
    norm_num at hz
    nlinarith

/-- **C93.** The electron lifetime is 12000 for every draw and the position resolution 0.1 for every number of electrons. -/
theorem C93_lifetime_and_resolution (u n : ℝ) : apply1 "elife" u = .ok 12000 ∧ apply1 "posrec_reso" n = .ok 0.1 := by
  have u1 : useOf "elife" = some ⟨Shipped.detector_DriftLoss, "elife", "LERP", ["_elife.json"], none⟩ := by decide +kernel
  have u2 : useOf "posrec_reso" = some ⟨Shipped.reconstruction_PositionRecon, "posrec_reso", "LERP", ["_posrec_reso.json"], none⟩ := by
    decide +kernel
  obtain ⟨y, h1, a1, b1⟩ := read1_lerp_bounds "_elife.json" "cdf" 10 10 file_elife.cs file_elife.vs 120000 120000
    rfl (by decide) (by decide) (by decide) (by decide +kernel) (by decide +kernel) (by decide +kernel) (by decide +kernel) u
  obtain ⟨w, h2, a2, b2⟩ := read1_lerp_bounds "_posrec_reso.json" "num_e" 1 10 file_posrec_reso.cs file_posrec_reso.vs 1 1
    rfl (by decide) (by decide) (by decide) (by decide +kernel) (by decide +kernel) (by decide +kernel) (by decide +kernel) n
  have e1 : y = 12000 := by norm_num at a1 b1; linarith
  have e2 : w = 0.1 := by norm_num at a2 b2 ⊢; linarith
  unfold apply1
  rw [u1, u2]
  exact ⟨by rw [← e1]; exact h1, by rw [← e2]; exact h2⟩

/-- The edges of a grid file along axis `i`. -/
def Raw.inside (r : Raw) (i : Nat) (x : ℝ) : Prop :=
  match r with
  | .grid _ cden lowers uppers _ _ _ => ∃ lo hi : Int, lowers[i]? = some lo ∧ uppers[i]? = some hi ∧ (lo : ℝ) / cden ≤ x ∧ x ≤ (hi : ℝ) / cden
  | .point .. => False

/-- **C93.** Every event drawn in the default volume lies inside every map of positions. -/
theorem C93_events_inside (u1 u2 u3 : ℝ) (h1 : 0 ≤ u1 ∧ u1 < 1) (h2 : 0 ≤ u2 ∧ u2 < 1) :
    let p := positionSpectra (-133.97) (-13.35) 60 u1 u2 u3
    (∀ r ∈ [file_s1_correction, file_s2_correction, file_gas_gain_relative], r.inside 0 p.1 ∧ r.inside 1 p.2.1) ∧
    file_s1_correction.inside 2 p.2.2 ∧ file_efield_map.inside 0 (√(p.1 ^ 2 + p.2.1 ^ 2)) ∧ file_efield_map.inside 1 p.2.2 := by
  intro p
  have hp : -133.97 ≤ p.2.2 ∧ p.2.2 ≤ -13.35 ∧ p.1 ^ 2 + p.2.1 ^ 2 ≤ 60 ^ 2 :=
    C70_cylinder (-133.97) (-13.35) 60 u1 u2 u3 (by norm_num) h1 h2
  clear_value p
  obtain ⟨hz1, hz2, hr⟩ := hp
  have hx : -70 ≤ p.1 ∧ p.1 ≤ 70 := by
    constructor <;> nlinarith [sq_nonneg p.2.1, sq_nonneg (p.1 - 60), sq_nonneg (p.1 + 60)]
  have hy : -70 ≤ p.2.1 ∧ p.2.1 ≤ 70 := by
    constructor <;> nlinarith [sq_nonneg p.1, sq_nonneg (p.2.1 - 60), sq_nonneg (p.2.1 + 60)]
  have hrr : √(p.1 ^ 2 + p.2.1 ^ 2) ≤ 60 := by
    rw [show (60 : ℝ) = √(60 ^ 2) by rw [Real.sqrt_sq (by norm_num)]]
    exact Real.sqrt_le_sqrt hr
  refine ⟨?_, ?_, ?_, ?_⟩
  · intro r hr
    simp only [List.mem_cons, List.not_mem_nil, or_false] at hr
    rcases hr with rfl | rfl | rfl
    all_goals exact ⟨⟨-70, 70, rfl, rfl, by norm_num; exact hx.1, by norm_num; exact hx.2⟩, ⟨-70, 70, rfl, rfl, by norm_num; exact hy.1, by norm_num; exact hy.2⟩⟩
  · refine ⟨-140, 0, rfl, rfl, ?_, ?_⟩
    · norm_num at hz1 ⊢; linarith
    · norm_num at hz2 ⊢; linarith
  · refine ⟨0, 6640, rfl, rfl, ?_, ?_⟩
    · norm_num
    · norm_num; linarith
  · refine ⟨-14865, 0, rfl, rfl, ?_, ?_⟩
    · norm_num at hz1 ⊢; linarith
    · norm_num at hz2 ⊢; linarith

/-- In float32 the field is infinite at the nodes of the shipped field map (C63), some of which lie in the default volume: here
at the radius 16.6 and depth -74.325. -/
theorem C93_field_infinite_at_a_node :
    ∃ a0 a1 g, file_efield_map.file.body = .reg2 a0 a1 g ∧ idw2d32 g a0 a1 16.6 (-74.325) = .pinf ∧
      (16.6 : ℝ) ≤ 60 ∧ (-133.97 : ℝ) ≤ -74.325 ∧ (-74.325 : ℝ) ≤ -13.35 := by
  refine ⟨_, _, _, rfl, ?_, by norm_num, by norm_num, by norm_num⟩
  have hval : ∀ i j, i < 5 → j < 5 → (([230, 230, 230, 230, 230, 230, 230, 230, 230, 230, 230, 230, 230, 230, 230, 230, 230, 230, 230, 230,
      230, 230, 230, 230, 230] : List Int).getD (i * 5 + j) 0) = 230 := by
    intro i j hi hj
    interval_cases i <;> interval_cases j <;> rfl
  have h := C63_infinite_at_nodes (⟨5, 5, fun i j => (((([230, 230, 230, 230, 230, 230, 230, 230, 230, 230, 230, 230, 230, 230, 230, 230, 230, 230, 230, 230,
      230, 230, 230, 230, 230] : List Int).getD (i * 5 + j) 0 : Int) : ℝ) / ((10 : Nat) : ℝ))⟩ : Grid2 ℝ)
    ⟨((0 : Int) : ℝ) / ((100 : Nat) : ℝ), ((6640 : Int) : ℝ) / ((100 : Nat) : ℝ)⟩ ⟨((-14865 : Int) : ℝ) / ((100 : Nat) : ℝ), ((0 : Int) : ℝ) / ((100 : Nat) : ℝ)⟩
    1 2 (by norm_num) (by norm_num) (by norm_num) (by norm_num) (by norm_num) (by norm_num)
    (by simp only; rw [hval 1 2 (by omega) (by omega)]; norm_num)
    (by intro i j hi hj; simp only; rw [hval i j hi hj]; norm_num)
    (by norm_num [spacing]) (by norm_num [spacing])
  have n0 : node 5 (⟨((0 : Int) : ℝ) / ((100 : Nat) : ℝ), ((6640 : Int) : ℝ) / ((100 : Nat) : ℝ)⟩ : Axis ℝ) 1 = 16.6 := by norm_num [node, spacing]
  have n1 : node 5 (⟨((-14865 : Int) : ℝ) / ((100 : Nat) : ℝ), ((0 : Int) : ℝ) / ((100 : Nat) : ℝ)⟩ : Axis ℝ) 2 = -74.325 := by norm_num [node, spacing]
  rw [n0, n1] at h
  exact h

end Verif.MapFile
