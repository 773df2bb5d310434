/-
Data: what the body of `simulate` of each shipped plugin reads and returns.

Written by `tools/shipped_code.py` from the source text of /repo/appletree/plugins.  The script also checks that every class derives
from `Plugin` directly, that `simulate` is its only method, and that `parameters` and `self` occur in no other way than
`parameters["name"]`, `self.name` and as an argument of the method `apply` of a map.
-/
import Verif.Model.Shipped

namespace Verif.Shipped
open Verif Comp

/-- The names of the arguments of `simulate`, the number of those with defaults, the parameters it reads by name, the attributes of
the instance it reads, and the number of values in each of its return statements. -/
structure Body where
  plugin : Plugin
  args : List String
  defaults : Nat
  reads : List String
  attrs : List String
  returns : List Nat

/-- `simulate` (common.py 34-41). -/
def body_common_UniformEnergySpectra : Body :=
  ⟨common_UniformEnergySpectra, ["self", "key", "parameters", "batch_size"], 0, [], ["lower_energy",
   "upper_energy"], [2]⟩

/-- `simulate` (common.py 58-61). -/
def body_common_FixedEnergySpectra : Body :=
  ⟨common_FixedEnergySpectra, ["self", "key", "parameters", "batch_size"], 0, [], ["energy_spectrum"], [2]⟩

/-- `simulate` (common.py 75-77). -/
def body_common_MonoEnergySpectra : Body :=
  ⟨common_MonoEnergySpectra, ["self", "key", "parameters", "batch_size"], 0, [], ["mono_energy"], [2]⟩

/-- `simulate` (common.py 106-114). -/
def body_common_PositionSpectra : Body :=
  ⟨common_PositionSpectra, ["self", "key", "parameters", "batch_size"], 0, [], ["r_max", "z_max", "z_min"], [4]⟩

/-- `simulate` (er_microphys.py 22-26). -/
def body_er_microphys_Quanta : Body :=
  ⟨er_microphys_Quanta, ["self", "key", "parameters", "energy"], 0, ["fano", "w"], [], [2]⟩

/-- `simulate` (er_microphys.py 36-39). -/
def body_er_microphys_IonizationER : Body :=
  ⟨er_microphys_IonizationER, ["self", "key", "parameters", "num_quanta"], 0, ["nex_ni_ratio"], [], [2]⟩

/-- `simulate` (er_microphys.py 57-72). -/
def body_er_microphys_mTI : Body :=
  ⟨er_microphys_mTI, ["self", "key", "parameters", "energy", "field"], 0, ["nex_ni_ratio", "py0", "py1", "py2",
   "py3", "py4", "w"], [], [2]⟩

/-- `simulate` (er_microphys.py 82-85). -/
def body_er_microphys_RecombFluct : Body :=
  ⟨er_microphys_RecombFluct, ["self", "key", "parameters", "energy"], 0, ["rf0", "rf1"], [], [2]⟩

/-- `simulate` (er_microphys.py 94-96). -/
def body_er_microphys_TrueRecombER : Body :=
  ⟨er_microphys_TrueRecombER, ["self", "key", "parameters", "recomb_mean", "recomb_std"], 0, [], [], [2]⟩

/-- `simulate` (er_microphys.py 105-109). -/
def body_er_microphys_RecombinationER : Body :=
  ⟨er_microphys_RecombinationER, ["self", "key", "parameters", "num_quanta", "num_ion", "recomb"], 0, [], [],
   [3]⟩

/-- `simulate` (lyqy.py 28-31). -/
def body_lyqy_LightYield : Body :=
  ⟨lyqy_LightYield, ["self", "key", "parameters", "energy"], 0, ["t_ly"], ["ly_median"], [2]⟩

/-- `simulate` (lyqy.py 40-42). -/
def body_lyqy_NumberPhoton : Body :=
  ⟨lyqy_NumberPhoton, ["self", "key", "parameters", "energy", "light_yield"], 0, [], [], [2]⟩

/-- `simulate` (lyqy.py 60-63). -/
def body_lyqy_ChargeYield : Body :=
  ⟨lyqy_ChargeYield, ["self", "key", "parameters", "energy"], 0, ["t_qy"], ["qy_median"], [2]⟩

/-- `simulate` (lyqy.py 72-74). -/
def body_lyqy_NumberElectron : Body :=
  ⟨lyqy_NumberElectron, ["self", "key", "parameters", "energy", "charge_yield"], 0, [], [], [2]⟩

/-- `simulate` (detector.py 33-39). -/
def body_detector_EField : Body :=
  ⟨detector_EField, ["self", "key", "parameters", "x", "y", "z"], 0, ["field"], ["efield_map",
   "efield_position_dependence"], [2, 2]⟩

/-- `simulate` (detector.py 55-58). -/
def body_detector_S1LCE : Body :=
  ⟨detector_S1LCE, ["self", "key", "parameters", "x", "y", "z"], 0, [], ["s1_lce"], [2]⟩

/-- `simulate` (detector.py 74-77). -/
def body_detector_S2LCE : Body :=
  ⟨detector_S2LCE, ["self", "key", "parameters", "x", "y"], 0, [], ["s2_lce"], [2]⟩

/-- `simulate` (detector.py 87-90). -/
def body_detector_PhotonDetection : Body :=
  ⟨detector_PhotonDetection, ["self", "key", "parameters", "num_photon", "s1_lce"], 0, ["g1", "p_dpe"], [], [2]⟩

/-- `simulate` (detector.py 100-103). -/
def body_detector_S1PE : Body :=
  ⟨detector_S1PE, ["self", "key", "parameters", "num_s1_phd"], 0, ["p_dpe"], [], [2]⟩

/-- `simulate` (detector.py 121-125). -/
def body_detector_DriftLoss : Body :=
  ⟨detector_DriftLoss, ["self", "key", "parameters", "z"], 0, ["drift_velocity", "elife_sigma"], ["elife"], [2]⟩

/-- `simulate` (detector.py 134-136). -/
def body_detector_ElectronDrifted : Body :=
  ⟨detector_ElectronDrifted, ["self", "key", "parameters", "num_electron", "drift_survive_prob"], 0, [], [],
   [2]⟩

/-- `simulate` (detector.py 153-166). -/
def body_detector_S2PE : Body :=
  ⟨detector_S2PE, ["self", "key", "parameters", "num_electron_drifted", "s2_lce", "x", "y"], 0, ["g2",
   "gas_gain", "p_dpe"], ["gas_gain_relative"], [2]⟩

/-- `simulate` (reconstruction.py 28-38). -/
def body_reconstruction_PositionRecon : Body :=
  ⟨reconstruction_PositionRecon, ["self", "key", "parameters", "x", "y", "z", "num_electron_drifted"], 0, [],
   ["posrec_reso"], [5]⟩

/-- `simulate` (reconstruction.py 61-66). -/
def body_reconstruction_S1 : Body :=
  ⟨reconstruction_S1, ["self", "key", "parameters", "num_s1_pe"], 0, [], ["s1_bias_3f", "s1_smear_3f"], [2]⟩

/-- `simulate` (reconstruction.py 89-94). -/
def body_reconstruction_S2 : Body :=
  ⟨reconstruction_S2, ["self", "key", "parameters", "num_s2_pe"], 0, [], ["s2_bias", "s2_smear"], [2]⟩

/-- `simulate` (reconstruction.py 110-113). -/
def body_reconstruction_S1Correction : Body :=
  ⟨reconstruction_S1Correction, ["self", "key", "parameters", "rec_x", "rec_y", "rec_z"], 0, [],
   ["s1_correction"], [2]⟩

/-- `simulate` (reconstruction.py 129-132). -/
def body_reconstruction_S2Correction : Body :=
  ⟨reconstruction_S2Correction, ["self", "key", "parameters", "rec_x", "rec_y"], 0, [], ["s2_correction"], [2]⟩

/-- `simulate` (reconstruction.py 141-143). -/
def body_reconstruction_cS1 : Body :=
  ⟨reconstruction_cS1, ["self", "key", "parameters", "s1_area", "s1_correction"], 0, [], [], [2]⟩

/-- `simulate` (reconstruction.py 152-154). -/
def body_reconstruction_cS2 : Body :=
  ⟨reconstruction_cS2, ["self", "key", "parameters", "s2_area", "s2_correction", "drift_survive_prob"], 0, [],
   [], [2]⟩

/-- `simulate` (efficiency.py 19-20). -/
def body_efficiency_S2Threshold : Body :=
  ⟨efficiency_S2Threshold, ["self", "key", "parameters", "s2_area"], 0, ["s2_threshold"], [], [2]⟩

/-- `simulate` (efficiency.py 38-41). -/
def body_efficiency_S1ReconEff : Body :=
  ⟨efficiency_S1ReconEff, ["self", "key", "parameters", "num_s1_phd"], 0, [], ["s1_eff_3f"], [2]⟩

/-- `simulate` (efficiency.py 59-62). -/
def body_efficiency_S1CutAccept : Body :=
  ⟨efficiency_S1CutAccept, ["self", "key", "parameters", "s1_area"], 0, [], ["s1_cut_acc"], [2]⟩

/-- `simulate` (efficiency.py 80-83). -/
def body_efficiency_S2CutAccept : Body :=
  ⟨efficiency_S2CutAccept, ["self", "key", "parameters", "s2_area"], 0, [], ["s2_cut_acc"], [2]⟩

/-- `simulate` (efficiency.py 92-94). -/
def body_efficiency_Eff : Body :=
  ⟨efficiency_Eff, ["self", "key", "parameters", "acc_s2_threshold", "acc_s1_recon_eff", "cut_acc_s1",
   "cut_acc_s2"], 0, [], [], [2]⟩

/-- `simulate` (nestv2.py 36-46). -/
def body_nestv2_MonoEnergiesSpectra : Body :=
  ⟨nestv2_MonoEnergiesSpectra, ["self", "key", "parameters", "batch_size"], 0, [], ["energy_twohalfnorm"], [3]⟩

/-- `simulate` (nestv2.py 69-76). -/
def body_nestv2_UniformEnergiesSpectra : Body :=
  ⟨nestv2_UniformEnergiesSpectra, ["self", "key", "parameters", "batch_size"], 0, [], ["clip_lower_energy",
   "clip_upper_energy"], [2]⟩

/-- `simulate` (nestv2.py 86-88). -/
def body_nestv2_TotalQuanta : Body :=
  ⟨nestv2_TotalQuanta, ["self", "key", "parameters", "energy"], 0, ["alpha", "beta"], [], [2]⟩

/-- `simulate` (nestv2.py 98-102). -/
def body_nestv2_ThomasImelBox : Body :=
  ⟨nestv2_ThomasImelBox, ["self", "key", "parameters", "energy", "field"], 0, ["delta", "gamma",
   "liquid_xe_density"], [], [2]⟩

/-- `simulate` (nestv2.py 112-116). -/
def body_nestv2_QyNR : Body :=
  ⟨nestv2_QyNR, ["self", "key", "parameters", "energy", "ThomasImel"], 0, ["epsilon", "eta", "zeta"], [], [2]⟩

/-- `simulate` (nestv2.py 126-130). -/
def body_nestv2_LyNR : Body :=
  ⟨nestv2_LyNR, ["self", "key", "parameters", "energy", "_Nq", "charge_yield"], 0, ["iota", "theta"], [], [2]⟩

/-- `simulate` (nestv2.py 139-144). -/
def body_nestv2_MeanNphNe : Body :=
  ⟨nestv2_MeanNphNe, ["self", "key", "parameters", "light_yield", "charge_yield", "energy"], 0, [], [], [3]⟩

/-- `simulate` (nestv2.py 153-163). -/
def body_nestv2_MeanExcitonIon : Body :=
  ⟨nestv2_MeanExcitonIon, ["self", "key", "parameters", "ThomasImel", "_Nph", "_Ne"], 0, [], [], [7]⟩

/-- `simulate` (nestv2.py 173-187). -/
def body_nestv2_TrueExcitonIonNR : Body :=
  ⟨nestv2_TrueExcitonIonNR, ["self", "key", "parameters", "_Nph", "_Ne", "nex_ni_ratio", "alf"], 0, ["fano_nex",
   "fano_ni"], [], [4]⟩

/-- `simulate` (nestv2.py 197-202). -/
def body_nestv2_OmegaNR : Body :=
  ⟨nestv2_OmegaNR, ["self", "key", "parameters", "elecFrac", "recombProb", "Ni"], 0, ["A", "omega", "xi"], [],
   [3]⟩

/-- `simulate` (nestv2.py 212-232). -/
def body_nestv2_TruePhotonElectronNR : Body :=
  ⟨nestv2_TruePhotonElectronNR, ["self", "key", "parameters", "recombProb", "Variance", "Ni", "Nex", "Nq"], 0,
   ["alpha2"], [], [3]⟩

/-- `simulate` (nestv2.py 261-265). -/
def body_nestv2_MonoEnergiesClipEff : Body :=
  ⟨nestv2_MonoEnergiesClipEff, ["self", "key", "parameters", "energy_center"], 0, [], ["clip_lower_energy",
   "clip_upper_energy"], [2]⟩

/-- `simulate` (nestv2.py 280-282). -/
def body_nestv2_BandEnergiesClipEff : Body :=
  ⟨nestv2_BandEnergiesClipEff, ["self", "key", "parameters", "energy"], 0, [], [], [2]⟩

/-- `simulate` (er_nestv2.py 26-32). -/
def body_er_nestv2_ExcitonIonRatioER : Body :=
  ⟨er_nestv2_ExcitonIonRatioER, ["self", "key", "parameters", "energy"], 0, ["liquid_xe_density"], [], [3]⟩

/-- `simulate` (er_nestv2.py 53-88). -/
def body_er_nestv2_QyER : Body :=
  ⟨er_nestv2_QyER, ["self", "key", "parameters", "energy", "nex_ni_ratio", "field"], 0, ["liquid_xe_density",
   "m1", "m10", "m2", "m3", "m4", "m7", "m8", "m9", "w"], [], [2]⟩

/-- `simulate` (er_nestv2.py 98-101). -/
def body_er_nestv2_LyER : Body :=
  ⟨er_nestv2_LyER, ["self", "key", "parameters", "charge_yield"], 0, ["w"], [], [2]⟩

/-- `simulate` (er_nestv2.py 110-113). -/
def body_er_nestv2_MeanNphNeER : Body :=
  ⟨er_nestv2_MeanNphNeER, ["self", "key", "parameters", "light_yield", "charge_yield", "energy"], 0, [], [],
   [3]⟩

/-- `simulate` (er_nestv2.py 122-126). -/
def body_er_nestv2_MeanExcitonIonER : Body :=
  ⟨er_nestv2_MeanExcitonIonER, ["self", "key", "parameters", "nex_ni_ratio", "_Nph", "_Ne"], 0, [], [], [3]⟩

/-- `simulate` (er_nestv2.py 138-158). -/
def body_er_nestv2_FanoFactorER : Body :=
  ⟨er_nestv2_FanoFactorER, ["self", "key", "parameters", "_Nph", "_Ne", "field"], 0, ["delta_f",
   "liquid_xe_density"], [], [2]⟩

/-- `simulate` (er_nestv2.py 167-177). -/
def body_er_nestv2_TrueExcitonIonER : Body :=
  ⟨er_nestv2_TrueExcitonIonER, ["self", "key", "parameters", "_Nph", "_Ne", "fano_nq", "alf"], 0, [], [], [4]⟩

/-- `simulate` (er_nestv2.py 192-218). -/
def body_er_nestv2_OmegaER : Body :=
  ⟨er_nestv2_OmegaER, ["self", "key", "parameters", "elecFrac", "recombProb", "Ni", "_Ne", "_Nph", "field"], 0,
   ["A_er", "alpha3_er", "omega_er", "xi_er"], [], [3]⟩

/-- `simulate` (er_nestv2.py 227-240). -/
def body_er_nestv2_TruePhotonElectronER : Body :=
  ⟨er_nestv2_TruePhotonElectronER, ["self", "key", "parameters", "recombProb", "Variance", "Ni", "Nq"], 0, [],
   [], [3]⟩

/-- `simulate` (er_nestv2.py 255-257). -/
def body_er_nestv2_BandEnergiesClipEff : Body :=
  ⟨er_nestv2_BandEnergiesClipEff, ["self", "key", "parameters", "energy"], 0, [], [], [2]⟩

/-- All shipped plugins. -/
def bodies : List Body :=
  [body_common_UniformEnergySpectra, body_common_FixedEnergySpectra, body_common_MonoEnergySpectra,
   body_common_PositionSpectra, body_er_microphys_Quanta, body_er_microphys_IonizationER, body_er_microphys_mTI,
   body_er_microphys_RecombFluct, body_er_microphys_TrueRecombER, body_er_microphys_RecombinationER,
   body_lyqy_LightYield, body_lyqy_NumberPhoton, body_lyqy_ChargeYield, body_lyqy_NumberElectron,
   body_detector_EField, body_detector_S1LCE, body_detector_S2LCE, body_detector_PhotonDetection,
   body_detector_S1PE, body_detector_DriftLoss, body_detector_ElectronDrifted, body_detector_S2PE,
   body_reconstruction_PositionRecon, body_reconstruction_S1, body_reconstruction_S2,
   body_reconstruction_S1Correction, body_reconstruction_S2Correction, body_reconstruction_cS1,
   body_reconstruction_cS2, body_efficiency_S2Threshold, body_efficiency_S1ReconEff,
   body_efficiency_S1CutAccept, body_efficiency_S2CutAccept, body_efficiency_Eff,
   body_nestv2_MonoEnergiesSpectra, body_nestv2_UniformEnergiesSpectra, body_nestv2_TotalQuanta,
   body_nestv2_ThomasImelBox, body_nestv2_QyNR, body_nestv2_LyNR, body_nestv2_MeanNphNe,
   body_nestv2_MeanExcitonIon, body_nestv2_TrueExcitonIonNR, body_nestv2_OmegaNR,
   body_nestv2_TruePhotonElectronNR, body_nestv2_MonoEnergiesClipEff, body_nestv2_BandEnergiesClipEff,
   body_er_nestv2_ExcitonIonRatioER, body_er_nestv2_QyER, body_er_nestv2_LyER, body_er_nestv2_MeanNphNeER,
   body_er_nestv2_MeanExcitonIonER, body_er_nestv2_FanoFactorER, body_er_nestv2_TrueExcitonIonER,
   body_er_nestv2_OmegaER, body_er_nestv2_TruePhotonElectronER, body_er_nestv2_BandEnergiesClipEff]

end Verif.Shipped
