/-
Data: the class attributes of the shipped plugins and what the shipped components register.

Written by `tools/shipped.py` from the source text of /repo/appletree/plugins and /repo/appletree/components.
`register_all` (component.py 248-265) goes through `dir(module)`, in alphabetical order, where it also finds the base class
`Plugin`, which provides nothing.  The default of a configuration is its source text.
-/
import Verif.Model.Registry
import Verif.Model.Config

namespace Verif.Shipped
open Verif Comp

/-- The base class (plugin.py 14-31), which every plugin module imports. -/
def base : Plugin := ⟨"Plugin", [], [], [], []⟩

/-! ### plugins/common.py -/

/-- `UniformEnergySpectra` (common.py 29-41). -/
def common_UniformEnergySpectra : Plugin :=
  ⟨"UniformEnergySpectra", ["energy"], ["batch_size"],
   [], [⟨"lower_energy", some "0.01"⟩, ⟨"upper_energy", some "20.0"⟩]⟩

/-- `FixedEnergySpectra` (common.py 53-61). -/
def common_FixedEnergySpectra : Plugin :=
  ⟨"FixedEnergySpectra", ["energy"], ["batch_size"],
   [], [⟨"energy_spectrum", some "'_nr_spectrum.json'"⟩]⟩

/-- `MonoEnergySpectra` (common.py 68-77). -/
def common_MonoEnergySpectra : Plugin :=
  ⟨"MonoEnergySpectra", ["energy"], ["batch_size"],
   [], [⟨"mono_energy", some "2.82"⟩]⟩

/-- `PositionSpectra` (common.py 101-114). -/
def common_PositionSpectra : Plugin :=
  ⟨"PositionSpectra", ["x", "y", "z"], ["batch_size"],
   [], [⟨"z_min", some "-133.97"⟩, ⟨"z_max", some "-13.35"⟩, ⟨"r_max", some "60.0"⟩]⟩

/-- What `register_all` finds in the module `common`, in the order of `dir`. -/
def mod_common : List Plugin :=
  [common_FixedEnergySpectra, common_MonoEnergySpectra, base, common_PositionSpectra,
   common_UniformEnergySpectra]

/-! ### plugins/er_microphys.py -/

/-- `Quanta` (er_microphys.py 13-26). -/
def er_microphys_Quanta : Plugin :=
  ⟨"Quanta", ["num_quanta"], ["energy"],
   ["w", "fano"], []⟩

/-- `IonizationER` (er_microphys.py 30-39). -/
def er_microphys_IonizationER : Plugin :=
  ⟨"IonizationER", ["num_ion"], ["num_quanta"],
   ["nex_ni_ratio"], []⟩

/-- `mTI` (er_microphys.py 43-72). -/
def er_microphys_mTI : Plugin :=
  ⟨"mTI", ["recomb_mean"], ["energy", "field"],
   ["w", "nex_ni_ratio", "py0", "py1", "py2", "py3", "py4"], []⟩

/-- `RecombFluct` (er_microphys.py 76-85). -/
def er_microphys_RecombFluct : Plugin :=
  ⟨"RecombFluct", ["recomb_std"], ["energy"],
   ["rf0", "rf1"], []⟩

/-- `TrueRecombER` (er_microphys.py 89-96). -/
def er_microphys_TrueRecombER : Plugin :=
  ⟨"TrueRecombER", ["recomb"], ["recomb_mean", "recomb_std"],
   [], []⟩

/-- `RecombinationER` (er_microphys.py 100-109). -/
def er_microphys_RecombinationER : Plugin :=
  ⟨"RecombinationER", ["num_photon", "num_electron"], ["num_quanta", "num_ion", "recomb"],
   [], []⟩

/-- What `register_all` finds in the module `er_microphys`, in the order of `dir`. -/
def mod_er_microphys : List Plugin :=
  [er_microphys_IonizationER, base, er_microphys_Quanta, er_microphys_RecombFluct, er_microphys_RecombinationER,
   er_microphys_TrueRecombER, er_microphys_mTI]

/-! ### plugins/lyqy.py -/

/-- `LightYield` (lyqy.py 22-31). -/
def lyqy_LightYield : Plugin :=
  ⟨"LightYield", ["light_yield"], ["energy"],
   ["t_ly"], [⟨"ly_median", some "'_nr_ly.json'"⟩]⟩

/-- `NumberPhoton` (lyqy.py 35-42). -/
def lyqy_NumberPhoton : Plugin :=
  ⟨"NumberPhoton", ["num_photon"], ["energy", "light_yield"],
   [], []⟩

/-- `ChargeYield` (lyqy.py 54-63). -/
def lyqy_ChargeYield : Plugin :=
  ⟨"ChargeYield", ["charge_yield"], ["energy"],
   ["t_qy"], [⟨"qy_median", some "'_nr_qy.json'"⟩]⟩

/-- `NumberElectron` (lyqy.py 67-74). -/
def lyqy_NumberElectron : Plugin :=
  ⟨"NumberElectron", ["num_electron"], ["energy", "charge_yield"],
   [], []⟩

/-- What `register_all` finds in the module `lyqy`, in the order of `dir`. -/
def mod_lyqy : List Plugin :=
  [lyqy_ChargeYield, lyqy_LightYield, lyqy_NumberElectron, lyqy_NumberPhoton, base]

/-! ### plugins/detector.py -/

/-- `EField` (detector.py 27-39). -/
def detector_EField : Plugin :=
  ⟨"EField", ["field"], ["x", "y", "z"],
   ["field"], [⟨"efield_position_dependence", some "False"⟩, ⟨"efield_map", some "'_efield_map.json'"⟩]⟩

/-- `S1LCE` (detector.py 50-58). -/
def detector_S1LCE : Plugin :=
  ⟨"S1LCE", ["s1_lce"], ["x", "y", "z"],
   [], [⟨"s1_lce", some "'_s1_correction.json'"⟩]⟩

/-- `S2LCE` (detector.py 69-77). -/
def detector_S2LCE : Plugin :=
  ⟨"S2LCE", ["s2_lce"], ["x", "y"],
   [], [⟨"s2_lce", some "'_s2_correction.json'"⟩]⟩

/-- `PhotonDetection` (detector.py 81-90). -/
def detector_PhotonDetection : Plugin :=
  ⟨"PhotonDetection", ["num_s1_phd"], ["num_photon", "s1_lce"],
   ["g1", "p_dpe"], []⟩

/-- `S1PE` (detector.py 94-103). -/
def detector_S1PE : Plugin :=
  ⟨"S1PE", ["num_s1_pe"], ["num_s1_phd"],
   ["p_dpe"], []⟩

/-- `DriftLoss` (detector.py 115-125). -/
def detector_DriftLoss : Plugin :=
  ⟨"DriftLoss", ["drift_survive_prob"], ["z"],
   ["drift_velocity", "elife_sigma"], [⟨"elife", some "'_elife.json'"⟩]⟩

/-- `ElectronDrifted` (detector.py 129-136). -/
def detector_ElectronDrifted : Plugin :=
  ⟨"ElectronDrifted", ["num_electron_drifted"], ["num_electron", "drift_survive_prob"],
   [], []⟩

/-- `S2PE` (detector.py 147-166). -/
def detector_S2PE : Plugin :=
  ⟨"S2PE", ["num_s2_pe"], ["num_electron_drifted", "s2_lce", "x", "y"],
   ["g2", "gas_gain", "p_dpe"], [⟨"gas_gain_relative", some "'_gas_gain_relative.json'"⟩]⟩

/-- What `register_all` finds in the module `detector`, in the order of `dir`. -/
def mod_detector : List Plugin :=
  [detector_DriftLoss, detector_EField, detector_ElectronDrifted, detector_PhotonDetection, base,
   detector_S1LCE, detector_S1PE, detector_S2LCE, detector_S2PE]

/-! ### plugins/reconstruction.py -/

/-- `PositionRecon` (reconstruction.py 23-38). -/
def reconstruction_PositionRecon : Plugin :=
  ⟨"PositionRecon", ["rec_x", "rec_y", "rec_z", "rec_r"], ["x", "y", "z", "num_electron_drifted"],
   [], [⟨"posrec_reso", some "'_posrec_reso.json'"⟩]⟩

/-- `S1` (reconstruction.py 56-66). -/
def reconstruction_S1 : Plugin :=
  ⟨"S1", ["s1_area"], ["num_s1_pe"],
   [], [⟨"s1_bias_3f", some "'_s1_bias.json'"⟩, ⟨"s1_smear_3f", some "'_s1_smearing.json'"⟩]⟩

/-- `S2` (reconstruction.py 84-94). -/
def reconstruction_S2 : Plugin :=
  ⟨"S2", ["s2_area"], ["num_s2_pe"],
   [], [⟨"s2_bias", some "'_s2_bias.json'"⟩, ⟨"s2_smear", some "'_s2_smearing.json'"⟩]⟩

/-- `S1Correction` (reconstruction.py 105-113). -/
def reconstruction_S1Correction : Plugin :=
  ⟨"S1Correction", ["s1_correction"], ["rec_x", "rec_y", "rec_z"],
   [], [⟨"s1_correction", some "'_s1_correction.json'"⟩]⟩

/-- `S2Correction` (reconstruction.py 124-132). -/
def reconstruction_S2Correction : Plugin :=
  ⟨"S2Correction", ["s2_correction"], ["rec_x", "rec_y"],
   [], [⟨"s2_correction", some "'_s2_correction.json'"⟩]⟩

/-- `cS1` (reconstruction.py 136-143). -/
def reconstruction_cS1 : Plugin :=
  ⟨"cS1", ["cs1"], ["s1_area", "s1_correction"],
   [], []⟩

/-- `cS2` (reconstruction.py 147-154). -/
def reconstruction_cS2 : Plugin :=
  ⟨"cS2", ["cs2"], ["s2_area", "s2_correction", "drift_survive_prob"],
   [], []⟩

/-- What `register_all` finds in the module `reconstruction`, in the order of `dir`. -/
def mod_reconstruction : List Plugin :=
  [base, reconstruction_PositionRecon, reconstruction_S1, reconstruction_S1Correction, reconstruction_S2,
   reconstruction_S2Correction, reconstruction_cS1, reconstruction_cS2]

/-! ### plugins/efficiency.py -/

/-- `S2Threshold` (efficiency.py 13-20). -/
def efficiency_S2Threshold : Plugin :=
  ⟨"S2Threshold", ["acc_s2_threshold"], ["s2_area"],
   ["s2_threshold"], []⟩

/-- `S1ReconEff` (efficiency.py 32-41). -/
def efficiency_S1ReconEff : Plugin :=
  ⟨"S1ReconEff", ["acc_s1_recon_eff"], ["num_s1_phd"],
   [], [⟨"s1_eff_3f", some "'_3fold_recon_eff.json'"⟩]⟩

/-- `S1CutAccept` (efficiency.py 53-62). -/
def efficiency_S1CutAccept : Plugin :=
  ⟨"S1CutAccept", ["cut_acc_s1"], ["s1_area"],
   [], [⟨"s1_cut_acc", some "['_s1_cut_acc.json', '_s1_cut_acc.json', '_s1_cut_acc.json']"⟩]⟩

/-- `S2CutAccept` (efficiency.py 74-83). -/
def efficiency_S2CutAccept : Plugin :=
  ⟨"S2CutAccept", ["cut_acc_s2"], ["s2_area"],
   [], [⟨"s2_cut_acc", some "['_s2_cut_acc.json', '_s2_cut_acc.json', '_s2_cut_acc.json', 's2_cut_acc_sigma']"⟩]⟩

/-- `Eff` (efficiency.py 87-94). -/
def efficiency_Eff : Plugin :=
  ⟨"Eff", ["eff"], ["acc_s2_threshold", "acc_s1_recon_eff", "cut_acc_s1", "cut_acc_s2"],
   [], []⟩

/-- What `register_all` finds in the module `efficiency`, in the order of `dir`. -/
def mod_efficiency : List Plugin :=
  [efficiency_Eff, base, efficiency_S1CutAccept, efficiency_S1ReconEff, efficiency_S2CutAccept,
   efficiency_S2Threshold]

/-! ### plugins/nestv2.py -/

/-- `MonoEnergiesSpectra` (nestv2.py 31-46). -/
def nestv2_MonoEnergiesSpectra : Plugin :=
  ⟨"MonoEnergiesSpectra", ["energy", "energy_center"], ["batch_size"],
   [], [⟨"energy_twohalfnorm", some "[['mu', 'sigma_pos', 'sigma_neg'], [[1.0], [0.1], [0.1]]]"⟩]⟩

/-- `UniformEnergiesSpectra` (nestv2.py 64-76). -/
def nestv2_UniformEnergiesSpectra : Plugin :=
  ⟨"UniformEnergiesSpectra", ["energy"], ["batch_size"],
   [], [⟨"clip_lower_energy", some "0.5"⟩, ⟨"clip_upper_energy", some "2.5"⟩]⟩

/-- `TotalQuanta` (nestv2.py 80-88). -/
def nestv2_TotalQuanta : Plugin :=
  ⟨"TotalQuanta", ["_Nq"], ["energy"],
   ["alpha", "beta"], []⟩

/-- `ThomasImelBox` (nestv2.py 92-102). -/
def nestv2_ThomasImelBox : Plugin :=
  ⟨"ThomasImelBox", ["ThomasImel"], ["energy", "field"],
   ["gamma", "delta", "liquid_xe_density"], []⟩

/-- `QyNR` (nestv2.py 106-116). -/
def nestv2_QyNR : Plugin :=
  ⟨"QyNR", ["charge_yield"], ["energy", "ThomasImel"],
   ["epsilon", "zeta", "eta"], []⟩

/-- `LyNR` (nestv2.py 120-130). -/
def nestv2_LyNR : Plugin :=
  ⟨"LyNR", ["light_yield"], ["energy", "_Nq", "charge_yield"],
   ["theta", "iota"], []⟩

/-- `MeanNphNe` (nestv2.py 134-144). -/
def nestv2_MeanNphNe : Plugin :=
  ⟨"MeanNphNe", ["_Nph", "_Ne"], ["light_yield", "charge_yield", "energy"],
   [], []⟩

/-- `MeanExcitonIon` (nestv2.py 148-163). -/
def nestv2_MeanExcitonIon : Plugin :=
  ⟨"MeanExcitonIon", ["_Nex", "_Ni", "nex_ni_ratio", "alf", "elecFrac", "recombProb"], ["ThomasImel", "_Nph", "_Ne"],
   [], []⟩

/-- `TrueExcitonIonNR` (nestv2.py 167-187). -/
def nestv2_TrueExcitonIonNR : Plugin :=
  ⟨"TrueExcitonIonNR", ["Ni", "Nex", "Nq"], ["_Nph", "_Ne", "nex_ni_ratio", "alf"],
   ["fano_ni", "fano_nex"], []⟩

/-- `OmegaNR` (nestv2.py 191-202). -/
def nestv2_OmegaNR : Plugin :=
  ⟨"OmegaNR", ["omega", "Variance"], ["elecFrac", "recombProb", "Ni"],
   ["A", "xi", "omega"], []⟩

/-- `TruePhotonElectronNR` (nestv2.py 206-232). -/
def nestv2_TruePhotonElectronNR : Plugin :=
  ⟨"TruePhotonElectronNR", ["num_photon", "num_electron"], ["recombProb", "Variance", "Ni", "Nex", "Nq"],
   ["alpha2"], []⟩

/-- `MonoEnergiesClipEff` (nestv2.py 250-265). -/
def nestv2_MonoEnergiesClipEff : Plugin :=
  ⟨"MonoEnergiesClipEff", ["eff"], ["energy_center"],
   [], [⟨"clip_lower_energy", some "0.5"⟩, ⟨"clip_upper_energy", some "2.5"⟩]⟩

/-- `BandEnergiesClipEff` (nestv2.py 269-282). -/
def nestv2_BandEnergiesClipEff : Plugin :=
  ⟨"BandEnergiesClipEff", ["eff"], ["energy"],
   [], []⟩

/-- What `register_all` finds in the module `nestv2`, in the order of `dir`. -/
def mod_nestv2 : List Plugin :=
  [nestv2_BandEnergiesClipEff, nestv2_LyNR, nestv2_MeanExcitonIon, nestv2_MeanNphNe, nestv2_MonoEnergiesClipEff,
   nestv2_MonoEnergiesSpectra, nestv2_OmegaNR, base, nestv2_QyNR, nestv2_ThomasImelBox, nestv2_TotalQuanta,
   nestv2_TrueExcitonIonNR, nestv2_TruePhotonElectronNR, nestv2_UniformEnergiesSpectra]

/-! ### plugins/er_nestv2.py -/

/-- `ExcitonIonRatioER` (er_nestv2.py 20-32). -/
def er_nestv2_ExcitonIonRatioER : Plugin :=
  ⟨"ExcitonIonRatioER", ["nex_ni_ratio", "alf"], ["energy"],
   ["liquid_xe_density"], []⟩

/-- `QyER` (er_nestv2.py 36-88). -/
def er_nestv2_QyER : Plugin :=
  ⟨"QyER", ["charge_yield"], ["energy", "nex_ni_ratio", "field"],
   ["m1", "m2", "m3", "m4", "m7", "m8", "m9", "m10", "w", "liquid_xe_density"], []⟩

/-- `LyER` (er_nestv2.py 92-101). -/
def er_nestv2_LyER : Plugin :=
  ⟨"LyER", ["light_yield"], ["charge_yield"],
   ["w"], []⟩

/-- `MeanNphNeER` (er_nestv2.py 105-113). -/
def er_nestv2_MeanNphNeER : Plugin :=
  ⟨"MeanNphNeER", ["_Nph", "_Ne"], ["light_yield", "charge_yield", "energy"],
   [], []⟩

/-- `MeanExcitonIonER` (er_nestv2.py 117-126). -/
def er_nestv2_MeanExcitonIonER : Plugin :=
  ⟨"MeanExcitonIonER", ["elecFrac", "recombProb"], ["nex_ni_ratio", "_Nph", "_Ne"],
   [], []⟩

/-- `FanoFactorER` (er_nestv2.py 130-158). -/
def er_nestv2_FanoFactorER : Plugin :=
  ⟨"FanoFactorER", ["fano_nq"], ["_Nph", "_Ne", "field"],
   ["delta_f", "liquid_xe_density"], []⟩

/-- `TrueExcitonIonER` (er_nestv2.py 162-177). -/
def er_nestv2_TrueExcitonIonER : Plugin :=
  ⟨"TrueExcitonIonER", ["Ni", "Nex", "Nq"], ["_Nph", "_Ne", "fano_nq", "alf"],
   [], []⟩

/-- `OmegaER` (er_nestv2.py 181-218). -/
def er_nestv2_OmegaER : Plugin :=
  ⟨"OmegaER", ["omega", "Variance"], ["elecFrac", "recombProb", "Ni", "_Ne", "_Nph", "field"],
   ["A_er", "xi_er", "omega_er", "alpha3_er"], []⟩

/-- `TruePhotonElectronER` (er_nestv2.py 222-240). -/
def er_nestv2_TruePhotonElectronER : Plugin :=
  ⟨"TruePhotonElectronER", ["num_photon", "num_electron"], ["recombProb", "Variance", "Ni", "Nq"],
   [], []⟩

/-- `BandEnergiesClipEff` (er_nestv2.py 244-257). -/
def er_nestv2_BandEnergiesClipEff : Plugin :=
  ⟨"BandEnergiesClipEff", ["eff"], ["energy"],
   [], []⟩

/-- What `register_all` finds in the module `er_nestv2`, in the order of `dir`. -/
def mod_er_nestv2 : List Plugin :=
  [er_nestv2_BandEnergiesClipEff, er_nestv2_ExcitonIonRatioER, er_nestv2_FanoFactorER, er_nestv2_LyER,
   er_nestv2_MeanExcitonIonER, er_nestv2_MeanNphNeER, er_nestv2_OmegaER, base, er_nestv2_QyER,
   er_nestv2_TrueExcitonIonER, er_nestv2_TruePhotonElectronER]

/-- The namespace `appletree.plugins` (plugins/__init__.py 1-23): later star imports replace earlier ones. -/
def namespace_ : PyDict String Plugin :=
  [("UniformEnergySpectra", common_UniformEnergySpectra),
   ("FixedEnergySpectra", common_FixedEnergySpectra),
   ("MonoEnergySpectra", common_MonoEnergySpectra),
   ("PositionSpectra", common_PositionSpectra),
   ("Quanta", er_microphys_Quanta),
   ("IonizationER", er_microphys_IonizationER),
   ("mTI", er_microphys_mTI),
   ("RecombFluct", er_microphys_RecombFluct),
   ("TrueRecombER", er_microphys_TrueRecombER),
   ("RecombinationER", er_microphys_RecombinationER),
   ("LightYield", lyqy_LightYield),
   ("NumberPhoton", lyqy_NumberPhoton),
   ("ChargeYield", lyqy_ChargeYield),
   ("NumberElectron", lyqy_NumberElectron),
   ("EField", detector_EField),
   ("S1LCE", detector_S1LCE),
   ("S2LCE", detector_S2LCE),
   ("PhotonDetection", detector_PhotonDetection),
   ("S1PE", detector_S1PE),
   ("DriftLoss", detector_DriftLoss),
   ("ElectronDrifted", detector_ElectronDrifted),
   ("S2PE", detector_S2PE),
   ("PositionRecon", reconstruction_PositionRecon),
   ("S1", reconstruction_S1),
   ("S2", reconstruction_S2),
   ("S1Correction", reconstruction_S1Correction),
   ("S2Correction", reconstruction_S2Correction),
   ("cS1", reconstruction_cS1),
   ("cS2", reconstruction_cS2),
   ("S2Threshold", efficiency_S2Threshold),
   ("S1ReconEff", efficiency_S1ReconEff),
   ("S1CutAccept", efficiency_S1CutAccept),
   ("S2CutAccept", efficiency_S2CutAccept),
   ("Eff", efficiency_Eff),
   ("MonoEnergiesSpectra", nestv2_MonoEnergiesSpectra),
   ("UniformEnergiesSpectra", nestv2_UniformEnergiesSpectra),
   ("TotalQuanta", nestv2_TotalQuanta),
   ("ThomasImelBox", nestv2_ThomasImelBox),
   ("QyNR", nestv2_QyNR),
   ("LyNR", nestv2_LyNR),
   ("MeanNphNe", nestv2_MeanNphNe),
   ("MeanExcitonIon", nestv2_MeanExcitonIon),
   ("TrueExcitonIonNR", nestv2_TrueExcitonIonNR),
   ("OmegaNR", nestv2_OmegaNR),
   ("TruePhotonElectronNR", nestv2_TruePhotonElectronNR),
   ("MonoEnergiesClipEff", nestv2_MonoEnergiesClipEff),
   ("BandEnergiesClipEff", er_nestv2_BandEnergiesClipEff),
   ("ExcitonIonRatioER", er_nestv2_ExcitonIonRatioER),
   ("QyER", er_nestv2_QyER),
   ("LyER", er_nestv2_LyER),
   ("MeanNphNeER", er_nestv2_MeanNphNeER),
   ("MeanExcitonIonER", er_nestv2_MeanExcitonIonER),
   ("FanoFactorER", er_nestv2_FanoFactorER),
   ("TrueExcitonIonER", er_nestv2_TrueExcitonIonER),
   ("OmegaER", er_nestv2_OmegaER),
   ("TruePhotonElectronER", er_nestv2_TruePhotonElectronER)]

/-- The configurations that are `SigmaMap`s (efficiency.py 25-74). -/
def sigmaMaps : List Conf.Conf :=
  [⟨"s1_eff_3f", some (.str "_3fold_recon_eff.json")⟩,
   ⟨"s1_cut_acc", some (.list [.str "_s1_cut_acc.json", .str "_s1_cut_acc.json", .str "_s1_cut_acc.json"])⟩,
   ⟨"s2_cut_acc", some (.list [.str "_s2_cut_acc.json", .str "_s2_cut_acc.json", .str "_s2_cut_acc.json", .str "s2_cut_acc_sigma"])⟩]

/-- What `ERBand` registers, in order (components/er.py 6-18). -/
def reg_ERBand : List Plugin :=
  [common_UniformEnergySpectra] ++ [common_PositionSpectra] ++ mod_er_microphys ++ mod_detector ++
   mod_reconstruction ++ mod_efficiency

/-- What `ERPeak` registers, in order (components/er.py 21-33). -/
def reg_ERPeak : List Plugin :=
  [common_MonoEnergySpectra] ++ [common_PositionSpectra] ++ mod_er_microphys ++ mod_detector ++
   mod_reconstruction ++ mod_efficiency

/-- What `ERBandNestV2` registers, in order (components/er.py 36-48). -/
def reg_ERBandNestV2 : List Plugin :=
  [common_UniformEnergySpectra] ++ [common_PositionSpectra] ++ mod_er_nestv2 ++ mod_detector ++
   mod_reconstruction ++ mod_efficiency

/-- What `ERPeakNestV2` registers, in order (components/er.py 51-63). -/
def reg_ERPeakNestV2 : List Plugin :=
  [common_MonoEnergySpectra] ++ [common_PositionSpectra] ++ mod_er_nestv2 ++ mod_detector ++ mod_reconstruction
   ++ mod_efficiency

/-- What `NR` registers, in order (components/nr.py 6-18). -/
def reg_NR : List Plugin :=
  [common_FixedEnergySpectra] ++ [common_PositionSpectra] ++ mod_lyqy ++ mod_detector ++ mod_reconstruction ++
   mod_efficiency

/-- What `MonoEnergiesYields` registers, in order (components/yields.py 6-17). -/
def reg_MonoEnergiesYields : List Plugin :=
  [nestv2_MonoEnergiesSpectra] ++ [common_PositionSpectra] ++ [detector_EField] ++ [nestv2_TotalQuanta] ++
   [nestv2_ThomasImelBox] ++ [nestv2_QyNR] ++ [nestv2_LyNR] ++ [nestv2_MonoEnergiesClipEff]

/-- What `BandEnergiesYields` registers, in order (components/yields.py 20-31). -/
def reg_BandEnergiesYields : List Plugin :=
  [nestv2_UniformEnergiesSpectra] ++ [common_PositionSpectra] ++ [detector_EField] ++ [nestv2_TotalQuanta] ++
   [nestv2_ThomasImelBox] ++ [nestv2_QyNR] ++ [nestv2_LyNR] ++ [er_nestv2_BandEnergiesClipEff]

/-- The shipped simulated components. -/
def components : List (String × List Plugin) :=
  [("ERBand", reg_ERBand),
   ("ERPeak", reg_ERPeak),
   ("ERBandNestV2", reg_ERBandNestV2),
   ("ERPeakNestV2", reg_ERPeakNestV2),
   ("NR", reg_NR),
   ("MonoEnergiesYields", reg_MonoEnergiesYields),
   ("BandEnergiesYields", reg_BandEnergiesYields)]

/-- The parameters of parameters/er.json. -/
def par_er : List String :=
  ["w", "fano", "gas_gain", "drift_velocity", "s2_threshold", "field", "nex_ni_ratio", "g1", "g2", "p_dpe",
   "elife_sigma", "s1_eff_3f_sigma", "s1_cut_acc_sigma", "s2_cut_acc_sigma", "py0", "py1", "py2", "py3", "py4",
   "rf0", "rf1", "ac_rate", "er_rate"]

/-- The parameters of parameters/er_nestv2.json. -/
def par_er_nestv2 : List String :=
  ["w", "gas_gain", "drift_velocity", "s2_threshold", "field", "liquid_xe_density", "g1", "g2", "p_dpe",
   "elife_sigma", "s1_eff_n_hits_3f_sigma", "s1_cut_acc_sigma", "s2_cut_acc_sigma", "hits_acceptance", "m1",
   "m2", "m3", "m4", "m7", "m8", "m9", "m10", "delta_f", "A_er", "xi_er", "omega_er", "alpha3_er", "ac_rate",
   "er_rate"]

/-- The parameters of parameters/er_rn220_ar37.json. -/
def par_er_rn220_ar37 : List String :=
  ["w", "fano", "gas_gain", "drift_velocity", "s2_threshold", "field", "nex_ni_ratio", "g1", "g2", "p_dpe",
   "elife_sigma", "s1_eff_3f_sigma", "s1_cut_acc_sigma_rn220", "s1_cut_acc_sigma_ar37",
   "s2_cut_acc_sigma_rn220", "s2_cut_acc_sigma_ar37", "py0", "py1", "py2", "py3", "py4", "rf0", "rf1",
   "ac_rate", "er_rate"]

/-- The parameters of parameters/nestv2.json. -/
def par_nestv2 : List String :=
  ["liquid_xe_density", "alpha", "beta", "gamma", "delta", "epsilon", "zeta", "eta", "theta", "iota", "fano_ni",
   "fano_nex", "A", "xi", "omega", "alpha2", "rate"]

/-- The parameters of parameters/nestv2_yield_only.json. -/
def par_nestv2_yield_only : List String :=
  ["liquid_xe_density", "alpha", "beta", "gamma", "delta", "epsilon", "zeta", "eta", "theta", "iota",
   "ly_lux_2016_field", "qy_lenardo_2019_field", "ly_lux_2022_field", "qy_lux_2022_field", "rate"]

/-- The parameters of parameters/nr_low.json. -/
def par_nr_low : List String :=
  ["gas_gain", "drift_velocity", "s2_threshold", "g1", "g2", "p_dpe", "elife_sigma", "s1_eff_3f_sigma",
   "s1_cut_acc_sigma", "s2_cut_acc_sigma", "t_ly", "t_qy", "nr_rate"]

/-- What is read here of a likelihood in an instruction file: its components with the names of their classes, the copied
parameters, the aliases, and the observables. -/
structure LlhData where
  name : String
  comps : List (String × String)
  copies : PyDict String String
  aliases : PyDict String String
  binsOn : List String

/-- What is read here of an instruction file: the configured sigma maps, the likelihoods, and the parameter file. -/
structure InstructData where
  name : String
  sigmas : PyDict String Conf.CVal
  llhs : List LlhData
  parKeys : List String

/-- instructs/literature_lyqy.json. -/
def inst_literature_lyqy : InstructData where
  name := "literature_lyqy.json"
  sigmas :=
    []
  llhs :=
    [⟨"ly_lux_2016", [("ly_lux_2016_nr", "MonoEnergiesYields")],
      [("ly_lux_2016_nr_rate", "rate")],
      [("ly_lux_2016_field", "field")], ["energy", "light_yield"]⟩,
     ⟨"qy_lenardo_2019", [("qy_lenardo_2019_nr", "MonoEnergiesYields")],
      [("qy_lenardo_2019_nr_rate", "rate")],
      [("qy_lenardo_2019_field", "field")], ["energy", "charge_yield"]⟩,
     ⟨"ly_lux_2022", [("ly_lux_2022_nr", "BandEnergiesYields")],
      [("ly_lux_2022_nr_rate", "rate")],
      [("ly_lux_2022_field", "field")], ["energy", "light_yield"]⟩,
     ⟨"qy_lux_2022", [("qy_lux_2022_nr", "BandEnergiesYields")],
      [("qy_lux_2022_nr_rate", "rate")],
      [("qy_lux_2022_field", "field")], ["energy", "charge_yield"]⟩]
  parKeys := par_nestv2_yield_only

/-- instructs/neutron_low.json. -/
def inst_neutron_low : InstructData where
  name := "neutron_low.json"
  sigmas :=
    [("s1_eff_3f", .atom (.list [.str "_3fold_recon_eff.json", .str "_3fold_recon_eff.json", .str "_3fold_recon_eff.json"])),
     ("s1_cut_acc", .atom (.list [.str "_s1_cut_acc.json", .str "_s1_cut_acc.json", .str "_s1_cut_acc.json"])),
     ("s2_cut_acc", .atom (.list [.str "_s2_cut_acc.json", .str "_s2_cut_acc.json", .str "_s2_cut_acc.json"]))]
  llhs :=
    [⟨"neutron_llh", [("neutron_nr", "NR")],
      [("neutron_nr_rate", "nr_rate")],
      [], ["num_s1_phd", "cs2"]⟩]
  parKeys := par_nr_low

/-- instructs/rn220.json. -/
def inst_rn220 : InstructData where
  name := "rn220.json"
  sigmas :=
    [("s1_eff_3f", .atom (.list [.str "_3fold_recon_eff.json", .str "_3fold_recon_eff.json", .str "_3fold_recon_eff.json"])),
     ("s1_cut_acc", .atom (.list [.str "_s1_cut_acc.json", .str "_s1_cut_acc.json", .str "_s1_cut_acc.json"])),
     ("s2_cut_acc", .atom (.list [.str "_s2_cut_acc.json", .str "_s2_cut_acc.json", .str "_s2_cut_acc.json"]))]
  llhs :=
    [⟨"rn220_llh", [("rn220_er", "ERBand"), ("rn220_ac", "AC")],
      [("rn220_er_rate", "er_rate"), ("rn220_ac_rate", "ac_rate")],
      [], ["cs1", "cs2"]⟩]
  parKeys := par_er

/-- instructs/rn220_ar37.json. -/
def inst_rn220_ar37 : InstructData where
  name := "rn220_ar37.json"
  sigmas :=
    [("s1_eff_3f", .atom (.list [.str "_3fold_recon_eff.json", .str "_3fold_recon_eff.json", .str "_3fold_recon_eff.json"])),
     ("s1_cut_acc", .atom (.list [.str "_s1_cut_acc.json", .str "_s1_cut_acc.json", .str "_s1_cut_acc.json"])),
     ("s2_cut_acc", .atom (.list [.str "_s2_cut_acc.json", .str "_s2_cut_acc.json", .str "_s2_cut_acc.json"]))]
  llhs :=
    [⟨"rn220_llh", [("rn220_er", "ERBand"), ("rn220_ac", "AC")],
      [("rn220_er_rate", "er_rate"), ("rn220_ac_rate", "ac_rate")],
      [("s1_cut_acc_sigma_rn220", "s1_cut_acc_sigma"), ("s2_cut_acc_sigma_rn220", "s2_cut_acc_sigma")], ["cs1", "cs2"]⟩,
     ⟨"ar37_llh", [("ar37_er", "ERPeak")],
      [("ar37_er_rate", "er_rate")],
      [("s1_cut_acc_sigma_ar37", "s1_cut_acc_sigma"), ("s2_cut_acc_sigma_ar37", "s2_cut_acc_sigma")], ["cs1", "cs2"]⟩]
  parKeys := par_er_rn220_ar37

/-- The shipped instruction files. -/
def instructs : List InstructData := [inst_literature_lyqy, inst_neutron_low, inst_rn220, inst_rn220_ar37]

/-- The options each instruction file sets (its `configs`), with the likelihoods they are set for; none means for all. -/
def instructOptions : PyDict String (PyDict String (List String)) :=
  [("literature_lyqy.json",
    [("energy_twohalfnorm", ["ly_lux_2016", "qy_lenardo_2019"]),
     ("clip_lower_energy", ["ly_lux_2016", "qy_lenardo_2019", "ly_lux_2022", "qy_lux_2022"]),
     ("clip_upper_energy", ["ly_lux_2016", "qy_lenardo_2019", "ly_lux_2022", "qy_lux_2022"]),
     ("field", ["ly_lux_2016", "qy_lenardo_2019", "ly_lux_2022", "qy_lux_2022"]),
     ("efield_position_dependence", ["ly_lux_2016", "qy_lenardo_2019", "ly_lux_2022", "qy_lux_2022"])]),
   ("neutron_low.json",
    [("s1_correction", []),
     ("s2_correction", []),
     ("elife", []),
     ("posrec_reso", []),
     ("s1_eff_3f", []),
     ("s1_cut_acc", []),
     ("s2_cut_acc", []),
     ("s1_bias_3f", []),
     ("s1_smear_3f", []),
     ("s2_bias", []),
     ("s2_smear", []),
     ("ly_median", []),
     ("qy_median", []),
     ("energy_spectrum", [])]),
   ("rn220.json",
    [("s1_correction", []),
     ("s2_correction", []),
     ("elife", []),
     ("posrec_reso", []),
     ("s1_eff_3f", []),
     ("s1_cut_acc", []),
     ("s2_cut_acc", []),
     ("s1_bias_3f", []),
     ("s1_smear_3f", []),
     ("s2_bias", []),
     ("s2_smear", [])]),
   ("rn220_ar37.json",
    [("s1_correction", []),
     ("s2_correction", []),
     ("elife", []),
     ("posrec_reso", []),
     ("s1_eff_3f", []),
     ("s1_cut_acc", []),
     ("s2_cut_acc", []),
     ("s1_bias_3f", []),
     ("s1_smear_3f", []),
     ("s2_bias", []),
     ("s2_smear", [])])]

end Verif.Shipped
