/-
A topological order of the data names of each shipped component.  Written by `tools/shipped.py`; used in proofs only.
-/
namespace Verif.Shipped

def order_ERBand : List String :=
  ["energy", "x", "y", "z", "num_quanta", "recomb_std", "drift_survive_prob", "field", "s1_lce", "s2_lce",
   "num_ion", "recomb_mean", "recomb", "num_photon", "num_electron", "num_electron_drifted", "num_s1_phd",
   "num_s1_pe", "num_s2_pe", "rec_x", "rec_y", "rec_z", "rec_r", "acc_s1_recon_eff", "s1_area", "s1_correction",
   "s2_area", "s2_correction", "cs1", "cs2", "cut_acc_s1", "cut_acc_s2", "acc_s2_threshold", "eff"]

def order_ERPeak : List String :=
  ["energy", "x", "y", "z", "num_quanta", "recomb_std", "drift_survive_prob", "field", "s1_lce", "s2_lce",
   "num_ion", "recomb_mean", "recomb", "num_photon", "num_electron", "num_electron_drifted", "num_s1_phd",
   "num_s1_pe", "num_s2_pe", "rec_x", "rec_y", "rec_z", "rec_r", "acc_s1_recon_eff", "s1_area", "s1_correction",
   "s2_area", "s2_correction", "cs1", "cs2", "cut_acc_s1", "cut_acc_s2", "acc_s2_threshold", "eff"]

def order_ERBandNestV2 : List String :=
  ["energy", "x", "y", "z", "nex_ni_ratio", "alf", "drift_survive_prob", "field", "s1_lce", "s2_lce",
   "charge_yield", "light_yield", "_Nph", "_Ne", "fano_nq", "elecFrac", "recombProb", "Ni", "Nex", "Nq",
   "omega", "Variance", "num_photon", "num_electron", "num_electron_drifted", "num_s1_phd", "num_s1_pe",
   "num_s2_pe", "rec_x", "rec_y", "rec_z", "rec_r", "acc_s1_recon_eff", "s1_area", "s1_correction", "s2_area",
   "s2_correction", "cs1", "cs2", "cut_acc_s1", "cut_acc_s2", "acc_s2_threshold", "eff"]

def order_ERPeakNestV2 : List String :=
  ["energy", "x", "y", "z", "nex_ni_ratio", "alf", "drift_survive_prob", "field", "s1_lce", "s2_lce",
   "charge_yield", "light_yield", "_Nph", "_Ne", "fano_nq", "elecFrac", "recombProb", "Ni", "Nex", "Nq",
   "omega", "Variance", "num_photon", "num_electron", "num_electron_drifted", "num_s1_phd", "num_s1_pe",
   "num_s2_pe", "rec_x", "rec_y", "rec_z", "rec_r", "acc_s1_recon_eff", "s1_area", "s1_correction", "s2_area",
   "s2_correction", "cs1", "cs2", "cut_acc_s1", "cut_acc_s2", "acc_s2_threshold", "eff"]

def order_NR : List String :=
  ["energy", "x", "y", "z", "charge_yield", "light_yield", "drift_survive_prob", "field", "s1_lce", "s2_lce",
   "num_electron", "num_photon", "num_electron_drifted", "num_s1_phd", "num_s1_pe", "num_s2_pe", "rec_x",
   "rec_y", "rec_z", "rec_r", "acc_s1_recon_eff", "s1_area", "s1_correction", "s2_area", "s2_correction", "cs1",
   "cs2", "cut_acc_s1", "cut_acc_s2", "acc_s2_threshold", "eff"]

def order_MonoEnergiesYields : List String :=
  ["energy", "energy_center", "x", "y", "z", "field", "_Nq", "eff", "ThomasImel", "charge_yield", "light_yield"]

def order_BandEnergiesYields : List String :=
  ["energy", "x", "y", "z", "field", "_Nq", "eff", "ThomasImel", "charge_yield", "light_yield"]

end Verif.Shipped
