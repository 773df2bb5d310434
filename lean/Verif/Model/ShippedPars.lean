/-
The parameter files shipped with appletree: parameters/*.json.
Written by tools/shipped_pars.py.
-/
import Verif.Base.Py
import Mathlib.Data.Rat.Defs

namespace Verif.ShippedPars
open Verif

/-- An entry of a parameter file: `prior_type`, `prior_args`, `allowed_range`, and `init_mean` with `init_std` (parameter.py 34-172 reads
these). -/
structure Entry where
  type : String
  args : PyDict String ℚ
  allowed : Option (ℚ × ℚ)
  init : Option (ℚ × ℚ)

/-- parameters/er.json, all lines. -/
def file_er : PyDict String Entry :=
  [("w", ⟨"norm", [("mean", 137/10000), ("std", 1/5000)], some (0, 1), some (137/10000, 1/5000)⟩),
   ("fano", ⟨"fixed", [("val", 59/1000)], none, none⟩),
   ("gas_gain", ⟨"fixed", [("val", 313/10)], none, none⟩),
   ("drift_velocity", ⟨"fixed", [("val", 677/10000)], none, none⟩),
   ("s2_threshold", ⟨"fixed", [("val", 500)], none, none⟩),
   ("field", ⟨"fixed", [("val", 23)], none, none⟩),
   ("nex_ni_ratio", ⟨"uniform", [("lower", 3/50), ("upper", 1/5)], some (3/50, 1/5), some (11/100, 1/50)⟩),
   ("g1", ⟨"norm", [("mean", 303/2000), ("std", 7/5000)], some (0, 1), some (303/2000, 7/5000)⟩),
   ("g2", ⟨"norm", [("mean", 329/20), ("std", 16/25)], some (0, 100), some (329/20, 16/25)⟩),
   ("p_dpe", ⟨"norm", [("mean", 227/1000), ("std", 3/125)], some (0, 1), some (227/1000, 3/125)⟩),
   ("elife_sigma", ⟨"norm", [("mean", 0), ("std", 1/50)], some (-1, 1), some (0, 1/50)⟩),
   ("s1_eff_3f_sigma", ⟨"norm", [("mean", 0), ("std", 1)], some (-5, 5), some (0, 1)⟩),
   ("s1_cut_acc_sigma", ⟨"norm", [("mean", 0), ("std", 1)], some (-5, 5), some (0, 1)⟩),
   ("s2_cut_acc_sigma", ⟨"norm", [("mean", 0), ("std", 1)], some (-5, 5), some (0, 1)⟩),
   ("py0", ⟨"free", [], some (-10000000000, 10000000000), some (63/500, 1/50)⟩),
   ("py1", ⟨"free", [], some (-10000000000, 10000000000), some (431/10, 1)⟩),
   ("py2", ⟨"free", [], some (-10000000000, 10000000000), some (-3/10, 1/20)⟩),
   ("py3", ⟨"free", [], some (-10000000000, 10000000000), some (47/50, 1/4)⟩),
   ("py4", ⟨"free", [], some (-10000000000, 10000000000), some (59/100, 1/4)⟩),
   ("rf0", ⟨"free", [], some (-10000000000, 10000000000), some (29/1000, 1/200)⟩),
   ("rf1", ⟨"free", [], some (-10000000000, 10000000000), some (13/50, 1/10)⟩),
   ("ac_rate", ⟨"norm", [("mean", 10), ("std", 2)], some (0, 10000000000), some (56/5, 56/25)⟩),
   ("er_rate", ⟨"free", [], some (0, 10000000000), some (2000, 100)⟩)]

/-- parameters/er_nestv2.json, all lines. -/
def file_er_nestv2 : PyDict String Entry :=
  [("w", ⟨"norm", [("mean", 137/10000), ("std", 1/5000)], some (0, 1), some (137/10000, 1/5000)⟩),
   ("gas_gain", ⟨"fixed", [("val", 147/5)], none, none⟩),
   ("drift_velocity", ⟨"fixed", [("val", 677/10000)], none, none⟩),
   ("s2_threshold", ⟨"fixed", [("val", 500)], none, none⟩),
   ("field", ⟨"fixed", [("val", 23)], none, none⟩),
   ("liquid_xe_density", ⟨"fixed", [("val", 29/10)], none, none⟩),
   ("g1", ⟨"norm", [("mean", 303/2000), ("std", 7/5000)], some (0, 1), some (303/2000, 7/5000)⟩),
   ("g2", ⟨"norm", [("mean", 329/20), ("std", 16/25)], some (0, 100), some (329/20, 16/25)⟩),
   ("p_dpe", ⟨"norm", [("mean", 227/1000), ("std", 3/125)], some (0, 1), some (227/1000, 3/125)⟩),
   ("elife_sigma", ⟨"norm", [("mean", 0), ("std", 1/50)], some (-1/2, 1/2), some (0, 1/50)⟩),
   ("s1_eff_n_hits_3f_sigma", ⟨"norm", [("mean", 0), ("std", 1)], some (-3, 3), some (0, 1)⟩),
   ("s1_cut_acc_sigma", ⟨"norm", [("mean", 0), ("std", 1)], some (-3, 3), some (0, 1)⟩),
   ("s2_cut_acc_sigma", ⟨"norm", [("mean", 0), ("std", 1)], some (-3, 3), some (0, 1)⟩),
   ("hits_acceptance", ⟨"norm", [("mean", 187/200), ("std", 1/100)], some (9/10, 1), some (187/200, 1/100)⟩),
   ("m1", ⟨"free", [], some (-20, 20), some (-27/20, 1)⟩),
   ("m2", ⟨"free", [], some (60, 100), some (7727/100, 5)⟩),
   ("m3", ⟨"free", [], some (9/20, 11/20), some (13/25, 1/100)⟩),
   ("m4", ⟨"fixed", [("val", 282528809/100000000)], none, none⟩),
   ("m7", ⟨"free", [], some (10, 1000), some (9913/100, 1/10)⟩),
   ("m8", ⟨"free", [], some (2, 10), some (3453/1000, 1/10)⟩),
   ("m9", ⟨"free", [], some (3/20, 9/20), some (1/4, 1/20)⟩),
   ("m10", ⟨"free", [], some (0, 1), some (117/1000, 1/10000)⟩),
   ("delta_f", ⟨"fixed", [("val", 1)], none, none⟩),
   ("A_er", ⟨"free", [], some (0, 1/5), some (7/200, 1/1000)⟩),
   ("xi_er", ⟨"fixed", [("val", 23/50)], none, none⟩),
   ("omega_er", ⟨"fixed", [("val", 41/200)], none, none⟩),
   ("alpha3_er", ⟨"fixed", [("val", -1/5)], none, none⟩),
   ("ac_rate", ⟨"free", [], some (0, 10000000000), some (33, 33/5)⟩),
   ("er_rate", ⟨"free", [], some (0, 10000000000), some (42796, 200)⟩)]

/-- parameters/er_rn220_ar37.json, all lines. -/
def file_er_rn220_ar37 : PyDict String Entry :=
  [("w", ⟨"norm", [("mean", 137/10000), ("std", 1/5000)], some (0, 1), some (137/10000, 1/5000)⟩),
   ("fano", ⟨"fixed", [("val", 59/1000)], none, none⟩),
   ("gas_gain", ⟨"fixed", [("val", 313/10)], none, none⟩),
   ("drift_velocity", ⟨"fixed", [("val", 677/10000)], none, none⟩),
   ("s2_threshold", ⟨"fixed", [("val", 500)], none, none⟩),
   ("field", ⟨"fixed", [("val", 23)], none, none⟩),
   ("nex_ni_ratio", ⟨"uniform", [("lower", 3/50), ("upper", 1/5)], some (3/50, 1/5), some (11/100, 1/50)⟩),
   ("g1", ⟨"norm", [("mean", 303/2000), ("std", 7/5000)], some (0, 1), some (303/2000, 7/5000)⟩),
   ("g2", ⟨"norm", [("mean", 329/20), ("std", 16/25)], some (0, 100), some (329/20, 16/25)⟩),
   ("p_dpe", ⟨"norm", [("mean", 227/1000), ("std", 3/125)], some (0, 1), some (227/1000, 3/125)⟩),
   ("elife_sigma", ⟨"norm", [("mean", 0), ("std", 1/50)], some (-1, 1), some (0, 1/50)⟩),
   ("s1_eff_3f_sigma", ⟨"norm", [("mean", 0), ("std", 1)], some (-5, 5), some (0, 1)⟩),
   ("s1_cut_acc_sigma_rn220", ⟨"norm", [("mean", 0), ("std", 1)], some (-5, 5), some (0, 1)⟩),
   ("s1_cut_acc_sigma_ar37", ⟨"norm", [("mean", 0), ("std", 1)], some (-5, 5), some (0, 1)⟩),
   ("s2_cut_acc_sigma_rn220", ⟨"norm", [("mean", 0), ("std", 1)], some (-5, 5), some (0, 1)⟩),
   ("s2_cut_acc_sigma_ar37", ⟨"norm", [("mean", 0), ("std", 1)], some (-5, 5), some (0, 1)⟩),
   ("py0", ⟨"free", [], some (-10000000000, 10000000000), some (63/500, 1/50)⟩),
   ("py1", ⟨"free", [], some (-10000000000, 10000000000), some (431/10, 1)⟩),
   ("py2", ⟨"free", [], some (-10000000000, 10000000000), some (-3/10, 1/20)⟩),
   ("py3", ⟨"free", [], some (-10000000000, 10000000000), some (47/50, 1/4)⟩),
   ("py4", ⟨"free", [], some (-10000000000, 10000000000), some (59/100, 1/4)⟩),
   ("rf0", ⟨"free", [], some (-10000000000, 10000000000), some (29/1000, 1/200)⟩),
   ("rf1", ⟨"free", [], some (-10000000000, 10000000000), some (13/50, 1/10)⟩),
   ("ac_rate", ⟨"norm", [("mean", 10), ("std", 2)], some (0, 10000000000), some (56/5, 56/25)⟩),
   ("er_rate", ⟨"free", [], some (0, 10000000000), some (2000, 100)⟩)]

/-- parameters/nestv2.json, all lines. -/
def file_nestv2 : PyDict String Entry :=
  [("liquid_xe_density", ⟨"fixed", [("val", 28619/10000)], none, none⟩),
   ("alpha", ⟨"twohalfnorm", [("mu", 11), ("sigma_pos", 2), ("sigma_neg", 1/2)], some (1/10000000000, 10000000000), some (11, 1/2)⟩),
   ("beta", ⟨"norm", [("mean", 11/10), ("std", 1/20)], some (-10000000000, 10000000000), some (11/10, 1/20)⟩),
   ("gamma", ⟨"norm", [("mean", 6/125), ("std", 21/10000)], some (1/10000000000, 10000000000), some (6/125, 21/10000)⟩),
   ("delta", ⟨"norm", [("mean", -533/10000), ("std", 17/2500)], some (-10000000000, 10000000000), some (-533/10000, 17/2500)⟩),
   ("epsilon", ⟨"twohalfnorm", [("mu", 63/5), ("sigma_pos", 17/5), ("sigma_neg", 29/10)], some (1/10000000000, 10000000000), some (63/5, 29/10)⟩),
   ("zeta", ⟨"norm", [("mean", 3/10), ("std", 1/10)], some (1/10000000000, 10000000000), some (3/10, 1/10)⟩),
   ("eta", ⟨"norm", [("mean", 2), ("std", 1)], some (-10000000000, 10000000000), some (2, 1)⟩),
   ("theta", ⟨"norm", [("mean", 3/10), ("std", 1/20)], some (-10000000000, 10000000000), some (3/10, 1/20)⟩),
   ("iota", ⟨"norm", [("mean", 2), ("std", 1/2)], some (-10000000000, 10000000000), some (2, 1/2)⟩),
   ("fano_ni", ⟨"fixed", [("val", 2/5)], none, none⟩),
   ("fano_nex", ⟨"fixed", [("val", 2/5)], none, none⟩),
   ("A", ⟨"fixed", [("val", 1/25)], none, none⟩),
   ("xi", ⟨"fixed", [("val", 1/2)], none, none⟩),
   ("omega", ⟨"fixed", [("val", 19/100)], none, none⟩),
   ("alpha2", ⟨"fixed", [("val", 9/4)], none, none⟩),
   ("rate", ⟨"fixed", [("val", 1)], none, none⟩)]

/-- parameters/nestv2_yield_only.json, all lines. -/
def file_nestv2_yield_only : PyDict String Entry :=
  [("liquid_xe_density", ⟨"fixed", [("val", 28619/10000)], none, none⟩),
   ("alpha", ⟨"twohalfnorm", [("mu", 11), ("sigma_pos", 2), ("sigma_neg", 1/2)], some (1/10000000000, 10000000000), some (11, 1/2)⟩),
   ("beta", ⟨"norm", [("mean", 11/10), ("std", 1/20)], some (-10000000000, 10000000000), some (11/10, 1/20)⟩),
   ("gamma", ⟨"norm", [("mean", 6/125), ("std", 21/10000)], some (1/10000000000, 10000000000), some (6/125, 21/10000)⟩),
   ("delta", ⟨"norm", [("mean", -533/10000), ("std", 17/2500)], some (-10000000000, 10000000000), some (-533/10000, 17/2500)⟩),
   ("epsilon", ⟨"twohalfnorm", [("mu", 63/5), ("sigma_pos", 17/5), ("sigma_neg", 29/10)], some (1/10000000000, 10000000000), some (63/5, 29/10)⟩),
   ("zeta", ⟨"norm", [("mean", 3/10), ("std", 1/10)], some (1/10000000000, 10000000000), some (3/10, 1/10)⟩),
   ("eta", ⟨"norm", [("mean", 2), ("std", 1)], some (-10000000000, 10000000000), some (2, 1)⟩),
   ("theta", ⟨"norm", [("mean", 3/10), ("std", 1/20)], some (-10000000000, 10000000000), some (3/10, 1/20)⟩),
   ("iota", ⟨"norm", [("mean", 2), ("std", 1/2)], some (-10000000000, 10000000000), some (2, 1/2)⟩),
   ("ly_lux_2016_field", ⟨"fixed", [("val", 180)], none, none⟩),
   ("qy_lenardo_2019_field", ⟨"fixed", [("val", 220)], none, none⟩),
   ("ly_lux_2022_field", ⟨"fixed", [("val", 400)], none, none⟩),
   ("qy_lux_2022_field", ⟨"fixed", [("val", 400)], none, none⟩),
   ("rate", ⟨"fixed", [("val", 1)], none, none⟩)]

/-- parameters/nr_low.json, all lines. -/
def file_nr_low : PyDict String Entry :=
  [("gas_gain", ⟨"fixed", [("val", 313/10)], none, none⟩),
   ("drift_velocity", ⟨"fixed", [("val", 677/10000)], none, none⟩),
   ("s2_threshold", ⟨"fixed", [("val", 500)], none, none⟩),
   ("g1", ⟨"norm", [("mean", 303/2000), ("std", 7/5000)], some (0, 1), some (303/2000, 7/5000)⟩),
   ("g2", ⟨"norm", [("mean", 329/20), ("std", 16/25)], some (0, 100), some (329/20, 16/25)⟩),
   ("p_dpe", ⟨"norm", [("mean", 227/1000), ("std", 3/125)], some (0, 1), some (227/1000, 3/125)⟩),
   ("elife_sigma", ⟨"norm", [("mean", 0), ("std", 1/50)], some (-1, 1), some (0, 1/50)⟩),
   ("s1_eff_3f_sigma", ⟨"norm", [("mean", 0), ("std", 1)], some (-5, 5), some (0, 1)⟩),
   ("s1_cut_acc_sigma", ⟨"norm", [("mean", 0), ("std", 1)], some (-5, 5), some (0, 1)⟩),
   ("s2_cut_acc_sigma", ⟨"norm", [("mean", 0), ("std", 1)], some (-5, 5), some (0, 1)⟩),
   ("t_ly", ⟨"free", [], some (-2, 2), some (0, 1/5)⟩),
   ("t_qy", ⟨"free", [], some (-2, 2), some (0, 1/5)⟩),
   ("nr_rate", ⟨"free", [], some (0, 10000000000), some (2000, 100)⟩)]

/-- The shipped parameter files by name. -/
def files : PyDict String (PyDict String Entry) :=
  [("er.json", file_er), ("er_nestv2.json", file_er_nestv2), ("er_rn220_ar37.json", file_er_rn220_ar37), ("nestv2.json", file_nestv2), ("nestv2_yield_only.json", file_nestv2_yield_only), ("nr_low.json", file_nr_low)]

end Verif.ShippedPars
