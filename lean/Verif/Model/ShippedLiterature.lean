/-
The literature likelihoods shipped with appletree: instructs/literature_lyqy.json.
Written by tools/literature.py.
-/
import Verif.Base.Py
import Mathlib.Data.Rat.Defs

namespace Verif.Lit
open Verif

/-- What is read here of a literature likelihood in instructs/literature_lyqy.json: its name, the class of its component, the yield it
compares, the shape and its arguments, the energies of its points (the option `energy_twohalfnorm`), and the energy range (the options
`clip_lower_energy` and `clip_upper_energy`). -/
structure LitData where
  name : String
  cls : String
  yield : String
  shape : String
  args : PyDict String (List ℚ)
  energies : PyDict String (List ℚ)
  lower : ℚ
  upper : ℚ

/-- instructs/literature_lyqy.json, lines 2-142. -/
def shipped : List LitData := [
  ⟨"ly_lux_2016", "MonoEnergiesYields", "light_yield", "twohalfnorm",
    [("mu", [49/10, 26/5, 49/10, 32/5, 61/10, 37/5, 79/10, 81/10, 89/10]),
     ("sigma_pos", [6/5, 3/5, 1/2, 2/5, 2/5, 2/5, 2/5, 2/5, 3/5]),
     ("sigma_neg", [1, 2/5, 2/5, 2/5, 3/10, 2/5, 2/5, 1/2, 2/5])],
    [("mu", [27/25, 48/25, 313/100, 89/20, 589/100, 186/25, 91/10, 109/10, 64/5]),
     ("sigma_pos", [13/100, 9/100, 11/100, 11/100, 13/100, 17/100, 1/5, 3/10, 3/10]),
     ("sigma_neg", [13/100, 9/100, 11/100, 11/100, 13/100, 17/100, 1/5, 3/10, 3/10])],
    0, 5/2⟩,
  ⟨"qy_lenardo_2019", "MonoEnergiesYields", "charge_yield", "twohalfnorm",
    [("mu", [349/50, 699/100, 733/100, 174/25, 172/25, 689/100, 623/100, 158/25, 229/50, 347/100]),
     ("sigma_pos", [2/25, 3/25, 11/100, 1/10, 9/100, 21/100, 11/50, 23/100, 39/100, 41/100]),
     ("sigma_neg", [2/25, 11/100, 13/100, 1/10, 9/100, 11/50, 9/50, 6/25, 19/50, 2/5])],
    [("mu", [152/25, 93/20, 361/100, 59/20, 211/100, 161/100, 97/100, 93/100, 221/500, 37/125]),
     ("sigma_pos", [21/50, 1/4, 23/100, 21/100, 31/100, 4/25, 13/100, 3/25, 11/125, 37/500]),
     ("sigma_neg", [13/25, 6/25, 11/50, 1/5, 7/25, 3/20, 11/100, 11/100, 37/500, 31/500])],
    0, 5/2⟩,
  ⟨"ly_lux_2022", "BandEnergiesYields", "light_yield", "band",
    [("x", [9/20, 4/5, 2, 4, 6, 8, 15, 40]),
     ("y", [153/50, 93/25, 463/100, 553/100, 631/100, 173/25, 42/5, 54/5]),
     ("yerr_upper", [227/250, 1003/1000, 763/1000, 13/20, 741/1000, 817/1000, 493/500, 158/125]),
     ("yerr_lower", [781/1000, 869/1000, 177/250, 13/20, 741/1000, 817/1000, 493/500, 158/125])],
    [],
    0, 5/2⟩,
  ⟨"qy_lux_2022", "BandEnergiesYields", "charge_yield", "band",
    [("x", [27/100, 9/20, 4/5, 2, 4, 6, 8, 15]),
     ("y", [483/100, 533/100, 63/10, 693/100, 168/25, 647/100, 31/5, 537/100]),
     ("yerr_upper", [171/100, 377/250, 1151/1000, 807/1000, 117/200, 283/500, 271/500, 231/500]),
     ("yerr_lower", [171/100, 377/250, 1151/1000, 807/1000, 117/200, 283/500, 271/500, 231/500])],
    [],
    0, 5/2⟩]

end Verif.Lit
