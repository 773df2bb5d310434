/-
Single precision sums.  `hist.py` adds up weights in arrays made by `jnp.zeros` (hist.py 31, 58), which are single precision unless
64-bit mode was switched on before importing (appletree does not, see randgen.py 27-32).  The histogram functions are those of
`Model/Hist.lean`, with weights whose sum is rounded.
External behaviour modelled here: a sum of two single-precision numbers is the exact sum rounded to 24 significant binary digits,
to the nearest one and in a tie to the even one.  Neither overflow nor underflow is modelled.
-/
import Verif.Model.Hist
import Mathlib.Data.Int.Log
import Mathlib.Data.Real.Archimedean
import Mathlib.Algebra.Ring.Int.Parity

namespace Verif.Single
open Verif

/-- The nearest integer, the even one in a tie. -/
noncomputable def halfEven (q : ℝ) : ℤ :=
  if q - ⌊q⌋ < 1 / 2 then ⌊q⌋ else if 1 / 2 < q - ⌊q⌋ then ⌊q⌋ + 1 else if Even ⌊q⌋ then ⌊q⌋ else ⌊q⌋ + 1

/-- The unit in the last of 24 binary digits. -/
noncomputable def ulp (x : ℝ) : ℝ := 2 ^ (Int.log 2 |x| - 23)

/-- Rounding to single precision. -/
noncomputable def rnd (x : ℝ) : ℝ := halfEven (x / ulp x) * ulp x

/-- Weights and contents of bins in single precision (hist.py 31-32, 58-59). -/
@[ext] structure F32 where
  val : ℝ

noncomputable instance : Zero F32 := ⟨⟨0⟩⟩

/-- The rounded sum, as in `hist.at[ind].add(weights)` (hist.py 32, 59). -/
noncomputable instance : Add F32 := ⟨fun a b => ⟨rnd (a.val + b.val)⟩⟩

end Verif.Single
