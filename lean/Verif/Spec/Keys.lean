/-
Vocabulary of C108: when the clock is read.
-/
import Verif.Model.Keys

namespace Verif.Keys

/-- The clock reads a time after 1970 and before the year 290000: what `int64` microseconds can count. -/
def Possible (t : ℚ) : Prop := 0 ≤ t ∧ t * 1000000 < 2 ^ 63

/-- Readings one after the other, at least a microsecond apart. -/
def Apart (readings : List ℚ) : Prop := readings.Pairwise (fun t t' => t + 1 / 1000000 ≤ t')

end Verif.Keys
