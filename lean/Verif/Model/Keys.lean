/-
Model of `get_key` (appletree/randgen.py 34-40): the key a simulation starts from, made of a seed or of the clock.

Simplifications.  The clock is a rational number of seconds and the product with 1e6 is exact.  `jax.random.PRNGKey` is modelled by
its documented result for the default generator: the two halves of the seed as 64-bit number, after the seed has lost its upper half
if 64-bit numbers are not enabled; `none` is the OverflowError for seeds that are no 64-bit numbers.
-/
import Mathlib.Data.Rat.Floor

namespace Verif.Keys

/-- A key: two 32-bit words. -/
abbrev Words := Int × Int

/-- `int(q)`: towards zero. -/
def truncate (q : ℚ) : Int := if 0 ≤ q then ⌊q⌋ else ⌈q⌉

/-- `int(time() * 1e6)` (randgen.py 39). -/
def clockSeed (t : ℚ) : Int := truncate (t * 1000000)

/-- `random.PRNGKey(seed)` (randgen.py 40), with and without 64-bit numbers (randgen.py 27-32). -/
def prngKey (x64 : Bool) (seed : Int) : Option Words :=
  if seed < -(2 ^ 63) ∨ 2 ^ 63 ≤ seed then none
  else if x64 then some (seed % 2 ^ 64 / 2 ^ 32, seed % 2 ^ 32)
  else some (0, seed % 2 ^ 32)

/-- `get_key` (randgen.py 34-40). -/
def getKey (x64 : Bool) (seed : Option Int) (clock : ℚ) : Option Words :=
  match seed with
  | none => prngKey x64 (clockSeed clock)
  | some s => prngKey x64 s

/-- The keys of evaluations of the posterior (context.py 178), of repeats of one (context.py 189-195) and of `get_num_events_accepted`
(likelihood.py 386): one for each reading of the clock. -/
def evaluationKeys (x64 : Bool) (readings : List ℚ) : List (Option Words) := readings.map (getKey x64 none)

end Verif.Keys
