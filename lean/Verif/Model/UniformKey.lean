/-
Model of `uniform_key_vectorized`, `appletree/randgen.py` 518-531.

What `jax.random.uniform` returns for a key is an argument.  An array of keys of shape (N, 2) is the list of its rows.
-/
import Verif.Model.Randgen

namespace Verif.Randgen
open Verif

/-- `uniform_key_vectorized` (randgen.py 518-531): `vmap` draws one number from each key; no key is split and none is returned. -/
def uniformKeyVectorized (u : Key → ℝ) (keys : List Key) : Samp (List ℝ) := fun s =>
  (keys.map u, { s with used := keys.reverse ++ s.used })

end Verif.Randgen
