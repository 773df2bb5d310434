/-
Model of the random samplers, `appletree/randgen.py`.

Simplifications.  A key is the path of splits that leads to it from the key the user started with, so two keys are equal only
if they were obtained by the same splits.  What `jax.random` returns for a key is an argument (`Rng`).  All arrays of a call
are already broadcast to one shape with `m` elements.  Numbers are real numbers and integers instead of 32-bit ones, so the
casts at the end of each sampler are the identity.  Rounding of a real number to an integer is an argument where it is used.
The `while_loop` of `generalized_poisson` carries fuel.  The samplers of numpyro and of `jax.random` are not modelled.
-/
import Mathlib.Analysis.Real.Sqrt
import Mathlib.Analysis.SpecialFunctions.Log.Basic
import Mathlib.Analysis.SpecialFunctions.Trigonometric.Basic
import Verif.Base.Py

namespace Verif.Randgen
open Verif

/-- A key: the splits that lead to it, latest first; `(n, i)` is entry `i` of a split into `n`. -/
abbrev Key := List (Nat × Nat)

/-- Entry `i` of `jax.random.split(key, n)`. -/
def Key.child (k : Key) (n i : Nat) : Key := (n, i) :: k

/-- What `jax.random` draws for a key, for arrays of `m` elements: standard normal, uniform on [0,1), uniform per element and
trial, Poisson with the given expectations, gamma with the given shapes (rate one), Bernoulli and binomial draws. -/
structure Rng (m : Nat) where
  normal : Key → Fin m → ℝ
  uniform : Key → Fin m → ℝ
  trials : Key → Fin m → Nat → ℝ
  poisson : Key → (Fin m → ℝ) → Fin m → Nat
  gamma : Key → (Fin m → ℝ) → Fin m → ℝ
  bernoulli : Key → (Fin m → ℝ) → Fin m → Bool
  binomial : Key → (Fin m → ℤ) → (Fin m → ℝ) → Fin m → ℤ
  normal1 : Key → ℝ
  numpyro : Key → ℝ → ℤ → ℤ

/-- The key a program holds and the keys drawn from so far, latest first. -/
structure St where
  key : Key
  used : List Key

/-- A sampler: takes the key, gives the value and the updated key. -/
abbrev Samp (α : Type) := St → α × St

/-- `key, seed = random.split(key)`. -/
def split2 : Samp Key := fun s => (s.key.child 2 1, { s with key := s.key.child 2 0 })

/-- `key, key_cf, key_bernoulli = random.split(key, 3)` (randgen.py 249). -/
def split3 : Samp (Key × Key) := fun s => ((s.key.child 3 1, s.key.child 3 2), { s with key := s.key.child 3 0 })

/-- One array is drawn from the key `k`. -/
def draw {α : Type} (k : Key) (x : α) : Samp α := fun s => (x, { s with used := k :: s.used })

variable {m : Nat}

/-- `uniform` (randgen.py 43-66): `jax.random.uniform` between bounds scales a draw from [0,1) and keeps it at least `vmin`. -/
noncomputable def uniform (r : Rng m) (vmin vmax : Fin m → ℝ) : Samp (Fin m → ℝ) := fun s =>
  let (seed, s) := split2 s
  draw seed (fun i => max (vmin i) (r.uniform seed i * (vmax i - vmin i) + vmin i)) s

/-- `poisson` (randgen.py 69-88). -/
def poisson (r : Rng m) (lam : Fin m → ℝ) : Samp (Fin m → Nat) := fun s =>
  let (seed, s) := split2 s
  draw seed (r.poisson seed lam) s

/-- `gamma` (randgen.py 91-114). -/
noncomputable def gamma (r : Rng m) (alpha beta : Fin m → ℝ) : Samp (Fin m → ℝ) := fun s =>
  let (seed, s) := split2 s
  draw seed (fun i => r.gamma seed alpha i / beta i) s

/-- `normal` (randgen.py 117-140). -/
noncomputable def normal (r : Rng m) (mean std : Fin m → ℝ) : Samp (Fin m → ℝ) := fun s =>
  let (seed, s) := split2 s
  draw seed (fun i => r.normal seed i * std i + mean i) s

/-- `jnp.clip` with bounds that may be None: the lower bound first. -/
noncomputable def clipOpt (lo hi : Option ℝ) (x : ℝ) : ℝ :=
  let y := match lo with | some l => max x l | none => x
  match hi with | some h => min y h | none => y

/-- `truncate_normal` (randgen.py 144-165). -/
noncomputable def truncateNormal (r : Rng m) (mean std : Fin m → ℝ) (vmin vmax : Option (Fin m → ℝ)) : Samp (Fin m → ℝ) :=
  fun s =>
    let (x, s) := normal r mean std s
    (fun i => clipOpt (vmin.map (fun f => f i)) (vmax.map (fun f => f i)) (x i), s)

/-- `skewnormal` (randgen.py 168-203). -/
noncomputable def skewnormal (r : Rng m) (a loc scale : Fin m → ℝ) : Samp (Fin m → ℝ) := fun s =>
  let (seed0, s) := split2 s
  let (rvs0, s) := draw seed0 (r.normal seed0) s
  let (seed1, s) := split2 s
  let (rvs1, s) := draw seed1 (r.normal seed1) s
  (fun i => (a i * |rvs0 i| + rvs1 i) / √(1 + a i ^ 2) * scale i + loc i, s)

/-- `bernoulli` (randgen.py 206-224). -/
def bernoulli (r : Rng m) (p : Fin m → ℝ) : Samp (Fin m → Nat) := fun s =>
  let (seed, s) := split2 s
  draw seed (fun i => (r.bernoulli seed p i).toNat) s

/-- The Cornish-Fisher corrected draw before rounding (randgen.py 262-292). -/
noncomputable def cornishFisher (p0 : ℝ) (n : ℤ) (z : ℝ) : ℝ :=
  let q0 := 1 - p0
  let mu := n * p0
  let var := n * p0 * q0
  let sigma := √(var + 1e-12)
  let gamma1 := (q0 - p0) / (sigma + 1e-12)
  let gamma2 := (1 - 6 * p0 * q0) / (var + 1e-12)
  let zcf := z + gamma1 / 6 * (z * z - 1) + gamma2 / 24 * (z * z * z - 3 * z)
    - gamma1 * gamma1 / 36 * (2 * (z * z * z) - 5 * z)
  mu + sigma * zcf

/-- The large-n path (randgen.py 256-297): symmetry reduction, correction, rounding, clip, flip back. -/
noncomputable def cfPath (rnd : ℝ → ℤ) (p : ℝ) (n : ℤ) (z : ℝ) : ℤ :=
  let p0 := if 0.5 < p then 1 - p else p
  let x := min (max (rnd (cornishFisher p0 n z)) 0) n
  if 0.5 < p then n - x else x

/-- The small-n path (randgen.py 299-315): successes among the first `threshold` trials whose index is below `n`. -/
noncomputable def bernoulliPath (threshold : Nat) (p : ℝ) (n : ℤ) (u : Nat → ℝ) : ℤ :=
  (((List.range threshold).filter (fun j : Nat => decide (u j < p) && decide ((j : ℤ) < n))).length : ℤ)

/-- One element of `binomial_hybrid` (randgen.py 249-323). -/
noncomputable def hybrid (rnd : ℝ → ℤ) (threshold : Nat) (p : ℝ) (n : ℤ) (z : ℝ) (u : Nat → ℝ) : ℤ :=
  let x := if n ≤ threshold then bernoulliPath threshold p n u else cfPath rnd p n z
  let x := if p ≤ 0 then 0 else x
  let x := if 1 ≤ p then n else x
  if n ≤ 0 then 0 else x

/-- `binomial_hybrid` (randgen.py 227-323), which `binomial` is with `APPLETREE_USE_HYBRID=1` (326-349). -/
noncomputable def binomialHybrid (rnd : ℝ → ℤ) (threshold : Nat) (r : Rng m) (p : Fin m → ℝ) (n : Fin m → ℤ) :
    Samp (Fin m → ℤ) := fun s =>
  let ((keyCf, keyB), s) := split3 s
  let (z, s) := draw keyCf (r.normal keyCf) s
  let (u, s) := draw keyB (r.trials keyB) s
  (fun i => hybrid rnd threshold (p i) (n i) (z i) (u i), s)

/-- `binomial` when `jax.random` has one (randgen.py 351-380). -/
def binomialJax (r : Rng m) (p : Fin m → ℝ) (n : Fin m → ℤ) : Samp (Fin m → ℤ) := fun s =>
  let (seed, s) := split2 s
  draw seed (r.binomial seed n p) s

/-- `_binomial_normal_approx_dispatch` (randgen.py 413-418) for the draw `z`. -/
noncomputable def normalApprox (rnd : ℝ → ℤ) (p : ℝ) (n : ℤ) (z : ℝ) : ℤ :=
  rnd (min (max (z * √(n * p * (1 - p)) + n * p) 0) n)

/-- The dispatch of one element (randgen.py 413-428, 438-441). -/
noncomputable def dispatch (rnd : ℝ → ℤ) (always : Bool) (r : Rng m) (k : Key) (p : ℝ) (n : ℤ) : ℤ :=
  if always then normalApprox rnd p n (r.normal1 k)
  else if 5 ≤ (n : ℝ) * p then normalApprox rnd p n (r.normal1 k) else r.numpyro k p n

/-- `binomial` without one in `jax.random` (randgen.py 392-446): one key per element. -/
noncomputable def binomialFallback (rnd : ℝ → ℤ) (always : Bool) (r : Rng m) (p : Fin m → ℝ) (n : Fin m → ℤ) :
    Samp (Fin m → ℤ) := fun s =>
  let (seed, s) := split2 s
  let keys := fun i : Fin m => seed.child m i
  (fun i => dispatch rnd always r (keys i) (p i) (n i),
    { s with used := ((List.finRange m).map keys).reverse ++ s.used })

/-- `negative_binomial` (randgen.py 449-470). -/
noncomputable def negativeBinomial (r : Rng m) (p n : Fin m → ℝ) : Samp (Fin m → Nat) := fun s =>
  let (lam, s) := gamma r n (fun i => p i / (1 - p i)) s
  poisson r lam s

/-- The `while_loop` of `generalized_poisson` (randgen.py 499-513), with fuel; `none` when the fuel is spent. -/
noncomputable def gpLoop (r : Rng m) (eta : Fin m → ℝ) :
    Nat → (Fin m → Nat) → (Fin m → Nat) → Samp (Option (Fin m → Nat))
  | 0, _, _, s => (none, s)
  | fuel + 1, offspring, population, s =>
    if ∃ i, 0 < offspring i then
      let (offspring', s) := poisson r (fun i => eta i * (offspring i : ℝ)) s
      gpLoop r eta fuel offspring' (fun i => population i + offspring' i) s
    else (some population, s)

/-- `generalized_poisson` (randgen.py 473-515). -/
noncomputable def generalizedPoisson (fuel : Nat) (r : Rng m) (lam eta : Fin m → ℝ) : Samp (Option (Fin m → Nat)) := fun s =>
  let (population, s) := poisson r (fun i => lam i * (1 - eta i)) s
  gpLoop r eta fuel population population s

/-- The value of a two-half-normal draw from a uniform `u` and a normal `z` (randgen.py 551-557 and 638-645), the boolean masks
being zero or one. -/
noncomputable def thnValue (mu sp sn u z : ℝ) : ℝ :=
  let pos : ℝ := if u < sp / (sp + sn) then 1 else 0
  let neg : ℝ := if u < sp / (sp + sn) then 0 else 1
  pos * |z| * sp - neg * |z| * sn + mu

/-- `twohalfnorm` (randgen.py 618-647): the uniform and the normal are drawn from the same key. -/
noncomputable def twohalfnorm (r : Rng m) (mu sp sn : Fin m → ℝ) : Samp (Fin m → ℝ) := fun s =>
  let (seed, s) := split2 s
  let (u, s) := draw seed (r.uniform seed) s
  let (z, s) := draw seed (r.normal seed) s
  (fun i => thnValue (mu i) (sp i) (sn i) (u i) (z i), s)

/-- One element of `TwoHalfNorm.rvs` (randgen.py 534-557) when an output shape is given or the sigmas are numpy numbers: the
comparison is then a numpy bool and `~` inverts it. -/
noncomputable def thnRvs (mu sp sn u z : ℝ) : Res ℝ :=
  if 0 < sp ∧ 0 < sn then .ok (thnValue mu sp sn u z) else .error .assertionError

/-- `~b` of a Python bool: the complement of the integer, -2 or -1. -/
def pyInvert (b : Bool) : ℤ := -(if b then 1 else 0) - 1

/-- `TwoHalfNorm.rvs` (randgen.py 534-557) without a shape and with Python numbers: `np.random.uniform()` is a Python float, so
the comparison is a Python bool and `~` gives an integer. -/
noncomputable def thnRvsScalar (mu sp sn u z : ℝ) : Res ℝ :=
  if 0 < sp ∧ 0 < sn then
    let b := decide (u < sp / (sp + sn))
    .ok ((if b then 1 else 0) * |z| * sp - (pyInvert b : ℝ) * |z| * sn + mu)
  else .error .assertionError

/-- `TwoHalfNorm.logpdf` (randgen.py 560-587) at a finite number. -/
noncomputable def thnLogpdf (x mu sp sn : ℝ) : Res ℝ :=
  if 0 < sp ∧ 0 < sn then
    let norm := 2 / (sp + sn) / √(2 * Real.pi)
    .ok ((if x < mu then -(x - mu) ^ 2 / sn ^ 2 / 2 else -(x - mu) ^ 2 / sp ^ 2 / 2) + Real.log norm)
  else .error .assertionError

/-- `_to_solve` of `errors_to_two_half_norm_sigmas` (utils.py 666-670), the error function being an argument. -/
noncomputable def toSolve (erf : ℝ → ℝ) (p : ℝ) (errors x : ℝ × ℝ) : ℝ × ℝ :=
  (x.1 / (x.1 + x.2) * (1 - erf (errors.1 / x.1 / √2)) - p / 2,
    x.2 / (x.1 + x.2) * (1 - erf (errors.2 / x.2 / √2)) - p / 2)

/-- `errors_to_two_half_norm_sigmas` (utils.py 652-675): `root` is scipy's solver, `none` when it reports no success, and `c` is
`chi2.cdf(1, 1)`. -/
noncomputable def errorsToSigmas (root : (ℝ × ℝ → ℝ × ℝ) → ℝ × ℝ → Option (ℝ × ℝ)) (erf : ℝ → ℝ) (c : ℝ) (errors : ℝ × ℝ) :
    Res (ℝ × ℝ) :=
  match root (toSolve erf (1 - c) errors) errors with
  | some x => .ok x
  | none => .error .assertionError

end Verif.Randgen
