/-
Specification vocabulary for fixing a parameter (C153).
-/
import Verif.Spec.Walk
import Verif.Props.Parameter

namespace Verif.Parameter
open Verif

/-- The second configuration is the first with the fitted parameter `n`, of setting `s`, fixed at `v`. -/
structure Fixes (config config' : Config) (n : String) (s : Setting) (v : ℝ) : Prop where
  keys : config'.keys = config.keys
  fitted : config.get? n = some s ∧ ∀ u, s.prior ≠ .fixed u
  fixed : IsFixedTo config' n v
  same : ∀ k, k ≠ n → config'.get? k = config.get? k

end Verif.Parameter

namespace Verif.Walk
open Verif Parameter

/-- Two contexts with the same likelihoods and evaluated in the same way: in the first, over `config`, the parameter `n` is fitted;
in the second, over `config'`, it is fixed at `v`, and holds that value.  The other fixed parameters hold the same values in both.
Each order, in which `log_prior` walks a set, is some order of the fitted names. -/
structure Fixing {K : Type} (config config' : Config) (n : String) (s : Setting) (v : ℝ) (o o' : Settings) (c c' : Ctx.Ctx K) : Prop where
  fixes : Fixes config config' n s v
  nodup : config.keys.Nodup
  reach : Reachable config c.pm
  reach' : Reachable config' c'.pm
  holds : c'.pm.vals.get? n = some (.fin v)
  rest : ∀ k, ¬ IsFitted config k → c.pm.vals.get? k = c'.pm.vals.get? k
  likelihoods : c.likelihoods = c'.likelihoods
  sig : o'.sig = o.sig
  batch : o'.batch = o.batch
  repeats : o'.repeats = o.repeats
  order : o.order.Perm (parameterFit c.pm)
  order' : o'.order.Perm (parameterFit c'.pm)

end Verif.Walk
