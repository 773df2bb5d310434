/-
Specification vocabulary for giving a fitted parameter another prior or allowed range (C154).
-/
import Verif.Spec.Walk
import Verif.Props.Parameter

namespace Verif.Walk
open Verif Parameter

/-- Two contexts with the same likelihoods and evaluated in the same way, whose configurations differ in the setting of the fitted
parameter `n` alone: `s` in the first, `s'` in the second.  The fixed parameters hold the same values in both. -/
structure Reprior {K : Type} (config config' : Config) (n : String) (s s' : Setting) (o o' : Settings) (c c' : Ctx.Ctx K) : Prop where
  keys : config'.keys = config.keys
  nodup : config.keys.Nodup
  first : config.get? n = some s ∧ ∀ u, s.prior ≠ .fixed u
  second : config'.get? n = some s' ∧ ∀ u, s'.prior ≠ .fixed u
  same : ∀ k, k ≠ n → config'.get? k = config.get? k
  reach : Reachable config c.pm
  reach' : Reachable config' c'.pm
  rest : ∀ k, ¬ IsFitted config k → c.pm.vals.get? k = c'.pm.vals.get? k
  likelihoods : c.likelihoods = c'.likelihoods
  sig : o'.sig = o.sig
  batch : o'.batch = o.batch
  repeats : o'.repeats = o.repeats
  order : o.order.Perm (parameterFit c.pm)
  order' : o'.order.Perm (parameterFit c'.pm)

end Verif.Walk
