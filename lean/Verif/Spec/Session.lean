/- Specification vocabulary for sessions (C105). -/
import Verif.Model.Session
import Verif.Spec.Config
import Verif.Lemmas.Component

namespace Verif.Session
open Verif Conf Comp

/-- Nothing has been deduced or compiled yet. -/
def Fresh (s : State) : Prop := Comp.Fresh s.world ∧ ∀ i, s.sees i = none

/-- An option holds what the configuration says for a likelihood: a Constant the value, a Map the file, a SigmaMap the three files. -/
def Holds (c : Cache) (llh : String) (o : Opt) (b : Built) : Prop :=
  match o.kind with
  | .constant => ∃ a, b = .value a ∧ valueFor c o.conf.name (some llh) = some a
  | .map => ∃ p, b = .file p ∧ valueFor c o.conf.name (some llh) = some (.str p)
  | .sigma => ∃ l, b = .files l ∧
      List.Forall₂ (fun sg f => valueFor c (subName o.conf.name sg) (some llh) = some (.str f)) ["median", "lower", "upper"] l

end Verif.Session
