/-
Model of a session in which contexts are made one after the other: `Context.__init__` (appletree/context.py 26-57) with
`register_all_likelihood`, `register_likelihood` and `register_component` (77-134), `from_backend` (59-71), and the function cache
they share (`appletree/share.py` 28-44).

Simplifications.  What happens before the first likelihood is registered (options, parameters), the construction of a likelihood
object and the lookup of a component class are given by their results.  Options are the subject of `Model/Session.lean`; parameters of
`Model/Context.lean`.
-/
import Verif.Model.Register

namespace Verif.Llh
open Verif Comp

section
variable {K V : Type}

/-- One entry of `instruct["likelihoods"]`: its name, what `Likelihood.__init__` fixes for its components, whether the constructor
raised, and its components in order (an unknown class raises). -/
structure LSpec (K V : Type) where
  llh : String
  binsOn : List String
  al : PyDict String String
  wrap : Comp → LComp K V
  made : Res Unit
  parts : List (Res (Reg K V))

/-- An instruction: what comes before the likelihoods, and the likelihoods. -/
structure CSpec (K V : Type) where
  before : Res Unit
  likelihoods : List (LSpec K V)

/-- The loop over the components of a likelihood (context.py 91-101). -/
def buildParts (l : LSpec K V) : List (Res (Reg K V)) → State K V × FnCache → (State K V × FnCache) × Res Unit
  | [], sg => (sg, .ok ())
  | .error e :: _, sg => (sg, .error e)
  | .ok r :: ps, sg =>
    match regStep l.llh l.binsOn l.al l.wrap sg r with
    | (sg', .error e) => (sg', .error e)
    | (sg', .ok ()) => buildParts l ps sg'

/-- `register_all_likelihood` (context.py 77-101): the likelihoods of the context so far and the function cache. -/
def buildAll : List (LSpec K V) → PyDict String (State K V) × FnCache → (PyDict String (State K V) × FnCache) × Res Unit
  | [], bg => (bg, .ok ())
  | l :: ls, (b, g) =>
    if b.has l.llh then ((b, g), .error .valueError)
    else match l.made with
      | .error e => ((b, g), .error e)
      | .ok () =>
        match buildParts l l.parts (⟨[], []⟩, g) with
        | ((st, g'), .error e) => ((b.set l.llh st, g'), .error e)
        | ((st, g'), .ok ()) => buildAll ls (b.set l.llh st, g')

/-- `Context.__init__` (context.py 26-57): the likelihoods of the new context, if it is made, and the function cache. -/
def makeContext (c : CSpec K V) (g : FnCache) : FnCache × Res (PyDict String (State K V)) :=
  match c.before with
  | .error e => (g, .error e)
  | .ok () =>
    match buildAll c.likelihoods ([], g) with
    | ((_, g'), .error e) => (g', .error e)
    | ((b, g'), .ok ()) => (g', .ok b)

/-- What is done in a session: `make` is `Context(instruct)`, and `from_backend` with the instruction stored in the file
(context.py 59-71). -/
inductive SOp (K V : Type)
  | make (c : CSpec K V)
  | clear

/-- A session: the contexts made so far and the function cache. -/
structure Sess (K V : Type) where
  contexts : List (PyDict String (State K V)) := []
  cache : FnCache := {}

/-- One operation; an exception is caught by the user. -/
def sessStep (s : Sess K V) : SOp K V → Sess K V × Res Unit
  | .make c => match makeContext c s.cache with
    | (g, .error e) => ({ s with cache := g }, .error e)
    | (g, .ok b) => ({ contexts := s.contexts ++ [b], cache := g }, .ok ())
  | .clear => ({ s with cache := clearCache s.cache }, .ok ())

def sessRun (s : Sess K V) (ops : List (SOp K V)) : Sess K V := ops.foldl (fun s o => (sessStep s o).1) s

end
end Verif.Llh
