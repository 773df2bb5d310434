/-
Model of fitting and its backend in `appletree/context.py`: `_set_backend` and `pre_fitting` (205-235), `fitting` (237-271),
`continue_fitting` (273-313), `get_post_parameters` (315-345), `_dump_meta` (358-390) and what `from_backend` (60-71) reads.

Simplifications.  The steps the ensemble sampler takes are an argument: one list of samples per iteration.  Of emcee: a
sampler without a backend starts an empty chain in memory; `HDFBackend.reset` deletes the group and writes the number of
walkers; a sampler keeps an existing group; each iteration is appended to the chain; the flat chain is the iterations one after
the other.  File writes take effect one at a time in program order, so a crash leaves the effect of a first part of them.
Attributes that no function of the package reads back are written with the value `other`.
-/
import Verif.Model.Parameter

namespace Verif.Fit
open Verif Parameter

/-- A position of a walker in `parameter_fit` order and its log posterior. -/
structure Sample where
  vec : List XF
  logp : XF

/-- The value of an attribute of the group. -/
inductive Attr (I : Type)
  | instruct (i : I)
  | int (n : Int)
  | params (p : PyDict String XF)
  | names (l : List String)
  | other

/-- The group `mcmc` of the file. -/
structure File (I : Type) where
  attrs : PyDict String (Attr I) := []
  chain : List (List Sample) := []

/-- One write to the file. -/
inductive Write (I : Type)
  | reset (nwalkers : Int)
  | append (iteration : List Sample)
  | attr (name : String) (v : Attr I)

section
variable {I : Type}

/-- Effect of a write; a missing group is created by a sampler (emcee) with no metadata. -/
def apply (f : Option (File I)) : Write I → Option (File I)
  | .reset n => some { attrs := [("nwalkers", .int n)], chain := [] }
  | .append it => some { f.getD {} with chain := (f.getD {}).chain ++ [it] }
  | .attr k v => some { f.getD {} with attrs := (f.getD {}).attrs.set k v }

/-- Writes one after the other. -/
def applyAll (f : Option (File I)) (ws : List (Write I)) : Option (File I) := ws.foldl apply f

/-- `from_backend` (context.py 62-65): the instruction, the number of walkers and the batch size; a missing file is a
RuntimeError of `get_file_path` (utils.py 204), a missing attribute a KeyError. -/
def fromBackend (f : Option (File I)) : Res (Attr I × Attr I × Attr I) :=
  match f with
  | none => .error .runtimeError
  | some f => do
    let i ← f.attrs.getItem "instruct"
    let n ← f.attrs.getItem "nwalkers"
    let b ← f.attrs.getItem "batch_size"
    return (i, n, b)

/-- A context as far as fitting goes: the chain in memory of the current sampler, and the cached `_logp` and `_chain`. -/
structure Ctx (I : Type) where
  instruct : I
  h5 : Bool
  pm : PM
  sampler : Bool := false
  mem : List (List Sample) := []
  logp : Option (List XF) := none
  chain : Option (List (List XF)) := none

/-- A context and the file it writes to. -/
structure World (I : Type) where
  ctx : Ctx I
  file : Option (File I) := none

/-- `sampler.get_chain()`: iterations. -/
def iterations (w : World I) : List (List Sample) :=
  if w.ctx.h5 then (w.file.getD {}).chain else w.ctx.mem

/-- `np.argmax`: index of the first largest entry (no entry is NaN). -/
noncomputable def argmaxFrom : Nat → XF → Nat → List XF → Nat
  | best, _, _, [] => best
  | best, v, i, x :: xs => if v < x then argmaxFrom i x (i + 1) xs else argmaxFrom best v (i + 1) xs

noncomputable def argmax : List XF → Res Nat
  | [] => .error .valueError
  | x :: xs => .ok (argmaxFrom 0 x 1 xs)

/-- The argument `which` of `get_post_parameters`; `random` carries the drawn index. -/
inductive Which
  | mpe
  | random (i : Nat)
  | median
  | other

/-- The attributes `_logp` and `_chain` are set on first use (context.py 326-329). -/
def cache (w : World I) : World I :=
  let flat := (iterations w).flatten
  { w with ctx := { w.ctx with
      logp := some (w.ctx.logp.getD (flat.map Sample.logp))
      chain := some (w.ctx.chain.getD (flat.map Sample.vec)) } }

/-- The sample chosen (context.py 330-337); `med` is the column-wise median. -/
noncomputable def choose (med : List (List XF) → List XF) (logp : List XF) (chain : List (List XF)) (which : Which) :
    Res (List XF) :=
  let at' (i : Nat) : Res (List XF) := match chain[i]? with
    | some v => .ok v
    | none => .error .indexError
  match which with
  | .mpe => do let i ← argmax logp; at' i
  | .random i => at' i
  | .median => .ok (med chain)
  | .other => .error .valueError

/-- `get_post_parameters` (context.py 315-345).  emcee refuses to give the chain of a sampler that has not run; this is
only asked when nothing is cached. -/
noncomputable def getPost (med : List (List XF) → List XF) (w : World I) (which : Which) :
    World I × Res (PyDict String XF) :=
  if w.ctx.logp.isNone ∧ (¬ w.ctx.sampler ∨ (iterations w).isEmpty) then (w, .error .attributeError)
  else
    let w' := cache w
    (w', do
      let v ← choose med (w'.ctx.logp.getD []) (w'.ctx.chain.getD []) which
      return w.ctx.pm.vals.update ((parameterFit w.ctx.pm).zip v))

/-- The attributes written before and after the posterior parameters (context.py 367-390). -/
def metaBefore : List (Write I) := [.attr "metadata" .other, .attr "par_config" .other]
def metaAfter (i : I) (names : List String) (batch : Int) : List (Write I) :=
  [.attr "parameter_fit" (.names names), .attr "instruct" (.instruct i), .attr "config" .other,
   .attr "_cached_configs" .other, .attr "batch_size" (.int batch), .attr "acceptance_fraction" .other,
   .attr "autocorr_time" .other]

/-- `_dump_meta` (context.py 358-390). -/
noncomputable def dumpMeta (med : List (List XF) → List XF) (w : World I) (batch : Int) : World I × Res Unit :=
  if ¬ w.ctx.h5 then (w, .ok ())
  else
    let w1 := { w with file := applyAll w.file metaBefore }
    match getPost med w1 .mpe with
    | (w2, .error e) => (w2, .error e)
    | (w2, .ok p) =>
      let rest := .attr "post_parameters" (.params p) :: metaAfter w.ctx.instruct (parameterFit w.ctx.pm) batch
      ({ w2 with file := applyAll w2.file rest }, .ok ())

/-- `fitting` after the starting positions (context.py 254-271); `pm` is the parameter manager after the last evaluation. -/
noncomputable def fitting (med : List (List XF) → List XF) (w : World I) (nwalkers batch : Int)
    (steps : List (List Sample)) (pm : PM) : World I × Res Unit :=
  let w1 : World I :=
    if w.ctx.h5 then
      { ctx := { w.ctx with sampler := true, pm := pm }, file := applyAll w.file (.reset nwalkers :: steps.map .append) }
    else { ctx := { w.ctx with sampler := true, mem := steps, pm := pm }, file := w.file }
  dumpMeta med w1 batch

/-- `continue_fitting()` (context.py 273-313) without another context: a sampler in memory starts empty, and emcee refuses to
run without a state; with a file it goes on from the last iteration. -/
noncomputable def continueFitting (med : List (List XF) → List XF) (w : World I) (batch : Int)
    (steps : List (List Sample)) (pm : PM) : World I × Res Unit :=
  if ¬ w.ctx.sampler ∨ (iterations w).isEmpty then (w, .error .attributeError)
  else if w.ctx.h5 then
    dumpMeta med { ctx := { w.ctx with pm := pm }, file := applyAll w.file (steps.map .append) } batch
  else ({ w with ctx := { w.ctx with mem := [] } }, .error .valueError)

/-- `continue_fitting(context)` from another context that has run. -/
noncomputable def continueFrom (med : List (List XF) → List XF) (w : World I) (batch : Int)
    (steps : List (List Sample)) (pm : PM) : World I × Res Unit :=
  let w1 : World I :=
    if w.ctx.h5 then
      { ctx := { w.ctx with sampler := true, pm := pm }, file := applyAll w.file (steps.map .append) }
    else { ctx := { w.ctx with sampler := true, mem := steps, pm := pm }, file := w.file }
  dumpMeta med w1 batch

/-- One call by the user. -/
inductive Op
  | fitting (nwalkers batch : Int) (steps : List (List Sample)) (pm : PM)
  | continueFitting (batch : Int) (steps : List (List Sample)) (pm : PM)
  | continueFrom (batch : Int) (steps : List (List Sample)) (pm : PM)
  | getPost (which : Which)

/-- The state after a call, also when it raised. -/
noncomputable def step (med : List (List XF) → List XF) (w : World I) : Op → World I
  | .fitting n b s pm => (fitting med w n b s pm).1
  | .continueFitting b s pm => (continueFitting med w b s pm).1
  | .continueFrom b s pm => (continueFrom med w b s pm).1
  | .getPost which => (getPost med w which).1

/-- All writes of one `fitting`. -/
def fitWrites (nwalkers : Int) (steps : List (List Sample)) (post : PyDict String XF) (i : I) (names : List String)
    (batch : Int) : List (Write I) :=
  .reset nwalkers :: steps.map .append ++ metaBefore ++ .attr "post_parameters" (.params post) :: metaAfter i names batch

/-- All writes of one `continue_fitting`. -/
def continueWrites (steps : List (List Sample)) (post : PyDict String XF) (i : I) (names : List String) (batch : Int) :
    List (Write I) :=
  steps.map .append ++ metaBefore ++ .attr "post_parameters" (.params post) :: metaAfter i names batch

end
end Verif.Fit
