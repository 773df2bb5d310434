/-
Model of the drawings of the dependencies of a component: `add_deps_to_graph_tree` (`appletree/utils.py` 469-504) and
`add_plugins_to_graph_tree` (utils.py 507-560).

Simplifications: a graph is the list of the calls of `node` and `edge` on it, with the name and the label of a node; colours and links
are left out.  `_seen` is `None` in the first call.  The first argument is the remaining recursion depth of the interpreter.
-/
import Verif.Model.Registry

namespace Verif.Graph
open Verif Comp

/-- The graph so far and the list `_seen`, which is shared by all calls. -/
structure St (N : Type) where
  nodes : List N := []
  edges : List (String × String) := []
  seen : List String := []

/-- `add_deps_to_graph_tree` (utils.py 469-504): the nodes are data names. -/
def depsTree (reg : Registry) : Nat → List String → St String → Res (St String)
  | 0, _, _ => .error .recursionError
  | fuel + 1, names, st =>
    names.foldlM (fun st d =>
      if d ∈ st.seen then .ok st
      else
        let st : St String := { st with nodes := st.nodes ++ [d] }
        if d = "batch_size" then .ok st
        else
          match reg.get? d with
          | none => .error .keyError
          | some p => do
            let st ← p.dependsOn.foldlM (fun st e => depsTree reg fuel p.dependsOn { st with edges := st.edges ++ [(d, e)] }) st
            return { st with seen := st.seen ++ [d] }) st

/-- The label of a plugin (utils.py 537-539). -/
def label (withData : Bool) (p : Plugin) : String :=
  if withData then p.name ++ "\n" ++ ", ".intercalate p.dependsOn ++ "\n" ++ ", ".intercalate p.provides else p.name

/-- `add_plugins_to_graph_tree` (utils.py 507-560): the nodes are plugin names with labels.  The recursive call leaves
`with_data_names` at its default. -/
def pluginsTree (reg : Registry) : Nat → Bool → List String → St (String × String) → Res (St (String × String))
  | 0, _, _, _ => .error .recursionError
  | fuel + 1, withData, names, st =>
    names.foldlM (fun st d =>
      if d = "batch_size" then .ok st
      else
        match reg.get? d with
        | none => .error .keyError
        | some p =>
          if p.name ∈ st.seen then .ok st
          else do
            let st : St (String × String) := { st with nodes := st.nodes ++ [(p.name, label withData p)] }
            let st ← p.dependsOn.foldlM (fun st e =>
              if e = "batch_size" then .ok st
              else
                match reg.get? e with
                | none => .error .keyError
                | some q => pluginsTree reg fuel false p.dependsOn { st with edges := st.edges ++ [(p.name, q.name)] }) st
            return { st with seen := st.seen ++ [p.name] }) st

end Verif.Graph
