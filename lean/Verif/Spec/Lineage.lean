/-
Specification vocabulary for lineages: when two built components run the same code on the same configuration.
-/
import Verif.Model.Lineage

namespace Verif.Lineage
open Verif

mutual
/-- A value as read from a configuration file that is not a dictionary: numbers, strings and lists of such. -/
def Plain : Val → Prop
  | .null => True
  | .num _ => True
  | .str _ => True
  | .seq l => PlainList l
  | .array _ => False
  | .dict _ => False
def PlainList : List Val → Prop
  | [] => True
  | v :: l => Plain v ∧ PlainList l
end

/-- A value that is not a list. -/
def Scalar : Val → Prop
  | .null => True
  | .num _ => True
  | .str _ => True
  | _ => False

mutual
/-- A setting as the parameters have: numbers, strings, lists of such, and dictionaries of settings with unique keys. -/
def Setting : Val → Prop
  | .null => True
  | .num _ => True
  | .str _ => True
  | .seq l => l ≠ [] ∧ ∀ x ∈ l, Scalar x
  | .array _ => False
  | .dict d => (d.map Prod.fst).Nodup ∧ SettingItems d
def SettingItems : List (String × Val) → Prop
  | [] => True
  | (_, v) :: l => Setting v ∧ SettingItems l
end

/-- Equal values, where the order of entries of dictionaries does not matter. -/
inductive SameVal : Val → Val → Prop
  | same (v : Val) : SameVal v v
  | dict {d d' : List (String × Val)} (keys : ∀ k, PyDict.get? d k = none ↔ PyDict.get? d' k = none)
      (vals : ∀ k v v', PyDict.get? d k = some v → PyDict.get? d' k = some v' → SameVal v v') : SameVal (.dict d) (.dict d')

section
variable {C : Type}

/-- A constant is a plain value whose lists contain no lists; a set has at least one name, each once. -/
def ConfOk : Conf C → Prop
  | .constant v => Plain v ∧ ∀ l, v = .seq l → ∀ x ∈ l, Scalar x
  | .set v => v ≠ [] ∧ (v.map Prod.fst).Nodup
  | _ => True

/-- Two maps that interpolate the same data in the same way. -/
def SameMap (m m' : BuiltMap C) : Prop := m.method = m'.method ∧ m.content = m'.content

/-- Two configurations with the same values.  Which parameter scales a map with uncertainty is left out. -/
def SameConf : Conf C → Conf C → Prop
  | .constant v, .constant w => v = w
  | .set v, .set w => ∀ k, PyDict.get? v k = PyDict.get? w k
  | .map m, .map m' => SameMap m m'
  | .sigma n _ m l u _, .sigma n' _ m' l' u' _ => n = n' ∧ SameMap m m' ∧ SameMap l l' ∧ SameMap u u'
  | _, _ => False

/-- Two plugin instances with the same declarations and the same configuration. -/
structure SameInst (p p' : Inst C) : Prop where
  dependsOn : p.dependsOn = p'.dependsOn
  provides : p.provides = p'.provides
  parameters : p.parameters = p'.parameters
  configs : ∀ k, (PyDict.get? p.configs k = none ∧ PyDict.get? p'.configs k = none) ∨
    ∃ c c', PyDict.get? p.configs k = some c ∧ PyDict.get? p'.configs k = some c' ∧ SameConf c c'

/-- The values on an axis. -/
def Edges.vals : Edges → List ℚ
  | .array l => l
  | .list l => l

/-- Two simulated components with the same names, normalisation, bins, code, plugins and configuration. -/
structure SameSim (cached cached' : PyDict String (Inst C)) (c c' : Sim) : Prop where
  rate : c.rateName = c'.rateName
  norm : c.normType = c'.normType
  code : c.code = c'.code
  bins : c.bins.map (fun b => (b.1.map (List.map Edges.vals), b.2)) = c'.bins.map (fun b => (b.1.map (List.map Edges.vals), b.2))
  names : ∀ n, n ∈ c.instances ↔ n ∈ c'.instances
  insts : ∀ n ∈ c.instances, ∃ p p', cached.get? n = some p ∧ cached'.get? n = some p' ∧ SameInst p p'

/-- The maps of a configuration. -/
def Conf.maps : Conf C → List (BuiltMap C)
  | .map m => [m]
  | .sigma _ _ m l u _ => [m, l, u]
  | _ => []

/-- A plugin instance as it is built: configuration names are unique, values are proper, and the files of its maps are still
what they were. -/
structure InstOk (e : Env C) (p : Inst C) : Prop where
  once : (p.configs.map Prod.fst).Nodup
  confs : ∀ k c, (k, c) ∈ p.configs → ConfOk c
  files : ∀ k c, (k, c) ∈ p.configs → ∀ m ∈ c.maps, e.read m.path = some m.content

/-- All instances of a component are such; the instances are a set. -/
structure SimOk (e : Env C) (cached : PyDict String (Inst C)) (c : Sim) : Prop where
  once : c.instances.Nodup
  insts : ∀ n ∈ c.instances, ∀ p, cached.get? n = some p → InstOk e p

/-- Two fixed components with the same names, normalisation, bins and events. -/
structure SameFixed (e e' : Env C) (c c' : Fixed) : Prop where
  rate : c.rateName = c'.rateName
  norm : c.normType = c'.normType
  bins : c.bins.map (fun b => (b.1.map (List.map Edges.vals), b.2)) = c'.bins.map (fun b => (b.1.map (List.map Edges.vals), b.2))
  events : e.read c.file = e'.read c'.file

def SameComp (e e' : Env C) (cached cached' : PyDict String (Inst C)) : Comp → Comp → Prop
  | .sim c, .sim c' => SameSim cached cached' c c'
  | .fixed c, .fixed c' => SameFixed e e' c c'
  | _, _ => False

def CompOk (e : Env C) (cached : PyDict String (Inst C)) : Comp → Prop
  | .sim c => SimOk e cached c
  | .fixed _ => True

/-- Two likelihoods with the same settings, data and components.  Settings are compared if they are plain values. -/
structure SameLlh (e e' : Env C) (cached cached' : PyDict String (Inst C)) (l l' : Llh) (d d' : List (String × Val)) : Prop where
  settings : ∀ k, (PyDict.get? d k = none ↔ PyDict.get? d' k = none) ∧
    ∀ v v', PyDict.get? d k = some v → PyDict.get? d' k = some v' → Plain v → Plain v' → v = v'
  data : l.file.map e.read = l'.file.map e'.read
  components : ∀ k, (PyDict.get? l.components k = none ∧ PyDict.get? l'.components k = none) ∨
    ∃ c c', PyDict.get? l.components k = some c ∧ PyDict.get? l'.components k = some c' ∧ SameComp e e' cached cached' c c'

/-- A likelihood as it is set up: its configuration is a dictionary, component names are unique, components are as they were built. -/
structure LlhOk (e : Env C) (cached : PyDict String (Inst C)) (l : Llh) (d : List (String × Val)) : Prop where
  config : l.config = .dict d
  keys : (d.map Prod.fst).Nodup
  names : (l.components.map Prod.fst).Nodup
  comps : ∀ k c, (k, c) ∈ l.components → CompOk e cached c

/-- Two contexts with the same instructions apart from the replaced entries, the same settings of parameters and the same
likelihoods. -/
structure SameContext (e e' : Env C) (cached cached' : PyDict String (PyDict String (Inst C))) (instruct instruct' : PyDict String Val)
    (par par' : Val) (llhs llhs' : List (String × Llh)) (cfg cfg' : String → List (String × Val)) : Prop where
  instruct : ∀ k, k ≠ "par_config" → k ≠ "likelihoods" → (PyDict.get? instruct k = none ↔ PyDict.get? instruct' k = none) ∧
    ∀ v v', PyDict.get? instruct k = some v → PyDict.get? instruct' k = some v' → Setting v → Setting v' → SameVal v v'
  parameters : SameVal par par'
  likelihoods : ∀ k, (PyDict.get? llhs k = none ∧ PyDict.get? llhs' k = none) ∨
    ∃ l l', PyDict.get? llhs k = some l ∧ PyDict.get? llhs' k = some l' ∧
      SameLlh e e' ((cached.get? k).getD []) ((cached'.get? k).getD []) l l' (cfg k) (cfg' k)

end

/-- Two values that differ only in the order of the entries of dictionaries, at any depth. -/
inductive Reordered : Val → Val → Prop
  | order {d d' : List (String × Val)} (hn : (d.map Prod.fst).Nodup) (h : d.Perm d') : Reordered (.dict d) (.dict d')
  | inSeq {v v' : Val} (h : Reordered v v') (a b : List Val) : Reordered (.seq (a ++ v :: b)) (.seq (a ++ v' :: b))
  | inDict {v v' : Val} (h : Reordered v v') (k : String) (a b : List (String × Val)) :
      Reordered (.dict (a ++ (k, v) :: b)) (.dict (a ++ (k, v') :: b))
  | trans {u v w : Val} (h : Reordered u v) (h' : Reordered v w) : Reordered u w

end Verif.Lineage
