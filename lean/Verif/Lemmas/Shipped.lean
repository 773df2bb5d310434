/-
A decidable check of a registry, and what follows from it for every list of requested data.
-/
import Verif.Props.Component

namespace Verif.Comp
open Verif

/-- What one entry of a registry must satisfy; `rank` is a position in a topological order of the data names. -/
def entryOk (reg : Registry) (nodep : String) (ns : PyDict String Plugin) (order : List String) (e : String × Plugin) : Bool :=
  decide (e.1 ∈ e.2.provides) && e.2.provides.all (fun d => decide (reg.get? d = some e.2)) &&
  decide e.2.provides.Nodup && decide (nodep ∉ e.2.provides) && decide (e.2.dependsOn ≠ []) &&
  decide (ns.get? e.2.name = some e.2) &&
  e.2.dependsOn.all (fun d => decide (d = nodep) ||
    (decide (reg.get? d ≠ none) && decide (order.idxOf d < order.idxOf e.1)))

/-- The check of a registry. -/
def wellFormed (reg : Registry) (nodep : String) (ns : PyDict String Plugin) (order : List String) : Bool :=
  reg.all (entryOk reg nodep ns order)

/-- The content of the check. -/
structure WellFormed (reg : Registry) (nodep : String) (ns : PyDict String Plugin) (order : List String) : Prop where
  mem : ∀ d p, reg.get? d = some p → d ∈ p.provides
  sole : ∀ d p, reg.get? d = some p → ∀ d' ∈ p.provides, reg.get? d' = some p
  nodup : ∀ d p, reg.get? d = some p → p.provides.Nodup
  no_nodep : ∀ d p, reg.get? d = some p → nodep ∉ p.provides
  nonempty : ∀ d p, reg.get? d = some p → p.dependsOn ≠ []
  named : ∀ d p, reg.get? d = some p → ns.get? p.name = some p
  deps : ∀ d p, reg.get? d = some p → ∀ e ∈ p.dependsOn, e = nodep ∨
    (reg.get? e ≠ none ∧ order.idxOf e < order.idxOf d)

theorem mem_of_get? {V : Type} {l : PyDict String V} {k : String} {v : V} (h : l.get? k = some v) : (k, v) ∈ l :=
  PyDict.mem_of_get? l h

theorem wellFormed_spec {reg : Registry} {nodep : String} {ns : PyDict String Plugin} {order : List String}
    (h : wellFormed reg nodep ns order = true) : WellFormed reg nodep ns order := by
  have key : ∀ d p, reg.get? d = some p → entryOk reg nodep ns order (d, p) = true := by
    intro d p hd
    exact List.all_eq_true.1 h _ (mem_of_get? hd)
  simp only [entryOk, Bool.and_eq_true, Bool.or_eq_true, decide_eq_true_eq, List.all_eq_true] at key
  constructor
  · exact fun d p hd => (key d p hd).1.1.1.1.1.1
  · exact fun d p hd => (key d p hd).1.1.1.1.1.2
  · exact fun d p hd => (key d p hd).1.1.1.1.2
  · exact fun d p hd => (key d p hd).1.1.1.2
  · exact fun d p hd => (key d p hd).1.1.2
  · exact fun d p hd => (key d p hd).1.2
  · exact fun d p hd => (key d p hd).2

variable {reg : Registry} {nodep : String} {ns : PyDict String Plugin} {order : List String}

theorem WellFormed.reach (h : WellFormed reg nodep ns order) {names : List String}
    (hn : ∀ d ∈ names, d = nodep ∨ d ∈ reg.keys) {d : String} (hd : Reach reg nodep names d) :
    ∃ p, reg.get? d = some p := by
  cases hd with
  | root h1 h2 =>
    rcases hn d h1 with h3 | h3
    · exact absurd h3 h2
    · exact (PyDict.mem_keys_iff_exists _ _).1 h3
  | dep _ hp he hne =>
    rcases h.deps _ _ hp _ he with h3 | ⟨h3, _⟩
    · exact absurd h3 hne
    · exact Option.ne_none_iff_exists'.1 h3

theorem WellFormed.acyclic (h : WellFormed reg nodep ns order) (d : String) :
    ¬ Relation.TransGen (DirectDep reg nodep) d d := by
  have key : ∀ a b, Relation.TransGen (DirectDep reg nodep) a b → order.idxOf b < order.idxOf a := by
    intro a b hab
    induction hab with
    | single hs =>
      obtain ⟨_, h2, p, h3, h4⟩ := hs
      rcases h.deps _ _ h3 _ h4 with h5 | h5
      · exact absurd h5 h2
      · exact h5.2
    | tail _ hs ih =>
      obtain ⟨_, h2, p, h3, h4⟩ := hs
      rcases h.deps _ _ h3 _ h4 with h5 | h5
      · exact absurd h5 h2
      · exact Nat.lt_trans h5.2 ih
  intro hc
  exact Nat.lt_irrefl _ (key _ _ hc)

theorem WellFormed.consistent (h : WellFormed reg nodep ns order) (names : List String) :
    Consistent reg nodep names where
  names_distinct := by
    intro d d' p p' _ _ hp hp' hpp
    have h1 := h.named d p hp
    have h2 := h.named d' p' hp'
    rw [hpp, h2] at h1
    exact (Option.some.inj h1).symm
  provides := fun d p _ hp => h.mem d p hp
  sole := fun d p d' _ hp hd' _ => h.sole d p hp d' hd'
  nodup := fun d p _ hp => h.nodup d p hp
  no_nodep := fun d p _ hp => h.no_nodep d p hp
  nonempty := fun d p _ hp => h.nonempty d p hp

end Verif.Comp
