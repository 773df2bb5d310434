/-
Specification vocabulary for dependency resolution: which data names are needed, directly or
indirectly, for a list of requested names.
-/
import Verif.Model.Registry
import Mathlib.Logic.Relation

namespace Verif.Comp
open Verif

/-- `Reach reg nodep roots d`: computing `roots` needs the data `d` (`nodep` itself is an input). -/
inductive Reach (reg : Registry) (nodep : String) (roots : List String) : String → Prop
  | root {d} : d ∈ roots → d ≠ nodep → Reach reg nodep roots d
  | dep {d p e} : Reach reg nodep roots d → reg.get? d = some p → e ∈ p.dependsOn → e ≠ nodep →
      Reach reg nodep roots e

/-- `DirectDep reg nodep d e`: the registered provider of `d` takes `e` as an input. -/
def DirectDep (reg : Registry) (nodep : String) (d e : String) : Prop :=
  d ≠ nodep ∧ e ≠ nodep ∧ ∃ p, reg.get? d = some p ∧ e ∈ p.dependsOn

/-- A dependency path of `k` steps starting at `d`. -/
inductive Path (reg : Registry) (nodep : String) : Nat → String → Prop
  | zero {d} : d ≠ nodep → Path reg nodep 0 d
  | step {k d e} : DirectDep reg nodep d e → Path reg nodep k e → Path reg nodep (k + 1) d

variable {reg : Registry} {nodep : String}

theorem Reach.mono {roots roots' : List String} {d : String} (h : Reach reg nodep roots d)
    (hs : ∀ x ∈ roots, x ∈ roots') : Reach reg nodep roots' d := by
  induction h with
  | root h1 h2 => exact .root (hs _ h1) h2
  | dep _ hp he hne ih => exact .dep ih hp he hne

theorem Reach.under {roots : List String} {n : String} {p : Plugin} {d : String} (hn : n ∈ roots)
    (hne : n ≠ nodep) (hp : reg.get? n = some p) (h : Reach reg nodep p.dependsOn d) :
    Reach reg nodep roots d := by
  induction h with
  | root h1 h2 => exact .dep (.root hn hne) hp h1 h2
  | dep _ hp' he hne' ih => exact .dep ih hp' he hne'

theorem Reach.cases_root {roots : List String} {d : String} (h : Reach reg nodep roots d) :
    (d ∈ roots ∧ d ≠ nodep) ∨ ∃ n p, n ∈ roots ∧ n ≠ nodep ∧ reg.get? n = some p ∧
      Reach reg nodep p.dependsOn d := by
  induction h with
  | root h1 h2 => exact Or.inl ⟨h1, h2⟩
  | dep hr hp he hne ih =>
    right
    rcases ih with ⟨h1, h2⟩ | ⟨n, q, h1, h2, h3, h4⟩
    · exact ⟨_, _, h1, h2, hp, .root he hne⟩
    · exact ⟨n, q, h1, h2, h3, .dep h4 hp he hne⟩

theorem Reach.ne {roots : List String} {d : String} (h : Reach reg nodep roots d) : d ≠ nodep := by
  cases h <;> assumption

end Verif.Comp
