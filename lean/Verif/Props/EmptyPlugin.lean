/-
Property theorems C11 about generated code whose plugins cannot be instantiated (component.py 355-365, plugin.py 37-41).
-/
import Verif.Props.Component

namespace Verif.Comp
open Verif

/-- **C11 (classes that are not there).** If the class of any line is not in the namespace of plugins, running the code raises
ImportError, whatever the other lines are. -/
theorem C11_missing_class {K V : Type} (c : Code) (ns : PyDict String Plugin) (sem : Plugin → K → List V → Res (K × List V))
    (key : K) (input : V) (w : Work) (hw : w ∈ c.works) (hn : w.name ∉ ns.keys) : c.run ns sem key input = .error .importError := by
  have hm : ∀ l : List Work, w ∈ l → l.mapM (importClass ns) = .error .importError := by
    intro l
    induction l with
    | nil => simp
    | cons a l ih =>
      intro h
      rw [List.mapM_cons]
      cases hg : ns.get? a.name with
      | none => simp [importClass, hg, bind, Except.bind]
      | some p =>
        rcases List.mem_cons.1 h with rfl | h
        · exact absurd ((PyDict.mem_keys_iff_exists _ _).2 ⟨p, hg⟩) hn
        · rw [ih h]; simp [importClass, hg, bind, Except.bind]
  simp only [Code.run, instantiate, hm _ hw, bind, Except.bind]

/-- **C11 (empty declarations).** If all classes are there and one of them provides nothing or depends on nothing, running the code
raises ValueError. -/
theorem C11_empty_plugin {K V : Type} (c : Code) (ns : PyDict String Plugin) (sem : Plugin → K → List V → Res (K × List V))
    (key : K) (input : V) (hall : ∀ w ∈ c.works, w.name ∈ ns.keys) (w : Work) (hw : w ∈ c.works) (p : Plugin)
    (hp : ns.get? w.name = some p) (he : p.dependsOn = [] ∨ p.provides = []) : c.run ns sem key input = .error .valueError := by
  have hm : ∀ l : List Work, (∀ w ∈ l, w.name ∈ ns.keys) → ∃ r, l.mapM (importClass ns) = .ok r ∧ (w ∈ l → ∃ n, (n, p) ∈ r) := by
    intro l
    induction l with
    | nil => intro _; exact ⟨[], rfl, by simp⟩
    | cons a l ih =>
      intro h
      obtain ⟨r, hr, hi⟩ := ih (fun w hw => h w (List.mem_cons_of_mem _ hw))
      obtain ⟨q, hq⟩ := (PyDict.mem_keys_iff_exists _ _).1 (h a List.mem_cons_self)
      refine ⟨(a.name, q) :: r, by rw [List.mapM_cons, hr]; simp [importClass, hq, bind, Except.bind, pure, Except.pure], ?_⟩
      intro h
      rcases List.mem_cons.1 h with rfl | h
      · rw [hp] at hq; cases hq; exact ⟨_, List.mem_cons_self⟩
      · obtain ⟨n, hn⟩ := hi h
        exact ⟨n, List.mem_cons_of_mem _ hn⟩
  obtain ⟨r, hr, hi⟩ := hm c.works hall
  obtain ⟨n, hn⟩ := hi hw
  have hany : r.any (fun c => c.2.dependsOn = [] || c.2.provides = []) = true :=
    List.any_eq_true.2 ⟨_, hn, by simpa using he⟩
  simp only [Code.run, instantiate, hr, bind, Except.bind, hany, if_true]

/-- Non-vacuity: a line whose class is missing, and one whose class provides nothing. -/
example : (Code.mk "simulate" "batch_size" [Work.ofPlugin exA, Work.ofPlugin exB] ["b"] "n" "l").run [("A", exA)] exSem 3 100
      = .error .importError ∧
    (Code.mk "simulate" "batch_size" [Work.ofPlugin exA, Work.ofPlugin exB] ["b"] "n" "l").run
      [("A", exA), ("B", { exB with provides := [] })] exSem 3 100 = .error .valueError := by decide

end Verif.Comp
