/-
C111: the places where the manual says files are looked for.
-/
import Verif.Spec.FileDocs
import Verif.Props.Config

namespace Verif.Conf
open Verif

/-- **C111 (where it holds).** If the name is not a file of the working directory, and neither the folder `configs` nor the folder
`instructs` of the package has it, a file is looked for as the manual says. -/
theorem C111_search_partial (fs : FS) (s : String) (c : Cache) (ub : Option String) (h : urlBaseIs c ub)
    (hcwd : isAbs s = false → fs.isFile s = false)
    (hc : isAbs s = false → fs.pathExists (pyJoin (pyJoin fs.pkg "configs") s) = false)
    (hi : isAbs s = false → fs.pathExists (pyJoin (pyJoin fs.pkg "instructs") s) = false) :
    (getFilePath fs s c).2 = firstOf (documented fs ub s) := by
  have e : candidates fs ub s = documented fs ub s := by
    unfold candidates documented
    cases ha : isAbs s with
    | true =>
      have hj : ∀ a, pyJoin a s = s := fun a => by simp [pyJoin, ha]
      simp only [hj, true_and, List.map_cons, List.map_nil]
      cases ub <;> rfl
    | false =>
      simp only [hcwd ha, Bool.false_eq_true, if_false, false_and, List.filter_append, List.map_cons, List.map_nil,
        List.filter_cons, List.filter_nil, hc ha, hi ha]
      cases ub <;> rfl
  rw [C54_first_candidate fs s c ub h, e]
  cases documented fs ub s <;> rfl

/-- **C111 (negation).** A file of that name in the working directory is taken before the url base and the files of the package,
although the name does not begin with "/". -/
theorem C111_working_directory (fs : FS) (s : String) (c : Cache) (ub : Option String)
    (hf : fs.isFile s = true) (ha : isAbs s = false) :
    (getFilePath fs s c).2 = .ok s ∧
    ∀ u, ub = some u → isAbs u = true → fs.pathExists (pyJoin u s) = true →
      firstOf (documented fs ub s) = .ok (pyJoin u s) ∧ pyJoin u s ≠ s := by
  refine ⟨by simp [getFilePath, hf], ?_⟩
  rintro u rfl hu he
  constructor
  · simp [documented, ha, hu, he, firstOf]
  · intro hs
    have := isAbs_join u s hu
    rw [hs, ha] at this
    cases this

/-- **C111 (negation).** A file that only the folder `configs` of the package has is not found. -/
theorem C111_configs_not_searched (fs : FS) (s : String) (c : Cache) (h : urlBaseIs c none) (hf : fs.isFile s = false)
    (hm : ∀ d ∈ ["maps", "data", "parameters", "instructs"], fs.pathExists (pyJoin (pyJoin fs.pkg d) s) = false)
    (hc : fs.pathExists (pyJoin (pyJoin fs.pkg "configs") s) = true) (hx : fs.aux = none) (hq : fs.mongo s = none) :
    (getFilePath fs s c).2 = .error .runtimeError ∧
    firstOf (documented fs none s) = .ok (pyJoin (pyJoin fs.pkg "configs") s) := by
  simp only [List.mem_cons, List.not_mem_nil, or_false, forall_eq_or_imp, forall_eq] at hm
  constructor
  · rw [C54_first_candidate fs s c none h]
    simp [candidates, hf, hm, hx, hq]
  · simp [documented, hf, hm, hc, firstOf]

/-- **C111 (negation).** Instructions in the package are found although the manual does not list their folder. -/
theorem C111_instructs_searched (fs : FS) (s : String) (c : Cache) (h : urlBaseIs c none) (hf : fs.isFile s = false)
    (hm : ∀ d ∈ ["maps", "data", "parameters", "configs"], fs.pathExists (pyJoin (pyJoin fs.pkg d) s) = false)
    (hc : fs.pathExists (pyJoin (pyJoin fs.pkg "instructs") s) = true) (hx : fs.aux = none) (hq : fs.mongo s = none) :
    (getFilePath fs s c).2 = .ok (pyJoin (pyJoin fs.pkg "instructs") s) ∧
    firstOf (documented fs none s) = .error .runtimeError := by
  simp only [List.mem_cons, List.not_mem_nil, or_false, forall_eq_or_imp, forall_eq] at hm
  constructor
  · rw [C54_first_candidate fs s c none h]
    simp [candidates, hf, hm, hc]
  · simp [documented, hf, hm, hx, hq, firstOf]

/-- **C111 (negation).** What is returned need not be a file: the empty name, and the name of any folder inside a folder of the
package, is answered with a folder. -/
theorem C111_folder_returned (fs : FS) (s : String) (c : Cache) (h : urlBaseIs c none) (hf : fs.isFile s = false)
    (hd : fs.pathExists (pyJoin (pyJoin fs.pkg "maps") s) = true) :
    (getFilePath fs s c).2 = .ok (pyJoin (pyJoin fs.pkg "maps") s) := by
  rw [C54_first_candidate fs s c none h]
  simp [candidates, hf, hd]

/-- **C111 (url base).** A url base that does not begin with "/" has no effect. -/
theorem C111_relative_url_base (fs : FS) (s : String) (c : Cache) (u : String) (h : urlBaseIs c (some u))
    (hu : isAbs u = false) (c' : Cache) (h' : urlBaseIs c' none) : (getFilePath fs s c).2 = (getFilePath fs s c').2 := by
  rw [C54_first_candidate fs s c _ h, C54_first_candidate fs s c' _ h']
  simp [candidates, hu]

/-- **C111 (absolute names).** A name that begins with "/" is answered with itself or with what the last two sources have. -/
theorem C111_absolute (fs : FS) (s p : String) (c : Cache) (ub : Option String) (h : urlBaseIs c ub) (ha : isAbs s = true)
    (hp : (getFilePath fs s c).2 = .ok p) :
    p = s ∨ (¬ fs.pathExists s ∧ (fs.aux.bind (fun f => f s) = some p ∨ fs.mongo s = some p)) := by
  have hj : ∀ a, pyJoin a s = s := fun a => by simp [pyJoin, ha]
  rw [C54_first_candidate fs s c ub h] at hp
  unfold candidates at hp
  simp only [hj, List.map_cons, List.map_nil] at hp
  by_cases hf : fs.isFile s = true
  · simp [hf] at hp
    exact .inl hp.symm
  · simp only [hf, Bool.false_eq_true, if_false, List.nil_append] at hp
    have hL : ∀ L : List String, (∀ x ∈ L, x = s) →
        (match ((L ++ [s, s, s, s]).filter (fun p => fs.pathExists p) ++
          ((fs.aux.bind (fun f => f s)).toList ++ (fs.mongo s).toList)).head? with
          | some p => Except.ok p
          | none => .error PyErr.runtimeError) = .ok p →
        p = s ∨ (¬ fs.pathExists s ∧ (fs.aux.bind (fun f => f s) = some p ∨ fs.mongo s = some p)) := by
      intro L hL hp
      by_cases he : fs.pathExists s = true
      · left
        have hmem : ∀ x ∈ (L ++ [s, s, s, s]).filter (fun p => fs.pathExists p), x = s := by
          intro x hx
          rcases List.mem_append.1 (List.mem_filter.1 hx).1 with h | h
          · exact hL x h
          · simpa using h
        have hs : s ∈ (L ++ [s, s, s, s]).filter (fun p => fs.pathExists p) := by simp [he]
        generalize (L ++ [s, s, s, s]).filter (fun p => fs.pathExists p) = M at hp hmem hs
        cases M with
        | nil => cases hs
        | cons x xs =>
          simp at hp
          rw [← hp]
          exact hmem x List.mem_cons_self
      · right
        refine ⟨he, ?_⟩
        have hnil : (L ++ [s, s, s, s]).filter (fun p => fs.pathExists p) = [] := by
          rw [List.filter_eq_nil_iff]
          intro x hx
          have : x = s := by
            rcases List.mem_append.1 hx with h | h
            · exact hL x h
            · simpa using h
          rw [this]
          exact he
        rw [hnil, List.nil_append] at hp
        cases hx : fs.aux.bind (fun f => f s) with
        | some q =>
          rw [hx] at hp
          simp at hp
          exact .inl (by rw [hp])
        | none =>
          rw [hx] at hp
          cases hq : fs.mongo s with
          | some q =>
            rw [hq] at hp
            simp at hp
            exact .inr (by rw [hp])
          | none =>
            rw [hq] at hp
            simp at hp
    cases ub with
    | none => exact hL [] (by simp) hp
    | some u =>
      cases hu : isAbs u with
      | true => simp only [hu, if_true] at hp; exact hL [s] (by simp) hp
      | false => simp only [hu, Bool.false_eq_true, if_false] at hp; exact hL [] (by simp) hp

/-- Non-vacuity of C111: a package with a map, an instruction and a config of its own, and a working directory with `here.json`. -/
private def docFS : FS where
  isFile := fun p => p ∈ ["here.json", "/p/maps/m.json", "/p/instructs/i.json", "/p/configs/c.json", "/d/here.json"]
  pathExists := fun p => p ∈ ["here.json", "/p/maps/", "/p/maps/m.json", "/p/instructs/i.json", "/p/configs/c.json", "/d/here.json"]
  pkg := "/p"

example : (getFilePath docFS "m.json" {}).2 = .ok "/p/maps/m.json" ∧
    (getFilePath docFS "i.json" {}).2 = .ok "/p/instructs/i.json" ∧
    (getFilePath docFS "c.json" {}).2 = .error .runtimeError ∧
    (getFilePath docFS "here.json" { data := [("url_base", .atom (.str "/d"))] }).2 = .ok "here.json" ∧
    firstOf (documented docFS (some "/d") "here.json") = .ok "/d/here.json" ∧
    (getFilePath docFS "/p/maps/m.json" {}).2 = .ok "/p/maps/m.json" ∧
    (getFilePath docFS "m.json" { data := [("url_base", .atom (.str "d"))] }).2 = .ok "/p/maps/m.json" ∧
    (getFilePath docFS "" {}).2 = .ok "/p/maps/" := by decide +kernel

end Verif.Conf
