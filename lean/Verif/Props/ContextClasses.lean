/-
C140: the shipped contexts are those of their instruction files, and can be restored.
-/
import Verif.Model.ContextClasses
import Verif.Props.Config

namespace Verif.Classes
open Verif Conf

section
variable {I : Type}

/-- **C140 (made).** A shipped context is the context made from the first file of that name: `ContextRn220()` is
`Context("rn220.json")`.  The package has an absolute path, and the sources of the collaboration answer with files. -/
theorem C140_made (fs : FS) (json : String → Res I) (cls : Cls) (f : String) (hf : cls.file = some f) (c : Cache) (ub : Option String)
    (h : urlBaseIs c ub) (hpkg : isAbs fs.pkg = true) (haux : ∀ g, fs.aux = some g → ∀ q, g f = some q → fs.isFile q = true)
    (hmongo : ∀ q, fs.mongo f = some q → fs.isFile q = true) :
    (make fs json cls [] c).2 = (make fs json .context [.name f] c).2 ∧
      (make fs json cls [] c).2 = match (candidates fs ub f).head? with
        | some p => json p
        | none => .error .runtimeError := by
  have hfirst := C54_first_candidate fs f c ub h
  have hidem : ∀ p, (getFilePath fs f c).2 = .ok p → (getFilePath fs p (getFilePath fs f c).1).2 = .ok p :=
    fun p hp => C54_idempotent fs f p c ub h hpkg haux hmongo hp
  cases hh : getFilePath fs f c with
  | mk c' r =>
    rw [hh] at hfirst hidem
    cases r with
    | error e =>
      have : (make fs json cls [] c).2 = .error e := by simp [make, hf, hh]
      rw [this]
      refine ⟨by simp [make, Cls.file, instructOf, hh], ?_⟩
      cases hc : (candidates fs ub f).head? with
      | none => rw [hc] at hfirst; exact congrArg _ (Except.error.inj hfirst)
      | some p => rw [hc] at hfirst; cases hfirst
    | ok p =>
      have h2 := hidem p rfl
      have : (make fs json cls [] c).2 = json p := by
        simp only [make, hf, hh, instructOf]
        cases hh2 : getFilePath fs p c' with
        | mk c'' r' =>
          simp only [hh2] at h2
          subst h2
          rfl
      rw [this]
      refine ⟨by simp [make, Cls.file, instructOf, hh], ?_⟩
      cases hc : (candidates fs ub f).head? with
      | none => rw [hc] at hfirst; cases hfirst
      | some q => rw [hc] at hfirst; rw [Except.ok.inj hfirst]

/-- **C140 (the file of the package).** Without a file of that name in the working directory, under the url base, and in the other folders of
the package, a shipped context is the one of the package. -/
theorem C140_packaged (fs : FS) (json : String → Res I) (cls : Cls) (f : String) (hf : cls.file = some f) (c : Cache) (ub : Option String)
    (h : urlBaseIs c ub) (hpkg : isAbs fs.pkg = true) (haux : ∀ g, fs.aux = some g → ∀ q, g f = some q → fs.isFile q = true)
    (hmongo : ∀ q, fs.mongo f = some q → fs.isFile q = true) (hcwd : fs.isFile f = false)
    (hub : ∀ u, ub = some u → isAbs u = true → fs.pathExists (pyJoin u f) = false)
    (hm : ∀ d ∈ ["maps", "data", "parameters"], fs.pathExists (pyJoin (pyJoin fs.pkg d) f) = false)
    (hi : fs.pathExists (pyJoin (pyJoin fs.pkg "instructs") f) = true) :
    (make fs json cls [] c).2 = json (pyJoin (pyJoin fs.pkg "instructs") f) := by
  rw [(C140_made fs json cls f hf c ub h hpkg haux hmongo).2]
  simp only [List.mem_cons, List.not_mem_nil, or_false, forall_eq_or_imp, forall_eq] at hm
  have : (candidates fs ub f).head? = some (pyJoin (pyJoin fs.pkg "instructs") f) := by
    cases ub with
    | none => simp [candidates, hcwd, hm, hi]
    | some u =>
      by_cases hu : isAbs u = true
      · simp [candidates, hcwd, hm, hi, hu, hub u rfl hu]
      · simp [candidates, hcwd, hm, hi, hu]
  rw [this]

/-- **C140 (another file).** A file of that name in the working directory is used instead of the one of the package; so is
one under the url base, which stays set by any context made before. -/
theorem C140_replaced (fs : FS) (json : String → Res I) (cls : Cls) (f : String) (hf : cls.file = some f) (c : Cache) (ub : Option String)
    (h : urlBaseIs c ub) (hpkg : isAbs fs.pkg = true) (haux : ∀ g, fs.aux = some g → ∀ q, g f = some q → fs.isFile q = true)
    (hmongo : ∀ q, fs.mongo f = some q → fs.isFile q = true) :
    (fs.isFile f = true → (make fs json cls [] c).2 = json f) ∧
    ∀ u, ub = some u → isAbs u = true → fs.isFile f = false → fs.pathExists (pyJoin u f) = true →
      (make fs json cls [] c).2 = json (pyJoin u f) := by
  rw [(C140_made fs json cls f hf c ub h hpkg haux hmongo).2]
  refine ⟨fun hc => ?_, ?_⟩
  · have : (candidates fs ub f).head? = some f := by simp [candidates, hc]
    rw [this]
  · rintro u rfl hu hc hp
    have : (candidates fs (some u) f).head? = some (pyJoin u f) := by simp [candidates, hc, hu, hp]
    rw [this]

/-- **C140 (restored).** `Context.from_backend` makes the context of the stored instruction, whatever class of context made the fit. -/
theorem C140_restored_partial (fs : FS) (json : String → Res I) (h5 : String → Option (Fit.File I)) (name p : String) (c : Cache) (i : I)
    (n b : Fit.Attr I) (hp : (getFilePath fs name c).2 = .ok p) (hb : Fit.fromBackend (h5 p) = .ok (.instruct i, n, b)) :
    (fromFile fs json h5 .context name c).2 = .ok i := by
  unfold fromFile
  cases hh : getFilePath fs name c with
  | mk c' r =>
    rw [hh] at hp
    subst hp
    simp [hb, make, Cls.file, instructOf]

/-- **C140 (negation: restored).** `from_backend` of a shipped context restores nothing: there is no file from which it makes a context.
From a complete file it raises a TypeError, since the instruction is passed to a constructor that takes none. -/
theorem C140_not_restored (fs : FS) (json : String → Res I) (h5 : String → Option (Fit.File I)) (cls : Cls) (hcls : cls ≠ .context)
    (name : String) (c : Cache) :
    (∃ e, (fromFile fs json h5 cls name c).2 = .error e) ∧
    ∀ p i n b, (getFilePath fs name c).2 = .ok p → Fit.fromBackend (h5 p) = .ok (.instruct i, n, b) →
      (fromFile fs json h5 cls name c).2 = .error .typeError := by
  obtain ⟨f, hf⟩ : ∃ f, cls.file = some f := by
    cases cls with
    | context => exact absurd rfl hcls
    | rn220 => exact ⟨_, rfl⟩
    | rn220Ar37 => exact ⟨_, rfl⟩
  refine ⟨?_, ?_⟩
  · unfold fromFile
    cases hh : getFilePath fs name c with
    | mk c' r =>
      cases r with
      | error e => exact ⟨e, rfl⟩
      | ok p =>
        dsimp only
        split
        · exact ⟨_, rfl⟩
        · simp [make, hf]
        · exact ⟨_, rfl⟩
  · intro p i n b hp hb
    unfold fromFile
    cases hh : getFilePath fs name c with
    | mk c' r =>
      rw [hh] at hp
      subst hp
      simp [hb, make, hf]

/-- **C140 (refused).** `Context` needs an instruction, a shipped context takes none. -/
theorem C140_arguments (fs : FS) (json : String → Res I) (c : Cache) :
    (make fs json .context [] c).2 = .error .typeError ∧
      ∀ cls, cls ≠ .context → ∀ g gs, (make fs json cls (g :: gs) c).2 = .error .typeError := by
  refine ⟨rfl, ?_⟩
  intro cls hcls g gs
  cases cls with
  | context => exact absurd rfl hcls
  | rn220 => rfl
  | rn220Ar37 => rfl

/-! ### Concrete cases -/

/-- A file system with the two instructions of the package and a backend. -/
def exFS : FS where
  isFile s := s = "/p/instructs/rn220.json" ∨ s = "/p/instructs/rn220_ar37.json" ∨ s = "/w/fit.h5"
  pathExists s := s = "/p/instructs/rn220.json" ∨ s = "/p/instructs/rn220_ar37.json" ∨ s = "/w/fit.h5"
  pkg := "/p"

/-- A complete backend file. -/
def exFile : Fit.File Nat where
  attrs := [("nwalkers", .int 100), ("instruct", .instruct 7), ("batch_size", .int 1000)]

/-- Non-vacuity: a shipped context is made; its fit is restored as a `Context` and not as what it was. -/
example : (make exFS (fun _ => .ok 7) .rn220 [] {}).2 = .ok 7 ∧
    (fromFile exFS (fun _ => .ok 7) (fun _ => some exFile) .context "/w/fit.h5" {}).2 = .ok 7 ∧
    (fromFile exFS (fun _ => .ok 7) (fun _ => some exFile) .rn220 "/w/fit.h5" {}).2 = .error .typeError := by
  refine ⟨?_, ?_, ?_⟩
  · exact C140_packaged exFS (fun _ => .ok 7) .rn220 "rn220.json" rfl {} none rfl (by decide +kernel) (by simp [exFS]) (by simp [exFS])
      (by decide +kernel) (by simp) (by decide +kernel) (by decide +kernel)
  · exact C140_restored_partial exFS _ _ "/w/fit.h5" "/w/fit.h5" {} 7 (.int 100) (.int 1000) (by decide +kernel) rfl
  · exact (C140_not_restored exFS _ _ .rn220 (by decide) "/w/fit.h5" {}).2 "/w/fit.h5" 7 (.int 100) (.int 1000) (by decide +kernel) rfl

end
end Verif.Classes
