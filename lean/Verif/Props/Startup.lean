/-
C148: importing the package and the memory settings.
-/
import Verif.Model.Startup

namespace Verif.Startup
open Verif

theorem get?_setDefault (env : Env) (k v k' : String) :
    (setDefault env k v).get? k' = if k = k' then some ((env.get? k).getD v) else env.get? k' := by
  unfold setDefault
  cases h : env.get? k with
  | some x =>
    simp only [Option.getD_some]
    split
    · rename_i e; rw [← e, h]
    · rfl
  | none =>
    simp only [Option.getD_none]
    rw [PyDict.get?_set]

theorem prepare_get (env : Env) (k : String) :
    (prepare env).1.get? k =
      if env.has "AGGRESSIVE_MEMORY_ALLOCATION" then env.get? k
      else if k = "XLA_PYTHON_CLIENT_PREALLOCATE" then some ((env.get? k).getD "false")
      else if k = "XLA_PYTHON_CLIENT_ALLOCATOR" then some ((env.get? k).getD "platform")
      else env.get? k := by
  unfold prepare
  split
  · rfl
  · simp only [get?_setDefault]
    by_cases h1 : k = "XLA_PYTHON_CLIENT_PREALLOCATE"
    · subst h1; simp
    · by_cases h2 : k = "XLA_PYTHON_CLIENT_ALLOCATOR"
      · subst h2; simp
      · rw [if_neg (Ne.symm h2), if_neg (Ne.symm h1), if_neg h1, if_neg h2]

/-- **C148 (settings).** Importing the package does not fail at the memory settings and changes no variable that is already set, and no others
than the two for the allocation; these are set to `false` and `platform` unless the user asked for aggressive allocation. -/
theorem C148_settings (env : Env) :
    (∃ shown, (prepare env).2 = .ok shown) ∧
    (∀ k v, env.get? k = some v → (prepare env).1.get? k = some v) ∧
    (∀ k, k ≠ "XLA_PYTHON_CLIENT_PREALLOCATE" → k ≠ "XLA_PYTHON_CLIENT_ALLOCATOR" → (prepare env).1.get? k = env.get? k) ∧
    ("AGGRESSIVE_MEMORY_ALLOCATION" ∈ env.keys → (prepare env).1 = env) ∧
    ("AGGRESSIVE_MEMORY_ALLOCATION" ∉ env.keys →
      (env.get? "XLA_PYTHON_CLIENT_PREALLOCATE" = none → (prepare env).1.get? "XLA_PYTHON_CLIENT_PREALLOCATE" = some "false") ∧
      (env.get? "XLA_PYTHON_CLIENT_ALLOCATOR" = none → (prepare env).1.get? "XLA_PYTHON_CLIENT_ALLOCATOR" = some "platform")) := by
  refine ⟨?_, ?_, ?_, ?_, ?_⟩
  · unfold prepare
    split
    · exact ⟨_, rfl⟩
    · simp only [PyDict.getItem, get?_setDefault]
      simp [bind, Except.bind, pure, Except.pure]
  · intro k v h
    rw [prepare_get]
    split
    · exact h
    split
    · rw [h]; rfl
    split
    · rw [h]; rfl
    · exact h
  · intro k h1 h2
    rw [prepare_get, if_neg h1, if_neg h2, ite_self]
  · intro h
    unfold prepare
    rw [if_pos ((PyDict.has_iff _ _).2 h)]
  · intro h
    have hh : ¬ env.has "AGGRESSIVE_MEMORY_ALLOCATION" = true := fun e => h ((PyDict.has_iff _ _).1 e)
    refine ⟨fun h0 => ?_, fun h0 => ?_⟩
    · rw [prepare_get, if_neg hh, if_pos rfl, h0]; rfl
    · rw [prepare_get, if_neg hh, if_neg (by decide), if_pos rfl, h0]; rfl

/-- Non-vacuity: a user who turned preallocation on keeps it. -/
example : prepare [("XLA_PYTHON_CLIENT_PREALLOCATE", "true")] =
    ([("XLA_PYTHON_CLIENT_PREALLOCATE", "true"), ("XLA_PYTHON_CLIENT_ALLOCATOR", "platform")],
      .ok [.printed "XLA_PYTHON_CLIENT_PREALLOCATE is set to true", .printed "XLA_PYTHON_CLIENT_ALLOCATOR is set to platform"]) := by
  decide +kernel

/-- The last value given to a variable by the user. -/
def given (k : String) (as : List Act) : Option String :=
  (as.filterMap (fun a => match a with | .user k' v => if k' = k then some v else none | _ => none)).getLast?

/-- **C148 (history).** Whatever a user does, in whatever order: a variable they set themselves, other than the memory fraction, always has the
value they gave it last, and so has every variable that neither the import nor the limit of the memory is about. -/
theorem C148_history (env : Env) (as : List Act) (k : String) (hk : k ≠ "XLA_PYTHON_CLIENT_MEM_FRACTION") :
    (∀ v, (given k as).or (env.get? k) = some v → (acts env as).get? k = some v) ∧
    (k ≠ "XLA_PYTHON_CLIENT_PREALLOCATE" → k ≠ "XLA_PYTHON_CLIENT_ALLOCATOR" → (acts env as).get? k = (given k as).or (env.get? k)) := by
  have hgiven : ∀ a as, given k (a :: as) = (given k as).or (given k [a]) := by
    intro a as
    unfold given
    rw [← List.singleton_append, List.filterMap_append, List.getLast?_append]
  have hlimit : ∀ (e : Env) f, (act e (.limit f)).get? k = e.get? k := by
    intro e f
    unfold act setGpu
    simp only
    split
    · exact PyDict.get?_set_ne _ _ (Ne.symm hk)
    · rfl
  have huser : ∀ (e : Env) k' v, (act e (.user k' v)).get? k = (given k [.user k' v]).or (e.get? k) := by
    intro e k' v
    unfold act given
    rw [PyDict.get?_set]
    by_cases h : k' = k <;> simp [h]
  induction as generalizing env with
  | nil => exact ⟨fun v h => by simpa [given, acts] using h, fun _ _ => by simp [given, acts]⟩
  | cons a as ih =>
    obtain ⟨ih1, ih2⟩ := ih (act env a)
    refine ⟨fun v h => ih1 v ?_, fun h1 h2 => ?_⟩
    · rw [hgiven] at h
      cases hg : given k as with
      | some w => rw [hg] at h; simpa using h
      | none =>
        rw [hg] at h
        simp only [Option.none_or] at h ⊢
        cases a with
        | user k' w => rw [huser]; exact h
        | load => exact (C148_settings env).2.1 k v (by simpa [given] using h)
        | limit f => rw [hlimit]; simpa [given] using h
    · refine (ih2 h1 h2).trans ?_
      rw [hgiven]
      cases hg : given k as with
      | some w => simp
      | none =>
        simp only [Option.none_or]
        cases a with
        | user k' w => exact huser env k' w
        | load => simpa [given, act] using (C148_settings env).2.2.1 k h1 h2
        | limit f => rw [hlimit]; simp [given]

/-- Non-vacuity: three processes and a change of mind. -/
example : (acts [] [.load, .user "XLA_PYTHON_CLIENT_ALLOCATOR" "default", .limit (1 / 2), .load]).get? "XLA_PYTHON_CLIENT_ALLOCATOR" = some "default" ∧
    (acts [] [.load, .user "XLA_PYTHON_CLIENT_ALLOCATOR" "default", .limit (1 / 2), .load]).get? "XLA_PYTHON_CLIENT_MEM_FRACTION" = some ".50" := by
  decide +kernel

/-- **C148 (order).** For the environment it does not matter whether the memory is limited before or after the import. -/
theorem C148_limit_commutes (env : Env) (f : ℚ) (k : String) :
    (acts env [.load, .limit f]).get? k = (acts env [.limit f, .load]).get? k := by
  simp only [acts, List.foldl_cons, List.foldl_nil, act, setGpu]
  cases Utils.gpuFraction f with
  | error e => rfl
  | ok s =>
    simp only
    have hh : PyDict.has (PyDict.set env "XLA_PYTHON_CLIENT_MEM_FRACTION" s) "AGGRESSIVE_MEMORY_ALLOCATION" =
        PyDict.has env "AGGRESSIVE_MEMORY_ALLOCATION" := by
      unfold PyDict.has
      rw [PyDict.get?_set_ne _ _ (by decide)]
    rw [PyDict.get?_set, prepare_get, prepare_get, hh, PyDict.get?_set]
    by_cases h : "XLA_PYTHON_CLIENT_MEM_FRACTION" = k
    · subst h
      simp
    · simp only [if_neg h]

/-- **C148 (check).** The import fails exactly if the trial allocation fails or if `aptext` is there and cannot be imported for another reason; in
the first case it is an `ImportError` that names the platform.  Otherwise `HAVE_APTEXT` tells whether `aptext` is there.  The warning is shown
exactly on a CPU.  The platform is the default one of jax, where jax tells it. -/
theorem C148_check (m : Machine) :
    ((∃ e, (check m).2 = .error e) ↔ (∃ e, m.allocation = .error e) ∨ ∃ e, m.aptext = .error e ∧ e ≠ .importError) ∧
    (∀ e, m.allocation = .error e →
      (check m).2 = .error (.importError, "Appletree is not correctly setup to be used on " ++ upper (getPlatform m) ++ ".")) ∧
    (∀ b, (check m).2 = .ok b → (b = true ↔ m.aptext = .ok ())) ∧
    (.warned "You are running appletree on CPU, which usually results in low performance." ∈ (check m).1 ↔ getPlatform m = "cpu") ∧
    (∀ p, m.backend = some p → getPlatform m = p) := by
  obtain ⟨be, ob, al, ap⟩ := m
  unfold check
  simp only
  refine ⟨?_, ?_, ?_, ?_, by rintro p rfl; rfl⟩
  · cases al with
    | error e => simp
    | ok u =>
      cases ap with
      | ok u => simp
      | error e => cases e <;> simp
  · rintro e rfl
    rfl
  · cases al with
    | error e => simp
    | ok u =>
      cases ap with
      | ok u => simp
      | error e => cases e <;> simp
  · generalize getPlatform ⟨be, ob, al, ap⟩ = p
    cases al with
    | error e =>
      by_cases h : p = "cpu"
      · subst h; simp
      · by_cases h2 : p = "gpu" <;> simp [h, h2]
    | ok u =>
      cases ap with
      | ok u => by_cases h : p = "cpu" <;> simp [h]
      | error e => cases e <;> by_cases h : p = "cpu" <;> simp [h]

/-- Non-vacuity: a GPU without memory, and a laptop. -/
example : check ⟨some "gpu", "cpu", .error .runtimeError, .ok ()⟩ =
      ([.printed "Can not allocate memory on GPU, please check your CUDA version."],
        .error (.importError, "Appletree is not correctly setup to be used on GPU.")) ∧
    check ⟨none, "cpu", .ok (), .error .importError⟩ =
      ([.warned "You are running appletree on CPU, which usually results in low performance.", .printed "Cannot find aptext"], .ok false) := by
  decide +kernel

end Verif.Startup
