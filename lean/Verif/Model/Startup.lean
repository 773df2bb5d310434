/-
Model of what importing the package does besides binding names (C96): the memory settings in the environment
(`appletree/__init__.py` 4-12), the check of the hardware (48-63), the search for the package with the collaboration's files (65-72), and
`get_platform` and `set_gpu_memory_usage` (`appletree/utils.py` 252-274) on the environment.
-/
import Verif.Model.Utils

namespace Verif.Startup
open Verif

/-- `os.environ`. -/
abbrev Env := PyDict String String

/-- `d.setdefault(k, v)` (`__init__.py` 7-8). -/
def setDefault (env : Env) (k v : String) : Env :=
  match env.get? k with
  | some _ => env
  | none => env.set k v

/-- What the user sees during the import. -/
inductive Message
  | printed (s : String)
  | warned (s : String)
  deriving DecidableEq, Repr

/-- `__init__.py` 4-12: the memory settings, unless the user asked for the aggressive ones.  The assignments read the variables back
with `os.environ[...]`. -/
def prepare (env : Env) : Env × Res (List Message) :=
  if env.has "AGGRESSIVE_MEMORY_ALLOCATION" then (env, .ok [])
  else
    let env := setDefault env "XLA_PYTHON_CLIENT_PREALLOCATE" "false"
    let env := setDefault env "XLA_PYTHON_CLIENT_ALLOCATOR" "platform"
    (env, do
      let a ← env.getItem "XLA_PYTHON_CLIENT_PREALLOCATE"
      let b ← env.getItem "XLA_PYTHON_CLIENT_ALLOCATOR"
      return [.printed ("XLA_PYTHON_CLIENT_PREALLOCATE is set to " ++ a), .printed ("XLA_PYTHON_CLIENT_ALLOCATOR is set to " ++ b)])

/-- The machine as far as the import looks at it: the value of `jax.default_backend()` if this jax has the function, the name of the
backend in jax versions that do not, what the trial allocation raises, and what `import aptext` raises. -/
structure Machine where
  backend : Option String
  oldBackend : String
  allocation : Res Unit
  aptext : Res Unit

/-- `get_platform` (utils.py 252-260). -/
def getPlatform (m : Machine) : String :=
  match m.backend with
  | some p => p
  | none => m.oldBackend

/-- `str.upper` for the names of platforms. -/
def upper (s : String) : String := String.ofList (s.toList.map Char.toUpper)

/-- `__init__.py` 48-72, after all modules are imported: what is shown, and `HAVE_APTEXT` or the exception with its text. -/
def check (m : Machine) : List Message × Except (PyErr × String) Bool :=
  let platform := getPlatform m
  let shown : List Message :=
    if platform = "cpu" then [.warned "You are running appletree on CPU, which usually results in low performance."] else []
  match m.allocation with
  | .error _ =>
    (if platform = "gpu" then shown ++ [.printed "Can not allocate memory on GPU, please check your CUDA version."] else shown,
      .error (.importError, "Appletree is not correctly setup to be used on " ++ upper platform ++ "."))
  | .ok () =>
    match m.aptext with
    | .ok () => (shown ++ [.printed "Using aptext package from https://github.com/XENONnT/applefiles"], .ok true)
    | .error .importError => (shown ++ [.printed "Cannot find aptext"], .ok false)
    | .error e => (shown, .error (e, ""))

/-- `set_gpu_memory_usage` on the environment (utils.py 264-274). -/
def setGpu (env : Env) (fraction : ℚ) : Env × Res Unit :=
  match Utils.gpuFraction fraction with
  | .ok s => (env.set "XLA_PYTHON_CLIENT_MEM_FRACTION" s, .ok ())
  | .error e => (env, .error e)

/-- What a user does with the environment: set a variable, start a process that imports the package, limit the memory. -/
inductive Act
  | user (k v : String)
  | load
  | limit (fraction : ℚ)

def act (env : Env) : Act → Env
  | .user k v => env.set k v
  | .load => (prepare env).1
  | .limit f => (setGpu env f).1

def acts (env : Env) (as : List Act) : Env := as.foldl act env

end Verif.Startup
