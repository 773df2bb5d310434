/-
Model of the timings of the profiler: profiler.py 17-61, 65-145, 148-252, 255-319, 322-377.

The clock is a function giving the n-th reading, the time-based keys of `get_key()` a function giving the n-th key.
`block_until_ready` is the identity.  Printed tables are the rows they are made of.
-/
import Verif.Model.Profiler
import Verif.Model.Parameter
import Verif.Model.Likelihood

namespace Verif.Prof
open Verif Verif.Comp

section
variable {K V O : Type}

/-- The local variables of a timed loop: the key, `outputs` (unbound before the first call), the number of clock readings so
far and `times`. -/
structure Run (K O : Type) where
  key : K
  out : Option O
  reads : Nat
  times : List ℝ

/-- The warmup loop (profiler.py 42-45, 281-284). -/
def warmupRuns (step : K → Res (K × O)) : Nat → Run K O → Res (Run K O)
  | 0, s => .ok s
  | n + 1, s => match step s.key with
    | .error e => .error e
    | .ok (k, o) => warmupRuns step n { s with key := k, out := some o }

/-- The timed loop (profiler.py 49-55, 288-294): one reading before and one after each call, in milliseconds. -/
noncomputable def timedRuns (clock : Nat → ℝ) (step : K → Res (K × O)) : Nat → Run K O → Res (Run K O)
  | 0, s => .ok s
  | n + 1, s => match step s.key with
    | .error e => .error e
    | .ok (k, o) => timedRuns clock step n
        ⟨k, some o, s.reads + 2, s.times ++ [(clock (s.reads + 1) - clock s.reads) * 1000]⟩

/-- `np.mean` of a list: NaN with a warning when it is empty. -/
noncomputable def npMean (l : List ℝ) : XF := if l = [] then .nan else .fin (l.sum / l.length)

/-- `np.std` of a list: the root of the mean squared deviation, NaN when it is empty. -/
noncomputable def npStd (l : List ℝ) : XF :=
  if l = [] then .nan else .fin (√((l.map (fun t => (t - l.sum / l.length) ^ 2)).sum / l.length))

/-- `profile_plugin` (profiler.py 17-61): key, output data, mean and deviation, and the number of readings. -/
noncomputable def profilePlugin (clock : Nat → ℝ) (sem : Plugin → K → List V → Res (K × List V)) (warmup runs : Nat) (p : Plugin)
    (key : K) (store : PyDict String V) (reads : Nat) : Res (K × PyDict String V × (XF × XF) × Nat) := do
  let args ← p.dependsOn.mapM (readData store)
  let s ← warmupRuns (fun k => sem p k args) warmup ⟨key, none, reads, []⟩
  let s ← timedRuns clock (fun k => sem p k args) runs s
  let out ← collect p.provides s.out []
  return (s.key, out, (npMean s.times, npStd s.times), s.reads)

/-- A line of the result of `profile_component` (profiler.py 127-133). -/
structure Line where
  line : ProfileLine
  mean : XF
  std : XF

/-- The state of the loop of `profile_component`: key, data store, lines and clock readings. -/
structure CompRun (K V : Type) where
  key : K
  store : PyDict String V
  lines : List Line
  reads : Nat

/-- The body of the loop of `profile_component` (profiler.py 108-134). -/
noncomputable def profileWork (clock : Nat → ℝ) (reg : Registry) (sem : Plugin → K → List V → Res (K × List V)) (warmup runs : Nat)
    (s : CompRun K V) (w : Work) : Res (CompRun K V) := do
  let first ← match w.provides with
    | [] => .error .indexError
    | d :: _ => .ok d
  let cls ← reg.getItem first
  if cls.dependsOn = [] || cls.provides = [] then .error .valueError
  else
    let r ← profilePlugin clock sem warmup runs cls s.key s.store s.reads
    return ⟨r.1, s.store.update r.2.1, s.lines ++ [⟨⟨w.name, w.provides, w.dependsOn⟩, r.2.2.1.1, r.2.2.1.2⟩], r.2.2.2⟩

/-- `profile_component` (profiler.py 65-145). -/
noncomputable def profileComponent (clock : Nat → ℝ) (reg : Registry) (ws : Option (List Work))
    (sem : Plugin → K → List V → Res (K × List V)) (warmup runs : Nat) (key : K) (batchSize : V) (reads : Nat) :
    Res (CompRun K V) :=
  match ws with
  | none => .error .runtimeError
  | some ws => ws.foldlM (profileWork clock reg sem warmup runs) ⟨key, [("batch_size", batchSize)], [], reads⟩

/-- A component as the profiler sees it: what it needs of a `ComponentSim`, or another kind.  `sem` is `simulate` of the
plugins at parameters, `simulate` the compiled function of the component (`none`: not compiled). -/
inductive PComp (K V P : Type)
  | sim (reg : Registry) (worksheet : Option (List Work)) (sem : P → Plugin → K → List V → Res (K × List V))
      (simulate : Option (P → K → V → Res (K × List V)))
  | other

/-- What changes while a context is profiled: how many keys and clock readings were used. -/
structure Used where
  keys : Nat := 0
  reads : Nat := 0
  deriving DecidableEq

/-- One simulated component of `profile_context` (profiler.py 195-206). -/
noncomputable def pluginsOne (clock : Nat → ℝ) (keys : Nat → K) (warmup runs : Nat) (batch : V) {P : Type} (p : P) (u : Used)
    (reg : Registry) (ws : Option (List Work)) (sem : P → Plugin → K → List V → Res (K × List V)) : Res (Used × List Line) :=
  match ws with
  | none => .error .assertionError
  | some ws => do
    let r ← profileComponent clock reg (some ws) (sem p) warmup runs (keys u.keys) batch u.reads
    return (⟨u.keys + 1, r.reads⟩, r.lines)

/-- One simulated component of `profile_full_simulation` (profiler.py 275-303). -/
noncomputable def fullOne (clock : Nat → ℝ) (keys : Nat → K) (warmup runs : Nat) (batch : V) {P : Type} (p : P) (u : Used)
    (simulate : Option (P → K → V → Res (K × List V))) : Res (Used × (XF × XF)) :=
  match simulate with
  | none => .error .assertionError
  | some f => do
    let s ← warmupRuns (fun k => f p k batch) warmup ⟨keys u.keys, none, u.reads, []⟩
    let s ← timedRuns clock (fun k => f p k batch) runs s
    return (⟨u.keys + 1, s.reads⟩, (npMean s.times, npStd s.times))

/-- The loop over the components of one likelihood (profiler.py 190-209, 270-308), for either way of profiling. -/
def compLoop {P R : Type} (one : Used → PComp K V P → Res (Used × Option R)) (llh : String) :
    List (String × PComp K V P) → Used × PyDict String R → Res (Used × PyDict String R)
  | [], s => .ok s
  | (n, c) :: cs, s => match one s.1 c with
    | .error e => .error e
    | .ok (u, none) => compLoop one llh cs (u, s.2)
    | .ok (u, some r) => compLoop one llh cs (u, s.2.set (llh ++ "/" ++ n) r)

/-- A likelihood of the context: its aliases and its components. -/
structure PLlh (K V W : Type) where
  aliases : PyDict String String
  comps : List (String × PComp K V (PyDict String W))

/-- The loop over likelihoods (profiler.py 183-209, 268-308). -/
def llhLoop {W R : Type} (one : PyDict String W → Used → PComp K V (PyDict String W) → Res (Used × Option R)) (p : PyDict String W) :
    List (String × PLlh K V W) → Used × PyDict String R → Res (Used × PyDict String R)
  | [], s => .ok s
  | (n, l) :: ls, s => match compLoop (one (Llh.replaceAlias l.aliases p)) n l.comps s with
    | .error e => .error e
    | .ok s => llhLoop one p ls s

/-- The step of `profile_context` for a component of any kind (profiler.py 190-206). -/
noncomputable def pluginsStep {W : Type} (clock : Nat → ℝ) (keys : Nat → K) (warmup runs : Nat) (batch : V) (p : PyDict String W) (u : Used) :
    PComp K V (PyDict String W) → Res (Used × Option (List Line))
  | .other => .ok (u, none)
  | .sim reg ws sem _ => (pluginsOne clock keys warmup runs batch p u reg ws sem).map (fun r => (r.1, some r.2))

/-- The step of `profile_full_simulation` for a component of any kind (profiler.py 270-303). -/
noncomputable def fullStep {W : Type} (clock : Nat → ℝ) (keys : Nat → K) (warmup runs : Nat) (batch : V) (p : PyDict String W) (u : Used) :
    PComp K V (PyDict String W) → Res (Used × Option (XF × XF))
  | .other => .ok (u, none)
  | .sim _ _ _ f => (fullOne clock keys warmup runs batch p u f).map (fun r => (r.1, some r.2))

/-- The parameters used (profiler.py 172-174, 264-266, 340-342): those given, or the context's after sampling them anew. -/
noncomputable def takeParameters (draw : String → ℝ) (pm : Parameter.PM) : Option (PyDict String XF) → Parameter.PM × Res (PyDict String XF)
  | some p => (pm, .ok p)
  | none => match Parameter.sampleInit draw pm with
    | (pm', .error e) => (pm', .error e)
    | (pm', .ok _) => (pm', .ok pm'.vals)

/-- `profile_context` (profiler.py 148-215). -/
noncomputable def profileContext (clock : Nat → ℝ) (keys : Nat → K) (draw : String → ℝ) (warmup runs : Nat) (batch : V)
    (llhs : List (String × PLlh K V XF)) (pm : Parameter.PM) (given : Option (PyDict String XF)) (u : Used) :
    Parameter.PM × Res (Used × PyDict String (List Line)) :=
  match takeParameters draw pm given with
  | (pm, .error e) => (pm, .error e)
  | (pm, .ok p) => (pm, llhLoop (pluginsStep clock keys warmup runs batch) p llhs (u, []))

/-- `profile_full_simulation` (profiler.py 255-319). -/
noncomputable def profileFull (clock : Nat → ℝ) (keys : Nat → K) (draw : String → ℝ) (warmup runs : Nat) (batch : V)
    (llhs : List (String × PLlh K V XF)) (pm : Parameter.PM) (given : Option (PyDict String XF)) (u : Used) :
    Parameter.PM × Res (Used × PyDict String (XF × XF)) :=
  match takeParameters draw pm given with
  | (pm, .error e) => (pm, .error e)
  | (pm, .ok p) => (pm, llhLoop (fullStep clock keys warmup runs batch) p llhs (u, []))

/-- `sum(r["mean_time_ms"] for r in results)` (profiler.py 231, 360). -/
noncomputable def total (lines : List Line) : XF := XF.sum (lines.map Line.mean)

/-- The overhead in percent (profiler.py 362). -/
noncomputable def overhead (plugins full : XF) : XF := if .fin 0 < full then (plugins / full - .fin 1) * .fin 100 else .fin 0

/-- A row of the comparison (profiler.py 364-367). -/
structure Row where
  name : String
  plugins : XF
  full : XF
  overhead : XF

/-- The row of a component (profiler.py 359-362). -/
noncomputable def rowOf (full : PyDict String (XF × XF)) (e : String × List Line) : Res Row := do
  let f ← full.getItem e.1
  return ⟨e.1, total e.2, f.1, overhead (total e.2) f.1⟩

/-- `compare_plugin_vs_full` (profiler.py 322-372): both ways are profiled one after the other with the same parameters. -/
noncomputable def compare (clock : Nat → ℝ) (keys : Nat → K) (draw : String → ℝ) (warmup runs : Nat) (batch : V)
    (llhs : List (String × PLlh K V XF)) (pm : Parameter.PM) (given : Option (PyDict String XF)) (u : Used) : Parameter.PM × Res (Used × List Row) :=
  match takeParameters draw pm given with
  | (pm, .error e) => (pm, .error e)
  | (pm, .ok p) => match profileContext clock keys draw warmup runs batch llhs pm (some p) u with
    | (pm, .error e) => (pm, .error e)
    | (pm, .ok a) => match profileFull clock keys draw warmup runs batch llhs pm (some p) a.1 with
      | (pm, .error e) => (pm, .error e)
      | (pm, .ok b) => (pm, (a.2.mapM (rowOf b.2)).map (fun rows => (b.1, rows)))

/-- `l[:n]`. -/
def sliceTo {α : Type} (l : List α) (n : Int) : List α := if 0 ≤ n then l.take n.toNat else l.take (l.length - (-n).toNat)

/-- What `print_profile_summary` prints (profiler.py 229-252). -/
structure Summary where
  totals : List (String × XF × Nat)
  grand : XF
  top : List (String × XF × String)

/-- `print_profile_summary` (profiler.py 218-252); sorting is stable and in descending order, so an entry stays before another
unless it is smaller. -/
noncomputable def summary (all : PyDict String (List Line)) (topN : Int := 5) : Summary where
  totals := all.map (fun e => (e.1, total e.2, e.2.length))
  grand := XF.sum (all.map (fun e => total e.2))
  top := sliceTo ((all.flatMap (fun e => e.2.map (fun r => (r.line.plugin, r.mean, e.1)))).mergeSort
    (fun a b => decide (¬ a.2.1 < b.2.1))) topN

end
end Verif.Prof
