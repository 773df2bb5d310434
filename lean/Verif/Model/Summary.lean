/-
Model of the printed summaries: `print_context_summary` (`appletree/context.py` 136-144), `print_likelihood_summary` and
`_print_components` (`appletree/likelihood.py` 390-436, 564-587), `print_component_code` and `print_worksheet`
(`appletree/profiler.py` 379-419).

What is printed is the list of the calls of `print`, each with the values that are filled in; `Line.render` is its text, where the
text of a set or an array is given.  An attribute that does not exist yet is `none`.
-/
import Verif.Model.Context

namespace Verif.Summary
open Verif

/-- One call of `print`. -/
inductive Line
  /-- `print()` -/
  | blank
  /-- a line of `n` characters `c`, after an empty line if `gap` -/
  | rule (gap : Bool) (c : Char) (n : Nat)
  /-- a fixed title -/
  | title (s : String)
  /-- `LIKELIHOOD name` (context.py 142) -/
  | likelihood (name : String)
  /-- `COMPONENT i: name` (likelihood.py 396) -/
  | component (i : Nat) (name : String)
  /-- `label: value`, indented once or twice -/
  | entry (depth : Nat) (label value : String)
  /-- `pars: {need}` (likelihood.py 400, 407) -/
  | pars (needed : List String)
  /-- a row of the table of `print_worksheet` (profiler.py 413-417) -/
  | row (i : Nat) (plugin : String) (provides dependsOn : List String)
  /-- text as it is -/
  | text (s : String)
  deriving DecidableEq, Repr

/-- `f"{s:<n}"`. -/
def ljust (n : Nat) (s : String) : String := s ++ String.ofList (List.replicate (n - s.length) ' ')

/-- The text of a line; `showSet` is python's text of a set of names. -/
def Line.render (indent : String) (showSet : List String → String) : Line → String
  | .blank => ""
  | .rule gap c n => (if gap then "\n" else "") ++ String.ofList (List.replicate n c)
  | .title s => s ++ "\n"
  | .likelihood n => "LIKELIHOOD " ++ n
  | .component i n => indent ++ "COMPONENT " ++ toString i ++ ": " ++ n
  | .entry d l v => String.join (List.replicate d indent) ++ l ++ ": " ++ v
  | .pars ns => indent ++ indent ++ "pars: " ++ showSet ns
  | .row i p pr ds => ljust 4 (toString i) ++ " " ++ ljust 30 p ++ " " ++ ljust 25 (", ".intercalate pr) ++ " "
      ++ (if ds = [] then "(none)" else ", ".intercalate ds)
  | .text s => s

/-- The class of a component, with the text of what is printed of it alone: the worksheet, or the name of the file. -/
inductive Kind
  | sim (worksheet : String)
  | fixed (file : String)
  | other
  deriving DecidableEq, Repr

/-- What the summary reads of a component. -/
structure Info where
  kind : Kind
  rate : String
  needed : List String

/-- One component (likelihood.py 393-410). -/
def componentLines (short : Bool) (i : Nat) (name : String) (c : Info) : List Line :=
  .component i name ::
    ((match c.kind with
      | .sim w => [.entry 2 "type" "simulation", .entry 2 "rate_par" c.rate, .pars c.needed]
          ++ (if short then [] else [.entry 2 "worksheet" w])
      | .fixed f => [.entry 2 "type" "fixed", .entry 2 "file_name" f, .entry 2 "rate_par" c.rate, .pars c.needed]
          ++ (if short then [] else [.entry 2 "from_file" f])
      | .other => []) ++ [.blank])

/-- `_print_components` (likelihood.py 390-410), counting from `i`. -/
def printComponents (short : Bool) : Nat → List (String × Info) → List Line
  | _, [] => []
  | i, (n, c) :: cs => componentLines short i n c ++ printComponents short (i + 1) cs

/-- What the summary reads of a likelihood; texts of values other than names are given. -/
inductive Head
  /-- `Likelihood`: the kind of bins, the observables, the bins, the data file, the number of events in the histogram -/
  | binned (binsType binsOn bins file rate : String)
  /-- `LikelihoodLit`: the kind of variable, the variable, the arguments of the density -/
  | lit (variableType variable_ : String) (args : List (String × String))

/-- `print_likelihood_summary` (likelihood.py 412-436, 564-587). -/
def likelihoodSummary (short : Bool) (h : Head) (cs : List (String × Info)) : List Line :=
  (match h with
    | .binned t on bins file rate =>
      [.rule true '-' 40, .title "BINNING", .entry 1 "bins_type" t, .entry 1 "bins_on" on]
        ++ (if short then [] else [.entry 1 "bins" bins])
        ++ [.rule true '-' 40, .title "DATA", .entry 1 "file_name" file, .entry 1 "data_rate" rate]
    | .lit t on args =>
      [.rule true '-' 40, .title "BINNING", .entry 1 "variable_type" t, .entry 1 "variable" on,
        .rule true '-' 40, .title "LOGPDF", .text "    logpdf_args:"] ++ args.map (fun kv => .entry 2 kv.1 kv.2))
  ++ [.rule true '-' 40, .title "MODEL"] ++ printComponents short 0 cs ++ [.rule false '-' 40]

/-- The loop over likelihoods (context.py 141-144). -/
def summaryLoop (short : Bool) : List (String × Head × List (String × Info)) → List Line
  | [] => []
  | (n, h, cs) :: r => .likelihood n :: (likelihoodSummary short h cs ++ .rule true '=' 40 :: summaryLoop short r)

/-- What a registered component shows: its needed parameters are those it had when it was deduced, and its rate is named after it
(likelihood.py 260, 394, 400). -/
def infoOf {K V : Type} (what : String → String) (n : String) (c : Llh.LComp K V) : Info :=
  ⟨match c with | .sim .. => .sim (what n) | .fixed .. => .fixed (what n) | .other _ => .other, n ++ "_rate", c.needed⟩

/-- `print_context_summary` (context.py 136-144): what is printed, and how it ends. -/
def contextSummary {K : Type} (short : Bool) (c : Ctx.Ctx K) (ls : List (String × Head × List (String × Info))) : List Line × Res Unit :=
  match Ctx.sanityCheck c with
  | .error e => ([], .error e)
  | .ok () => (.rule true '=' 40 :: summaryLoop short ls, .ok ())

/-- `print_component_code` (profiler.py 379-393). -/
def printCode (name : String) (code : Option String) : List Line :=
  match code with
  | none => [.text "Component has no generated code. Run deduce() first."]
  | some s => [.text ("\nGenerated code for component: " ++ name), .rule false '=' 60, .text s, .rule false '=' 60]

/-- The rows of the worksheet (profiler.py 413-417), counting from `i`. -/
def worksheetRows : Nat → List (String × List String × List String) → List Line
  | _, [] => []
  | i, (p, pr, ds) :: r => .row i p pr ds :: worksheetRows (i + 1) r

/-- `print_worksheet` (profiler.py 397-419). -/
def printWorksheet (name : String) (ws : Option (List (String × List String × List String))) : List Line :=
  match ws with
  | none => [.text "Component has no worksheet. Run deduce() first."]
  | some ws => [.text ("\nWorksheet for component: " ++ name), .rule false '=' 60,
      .text (ljust 4 "#" ++ " " ++ ljust 30 "Plugin" ++ " " ++ ljust 25 "Provides" ++ " Depends On"), .rule false '-' 90]
      ++ worksheetRows 1 ws ++ [.blank]

end Verif.Summary
