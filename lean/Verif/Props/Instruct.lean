/-
C107: what an instruction says is what is done, and what it must contain.
-/
import Verif.Lemmas.Instruct

namespace Verif.Instr
open Verif

/-! ### Items that mean nothing -/

/-- **C107 does not hold for misspelt items.** Items with other names are ignored, in an instruction, in its likelihoods and in its
components: nothing that is done, and no exception, depends on them. -/
theorem C107_only_known_items (E : Env) (d : PyDict String Val) (arg : Option (PyDict String Val)) : create E (strip d) arg = create E d arg := by
  have h1 : readOptions E (strip d) = readOptions E d := by
    unfold readOptions
    rw [get?_strip d "url_base" (by decide) (by decide), get?_strip d "configs" (by decide) (by decide)]
  have h2 : readPar E (strip d) arg = readPar E d arg := by
    unfold readPar
    rw [getItem_congr _ _ _ (get?_strip d "par_config" (by decide) (by decide))]
  unfold create
  rw [h1, h2, get?_strip d "backend_h5" (by decide) (by decide)]
  simp only [PyDict.getItem, get?_strip_llh]
  cases d.get? "likelihoods" with
  | none => rfl
  | some v =>
    simp only [Option.map_some, quiet, andThen, updatePar_strip, items_inside]
    cases v with
    | dict l => simp only [Val.items, Except.map, likelihoodLoop_strip]
    | _ => rfl

theorem C107_misspelt_ignored (E : Env) (d d' : PyDict String Val) (arg : Option (PyDict String Val)) (h : strip d = strip d') :
    create E d arg = create E d' arg := by
  rw [← C107_only_known_items, h, C107_only_known_items]

/-! ### What is done -/

/-- **C107, what is done.** A context is made exactly if its options can be set, its parameters can be read and completed, its
likelihoods have different names, and each of them has the items of its class and components of known classes that can be built;
then the options, the parameters, the likelihoods and their components are made in this order, with the items the instruction gives,
and nothing else is done. -/
theorem C107_accepts (E : Env) (d : PyDict String Val) (arg : Option (PyDict String Val)) (evs : List Event) (m : Made) :
    create E d arg = (evs, .ok m) ↔ ∃ pc l evo evp evss, OptionsOf E d m.config evo ∧ ParOf E d arg pc evp ∧
      d.get? "likelihoods" = some (.dict l) ∧ updatePar pc (.dict l) = .ok m.parConfig ∧ E.parameter m.parConfig = .ok () ∧
      (PyDict.keys l).Nodup ∧ List.Forall₂ (LikelihoodOf E) l evss ∧ m.backend = d.get? "backend_h5" ∧
      evs = evo ++ evp ++ [.parameter m.parConfig] ++ evss.flatten := by
  unfold create
  simp only [andThen_eq_ok, quiet_eq_ok, readOptions_ok, readPar_ok, getItem_ok, items_ok, Prod.mk.injEq, Except.ok.injEq]
  constructor
  · rintro ⟨evo, cfg, _, h1, ⟨evp, pc, _, h2, ⟨_, ls, _, ⟨h3, rfl⟩, ⟨_, pc', _, ⟨h4, rfl⟩, ⟨_, _, _, ⟨rfl, h5⟩, ⟨_, l, _, ⟨rfl, rfl⟩,
      ⟨_, _, _, hll, ⟨rfl, rfl⟩, rfl⟩, rfl⟩, rfl⟩, rfl⟩, rfl⟩, rfl⟩, rfl⟩
    obtain ⟨_, h6, evss, h7, rfl⟩ := (likelihoodLoop_ok E [] l _).1 hll
    exact ⟨pc, l, evo, evp, evss, h1, h2, h3, h4, h5, h6, h7, rfl, by simp⟩
  · rintro ⟨pc, l, evo, evp, evss, h1, h2, h3, h4, h5, h6, h7, h8, rfl⟩
    refine ⟨evo, m.config, _, h1, ⟨evp, pc, _, h2, ⟨[], .dict l, _, ⟨h3, rfl⟩, ⟨[], m.parConfig, _, ⟨h4, rfl⟩, ⟨[.parameter m.parConfig], (), _, ⟨rfl, h5⟩,
      ⟨[], l, _, ⟨rfl, rfl⟩, ⟨evss.flatten, (), [], (likelihoodLoop_ok E [] l _).2 ⟨by simp, h6, evss, h7, rfl⟩, ⟨?_, rfl⟩, rfl⟩, rfl⟩, rfl⟩, rfl⟩, rfl⟩, rfl⟩, by simp⟩
    rw [← h8]

/-- **C107, the file.** An instruction given by name is the dictionary in its file; anything else is refused. -/
theorem C107_by_name (E : Env) (s : String) (d : PyDict String Val) (arg : Option (PyDict String Val)) (h : E.loadJson (.str s) = .ok (.dict d)) :
    init E (.str s) arg = (.file (.str s) :: (create E d arg).1, (create E d arg).2) ∧ init E (.dict d) arg = create E d arg := by
  constructor
  · simp [init, andThen, quiet, h, Val.items]
  · simp [init, andThen, quiet, Val.items]

/-- **C107, a component written short** is the component written in full. -/
theorem C107_shorthand (E : Env) (d : PyDict String Val) (arg : Option (PyDict String Val)) : create E (expandAll d) arg = create E d arg := by
  have hg : ∀ k, k ≠ "likelihoods" → (expandAll d).get? k = d.get? k := by
    intro k hk
    unfold expandAll
    rw [get?_at', if_neg hk]
  have hl : (expandAll d).get? "likelihoods" = (d.get? "likelihoods").map (inside (mapComps expand)) := by
    unfold expandAll
    rw [get?_at', if_pos rfl]
  have h1 : readOptions E (expandAll d) = readOptions E d := by
    unfold readOptions
    rw [hg "url_base" (by decide), hg "configs" (by decide)]
  have h2 : readPar E (expandAll d) arg = readPar E d arg := by
    unfold readPar
    rw [getItem_congr _ _ _ (hg "par_config" (by decide))]
  unfold create
  rw [h1, h2, hg "backend_h5" (by decide)]
  simp only [PyDict.getItem, hl]
  cases d.get? "likelihoods" with
  | none => rfl
  | some v =>
    simp only [Option.map_some, quiet, andThen, updatePar_map, items_inside]
    cases v with
    | dict l => simp only [Val.items, Except.map, likelihoodLoop_map expand E (readComponent_expand E)]
    | _ => rfl

/-! ### What is refused -/

/-- **C107, missing parameters and likelihoods** are KeyErrors. -/
theorem C107_missing (E : Env) (d cfg : PyDict String Val) (arg : Option (PyDict String Val)) (evo : List Event) (ho : OptionsOf E d cfg evo) :
    (arg = none → "par_config" ∉ d.keys → create E d arg = (evo, .error .keyError)) ∧
      (∀ pc evp, ParOf E d arg pc evp → "likelihoods" ∉ d.keys → create E d arg = (evo ++ evp, .error .keyError)) := by
  have h1 := (readOptions_ok E d cfg evo).2 ho
  constructor
  · rintro rfl hp
    simp [create, h1, andThen, readPar, PyDict.getItem, get?_none d _ hp, quiet]
  · intro pc evp hpar hl
    simp [create, h1, andThen, (readPar_ok E d arg pc evp).2 hpar, PyDict.getItem, get?_none d _ hl, quiet]

/-- **C107 does not hold for `copy_parameters`.** The documentation does not list it, but a likelihood without it is a KeyError. -/
theorem C107_copy_parameters_needed (E : Env) (d cfg : PyDict String Val) (arg : Option (PyDict String Val)) (pc pc' : PyDict String Val)
    (evo evp : List Event) (ho : OptionsOf E d cfg evo) (hp : ParOf E d arg pc evp) (pre post : PyDict String Val) (n : String) (ld : PyDict String Val)
    (hl : d.get? "likelihoods" = some (.dict (pre ++ (n, .dict ld) :: post))) (hpre : updatePar pc (.dict pre) = .ok pc')
    (hmiss : "copy_parameters" ∉ ld.keys) : create E d arg = (evo ++ evp, .error .keyError) := by
  have h1 := (readOptions_ok E d cfg evo).2 ho
  have h2 := (readPar_ok E d arg pc evp).2 hp
  have h3 : updatePar pc (.dict (pre ++ (n, .dict ld) :: post)) = .error .keyError := by
    simp only [updatePar, Val.items, bind, Except.bind, parLoop_append] at hpre ⊢
    cases hq : parLoop pc [] [] pre with
    | error e => rw [hq] at hpre; cases hpre
    | ok x => simp [parLoop, Val.item, PyDict.getItem, get?_none ld _ hmiss, bind, Except.bind]
  simp [create, h1, h2, andThen, PyDict.getItem, hl, quiet, h3]

/-- **C107, refused likelihoods.** A likelihood of an unknown type, one with an item `name`, and one without an item of its class are
refused after the likelihoods before it were made, and nothing is done for it. -/
theorem C107_refused (E : Env) (d cfg : PyDict String Val) (arg : Option (PyDict String Val)) (pc pc' : PyDict String Val)
    (evo evp : List Event) (ho : OptionsOf E d cfg evo) (hp : ParOf E d arg pc evp) (pre post : PyDict String Val) (n : String) (ld : PyDict String Val)
    (hl : d.get? "likelihoods" = some (.dict (pre ++ (n, .dict ld) :: post))) (hu : updatePar pc (.dict (pre ++ (n, .dict ld) :: post)) = .ok pc')
    (hpar : E.parameter pc' = .ok ()) (hnd : (pre.keys ++ [n]).Nodup) (evss : List (List Event)) (hpre : List.Forall₂ (LikelihoodOf E) pre evss)
    (e : PyErr) (href : Refused E ld e) : create E d arg = (evo ++ evp ++ [.parameter pc'] ++ evss.flatten, .error e) := by
  have h1 := (readOptions_ok E d cfg evo).2 ho
  have h2 := (readPar_ok E d arg pc evp).2 hp
  rw [List.nodup_append] at hnd
  have hn : n ∉ pre.keys := fun h => hnd.2.2 n h n (by simp) rfl
  have h4 := likelihoodLoop_append E [] pre ((n, .dict ld) :: post) evss (by simp) hnd.1 hpre
  have h5 := registerLikelihood_refused E ([] ++ pre.keys) n ld e (by simpa using hn) href
  simp only [likelihoodLoop, h5, andThen, List.append_nil] at h4
  simp [create, h1, h2, andThen, PyDict.getItem, hl, quiet, hu, hpar, Val.items, h4]

/-- **C107, refused components.** A component of an unknown class, or without class, is refused after everything before it was made. -/
theorem C107_component_refused (E : Env) (d cfg : PyDict String Val) (arg : Option (PyDict String Val)) (pc pc' : PyDict String Val)
    (evo evp : List Event) (ho : OptionsOf E d cfg evo) (hp : ParOf E d arg pc evp) (pre post : PyDict String Val) (n : String) (ld : PyDict String Val)
    (hl : d.get? "likelihoods" = some (.dict (pre ++ (n, .dict ld) :: post))) (hu : updatePar pc (.dict (pre ++ (n, .dict ld) :: post)) = .ok pc')
    (hpar : E.parameter pc' = .ok ()) (hnd : (pre.keys ++ [n]).Nodup) (evss : List (List Event)) (hpre : List.Forall₂ (LikelihoodOf E) pre evss)
    (a : Attr) (it : LItems) (hname : "name" ∉ ld.keys) (hself : "self" ∉ ld.keys) (hc : ClassOf E ld a) (hi : ItemsOf ld a it)
    (hmade : E.likelihood n it = .ok ()) (cpre cpost : PyDict String Val) (k : String) (v : Val) (evc : List Event)
    (hcomp : ld.get? "components" = some (.dict (cpre ++ (k, v) :: cpost))) (hcpre : CompsOf E n cpre evc)
    (e : PyErr) (href : CompRefused E v e) :
    create E d arg = (evo ++ evp ++ [.parameter pc'] ++ evss.flatten ++ [.likelihood n it] ++ evc, .error e) := by
  have h1 := (readOptions_ok E d cfg evo).2 ho
  have h2 := (readPar_ok E d arg pc evp).2 hp
  rw [List.nodup_append] at hnd
  have hn : n ∉ pre.keys := fun h => hnd.2.2 n h n (by simp) rfl
  have h4 := likelihoodLoop_append E [] pre ((n, .dict ld) :: post) evss (by simp) hnd.1 hpre
  have h5 := (registerLikelihood_ok E ([] ++ pre.keys) n (.dict ld) [.likelihood n it]).2
    ⟨by simpa using hn, ld, a, it, rfl, hname, hself, hc, hi, hmade, rfl⟩
  have h6 : (Val.item (.dict ld) "components" >>= Val.items) = .ok (cpre ++ (k, v) :: cpost) := by
    rw [bind_ok]
    exact ⟨_, (getItem_ok _ _ _).2 hcomp, rfl⟩
  have h7 := compLoop_append E n cpre ((k, v) :: cpost) evc hcpre
  simp only [compLoop, readComponent_refused E v e href, quiet, andThen, List.append_nil] at h7
  simp only [List.nil_append] at h5
  simp only [List.nil_append, likelihoodLoop, h5, h6, h7, quiet, andThen] at h4
  simp [create, h1, h2, andThen, PyDict.getItem, hl, quiet, hu, hpar, Val.items, h4]

/-- **C107 does not hold for refused instructions.** An instruction that is refused later has already set its options, and its
`url_base` even if `configs` is refused. -/
theorem C107_refused_sets_options (E : Env) (d : PyDict String Val) (arg : Option (PyDict String Val)) :
    (∀ cfg evo, OptionsOf E d cfg evo → ∃ rest, (create E d arg).1 = evo ++ rest) ∧
      (∀ u, d.get? "url_base" = some u → ∃ rest, (create E d arg).1 = .options [("url_base", u)] :: rest) := by
  constructor
  · intro cfg evo h
    obtain ⟨rest, hr⟩ := andThen_prefix (readOptions E d) (fun cfg =>
      andThen (readPar E d arg) fun pc =>
      andThen (quiet (d.getItem "likelihoods")) fun ls =>
        andThen (quiet (updatePar pc ls)) fun pc =>
          andThen ([.parameter pc], E.parameter pc) fun _ =>
            andThen (quiet ls.items) fun l =>
              andThen (likelihoodLoop E [] l) fun _ => quiet (.ok ({ config := cfg, backend := d.get? "backend_h5", parConfig := pc } : Made)))
    exact ⟨rest, by unfold create; rw [hr, (readOptions_ok E d cfg evo).2 h]⟩
  · intro u hu
    obtain ⟨r1, h1⟩ := andThen_prefix (readOptions E d) (fun cfg =>
      andThen (readPar E d arg) fun pc =>
      andThen (quiet (d.getItem "likelihoods")) fun ls =>
        andThen (quiet (updatePar pc ls)) fun pc =>
          andThen ([.parameter pc], E.parameter pc) fun _ =>
            andThen (quiet ls.items) fun l =>
              andThen (likelihoodLoop E [] l) fun _ => quiet (.ok ({ config := cfg, backend := d.get? "backend_h5", parConfig := pc } : Made)))
    have h2 : ∃ r2, (readOptions E d).1 = .options [("url_base", u)] :: r2 := by
      unfold readOptions
      rw [hu]
      exact andThen_prefix _ _
    obtain ⟨r2, h2⟩ := h2
    exact ⟨r2 ++ r1, by unfold create; rw [h1, h2]; rfl⟩

/-! ### Examples -/

/-- A session in which every file holds two rates, with the likelihood classes and two component classes. -/
def exEnv : Env where
  loadJson := fun _ => .ok (.dict [("er_rate", .int 1), ("ac_rate", .int 2)])
  apt := fun t => if t = "Likelihood" then some .likelihood else if t = "LikelihoodLit" then some .lit else if t = "Context" then some .other else none
  components := fun s => s = "ERBand" || s = "AC"
  setOptions := fun _ => .ok ()
  parameter := fun _ => .ok ()
  likelihood := fun _ _ => .ok ()
  component := fun _ _ _ => .ok ()

/-- The likelihood of the documentation, with any further items. -/
def exLlh (more : PyDict String Val) : PyDict String Val :=
  [("components", .dict [("rn220_er", .str "ERBand"), ("rn220_ac", .dict [("component_cls", .str "AC"), ("file_name", .str "AC_Rn220.pkl")])]),
   ("copy_parameters", .dict [("rn220_er_rate", .str "er_rate"), ("rn220_ac_rate", .str "ac_rate")]),
   ("data_file_name", .str "data_Rn220.csv"), ("bins_type", .str "equiprob"), ("bins_on", .list [.str "cs1", .str "cs2"]),
   ("bins", .list [.int 15, .int 15])] ++ more

def exInstr (more : PyDict String Val) : PyDict String Val :=
  [("likelihoods", .dict [("rn220_llh", .dict (exLlh more))]), ("par_config", .str "er.json")]

/-- It is accepted, without `configs`, and makes one likelihood with two components. -/
example : ∃ m, (create exEnv (exInstr []) none).2 = .ok m ∧ PyDict.keys m.parConfig = ["rn220_er_rate", "rn220_ac_rate"] ∧
    (create exEnv (exInstr []) none).1.length = 6 := ⟨_, rfl, rfl, rfl⟩

/-- A misspelt `x_clp` does not matter, an unknown type and an item `name` do. -/
example : create exEnv (exInstr [("x_clp", .list [.int 0, .int 100])]) none = create exEnv (exInstr []) none :=
  C107_misspelt_ignored _ _ _ _ rfl
example : (create exEnv (exInstr [("type", .str "Likelyhood")]) none).2 = .error .attributeError := rfl
example : (create exEnv (exInstr [("type", .str "Context")]) none).2 = .error .typeError := rfl
example : (create exEnv (exInstr [("name", .str "rn220")]) none).2 = .error .typeError := rfl
example : Refused exEnv (exLlh [("type", .str "Likelyhood")]) .attributeError := .unknownType rfl rfl
example : Refused exEnv (exLlh [("type", .str "LikelihoodLit")]) .keyError :=
  .lit (.inr ⟨_, rfl, rfl⟩) (by decide) (by decide) ⟨"logpdf_args", by decide, by decide⟩
example : CompRefused exEnv (.dict [("component_class", .str "AC")]) .keyError := .noClass (by decide)

/-- A likelihood without `copy_parameters`; the options are set nevertheless. -/
example : create exEnv [("configs", .dict [("g1", .int 1)]), ("likelihoods", .dict [("a", .dict [("components", .dict [])])]), ("par_config", .str "er.json")] none
    = ([.options [("g1", .int 1)], .file (.str "er.json")], .error .keyError) := rfl

/-- **C107 (copied parameters).** The parameters a context is made with are those of C41: what `copy_parameters` names is copied and its sources are
dropped, unless they are rates. -/
theorem C107_copies (pc : PyDict String Val) (ls : List (String × Val)) (is : List Ctx.CopyInstr) (h : List.Forall₂ CopiesOf ls is) :
    updatePar pc (.dict ls) = (Ctx.updateParameterConfig is pc).map Prod.fst := by
  have := parLoop_ctx ls is h { parConfig := pc }
  simp only [updatePar, Val.items, Ctx.updateParameterConfig, bind, Except.bind, pure, Except.pure]
  simp only at this
  rw [this]
  cases Ctx.likelihoodLoop is { parConfig := pc } with
  | error e => rfl
  | ok s =>
    simp only [Except.map]
    congr 2
    funext pc p
    unfold Ctx.dropStep
    by_cases h1 : p ∈ s.rates
    · simp [h1]
    · by_cases h2 : pc.has p = true
      · simp [h1, h2]
      · rw [if_neg h1, if_neg (fun h => h2 h.2)]
        exact PyDict.del_of_not_mem pc p (fun hm => h2 ((PyDict.has_iff pc p).2 hm))

/-- The rate of the component `er` is kept though it is a source; the other source is dropped. -/
example : updatePar [("er_rate", .int 1), ("g", .int 2)] (.dict [("l", .dict [("components", .dict [("er", .str "ERBand")]),
      ("copy_parameters", .dict [("a_rate", .str "er_rate"), ("g_l", .str "g")])])]) =
    .ok [("er_rate", .int 1), ("a_rate", .int 1), ("g_l", .int 2)] := by
  rw [C107_copies _ _ [⟨some [("a_rate", "er_rate"), ("g_l", "g")], ["er"]⟩] (by
    refine .cons ⟨_, [("a_rate", "er_rate"), ("g_l", "g")], _, rfl, rfl, rfl, rfl, rfl⟩ .nil)]
  rfl

end Verif.Instr
