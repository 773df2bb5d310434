/-
C87: the template a user gets after a fit is the sample the fit used at the best parameters.
-/
import Verif.Lemmas.Template
import Verif.Props.Likelihood

namespace Verif.Llh
open Verif Comp

variable {K I : Type}

/-- The function of a plugin reads the parameters it declares and no others. -/
def ReadsDeclared (sem : PyDict String ℝ → Plugin → K → List PVal → Res (K × List PVal)) : Prop :=
  ∀ q q' p, (∀ n ∈ p.parameters, q.get? n = q'.get? n) → sem q p = sem q' p

/-- No parameter of the plugins a component runs is the name or the target of an alias. -/
def NoAlias (S : Setup K) (code : Code) : Prop :=
  ∀ w ∈ code.works, ∀ p, S.ns.get? w.name = some p → ∀ n ∈ p.parameters, n ∉ S.al.keys ∧ n ∉ S.al.map Prod.snd

/-- **C87 (partial).** Let `q` be the best parameters of the fit.  If no parameter of the component is touched by an alias, the template is
the sample of which the likelihood makes the histogram of this component at `q`, with the same key and batch size.  Missing: components
with aliased parameters; see `C87_alias_missing` and `C87_alias_wrong`. -/
theorem C87_template_partial (odd : K → Int → PyDict String XF → Res (K × List (List ℝ))) (med : List (List XF) → List XF)
    (w w' : Fit.World I) (q : PyDict String ℝ) (hpost : Fit.getPost med w .mpe = (w', .ok (floats q)))
    (ls : PyDict String (TLike K)) (llh comp : String) (l : TLike K) (c : Comp.Comp) (code : Code)
    (hl : ls.get? llh = some l) (hc : l.comps.get? comp = some (some c)) (hcode : c.simulate = some code)
    (hal : PlainAliases l.setup.al) (hsem : ReadsDeclared l.setup.sem) (hno : NoAlias l.setup code)
    (key key' : K) (batch : Int) (g : Grid XF)
    (hfit : Runs batch (replaceAlias l.setup.al (floats q)) [(comp, l.setup.wrap c)] key [g] key') :
    ∃ cols rate h, getTemplate odd med w ls llh comp batch key = (w', .ok cols) ∧
      (replaceAlias l.setup.al q).get? c.rateName = some rate ∧
      simulateHist (l.setup.cfg c.name) c.forceNoEff cols rate batch = .ok h ∧ g = gridFloats h := by
  rw [floats_alias] at hfit
  have hrun : l.setup.run c key batch (replaceAlias l.setup.al q) = l.setup.run c key batch q := by
    unfold Setup.run
    rw [hcode]
    simp only
    rw [code_run_congr code l.setup.ns _ (l.setup.sem q) (fun v hv p hp => hsem _ _ p (fun n hn =>
      C36_other_parameters_kept _ hal q n (hno v hv p hp n hn).1 (hno v hv p hp n hn).2))]
  cases hfit with
  | sim h1 h2 =>
    simp only [reals_floats, hrun] at h1
    cases hr : l.setup.run c key batch q with
    | error e => rw [hr] at h1; cases h1
    | ok r =>
      rw [hr] at h1
      simp only [Bind.bind, Except.bind, Pure.pure, Except.pure, Except.map, PyDict.getItem] at h1
      cases hg : (replaceAlias l.setup.al q).get? c.rateName with
      | none => rw [hg] at h1; cases h1
      | some rate =>
        rw [hg] at h1
        simp only at h1
        cases hh : simulateHist (l.setup.cfg c.name) c.forceNoEff r.2 rate batch with
        | error e => rw [hh] at h1; cases h1
        | ok h =>
          rw [hh] at h1
          cases h1
          refine ⟨r.2, rate, h, ?_, rfl, hh, rfl⟩
          unfold getTemplate
          rw [hpost]
          simp only [PyDict.getItem, hl, hc, TLike.simulate, reals_floats, hr, Bind.bind, Except.bind, Pure.pure, Except.pure]

/-- **C87 (refused).** Before a fit, for an unknown likelihood or component and for a fixed component there is no template: the
exceptions are those of the posterior, `KeyError` and `AttributeError`. -/
theorem C87_errors (odd : K → Int → PyDict String XF → Res (K × List (List ℝ))) (med : List (List XF) → List XF)
    (w : Fit.World I) (ls : PyDict String (TLike K)) (llh comp : String) (batch : Int) (key : K) :
    (∀ w' e, Fit.getPost med w .mpe = (w', .error e) → getTemplate odd med w ls llh comp batch key = (w', .error e)) ∧
    ∀ w' p, Fit.getPost med w .mpe = (w', .ok p) →
      (ls.get? llh = none → getTemplate odd med w ls llh comp batch key = (w', .error .keyError)) ∧
      ∀ l, ls.get? llh = some l →
        (l.comps.get? comp = none → getTemplate odd med w ls llh comp batch key = (w', .error .keyError)) ∧
        (l.comps.get? comp = some none → getTemplate odd med w ls llh comp batch key = (w', .error .attributeError)) := by
  refine ⟨fun w' e h => by unfold getTemplate; rw [h], fun w' p h => ⟨fun h1 => ?_, fun l h1 => ⟨fun h2 => ?_, fun h2 => ?_⟩⟩⟩
  · unfold getTemplate; rw [h]; simp only [PyDict.getItem, h1, Bind.bind, Except.bind]
  · unfold getTemplate; rw [h]; simp only [PyDict.getItem, h1, h2, Bind.bind, Except.bind]
  · unfold getTemplate; rw [h]; simp only [PyDict.getItem, h1, h2, Bind.bind, Except.bind]

/-! A likelihood with one plugin, whose signal is the parameter `g1`; the fit gives it as `g1_a`. -/

def tSignal : Plugin := ⟨"Signal", ["cs1", "eff"], ["batch_size"], ["g1"], []⟩

noncomputable def tSetup (al : PyDict String String) : Setup Nat where
  llh := "llh"
  binsOn := ["cs1"]
  al := al
  cfg := fun _ => { bins := .irreg1 [0, 4, 8], normType := "on_pdf", addEps := false, energy := .simulated, nSelected := 1 }
  ns := [("Signal", tSignal)]
  sem := fun q p key _ =>
    if p.parameters = ["g1"] then do
      let g1 ← q.getItem "g1"
      return (key, [.col [g1], .col [1]])
    else .error .keyError
  odd := fun k _ _ => .ok (k, [])
  oddFixed := fun _ => .ok []

def tCode : Code := ⟨"simulate", "batch_size", [Work.ofPlugin tSignal], ["cs1", "eff"], "er", "llh_er"⟩

def tComp : Comp.Comp where
  name := "er"
  llhName := "llh_er"
  rateName := "er_rate"
  registry := [("cs1", tSignal), ("eff", tSignal)]
  simulate := some tCode

noncomputable def tLikes (al : PyDict String String) : PyDict String (TLike Nat) := [("llh", ⟨tSetup al, [("er", some tComp), ("ac", none)]⟩)]

/-- A finished fit with one sample of the parameter `n`, and the other parameters. -/
def tWorld (n : String) (x : ℝ) (vals : PyDict String XF) : Fit.World Unit where
  ctx := { instruct := (), h5 := false, pm := { config := [], fixedNames := [], fitNames := [n], vals := vals }, sampler := true,
           mem := [[⟨[.fin x], .fin 0⟩]] }

theorem tPost (med : List (List XF) → List XF) (n : String) (x : ℝ) (vals : PyDict String XF) :
    Fit.getPost med (tWorld n x vals) .mpe = (Fit.cache (tWorld n x vals), .ok (vals.set n (.fin x))) := by
  unfold Fit.getPost
  have hp : Parameter.parameterFit (tWorld n x vals).ctx.pm = [n] := by simp [Parameter.parameterFit, tWorld]
  rw [if_neg (by simp [tWorld, Fit.iterations]), hp]
  rfl

theorem tReads (al : PyDict String String) : ReadsDeclared (tSetup al).sem := by
  intro q q' p h
  funext key args
  simp only [tSetup]
  split
  · rename_i hp
    simp only [PyDict.getItem, h "g1" (by simp [hp])]
  · rfl

theorem tSem (al : PyDict String String) (q : PyDict String ℝ) (key : Nat) (args : List PVal) :
    (tSetup al).sem q tSignal key args = match q.get? "g1" with
      | some x => .ok (key, [.col [x], .col [1]])
      | none => .error .keyError := by
  simp only [tSetup, tSignal, if_true, PyDict.getItem]
  cases q.get? "g1" <;> rfl

theorem tRun (al : PyDict String String) (key : Nat) (batch : Int) (q : PyDict String ℝ) :
    (tSetup al).run tComp key batch q = match q.get? "g1" with
      | some x => .ok (key, [[x], [1]])
      | none => .error .keyError := by
  have hi : instantiate (tSetup al).ns tCode.works = .ok [("Signal", tSignal)] := rfl
  have hw : runWorks [("Signal", tSignal)] ((tSetup al).sem q) tCode.works (key, [("batch_size", PVal.int batch)]) =
      match q.get? "g1" with
      | some x => .ok (key, [("batch_size", .int batch), ("cs1", .col [x]), ("eff", .col [1])])
      | none => .error .keyError := by
    have h1 : runWork [("Signal", tSignal)] ((tSetup al).sem q) (Work.ofPlugin tSignal) (key, [("batch_size", PVal.int batch)]) =
        match q.get? "g1" with
        | some x => .ok (key, [("batch_size", .int batch), ("cs1", .col [x]), ("eff", .col [1])])
        | none => .error .keyError := by
      have ha : ["batch_size"].mapM (readVar [("batch_size", PVal.int batch)]) = .ok [.int batch] := rfl
      have hg : PyDict.get? [("Signal", tSignal)] "Signal" = some tSignal := rfl
      simp only [runWork, Work.ofPlugin, tSignal] at ha hg ⊢
      have hs := tSem al q key [.int batch]
      simp only [tSignal] at hs
      simp only [hg, ha, bind, Except.bind, hs]
      cases q.get? "g1" <;> rfl
    have : tCode.works = [Work.ofPlugin tSignal] := rfl
    rw [this, runWorks, List.foldlM_cons, h1]
    cases q.get? "g1" <;> rfl
  have hn : tCode.nodep = "batch_size" := rfl
  simp only [Setup.run, tComp, Code.run, hi, bind, Except.bind, hn, hw]
  cases q.get? "g1" <;> rfl

/-- **C87 (violated).** The aliases of the likelihood are not applied.  With a parameter given under an alias only, the
fit runs and the template is a `KeyError`. -/
theorem C87_alias_missing (odd : Nat → Int → PyDict String XF → Res (Nat × List (List ℝ))) (med : List (List XF) → List XF)
    (key : Nat) (batch : Int) :
    PlainAliases (tSetup [("g1_a", "g1")]).al ∧
    (∃ w', Fit.getPost med (tWorld "g1_a" 3 [("er_rate", .fin 1)]) .mpe = (w', .ok (floats [("er_rate", 1), ("g1_a", 3)]))) ∧
    (tSetup [("g1_a", "g1")]).run tComp key batch (replaceAlias [("g1_a", "g1")] [("er_rate", 1), ("g1_a", 3)]) = .ok (key, [[3], [1]]) ∧
    ∃ w', getTemplate odd med (tWorld "g1_a" 3 [("er_rate", .fin 1)]) (tLikes [("g1_a", "g1")]) "llh" "er" batch key = (w', .error .keyError) := by
  refine ⟨⟨by decide, by decide, by decide⟩, ⟨_, tPost _ _ _ _⟩, ?_, ⟨Fit.cache (tWorld "g1_a" 3 [("er_rate", .fin 1)]), ?_⟩⟩
  · rw [tRun]; rfl
  · have hr : (tSetup [("g1_a", "g1")]).run tComp key batch [("er_rate", 1), ("g1_a", 3)] = .error .keyError := by rw [tRun]; rfl
    unfold getTemplate
    rw [tPost]
    change (_, (do let r ← (tSetup [("g1_a", "g1")]).run tComp key batch [("er_rate", 1), ("g1_a", 3)]; return r.2)) = _
    rw [hr]
    rfl

/-- **C87 (violated).** With a parameter of that name in another likelihood, the template is silently made of the other
parameter: 5 instead of 3. -/
theorem C87_alias_wrong (odd : Nat → Int → PyDict String XF → Res (Nat × List (List ℝ))) (med : List (List XF) → List XF)
    (key : Nat) (batch : Int) :
    (∃ w', Fit.getPost med (tWorld "g1_a" 3 [("er_rate", .fin 1), ("g1", .fin 5)]) .mpe =
      (w', .ok (floats [("er_rate", 1), ("g1", 5), ("g1_a", 3)]))) ∧
    (tSetup [("g1_a", "g1")]).run tComp key batch (replaceAlias [("g1_a", "g1")] [("er_rate", 1), ("g1", 5), ("g1_a", 3)]) =
      .ok (key, [[3], [1]]) ∧
    ∃ w', getTemplate odd med (tWorld "g1_a" 3 [("er_rate", .fin 1), ("g1", .fin 5)]) (tLikes [("g1_a", "g1")]) "llh" "er" batch key =
      (w', .ok [[5], [1]]) := by
  refine ⟨⟨_, tPost _ _ _ _⟩, ?_, ⟨Fit.cache (tWorld "g1_a" 3 [("er_rate", .fin 1), ("g1", .fin 5)]), ?_⟩⟩
  · rw [tRun]; rfl
  · have hr : (tSetup [("g1_a", "g1")]).run tComp key batch [("er_rate", 1), ("g1", 5), ("g1_a", 3)] = .ok (key, [[5], [1]]) := by
      rw [tRun]; rfl
    unfold getTemplate
    rw [tPost]
    change (_, (do let r ← (tSetup [("g1_a", "g1")]).run tComp key batch [("er_rate", 1), ("g1", 5), ("g1_a", 3)]; return r.2)) = _
    rw [hr]
    rfl

/-- The hypotheses of `C87_template_partial` are met with an alias for the rate. -/
example (med : List (List XF) → List XF) (key : Nat) (batch : Int) :
    (∃ w', Fit.getPost med (tWorld "g1" 3 [("amount", .fin 2)]) .mpe = (w', .ok (floats [("amount", 2), ("g1", 3)]))) ∧
    PlainAliases (tSetup [("amount", "er_rate")]).al ∧ ReadsDeclared (tSetup [("amount", "er_rate")]).sem ∧
    NoAlias (tSetup [("amount", "er_rate")]) tCode ∧
    ∃ g, Runs batch (replaceAlias [("amount", "er_rate")] (floats [("amount", 2), ("g1", 3)]))
      [("er", (tSetup [("amount", "er_rate")]).wrap tComp)] key [g] key := by
  refine ⟨⟨_, tPost _ _ _ _⟩, ⟨by decide, by decide, by decide⟩, tReads _, ?_, ?_⟩
  · intro w hw p hp n hn
    have : w = Work.ofPlugin tSignal := by simpa [tCode] using hw
    subst this
    have : p = tSignal := by
      have : PyDict.get? [("Signal", tSignal)] "Signal" = some p := hp
      exact (Option.some.inj this).symm
    subst this
    have : n = "g1" := by simpa [tSignal] using hn
    subst this
    exact ⟨by decide, by decide⟩
  · have hr : (tSetup [("amount", "er_rate")]).run tComp key batch [("g1", 3), ("er_rate", 2)] = .ok (key, [[3], [1]]) := by
      rw [tRun]; rfl
    have hq : replaceAlias [("amount", "er_rate")] (floats [("amount", 2), ("g1", 3)]) = floats [("g1", 3), ("er_rate", 2)] := rfl
    rw [hq]
    obtain ⟨h, hh⟩ : ∃ h, simulateHist ((tSetup [("amount", "er_rate")]).cfg tComp.name) tComp.forceNoEff [[3], [1]] 2 (batch : ℝ) = .ok h :=
      ⟨_, rfl⟩
    refine ⟨gridFloats h, .sim ?_ (.nil key)⟩
    simp only [reals_floats, hr, Bind.bind, Except.bind]
    change Except.map _ (match simulateHist ((tSetup [("amount", "er_rate")]).cfg tComp.name) tComp.forceNoEff [[3], [1]] 2 (batch : ℝ) with
      | .error e => .error e
      | .ok v => .ok (key, v)) = _
    rw [hh]
    rfl

end Verif.Llh
