/-
Property theorems C106: several contexts in one session.
-/
import Verif.Lemmas.Contexts
import Verif.Props.Register

namespace Verif.Llh
open Verif Comp

section
variable {K V : Type}

/-- The simulators of the package depend on the code of a component, not on where the code is kept. -/
theorem C106_setup_portable {K : Type} (S : Setup K) : Portable S.wrap := fun _ _ => rfl

/-- **C106 (independence).** A context whose likelihoods have names that no other context of the session used for a simulated
likelihood is made exactly as in a fresh session: the same exception, or the same likelihoods.  The contexts made before stay. -/
theorem C106_independent (s0 : Sess K V) (h0 : s0.cache.cache = []) (ops : List (SOp K V)) (hc : SOp.clear ∉ ops) (hp : AllPortable ops)
    (c : CSpec K V) (hcp : c.Portable)
    (hfree : ∀ c', SOp.make c' ∈ ops → ∀ l' ∈ c'.likelihoods, l'.Simulates → ∀ l ∈ c.likelihoods, l.llh ≠ l'.llh) :
    (sessStep (sessRun s0 ops) (.make c)).2 = (sessStep ({} : Sess K V) (.make c)).2 ∧
    (sessStep (sessRun s0 ops) (.make c)).1.contexts = (sessRun s0 ops).contexts ++ (sessStep ({} : Sess K V) (.make c)).1.contexts := by
  have hs := buildAll_same c.likelihoods hcp [] (sessRun s0 ops).cache {} (by
    intro l hl
    constructor
    · intro h
      rcases (sessRun_keys s0 ops hc hp l.llh).2 h with h | ⟨c', h1, l', h2, h3, h4⟩
      · rw [h0] at h; simp [PyDict.keys] at h
      · exact absurd h3.symm (hfree c' h1 l' h2 h4 l hl)
    · intro h; simp [PyDict.keys] at h)
  simp only [sessStep, makeContext]
  cases c.before with
  | error e => simp
  | ok u =>
    simp only
    generalize buildAll c.likelihoods ([], (sessRun s0 ops).cache) = x at *
    generalize buildAll c.likelihoods ([], ({} : Sess K V).cache) = y at *
    obtain ⟨⟨b1, g1⟩, r1⟩ := x
    obtain ⟨⟨b2, g2⟩, r2⟩ := y
    obtain ⟨h1, h2⟩ := hs
    simp only at h1 h2
    subst h1 h2
    cases r1 <;> simp

/-- **C106 (what is made).** A context is only made if nothing failed: its likelihoods have different names, each could be
constructed and each of its components registered; it then holds the likelihoods and, in each, the components of the instruction, in
their order. -/
theorem C106_made (s : Sess K V) (c : CSpec K V) (h : (sessStep s (.make c)).2 = .ok ()) :
    c.before = .ok () ∧ (c.likelihoods.map LSpec.llh).Nodup ∧ (∀ l ∈ c.likelihoods, l.made = .ok ()) ∧
    ∃ ctx, (sessStep s (.make c)).1.contexts = s.contexts ++ [ctx] ∧ ctx.keys = c.likelihoods.map LSpec.llh ∧
      ∀ l ∈ c.likelihoods, ∃ (st : State K V) (rs : List (Reg K V)),
        ctx.get? l.llh = some st ∧ l.parts = rs.map .ok ∧ st.components.keys = rs.map Reg.comp := by
  simp only [sessStep, makeContext] at h ⊢
  cases hb : c.before with
  | error e => rw [hb] at h; cases h
  | ok u =>
    rw [hb] at h
    cases hx : buildAll c.likelihoods ([], s.cache) with
    | mk bg r =>
      obtain ⟨b, g⟩ := bg
      simp only [hx] at h ⊢
      cases r with
      | error e => cases h
      | ok u =>
        obtain ⟨h1, h2, h3, _, h5⟩ := buildAll_made _ _ _ _ _ (by simp [PyDict.keys]) hx
        have hk : PyDict.keys b = c.likelihoods.map LSpec.llh := by simpa [PyDict.keys] using h1
        exact ⟨trivial, hk ▸ h2, h3, b, rfl, hk, h5⟩

/-- **C106 (what is not made).** If the constructor raises, the session has no further context. -/
theorem C106_not_made (s : Sess K V) (c : CSpec K V) (e : PyErr) (h : (sessStep s (.make c)).2 = .error e) :
    (sessStep s (.make c)).1.contexts = s.contexts := by
  simp only [sessStep] at h ⊢
  cases hx : makeContext c s.cache with
  | mk g r =>
    rw [hx] at h
    cases r with
    | error e => rfl
    | ok b => cases h

/-- **C106 (after clear_cache).** After `clear_cache` every context is made as in a fresh session. -/
theorem C106_clear (s : Sess K V) (c : CSpec K V) (hcp : c.Portable) :
    (sessStep (sessStep s .clear).1 (.make c)).2 = (sessStep ({} : Sess K V) (.make c)).2 :=
  (C106_independent (sessStep s .clear).1 rfl [] (by simp) (fun _ h => by simp at h) c hcp (fun _ h => by simp at h)).1

/-- **C106 does not hold for one name.** Once a context with a simulated likelihood was made, no other context with a simulated
likelihood of that name can be made in the session, whatever happens in between, unless the cache is cleared. -/
theorem C106_name_taken (s : Sess K V) (c : CSpec K V) (hcp : c.Portable) (hok : (sessStep s (.make c)).2 = .ok ())
    (ops : List (SOp K V)) (hc : SOp.clear ∉ ops) (hp : AllPortable ops)
    (c' : CSpec K V) (hcp' : c'.Portable) (l l' : LSpec K V) (hl : l ∈ c.likelihoods) (hl' : l' ∈ c'.likelihoods) (hn : l'.llh = l.llh)
    (hs : l.Simulates) (hs' : l'.Simulates) :
    (sessStep (sessRun (sessStep s (.make c)).1 ops) (.make c')).2 ≠ .ok () := by
  have htaken : l.llh ∈ (sessStep s (.make c)).1.cache.cache.keys := by
    have ht := fun h => (buildAll_takes c.likelihoods hcp [] s.cache h l hl hs).2
    simp only [sessStep, makeContext] at hok ⊢
    cases hb : c.before with
    | error e => rw [hb] at hok; cases hok
    | ok u =>
      rw [hb] at hok
      simp only at hok ⊢
      generalize buildAll c.likelihoods ([], s.cache) = x at *
      obtain ⟨⟨b1, g1⟩, r1⟩ := x
      cases r1 with
      | error e => cases hok
      | ok u => exact ht rfl
  have hlater := (sessRun_keys _ ops hc hp l.llh).1 htaken
  intro hok2
  generalize sessRun (sessStep s (.make c)).1 ops = t at *
  have ht := fun h => (buildAll_takes c'.likelihoods hcp' [] t.cache h l' hl' hs').1
  simp only [sessStep, makeContext] at hok2
  cases hb : c'.before with
  | error e => rw [hb] at hok2; cases hok2
  | ok u =>
    rw [hb] at hok2
    simp only at hok2
    generalize buildAll c'.likelihoods ([], t.cache) = x at *
    obtain ⟨⟨b1, g1⟩, r1⟩ := x
    cases r1 with
    | error e => cases hok2
    | ok u => exact ht rfl (by rw [hn]; exact hlater)

/-- **C106 does not hold for the same instruction.** Making a context twice, or restoring it from its backend in the session that
fitted it, raises RuntimeError if it simulates anything. -/
theorem C106_again_refused (s : Sess K V) (c : CSpec K V) (hcp : c.Portable) (hok : (sessStep s (.make c)).2 = .ok ())
    (hsim : ∃ l ∈ c.likelihoods, l.Simulates) (ops : List (SOp K V)) (hc : SOp.clear ∉ ops) (hp : AllPortable ops) :
    (sessStep (sessRun (sessStep s (.make c)).1 ops) (.make c)).2 = .error .runtimeError := by
  simp only [sessStep, makeContext] at hok ⊢
  cases hb : c.before with
  | error e => rw [hb] at hok; cases hok
  | ok u =>
    rw [hb] at hok
    simp only at hok ⊢
    have ht := fun h l hl hs => (buildAll_takes c.likelihoods hcp [] s.cache h l hl hs).2
    have hag := fun g' h1 h2 => buildAll_again c.likelihoods hcp [] s.cache g' h1 hsim h2
    generalize buildAll c.likelihoods ([], s.cache) = x at *
    obtain ⟨⟨b1, g1⟩, r1⟩ := x
    cases r1 with
    | error e => cases hok
    | ok u =>
      simp only
      have := hag (sessRun ⟨s.contexts ++ [b1], g1⟩ ops).cache rfl
        (fun l hl hs => (sessRun_keys _ ops hc hp l.llh).1 (ht rfl l hl hs))
      generalize buildAll c.likelihoods ([], (sessRun ⟨s.contexts ++ [b1], g1⟩ ops).cache) = y at *
      obtain ⟨⟨b2, g2⟩, r2⟩ := y
      simp only at this
      subst this
      rfl

/-- **C106 does not hold after a failure.** If an instruction fails after some of its likelihoods were completed, the context is not
made but the names of these likelihoods are taken: the corrected instruction is refused as well. -/
theorem C106_failure_takes_names (s : Sess K V) (c : CSpec K V) (hcp : c.Portable) (done rest : List (LSpec K V))
    (hd : c.likelihoods = done ++ rest) (hok : (sessStep s (.make { c with likelihoods := done })).2 = .ok ())
    (ops : List (SOp K V)) (hc : SOp.clear ∉ ops) (hp : AllPortable ops)
    (c' : CSpec K V) (hcp' : c'.Portable) (l l' : LSpec K V) (hl : l ∈ done) (hl' : l' ∈ c'.likelihoods) (hn : l'.llh = l.llh)
    (hs : l.Simulates) (hs' : l'.Simulates) :
    (sessStep (sessRun (sessStep s (.make c)).1 ops) (.make c')).2 ≠ .ok () := by
  have hw1 : ∀ l ∈ done, Portable l.wrap := fun l hl => hcp l (by rw [hd]; exact List.mem_append_left _ hl)
  have hw2 : ∀ l ∈ rest, Portable l.wrap := fun l hl => hcp l (by rw [hd]; exact List.mem_append_right _ hl)
  have htaken : l.llh ∈ (sessStep s (.make c)).1.cache.cache.keys := by
    simp only [sessStep, makeContext] at hok ⊢
    cases hb : c.before with
    | error e => rw [hb] at hok; cases hok
    | ok u =>
      rw [hb] at hok
      simp only at hok ⊢
      have hok1 : (buildAll done ([], s.cache)).2 = .ok () := by
        generalize buildAll done ([], s.cache) = x at *
        obtain ⟨⟨b1, g1⟩, r1⟩ := x
        cases r1 with
        | error e => cases hok
        | ok u => rfl
      have ht := (buildAll_takes done hw1 [] s.cache hok1 l hl hs).2
      have hk := (buildAll_keys rest hw2 (buildAll done ([], s.cache)).1.1 (buildAll done ([], s.cache)).1.2 l.llh).1 ht
      rw [hd, buildAll_append done rest _ hok1]
      generalize buildAll rest (buildAll done ([], s.cache)).1 = y at *
      obtain ⟨⟨b1, g1⟩, r1⟩ := y
      cases r1 <;> exact hk
  have hlater := (sessRun_keys _ ops hc hp l.llh).1 htaken
  intro hok2
  generalize sessRun (sessStep s (.make c)).1 ops = t at *
  have ht := fun h => (buildAll_takes c'.likelihoods hcp' [] t.cache h l' hl' hs').1
  simp only [sessStep, makeContext] at hok2
  cases hb : c'.before with
  | error e => rw [hb] at hok2; cases hok2
  | ok u =>
    rw [hb] at hok2
    simp only at hok2
    generalize buildAll c'.likelihoods ([], t.cache) = x at *
    obtain ⟨⟨b1, g1⟩, r1⟩ := x
    cases r1 with
    | error e => cases hok2
    | ok u => exact ht rfl (by rw [hn]; exact hlater)

/-- **C106 (no simulation).** A context of fixed components only takes no names and can be made as often as one likes, with the same
result as in a fresh session. -/
theorem C106_fixed_again (s : Sess K V) (c : CSpec K V) (hno : ∀ l ∈ c.likelihoods, ¬ l.Simulates) :
    (sessStep s (.make c)).1.cache = s.cache ∧ (sessStep s (.make c)).2 = (sessStep ({} : Sess K V) (.make c)).2 ∧
    (sessStep s (.make c)).1.contexts = s.contexts ++ (sessStep ({} : Sess K V) (.make c)).1.contexts := by
  have hs := buildAll_fixed c.likelihoods hno [] s.cache {}
  simp only [sessStep, makeContext]
  cases c.before with
  | error e => simp
  | ok u =>
    simp only
    generalize buildAll c.likelihoods ([], s.cache) = x at *
    generalize buildAll c.likelihoods ([], ({} : Sess K V).cache) = y at *
    obtain ⟨⟨b1, g1⟩, r1⟩ := x
    obtain ⟨⟨b2, g2⟩, r2⟩ := y
    obtain ⟨h0, h1, h2⟩ := hs
    simp only at h0 h1 h2
    subst h0 h1 h2
    cases r1 <;> simp

end

/-- A likelihood for the examples: the electronic recoil example of `Props/Component.lean`, or nothing simulated. -/
def exLSpec (name : String) (made : Res Unit) (parts : List (Reg Unit Nat)) : LSpec Unit Nat :=
  { llh := name, binsOn := ["c"], al := [], wrap := fun c => .other c.needed, made := made, parts := parts.map .ok }

def exFixed : Reg Unit Nat := .fixed "ac" (.ok (.other ["ac_rate"]))

/-- Two likelihoods, the second of which may be refused by its constructor. -/
def exCSpec (made : Res Unit) : CSpec Unit Nat := ⟨.ok (), [exLSpec "sci" (.ok ()) [exSim "er"], exLSpec "cal" made [exFixed]]⟩

/-- What succeeded, and the names of the likelihoods of each context. -/
def exOutcome (ops : List (SOp Unit Nat)) : List (List String) := (sessRun ({} : Sess Unit Nat) ops).contexts.map PyDict.keys

/-- Non-vacuity of C106: the contexts are portable and the first is made. -/
example : (exCSpec (.ok ())).Portable ∧ (sessStep ({} : Sess Unit Nat) (.make (exCSpec (.ok ())))).2 = .ok () ∧
    (exLSpec "sci" (.ok ()) [exSim "er"]).Simulates ∧ ¬ (exLSpec "cal" (.ok ()) [exFixed]).Simulates := by
  refine ⟨?_, by decide +kernel, ⟨_, List.mem_singleton.2 rfl⟩, ?_⟩
  · intro l hl c t
    simp only [exCSpec, List.mem_cons, List.not_mem_nil, or_false] at hl
    rcases hl with rfl | rfl <;> rfl
  · rintro ⟨a, ha⟩
    simp [exLSpec, exFixed] at ha

/-- The context is made once, then refused; after `clear_cache` it is made again; another name is no obstacle. -/
example : exOutcome [.make (exCSpec (.ok ())), .make (exCSpec (.ok ()))] = [["sci", "cal"]] ∧
    exOutcome [.make (exCSpec (.ok ())), .clear, .make (exCSpec (.ok ()))] = [["sci", "cal"], ["sci", "cal"]] ∧
    exOutcome [.make (exCSpec (.ok ())), .make ⟨.ok (), [exLSpec "sci2" (.ok ()) [exSim "er"]]⟩] = [["sci", "cal"], ["sci2"]] := by
  decide +kernel

/-- A binning of the second likelihood is wrong and then corrected: the corrected instruction is refused
with RuntimeError, although it is made in a fresh
session. -/
theorem C106_corrected_instruction_refused :
    let s := sessStep ({} : Sess Unit Nat) (.make (exCSpec (.error .valueError)))
    s.2 = .error .valueError ∧ (sessStep s.1 (.make (exCSpec (.ok ())))).2 = .error .runtimeError ∧
    (sessStep ({} : Sess Unit Nat) (.make (exCSpec (.ok ())))).2 = .ok () := by
  decide +kernel

end Verif.Llh
