/-
Property theorems C158 about the files that maps are built from (config.py 203-216, 453-497).
-/
import Verif.Lemmas.Session
import Verif.Lemmas.Config

namespace Verif.Conf
open Verif

/-- **C158 (built).** A map that has been built holds the configured file, this file has been found and it could be loaded. -/
theorem C158_built (fs : FS) (cf : Conf) (llh : Option String) (c : Cache) (p : String) (h : (buildMap fs cf llh c).2 = .ok p) :
    valueFor (buildMap fs cf llh c).1 cf.name llh = some (.str p) ∧
    ∃ p', (getFilePath fs p (buildMap fs cf llh c).1).2 = .ok p' ∧ fs.loads p' = true := by
  refine ⟨Verif.Session.buildMap_valueFor fs cf llh c p h, ?_⟩
  unfold buildMap at h ⊢
  generalize resolve fs true cf llh c = g at *
  obtain ⟨c1, r⟩ := g
  cases r with
  | error e => cases h
  | ok a =>
    cases a with
    | str q =>
      simp only at h ⊢
      have hd := getFilePath_data fs q c1
      have hu := fun c2 (hc : c2.data = c1.data) => getFilePath_url fs q c2 c1 (by rw [hc])
      generalize hg : getFilePath fs q c1 = g at *
      obtain ⟨c2, r2⟩ := g
      cases r2 with
      | error e => cases h
      | ok p' =>
        simp only at h ⊢
        by_cases hl : fs.loads p' = true
        · rw [if_pos hl] at h ⊢
          cases h
          exact ⟨p', hu c2 hd, hl⟩
        · rw [if_neg hl] at h; cases h
    | num q => cases h
    | list l => cases h
    | other o => cases h

/-- **C158 (refused).** A configured value that is not a file name raises `TypeError`; a file name that is not found raises what the
search for the file raises, and a file that is found but cannot be loaded raises `ValueError`. -/
theorem C158_refused (fs : FS) (cf : Conf) (llh : Option String) (c : Cache) :
    (∀ a, valueFor c cf.name llh = some a → (∀ p, a ≠ .str p) → (buildMap fs cf llh c).2 = .error .typeError) ∧
    (∀ p e, valueFor c cf.name llh = some (.str p) → (getFilePath fs p c).2 = .error e → (buildMap fs cf llh c).2 = .error e) ∧
    ∀ p p', valueFor c cf.name llh = some (.str p) → (getFilePath fs p c).2 = .ok p' → fs.loads p' = false →
      (buildMap fs cf llh c).2 = .error .valueError := by
  have key : ∀ a, valueFor c cf.name llh = some a → resolve fs true cf llh c = (c.record cf.name, .ok a) := by
    intro a ha
    rw [resolve_eq]
    simp only [valueFor] at ha
    cases hv : c.data.get? cf.name with
    | none => rw [hv] at ha; cases ha
    | some v =>
      rw [hv] at ha
      simp only [pick_eq]
      cases v with
      | atom b => simp only at ha ⊢; cases ha; rfl
      | dict m => simp only at ha ⊢; rw [ha]
  have hrec : ∀ p, (getFilePath fs p (c.record cf.name)).2 = (getFilePath fs p c).2 :=
    fun p => getFilePath_url fs p _ _ (by rw [record_data])
  refine ⟨?_, ?_, ?_⟩
  · intro a ha hn
    unfold buildMap
    rw [key a ha]
    cases a with
    | str p => exact absurd rfl (hn p)
    | num q => rfl
    | list l => rfl
    | other o => rfl
  · intro p e ha he
    unfold buildMap
    rw [key _ ha]
    rw [← hrec p] at he
    simp only
    generalize getFilePath fs p (c.record cf.name) = g at *
    obtain ⟨c2, r2⟩ := g
    simp only at he
    subst he
    rfl
  · intro p p' ha he hl
    unfold buildMap
    rw [key _ ha]
    rw [← hrec p] at he
    simp only
    generalize getFilePath fs p (c.record cf.name) = g at *
    obtain ⟨c2, r2⟩ := g
    simp only at he
    subst he
    simp [hl]

/-- **C158 (bands).** If a map with errors has been built, each of the files it holds that exists under its own name could be
loaded. -/
theorem C158_bands (fs : FS) (cf : Conf) (llh : Option String) (c : Cache) (files : List String)
    (h : (sigmaBuild fs cf llh c).2 = .ok files) : ∀ p ∈ files, fs.isFile p = true → fs.loads p = true := by
  have hb : ∀ (subs : List Conf) (c : Cache) (ps : List String), (buildMaps fs llh subs c).2 = .ok ps →
      ∀ p ∈ ps, fs.isFile p = true → fs.loads p = true := by
    intro subs
    induction subs with
    | nil => intro c ps h; simp only [buildMaps, Except.ok.injEq] at h; subst h; simp
    | cons s r ih =>
      intro c ps h
      unfold buildMaps at h
      have h1 := C158_built fs s llh c
      generalize buildMap fs s llh c = g at *
      obtain ⟨c1, r1⟩ := g
      cases r1 with
      | error e => cases h
      | ok p =>
        simp only at h h1
        have h2 := ih c1
        generalize buildMaps fs llh r c1 = g at *
        obtain ⟨c2, r2⟩ := g
        cases r2 with
        | error e => cases h
        | ok qs =>
          simp only [Except.ok.injEq] at h h2
          subst h
          intro q hq hf
          rcases List.mem_cons.1 hq with rfl | hq
          · obtain ⟨_, p', hp, hl⟩ := h1 q rfl
            unfold getFilePath at hp
            rw [if_pos hf] at hp
            cases hp
            exact hl
          · exact h2 qs rfl q hq hf
  unfold sigmaBuild at h
  generalize getConfigs cf llh none c = g at h
  obtain ⟨c1, r1⟩ := g
  cases r1 with
  | error e => cases h
  | ok configs =>
    simp only at h
    cases hd : getDefault cf.default with
    | error e => rw [hd] at h; cases h
    | ok dflt =>
      rw [hd] at h
      simp only at h
      split at h
      · cases h
      · generalize sigmaLoop cf configs dflt llh [("median", 0), ("lower", 1), ("upper", 2)] c1 = g at h
        obtain ⟨c2, r2⟩ := g
        cases r2 with
        | error e => cases h
        | ok subs =>
          simp only at h
          have h3 := hb subs c2
          generalize buildMaps fs llh subs c2 = g at *
          obtain ⟨c3, r3⟩ := g
          cases r3 with
          | error e => cases h
          | ok ps =>
            simp only at h h3
            generalize requiredParameter cf llh none c3 = g at h
            obtain ⟨c4, r4⟩ := g
            cases r4 with
            | error e => cases h
            | ok o => cases h; exact h3 _ rfl

/-- Non-vacuity of C158: a file that loads, one that does not, one that does not exist and a number instead of a file. -/
def exMapFS : FS := { isFile := fun s => decide (s ∈ ["/m/a.json", "/m/bad.json"]), pathExists := fun _ => false, pkg := "/p",
                      loads := fun s => decide (s ≠ "/m/bad.json") }

example : (buildMap exMapFS ⟨"m", some (.str "/m/a.json")⟩ none {}).2 = .ok "/m/a.json" ∧
    (buildMap exMapFS ⟨"m", some (.str "/m/a.json")⟩ none { data := [("m", .atom (.str "/m/bad.json"))] }).2 = .error .valueError ∧
    (buildMap exMapFS ⟨"m", some (.str "/m/a.json")⟩ none { data := [("m", .atom (.str "/m/none.json"))] }).2 = .error .runtimeError ∧
    (buildMap exMapFS ⟨"m", some (.str "/m/a.json")⟩ none { data := [("m", .atom (.num 3))] }).2 = .error .typeError ∧
    (sigmaBuild exMapFS ⟨"s", some (.list [.str "/m/a.json", .str "/m/a.json", .str "/m/a.json"])⟩ none {}).2 =
      .ok ["/m/a.json", "/m/a.json", "/m/a.json"] := by decide +kernel

end Verif.Conf
