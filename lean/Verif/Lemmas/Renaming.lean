/-
Lemmas for giving parameters other names (C155).
-/
import Verif.Spec.Renaming
import Verif.Lemmas.Unread

namespace Verif.Ctx
open Verif Parameter

section
variable {K : Type} {V : Type}

theorem renameKeys_keys (ρ : String → String) (d : PyDict String V) : (renameKeys ρ d).keys = d.keys.map ρ := by
  simp [renameKeys, PyDict.keys, List.map_map, Function.comp_def]

theorem renameKeys_get {ρ : String → String} {names : List String} (hinj : ∀ a ∈ names, ∀ b ∈ names, ρ a = ρ b → a = b)
    (d : PyDict String V) (hd : ∀ k ∈ d.keys, k ∈ names) {k : String} (hk : k ∈ names) :
    (renameKeys ρ d).get? (ρ k) = d.get? k := by
  induction d with
  | nil => rfl
  | cons e d ih =>
    obtain ⟨a, v⟩ := e
    have ha : a ∈ names := hd a (by simp [PyDict.keys])
    have ih' := ih (fun k hk => hd k (by simp only [PyDict.keys, List.map_cons, List.mem_cons] at hk ⊢; exact Or.inr hk))
    simp only [renameKeys, List.map_cons] at ih' ⊢
    rw [PyDict.get?_cons, PyDict.get?_cons, ih']
    by_cases e : a = k
    · subst e; simp
    · rw [if_neg e, if_neg fun h => e (hinj a ha k hk h)]

theorem alias_renamed {ρ : String → String} {names : List String} {al al' : PyDict String String} (hal : Llh.PlainAliases al)
    (hal' : Llh.PlainAliases al') {r : String} (hr : SeenAs ρ names al al' r) {p q : PyDict String XF}
    (hpq : ∀ k ∈ names, q.get? (ρ k) = p.get? k) (hin : ∀ k ∈ names, ∃ v, p.get? k = some v) :
    (Llh.replaceAlias al p).get? r = (Llh.replaceAlias al' q).get? r := by
  rw [Llh.replaceAlias_get al hal, Llh.replaceAlias_get al' hal', if_neg hr.old, if_neg hr.new, hr.renamed, hpq _ hr.given]
  obtain ⟨v, hv⟩ := hin _ hr.given
  rw [hv]

theorem renamed_logL {ρ : String → String} {names : List String} {o o' : Obj K} (ho : Obj.Renamed ρ names o o') {p q : PyDict String XF}
    (hpq : ∀ k ∈ names, q.get? (ρ k) = p.get? k) (hin : ∀ k ∈ names, ∃ v, p.get? k = some v) (key : K) (batch : Int) :
    o'.logL key batch q = o.logL key batch p := by
  cases o with
  | binned al data st =>
    cases o' with
    | lit => exact ho.elim
    | binned al' data' st' =>
      obtain ⟨hal, hal', rfl, hst, hc⟩ := ho
      simp only [Obj.logL, Llh.getLogLikelihood, Llh.simulateModelHist, Llh.replaceAlias_idem al hal, Llh.replaceAlias_idem al' hal', hst]
      rw [modelLoop_same batch st.components (fun m c hm => ⟨(hc m c hm).1, fun r hr => alias_renamed hal hal' ((hc m c hm).2 r hr) hpq hin⟩)]
  | lit al shape nd st =>
    cases o' with
    | binned => exact ho.elim
    | lit al' shape' nd' st' =>
      obtain ⟨hal, hal', rfl, rfl, hc⟩ := ho
      have : Llh.simulateYields al' st' key 1 (Llh.replaceAlias al' q) = Llh.simulateYields al st' key 1 (Llh.replaceAlias al p) := by
        simp only [Llh.simulateYields, Llh.replaceAlias_idem al hal, Llh.replaceAlias_idem al' hal']
        split
        · rfl
        split
        · rfl
        rename_i m hm
        simp only [bind, Except.bind]
        cases hg : st'.components.getItem m with
        | error e => rfl
        | ok c =>
          have hmem : (m, c) ∈ st'.components := by
            unfold PyDict.getItem at hg
            cases hgg : PyDict.get? st'.components m with
            | none => rw [hgg] at hg; cases hg
            | some c' => rw [hgg] at hg; cases hg; exact PyDict.mem_of_get? _ hgg
          obtain ⟨nd, h1, h2⟩ := hc m c hmem
          exact (h1 key 1 _ _ fun r hr => alias_renamed hal hal' (h2 r hr) hpq hin).symm
      simp only [Obj.logL, Llh.litLogLikelihood, this]

theorem renamed_loop {ρ : String → String} {names : List String} {ls ls' : List (String × Obj K)}
    (h : List.Forall₂ (fun a b => Obj.Renamed ρ names a.2 b.2) ls ls') {p q : PyDict String XF}
    (hpq : ∀ k ∈ names, q.get? (ρ k) = p.get? k) (hin : ∀ k ∈ names, ∃ v, p.get? k = some v) (batch : Int) (key : K) (acc : XF) :
    onceLoop batch q ls' key acc = onceLoop batch p ls key acc := by
  induction h generalizing key acc with
  | nil => rfl
  | @cons a b ls ls' hab _ ih =>
    obtain ⟨m, o⟩ := a
    obtain ⟨m', o'⟩ := b
    simp only [onceLoop]
    rw [renamed_logL hab hpq hin]
    simp only [ih]

end
end Verif.Ctx
