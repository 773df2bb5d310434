import Verif.Model.Template
import Verif.Lemmas.Flow

namespace Verif.Llh
open Verif Comp

section
variable {K V : Type}

/-- A run depends on the functions of the classes run only. -/
theorem code_run_congr (c : Code) (ns : PyDict String Plugin) (sem sem' : Plugin → K → List V → Res (K × List V))
    (h : ∀ w ∈ c.works, ∀ p, ns.get? w.name = some p → sem p = sem' p) (key : K) (input : V) :
    c.run ns sem key input = c.run ns sem' key input := by
  unfold Code.run
  cases hi : instantiate ns c.works with
  | error e => rfl
  | ok inst =>
    simp only [Bind.bind, Except.bind]
    have hinst : ∀ n p, inst.get? n = some p → ∃ w ∈ c.works, w.name = n ∧ ns.get? n = some p := by
      unfold instantiate at hi
      simp only [Bind.bind, Except.bind] at hi
      cases hm : c.works.mapM (importClass ns) with
      | error e => rw [hm] at hi; cases hi
      | ok cls =>
        rw [hm] at hi
        simp only at hi
        split at hi
        · cases hi
        · cases hi
          intro n p hp
          have hmem : (n, p) ∈ cls := by
            have : ∀ (l : List (String × Plugin)) (d : PyDict String Plugin) , (d.update l).get? n = some p → d.get? n = some p ∨ (n, p) ∈ l := by
              intro l
              induction l with
              | nil => intro d h; exact .inl h
              | cons e l ih =>
                intro d h
                rcases ih (d.set e.1 e.2) h with h | h
                · rw [PyDict.get?_set] at h
                  split at h
                  · rename_i he
                    cases h
                    exact .inr (by subst he; simp)
                  · exact .inl h
                · exact .inr (by simp [h])
            rcases this cls [] hp with h | h
            · cases h
            · exact h
          have : ∀ (ws : List Work) (cls : List (String × Plugin)), ws.mapM (importClass ns) = .ok cls → (n, p) ∈ cls →
              ∃ w ∈ ws, w.name = n ∧ ns.get? n = some p := by
            intro ws
            induction ws with
            | nil => intro cls h hm; cases h; cases hm
            | cons w ws ih =>
              intro cls h hm
              rw [List.mapM_cons] at h
              simp only [Bind.bind, Except.bind, Pure.pure, Except.pure] at h
              unfold importClass at h
              cases hw : ns.get? w.name with
              | none => rw [hw] at h; cases h
              | some p' =>
                rw [hw] at h
                simp only at h
                split at h
                · cases h
                · rename_i cls' hc
                  cases h
                  rcases List.mem_cons.1 hm with hm | hm
                  · cases hm; exact ⟨w, by simp, rfl, hw⟩
                  · obtain ⟨w', hw', h2⟩ := ih cls' hc hm
                    exact ⟨w', by simp [hw'], h2⟩
          exact this _ _ hm hmem
    have hw : ∀ (ws : List Work) (s : K × PyDict String V), (∀ w ∈ ws, w ∈ c.works) → runWorks inst sem ws s = runWorks inst sem' ws s := by
      intro ws
      induction ws with
      | nil => intro s _; rfl
      | cons w ws ih =>
        intro s hs
        have h1 : runWork inst sem w s = runWork inst sem' w s := by
          unfold runWork
          cases hg : inst.get? w.name with
          | none => rfl
          | some p =>
            obtain ⟨w', hw', hn, hp⟩ := hinst _ _ hg
            rw [← hn] at hp
            simp only [Bind.bind, Except.bind, h w' hw' p hp]
        unfold runWorks at ih ⊢
        rw [List.foldlM_cons, List.foldlM_cons, h1]
        cases runWork inst sem' w s with
        | error e => rfl
        | ok s' => exact ih s' (fun x hx => hs x (by simp [hx]))
    rw [hw c.works _ (fun _ h => h)]

end
end Verif.Llh
