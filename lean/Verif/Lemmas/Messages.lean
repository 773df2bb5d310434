import Verif.Model.Messages
import Verif.Spec.Deps

namespace Verif.Messages
open Verif Verif.Comp

/-- Forgetting the message of an outcome. -/
def forget {α : Type} : Except Msg α → Res α
  | .ok a => .ok a
  | .error m => .error m.err

theorem clash_isSome (old new : Plugin) : (clash old new).isSome = conflicts old new := by
  rw [Bool.eq_iff_iff, clash, List.findSome?_isSome_iff]
  simp only [List.findSome?_isSome_iff, conflicts, List.any_eq_true]
  constructor
  · rintro ⟨c, hc, c', hc', h⟩
    refine ⟨c, hc, c', hc', ?_⟩
    split at h
    · simp at h
    · split at h
      · simp at h
      · simp_all
  · rintro ⟨c, hc, c', hc', h⟩
    refine ⟨c, hc, c', hc', ?_⟩
    simp only [decide_eq_true_eq] at h
    rw [if_neg (by simpa using h.1), if_neg h.2]; rfl

theorem clash_some {old new : Plugin} {m : Msg} (h : clash old new = some m) :
    ∃ c ∈ old.configs, ∃ c' ∈ new.configs, c'.name = c.name ∧ c.default ≠ c'.default ∧
      m = .conflict c.name old.name c'.default new.name c.default := by
  obtain ⟨c, hc, h⟩ := List.exists_of_findSome?_eq_some h
  obtain ⟨c', hc', h⟩ := List.exists_of_findSome?_eq_some h
  split at h
  · simp at h
  · split at h
    · simp at h
    · rename_i h1 h2
      push Not at h1
      exact ⟨c, hc, c', hc', h1, h2, by rw [← h1]; simpa using h.symm⟩

theorem register_forget (reg : Registry) (p : Plugin) :
    ((registerMsg reg p).1, forget (registerMsg reg p).2) = register reg p := by
  have key : ((addProvides reg p).map Prod.snd).any (fun q => conflicts q p) =
      (((addProvides reg p).map Prod.snd).findSome? (fun q => clash q p)).isSome := by
    rw [Bool.eq_iff_iff, List.findSome?_isSome_iff]
    simp only [List.any_eq_true, clash_isSome]
  simp only [registerMsg, register, key]
  cases h : ((addProvides reg p).map Prod.snd).findSome? (fun q => clash q p) with
  | none => simp [forget]
  | some m =>
    obtain ⟨q, -, hq⟩ := List.exists_of_findSome?_eq_some h
    obtain ⟨c, -, c', -, -, -, rfl⟩ := clash_some hq
    simp [forget, Msg.err]

theorem append_forget (reg : Registry) (nodep : String) : ∀ (ns : List String) (acc : List Entry),
    forget (appendMsg reg nodep ns acc) = appendEntries reg nodep ns acc
  | [], acc => rfl
  | n :: ns, acc => by
    simp only [appendMsg, appendEntries]
    split
    · exact append_forget reg nodep ns acc
    · cases reg.get? n with
      | none => rfl
      | some p => exact append_forget reg nodep ns _

theorem deduce_forget (reg : Registry) (nodep : String) : ∀ (fuel : Nat) (names : List String) (acc : List Entry),
    forget (deduceMsg reg nodep fuel names acc) = deduceDeps reg nodep fuel names acc
  | 0, _, _ => by simp [deduceMsg, deduceDeps, forget, Msg.err]
  | fuel + 1, names, acc => by
    have ih := deduce_forget reg nodep fuel
    have loop : ∀ (ns : List String) (acc : List Entry),
        forget (deduceLoopMsg reg nodep fuel ns acc) = ns.foldlM (fun acc n =>
          if n = nodep then .ok acc
          else match reg.get? n with
            | none => .error .keyError
            | some p => deduceDeps reg nodep fuel p.dependsOn acc) acc := by
      intro ns
      induction ns with
      | nil => intro acc; simp [deduceLoopMsg, forget, pure, Except.pure]
      | cons n ns ihn =>
        intro acc
        rw [deduceLoopMsg, List.foldlM_cons]
        split
        · rw [ihn]; rfl
        · cases reg.get? n with
          | none => rfl
          | some p =>
            simp only []
            rw [← ih p.dependsOn acc]
            cases deduceMsg reg nodep fuel p.dependsOn acc with
            | error m => rfl
            | ok acc' => simp only [forget, bind, Except.bind]; exact ihn acc'
    rw [deduceMsg, deduceDeps, ← append_forget]
    cases appendMsg reg nodep names acc with
    | error m => rfl
    | ok acc' => simp only [forget, bind, Except.bind]; exact loop names acc'

theorem append_error {reg : Registry} {nodep : String} {m : Msg} : ∀ {ns : List String} {acc : List Entry},
    appendMsg reg nodep ns acc = .error m → ∃ pre d post, ns = pre ++ d :: post ∧ m = .noDependency d ∧ d ≠ nodep ∧
      reg.get? d = none ∧ ∀ n ∈ pre, n = nodep ∨ (reg.get? n).isSome
  | [], acc, h => by simp [appendMsg] at h
  | n :: ns, acc, h => by
    rw [appendMsg] at h
    split at h
    · rename_i hn
      obtain ⟨pre, d, post, h1, h2, h3, h4, h5⟩ := append_error h
      exact ⟨n :: pre, d, post, by rw [h1]; rfl, h2, h3, h4, by simpa [hn] using h5⟩
    · rename_i hn
      split at h
      · rename_i hg
        exact ⟨[], n, ns, rfl, by simpa using h.symm, hn, hg, by simp⟩
      · rename_i p hg
        obtain ⟨pre, d, post, h1, h2, h3, h4, h5⟩ := append_error h
        refine ⟨n :: pre, d, post, by rw [h1]; rfl, h2, h3, h4, ?_⟩
        intro x hx
        rcases List.mem_cons.1 hx with rfl | hx
        · simp [hg]
        · exact h5 x hx

theorem append_ok {reg : Registry} {nodep : String} : ∀ {ns : List String} {acc r : List Entry},
    appendMsg reg nodep ns acc = .ok r → ∀ n ∈ ns, n = nodep ∨ (reg.get? n).isSome
  | [], _, _, _ => by simp
  | n :: ns, acc, r, h => by
    rw [appendMsg] at h
    intro x hx
    split at h
    · rename_i hn
      rcases List.mem_cons.1 hx with rfl | hx
      · exact Or.inl hn
      · exact append_ok h x hx
    · split at h
      · cases h
      · rename_i p hg
        rcases List.mem_cons.1 hx with rfl | hx
        · simp [hg]
        · exact append_ok h x hx

theorem deduce_error {reg : Registry} {nodep : String} : ∀ {fuel : Nat} {names : List String} {acc : List Entry} {m : Msg},
    deduceMsg reg nodep fuel names acc = .error m →
      m = .plain .recursionError ∨ ∃ d, m = .noDependency d ∧ Reach reg nodep names d ∧ reg.get? d = none
  | 0, _, _, m, h => by left; simpa [deduceMsg] using h.symm
  | fuel + 1, names, acc, m, h => by
    rw [deduceMsg] at h
    split at h
    · rename_i m' hm
      obtain ⟨pre, d, post, h1, h2, h3, h4, -⟩ := append_error hm
      injection h with h; subst h
      exact Or.inr ⟨d, h2, .root (by simp [h1]) h3, h4⟩
    · rename_i acc' hok
      have hall := append_ok hok
      have loop : ∀ (ns : List String) (acc : List Entry), (∀ n ∈ ns, n ∈ names) → deduceLoopMsg reg nodep fuel ns acc = .error m →
          m = .plain .recursionError ∨ ∃ d, m = .noDependency d ∧ Reach reg nodep names d ∧ reg.get? d = none := by
        intro ns
        induction ns with
        | nil => intro acc _ h; simp [deduceLoopMsg] at h
        | cons n ns ihn =>
          intro acc hs h
          have hs' : ∀ x ∈ ns, x ∈ names := fun x hx => hs x (by simp [hx])
          rw [deduceLoopMsg] at h
          split at h
          · exact ihn _ hs' h
          · rename_i hn
            split at h
            · rename_i hg
              rcases hall n (hs n (by simp)) with h' | h'
              · exact absurd h' hn
              · simp [hg] at h'
            · rename_i p hp
              split at h
              · rename_i m' hm'
                injection h with h; subst h
                rcases deduce_error hm' with h' | ⟨d, h1, h2, h3⟩
                · exact Or.inl h'
                · exact Or.inr ⟨d, h1, h2.under (hs n (by simp)) hn hp, h3⟩
              · exact ihn _ hs' h
      exact loop names acc' (fun _ h => h) h

theorem inputs_forget (c : Declare.Cls) : ∀ (l : List String) (i : Nat),
    forget (checkInputsMsg c i l) = Declare.checkInputs c i l
  | [], i => rfl
  | d :: l, i => by
    simp only [checkInputsMsg, Declare.checkInputs, bind, Except.bind]
    cases Declare.argument c i with
    | error e => rfl
    | ok a =>
      simp only []
      split
      · rfl
      · exact inputs_forget c l (i + 1)

theorem inputs_error {c : Declare.Cls} {m : Msg} : ∀ {l : List String} {i : Nat}, checkInputsMsg c i l = .error m →
    ∃ pre d post, l = pre ++ d :: post ∧ (∀ k, (h : k < pre.length) → c.args[i + k]? = some pre[k]) ∧
      ((m = .otherArgument (i + pre.length) c.name d ∧ ∃ a, c.args[i + pre.length]? = some a ∧ a ≠ d) ∨
        (m = .plain .indexError ∧ c.args[i + pre.length]? = none))
  | [], i, h => by simp [checkInputsMsg] at h
  | d :: l, i, h => by
    simp only [checkInputsMsg, Declare.argument] at h
    cases ha : c.args[i]? with
    | none =>
      rw [ha] at h
      exact ⟨[], d, l, rfl, by simp, Or.inr ⟨by simpa using h.symm, by simpa using ha⟩⟩
    | some a =>
      rw [ha] at h
      simp only [] at h
      split at h
      · rename_i hne
        exact ⟨[], d, l, rfl, by simp, Or.inl ⟨by simpa using h.symm, a, by simpa using ha, hne⟩⟩
      · rename_i hne
        push Not at hne
        obtain ⟨pre, d', post, h1, h2, h3⟩ := inputs_error h
        refine ⟨d :: pre, d', post, by rw [h1]; rfl, ?_, ?_⟩
        · intro k hk
          cases k with
          | zero => simpa [hne] using ha
          | succ k =>
            have := h2 k (by simpa using hk)
            rw [show i + (k + 1) = i + 1 + k by omega]; simpa using this
        · rw [show i + (d :: pre).length = i + 1 + pre.length by simp; omega]
          exact h3

theorem plugin_forget (c : Declare.Cls) : forget (pluginCheckMsg c) = Declare.sanityCheck c := by
  simp only [pluginCheckMsg, Declare.sanityCheck, bind, Except.bind]
  cases Declare.argument c 1 with
  | error e => rfl
  | ok a =>
    simp only []
    split
    · rfl
    · cases Declare.argument c 2 with
      | error e => rfl
      | ok b =>
        simp only []
        split
        · rfl
        · exact inputs_forget c _ 3

end Verif.Messages
