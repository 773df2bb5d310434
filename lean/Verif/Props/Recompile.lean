/-
C83: repeated simulation with new compilation.
-/
import Verif.Spec.Recompile
import Verif.Lemmas.Recompile
import Verif.Lemmas.CompHist

namespace Verif.Recompile
open Verif Comp

section
variable {F K : Type} [Field F] [LinearOrder F]

theorem set_set {ν : Type} (d : PyDict String ν) (k : String) (v w : ν) : (d.set k v).set k w = d.set k w := by
  induction d with
  | nil => simp [PyDict.set]
  | cons e d ih =>
    obtain ⟨a, b⟩ := e
    by_cases h : a = k
    · subst h; simp [PyDict.set]
    · simp [PyDict.set, h, ih]

/-- The columns of a successful run, from its pile. -/
theorem columns_kept [IsStrictOrderedRing F] (force apply : Bool) (n : Nat) (keys : Nat → K) (sims : Nat → K → K × List (List F))
    (pile : List (List (List F))) (hl : pile.length = n) (cols : List (List F)) (w : Nat)
    (hc : (List.range w).mapM (hstackColumn pile) = .ok cols)
    (hp : ∀ j < n, ∃ res, oneSimulation (sims j) force apply (keys j) = .ok (keys (j + 1), res) ∧ pile[j]? = some res) :
    (∀ j < n, keys (j + 1) = (sims j (keys j)).1) ∧
    ∀ (i : Nat) (col : List F), cols[i]? = some col →
      ∃ parts : List (List F), parts.length = n ∧ col = parts.flatten ∧
        ∀ j < n, ∃ part, parts[j]? = some part ∧ Kept apply (sims j (keys j)).2 i part := by
  have hstep : ∀ j < n, ∀ res, oneSimulation (sims j) force apply (keys j) = .ok (keys (j + 1), res) →
      keys (j + 1) = (sims j (keys j)).1 ∧ (apply = false → res = (sims j (keys j)).2) ∧
      (apply = true → ∃ eff, (sims j (keys j)).2.getLast? = some eff ∧
        res = (sims j (keys j)).2.map (applyMask (eff.map (fun e => decide (0 < e))))) := by
    intro j _ res hj
    unfold oneSimulation at hj
    cases apply
    · simp only [Bool.false_eq_true, if_false, Except.ok.injEq] at hj
      rw [hj]; simp
    · simp only [if_true] at hj
      cases force
      · simp only [Bool.false_eq_true, if_false] at hj
        cases hg : (sims j (keys j)).2.getLast? with
        | none => rw [hg] at hj; cases hj
        | some eff =>
          rw [hg] at hj
          simp only [Except.ok.injEq, Prod.mk.injEq] at hj
          exact ⟨hj.1.symm, by simp, fun _ => ⟨eff, rfl, hj.2.symm⟩⟩
      · simp at hj
  refine ⟨fun j hj => ?_, ?_⟩
  · obtain ⟨res, h2, _⟩ := hp j hj
    exact (hstep j hj res h2).1
  · intro i col hcol
    obtain ⟨hlen, hget⟩ := mapM_ok_get _ _ _ hc
    obtain ⟨i', hi', hparts⟩ := hget i col hcol
    have hii : i' = i := by
      obtain ⟨h1, h2⟩ := List.getElem?_eq_some_iff.1 hi'
      rw [List.getElem_range] at h2; exact h2.symm
    subst hii
    simp only [hstackColumn, bind, Except.bind] at hparts
    split at hparts
    · cases hparts
    · rename_i parts hps
      simp only [pure, Except.pure, Except.ok.injEq] at hparts
      obtain ⟨hpl, hpget⟩ := mapM_ok_get _ _ _ hps
      refine ⟨parts, by rw [hpl, hl], hparts.symm, ?_⟩
      intro j hj
      obtain ⟨res, hr2, hr1⟩ := hp j hj
      obtain ⟨part, hpart⟩ : ∃ part, parts[j]? = some part := ⟨parts[j]'(by rw [hpl, hl]; exact hj), by simp⟩
      refine ⟨part, hpart, ?_⟩
      obtain ⟨res', hr1', hrp⟩ := hpget j part hpart
      rw [hr1] at hr1'
      cases hr1'
      have hri : res[i']? = some part := by
        unfold columnAt at hrp
        cases hq : res[i']? with
        | none => rw [hq] at hrp; cases hrp
        | some c => rw [hq] at hrp; simp only [Except.ok.injEq] at hrp; rw [hrp]
      obtain ⟨-, hs1, hs2⟩ := hstep j hj res hr2
      cases apply
      · rw [hs1 rfl] at hri
        exact ⟨part, hri, fun _ => rfl, by simp⟩
      · obtain ⟨eff, he1, he2⟩ := hs2 rfl
        rw [he2, List.getElem?_map] at hri
        cases hq : (sims j (keys j)).2[i']? with
        | none => rw [hq] at hri; cases hri
        | some raw =>
          rw [hq] at hri
          simp only [Option.map_some, Option.some.injEq] at hri
          refine ⟨raw, hq, by simp, fun _ => ⟨eff, he1, fun hle => ?_⟩⟩
          rw [← hri, ← applyMask_filter (fun e => decide (0 < e)) _ _ hle, ← applyMask_map, List.map_fst_zip (by omega)]

/-- **C83 (no events from files).** If the component draws its own energies, or no file of events is configured (but the option is
there), compiling before every repetition changes nothing: the result is that of `multiple_simulations` and the configuration
stays. -/
theorem C83_same_as_without_compiling_partial (useMc : Res Bool) (llh : String) (batch : Int) (keySum : K → Int)
    (compiled : G4 → Res (K → K × List (List F))) (force apply : Bool) (times : Int) (ht : 0 < times) (key : K) (g : G4)
    (hg : g.truth = .ok false ∨ (g.truth = .ok true ∧ useMc = .ok false)) (sim : K → K × List (List F)) (hs : compiled g = .ok sim) :
    multipleCompile useMc llh batch keySum compiled force apply times key g = (g, multipleSimulations sim force apply times key) := by
  have hc : ∀ seed, newG4 useMc llh batch seed g = .ok g := by
    intro seed
    rcases hg with hg | ⟨hg, hm⟩
    · simp [newG4, hg, bind, Except.bind, pure, Except.pure]
    · simp [newG4, hg, hm, bind, Except.bind, pure, Except.pure]
  unfold multipleCompile multipleSimulations
  rw [rounds_const useMc llh batch keySum compiled force apply g hc sim hs, if_neg (not_le.2 ht)]
  cases hl : simLoop sim force apply times.toNat key [] with
  | error e => rfl
  | ok r =>
    obtain ⟨k, pile⟩ := r
    obtain ⟨new, hnew, hnl, _⟩ := simLoop_spec sim force apply _ key [] _ hl
    simp only [List.nil_append] at hnew
    subst hnew
    simp only [bind, Except.bind]
    cases hlast : pile.getLast? with
    | none =>
      rw [List.getLast?_eq_none_iff] at hlast
      subst hlast
      simp only [List.length_nil] at hnl
      omega
    | some r => rfl

/-- **C83 (events from files).** If the component takes its events from a file, round `j` runs the program compiled for that file with
the batch size asked for and the sum of the key of the round as seed; the settings of other likelihoods are as before in every
round and afterwards, and the columns are put together in order. -/
theorem C83_rounds_partial [IsStrictOrderedRing F] (llh : String) (batch : Int) (keySum : K → Int)
    (compiled : G4 → Res (K → K × List (List F))) (force apply : Bool) (times : Int) (key : K) (d : PyDict String Entry) (file : Cell)
    (rest : List Cell) (hd : d.get? llh = some (.list (file :: rest))) (g' : G4) (out : K × List (List F))
    (h : multipleCompile (.ok true) llh batch keySum compiled force apply times key (.dict d) = (g', .ok out)) :
    0 < times ∧ ∃ (keys : Nat → K) (sims : Nat → K → K × List (List F)), keys 0 = key ∧ keys times.toNat = out.1 ∧
      (∀ j < times.toNat, keys (j + 1) = (sims j (keys j)).1 ∧
        compiled (.dict (d.set llh (settings file batch (keySum (keys j))))) = .ok (sims j)) ∧
      g' = .dict (d.set llh (settings file batch (keySum (keys (times.toNat - 1))))) ∧
      ∀ (i : Nat) (col : List F), out.2[i]? = some col →
        ∃ parts : List (List F), parts.length = times.toNat ∧ col = parts.flatten ∧
          ∀ j < times.toNat, ∃ part, parts[j]? = some part ∧ Kept apply (sims j (keys j)).2 i part := by
  unfold multipleCompile at h
  cases hr : rounds (.ok true) llh batch keySum compiled force apply times.toNat key (.dict d) [] with
  | mk g1 r =>
    rw [hr] at h
    cases r with
    | error e => simp at h
    | ok r =>
      obtain ⟨key', pile⟩ := r
      simp only [Prod.mk.injEq] at h
      obtain ⟨rfl, h⟩ := h
      obtain ⟨keys, gs, new, h1, h2, h3, h4, h5, h6, h7⟩ := rounds_spec _ _ _ _ _ _ _ _ _ _ _ _ _ _ hr
      rw [List.nil_append] at h1
      subst h1
      cases hlast : pile.getLast? with
      | none => rw [hlast] at h; simp at h
      | some res =>
        rw [hlast] at h
        simp only [bind, Except.bind, pure, Except.pure] at h
        split at h
        · simp at h
        rename_i cols hcols
        simp only [Except.ok.injEq] at h
        subst h
        have hpos : 0 < times.toNat := by
          rw [← h2]
          have : pile ≠ [] := by rintro rfl; simp at hlast
          exact List.length_pos_of_ne_nil this
        have hgs : ∀ j < times.toNat, gs (j + 1) = .dict (d.set llh (settings file batch (keySum (keys j)))) := by
          have hstep : ∀ (e : PyDict String Entry) (r : List Cell) (seed : Int), e.get? llh = some (.list (file :: r)) →
              newG4 (.ok true) llh batch seed (.dict e) = .ok (.dict (e.set llh (settings file batch seed))) := by
            intro e r seed he
            have hne : e ≠ [] := by rintro rfl; simp at he
            simp [newG4, G4.truth, hne, PyDict.getItem, he, Entry.first, settings, bind, Except.bind, pure, Except.pure]
          intro j
          induction j with
          | zero =>
            intro hj
            have := (h7 0 hj).1
            rw [h5, hstep d rest _ hd] at this
            simpa using this.symm
          | succ j ih =>
            intro hj
            have := (h7 (j + 1) hj).1
            rw [ih (by omega), hstep _ [.int batch, .int (keySum (keys j))] _ (by rw [PyDict.get?_set_self]; rfl), set_set] at this
            simpa using this.symm
        have hsim : ∀ j, ∃ sim : K → K × List (List F), j < times.toNat → ∃ res,
            compiled (gs (j + 1)) = .ok sim ∧ oneSimulation sim force apply (keys j) = .ok (keys (j + 1), res) ∧ pile[j]? = some res := by
          intro j
          by_cases hj : j < times.toNat
          · obtain ⟨_, sim, res, a, b, c⟩ := h7 j hj
            exact ⟨sim, fun _ => ⟨res, a, b, c⟩⟩
          · exact ⟨fun k => (k, []), fun h => absurd h hj⟩
        choose sims hsims using hsim
        obtain ⟨k1, k2⟩ := columns_kept force apply times.toNat keys sims pile h2 cols _ hcols (fun j hj => by
          obtain ⟨res, _, b, c⟩ := hsims j hj
          exact ⟨res, b, c⟩)
        refine ⟨by omega, keys, sims, h3, h4, fun j hj => ⟨k1 j hj, ?_⟩, ?_, k2⟩
        · rw [← hgs j hj]
          obtain ⟨res, a, _, _⟩ := hsims j hj
          exact a
        · rw [← h6]
          have := hgs (times.toNat - 1) (by omega)
          rwa [show times.toNat - 1 + 1 = times.toNat by omega] at this

/-- The settings of other likelihoods are never touched. -/
theorem C83_other_likelihoods (d : PyDict String Entry) (llh other : String) (hne : llh ≠ other) (e : Entry) :
    (d.set llh e).get? other = d.get? other := PyDict.get?_set_ne _ _ hne

/-- **C83 (negation: option missing).** If the option "g4" is not configured, every repeated
simulation with new compilation raises KeyError, also for components that use no file of events. -/
theorem C83_option_missing (useMc : Res Bool) (llh : String) (batch : Int) (keySum : K → Int)
    (compiled : G4 → Res (K → K × List (List F))) (force apply : Bool) (times : Int) (ht : 0 < times) (key : K) :
    multipleCompile useMc llh batch keySum compiled force apply times key .missing = (.missing, .error .keyError) := by
  obtain ⟨n, hn⟩ : ∃ n, times.toNat = n + 1 := ⟨times.toNat - 1, by omega⟩
  simp [multipleCompile, hn, rounds, newG4, G4.truth, bind, Except.bind]

/-- **C83 (errors).** Without a repetition a name is unbound; a dictionary without the likelihood raises KeyError. -/
theorem C83_errors (useMc : Res Bool) (llh : String) (batch : Int) (keySum : K → Int)
    (compiled : G4 → Res (K → K × List (List F))) (force apply : Bool) (times : Int) (key : K) (g : G4) :
    (times ≤ 0 → multipleCompile useMc llh batch keySum compiled force apply times key g = (g, .error .unboundLocal)) ∧
    (∀ d, 0 < times → d ≠ [] → PyDict.get? d llh = none →
      multipleCompile (.ok true) llh batch keySum compiled force apply times key (.dict d) = (.dict d, .error .keyError)) := by
  constructor
  · intro ht
    have : times.toNat = 0 := by omega
    simp [multipleCompile, this, rounds]
  · intro d ht hd hl
    obtain ⟨n, hn⟩ : ∃ n, times.toNat = n + 1 := ⟨times.toNat - 1, by omega⟩
    simp [multipleCompile, hn, rounds, newG4, G4.truth, hd, PyDict.getItem, hl, bind, Except.bind, pure, Except.pure]

/-- **C83 (negation: text).** A file name given as text is cut to its first character. -/
theorem C83_text_is_cut (llh : String) (batch seed : Int) (s : String) (c : Char) (r : List Char) (hs : s.toList = c :: r) :
    newG4 (.ok true) llh batch seed (.plain (.text s)) = .ok (.plain (settings (.str (String.singleton c)) batch seed)) := by
  have hne : s ≠ "" := by rintro rfl; simp at hs
  simp [newG4, G4.truth, hne, Entry.first, hs, settings, bind, Except.bind, pure, Except.pure]

/-- **C83 (negation: seeds).** Rounds whose keys have the same sum run the same program, so they use the same events of the file. -/
theorem C83_seeds_collide (useMc : Res Bool) (llh : String) (batch : Int) (keySum : K → Int) (k k' : K) (h : keySum k = keySum k') (g : G4) :
    newG4 useMc llh batch (keySum k) g = newG4 useMc llh batch (keySum k') g := by rw [h]

end

/-! ### Concrete cases -/

/-- Keys are pairs of numbers; the compiled program puts the seed into its only event. -/
def exCompiled (g : G4) : Res (Int × Int → (Int × Int) × List (List ℚ)) :=
  match g with
  | .dict [("a", .list [_, _, .int s]), _] => .ok (fun k => ((k.1 + 1, k.2), [[(s : ℚ)], [1]]))
  | .falsy => .ok (fun k => ((k.1 + 1, k.2), [[(k.1 : ℚ)], [1]]))
  | _ => .error .typeError

/-- Two rounds with files for two likelihoods. -/
example : multipleCompile (.ok true) "a" 100 (fun k => k.1 + k.2) exCompiled false false 2 (5, 6)
      (.dict [("a", .list [.str "er.npz"]), ("b", .list [.str "nr.npz", .int 7])]) =
    (.dict [("a", .list [.str "er.npz", .int 100, .int 12]), ("b", .list [.str "nr.npz", .int 7])], .ok ((7, 6), [[11, 12], [1, 1]])) := by
  decide +kernel

example : multipleCompile (.ok false) "a" 100 (fun k => k.1 + k.2) exCompiled false false 2 (5, 6) .falsy =
    (.falsy, .ok ((7, 6), [[5, 6], [1, 1]])) := by decide +kernel

/-- Keys with the same sum. -/
example : (fun k : Int × Int => k.1 + k.2) (1, 2) = (fun k : Int × Int => k.1 + k.2) (2, 1) ∧ ((1, 2) : Int × Int) ≠ (2, 1) := by decide

/-- A file name given as text. -/
example : newG4 (.ok true) "a" 10 3 (.plain (.text "er.npz")) = .ok (.plain (.list [.str "e", .int 10, .int 3])) := by decide +kernel

end Verif.Recompile
