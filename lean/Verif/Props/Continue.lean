/-
C119: a continued fit starts where the other one ended.
-/
import Verif.Model.Continue
import Verif.Props.Parameter

namespace Verif.Continue
open Verif Parameter

theorem parameterFit_congr {config config' : Config} {pm pm' : PM} (h : Inv config pm) (h' : Inv config' pm')
    (hc : config.keys.Nodup) (hc' : config'.keys.Nodup) (hn : ∀ n, IsFitted config n ↔ IsFitted config' n) :
    parameterFit pm = parameterFit pm' := by
  have hp : (parameterFit pm).Perm (parameterFit pm') := by
    rw [List.perm_ext_iff_of_nodup (parameterFit_nodup h hc) (parameterFit_nodup h' hc')]
    intro n
    rw [mem_parameterFit h hc, mem_parameterFit h' hc', ← isFitted_iff, ← isFitted_iff]
    exact hn n
  exact hp.eq_of_pairwise (fun a b _ _ => le_antisymm) (parameterFit_sorted pm) (parameterFit_sorted pm')

theorem evalLoop_eq {config : Config} (hc : config.keys.Nodup) (eval : Nat → PM → XF) (pm : PM) (hr : Reachable config pm)
    (hist rows : List (List XF)) (hh : ∀ r ∈ hist, r.length = (parameterFit pm).length)
    (hl : ∀ r ∈ rows, r.length = (parameterFit pm).length) (i : Nat) :
    (evalLoop eval i (hist.foldl (fun p xs => (evalAt p xs).1) pm) rows).2
      = .ok (rows.mapIdx fun j r => eval (i + j) (evalAt pm r).1) := by
  induction rows generalizing i hist with
  | nil => rfl
  | cons r rs ih =>
    have hinv : ∀ (l : List (List XF)) (p : PM), Inv config p → Inv config (l.foldl (fun p xs => (evalAt p xs).1) p) := by
      intro l
      induction l with
      | nil => intro p hp; exact hp
      | cons x l ih => intro p hp; exact ih _ (setParameter_inv _ _ hp)
    have hi := hinv hist pm hr.inv
    have e := evalAt_eq hi hc r
    have hleak := C05_no_leakage config hc pm hr hist r (hl r (by simp)) hh
    have ih' := ih (hist ++ [r]) (by
      intro x hx
      rcases List.mem_append.1 hx with h | h
      · exact hh x h
      · rw [List.mem_singleton.1 h]; exact hl r (by simp)) (fun x hx => hl x (by simp [hx])) (i + 1)
    rw [List.foldl_append, List.foldl_cons, List.foldl_nil] at ih'
    have hstep : setParameter (hist.foldl (fun p xs => (evalAt p xs).1) pm)
        (.dict ((parameterFit (hist.foldl (fun p xs => (evalAt p xs).1) pm)).zip r)) .none
        = ((evalAt (hist.foldl (fun p xs => (evalAt p xs).1) pm) r).1, .ok ()) := by
      have : evalAt (hist.foldl (fun p xs => (evalAt p xs).1) pm) r
          = ((evalAt (hist.foldl (fun p xs => (evalAt p xs).1) pm) r).1, .ok ()) := by rw [e]
      exact this
    unfold evalLoop
    rw [hstep]
    simp only
    rw [hleak] at ih' ⊢
    rcases hq : evalLoop eval (i + 1) (evalAt pm r).1 rs with ⟨q, res⟩
    rw [hq] at ih'
    simp only at ih'
    subst ih'
    simp only [List.mapIdx_cons, Nat.add_zero]
    congr 2
    apply List.ext_getElem
    · simp
    · intro k h1 h2
      simp only [List.getElem_mapIdx]
      congr 1
      omega

/-- Continuing a fit of another context with the same fitted parameters evaluates every walker once, in order, at the parameters it
had at the end, by name, with the fixed parameters of the new context. -/
theorem C119_starts_there_partial (config config' : Config) (hc : config.keys.Nodup) (hc' : config'.keys.Nodup) (pm pm' : PM)
    (hr : Reachable config pm) (hr' : Reachable config' pm') (hn : ∀ n, IsFitted config' n ↔ IsFitted config n)
    (eval : Nat → PM → XF) (own ch : List Iter) (it : Iter) (hlast : ch.getLast? = some it)
    (hl : ∀ r ∈ it.rows, r.length = (parameterFit pm').length) :
    ∃ seen : List PM, (begin' eval pm own (some ch)).2 = .ok (seen.mapIdx eval) ∧ seen.length = it.rows.length ∧
      ∀ (i : Nat) (r : List XF) (q : PM), it.rows[i]? = some r → seen[i]? = some q →
        (∀ (j : Nat) (n : String) (v : XF), (parameterFit pm')[j]? = some n → r[j]? = some v → q.vals.get? n = some v) ∧
        (∀ n, ¬ IsFitted config n → q.vals.get? n = pm.vals.get? n) := by
  have hf : parameterFit pm' = parameterFit pm := parameterFit_congr hr'.inv hr.inv hc' hc hn
  rw [hf] at hl
  refine ⟨it.rows.map fun r => (evalAt pm r).1, ?_, by simp, ?_⟩
  · unfold begin'
    simp only [startOf, hlast]
    have hall : it.rows.all (fun r => r.length == (parameterFit pm).length) = true := by
      rw [List.all_eq_true]; intro r h; simp [hl r h]
    rw [if_pos hall]
    have := evalLoop_eq hc eval pm hr [] it.rows (by simp) hl 0
    simp only [List.foldl_nil] at this
    rw [this]
    congr 1
    apply List.ext_getElem <;> simp
  · intro i r q hri hq
    rw [List.getElem?_map, hri] at hq
    simp only [Option.map_some, Option.some.injEq] at hq
    subst hq
    have hlr := hl r (List.mem_of_getElem? hri)
    refine ⟨?_, (C05_fit_vector_round_trip config hc pm hr r hlr).2.2⟩
    intro j n v hj hv
    rw [hf] at hj
    rw [evalAt_eq hr.inv hc]
    apply PyDict.get?_update_nodup
    · rw [zip_fst_nodup hr.inv hc r hlr]; exact parameterFit_nodup hr.inv hc
    · apply List.mem_of_getElem? (i := j)
      rw [List.getElem?_zip_eq_some]
      exact ⟨hj, hv⟩

/-- With another number of fitted parameters it raises before anything is evaluated or set. -/
theorem C119_other_number (eval : Nat → PM → XF) (pm : PM) (own ch : List Iter) (it : Iter) (hlast : ch.getLast? = some it)
    (r : List XF) (hm : r ∈ it.rows) (hr : r.length ≠ (parameterFit pm).length) :
    begin' eval pm own (some ch) = (pm, .error .valueError) := by
  unfold begin'
  simp only [startOf, hlast]
  rw [if_neg]
  rw [List.all_eq_true]
  intro h
  exact hr (by simpa using h r hm)

/-- Continuing the own fit evaluates nothing: the stored log posteriors are used. -/
theorem C119_own (eval : Nat → PM → XF) (pm : PM) (own : List Iter) (it : Iter) (hlast : own.getLast? = some it)
    (hl : ∀ r ∈ it.rows, r.length = (parameterFit pm).length) :
    begin' eval pm own none = (pm, .ok it.logp) := by
  unfold begin'
  simp only [startOf, hlast]
  rw [if_pos]
  rw [List.all_eq_true]
  intro r h
  simp [hl r h]

/-- Nothing can be continued before a fit. -/
theorem C119_nothing (eval : Nat → PM → XF) (pm : PM) (own : List Iter) :
    begin' eval pm [] none = (pm, .error .attributeError) ∧ begin' eval pm own (some []) = (pm, .error .attributeError) := ⟨rfl, rfl⟩

/-- Two fitted parameters, as in the examples. -/
noncomputable def exConfig2 (a b : String) : Config :=
  [(a, ⟨.uniform 0 10, some (0, 10), some (1, 1)⟩), (b, ⟨.uniform 0 10, some (0, 10), some (1, 1)⟩)]

-- the order in the configuration does not matter
example : ∀ n, IsFitted (exConfig2 "b" "a") n ↔ IsFitted (exConfig2 "a" "b") n := by
  intro n
  rw [isFitted_iff, isFitted_iff]
  simp only [exConfig2, PyDict.get?, List.find?]
  by_cases ha : n = "a"
  · subst ha; simp
  · by_cases hb : n = "b"
    · subst hb; simp
    · simp [Ne.symm ha, Ne.symm hb]

/-- With other parameters of the same number nothing is reported: the columns are taken in alphabetical order, so a walker with
`a = 1, b = 2` becomes one with `b = 1, c = 2`. -/
theorem C119_mixed_up (sig : Solver) (draw : String → ℝ) (eval : Nat → PM → XF) (own : List Iter) :
    ∃ pm pm' : PM, Reachable (exConfig2 "b" "c") pm ∧ Reachable (exConfig2 "a" "b") pm' ∧
      parameterFit pm' = ["a", "b"] ∧
      ∃ q : PM, (begin' eval pm own (some [⟨[[.fin 1, .fin 2]], [.fin 0]⟩])).2 = .ok [eval 0 q] ∧
        q.vals.get? "b" = some (.fin 1) ∧ q.vals.get? "c" = some (.fin 2) := by
  have hab : (exConfig2 "a" "b").keys.Nodup := by simp [exConfig2, PyDict.keys]
  have hbc : (exConfig2 "b" "c").keys.Nodup := by simp [exConfig2, PyDict.keys]
  have r1 : Reachable (exConfig2 "b" "c") (mk sig draw (exConfig2 "b" "c")).1 := ⟨sig, draw, [], rfl⟩
  have r2 : Reachable (exConfig2 "a" "b") (mk sig draw (exConfig2 "a" "b")).1 := ⟨sig, draw, [], rfl⟩
  have f1 : parameterFit (mk sig draw (exConfig2 "b" "c")).1 = ["b", "c"] := by
    unfold parameterFit
    rw [r1.inv.fitEq]
    simp only [mkRaw, exConfig2, PyDict.keys, Prior.isFixed, List.filter, Bool.not_false, List.map]
    exact List.mergeSort_of_pairwise (by decide +kernel)
  have f2 : parameterFit (mk sig draw (exConfig2 "a" "b")).1 = ["a", "b"] := by
    unfold parameterFit
    rw [r2.inv.fitEq]
    simp only [mkRaw, exConfig2, PyDict.keys, Prior.isFixed, List.filter, Bool.not_false, List.map]
    exact List.mergeSort_of_pairwise (by decide +kernel)
  obtain ⟨seen, h1, h2, h3⟩ := C119_starts_there_partial (exConfig2 "b" "c") (exConfig2 "b" "c") hbc hbc _ _ r1 r1 (fun _ => Iff.rfl) eval own
    [⟨[[.fin 1, .fin 2]], [.fin 0]⟩] ⟨[[.fin 1, .fin 2]], [.fin 0]⟩ rfl (by simp [f1])
  match seen, h2 with
  | [q], _ =>
    have := (h3 0 [.fin 1, .fin 2] q rfl rfl).1
    exact ⟨_, _, r1, r2, f2, q, h1, this 0 "b" (.fin 1) (by rw [f1]; rfl) rfl, this 1 "c" (.fin 2) (by rw [f1]; rfl) rfl⟩

end Verif.Continue
