import Verif.Spec.Declare
import Mathlib.Tactic.Linarith
import Mathlib.Tactic.NormNum

namespace Verif.Declare
open Verif

theorem collect_ok {cls : String} {items : List Item} {r r' : PyDict String Decl} {t t' : PyDict Nat String}
    (h : collect cls items r t = (t', .ok r')) :
    r' = r.update ((configsOf items).map (fun d => (d.name, d))) ∧ t' = t.update ((configsOf items).map (fun d => (d.id, cls))) := by
  induction items generalizing r t with
  | nil => simp only [collect, Prod.mk.injEq, Except.ok.injEq] at h; simp [configsOf, h.1, h.2]
  | cons i items ih =>
    cases i with
    | other => simp [collect] at h
    | config d =>
      simp only [collect] at h
      exact ih h

theorem collect_err {cls : String} {items : List Item} {r : PyDict String Decl} {t : PyDict Nat String}
    (h : Item.other ∈ items) : ∃ t', collect cls items r t = (t', .error .runtimeError) := by
  induction items generalizing r t with
  | nil => simp at h
  | cons i items ih =>
    cases i with
    | other => exact ⟨t, rfl⟩
    | config d =>
      simp only [List.mem_cons, reduceCtorEq, false_or] at h
      exact ih h

theorem collect_cases (cls : String) (items : List Item) (r : PyDict String Decl) (t : PyDict Nat String) :
    (∃ t', collect cls items r t = (t', .error .runtimeError)) ∨ ∃ t' r', collect cls items r t = (t', .ok r') := by
  induction items generalizing r t with
  | nil => exact .inr ⟨_, _, rfl⟩
  | cons i items ih =>
    cases i with
    | other => exact .inl ⟨t, rfl⟩
    | config d => exact ih _ _

theorem get?_named (l : List Decl) (k : String) :
    PyDict.get? (l.map (fun d => (d.name, d))) k = l.find? (fun d => d.name = k) := by
  induction l with
  | nil => rfl
  | cons d l ih =>
    rw [List.map_cons, PyDict.get?_cons, List.find?_cons, ih]
    by_cases h : d.name = k <;> simp [h]

theorem get?_result (items : List Item) (k : String) :
    PyDict.get? (PyDict.update [] ((configsOf items).map (fun d => (d.name, d)))) k = lastNamed items k := by
  rw [PyDict.get?_update, ← List.map_reverse, get?_named]
  simp [lastNamed]

theorem nodup_ofUpdate {ν : Type} (l : List (String × ν)) : (PyDict.keys (PyDict.update [] l)).Nodup :=
  PyDict.nodup_update _ _ (by simp [PyDict.keys])

theorem get?_update_dict {ν : Type} (d r : PyDict String ν) (hr : r.keys.Nodup) (k : String) :
    (d.update r).get? k = (r.get? k).or (d.get? k) := by
  rw [PyDict.get?_update]
  congr 1
  cases h : r.get? k with
  | none =>
    rw [PyDict.get?_eq_none_iff] at h ⊢
    simpa [PyDict.keys] using h
  | some v =>
    have := PyDict.mem_of_get? _ h
    apply PyDict.get?_of_mem
    · unfold PyDict.keys; rw [List.map_reverse]; exact List.nodup_reverse.2 hr
    · simpa using this

theorem lookup_set (w : World) (cls : String) (parents : List String) (d : PyDict String Decl) (t : PyDict Nat String) :
    World.lookup ⟨w.own.set cls d, t⟩ (cls :: parents) = some d := by
  simp [World.lookup, List.findSome?_cons]

theorem takenBy_update (l : List Decl) (cls : String) (t : PyDict Nat String) (d : Decl) (h : d ∈ l) :
    (t.update (l.map (fun d => (d.id, cls)))).get? d.id = some cls := by
  rw [PyDict.get?_update, ← List.map_reverse]
  have : PyDict.get? (l.reverse.map (fun d => (d.id, cls))) d.id = some cls := by
    have hm : d ∈ l.reverse := by simpa using h
    generalize l.reverse = l' at hm
    induction l' with
    | nil => simp at hm
    | cons e l' ih =>
      rw [List.map_cons, PyDict.get?_cons]
      by_cases he : e.id = d.id
      · rw [if_pos he]
      · rw [if_neg he]
        rcases List.mem_cons.1 hm with rfl | hm
        · exact absurd rfl he
        · exact ih hm
  rw [this]; rfl

/-! ### Instances -/

theorem argument_ok {c : Cls} {i : Nat} {a : String} (h : argument c i = .ok a) : c.args[i]? = some a := by
  unfold argument at h
  split at h
  · rename_i x hx; cases h; exact hx
  · cases h

theorem checkInputs_iff (c : Cls) (i : Nat) (l : List String) :
    checkInputs c i l = .ok () ↔ ∀ j, (hj : j < l.length) → c.args[i + j]? = some l[j] := by
  induction l generalizing i with
  | nil => simp [checkInputs]
  | cons d l ih =>
    simp only [checkInputs, bind, Except.bind]
    cases ha : argument c i with
    | error e =>
      simp only [reduceCtorEq, false_iff, not_forall]
      refine ⟨0, by simp, ?_⟩
      unfold argument at ha
      split at ha
      · cases ha
      · rename_i hx; simp [hx]
    | ok a =>
      have hx := argument_ok ha
      simp only
      by_cases hd : a = d
      · rw [if_neg (by simpa using hd), ih]
        constructor
        · intro h j hj
          cases j with
          | zero => simp [hx, hd]
          | succ j =>
            have := h j (by simpa using hj)
            rw [show i + (j + 1) = i + 1 + j by omega]
            simpa using this
        · intro h j hj
          have := h (j + 1) (by simpa using hj)
          rw [show i + (j + 1) = i + 1 + j by omega] at this
          simpa using this
      · rw [if_pos (by simpa using hd)]
        simp only [reduceCtorEq, false_iff, not_forall]
        refine ⟨0, by simp, ?_⟩
        simp [hx, hd]

theorem sanity_iff (c : Cls) : sanityCheck c = .ok () ↔ Wired c := by
  have hw : Wired c ↔ c.args[1]? = some "key" ∧ c.args[2]? = some "parameters" ∧
      ∀ j, (hj : j < c.dependsOn.length) → c.args[3 + j]? = some c.dependsOn[j] := by
    constructor
    · rintro ⟨s, e, h⟩
      rw [h]
      refine ⟨rfl, rfl, fun j hj => ?_⟩
      rw [show 3 + j = j + 1 + 1 + 1 by omega]
      simp [List.getElem?_append_left, hj]
    · rintro ⟨h1, h2, h3⟩
      match hargs : c.args with
      | [] => rw [hargs] at h1; simp at h1
      | [_] => rw [hargs] at h1; simp at h1
      | [_, _] => rw [hargs] at h2; simp at h2
      | s :: k :: p :: rest =>
        rw [hargs] at h1 h2
        simp only [List.getElem?_cons_succ, List.getElem?_cons_zero, Option.some.injEq] at h1 h2
        subst h1; subst h2
        refine ⟨s, rest.drop c.dependsOn.length, ?_⟩
        rw [hargs]
        simp only [List.cons_append, List.cons.injEq, true_and]
        have : rest.take c.dependsOn.length = c.dependsOn := by
          apply List.ext_getElem?
          intro j
          rw [List.getElem?_take]
          by_cases hj : j < c.dependsOn.length
          · rw [if_pos hj]
            have := h3 j hj
            rw [hargs, show 3 + j = j + 1 + 1 + 1 by omega] at this
            simpa [hj] using this
          · rw [if_neg hj, List.getElem?_eq_none (by omega)]
        conv_lhs => rw [← List.take_append_drop c.dependsOn.length rest, this]
  rw [hw]
  unfold sanityCheck
  simp only [bind, Except.bind]
  cases h1 : argument c 1 with
  | error e =>
    have : c.args[1]? = none := by
      unfold argument at h1; split at h1
      · cases h1
      · assumption
    simp [this]
  | ok a =>
    have ha := argument_ok h1
    simp only
    by_cases hk : a = "key"
    · rw [if_neg (by simpa using hk)]
      cases h2 : argument c 2 with
      | error e =>
        have : c.args[2]? = none := by
          unfold argument at h2; split at h2
          · cases h2
          · assumption
        simp [this]
      | ok b =>
        have hb := argument_ok h2
        simp only
        by_cases hp : b = "parameters"
        · rw [if_neg (by simpa using hp), checkInputs_iff]
          simp [ha, hk, hb, hp]
        · rw [if_pos (by simpa using hp)]
          simp [hb, hp]
    · rw [if_pos (by simpa using hk)]
      simp [ha, hk]

theorem setAll_ok {l : List Decl} {a a' : PyDict String Attr} (h : setAll l a = .ok a') :
    a' = a.update (l.map (fun d => (d.name, .copyOf d))) ∧ ∀ d ∈ l, d.name ∉ properties := by
  induction l generalizing a with
  | nil => cases h; simp
  | cons d l ih =>
    simp only [setAll] at h
    split at h
    · cases h
    · rename_i hd
      obtain ⟨h1, h2⟩ := ih h
      refine ⟨by rw [h1]; rfl, ?_⟩
      intro e he
      rcases List.mem_cons.1 he with rfl | he
      · exact hd
      · exact h2 e he

theorem setAll_of {l : List Decl} {a : PyDict String Attr} (h : ∀ d ∈ l, d.name ∉ properties) :
    setAll l a = .ok (a.update (l.map (fun d => (d.name, .copyOf d)))) := by
  induction l generalizing a with
  | nil => rfl
  | cons d l ih =>
    simp only [setAll, if_neg (h d (by simp))]
    exact ih (fun e he => h e (by simp [he]))

theorem buildAll_iff {S : Type} (build : Decl → S → S × Res Unit) (l : List Decl) (s s' : S) :
    buildAll build l s = (s', .ok ()) ↔ Builds build l s s' := by
  induction l generalizing s with
  | nil =>
    constructor
    · intro h; cases h; exact .nil _
    · intro h; cases h; rfl
  | cons d l ih =>
    constructor
    · intro h
      unfold buildAll at h
      split at h
      · simp at h
      · rename_i s1 h1
        exact .cons h1 ((ih s1).1 h)
    · intro h
      cases h with
      | cons h1 h2 =>
        unfold buildAll
        rw [h1]
        exact (ih _).2 h2

/-- The first exception while building ends it. -/
theorem buildAll_error {S : Type} (build : Decl → S → S × Res Unit) {pre : List Decl} (d : Decl) (post : List Decl) {s s1 s2 : S} {e : PyErr}
    (h1 : Builds build pre s s1) (h2 : build d s1 = (s2, .error e)) : buildAll build (pre ++ d :: post) s = (s2, .error e) := by
  induction h1 with
  | nil _ => rw [List.nil_append, buildAll, h2]
  | cons ha _ ih => rw [List.cons_append, buildAll, ha]; exact ih h2

theorem init_ok {S : Type} {build : Decl → S → S × Res Unit} {c : Cls} {llh : Option String} {s s' : S} {a : PyDict String Attr}
    (h : init build c llh s = (s', .ok a)) :
    c.dependsOn ≠ [] ∧ c.provides ≠ [] ∧ buildAll build (c.configs.map Prod.snd) s = (s', .ok ()) ∧ Wired c ∧
      a = PyDict.update [("llh_name", .llh llh)] ((c.configs.map Prod.snd).map (fun d => (d.name, .copyOf d))) ∧
      ∀ d ∈ c.configs.map Prod.snd, d.name ∉ properties := by
  unfold init at h
  split at h
  · simp at h
  rename_i h1
  split at h
  · simp at h
  rename_i h2
  split at h
  · simp at h
  · rename_i s0 hb
    simp only [Prod.mk.injEq, bind, Except.bind] at h
    obtain ⟨rfl, h⟩ := h
    split at h
    · simp at h
    · rename_i hs
      obtain ⟨h3, h4⟩ := setAll_ok h
      exact ⟨h1, h2, hb, (sanity_iff c).1 hs, h3, h4⟩

theorem indexed_names {d : PyDict String Decl} (h : Indexed d) : (d.map Prod.snd).map Decl.name = d.keys := by
  unfold PyDict.keys
  rw [List.map_map]
  apply List.map_congr_left
  rintro ⟨k, c⟩ hm
  exact h.names k c hm

theorem get?_zip (l : List String) {V : Type} (vs : List V) (hn : l.Nodup) (i : Nat) (k : String) (v : V) (hk : l[i]? = some k)
    (hv : vs[i]? = some v) : PyDict.get? (l.zip vs) k = some v := by
  induction l generalizing vs i with
  | nil => simp at hk
  | cons a l ih =>
    cases vs with
    | nil => simp at hv
    | cons w vs =>
      rw [List.zip_cons_cons, PyDict.get?_cons]
      cases i with
      | zero => simp only [List.getElem?_cons_zero, Option.some.injEq] at hk hv; simp [hk, hv]
      | succ i =>
        simp only [List.getElem?_cons_succ] at hk hv
        have : a ≠ k := by
          rintro rfl
          exact (List.nodup_cons.1 hn).1 (List.mem_of_getElem? hk)
        rw [if_neg this]
        exact ih vs (List.nodup_cons.1 hn).2 i hk hv

/-! ### Sets of constants -/

theorem rowsOf_map (rs : List (List ℚ)) : rowsOf (rs.map Row.row) = .ok rs := by
  induction rs with
  | nil => rfl
  | cons r rs ih => simp [rowsOf, ih, bind, Except.bind, pure, Except.pure]

theorem rowsOf_ok {rows : List Row} {rs : List (List ℚ)} (h : rowsOf rows = .ok rs) : rows = rs.map Row.row := by
  induction rows generalizing rs with
  | nil => cases h; rfl
  | cons r rows ih =>
    cases r with
    | scalar q => simp [rowsOf] at h
    | row l =>
      simp only [rowsOf, bind, Except.bind, pure, Except.pure] at h
      split at h
      · cases h
      · rename_i rs' hrs
        cases h
        rw [ih hrs]; rfl

theorem rowsOf_scalar {rows : List Row} {q : ℚ} (h : Row.scalar q ∈ rows) : rowsOf rows = .error .typeError := by
  induction rows with
  | nil => simp at h
  | cons r rows ih =>
    cases r with
    | scalar q' => rfl
    | row l =>
      simp only [List.mem_cons, reduceCtorEq, false_or] at h
      simp [rowsOf, ih h, bind, Except.bind]

theorem isclose_nat (a b : Nat) (hb : b < 100000) : isclose (a : ℚ) (b : ℚ) = true ↔ a = b := by
  unfold isclose
  rw [decide_eq_true_eq]
  constructor
  · intro h
    by_contra hne
    have hb' : |(b : ℚ)| = b := abs_of_nonneg (by positivity)
    rw [hb'] at h
    have hb2 : (b : ℚ) ≤ 99999 := by exact_mod_cast (by omega : b ≤ 99999)
    have hlt : |(a : ℚ) - b| < 1 := by
      refine lt_of_le_of_lt h ?_
      linarith
    have hi : |((a : ℤ) - (b : ℤ) : ℤ)| < 1 := by
      have : ((|((a : ℤ) - (b : ℤ) : ℤ)| : ℤ) : ℚ) < 1 := by push_cast; exact hlt
      exact_mod_cast this
    have h0 : (a : ℤ) - b = 0 := Int.abs_lt_one_iff.1 hi
    omega
  · rintro rfl
    simp only [sub_self, abs_zero]
    positivity

theorem isclose_self (a : ℚ) : isclose a a = true := by
  unfold isclose
  rw [decide_eq_true_eq]
  simp only [sub_self, abs_zero]
  positivity

end Verif.Declare
