/-
C82: what a plugin declares is what it gets.
-/
import Verif.Lemmas.Declare
import Verif.Model.ShippedCode
import Verif.Props.Shipped

namespace Verif.Declare
open Verif

/-! ### Declaring configurations -/

/-- **C82 (declared).** A class decorated with configurations takes these and the ones it inherits, no name twice; no other class
changes, and every configuration given knows who takes it. -/
theorem C82_declared (w w' : World) (cls : String) (parents : List String) (items : List Item)
    (h : decorate w cls parents items = (w', .ok ())) :
    (∃ d, w'.lookup (cls :: parents) = some d ∧ ∀ k, d.get? k = (lastNamed items k).or (((w.lookup (cls :: parents)).getD []).get? k)) ∧
    (∀ k, lastNamed items k ≠ none → ((w.lookup (cls :: parents)).getD []).get? k = none) ∧
    (∀ c, c ≠ cls → w'.own.get? c = w.own.get? c) ∧
    ∀ d, Item.config d ∈ items → w'.takenBy.get? d.id = some cls := by
  unfold decorate at h
  rcases collect_cases cls items [] w.takenBy with ⟨t, hc⟩ | ⟨t, r, hc⟩
  · rw [hc] at h; simp at h
  obtain ⟨hr, ht⟩ := collect_ok hc
  have hrk : ∀ k, r.get? k = lastNamed items k := by intro k; rw [hr, get?_result]
  have htk : ∀ d, Item.config d ∈ items → t.get? d.id = some cls := by
    intro d hd
    rw [ht]
    exact takenBy_update _ _ _ d (List.mem_filterMap.2 ⟨_, hd, rfl⟩)
  have hnd : r.keys.Nodup := by rw [hr]; exact nodup_ofUpdate _
  rw [hc] at h
  simp only at h
  cases hl : w.lookup (cls :: parents) with
  | none =>
    rw [hl] at h
    simp only [Prod.mk.injEq, and_true] at h
    subst h
    refine ⟨⟨r, lookup_set _ _ _ _ _, fun k => by simp [hrk]⟩, by simp, fun c hne => PyDict.get?_set_ne _ _ (Ne.symm hne), htk⟩
  | some d =>
    rw [hl] at h
    simp only at h
    split at h
    · rename_i h0
      simp only [Prod.mk.injEq, and_true] at h
      subst h
      have : d = [] := List.length_eq_zero_iff.1 h0
      subst this
      refine ⟨⟨r, lookup_set _ _ _ _ _, fun k => by simp [hrk]⟩, by simp, fun c hne => PyDict.get?_set_ne _ _ (Ne.symm hne), htk⟩
    · split at h
      · simp at h
      · rename_i hany
        simp only [Prod.mk.injEq, and_true] at h
        subst h
        refine ⟨⟨_, lookup_set _ _ _ _ _, fun k => ?_⟩, ?_, fun c hne => PyDict.get?_set_ne _ _ (Ne.symm hne), htk⟩
        · rw [get?_update_dict _ _ hnd, hrk]; rfl
        · intro k hk
          cases hlk : lastNamed items k with
          | none => exact absurd hlk hk
          | some e =>
            have hm : (k, e) ∈ r := PyDict.mem_of_get? _ (by rw [hrk, hlk])
            simp only [List.any_eq_true, not_exists, not_and] at hany
            have := hany _ hm
            simpa [PyDict.has] using this

/-- **C82 (refused).** A configuration that the class already takes, or an argument that is not a configuration, is refused with
RuntimeError and no class changes. -/
theorem C82_refused (w : World) (cls : String) (parents : List String) (items : List Item)
    (h : Item.other ∈ items ∨ ∃ d k, w.lookup (cls :: parents) = some d ∧ d.get? k ≠ none ∧ lastNamed items k ≠ none) :
    (decorate w cls parents items).2 = .error .runtimeError ∧ (decorate w cls parents items).1.own = w.own := by
  unfold decorate
  rcases collect_cases cls items [] w.takenBy with ⟨t, hc⟩ | ⟨t, r, hc⟩
  · rw [hc]; exact ⟨rfl, rfl⟩
  rcases h with h | ⟨d, k, hl, hd, hk⟩
  · obtain ⟨t', ht'⟩ := collect_err (cls := cls) (r := []) (t := w.takenBy) h
    rw [ht'] at hc; simp at hc
  · obtain ⟨hr, ht⟩ := collect_ok hc
    have hrk : r.get? k = lastNamed items k := by rw [hr, get?_result]
    cases hlk : lastNamed items k with
    | none => exact absurd hlk hk
    | some e =>
      have hm : (k, e) ∈ r := PyDict.mem_of_get? _ (by rw [hrk, hlk])
      have h0 : d.length ≠ 0 := by
        rintro h0
        rw [List.length_eq_zero_iff.1 h0] at hd
        exact hd rfl
      have hany : r.any (fun p => d.has p.1) = true := by
        rw [List.any_eq_true]
        exact ⟨_, hm, by simpa [PyDict.has, Option.isSome_iff_ne_none] using hd⟩
      rw [hc]
      simp only [hl, if_neg h0, hany, if_true]
      exact ⟨trivial, trivial⟩

/-- **C82 (negation: repeated).** Two configurations of one name given at once are not refused; the first is dropped. -/
theorem C82_repeated_name (w : World) (cls : String) (parents : List String) (d e : Decl) (hn : d.name = e.name)
    (hfree : ((w.lookup (cls :: parents)).getD []).get? d.name = none) :
    ∃ w', decorate w cls parents [.config d, .config e] = (w', .ok ()) ∧
      (w'.lookup (cls :: parents)).bind (PyDict.get? · d.name) = some e := by
  have hr : collect cls [.config d, .config e] [] w.takenBy = ((w.takenBy.set d.id cls).set e.id cls, .ok [(e.name, e)]) := by
    simp [collect, PyDict.set, hn]
  unfold decorate
  rw [hr]
  simp only
  cases hl : w.lookup (cls :: parents) with
  | none => exact ⟨_, rfl, by rw [lookup_set]; simp [PyDict.get?, hn]⟩
  | some dd =>
    rw [hl, Option.getD_some] at hfree
    simp only
    split
    · exact ⟨_, rfl, by rw [lookup_set]; simp [PyDict.get?, hn]⟩
    · have : ([(e.name, e)] : PyDict String Decl).any (fun p => dd.has p.1) = false := by
        simp [PyDict.has, ← hn, hfree]
      rw [if_neg (by rw [this]; simp)]
      refine ⟨_, rfl, ?_⟩
      rw [lookup_set]
      simp [PyDict.update, PyDict.get?_set, hn]

/-! ### Instances -/

section
variable {S V : Type}

/-- **C82 (instance).** A plugin can be made exactly if it declares inputs and outputs, its configurations can be built, its
`simulate` names the inputs it declares in this order, and no configuration has the name of a property.  Each configuration is then
found under its own name. -/
theorem C82_instance (build : Decl → S → S × Res Unit) (c : Cls) (hi : Indexed c.configs) (llh : Option String) (s s' : S) :
    ((∃ a, init build c llh s = (s', .ok a)) ↔
      c.dependsOn ≠ [] ∧ c.provides ≠ [] ∧ Builds build (c.configs.map Prod.snd) s s' ∧ Wired c ∧
        ∀ k ∈ c.configs.keys, k ∉ properties) ∧
    ∀ a, init build c llh s = (s', .ok a) →
      (∀ k d, c.configs.get? k = some d → getAttr c a k = some (.copyOf d)) ∧
      ("llh_name" ∉ c.configs.keys → getAttr c a "llh_name" = some (.llh llh)) ∧
      ∀ k, k ≠ "llh_name" → k ∉ c.configs.keys → getAttr c a k = classAttr c k := by
  have hk : ∀ k, k ∈ c.configs.keys ↔ ∃ d ∈ c.configs.map Prod.snd, d.name = k := by
    intro k
    rw [← indexed_names hi]
    simp only [List.mem_map]
  refine ⟨⟨?_, ?_⟩, ?_⟩
  · rintro ⟨a, h⟩
    obtain ⟨h1, h2, h3, h4, _, h6⟩ := init_ok h
    refine ⟨h1, h2, (buildAll_iff _ _ _ _).1 h3, h4, fun k hm => ?_⟩
    obtain ⟨d, hd, rfl⟩ := (hk k).1 hm
    exact h6 d hd
  · rintro ⟨h1, h2, h3, h4, h5⟩
    refine ⟨PyDict.update [("llh_name", .llh llh)] ((c.configs.map Prod.snd).map (fun d => (d.name, .copyOf d))), ?_⟩
    unfold init
    rw [if_neg h1, if_neg h2, (buildAll_iff _ _ _ _).2 h3]
    simp only [(sanity_iff c).2 h4, bind, Except.bind]
    rw [setAll_of (fun d hd => h5 _ ((hk d.name).2 ⟨d, hd, rfl⟩))]
  · intro a h
    obtain ⟨_, _, _, _, ha, _⟩ := init_ok h
    have hfst : (((c.configs.map Prod.snd).map (fun d => (d.name, Attr.copyOf d))).map Prod.fst) = c.configs.keys := by
      rw [List.map_map, ← indexed_names hi]; rfl
    have hout : ∀ k, k ∉ c.configs.keys → a.get? k = PyDict.get? [("llh_name", .llh llh)] k := by
      intro k hm
      rw [ha]
      apply PyDict.get?_update_not_mem
      rw [hfst]
      exact hm
    refine ⟨?_, ?_, ?_⟩
    · intro k d hd
      have hm := PyDict.mem_of_get? _ hd
      have : a.get? k = some (.copyOf d) := by
        rw [ha]
        apply PyDict.get?_update_nodup
        · rw [hfst]; exact hi.once
        · rw [List.mem_map]
          exact ⟨d, List.mem_map.2 ⟨_, hm, rfl⟩, by rw [hi.names _ _ hm]⟩
      rw [getAttr, this]; rfl
    · intro hm
      rw [getAttr, hout _ hm]; rfl
    · intro k hne hm
      rw [getAttr, hout _ hm, PyDict.get?_cons, if_neg (Ne.symm hne)]; rfl

/-- **C82 (build fails).** The first configuration that cannot be built ends the making of a plugin with its exception; what was
built before stays, and nothing is built after. -/
theorem C82_build_error (build : Decl → S → S × Res Unit) (c : Cls) (llh : Option String) (hd : c.dependsOn ≠ []) (hp : c.provides ≠ [])
    (pre post : List Decl) (d : Decl) (hc : c.configs.map Prod.snd = pre ++ d :: post) (s s1 s2 : S) (e : PyErr)
    (h1 : Builds build pre s s1) (h2 : build d s1 = (s2, .error e)) : init build c llh s = (s2, .error e) := by
  unfold init
  rw [if_neg hd, if_neg hp, hc, buildAll_error build d post h1 h2]

/-- **C82 (class attributes).** Options with other names leave the declared inputs, outputs, parameters and the code of a plugin as
the class declares them; an option named like a property of plugins makes construction fail. -/
theorem C82_class_attributes (build : Decl → S → S × Res Unit) (c : Cls) (hi : Indexed c.configs) (llh : Option String) (s s' : S)
    (a : PyDict String Attr) (h : init build c llh s = (s', .ok a)) :
    ("depends_on" ∉ c.configs.keys → getAttr c a "depends_on" = some (.names c.dependsOn)) ∧
    ("provides" ∉ c.configs.keys → getAttr c a "provides" = some (.names c.provides)) ∧
    ("parameters" ∉ c.configs.keys → getAttr c a "parameters" = some (.names c.parameters)) ∧
    ("simulate" ∉ c.configs.keys → getAttr c a "simulate" = some (.method c.args)) ∧
    "lineage" ∉ c.configs.keys ∧ "lineage_hash" ∉ c.configs.keys := by
  obtain ⟨h1, h2⟩ := C82_instance build c hi llh s s'
  obtain ⟨_, _, h3⟩ := h2 a h
  obtain ⟨_, _, _, _, h4⟩ := h1.1 ⟨a, h⟩
  refine ⟨fun hk => ?_, fun hk => ?_, fun hk => ?_, fun hk => ?_, fun hk => h4 _ hk (by decide), fun hk => h4 _ hk (by decide)⟩ <;>
  · rw [h3 _ (by decide) hk]; rfl

/-- **C82 (inputs).** Called with a key, parameters and one value per declared input, the code of a plugin sees each value under
the name it declares, provided further arguments have defaults; otherwise each call raises TypeError, though the plugin could be
made. -/
theorem C82_inputs_by_name (build : Decl → S → S × Res Unit) (c : Cls) (hi : Indexed c.configs) (hargs : c.args.Nodup)
    (hs : "simulate" ∉ c.configs.keys) (llh : Option String) (s s' : S) (a : PyDict String Attr)
    (h : init build c llh s = (s', .ok a)) (self key pars : V) (inputs : List V) (hl : inputs.length = c.dependsOn.length) :
    (c.args.length ≤ 3 + c.dependsOn.length + c.defaults →
      ∃ b, call c a self key pars inputs = .ok b ∧ b.get? "key" = some key ∧ b.get? "parameters" = some pars ∧
        (∀ (i : Nat) (d : String) (v : V), c.dependsOn[i]? = some d → inputs[i]? = some v → b.get? d = some v)) ∧
    (3 + c.dependsOn.length + c.defaults < c.args.length → call c a self key pars inputs = .error .typeError) := by
  have hattr : getAttr c a "simulate" = some (.method c.args) := by
    rw [((C82_instance build c hi llh s s').2 a h).2.2 "simulate" (by decide) hs]; rfl
  obtain ⟨x, extra, hw⟩ := (init_ok h).2.2.2.1
  have hlen : c.args.length = 3 + c.dependsOn.length + extra.length := by rw [hw]; simp; omega
  constructor
  · intro hd
    have hb : call c a self key pars inputs = .ok (c.args.zip (self :: key :: pars :: inputs)) := by
      unfold call bindArgs
      rw [hattr]
      simp only [List.length_cons]
      rw [if_neg]
      omega
    refine ⟨_, hb, ?_, ?_, ?_⟩
    · exact get?_zip _ _ hargs 1 _ _ (by rw [hw]; rfl) rfl
    · exact get?_zip _ _ hargs 2 _ _ (by rw [hw]; rfl) rfl
    · intro i d v hi hv
      refine get?_zip _ _ hargs (i + 3) _ _ ?_ (by simpa using hv)
      rw [hw]
      have : i < c.dependsOn.length := (List.getElem?_eq_some_iff.1 hi).1
      simp only [List.cons_append, List.getElem?_cons_succ, List.getElem?_append_left this, hi]
  · intro hd
    unfold call bindArgs
    rw [hattr]
    simp only [List.length_cons]
    rw [if_pos]
    omega

/-- **C82 (mismatch).** A plugin whose `simulate` does not name its inputs as declared is never made: ValueError, or IndexError if
it has too few arguments. -/
theorem C82_mismatch_refused (build : Decl → S → S × Res Unit) (c : Cls) (llh : Option String) (s : S) (hw : ¬ Wired c) :
    ∃ e, (init build c llh s).2 = .error e ∧
      (c.dependsOn ≠ [] → c.provides ≠ [] → (∃ s', Builds build (c.configs.map Prod.snd) s s') →
        e = .valueError ∨ (e = .indexError ∧ c.args.length < 3 + c.dependsOn.length)) := by
  have hs : sanityCheck c ≠ .ok () := fun h => hw ((sanity_iff c).1 h)
  have harg : ∀ i e, argument c i = .error e → e = .indexError ∧ c.args.length ≤ i := by
    intro i e h
    unfold argument at h
    split at h
    · cases h
    · rename_i hn
      cases h
      exact ⟨rfl, List.getElem?_eq_none_iff.1 hn⟩
  have hin : ∀ l i e, checkInputs c i l = .error e → e = .valueError ∨ (e = .indexError ∧ c.args.length < i + l.length) := by
    intro l
    induction l with
    | nil => intro i e h; simp [checkInputs] at h
    | cons d l ih =>
      intro i e h
      simp only [checkInputs, bind, Except.bind] at h
      split at h
      · rename_i e' he
        cases h
        obtain ⟨h1, h2⟩ := harg _ _ he
        exact .inr ⟨h1, by simp only [List.length_cons]; omega⟩
      · split at h
        · cases h; exact .inl rfl
        · rcases ih _ _ h with h | ⟨h1, h2⟩
          · exact .inl h
          · exact .inr ⟨h1, by simp only [List.length_cons]; omega⟩
  have hsc : ∃ e, sanityCheck c = .error e ∧ (e = .valueError ∨ (e = .indexError ∧ c.args.length < 3 + c.dependsOn.length)) := by
    cases hc : sanityCheck c with
    | ok u => exact absurd hc hs
    | error e =>
      refine ⟨e, rfl, ?_⟩
      simp only [sanityCheck, bind, Except.bind] at hc
      split at hc
      · rename_i e' he
        cases hc
        obtain ⟨h1, h2⟩ := harg _ _ he
        exact .inr ⟨h1, by omega⟩
      · split at hc
        · cases hc; exact .inl rfl
        · split at hc
          · rename_i e' he
            cases hc
            obtain ⟨h1, h2⟩ := harg _ _ he
            exact .inr ⟨h1, by omega⟩
          · split at hc
            · cases hc; exact .inl rfl
            · exact hin _ _ _ hc
  obtain ⟨e, he, hee⟩ := hsc
  unfold init
  split
  · rename_i h0
    exact ⟨_, rfl, fun hne => absurd h0 hne⟩
  split
  · rename_i h0
    exact ⟨_, rfl, fun _ hne => absurd h0 hne⟩
  cases hb : buildAll build (c.configs.map Prod.snd) s with
  | mk s1 r =>
    cases r with
    | error e' =>
      refine ⟨e', rfl, fun _ _ ⟨s', hok⟩ => ?_⟩
      rw [← buildAll_iff, hb] at hok
      simp at hok
    | ok u =>
      refine ⟨e, ?_, fun _ _ _ => hee⟩
      simp only [he, bind, Except.bind]

/-- **C82 (negation: shadowing).** A configuration may have the name of a declaration or of the method: it is accepted when the
plugin is made and hides the other.  One named `simulate` makes every call fail. -/
theorem C82_shadowed (build : Decl → S → S × Res Unit) (c : Cls) (hi : Indexed c.configs) (llh : Option String) (s s' : S)
    (a : PyDict String Attr) (h : init build c llh s = (s', .ok a)) :
    (∀ k ∈ ["llh_name", "depends_on", "provides", "parameters"], ∀ d, c.configs.get? k = some d → getAttr c a k = some (.copyOf d)) ∧
    (∀ d, c.configs.get? "simulate" = some d → ∀ (self key pars : V) (inputs : List V),
      call c a self key pars inputs = .error .typeError) := by
  have hc := ((C82_instance build c hi llh s s').2 a h).1
  refine ⟨fun k _ d hd => hc k d hd, fun d hd self key pars inputs => ?_⟩
  unfold call
  rw [hc _ d hd]

end

/-! ### Sets of constants -/

/-- **C82 (set).** If a set of constants is built, each name has its row, and if the first row has fewer than 100000 numbers all rows
have `set_volume` numbers. -/
theorem C82_set_partial (names : List String) (rows : List Row) (n : Nat) (d : PyDict String (List ℚ))
    (h : setBuild (.pair names rows) = .ok (n, d)) :
    names.length = rows.length ∧ names ≠ [] ∧
    (∃ l, rows[0]? = some (.row l) ∧ l.length = n) ∧
    (∀ k, k ∈ d.keys ↔ k ∈ names) ∧
    (names.Nodup → ∀ (i : Nat) (k : String) (l : List ℚ), names[i]? = some k → rows[i]? = some (.row l) → d.get? k = some l) ∧
    (n < 100000 → ∀ r ∈ rows, ∃ l, r = .row l ∧ l.length = n) := by
  simp only [setBuild, bind, Except.bind, pure, Except.pure] at h
  split at h
  · cases h
  rename_i hlen
  push Not at hlen
  split at h
  · cases h
  rename_i rs hrs
  have hrows := rowsOf_ok hrs
  subst hrows
  cases rs with
  | nil => cases h
  | cons r rs =>
    simp only at h
    split at h
    · rename_i hall
      cases h
      rw [List.all_eq_true] at hall
      have hmap : (names.zip (r :: rs)).map Prod.fst = names := by
        rw [List.map_fst_zip]
        simp only [List.length_map] at hlen
        omega
      refine ⟨hlen, ?_, ⟨r, rfl, rfl⟩, ?_, ?_, ?_⟩
      · rintro rfl; simp at hlen
      · intro k
        rw [PyDict.ofList, PyDict.mem_keys_update, hmap]
        simp [PyDict.keys]
      · intro hn i k l hk hl
        rw [PyDict.ofList_of_nodup _ (by rw [hmap]; exact hn)]
        refine get?_zip _ _ hn i k l hk ?_
        rw [List.getElem?_map] at hl
        cases hx : (r :: rs)[i]? with
        | none => rw [hx] at hl; simp at hl
        | some x => rw [hx] at hl; simpa using hl
      · intro hn x hx
        obtain ⟨l, hl, rfl⟩ := List.mem_map.1 hx
        exact ⟨l, rfl, (isclose_nat _ _ hn).1 (hall l hl)⟩
    · cases h

/-- **C82 (set refused).** A value that is not two lists of the same length, or rows of different lengths with a first row of fewer
than 100000 numbers, raises AssertionError; a number for a row TypeError; an empty set IndexError. -/
theorem C82_set_refused :
    (∀ n, setBuild (.parts n) = .error .assertionError) ∧
    (∀ names rows, names.length ≠ rows.length → setBuild (.pair names rows) = .error .assertionError) ∧
    (∀ names rows q, names.length = rows.length → Row.scalar q ∈ rows → setBuild (.pair names rows) = .error .typeError) ∧
    setBuild (.pair [] []) = .error .indexError ∧
    (∀ (names : List String) (r : List ℚ) (rs : List (List ℚ)) (l : List ℚ), names.length = rs.length + 1 → l ∈ rs → l.length ≠ r.length →
      r.length < 100000 → setBuild (.pair names (.row r :: rs.map .row)) = .error .assertionError) := by
  refine ⟨fun _ => rfl, ?_, ?_, rfl, ?_⟩
  · intro names rows h
    simp only [setBuild, if_pos h]
  · intro names rows q h hq
    simp only [setBuild, h, ne_eq, not_true_eq_false, if_false, rowsOf_scalar hq, bind, Except.bind]
  · intro names r rs l hl hm hne hr
    have h1 : rowsOf (.row r :: rs.map .row) = .ok (r :: rs) := rowsOf_map (r :: rs)
    have h2 : ((r :: rs).all (fun x => isclose x.length r.length)) = false := by
      rw [Bool.eq_false_iff]
      intro hall
      rw [List.all_eq_true] at hall
      exact hne ((isclose_nat _ _ hr).1 (hall l (by simp [hm])))
    simp only [setBuild]
    rw [if_neg (by simp [hl]), h1]
    simp only [bind, Except.bind]
    rw [if_neg (by rw [h2]; simp)]

/-- **C82 (negation: set).** Rows of different lengths are accepted if the first has 100000 numbers. -/
theorem C82_set_tolerance :
    setBuild (.pair ["mu", "sigma"] [.row (List.replicate 100000 0), .row (List.replicate 100001 0)]) =
      .ok (100000, [("mu", List.replicate 100000 0), ("sigma", List.replicate 100001 0)]) := by
  have h : isclose (100001 : ℚ) 100000 = true := by decide +kernel
  have h' : isclose (100000 : ℚ) 100000 = true := isclose_self _
  simp only [setBuild, List.length_cons, List.length_nil, ne_eq, not_true_eq_false, if_false, rowsOf, bind, Except.bind, pure, Except.pure,
    List.all_cons, List.all_nil, List.length_replicate, Nat.cast_ofNat, h, h', Bool.and_self, if_true, List.zip_cons_cons, List.zip_nil_right]
  rfl

/-! ### Shipped plugins -/

open Verif.Shipped in
/-- The class behind a shipped plugin; its configurations are numbered. -/
def ofBody (b : Body) : Cls :=
  ⟨b.plugin.name, b.plugin.dependsOn, b.plugin.provides, b.plugin.parameters, b.args, b.defaults,
    b.plugin.configs.zipIdx.map (fun c => (c.1.name, ⟨c.2, c.1.name⟩))⟩

open Verif.Shipped in
/-- **C82 (shipped).** Every shipped plugin passes the check made when it is made and can be called with its declared inputs; its code
reads exactly the parameters and the configurations it declares, and returns a key and one value per declared output.  No
configuration hides anything. -/
theorem C82_shipped : ∀ b ∈ bodies,
    Wired (ofBody b) ∧ b.args.Nodup ∧ b.args.length = 3 + b.plugin.dependsOn.length ∧
    b.plugin.dependsOn ≠ [] ∧ b.plugin.provides ≠ [] ∧
    (∀ x, x ∈ b.reads ↔ x ∈ b.plugin.parameters) ∧ (∀ x, x ∈ b.attrs ↔ x ∈ b.plugin.configs.map Comp.Cfg.name) ∧
    (b.plugin.configs.map Comp.Cfg.name).Nodup ∧ (∀ x ∈ b.plugin.configs, x.name ∉ reserved) ∧
    ∀ n ∈ b.returns, n = 1 + b.plugin.provides.length := by
  have key : ∀ b ∈ bodies, sanityCheck (ofBody b) = .ok () ∧ b.args.Nodup ∧ b.args.length = 3 + b.plugin.dependsOn.length ∧
      b.plugin.dependsOn ≠ [] ∧ b.plugin.provides ≠ [] ∧
      ((∀ x ∈ b.reads, x ∈ b.plugin.parameters) ∧ (∀ x ∈ b.plugin.parameters, x ∈ b.reads)) ∧
      ((∀ x ∈ b.attrs, x ∈ b.plugin.configs.map Comp.Cfg.name) ∧ (∀ x ∈ b.plugin.configs.map Comp.Cfg.name, x ∈ b.attrs)) ∧
      (b.plugin.configs.map Comp.Cfg.name).Nodup ∧ (∀ x ∈ b.plugin.configs, x.name ∉ reserved) ∧
      ∀ n ∈ b.returns, n = 1 + b.plugin.provides.length := by
    decide +kernel
  intro b hb
  obtain ⟨h1, h2, h3, h4, h5, h6, h7, h8⟩ := key b hb
  exact ⟨(sanity_iff _).1 h1, h2, h3, h4, h5, fun x => ⟨h6.1 x, h6.2 x⟩, fun x => ⟨h7.1 x, h7.2 x⟩, h8⟩

open Verif.Shipped Comp in
/-- **C82 (parameters suffice).** All parameters read by the code that a shipped component runs for a request are among those the
component says it needs. -/
theorem C82_shipped_parameters_suffice (sigmas : PyDict String Conf.CVal) (llh : String) (binsOn : List String) (comp cls : String)
    (needed : List String) (h : compNeeded sigmas llh binsOn comp cls = .ok needed) (ps : List Plugin)
    (hps : PyDict.get? components cls = some ps) (d : String) (p : Plugin)
    (hd : Reach (registry ps) "batch_size" (binsOn ++ ["eff"]) d) (hp : (registry ps).get? d = some p) :
    ∃ b ∈ bodies, b.plugin = p ∧ ∀ x ∈ b.reads, x ∈ needed := by
  have hall : ∀ c ∈ components, ∀ e ∈ registry c.2, e.2 ∈ bodies.map Body.plugin := by decide +kernel
  have hm := hall _ (PyDict.mem_of_get? _ hps) _ (PyDict.mem_of_get? _ hp)
  obtain ⟨b, hb, hbp⟩ := List.mem_map.1 hm
  refine ⟨b, hb, hbp, fun x hx => ?_⟩
  rw [C73_component_needs sigmas llh binsOn comp cls needed h]
  refine .inr ⟨ps, d, p, hps, hd, hp, .inl ?_⟩
  have := ((C82_shipped b hb).2.2.2.2.2.1 x).1 hx
  rwa [hbp] at this

/-! ### Concrete cases -/

def exWorld : World := ⟨[("Plugin", []), ("Base", [("threshold", ⟨0, "threshold"⟩)])], [(0, "Base")]⟩

/-- A class that adds a configuration to those of its parent, and one that repeats one. -/
example : decorate exWorld "Child" ["Base", "Plugin"] [.config ⟨1, "width"⟩] =
      (⟨[("Plugin", []), ("Base", [("threshold", ⟨0, "threshold"⟩)]), ("Child", [("threshold", ⟨0, "threshold"⟩), ("width", ⟨1, "width"⟩)])],
        [(0, "Base"), (1, "Child")]⟩, .ok ()) ∧
    decorate exWorld "Child" ["Base", "Plugin"] [.config ⟨1, "threshold"⟩] = ({ exWorld with takenBy := [(0, "Base"), (1, "Child")] }, .error .runtimeError) :=
  ⟨rfl, rfl⟩

example : ∃ d k, exWorld.lookup ["Child", "Base", "Plugin"] = some d ∧ d.get? k ≠ none ∧ lastNamed [.config ⟨1, "threshold"⟩] k ≠ none :=
  ⟨_, "threshold", rfl, by decide, by decide⟩

def exCls : Cls := ⟨"S1", ["num_photon", "gain"], ["s1_area"], ["g1"], ["self", "key", "parameters", "num_photon", "gain", "debug"], 1,
  [("threshold", ⟨0, "threshold"⟩)]⟩

def exBuild (d : Decl) (s : List Nat) : List Nat × Res Unit := (s ++ [d.id], .ok ())

/-- A plugin that can be made and called. -/
example : init exBuild exCls (some "llh") [] = ([0], .ok [("llh_name", .llh (some "llh")), ("threshold", .copyOf ⟨0, "threshold"⟩)]) ∧
    call exCls [("llh_name", .llh (some "llh")), ("threshold", .copyOf ⟨0, "threshold"⟩)] 0 1 2 [3, 4] =
      .ok [("self", 0), ("key", 1), ("parameters", 2), ("num_photon", 3), ("gain", 4)] ∧
    Indexed exCls.configs := by
  refine ⟨rfl, rfl, by decide, ?_⟩
  intro k c h
  simp only [exCls, List.mem_singleton, Prod.mk.injEq] at h
  obtain ⟨rfl, rfl⟩ := h
  rfl

/-- Its class attributes are as declared; an option called `lineage` cannot be made. -/
example : getAttr exCls [("llh_name", .llh (some "llh")), ("threshold", .copyOf ⟨0, "threshold"⟩)] "depends_on" =
      some (.names ["num_photon", "gain"]) ∧
    ∃ e, (init exBuild { exCls with configs := [("lineage", ⟨0, "lineage"⟩)] } none []).2 = .error e :=
  ⟨rfl, _, rfl⟩

/-- The second of three configurations cannot be built. -/
example : init (fun d s => if d.id = 1 then (s, .error .keyError) else exBuild d s)
    { exCls with configs := [("a", ⟨0, "a"⟩), ("b", ⟨1, "b"⟩), ("c", ⟨2, "c"⟩)] } none [] = ([0], .error .keyError) :=
  C82_build_error _ _ none (by simp [exCls]) (by simp [exCls]) [⟨0, "a"⟩] [⟨2, "c"⟩] ⟨1, "b"⟩ rfl [] [0] [0] .keyError
    (.cons rfl (.nil _)) rfl

/-- Inputs in the wrong order, and too few arguments. -/
example : init exBuild { exCls with dependsOn := ["gain", "num_photon"] } none [] = ([0], .error .valueError) ∧
    init exBuild { exCls with args := ["self", "key", "parameters", "num_photon"] } none [] = ([0], .error .indexError) := ⟨rfl, rfl⟩

/-- A configuration called `simulate`. -/
example : ∃ a, init exBuild { exCls with configs := [("simulate", ⟨0, "simulate"⟩)] } none [] = ([0], .ok a) ∧
    call { exCls with configs := [("simulate", ⟨0, "simulate"⟩)] } a 0 1 2 [3, 4] = .error .typeError := ⟨_, rfl, rfl⟩

example : setBuild (.pair ["mu", "sigma"] [.row [1, 2], .row [3, 4]]) = .ok (2, [("mu", [1, 2]), ("sigma", [3, 4])]) ∧
    setBuild (.pair ["mu", "sigma"] [.row [1, 2], .row [3]]) = .error .assertionError := by
  refine ⟨by decide +kernel, by decide +kernel⟩

end Verif.Declare
