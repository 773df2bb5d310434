/-
Property theorems C21-C27 and C54: configuration cache, resolution, SigmaMap, plugin instances, file lookup.
-/
import Verif.Lemmas.Config
import Mathlib.Algebra.Order.Field.Basic
import Mathlib.Data.List.Induction
import Mathlib.Tactic.Linarith
import Mathlib.Tactic.Ring
import Mathlib.Tactic.NormNum

namespace Verif.Conf
open Verif

/-- **C21 (precedence).** A configuration resolves to the cached value for the likelihood if there is one; if the
name is cached without an entry for the likelihood it raises ValueError; if the name is not cached it resolves to the
default, which is then the value for every likelihood. -/
theorem C21_precedence (fs : FS) (cf : Conf) (llh : Option String) (c : Cache) :
    (∀ a, valueFor c cf.name llh = some a →
      ∀ u, (resolve fs u cf llh c).2 = .ok a ∧ (resolve fs u cf llh c).1.data = c.data) ∧
    (valueFor c cf.name llh = none → cf.name ∈ c.data.keys →
      ∀ u, (resolve fs u cf llh c).2 = .error .valueError ∧ (resolve fs u cf llh c).1.data = c.data) ∧
    (cf.name ∉ c.data.keys → cf.default = none →
      ∀ u, (resolve fs u cf llh c).2 = .error .valueError ∧ (resolve fs u cf llh c).1 = c) ∧
    (∀ a, cf.name ∉ c.data.keys → cf.default = some a →
      (resolve fs false cf llh c).2 = .ok a ∧
      (∀ l, valueFor (resolve fs false cf llh c).1 cf.name l = some a) ∧
      ∀ n, n ≠ cf.name → (resolve fs false cf llh c).1.data.get? n = c.data.get? n) ∧
    (∀ s, cf.name ∉ c.data.keys → cf.default = some (.str s) → ∀ p, (getFilePath fs s c).2 = .ok p →
      (resolve fs true cf llh c).2 = .ok (.str p) ∧
      ∀ l, valueFor (resolve fs true cf llh c).1 cf.name l = some (.str p)) := by
  refine ⟨?_, ?_, ?_, ?_, ?_⟩
  · intro a ha u
    rw [resolve_eq]
    unfold valueFor at ha
    cases hg : c.data.get? cf.name with
    | none => rw [hg] at ha; cases ha
    | some v =>
      rw [hg] at ha
      simp only [pick_eq]
      cases v with
      | atom b => simp only at ha ⊢; cases ha; exact ⟨rfl, rfl⟩
      | dict m => simp only at ha ⊢; rw [ha]; exact ⟨rfl, rfl⟩
  · intro ha hk u
    rw [resolve_eq]
    obtain ⟨v, hg⟩ := (PyDict.mem_keys_iff_exists _ _).1 hk
    unfold valueFor at ha
    rw [hg] at ha ⊢
    simp only [pick_eq]
    cases v with
    | atom b => cases ha
    | dict m => simp only at ha ⊢; rw [ha]; exact ⟨rfl, rfl⟩
  · intro hk hd u
    rw [resolve_eq, (PyDict.get?_eq_none_iff _ _).2 hk]
    simp [hd, getDefault]
  · intro a hk hd
    rw [resolve_eq, (PyDict.get?_eq_none_iff _ _).2 hk]
    simp only [hd, getDefault, transformed, Bool.false_eq_true, if_false, set_data, valueFor,
      PyDict.get?_set_self, true_and, implies_true]
    intro n hn
    exact PyDict.get?_set_ne _ _ (Ne.symm hn)
  · intro s hk hd p hp
    rw [resolve_eq, (PyDict.get?_eq_none_iff _ _).2 hk]
    simp only [hd, getDefault, transformed, if_true]
    generalize getFilePath fs s c = g at hp
    obtain ⟨c1, r⟩ := g
    simp only at hp
    subst hp
    simp [valueFor]

/-- **C21 (stability).** Once a name resolved for a likelihood, every later resolution of the same name and likelihood,
by any configuration object, gives the same value, whatever other configurations are resolved, built or read in
between, and whether or not these succeed. -/
theorem C21_resolution_is_stable (fs : FS) (u u' : Bool) (cf cf' : Conf) (llh : Option String) (c : Cache) (a : Atom)
    (hn : cf'.name = cf.name) (h : (resolve fs u cf llh c).2 = .ok a) (ops : List ReadOp) :
    (resolve fs u' cf' llh (runReads fs ops (resolve fs u cf llh c).1)).2 = .ok a := by
  have hv := resolve_valueFor fs u cf llh c a h
  have hv' := valueFor_ext (runReads_ext fs ops _) hv
  exact ((C21_precedence fs cf' llh _).1 a (by rw [hn]; exact hv') u').1

/-- Two configurations of the same name and different defaults: the default of whichever is resolved first is used by
both. -/
theorem C21_first_default_wins (fs : FS) (name : String) (a b : Atom) (llh llh' : Option String) :
    (resolve fs false ⟨name, some b⟩ llh' (resolve fs false ⟨name, some a⟩ llh {}).1).2 = .ok a := by
  have h := ((C21_precedence fs ⟨name, some a⟩ llh {}).2.2.2.1 a (by simp [PyDict.keys]) rfl).2.1 llh'
  exact ((C21_precedence fs ⟨name, some b⟩ llh' _).1 a h false).1

/-- A file system with one data directory, for the examples. -/
def exFS : FS :=
  { isFile := fun s => s = "/d/a.json" || s = "/p/maps/b.json"
    pathExists := fun s => s = "/d/a.json" || s = "/p/maps/b.json" || s = "/d"
    pkg := "/p" }

/-- Non-vacuity of C21: a per-likelihood value, resolved for one likelihood, absent for the other. -/
example : (resolve exFS false ⟨"w", some (.num 1)⟩ (some "sci")
      (setGlobal exFS [("w", .dict [("sci", .num 5)])] {}).1).2 = .ok (.num 5) ∧
    (resolve exFS false ⟨"w", some (.num 1)⟩ (some "cal")
      (setGlobal exFS [("w", .dict [("sci", .num 5)])] {}).1).2 = .error .valueError ∧
    (resolve exFS true ⟨"m", some (.str "b.json")⟩ (some "cal") {}).2 = .ok (.str "/p/maps/b.json") := by
  decide +kernel

/-! ### C22 -/

/-- **C22.** After a successful `set_global_config` every given name holds what was given — numbers and lists as they
are, strings as found files, per-likelihood dictionaries entry by entry, dropping entries of other types — and every
other name is unchanged. -/
theorem C22_stores_what_was_given (fs : FS) (e : List (String × CVal)) (c : Cache)
    (hn : (e.map Prod.fst).Nodup) (hdn : ∀ k d, (k, CVal.dict d) ∈ e → d.keys.Nodup)
    (hub : "url_base" ∉ e.map Prod.fst) (h : (setGlobal fs e c).2 = .ok ()) :
    (∀ k v, (k, v) ∈ e → ∃ w, (setGlobal fs e c).1.data.get? k = some w ∧
      Stored fs (c.data.get? "url_base") v w) ∧
    ∀ k, k ∉ e.map Prod.fst → (setGlobal fs e c).1.data.get? k = c.data.get? k :=
  ⟨fun k v hv => (setGlobal_ok fs _ e c rfl hub hn hdn h k).2 v hv, fun k hk => (setGlobal_ok fs _ e c rfl hub hn hdn h k).1 hk⟩

/-- A failing call leaves the entries before the failing one applied, and drops nothing silently at the top level. -/
theorem C22_failure_keeps_earlier_entries :
    setGlobal exFS [("a", .atom (.num 1)), ("b", .atom (.other 0)), ("c", .atom (.num 3))] {}
      = ({ data := [("a", .atom (.num 1))] }, .error .notImplemented) ∧
    setGlobal exFS [("a", .atom (.num 1)), ("b", .atom (.str "no.json"))] {}
      = ({ data := [("a", .atom (.num 1))] }, .error .runtimeError) := by decide +kernel

/-- Entries of another type (for example `None` or a nested dictionary) in a per-likelihood dictionary disappear without
an error. -/
theorem C22_other_entries_dropped :
    setGlobal exFS [("w", .dict [("sci", .num 1), ("cal", .other 0)])] {}
      = ({ data := [("w", .dict [("sci", .num 1)])] }, .ok ()) := by decide +kernel

/-- Non-vacuity of C22. -/
example : setGlobal exFS [("w", .atom (.num 2)), ("m", .dict [("sci", .str "b.json"), ("cal", .str "/d/a.json")])] {}
    = ({ data := [("w", .atom (.num 2)), ("m", .dict [("sci", .str "/p/maps/b.json"), ("cal", .str "/d/a.json")])] },
       .ok ()) := by decide +kernel

/-! ### C23 -/

/-- **C23.** After any history of cache operations the unused-configuration check reports exactly the names present in
the cache that were neither read nor written by item access since the last clear. -/
theorem C23_unused_exact (ops : List DictOp) (k : String) :
    k ∈ unused (ops.foldl (fun c o => o.run c) {}) ↔
      k ∈ (ops.foldl (fun c o => o.run c) ({} : Cache)).data.keys ∧ ¬ TouchedSinceClear ops k := by
  have hacc : ∀ ops : List DictOp, k ∈ (ops.foldl (fun c o => o.run c) ({} : Cache)).accessed ↔
      TouchedSinceClear ops k := by
    intro ops
    induction ops using List.reverseRecOn with
    | nil => simp [TouchedSinceClear]
    | append_singleton ops o ih =>
      rw [List.foldl_append]
      simp only [List.foldl_cons, List.foldl_nil]
      have hrec : ∀ (c : Cache) k', k ∈ (c.record k').accessed ↔ k ∈ c.accessed ∨ k = k' := by
        intro c k'
        unfold Cache.record
        simp only
        split
        · rename_i hk
          constructor
          · exact .inl
          · rintro (h | rfl)
            · exact h
            · exact hk
        · simp
      have hsnoc : TouchedSinceClear (ops ++ [o]) k ↔
          (o = .getItem k ∨ ∃ v, o = .setItem k v) ∨ (o ≠ .clear ∧ TouchedSinceClear ops k) := by
        constructor
        · rintro ⟨pre, post, o', heq, ho, hpost⟩
          rcases List.eq_nil_or_concat post with rfl | ⟨post', o2, rfl⟩
          · have := List.append_inj' heq rfl
            left
            have h2 := this.2
            simp only [List.cons.injEq, and_true] at h2
            rw [h2]; exact ho
          · right
            have heq' : ops ++ [o] = (pre ++ o' :: post') ++ [o2] := by rw [heq]; simp
            have := List.append_inj' heq' rfl
            obtain ⟨h1, h2⟩ := this
            simp only [List.cons.injEq, and_true] at h2
            subst h2
            simp only [List.concat_eq_append, List.mem_append, List.mem_singleton, not_or] at hpost
            exact ⟨Ne.symm hpost.2, pre, post', o', h1, ho, hpost.1⟩
        · rintro (ho | ⟨hne, pre, post, o', heq, ho, hpost⟩)
          · exact ⟨ops, [], o, by simp, ho, by simp⟩
          · exact ⟨pre, post ++ [o], o', by rw [heq]; simp, ho, by simp [hpost, Ne.symm hne]⟩
      rw [hsnoc, ← ih]
      cases o with
      | getItem k' =>
        simp only [DictOp.run, Cache.get, hrec, DictOp.getItem.injEq, reduceCtorEq, exists_false, or_false, ne_eq,
          not_false_eq_true, true_and]
        rw [or_comm, eq_comm]
      | setItem k' v =>
        simp only [DictOp.run, Cache.set, hrec, DictOp.setItem.injEq, reduceCtorEq, false_or, ne_eq,
          not_false_eq_true, true_and, exists_and_left, exists_eq', and_true]
        rw [or_comm, eq_comm]
      | update k' v => simp [DictOp.run, Cache.put]
      | contains k' => simp [DictOp.run]
      | clear => simp [DictOp.run, Cache.clear]
  unfold unused
  rw [List.mem_filter, decide_eq_true_eq, hacc]

/-- A resolved configuration is not reported. -/
theorem C23_resolved_not_reported (fs : FS) (u : Bool) (cf : Conf) (llh : Option String) (c : Cache) (a : Atom)
    (h : (resolve fs u cf llh c).2 = .ok a) : cf.name ∉ unused (resolve fs u cf llh c).1 := by
  have hrec : ∀ c : Cache, cf.name ∈ (c.record cf.name).accessed := by
    intro c; unfold Cache.record; simp only; split <;> simp_all
  have : cf.name ∈ (resolve fs u cf llh c).1.accessed := by
    rw [resolve_eq] at h ⊢
    cases hg : c.data.get? cf.name with
    | some v => exact hrec c
    | none =>
      rw [hg] at h
      simp only at h ⊢
      cases hd : getDefault cf.default with
      | error e => rw [hd] at h; cases h
      | ok b =>
        rw [hd] at h
        simp only at h ⊢
        generalize transformed fs u b c = g at h ⊢
        obtain ⟨c1, r⟩ := g
        cases r with
        | error e => cases h
        | ok b' => exact hrec c1
  unfold unused
  rw [List.mem_filter]
  simp [this]

/-- Non-vacuity of C23. -/
example : unused ([DictOp.update "a" (.atom (.num 1)), .update "b" (.atom (.num 2)), .getItem "a", .contains "b"].foldl
      (fun c o => o.run c) {}) = ["b"] ∧
    unused ([DictOp.update "a" (.atom (.num 1)), .getItem "a", .clear, .update "a" (.atom (.num 1))].foldl
      (fun c o => o.run c) {}) = ["a"] := by decide +kernel

/-! ### C24 -/
section
variable {F : Type} [Field F] [LinearOrder F] [IsStrictOrderedRing F]

/-- **C24.** The value of a SigmaMap is the median at 0, the upper map at 1, the lower map at -1; it is affine on each
side with slopes `upper - median` and `median - lower`; without a parameter it is the upper map. -/
theorem C24_anchor_values (m l u : F) :
    sigmaApply m l u (some 0) = m ∧ sigmaApply m l u (some 1) = u ∧ sigmaApply m l u (some (-1)) = l ∧
    sigmaApply m l u none = u ∧
    (∀ s, 0 ≤ s → sigmaApply m l u (some s) = m + (u - m) * s) ∧
    (∀ s, s ≤ 0 → sigmaApply m l u (some s) = m + (m - l) * s) := by
  have hpos : ∀ s : F, 0 ≤ s → sigmaApply m l u (some s) = m + (u - m) * s := by
    intro s hs
    unfold sigmaApply
    simp only [Option.getD_some]
    rcases eq_or_lt_of_le hs with rfl | h
    · simp
    · rw [if_pos h]
  have hneg : ∀ s : F, s ≤ 0 → sigmaApply m l u (some s) = m + (m - l) * s := by
    intro s hs
    unfold sigmaApply
    simp only [Option.getD_some]
    rw [if_neg (not_lt.2 hs)]
  refine ⟨by rw [hpos 0 le_rfl]; ring, by rw [hpos 1 zero_le_one]; ring,
    by rw [hneg (-1) (by linarith [zero_lt_one (α := F)])]; ring, ?_, hpos, hneg⟩
  unfold sigmaApply
  simp

/-- **C24 (monotone, bounded).** If lower ≤ median ≤ upper the value is non-decreasing in sigma, and between lower and
upper for sigma in [-1, 1]. -/
theorem C24_monotone (m l u : F) (h1 : l ≤ m) (h2 : m ≤ u) :
    (∀ s t, s ≤ t → sigmaApply m l u (some s) ≤ sigmaApply m l u (some t)) ∧
    ∀ s, -1 ≤ s → s ≤ 1 → l ≤ sigmaApply m l u (some s) ∧ sigmaApply m l u (some s) ≤ u := by
  obtain ⟨-, hu, hl, -, hp, hn⟩ := C24_anchor_values m l u
  have hmono : ∀ s t, s ≤ t → sigmaApply m l u (some s) ≤ sigmaApply m l u (some t) := by
    intro s t hst
    rcases le_total 0 s with hs | hs
    · rw [hp s hs, hp t (le_trans hs hst)]
      have := mul_le_mul_of_nonneg_left hst (sub_nonneg.2 h2)
      linarith
    · rcases le_total 0 t with ht | ht
      · rw [hn s hs, hp t ht]
        have a1 := mul_nonpos_of_nonneg_of_nonpos (sub_nonneg.2 h1) hs
        have a2 := mul_nonneg (sub_nonneg.2 h2) ht
        linarith
      · rw [hn s hs, hn t ht]
        have := mul_le_mul_of_nonneg_left hst (sub_nonneg.2 h1)
        linarith
  refine ⟨hmono, fun s a b => ⟨?_, ?_⟩⟩
  · conv_lhs => rw [← hl]
    exact hmono _ _ a
  · conv_rhs => rw [← hu]
    exact hmono _ _ b

example : sigmaApply (10 : ℚ) 8 13 (some (1/2)) = 23/2 ∧ sigmaApply (10 : ℚ) 8 13 (some (-1/2)) = 9 := by
  constructor <;> decide +kernel
end

/-! ### C25 -/

/-- **C25.** The parameter a built SigmaMap reads (its own likelihood name, no argument) is the one `required_parameter`
declared for that likelihood at deduction, whatever the class-level object was last built for and whatever
configurations were resolved or built in between. -/
theorem C25_applied_parameter_is_declared (fs : FS) (cf : Conf) (l : String) (attr : Option String) (c : Cache)
    (p : Option Item) (h : (requiredParameter cf attr (some l) c).2 = .ok p) (ops : List ReadOp) :
    (requiredParameter cf (some l) none (runReads fs ops (requiredParameter cf attr (some l) c).1)).2 = .ok p := by
  obtain ⟨a, ha, hp⟩ := (requiredParameter_ok_iff _ _ _ _ _).1 h
  rw [requiredParameter_cache, requiredParameter_ok_iff]
  refine ⟨a, ?_, hp⟩
  apply getConfigs_of_valueFor
  have := getConfigs_valueFor _ _ _ _ _ ha
  exact valueFor_ext (runReads_ext fs ops _) this

/-- **C25 (which parameter).** Declared from the value the name has for the likelihood. -/
theorem C25_declared_parameter (cf : Conf) (attr : Option String) (l : String) (c : Cache) (a : Atom)
    (h : valueFor c cf.name (some l) = some a) :
    (requiredParameter cf attr (some l) c).2 = .ok (namedParameter cf.name a) :=
  (requiredParameter_ok_iff _ _ _ _ _).2 ⟨a, getConfigs_of_valueFor _ _ _ _ _ h, rfl⟩

/-- Setting the configuration between deduction and use does change the parameter that is read. -/
theorem C25_set_config_changes_parameter :
    (requiredParameter ⟨"m", some (.str "b.json")⟩ none (some "sci") {}).2 = .ok none ∧
    (requiredParameter ⟨"m", some (.str "b.json")⟩ (some "sci") none
      (setGlobal exFS [("m", .atom (.list [.str "b.json", .str "b.json", .str "b.json", .str "p"]))]
        (requiredParameter ⟨"m", some (.str "b.json")⟩ none (some "sci") {}).1).1).2 = .ok (some (.str "p")) := by
  decide +kernel

/-- Non-vacuity of C25: lists of three and of four. -/
example : (requiredParameter ⟨"m", some (.list [.str "a", .str "b", .str "c"])⟩ none (some "sci") {}).2
      = .ok (some (.str "m_sigma")) ∧
    (requiredParameter ⟨"m", some (.list [.str "a", .str "b", .str "c", .str "p"])⟩ none (some "sci") {}).2
      = .ok (some (.str "p")) := by decide +kernel

/-! ### C26 -/

/-- **C26 (isolation).** Building a SigmaMap for one likelihood, successfully or not, changes no entry of any other
likelihood under any name, except that the map's own default is remembered under its own name when that was unset. -/
theorem C26_other_likelihoods_unchanged (fs : FS) (cf : Conf) (l : String) (c : Cache) (n : String)
    (l2 : Option String) (hl : l2 ≠ some l) (hn : n ≠ cf.name ∨ cf.name ∈ c.data.keys) :
    valueFor (sigmaBuild fs cf (some l) c).1 n l2 = valueFor c n l2 := by
  have hmain : Iso l cf.name c (sigmaBuild fs cf (some l) c).1 := by
    unfold sigmaBuild
    have h1 := getConfigs_iso l cf (some l) none c
    generalize getConfigs cf (some l) none c = g at *
    obtain ⟨c1, r1⟩ := g
    cases r1 with
    | error e => exact h1
    | ok configs =>
      simp only
      cases getDefault cf.default with
      | error e => exact h1
      | ok dflt =>
        simp only
        split
        · exact h1
        · obtain ⟨i1, i2, i3, i4⟩ := sigmaLoop_spec cf configs dflt l [("median", 0), ("lower", 1), ("upper", 2)] c1
          generalize sigmaLoop cf configs dflt (some l) [("median", 0), ("lower", 1), ("upper", 2)] c1 = g2 at *
          obtain ⟨c2, r2⟩ := g2
          cases r2 with
          | error e => exact h1.trans i1
          | ok subs =>
            simp only
            have hk : ∀ s ∈ subs, s.name ∈ c2.data.keys := fun s hs =>
              (forall₂_mem_right (i4 subs rfl) s hs).choose_spec.2.1
            have hb := (buildMaps_cached fs (some l) subs c2 hk).1
            generalize buildMaps fs (some l) subs c2 = g3 at *
            obtain ⟨c3, r3⟩ := g3
            have h3 : Iso l cf.name c c3 := (h1.trans i1).trans (Iso.of_data hb)
            cases r3 with
            | error e => exact h3
            | ok files =>
              simp only
              have h4 : Iso l cf.name c3 (requiredParameter cf (some l) none c3).1 := by
                rw [requiredParameter_cache]; exact getConfigs_iso l cf (some l) none c3
              generalize requiredParameter cf (some l) none c3 = g4 at *
              obtain ⟨c4, r4⟩ := g4
              cases r4 <;> exact h3.trans h4
  by_cases hne : n = cf.name
  · subst hne
    rcases hn with hn | hn
    · exact absurd rfl hn
    · obtain ⟨v, hv⟩ := (PyDict.mem_keys_iff_exists _ _).1 hn
      -- the entry of the name itself is only extended under other names
      have hext := sigmaBuild_ext fs cf (some l) c
      have hown : (sigmaBuild fs cf (some l) c).1.data.get? cf.name = some v :=
        sigmaBuild_own fs cf l c v hv
      unfold valueFor
      rw [hown, hv]
  · exact hmain n hne l2 hl

/-- **C26 (files used).** After a successful build for a likelihood, the three files are the ones configured for it,
unless a sub-map name is already cached as a plain value.  In particular a build whose files differ from the ones an
earlier build fixed for the likelihood does not succeed. -/
theorem C26_built_files_are_configured_partial (fs : FS) (cf : Conf) (l : String) (c : Cache) (files : List String)
    (configs : Atom) (hcfg : (getConfigs cf (some l) none c).2 = .ok configs)
    (hna : ∀ sg ∈ sigmas, ∀ a, c.data.get? (subName cf.name sg) ≠ some (.atom a))
    (h : (sigmaBuild fs cf (some l) c).2 = .ok files) :
    List.Forall₂ (fun i f => sigmaValue configs i = .ok (.str f)) [0, 1, 2] files ∧
    List.Forall₂ (fun sg f => valueFor (sigmaBuild fs cf (some l) c).1 (subName cf.name sg) (some l)
      = some (.str f)) sigmas files := by
  have hext := sigmaBuild_ext fs cf (some l) c
  unfold sigmaBuild at h hext ⊢
  have hg1 : ∀ k, k ≠ cf.name → (getConfigs cf (some l) none c).1.data.get? k = c.data.get? k := by
    intro k hk
    rw [getConfigs_eq]
    cases c.data.get? cf.name with
    | some v => rfl
    | none =>
      simp only
      cases getDefault cf.default with
      | error e => rfl
      | ok a => simp only [set_data]; exact PyDict.get?_set_ne _ _ (Ne.symm hk)
  generalize getConfigs cf (some l) none c = g at *
  obtain ⟨c1, r1⟩ := g
  simp only at hcfg
  subst hcfg
  simp only at h ⊢
  cases hd : getDefault cf.default with
  | error e => rw [hd] at h; cases h
  | ok dflt =>
    rw [hd] at h
    simp only at h ⊢
    split at h
    · cases h
    · rename_i hlong
      rw [if_neg hlong]
      obtain ⟨i1, i2, i3, i4⟩ := sigmaLoop_spec cf configs dflt l [("median", 0), ("lower", 1), ("upper", 2)] c1
      generalize sigmaLoop cf configs dflt (some l) [("median", 0), ("lower", 1), ("upper", 2)] c1 = g2 at *
      obtain ⟨c2, r2⟩ := g2
      cases r2 with
      | error e => cases h
      | ok subs =>
        simp only at h ⊢
        have hf := i4 subs rfl
        rcases hf with _ | ⟨hm, hf⟩
        rcases hf with _ | ⟨hlw, hf⟩
        rcases hf with _ | ⟨hup, hf⟩
        cases hf
        rename_i s0 s1 s2
        have hb := buildMaps_cached fs (some l) [s0, s1, s2] c2 (by
          intro s hs
          simp only [List.mem_cons, List.not_mem_nil, or_false] at hs
          rcases hs with rfl | rfl | rfl
          · exact hm.2.1
          · exact hlw.2.1
          · exact hup.2.1)
        generalize buildMaps fs (some l) [s0, s1, s2] c2 = g3 at *
        obtain ⟨c3, r3⟩ := g3
        cases r3 with
        | error e => cases h
        | ok files' =>
          simp only at h hb ⊢
          have h4 := requiredParameter_ext cf (some l) none c3
          generalize requiredParameter cf (some l) none c3 = g4 at *
          obtain ⟨c4, r4⟩ := g4
          cases r4 with
          | error e => cases h
          | ok q =>
            simp only [Except.ok.injEq] at h
            subst h
            have hfiles := hb.2 files' rfl
            rcases hfiles with _ | ⟨p0, hfiles⟩
            rcases hfiles with _ | ⟨p1, hfiles⟩
            rcases hfiles with _ | ⟨p2, hfiles⟩
            cases hfiles
            have key : ∀ (s : Conf) (sg : String) (i : Nat) (f : String), sg ∈ sigmas →
                (s.name = subName cf.name sg ∧ s.name ∈ c2.data.keys ∧
                  ((∀ a, c1.data.get? s.name ≠ some (.atom a)) → ∃ v, sigmaValue configs i = .ok v ∧
                    valueFor c2 s.name (some l) = some v)) →
                valueFor c2 s.name (some l) = some (.str f) →
                sigmaValue configs i = .ok (.str f) ∧
                valueFor c4 (subName cf.name sg) (some l) = some (.str f) := by
              rintro s sg i f hsg ⟨k1, k2, k3⟩ hval
              obtain ⟨v, hv1, hv2⟩ := k3 (by
                rw [k1]
                intro a
                rw [hg1 _ (subName_ne _ _)]
                exact hna sg hsg a)
              rw [hval] at hv2
              cases hv2
              refine ⟨hv1, ?_⟩
              rw [← k1]
              apply valueFor_ext h4
              unfold valueFor at hval ⊢
              rw [hb.1]; exact hval
            obtain ⟨a0, b0⟩ := key s0 "median" 0 _ (by simp [sigmas]) hm p0
            obtain ⟨a1, b1⟩ := key s1 "lower" 1 _ (by simp [sigmas]) hlw p1
            obtain ⟨a2, b2⟩ := key s2 "upper" 2 _ (by simp [sigmas]) hup p2
            exact ⟨.cons a0 (.cons a1 (.cons a2 .nil)), .cons b0 (.cons b1 (.cons b2 .nil))⟩

/-- **C26 (conflict).** If a file is already fixed for the likelihood and another one is configured, the build does not
succeed. -/
theorem C26_conflicting_files_raise (fs : FS) (cf : Conf) (l : String) (c : Cache)
    (configs : Atom) (hcfg : (getConfigs cf (some l) none c).2 = .ok configs)
    (hna : ∀ sg ∈ sigmas, ∀ a, c.data.get? (subName cf.name sg) ≠ some (.atom a))
    (sg : String) (i : Nat) (hsg : (sg, i) ∈ [("median", 0), ("lower", 1), ("upper", 2)]) (old new : Atom)
    (hold : valueFor c (subName cf.name sg) (some l) = some old) (hnew : sigmaValue configs i = .ok new)
    (hne : old ≠ new) : ∀ files, (sigmaBuild fs cf (some l) c).2 ≠ .ok files := by
  intro files hb
  have hv := valueFor_ext (sigmaBuild_ext fs cf (some l) c) hold
  obtain ⟨h1, h2⟩ := C26_built_files_are_configured_partial fs cf l c files configs hcfg hna hb
  rcases h1 with _ | ⟨a0, h1⟩
  rcases h1 with _ | ⟨a1, h1⟩
  rcases h1 with _ | ⟨a2, h1⟩
  cases h1
  unfold sigmas at h2
  rcases h2 with _ | ⟨b0, h2⟩
  rcases h2 with _ | ⟨b1, h2⟩
  rcases h2 with _ | ⟨b2, h2⟩
  simp only [List.mem_cons, Prod.mk.injEq, List.not_mem_nil, or_false] at hsg
  have fin : ∀ f : String, sigmaValue configs i = .ok (.str f) →
      valueFor (sigmaBuild fs cf (some l) c).1 (subName cf.name sg) (some l) = some (.str f) → False := by
    intro f ha hb
    rw [hnew] at ha
    rw [hv] at hb
    cases ha; cases hb
    exact hne rfl
  rcases hsg with ⟨rfl, rfl⟩ | ⟨rfl, rfl⟩ | ⟨rfl, rfl⟩
  · exact fin _ a0 b0
  · exact fin _ a1 b1
  · exact fin _ a2 b2

/-- **C26 (forms).** A build for a likelihood that succeeds was configured with one file for the three maps, or with a list of the
files of median, lower and upper in this order and at most one more entry. -/
theorem C26_forms_partial (fs : FS) (cf : Conf) (l : String) (c : Cache) (files : List String)
    (configs : Atom) (hcfg : (getConfigs cf (some l) none c).2 = .ok configs)
    (hna : ∀ sg ∈ ["median", "lower", "upper"], ∀ a, c.data.get? (cf.name ++ "_" ++ sg) ≠ some (.atom a))
    (h : (sigmaBuild fs cf (some l) c).2 = .ok files) :
    (∃ s, configs = .str s ∧ files = [s, s, s]) ∨
    ∃ m lo up rest, configs = .list (.str m :: .str lo :: .str up :: rest) ∧ rest.length ≤ 1 ∧ files = [m, lo, up] := by
  obtain ⟨h1, _⟩ := C26_built_files_are_configured_partial fs cf l c files configs hcfg hna h
  have hlong : tooLong configs = false := by
    unfold sigmaBuild at h
    cases hg : getConfigs cf (some l) none c with
    | mk c1 r1 =>
      rw [hg] at h hcfg
      simp only at hcfg
      subst hcfg
      simp only at h
      cases hdf : getDefault cf.default with
      | error e => rw [hdf] at h; cases h
      | ok d =>
        rw [hdf] at h
        simp only at h
        split at h
        · cases h
        · rename_i hl
          cases ht : tooLong configs with
          | false => rfl
          | true => simp [ht] at hl
  rcases h1 with _ | ⟨a0, h1⟩
  rcases h1 with _ | ⟨a1, h1⟩
  rcases h1 with _ | ⟨a2, h1⟩
  cases h1
  cases configs with
  | num q => cases a0
  | other n => cases a0
  | str s =>
    simp only [sigmaValue, Except.ok.injEq, Atom.str.injEq] at a0 a1 a2
    subst a0 a1 a2
    exact .inl ⟨s, rfl, rfl⟩
  | list l =>
    right
    have item : ∀ (x : Item) (f : String), x.toAtom = .str f → x = .str f := by
      intro x f hx
      cases x with
      | str s => simp only [Item.toAtom, Atom.str.injEq] at hx; rw [hx]
      | other n => cases hx
    rcases l with _ | ⟨x, _ | ⟨y, _ | ⟨z, rest⟩⟩⟩
    · cases a0
    · cases a1
    · cases a2
    · simp only [sigmaValue, List.getElem?_cons_zero, List.getElem?_cons_succ, Except.ok.injEq] at a0 a1 a2
      rw [item x _ a0, item y _ a1, item z _ a2]
      refine ⟨_, _, _, rest, rfl, ?_, rfl⟩
      simp [tooLong] at hlong
      omega

/-- A default a SigmaMap can be built from: one file or a list of three or four entries. -/
def GoodDefault (cf : Conf) : Prop :=
  (∃ s, cf.default = some (.str s)) ∨ ∃ l, cf.default = some (.list l) ∧ 3 ≤ l.length ∧ l.length ≤ 4

/-- **C26 (bad values).** What a build raises on values of other forms: ValueError on anything but a string or a list and on a list
of more than four entries, IndexError on a list of less than three; TypeError on a file that is not a string, and the cache then
keeps it for the likelihood. -/
theorem C26_bad_values (fs : FS) (cf : Conf) (l : String) (c : Cache) (configs : Atom)
    (hcfg : (getConfigs cf (some l) none c).2 = .ok configs) (hd : GoodDefault cf)
    (hfree : ∀ sg ∈ ["median", "lower", "upper"], c.data.get? (cf.name ++ "_" ++ sg) = none) :
    ((∀ s, configs ≠ .str s) → (∀ l, configs ≠ .list l) → (sigmaBuild fs cf (some l) c).2 = .error .valueError) ∧
    (∀ es, configs = .list es → 4 < es.length → (sigmaBuild fs cf (some l) c).2 = .error .valueError) ∧
    (∀ es, configs = .list es → es.length < 3 → (sigmaBuild fs cf (some l) c).2 = .error .indexError) ∧
    (∀ n es, configs = .list (.other n :: es) → (es.length = 2 ∨ es.length = 3) →
      (sigmaBuild fs cf (some l) c).2 = .error .typeError ∧
      valueFor (sigmaBuild fs cf (some l) c).1 (cf.name ++ "_median") (some l) = some (.other n)) := by
  obtain ⟨dflt, hdf, hdl, hdv⟩ : ∃ dflt, cf.default = some dflt ∧ tooLong dflt = false ∧ ∀ i < 3, ∃ v, sigmaValue dflt i = .ok v := by
    rcases hd with ⟨s, hs⟩ | ⟨es, hs, h3, h4⟩
    · exact ⟨_, hs, rfl, fun i _ => ⟨_, rfl⟩⟩
    · refine ⟨_, hs, by simp [tooLong]; omega, fun i hi => ?_⟩
      have hlt : i < es.length := by omega
      exact ⟨es[i].toAtom, by simp only [sigmaValue, List.getElem?_eq_getElem hlt]⟩
  have hg1 : ∀ k, k ≠ cf.name → (getConfigs cf (some l) none c).1.data.get? k = c.data.get? k := by
    intro k hk
    rw [getConfigs_eq]
    cases c.data.get? cf.name with
    | some v => rfl
    | none =>
      simp only
      cases getDefault cf.default with
      | error e => rfl
      | ok a => simp only [set_data]; exact PyDict.get?_set_ne _ _ (Ne.symm hk)
  have hfree1 : ∀ sg ∈ ["median", "lower", "upper"], (getConfigs cf (some l) none c).1.data.get? (subName cf.name sg) = none := by
    intro sg hsg
    rw [hg1 _ (subName_ne _ _)]
    exact hfree sg hsg
  obtain ⟨d0, hd0⟩ := hdv 0 (by omega)
  obtain ⟨d1, hd1⟩ := hdv 1 (by omega)
  obtain ⟨d2, hd2⟩ := hdv 2 (by omega)
  have hext := sigmaBuild_ext fs cf (some l) c
  unfold sigmaBuild at hext ⊢
  generalize getConfigs cf (some l) none c = g at *
  obtain ⟨c1, r1⟩ := g
  simp only at hcfg
  subst hcfg
  simp only [hdf, getDefault, hdl, Bool.or_false] at hext ⊢
  have hup : ∀ (sg : String) (v : Atom) (c : Cache), c.data.get? (subName cf.name sg) = none →
      ∃ c', updateSigmaCache (subName cf.name sg) v l c = (c', .ok ()) ∧
        (∀ k, k ≠ subName cf.name sg → c'.data.get? k = c.data.get? k) ∧
        c'.data.get? (subName cf.name sg) = some (.dict [(l, v)]) := by
    intro sg v c h
    have hh : c.data.has (subName cf.name sg) = false := by simp [PyDict.has, h]
    refine ⟨_, by simp [updateSigmaCache, hh, Cache.get, Cache.set, Cache.record, PyDict.getItem, PyDict.get?]; rfl, ?_, ?_⟩
    · intro k hk
      simp [Cache.record, PyDict.get?_set_ne _ _ (Ne.symm hk)]
    · simp [PyDict.set]
  have n01 : subName cf.name "lower" ≠ subName cf.name "median" := by
    intro h; have := congrArg String.toList h; simp [subName] at this
  have n02 : subName cf.name "upper" ≠ subName cf.name "median" := by
    intro h; have := congrArg String.toList h; simp [subName] at this
  have n12 : subName cf.name "upper" ≠ subName cf.name "lower" := by
    intro h; have := congrArg String.toList h; simp [subName] at this
  refine ⟨?_, ?_, ?_, ?_⟩
  · intro h1 h2
    cases configs with
    | str s => exact absurd rfl (h1 s)
    | list es => exact absurd rfl (h2 es)
    | num q =>
      have v0 : sigmaValue (.num q) 0 = .error .valueError := rfl
      simp [tooLong, sigmaLoop, hd0, v0]
    | other n =>
      have v0 : sigmaValue (.other n) 0 = .error .valueError := rfl
      simp [tooLong, sigmaLoop, hd0, v0]
  · rintro es rfl hl
    rw [if_pos (by simpa [tooLong] using hl)]
  · rintro es rfl hl
    rw [if_neg (by simp [tooLong]; omega)]
    rcases es with _ | ⟨x, _ | ⟨y, _ | ⟨z, rest⟩⟩⟩
    · have v0 : sigmaValue (.list []) 0 = .error .indexError := rfl
      simp [sigmaLoop, hd0, v0]
    · obtain ⟨c2, hu, _, _⟩ := hup "median" x.toAtom c1 (hfree1 _ (by simp))
      have v0 : sigmaValue (.list [x]) 0 = .ok x.toAtom := rfl
      have v1 : sigmaValue (.list [x]) 1 = .error .indexError := rfl
      simp [sigmaLoop, hd0, hd1, v0, v1, hu]
    · obtain ⟨c2, hu, ho, _⟩ := hup "median" x.toAtom c1 (hfree1 _ (by simp))
      obtain ⟨c3, hu3, _, _⟩ := hup "lower" y.toAtom c2 (by rw [ho _ n01]; exact hfree1 _ (by simp))
      have v0 : sigmaValue (.list [x, y]) 0 = .ok x.toAtom := rfl
      have v1 : sigmaValue (.list [x, y]) 1 = .ok y.toAtom := rfl
      have v2 : sigmaValue (.list [x, y]) 2 = .error .indexError := rfl
      simp [sigmaLoop, hd0, hd1, hd2, v0, v1, v2, hu, hu3]
    · simp at hl; omega
  · rintro n es rfl hl
    have hnl : ¬ (tooLong (.list (.other n :: es)) = true) := by simp [tooLong]; omega
    rw [if_neg hnl] at hext ⊢
    rcases es with _ | ⟨y, _ | ⟨z, rest⟩⟩
    · simp at hl
    · simp at hl
    · obtain ⟨c2, hu, ho, hs⟩ := hup "median" (.other n) c1 (hfree1 _ (by simp))
      obtain ⟨c3, hu3, ho3, _⟩ := hup "lower" y.toAtom c2 (by rw [ho _ n01]; exact hfree1 _ (by simp))
      obtain ⟨c4, hu4, ho4, _⟩ := hup "upper" z.toAtom c3 (by rw [ho3 _ n12, ho _ n02]; exact hfree1 _ (by simp))
      have hloop : sigmaLoop cf (.list (.other n :: y :: z :: rest)) dflt (some l) [("median", 0), ("lower", 1), ("upper", 2)] c1 =
          (c4, .ok [⟨subName cf.name "median", some d0⟩, ⟨subName cf.name "lower", some d1⟩, ⟨subName cf.name "upper", some d2⟩]) := by
        have v0 : sigmaValue (.list (.other n :: y :: z :: rest)) 0 = .ok (.other n) := rfl
        have v1 : sigmaValue (.list (.other n :: y :: z :: rest)) 1 = .ok y.toAtom := rfl
        have v2 : sigmaValue (.list (.other n :: y :: z :: rest)) 2 = .ok z.toAtom := rfl
        simp [sigmaLoop, hd0, hd1, hd2, v0, v1, v2, hu, hu3, hu4]
      have hs4 : c4.data.get? (subName cf.name "median") = some (.dict [(l, .other n)]) := by
        rw [ho4 _ (Ne.symm n02), ho3 _ (Ne.symm n01), hs]
      have hb : buildMaps fs (some l) [⟨subName cf.name "median", some d0⟩, ⟨subName cf.name "lower", some d1⟩,
          ⟨subName cf.name "upper", some d2⟩] c4 = (c4.record (subName cf.name "median"), .error .typeError) := by
        have hh : c4.data.has (subName cf.name "median") = true := by simp [PyDict.has, hs4]
        simp [buildMaps, buildMap, resolve, hh, Cache.get, PyDict.getItem, hs4, pick, PyDict.get?]
      rw [hloop]
      simp only [hb]
      refine ⟨trivial, ?_⟩
      have : (cf.name ++ "_median") = subName cf.name "median" := by
        simp [subName, String.append_assoc]
      rw [this]
      simp [valueFor, Cache.record, hs4, pick, PyDict.get?]

/-- A SigmaMap configuration with two files, for the examples. -/
def exSigma : Conf := ⟨"m", some (.list [.str "b.json", .str "b.json", .str "b.json"])⟩
def exLists : CVal := .dict [("sci", .list [.str "/d/a.json", .str "b.json", .str "/d/a.json"]),
  ("cal", .list [.str "b.json", .str "/d/a.json", .str "b.json", .str "p"])]

/-- Non-vacuity of C26: two likelihoods with different files; then changing one of them raises. -/
example :
    let c0 : Cache := { data := [("m", exLists)] }
    let b1 := sigmaBuild exFS exSigma (some "sci") c0
    let b2 := sigmaBuild exFS exSigma (some "cal") b1.1
    let c3 := (setGlobal exFS [("m", .dict [("sci", .list [.str "b.json", .str "b.json", .str "b.json"])])] b2.1).1
    b1.2 = .ok ["/d/a.json", "b.json", "/d/a.json"] ∧ b2.2 = .ok ["b.json", "/d/a.json", "b.json"] ∧
    (sigmaBuild exFS exSigma (some "sci") c3).2 = .error .valueError := by decide +kernel

/-- Non-vacuity of the forms and of the bad values. -/
example :
    let set (es : List Item) : Cache := { data := [("m", .dict [("sci", .list es)])] }
    GoodDefault exSigma ∧
    (sigmaBuild exFS exSigma (some "sci") (set [.str "b.json"])).2 = .error .indexError ∧
    (sigmaBuild exFS exSigma (some "sci") (set [.other 3, .str "b.json", .str "b.json"])).2 = .error .typeError ∧
    (sigmaBuild exFS exSigma (some "sci") { data := [("m", .dict [("sci", .num 3)])] }).2 = .error .valueError ∧
    (sigmaBuild exFS exSigma (some "sci") { data := [("m", .dict [("sci", .str "b.json")])] }).2 = .ok ["b.json", "b.json", "b.json"] :=
  ⟨.inr ⟨_, rfl, by decide, by decide⟩, by decide +kernel⟩

/-- A build without likelihood name fixes the default files as plain values: a later build for a likelihood keeps them
and silently ignores the files configured for it. -/
theorem C26_unnamed_build_pins_files :
    let b1 := sigmaBuild exFS exSigma none {}
    let c2 := (setGlobal exFS [("m", exLists)] b1.1).1
    b1.2 = .ok ["/p/maps/b.json", "/p/maps/b.json", "/p/maps/b.json"] ∧
    valueFor c2 "m" (some "sci") = some (.list [.str "/d/a.json", .str "b.json", .str "/d/a.json"]) ∧
    (sigmaBuild exFS exSigma (some "sci") c2).2 = .ok ["/p/maps/b.json", "/p/maps/b.json", "/p/maps/b.json"] := by
  decide +kernel

/-! ### C27 -/

/-- Constructions of one plugin class for a sequence of likelihoods. -/
def constructAll (fs : FS) (configs : List Conf) (llhs : List (Option String)) (w : PluginWorld) (c : Cache) :
    Cache × PluginWorld :=
  llhs.foldl (fun s l => construct fs configs l s.2 s.1) (c, w)

/-- **C27.** A plugin instance keeps the configuration values it was built with, however many instances of its class
are built (or fail to be built) later. -/
theorem C27_instances_keep_values (fs : FS) (configs : List Conf) (llhs : List (Option String)) (w : PluginWorld)
    (c : Cache) (i : Nat) (v : PyDict String Atom) (h : w.instances[i]? = some v) :
    (constructAll fs configs llhs w c).2.instances[i]? = some v := by
  unfold constructAll
  induction llhs generalizing w c with
  | nil => exact h
  | cons l ls ih =>
    simp only [List.foldl_cons]
    refine ih (construct fs configs l w c).2 (construct fs configs l w c).1 ?_
    unfold construct
    have hlt := (List.getElem?_eq_some_iff.1 h).1
    generalize buildAll fs l configs w.cls c = g
    obtain ⟨c1, cls, r⟩ := g
    cases r with
    | error e => exact h
    | ok u => simp only; rw [List.getElem?_append_left hlt]; exact h

/-- **C27 (values).** A new instance holds, for each of its configurations, the value resolved for its likelihood. -/
theorem C27_instance_values_resolved (fs : FS) (configs : List Conf) (l : Option String) (w : PluginWorld) (c : Cache)
    (hn : (configs.map Conf.name).Nodup)
    (h : (construct fs configs l w c).2.instances.length = w.instances.length + 1) :
    ∃ v, (construct fs configs l w c).2.instances = w.instances ++ [v] ∧
      ∀ cf ∈ configs, ∃ a, v.get? cf.name = some a ∧ valueFor (construct fs configs l w c).1 cf.name l = some a := by
  have key : ∀ (cfs : List Conf) (cls : PyDict String Atom) (c : Cache), (cfs.map Conf.name).Nodup →
      (buildAll fs l cfs cls c).2.2 = .ok () →
      (∀ k, k ∉ cfs.map Conf.name → (buildAll fs l cfs cls c).2.1.get? k = cls.get? k) ∧
      Ext c.data (buildAll fs l cfs cls c).1.data ∧
      ∀ cf ∈ cfs, ∃ a, (buildAll fs l cfs cls c).2.1.get? cf.name = some a ∧
        valueFor (buildAll fs l cfs cls c).1 cf.name l = some a := by
    intro cfs
    induction cfs with
    | nil => intro cls c _ _; exact ⟨fun _ _ => rfl, Ext.refl _, by simp⟩
    | cons cf r ih =>
      intro cls c hnd hok
      simp only [List.map_cons, List.nodup_cons] at hnd
      unfold buildAll at hok ⊢
      have hst := fun a h => C21_resolution_is_stable fs false false cf cf l c a rfl h []
      have hext := resolve_ext fs false cf l c
      have hval := resolve_valueFor fs false cf l c
      generalize resolve fs false cf l c = g at *
      obtain ⟨c1, r1⟩ := g
      cases r1 with
      | error e => cases hok
      | ok a =>
        simp only at hok hext hval ⊢
        obtain ⟨i1, i2, i3⟩ := ih (cls.set cf.name a) c1 hnd.2 hok
        refine ⟨?_, hext.trans i2, ?_⟩
        · intro k hk
          simp only [List.map_cons, List.mem_cons, not_or] at hk
          rw [i1 k hk.2, PyDict.get?_set_ne _ _ (Ne.symm hk.1)]
        · intro cf' hcf'
          rcases List.mem_cons.1 hcf' with rfl | hcf'
          · exact ⟨a, by rw [i1 _ hnd.1]; simp, valueFor_ext i2 (hval a rfl)⟩
          · exact i3 cf' hcf'
  unfold construct at h ⊢
  have hk := key configs w.cls c hn
  generalize buildAll fs l configs w.cls c = g at *
  obtain ⟨c1, cls, r⟩ := g
  cases r with
  | error e => simp at h
  | ok u => exact ⟨cls, rfl, (hk rfl).2.2⟩

/-- The lineage of an instance is read from the class, so it describes the last build: two instances with different
values have the same lineage, and building the second changes the lineage of the first. -/
theorem C27_lineage_describes_last_build :
    let c0 : Cache := { data := [("w", .dict [("sci", .num 1), ("cal", .num 2)])] }
    let s1 := construct exFS [⟨"w", none⟩] (some "sci") {} c0
    let s2 := construct exFS [⟨"w", none⟩] (some "cal") s1.2 s1.1
    lineage s1.2 0 = [("w", .num 1)] ∧ s2.2.instances = [[("w", .num 1)], [("w", .num 2)]] ∧
    lineage s2.2 0 = [("w", .num 2)] := by decide +kernel

/-! ### C54 -/

/-- The candidates of the search in their documented order. -/
def candidates (fs : FS) (urlBase : Option String) (s : String) : List String :=
  (if fs.isFile s then [s] else []) ++
  ((match urlBase with
    | some u => if isAbs u then [pyJoin u s] else []
    | none => []) ++ ["maps", "data", "parameters", "instructs"].map (fun d => pyJoin (pyJoin fs.pkg d) s)).filter
      (fun p => fs.pathExists p) ++
  ((fs.aux.bind (fun f => f s)).toList ++ (fs.mongo s).toList)

/-- The url base as a string, if it is unset or a string. -/
def urlBaseIs (c : Cache) (ub : Option String) : Prop :=
  c.data.get? "url_base" = ub.map (fun u => .atom (.str u))

/-- **C54 (order).** `get_file_path` returns the first candidate, and raises RuntimeError exactly when there is none. -/
theorem C54_first_candidate (fs : FS) (s : String) (c : Cache) (ub : Option String) (h : urlBaseIs c ub) :
    (getFilePath fs s c).2 = match (candidates fs ub s).head? with
      | some p => .ok p
      | none => .error .runtimeError := by
  have hrest : getFileRest fs s = match ((["maps", "data", "parameters", "instructs"].map
      (fun d => pyJoin (pyJoin fs.pkg d) s)).filter (fun p => fs.pathExists p) ++
      ((fs.aux.bind (fun f => f s)).toList ++ (fs.mongo s).toList)).head? with
      | some p => .ok p
      | none => .error .runtimeError := by
    unfold getFileRest getAbspath
    rw [List.head?_append, List.head?_filter]
    generalize List.find? _ _ = x
    cases x with
    | some p => rfl
    | none =>
      cases fs.aux.bind (fun f => f s) with
      | some p => rfl
      | none => cases fs.mongo s <;> rfl
  unfold urlBaseIs at h
  unfold getFilePath candidates
  by_cases hf : fs.isFile s = true
  · simp [hf]
  · simp only [hf, Bool.false_eq_true, if_false, List.nil_append]
    cases ub with
    | none =>
      simp only [Option.map_none] at h
      simp only [PyDict.has, h, Option.isSome_none, Bool.false_eq_true, if_false, List.nil_append]
      exact hrest
    | some u =>
      simp only [Option.map_some] at h
      simp only [PyDict.has, h, Option.isSome_some, if_true, Cache.get, PyDict.getItem]
      cases hu : isAbs u with
      | false => simpa using hrest
      | true =>
        simp only [if_true, List.cons_append, List.nil_append, List.filter_cons]
        cases hp : fs.pathExists (pyJoin u s) with
        | true => simp
        | false => simpa using hrest

theorem isAbs_join (a b : String) (h : isAbs a = true) : isAbs (pyJoin a b) = true := by
  unfold pyJoin
  split
  · assumption
  · unfold isAbs at h ⊢
    simp only [decide_eq_true_eq] at h ⊢
    have ha : ∃ r, a.toList = '/' :: r := by
      cases hl : a.toList with
      | nil => rw [hl] at h; cases h
      | cons x r => rw [hl] at h; simp at h; exact ⟨r, by rw [h]⟩
    obtain ⟨r, hr⟩ := ha
    split
    · simp [String.toList_append, hr]
    · simp [String.toList_append, hr]

/-- **C54 (idempotence).** If the package directory is absolute and the other sources return existing files, a found path
is found again unchanged, also when it is a directory. -/
theorem C54_idempotent (fs : FS) (s p : String) (c : Cache) (ub : Option String) (h : urlBaseIs c ub)
    (hpkg : isAbs fs.pkg = true)
    (haux : ∀ f, fs.aux = some f → ∀ q, f s = some q → fs.isFile q = true)
    (hmongo : ∀ q, fs.mongo s = some q → fs.isFile q = true)
    (hp : (getFilePath fs s c).2 = .ok p) : (getFilePath fs p (getFilePath fs s c).1).2 = .ok p := by
  have h' : urlBaseIs (getFilePath fs s c).1 ub := by unfold urlBaseIs; rw [getFilePath_data]; exact h
  rw [C54_first_candidate fs p _ ub h']
  rw [C54_first_candidate fs s c ub h] at hp
  have hmem : p ∈ candidates fs ub s := by
    cases hh : (candidates fs ub s).head? with
    | none => rw [hh] at hp; cases hp
    | some q => rw [hh] at hp; cases hp; exact List.mem_of_head? hh
  have hfile : fs.isFile p = true → (candidates fs ub p).head? = some p := by
    intro hf; simp [candidates, hf]
  have habs : isAbs p = true → fs.pathExists p = true → (candidates fs ub p).head? = some p := by
    intro ha he
    have hj : ∀ a, pyJoin a p = p := fun a => by simp [pyJoin, ha]
    by_cases hf : fs.isFile p = true
    · exact hfile hf
    · simp only [candidates, hf, Bool.false_eq_true, if_false, List.nil_append, hj, List.map_cons, List.map_nil]
      cases ub with
      | none => simp [he]
      | some u => simp only; cases isAbs u <;> simp [he]
  have hgoal : (candidates fs ub p).head? = some p := by
    unfold candidates at hmem
    rcases List.mem_append.1 hmem with hmem | hmem
    · rcases List.mem_append.1 hmem with hmem | hmem
      · split at hmem
        · rename_i hf
          rw [List.mem_singleton] at hmem
          subst hmem; exact hfile hf
        · simp at hmem
      · rw [List.mem_filter] at hmem
        refine habs ?_ hmem.2
        rcases List.mem_append.1 hmem.1 with h1 | h1
        · cases ub with
          | none => simp at h1
          | some u =>
            simp only at h1
            split at h1
            · rw [List.mem_singleton] at h1
              rename_i hu
              rw [h1]; exact isAbs_join _ _ hu
            · simp at h1
        · obtain ⟨d, _, rfl⟩ := List.mem_map.1 h1
          exact isAbs_join _ _ (isAbs_join _ _ hpkg)
    · rcases List.mem_append.1 hmem with h1 | h1
      · rw [Option.mem_toList] at h1
        cases ha : fs.aux with
        | none => rw [ha] at h1; simp at h1
        | some f => rw [ha] at h1; exact hfile (haux f ha p h1)
      · rw [Option.mem_toList] at h1
        exact hfile (hmongo p h1)
  rw [hgoal]

/-- A url base that is not a string makes every lookup of a name that is not itself a file fail. -/
theorem C54_url_base_must_be_string (fs : FS) (s : String) (c : Cache) (v : CVal) (hf : fs.isFile s = false)
    (hv : c.data.get? "url_base" = some v) (hns : ∀ u, v ≠ .atom (.str u)) :
    (getFilePath fs s c).2 = .error .attributeError := by
  unfold getFilePath
  simp only [hf, Bool.false_eq_true, if_false, PyDict.has, hv, Option.isSome_some, if_true, Cache.get, PyDict.getItem]

/-- Non-vacuity of C54: a package file, a file under the url base, a missing file. -/
example : (getFilePath exFS "b.json" {}).2 = .ok "/p/maps/b.json" ∧
    (getFilePath exFS "a.json" { data := [("url_base", .atom (.str "/d"))] }).2 = .ok "/d/a.json" ∧
    (getFilePath exFS "a.json" {}).2 = .error .runtimeError := by decide +kernel

end Verif.Conf
