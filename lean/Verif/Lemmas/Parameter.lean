/- Helper lemmas about the model of `parameter.py` (not claims). -/
import Verif.Model.Parameter

namespace Verif.Parameter
open Verif

theorem sampleLoop_keys (config : Config) (one) (ns : List String) (st : Store) :
    (sampleLoop config one ns st).1.keys = st.keys := by
  induction ns generalizing st with
  | nil => rfl
  | cons n ns ih =>
    unfold sampleLoop
    split
    · rfl
    · split
      · rfl
      · rename_i old hold
        split
        · rfl
        · rw [ih, PyDict.keys_set_of_mem]
          rw [PyDict.mem_keys_iff, hold]; rfl

theorem sampleLoop_other (config : Config) (one) (ns : List String) (st : Store) (m : String)
    (hm : m ∉ ns) : (sampleLoop config one ns st).1.get? m = st.get? m := by
  induction ns generalizing st with
  | nil => rfl
  | cons n ns ih =>
    simp only [List.mem_cons, not_or] at hm
    unfold sampleLoop
    split
    · rfl
    · split
      · rfl
      · split
        · rfl
        · rw [ih _ hm.2, PyDict.get?_set_ne _ _ (Ne.symm hm.1)]

theorem sampleLoop_ok (config : Config) (one) (ns : List String) (st : Store) (hn : ns.Nodup)
    (h : (sampleLoop config one ns st).2 = .ok ()) (m : String) (hm : m ∈ ns) :
    ∃ s old v, config.get? m = some s ∧ st.get? m = some old ∧ one m s old = .ok v ∧
      (sampleLoop config one ns st).1.get? m = some v := by
  induction ns generalizing st with
  | nil => simp at hm
  | cons n ns ih =>
    unfold sampleLoop at h ⊢
    cases hc : config.get? n with
    | none => simp [hc] at h
    | some s =>
      cases ho : st.get? n with
      | none => simp [hc, ho] at h
      | some old =>
        cases hv : one n s old with
        | error e => simp [hc, ho, hv] at h
        | ok v =>
          simp only [hc, ho, hv] at h ⊢
          rw [List.nodup_cons] at hn
          by_cases hmn : m = n
          · subst hmn
            refine ⟨s, old, v, hc, ho, hv, ?_⟩
            rw [sampleLoop_other _ _ _ _ _ hn.1, PyDict.get?_set_self]
          · have hm' : m ∈ ns := by simpa [hmn] using hm
            obtain ⟨s', o', v', h1, h2, h3, h4⟩ := ih (st.set n v) hn.2 h hm'
            rw [PyDict.get?_set_ne _ _ (Ne.symm hmn)] at h2
            exact ⟨s', o', v', h1, h2, h3, h4⟩

theorem sampleLoop_succeeds (config : Config) (one) (ns : List String) (st : Store)
    (hk : ∀ n ∈ ns, n ∈ st.keys)
    (h : ∀ n ∈ ns, ∃ s, config.get? n = some s ∧ ∀ old, ∃ v, one n s old = .ok v) :
    (sampleLoop config one ns st).2 = .ok () := by
  induction ns generalizing st with
  | nil => rfl
  | cons n ns ih =>
    obtain ⟨s, hs, hv⟩ := h n (by simp)
    obtain ⟨old, ho⟩ := (PyDict.mem_keys_iff_exists _ _).1 (hk n (by simp))
    obtain ⟨v, hv⟩ := hv old
    unfold sampleLoop
    simp only [hs, ho, hv]
    refine ih _ ?_ (fun m hm => h m (by simp [hm]))
    intro m hm
    rw [PyDict.keys_set_of_mem _ _ (hk n (by simp))]
    exact hk m (by simp [hm])

/-- The representation invariant of a `Parameter` object over its configuration. -/
structure Inv (config : Config) (pm : PM) : Prop where
  cfg : pm.config = config
  keys : pm.vals.keys = config.keys
  fixedEq : pm.fixedNames = (mkRaw config).fixedNames
  fitEq : pm.fitNames = (mkRaw config).fitNames

theorem mkRaw_inv (config : Config) : Inv config (mkRaw config) := by
  refine ⟨rfl, ?_, rfl, rfl⟩
  simp [mkRaw, PyDict.keys, List.map_map, Function.comp_def]

theorem samplePrior_inv {config : Config} {pm : PM} (sig d) (h : Inv config pm) :
    Inv config (samplePrior sig d pm).1 := by
  refine ⟨h.cfg, ?_, h.fixedEq, h.fitEq⟩
  simp only [samplePrior]
  rw [sampleLoop_keys, h.keys]

theorem sampleInit_inv {config : Config} {pm : PM} (d) (h : Inv config pm) :
    Inv config (sampleInit d pm).1 := by
  refine ⟨h.cfg, ?_, h.fixedEq, h.fitEq⟩
  simp only [sampleInit]
  rw [sampleLoop_keys, h.keys]

theorem union_self {α : Type*} [DecidableEq α] (l : List α) : l ∪ l = l := by
  have : ∀ (a b : List α), (∀ x ∈ a, x ∈ b) → a ∪ b = b := by
    intro a
    induction a with
    | nil => intro b _; rfl
    | cons x a ih =>
      intro b hb
      rw [List.cons_union, ih b (fun y hy => hb y (by simp [hy]))]
      exact List.insert_of_mem (hb x (by simp))
  exact this l l (fun _ h => h)

theorem initParameter_inv {config : Config} {pm : PM} (sig d) (h : Inv config pm) :
    Inv config (initParameter sig d pm).1 := by
  apply samplePrior_inv
  refine ⟨h.cfg, ?_, ?_, ?_⟩
  · simp only [h.cfg]; exact (mkRaw_inv config).keys
  · simp only [h.cfg, h.fixedEq, union_self]
  · simp only [h.cfg, h.fitEq, union_self]

theorem setList_inv {config : Config} {pm : PM} (ks xs) (h : Inv config pm)
    (hk : ks.all pm.vals.has = true) : Inv config (setList pm ks xs).1 := by
  unfold setList
  split
  · refine ⟨h.cfg, ?_, h.fixedEq, h.fitEq⟩
    simp only
    rw [PyDict.keys_update_of_subset, h.keys]
    intro k hk'
    rw [List.all_eq_true] at hk
    rw [← PyDict.has_iff]
    apply hk
    obtain ⟨⟨a, b⟩, hab, rfl⟩ := List.mem_map.1 hk'
    exact (List.of_mem_zip hab).1
  · exact h

theorem setParameter_inv {config : Config} {pm : PM} (k v) (h : Inv config pm) :
    Inv config (setParameter pm k v).1 := by
  unfold setParameter
  split
  · exact h
  · exact h
  · rename_i hk
    split
    · exact setList_inv _ _ h (by simpa [checkExist] using hk)
    · exact h
    · split
      · rename_i hd; exact setList_inv _ _ h hd
      · exact h
    · refine ⟨h.cfg, ?_, h.fixedEq, h.fitEq⟩
      simp only
      rw [PyDict.keys_set_of_mem, h.keys]
      rw [← PyDict.has_iff]; simpa [checkExist] using hk
    · exact h
    · exact h
    · exact h

theorem step_inv {config : Config} {pm : PM} (sig) (op) (h : Inv config pm) :
    Inv config (step sig pm op) := by
  cases op with
  | initParameter d => exact initParameter_inv sig d h
  | samplePrior d => exact samplePrior_inv sig d h
  | sampleInit d => exact sampleInit_inv d h
  | setParameter k v => exact setParameter_inv k v h
  | getParameter k => exact h

theorem run_inv {config : Config} {pm : PM} (sig) (ops) (h : Inv config pm) :
    Inv config (run sig pm ops) := by
  unfold run
  induction ops generalizing pm with
  | nil => exact h
  | cons op ops ih => exact ih (step_inv sig op h)

theorem mk_inv (config : Config) (sig d) : Inv config (mk sig d config).1 :=
  samplePrior_inv sig d (mkRaw_inv config)

theorem mem_parameterFit {config : Config} {pm : PM} (h : Inv config pm) (hc : config.keys.Nodup)
    (n : String) :
    n ∈ parameterFit pm ↔ ∃ s, config.get? n = some s ∧ s.prior.isFixed = false := by
  unfold parameterFit
  rw [List.mem_mergeSort, h.fitEq]
  simp only [mkRaw, PyDict.keys, List.mem_map, List.mem_filter, Bool.not_eq_true']
  constructor
  · rintro ⟨⟨a, s⟩, ⟨h1, h2⟩, rfl⟩
    exact ⟨s, PyDict.get?_of_mem _ hc h1, h2⟩
  · rintro ⟨s, h1, h2⟩
    exact ⟨(n, s), ⟨PyDict.mem_of_get? _ h1, h2⟩, rfl⟩

theorem mem_fixedNames {config : Config} {pm : PM} (h : Inv config pm) (hc : config.keys.Nodup)
    (n : String) :
    n ∈ pm.fixedNames ↔ ∃ s, config.get? n = some s ∧ s.prior.isFixed = true := by
  rw [h.fixedEq]
  simp only [mkRaw, PyDict.keys, List.mem_map, List.mem_filter]
  constructor
  · rintro ⟨⟨a, s⟩, ⟨h1, h2⟩, rfl⟩
    exact ⟨s, PyDict.get?_of_mem _ hc h1, h2⟩
  · rintro ⟨s, h1, h2⟩
    exact ⟨(n, s), ⟨PyDict.mem_of_get? _ h1, h2⟩, rfl⟩

theorem fitNames_nodup {config : Config} {pm : PM} (h : Inv config pm) (hc : config.keys.Nodup) :
    pm.fitNames.Nodup := by
  rw [h.fitEq]
  simp only [mkRaw, PyDict.keys]
  exact List.Nodup.sublist (List.Sublist.map _ List.filter_sublist) hc

theorem parameterFit_nodup {config : Config} {pm : PM} (h : Inv config pm) (hc : config.keys.Nodup) :
    (parameterFit pm).Nodup := by
  unfold parameterFit
  exact (List.mergeSort_perm _ _).nodup_iff.2 (fitNames_nodup h hc)

theorem parameterFit_sorted (pm : PM) : (parameterFit pm).Pairwise (· ≤ ·) := by
  unfold parameterFit
  have := List.pairwise_mergeSort (le := fun (a b : String) => decide (a ≤ b))
    (by intro a b c; simp only [decide_eq_true_eq]; exact le_trans)
    (by intro a b; simp only [Bool.or_eq_true, decide_eq_true_eq]; exact le_total a b) pm.fitNames
  simpa using this

theorem parameterFit_strict {config : Config} {pm : PM} (h : Inv config pm)
    (hc : config.keys.Nodup) : (parameterFit pm).Pairwise (· < ·) := by
  have h1 := parameterFit_sorted pm
  have h2 := parameterFit_nodup h hc
  exact (h1.and h2).imp (fun ⟨a, b⟩ => lt_of_le_of_ne a b)

theorem clip_mem {v lo hi : ℝ} (h : lo ≤ hi) : lo ≤ clip v lo hi ∧ clip v lo hi ≤ hi := by
  unfold clip
  exact ⟨le_min (le_max_right _ _) h, min_le_right _ _⟩

theorem mapM_getItem_ok (d : Store) (ks : List String) (h : ∀ k ∈ ks, k ∈ d.keys) :
    ∃ xs, ks.mapM d.getItem = .ok xs ∧ List.Forall₂ (fun k x => d.get? k = some x) ks xs := by
  induction ks with
  | nil => exact ⟨[], rfl, .nil⟩
  | cons k ks ih =>
    obtain ⟨xs, h1, h2⟩ := ih (fun k' hk' => h k' (by simp [hk']))
    obtain ⟨x, hx⟩ := (PyDict.mem_keys_iff_exists _ _).1 (h k (by simp))
    refine ⟨x :: xs, ?_, .cons hx h2⟩
    rw [List.mapM_cons]
    have : d.getItem k = .ok x := by unfold PyDict.getItem; rw [hx]
    rw [this, h1]; rfl

end Verif.Parameter
