/-
Property theorems C01-C05 about `Parameter` (parameter.py), with the specifications they use.
-/
import Verif.Lemmas.Parameter
import Verif.Base.MapM

namespace Verif.Parameter
open Verif

/-! ### Specification vocabulary -/

/-- A name is fitted when it is configured with a prior other than `fixed`. -/
def IsFitted (config : Config) (n : String) : Prop :=
  ∃ s, config.get? n = some s ∧ ∀ v, s.prior ≠ .fixed v

/-- A name is fixed to `v` by the configuration. -/
def IsFixedTo (config : Config) (n : String) (v : ℝ) : Prop :=
  ∃ s, config.get? n = some s ∧ s.prior = .fixed v

/-- Objects that exist: built from `config`, then any sequence of public calls. -/
def Reachable (config : Config) (pm : PM) : Prop :=
  ∃ sig draw ops, pm = run sig (mk sig draw config).1 ops

/-- A value lies in `[lo, hi]`. -/
def InRange (x : XF) (lo hi : ℝ) : Prop := ∃ r, x = .fin r ∧ lo ≤ r ∧ r ≤ hi

theorem Reachable.inv {config : Config} {pm : PM} (h : Reachable config pm) : Inv config pm := by
  obtain ⟨sig, draw, ops, rfl⟩ := h
  exact run_inv sig ops (mk_inv config sig draw)

theorem isFixed_false_iff (p : Prior) : p.isFixed = false ↔ ∀ v, p ≠ .fixed v := by
  cases p <;> simp [Prior.isFixed]

theorem isFitted_iff {config : Config} {n : String} :
    IsFitted config n ↔ ∃ s, config.get? n = some s ∧ s.prior.isFixed = false := by
  simp only [IsFitted, isFixed_false_iff]

/-! ### C01 -/

/-- **C01.** Whatever the history of public calls (failing ones included), the object's parameter
names are exactly the configured ones in configuration order; `parameter_fit` is strictly ascending
(hence without duplicates) and lists exactly the fitted names; the fixed set lists exactly the fixed
names. -/
theorem C01_names_closed (config : Config) (hc : config.keys.Nodup) (pm : PM)
    (hr : Reachable config pm) :
    pm.vals.keys = config.keys ∧
    (parameterFit pm).Pairwise (· < ·) ∧
    (∀ n, n ∈ parameterFit pm ↔ IsFitted config n) ∧
    (∀ n, n ∈ pm.fixedNames ↔ ∃ v, IsFixedTo config n v) ∧
    (∀ n ∈ config.keys, (n ∈ parameterFit pm ∧ n ∉ pm.fixedNames) ∨
      (n ∉ parameterFit pm ∧ n ∈ pm.fixedNames)) := by
  have h := hr.inv
  have hfit : ∀ n, n ∈ parameterFit pm ↔ IsFitted config n := fun n => by
    rw [mem_parameterFit h hc, isFitted_iff]
  have hfix : ∀ n, n ∈ pm.fixedNames ↔ ∃ v, IsFixedTo config n v := fun n => by
    rw [mem_fixedNames h hc]
    constructor
    · rintro ⟨s, h1, h2⟩
      cases hp : s.prior <;> simp [hp, Prior.isFixed] at h2
      exact ⟨_, s, h1, hp⟩
    · rintro ⟨v, s, h1, h2⟩
      exact ⟨s, h1, by simp [h2, Prior.isFixed]⟩
  refine ⟨h.keys, parameterFit_strict h hc, hfit, hfix, ?_⟩
  intro n hn
  obtain ⟨s, hs⟩ := (PyDict.mem_keys_iff_exists _ _).1 hn
  rw [mem_parameterFit h hc, mem_fixedNames h hc]
  cases hb : s.prior.isFixed
  · left; exact ⟨⟨s, hs, hb⟩, by rintro ⟨s', h1, h2⟩; rw [hs] at h1; cases h1; simp [hb] at h2⟩
  · right; exact ⟨by rintro ⟨s', h1, h2⟩; rw [hs] at h1; cases h1; simp [hb] at h2, ⟨s, hs, hb⟩⟩

/-- A configuration with one fitted and one fixed parameter, used in the examples. -/
noncomputable def exConfig : Config :=
  [("w", ⟨.fixed 0.0137, none, none⟩), ("g1", ⟨.norm 0.13 0.01, some (0, 1), some (0.13, 0.01)⟩)]

theorem exConfig_nodup : exConfig.keys.Nodup := by
  simp [exConfig, PyDict.keys]

/-- Non-vacuity of C01: a history with a failing call; the fitted list is `["g1"]`. -/
example : ∃ pm, Reachable exConfig pm ∧ parameterFit pm = ["g1"] := by
  refine ⟨_, ⟨fun _ => none, fun _ => 0.14,
    [.setParameter (.str "nope") (.num (.fin 1)), .setParameter (.str "g1") (.num (.fin 0.2))], rfl⟩, ?_⟩
  have hr : Reachable exConfig (run (fun _ => none) (mk (fun _ => none) (fun _ => 0.14) exConfig).1
      [.setParameter (.str "nope") (.num (.fin 1)), .setParameter (.str "g1") (.num (.fin 0.2))]) :=
    ⟨_, _, _, rfl⟩
  unfold parameterFit
  rw [hr.inv.fitEq]
  simp [mkRaw, exConfig, PyDict.keys, Prior.isFixed, List.filter]

/-! ### C02 -/

/-- **C02 (prior).** If `sample_prior` completes, then for any draws every fixed parameter equals its configured
value, every fitted parameter of a known prior type lies in its allowed range, and one of an unknown
prior type keeps its old value. -/
theorem C02_sample_prior_in_range (config : Config) (hc : config.keys.Nodup) (pm : PM)
    (hr : Reachable config pm) (sig : Solver) (draw : String → ℝ)
    (hok : (samplePrior sig draw pm).2 = .ok ()) (n : String) (s : Setting)
    (hs : config.get? n = some s) :
    (∀ v, s.prior = .fixed v → (samplePrior sig draw pm).1.vals.get? n = some (.fin v)) ∧
    ((∀ v, s.prior ≠ .fixed v) → s.prior ≠ .other →
      ∃ lo hi, s.allowed = some (lo, hi) ∧
        (lo ≤ hi → ∃ x, (samplePrior sig draw pm).1.vals.get? n = some x ∧ InRange x lo hi)) ∧
    (s.prior = .other → (samplePrior sig draw pm).1.vals.get? n = pm.vals.get? n) := by
  have hi := hr.inv
  have hmem : n ∈ pm.vals.keys := by
    rw [hi.keys, PyDict.mem_keys_iff, hs]; rfl
  have hnd : pm.vals.keys.Nodup := by rw [hi.keys]; exact hc
  obtain ⟨s', old, v, h1, h2, h3, h4⟩ := sampleLoop_ok _ _ _ _ hnd hok n hmem
  rw [hi.cfg, hs] at h1
  cases h1
  have hget : (samplePrior sig draw pm).1.vals.get? n = some v := h4
  rw [hget]
  have hclip : ∀ w, clipRange s w = .ok v →
      ∃ lo hi, s.allowed = some (lo, hi) ∧ (lo ≤ hi → ∃ x, some v = some x ∧ InRange x lo hi) := by
    intro w hw
    unfold clipRange at hw
    cases ha : s.allowed with
    | none => simp [ha] at hw
    | some r =>
      obtain ⟨lo, hi'⟩ := r
      simp only [ha] at hw
      cases hw
      exact ⟨lo, hi', rfl, fun hle => ⟨_, rfl, _, rfl, clip_mem hle⟩⟩
  have hdn : ∀ (std w : ℝ), (do let v ← drawNormal std w; clipRange s v) = (.ok v : Res XF) →
      clipRange s w = .ok v := by
    intro std w hw
    unfold drawNormal at hw
    split at hw
    · cases hw
    · exact hw
  cases hp : s.prior with
  | norm m std =>
    simp only [samplePriorOne, hp] at h3
    refine ⟨by simp, fun _ _ => hclip _ (hdn _ _ h3), by simp⟩
  | twohalfnorm mu sp sn =>
    simp only [samplePriorOne, hp] at h3
    refine ⟨by simp, fun _ _ => ?_, by simp⟩
    split at h3
    · cases h3
    · split at h3
      · exact hclip _ h3
      · cases h3
  | uniform a b =>
    simp only [samplePriorOne, hp] at h3
    exact ⟨by simp, fun _ _ => hclip _ h3, by simp⟩
  | free =>
    simp only [samplePriorOne, hp] at h3
    refine ⟨by simp, fun _ _ => ?_, by simp⟩
    unfold drawInit at h3
    split at h3
    · cases h3
    · exact hclip _ (hdn _ _ h3)
  | fixed w =>
    simp only [samplePriorOne, hp] at h3
    cases h3
    refine ⟨?_, fun h => absurd rfl (h w), by simp⟩
    intro v hv
    cases hv; rfl
  | other =>
    simp only [samplePriorOne, hp] at h3
    cases h3
    exact ⟨by simp, fun _ h => absurd rfl h, fun _ => h2.symm⟩

/-- **C02 (initialising again).** After any history, `init_parameter` with the same draws gives exactly the object (values, fitted
and fixed names, outcome) that a new `Parameter` with this configuration would be: nothing that was set before survives. -/
theorem C02_init_parameter_forgets (config : Config) (pm : PM) (hr : Reachable config pm) (sig : Solver)
    (draw : String → ℝ) : initParameter sig draw pm = mk sig draw config := by
  have hi := hr.inv
  unfold initParameter mk
  congr 1
  rw [hi.cfg, hi.fixedEq, hi.fitEq, union_self, union_self]
  obtain ⟨c, fx, ft, vs⟩ := pm
  have hc : c = config := hi.cfg
  subst hc
  rfl

/-- Non-vacuity: a history that set `g1`; without the reset an entry of an unknown prior type would keep the value set. -/
example (c : Config) (hc : c = [("q", ⟨.other, none, none⟩)]) :
    (initParameter (fun _ => none) (fun _ => 0)
      (run (fun _ => none) (mk (fun _ => none) (fun _ => 0) c).1 [.setParameter (.str "q") (.num (.fin 7))])).1.vals
      = [("q", .fin 0)] ∧
    (run (fun _ => none) (mk (fun _ => none) (fun _ => 0) c).1 [.setParameter (.str "q") (.num (.fin 7))]).vals
      = [("q", .fin 7)] := by
  subst hc
  constructor
  · rw [C02_init_parameter_forgets _ _ ⟨_, _, _, rfl⟩]
    simp [mk, samplePrior, sampleLoop, mkRaw, PyDict.keys, PyDict.get?, samplePriorOne, PyDict.set]
  · simp [run, step, setParameter, checkExist, mk, samplePrior, sampleLoop, mkRaw, PyDict.keys, PyDict.get?, samplePriorOne,
      PyDict.set, PyDict.has]

/-- **C02 (initial guess).** If `sample_init` completes, every fixed parameter equals its configured
value and every other parameter lies in its allowed range, whatever was drawn. -/
theorem C02_sample_init_in_range (config : Config) (hc : config.keys.Nodup) (pm : PM)
    (hr : Reachable config pm) (draw : String → ℝ)
    (hok : (sampleInit draw pm).2 = .ok ()) (n : String) (s : Setting)
    (hs : config.get? n = some s) :
    (∀ v, s.prior = .fixed v → (sampleInit draw pm).1.vals.get? n = some (.fin v)) ∧
    ((∀ v, s.prior ≠ .fixed v) →
      ∃ lo hi, s.allowed = some (lo, hi) ∧
        (lo ≤ hi → ∃ x, (sampleInit draw pm).1.vals.get? n = some x ∧ InRange x lo hi)) := by
  have hi := hr.inv
  have hmem : n ∈ pm.vals.keys := by
    rw [hi.keys, PyDict.mem_keys_iff, hs]; rfl
  have hnd : pm.vals.keys.Nodup := by rw [hi.keys]; exact hc
  obtain ⟨s', old, v, h1, h2, h3, h4⟩ := sampleLoop_ok _ _ _ _ hnd hok n hmem
  rw [hi.cfg, hs] at h1
  cases h1
  have hget : (sampleInit draw pm).1.vals.get? n = some v := h4
  rw [hget]
  have hfree : (do let v ← drawInit s (draw n); clipRange s v) = (.ok v : Res XF) →
      ∃ lo hi, s.allowed = some (lo, hi) ∧ (lo ≤ hi → ∃ x, some v = some x ∧ InRange x lo hi) := by
    intro hw
    unfold drawInit at hw
    split at hw
    · cases hw
    · unfold drawNormal at hw
      split at hw
      · cases hw
      · have hw : clipRange s (draw n) = .ok v := hw
        unfold clipRange at hw
        cases ha : s.allowed with
        | none => simp [ha] at hw
        | some r =>
          obtain ⟨lo, hi'⟩ := r
          simp only [ha] at hw
          cases hw
          exact ⟨lo, hi', rfl, fun hle => ⟨_, rfl, _, rfl, clip_mem hle⟩⟩
  cases hp : s.prior with
  | fixed w =>
    simp only [sampleInitOne, hp] at h3
    cases h3
    exact ⟨fun v hv => by cases hv; rfl, fun h => absurd rfl (h w)⟩
  | _ =>
    simp only [sampleInitOne, hp] at h3
    exact ⟨by simp, fun _ => hfree h3⟩

/-- **C02 (completion).** `sample_init` completes for every draw as soon as every parameter that is not
fixed has an allowed range and an initial guess of non-negative width. -/
theorem C02_sample_init_completes (config : Config) (pm : PM) (hr : Reachable config pm)
    (hwf : ∀ n s, config.get? n = some s → (∀ v, s.prior ≠ .fixed v) →
      (∃ r, s.allowed = some r) ∧ ∃ m std, s.init = some (m, std) ∧ 0 ≤ std) (draw : String → ℝ) :
    (sampleInit draw pm).2 = .ok () := by
  have hi := hr.inv
  apply sampleLoop_succeeds
  · intro n hn; exact hn
  · intro n hn
    rw [hi.keys] at hn
    obtain ⟨s, hs⟩ := (PyDict.mem_keys_iff_exists _ _).1 hn
    refine ⟨s, by rw [hi.cfg]; exact hs, fun _ => ?_⟩
    have key : (∀ v, s.prior ≠ .fixed v) →
        ∃ v, (do let v ← drawInit s (draw n); clipRange s v) = (.ok v : Res XF) := by
      intro h
      obtain ⟨⟨⟨lo, hi'⟩, ha⟩, m, std, hin, hstd⟩ := hwf n s hs h
      refine ⟨.fin (clip (draw n) lo hi'), ?_⟩
      · simp only [drawInit, hin, drawNormal, not_lt.2 hstd, if_false]
        show clipRange s (draw n) = _
        simp [clipRange, ha]
    cases hp : s.prior with
    | fixed w => exact ⟨.fin w, by simp [sampleInitOne, hp]⟩
    | _ =>
      simp only [sampleInitOne, hp]
      exact key (by rw [hp]; simp)

/-- Non-vacuity of C02: the example configuration completes and the hypotheses hold for an extreme
draw far outside the range; the value is clipped to the upper bound. -/
example : ∃ pm, Reachable exConfig pm ∧ (sampleInit (fun _ => 1000) pm).2 = .ok () := by
  refine ⟨_, ⟨fun _ => none, fun _ => 0, [], rfl⟩, ?_⟩
  refine C02_sample_init_completes exConfig _ ⟨fun _ => none, fun _ => 0, [], rfl⟩ ?_ _
  intro n s hs hnf
  simp only [exConfig, PyDict.get?_cons, PyDict.get?_nil] at hs
  split at hs
  · cases hs; exact absurd rfl (hnf _)
  · split at hs
    · cases hs; exact ⟨⟨_, rfl⟩, _, _, rfl, by norm_num⟩
    · cases hs

/-! ### C03 -/

/-- The assignments a `set_parameter` call asks for, in order; `none` when the call is malformed
(specification: lists pair up with a sequence of equal length, a dict carries its own values, a name
takes one number; nothing else is accepted). -/
def requested : Keys → Vals → Option (List (String × XF))
  | .str k, .num x => some [(k, x)]
  | .list ks, .list xs => if ks.length = xs.length then some (ks.zip xs) else none
  | .dict d, _ => some d
  | _, _ => none

/-- **C03.** `set_parameter` succeeds exactly when the call is well formed and all its names exist; then
the store is the old one with the assignments applied in order; otherwise it raises and nothing changed. -/
theorem C03_set_parameter_atomic (pm : PM) (keys : Keys) (vals : Vals) :
    (∀ as, requested keys vals = some as → (∀ a ∈ as, a.1 ∈ pm.vals.keys) →
      setParameter pm keys vals = ({ pm with vals := pm.vals.update as }, .ok ())) ∧
    ((∀ as, requested keys vals = some as → ¬ ∀ a ∈ as, a.1 ∈ pm.vals.keys) →
      ∃ e, setParameter pm keys vals = (pm, .error e)) := by
  have hall : ∀ ks : List String, ks.all pm.vals.has = true ↔ ∀ k ∈ ks, k ∈ pm.vals.keys := by
    intro ks
    rw [List.all_eq_true]
    constructor
    · intro h k hk; rw [← PyDict.has_iff]; exact h k hk
    · intro h k hk; rw [PyDict.has_iff]; exact h k hk
  have hz : ∀ d : List (String × XF), (PyDict.keys d).zip (d.map Prod.snd) = d := by
    intro d
    induction d with
    | nil => rfl
    | cons a d ih => simp only [PyDict.keys, List.map_cons, List.zip_cons_cons] at ih ⊢; rw [ih]
  cases keys with
  | str k =>
    by_cases hk : k ∈ pm.vals.keys
    · have hb : checkExist pm (.str k) = .ok true := by
        simp only [checkExist]; rw [(PyDict.has_iff _ _).2 hk]
      cases vals with
      | num x =>
        simp only [setParameter, hb, requested, Option.some.injEq, forall_eq', List.mem_singleton,
          forall_eq]
        exact ⟨fun _ => rfl, fun h => absurd hk h⟩
      | _ => simp only [setParameter, hb, requested]; simp
    · have hb : checkExist pm (.str k) = .ok false := by
        simp only [checkExist]
        rw [Bool.eq_false_iff.2 (fun h => hk ((PyDict.has_iff _ _).1 h))]
      simp only [setParameter, hb]
      refine ⟨?_, fun _ => ⟨_, rfl⟩⟩
      intro as has hmem
      cases vals <;> simp only [requested] at has <;> cases has
      exact absurd (hmem _ (List.mem_singleton.2 rfl)) hk
  | list ks =>
    by_cases hk : ∀ k ∈ ks, k ∈ pm.vals.keys
    · have hb : checkExist pm (.list ks) = .ok true := by
        simp only [checkExist]; rw [(hall ks).2 hk]
      cases vals with
      | list xs =>
        simp only [setParameter, hb, setList, requested]
        by_cases hl : ks.length = xs.length
        · simp only [hl, if_true]
          refine ⟨?_, ?_⟩
          · intro as has _; cases has; rfl
          · intro h
            exact absurd (fun (a : String × XF) ha => hk _ (List.of_mem_zip (a := a.1) (b := a.2) ha).1)
              (h _ rfl)
        · simp only [hl, if_false]
          exact ⟨by simp, fun _ => ⟨_, rfl⟩⟩
      | _ => simp only [setParameter, hb, requested]; simp
    · have hb : checkExist pm (.list ks) = .ok false := by
        simp only [checkExist]
        rw [Bool.eq_false_iff.2 (fun h => hk ((hall ks).1 h))]
      simp only [setParameter, hb]
      refine ⟨?_, fun _ => ⟨_, rfl⟩⟩
      intro as has hmem
      cases vals <;> simp only [requested] at has <;> try cases has
      split at has
      · rename_i xs hl
        cases has
        exfalso; apply hk
        intro k hkk
        have : k ∈ ((ks.zip xs).map Prod.fst) := by
          rw [List.map_fst_zip (le_of_eq hl)]; exact hkk
        obtain ⟨a, ha, rfl⟩ := List.mem_map.1 this
        exact hmem a ha
      · cases has
  | set ks =>
    have hreq : requested (.set ks) vals = none := by cases vals <;> rfl
    rw [hreq]
    refine ⟨by simp, fun _ => ?_⟩
    cases hb : checkExist pm (.set ks) with
    | error e => exact ⟨e, by simp [setParameter, hb]⟩
    | ok b => cases b <;> cases vals <;> exact ⟨_, by simp only [setParameter, hb]; rfl⟩
  | dict d =>
    have hreq : requested (.dict d) vals = some d := by cases vals <;> rfl
    rw [hreq]
    simp only [Option.some.injEq, forall_eq']
    by_cases hk : ∀ a ∈ d, a.1 ∈ pm.vals.keys
    · refine ⟨fun _ => ?_, fun h => absurd hk h⟩
      have hk' : d.keys.all pm.vals.has = true := by
        rw [hall]; intro k hkk
        obtain ⟨a, ha, rfl⟩ := List.mem_map.1 hkk
        exact hk a ha
      have hlen : (PyDict.keys d).length = (d.map Prod.snd).length := by simp [PyDict.keys]
      simp only [setParameter, checkExist, hk', if_true, setList, hlen, hz]
    · refine ⟨fun h => absurd h hk, fun _ => ?_⟩
      have hk' : d.keys.all pm.vals.has = false := by
        rw [Bool.eq_false_iff]; intro h; apply hk
        intro a ha
        exact (hall _).1 h _ (List.mem_map.2 ⟨a, ha, rfl⟩)
      exact ⟨_, by simp only [setParameter, checkExist, hk']; rfl⟩
  | other =>
    have hreq : requested .other vals = none := by cases vals <;> rfl
    rw [hreq]
    exact ⟨by simp, fun _ => ⟨_, rfl⟩⟩

/-- **C03 (read back).** After a successful call, `get_parameter` of a name returns the last value
assigned to it by the call, or its old value if the call did not name it. -/
theorem C03_read_your_writes (pm pm' : PM) (keys : Keys) (vals : Vals) (as : List (String × XF))
    (hreq : requested keys vals = some as) (hok : setParameter pm keys vals = (pm', .ok ()))
    (n : String) (hn : n ∈ pm.vals.keys) :
    (∀ pre x post, as = pre ++ (n, x) :: post → n ∉ post.map Prod.fst →
      getParameter pm' (.str n) = .ok (.one x)) ∧
    (n ∉ as.map Prod.fst → getParameter pm' (.str n) = getParameter pm (.str n)) := by
  have hex : ∀ a ∈ as, a.1 ∈ pm.vals.keys := by
    by_contra hcon
    obtain ⟨e, he⟩ := (C03_set_parameter_atomic pm keys vals).2 (fun as' h' => by
      rw [hreq] at h'; cases h'; exact hcon)
    rw [hok] at he; cases he
  have h1 := (C03_set_parameter_atomic pm keys vals).1 as hreq hex
  rw [hok] at h1
  cases h1
  have hget : ∀ (q : PM) x, q.vals.get? n = some x → getParameter q (.str n) = .ok (.one x) := by
    intro q x hx
    have hb : q.vals.has n = true := by rw [PyDict.has_iff, PyDict.mem_keys_iff, hx]; rfl
    simp only [getParameter, checkExist, hb, getItem, PyDict.getItem, hx]; rfl
  constructor
  · intro pre x post has hpost
    apply hget
    simp only [has, PyDict.update_append, PyDict.update_cons]
    rw [PyDict.get?_update_not_mem _ _ _ hpost, PyDict.get?_set_self]
  · intro hna
    obtain ⟨x, hx⟩ := (PyDict.mem_keys_iff_exists _ _).1 hn
    rw [hget pm x hx]
    apply hget
    simp only
    rw [PyDict.get?_update_not_mem _ _ _ hna, hx]

/-- **C03 (reading).** Reading gives the value of a name and, for a list or set, the values in the order of the names; it never
changes the object. An unknown name is an AssertionError from `get_parameter` and a KeyError from indexing; a dictionary of known
names and anything else is a ValueError. -/
theorem C03_reading (pm : PM) :
    (∀ k, (∀ x, pm.vals.get? k = some x → getParameter pm (.str k) = .ok (.one x) ∧ getItem pm (.str k) = .ok (.one x)) ∧
      (k ∉ pm.vals.keys → getParameter pm (.str k) = .error .assertionError ∧ getItem pm (.str k) = .error .keyError)) ∧
    (∀ keys ks, keys = .list ks ∨ keys = .set ks →
      ((∀ k ∈ ks, k ∈ pm.vals.keys) → ∃ xs, getParameter pm keys = .ok (.many xs) ∧ getItem pm keys = .ok (.many xs) ∧
        List.Forall₂ (fun k x => pm.vals.get? k = some x) ks xs) ∧
      ((∃ k ∈ ks, k ∉ pm.vals.keys) → getParameter pm keys = .error .assertionError ∧ getItem pm keys = .error .keyError)) ∧
    (∀ d, getItem pm (.dict d) = .error .valueError ∧ getParameter pm (.dict d) =
      .error (if ∀ k ∈ d.keys, k ∈ pm.vals.keys then .valueError else .assertionError)) ∧
    getItem pm .other = .error .valueError ∧ getParameter pm .other = .error .valueError := by
  have hgood : ∀ ks : List String, (∀ k ∈ ks, k ∈ pm.vals.keys) →
      ∃ xs, ks.mapM pm.vals.getItem = .ok xs ∧ List.Forall₂ (fun k x => pm.vals.get? k = some x) ks xs := by
    intro ks hks
    induction ks with
    | nil => exact ⟨[], rfl, .nil⟩
    | cons k ks ih =>
      obtain ⟨xs, h1, h2⟩ := ih (fun k hk => hks k (by simp [hk]))
      obtain ⟨x, hx⟩ := (PyDict.mem_keys_iff_exists _ _).1 (hks k (by simp))
      refine ⟨x :: xs, ?_, .cons hx h2⟩
      rw [List.mapM_cons, h1]
      simp only [PyDict.getItem, hx, bind, Except.bind, pure, Except.pure]
  have hbad : ∀ ks : List String, (∃ k ∈ ks, k ∉ pm.vals.keys) → ks.mapM pm.vals.getItem = .error .keyError := by
    intro ks hks
    induction ks with
    | nil => obtain ⟨k, hk, _⟩ := hks; simp at hk
    | cons k ks ih =>
      rw [List.mapM_cons]
      cases hx : pm.vals.get? k with
      | none => simp only [PyDict.getItem, hx, bind, Except.bind]
      | some x =>
        rw [ih]
        · simp only [PyDict.getItem, hx, bind, Except.bind]
        · obtain ⟨k', hk', hn⟩ := hks
          rcases List.mem_cons.1 hk' with rfl | hk'
          · exact absurd ((PyDict.mem_keys_iff_exists _ _).2 ⟨x, hx⟩) hn
          · exact ⟨k', hk', hn⟩
  have hall : ∀ ks : List String, (ks.all pm.vals.has = true ↔ ∀ k ∈ ks, k ∈ pm.vals.keys) := by
    intro ks; simp only [List.all_eq_true, PyDict.has_iff]
  refine ⟨fun k => ⟨fun x hx => ?_, fun hk => ?_⟩, ?_, ?_, rfl, rfl⟩
  · have hb : pm.vals.has k = true := by rw [PyDict.has_iff, PyDict.mem_keys_iff, hx]; rfl
    simp only [getParameter, checkExist, hb, getItem, PyDict.getItem, hx, bind, Except.bind, pure, Except.pure, and_self]
  · have hb : pm.vals.has k = false := by
      rw [← Bool.not_eq_true, PyDict.has_iff]; exact hk
    have hx : pm.vals.get? k = none := (PyDict.get?_eq_none_iff _ _).2 hk
    simp only [getParameter, checkExist, hb, getItem, PyDict.getItem, hx, bind, Except.bind, and_self]
  · intro keys ks hkeys
    constructor
    · intro h
      obtain ⟨xs, h1, h2⟩ := hgood ks h
      have hb := (hall ks).2 h
      refine ⟨xs, ?_, ?_, h2⟩ <;> rcases hkeys with rfl | rfl <;>
        simp only [getParameter, checkExist, hb, getItem, h1, bind, Except.bind, pure, Except.pure]
    · intro h
      have hb : ks.all pm.vals.has = false := by
        rw [← Bool.not_eq_true, hall]; push Not; exact h
      rcases hkeys with rfl | rfl <;>
        simp only [getParameter, checkExist, hb, getItem, hbad ks h, bind, Except.bind, and_self]
  · intro d
    refine ⟨rfl, ?_⟩
    simp only [getParameter, checkExist, getItem]
    by_cases h : ∀ k ∈ d.keys, k ∈ pm.vals.keys
    · rw [if_pos h, (hall _).2 h]
    · rw [if_neg h]
      have hb : d.keys.all pm.vals.has = false := by rw [← Bool.not_eq_true, hall]; exact h
      rw [hb]

/-- Non-vacuity of C03: a two-name list is applied; with one unknown name nothing is. -/
example : (setParameter (mkRaw exConfig) (.list ["g1", "w"]) (.list [.fin 2, .fin 3])).2 = .ok () ∧
    (setParameter (mkRaw exConfig) (.list ["g1", "zz"]) (.list [.fin 2, .fin 3])) =
      (mkRaw exConfig, .error .assertionError) := by
  constructor <;> simp [setParameter, checkExist, mkRaw, exConfig, PyDict.has, PyDict.get?, setList]

/-! ### C04 -/

/-- Log density of a prior (specification), with the solved two-half-normal widths. -/
noncomputable def priorLogDensity (sig : Solver) : Prior → ℝ → ℝ
  | .norm m std, x => -(x - m) ^ 2 / (2 * std ^ 2)
  | .twohalfnorm mu sp sn, x =>
    match sig (sp, sn) with
    | some (a, b) =>
      Real.log (2 / (a + b) / Real.sqrt (2 * Real.pi)) -
        (x - mu) ^ 2 / (2 * (if x < mu then b else a) ^ 2)
    | none => 0
  | _, _ => 0

/-- A fitted entry for which the prior can be evaluated: it has a range, a nonzero normal width and
solvable positive two-half-normal widths. -/
def EvalOK (sig : Solver) (s : Setting) : Prop :=
  (∃ r, s.allowed = some r) ∧
  (∀ m std, s.prior = .norm m std → std ≠ 0) ∧
  (∀ mu sp sn, s.prior = .twohalfnorm mu sp sn → ∃ a b, sig (sp, sn) = some (a, b) ∧ 0 < a ∧ 0 < b)

/-- A value that is outside a range in the IEEE sense (infinities are, NaN is not). -/
def Outside (x : XF) (lo hi : ℝ) : Prop :=
  x = .pinf ∨ x = .ninf ∨ ∃ r, x = .fin r ∧ (r < lo ∨ hi < r)

theorem logPriorTerm_outside (sig : Solver) (s : Setting) (x : XF) (lo hi : ℝ)
    (ha : s.allowed = some (lo, hi)) (h : Outside x lo hi) : logPriorTerm sig s x = .ok .ninf := by
  have : x < .fin lo ∨ XF.fin hi < x := by
    rcases h with rfl | rfl | ⟨r, rfl, h⟩
    · right; simp
    · left; simp
    · simpa using h
  simp only [logPriorTerm, ha, this, if_true]

theorem logPriorTerm_inside (sig : Solver) (s : Setting) (r lo hi : ℝ)
    (ha : s.allowed = some (lo, hi)) (hok : EvalOK sig s) (h1 : lo ≤ r) (h2 : r ≤ hi) :
    logPriorTerm sig s (.fin r) = .ok (.fin (priorLogDensity sig s.prior r)) := by
  have hn : ¬ (XF.fin r < .fin lo ∨ XF.fin hi < .fin r) := by
    simp only [XF.fin_lt_fin, not_or, not_lt]; exact ⟨h1, h2⟩
  simp only [logPriorTerm, ha, hn, if_false]
  cases hp : s.prior with
  | norm m std =>
    have hstd := hok.2.1 m std hp
    have h2' : (std ^ 2 : ℝ) ≠ 0 := pow_ne_zero _ hstd
    simp only [priorLogDensity, XF.fin_sub_fin, XF.fin_mul_fin, XF.neg_fin]
    rw [XF.fin_div_fin_of_ne _ (by norm_num), XF.fin_div_fin_of_ne _ h2']
    congr 2
    field_simp
  | twohalfnorm mu sp sn =>
    obtain ⟨a, b, hs, ha', hb'⟩ := hok.2.2 mu sp sn hp
    have hpi : 0 < Real.sqrt (2 * Real.pi) := Real.sqrt_pos.2 (by positivity)
    have hnorm : 0 < 2 / (a + b) / Real.sqrt (2 * Real.pi) := by positivity
    simp only [priorLogDensity, hs, thnLogpdf, ha', hb', and_self, if_true, XF.fin_sub_fin,
      XF.fin_mul_fin, XF.neg_fin, XF.fin_lt_fin, XF.log_fin_pos hnorm]
    split
    · rw [XF.fin_div_fin_of_ne _ (by positivity), XF.fin_div_fin_of_ne _ (by norm_num), XF.fin_add_fin]
      congr 2
      field_simp
      ring
    · rw [XF.fin_div_fin_of_ne _ (by positivity), XF.fin_div_fin_of_ne _ (by norm_num), XF.fin_add_fin]
      congr 2
      field_simp
      ring
  | _ => simp [priorLogDensity]

/-- **C04 (value).** For a reachable object whose fitted entries can be evaluated and whose fitted values are
not NaN: `log_prior` is `-inf` when some fitted value is outside its allowed range, and otherwise the
finite sum of the prior log densities. This holds for every iteration order of the fitted set. -/
theorem C04_log_prior (config : Config) (hc : config.keys.Nodup) (pm : PM)
    (hr : Reachable config pm) (sig : Solver) (order : List String)
    (horder : order.Perm (parameterFit pm))
    (hwf : ∀ n s, config.get? n = some s → (∀ v, s.prior ≠ .fixed v) → EvalOK sig s) :
    ((∃ n ∈ order, ∃ s lo hi x, config.get? n = some s ∧ s.allowed = some (lo, hi) ∧
        pm.vals.get? n = some x ∧ Outside x lo hi) →
      (∀ n ∈ order, pm.vals.get? n ≠ some .nan) →
      logPriorOver sig pm order = .ok .ninf) ∧
    (∀ val : String → ℝ,
      (∀ n ∈ order, ∃ s lo hi, config.get? n = some s ∧ s.allowed = some (lo, hi) ∧
        pm.vals.get? n = some (.fin (val n)) ∧ lo ≤ val n ∧ val n ≤ hi) →
      logPriorOver sig pm order = .ok (.fin ((order.map (fun n =>
        match config.get? n with
        | some s => priorLogDensity sig s.prior (val n)
        | none => 0)).sum))) := by
  have hi := hr.inv
  have hfit : ∀ n ∈ order, ∃ s, config.get? n = some s ∧ (∀ v, s.prior ≠ .fixed v) := by
    intro n hn
    have := (mem_parameterFit hi hc n).1 (horder.mem_iff.1 hn)
    rwa [← isFitted_iff] at this
  constructor
  · rintro ⟨n0, hn0, s0, lo0, hi0, x0, hs0, ha0, hx0, hout0⟩ hnan
    have hterm : ∀ n ∈ order, ∃ t, (do
        let v ← pm.vals.getItem n
        let s ← pm.config.getItem n
        logPriorTerm sig s v) = (.ok t : Res XF) ∧ (XF.isFinite t ∨ t = .ninf) ∧
        (n = n0 → t = .ninf) := by
      intro n hn
      obtain ⟨s, hs, hnf⟩ := hfit n hn
      obtain ⟨⟨⟨lo, hi'⟩, ha⟩, _⟩ := id (hwf n s hs hnf)
      obtain ⟨x, hx⟩ := (PyDict.mem_keys_iff_exists _ _).1
        (by rw [hi.keys, PyDict.mem_keys_iff, hs]; rfl : n ∈ pm.vals.keys)
      have hred : (do
        let v ← pm.vals.getItem n
        let s ← pm.config.getItem n
        logPriorTerm sig s v) = logPriorTerm sig s x := by
        simp only [PyDict.getItem, hx, hi.cfg, hs]; rfl
      rw [hred]
      have hxn : x ≠ .nan := fun h => hnan n hn (by rw [hx, h])
      by_cases hout : Outside x lo hi'
      · exact ⟨.ninf, logPriorTerm_outside sig s x lo hi' ha hout, Or.inr rfl, fun _ => rfl⟩
      · have : ∃ r, x = .fin r ∧ lo ≤ r ∧ r ≤ hi' := by
          cases x with
          | nan => exact absurd rfl hxn
          | ninf => exact absurd (Or.inr (Or.inl rfl)) hout
          | pinf => exact absurd (Or.inl rfl) hout
          | fin r =>
            refine ⟨r, rfl, ?_, ?_⟩
            · by_contra hcon; exact hout (Or.inr (Or.inr ⟨r, rfl, Or.inl (not_le.1 hcon)⟩))
            · by_contra hcon; exact hout (Or.inr (Or.inr ⟨r, rfl, Or.inr (not_le.1 hcon)⟩))
        obtain ⟨r, rfl, h1, h2⟩ := this
        refine ⟨_, logPriorTerm_inside sig s r lo hi' ha (hwf n s hs hnf) h1 h2,
          Or.inl (XF.isFinite_fin _), ?_⟩
        intro hn0'
        subst hn0'
        rw [hs0] at hs; cases hs
        rw [ha0] at ha; cases ha
        rw [hx0] at hx; cases hx
        exact absurd hout0 hout
    choose! t ht hfin ht0 using hterm
    have hmap : order.mapM (fun n => (do
        let v ← pm.vals.getItem n
        let s ← pm.config.getItem n
        logPriorTerm sig s v)) = (.ok (order.map t) : Res (List XF)) := by
      rw [mapM_ok_iff]
      rw [List.forall₂_map_right_iff, List.forall₂_same]
      exact ht
    simp only [logPriorOver, hmap]
    show Except.ok _ = _
    have := XF.sum_finite_or_ninf (order.map t) (by
      intro a ha
      obtain ⟨n, hn, rfl⟩ := List.mem_map.1 ha
      exact hfin n hn)
    rcases this with ⟨h1, _⟩ | ⟨_, h2⟩
    · rw [h1]
    · exact absurd (List.mem_map.2 ⟨n0, hn0, ht0 n0 hn0 rfl⟩) h2
  · intro val hval
    have hmap : order.mapM (fun n => (do
        let v ← pm.vals.getItem n
        let s ← pm.config.getItem n
        logPriorTerm sig s v)) = (.ok (order.map (fun n => XF.fin (match config.get? n with
        | some s => priorLogDensity sig s.prior (val n)
        | none => 0))) : Res (List XF)) := by
      rw [mapM_ok_iff, List.forall₂_map_right_iff, List.forall₂_same]
      intro n hn
      obtain ⟨s, lo, hi', hs, ha, hx, h1, h2⟩ := hval n hn
      obtain ⟨s', hs', hnf⟩ := hfit n hn
      rw [hs] at hs'; cases hs'
      simp only [PyDict.getItem, hx, hi.cfg, hs]
      exact logPriorTerm_inside sig s (val n) lo hi' ha (hwf n s hs hnf) h1 h2
    simp only [logPriorOver, hmap]
    show Except.ok _ = _
    rw [← XF.sum_map_fin, List.map_map]
    rfl

/-- **C04 (order).** The value does not depend on the iteration order of the set: if one order evaluates to
`L`, every permutation of it evaluates to `L` (any configuration, any values). -/
theorem C04_log_prior_order_independent (sig : Solver) (pm : PM) (order order' : List String)
    (hp : order.Perm order') (L : XF) (h : logPriorOver sig pm order = .ok L) :
    logPriorOver sig pm order' = .ok L := by
  unfold logPriorOver at h ⊢
  cases hm : order.mapM (fun n => (do
        let v ← pm.vals.getItem n
        let s ← pm.config.getItem n
        logPriorTerm sig s v : Res XF)) with
  | error e => rw [hm] at h; cases h
  | ok ts =>
    rw [hm] at h
    cases h
    rw [mapM_ok_iff] at hm
    obtain ⟨ts', hts', hperm⟩ : ∃ ts', List.Forall₂ (fun a b => (do
        let v ← pm.vals.getItem a
        let s ← pm.config.getItem a
        logPriorTerm sig s v : Res XF) = .ok b) order' ts' ∧ ts'.Perm ts := by
      obtain ⟨ts', h1, h2⟩ := List.perm_comp_forall₂ hp.symm hm
      exact ⟨ts', h1, h2⟩
    rw [(mapM_ok_iff _ _ _).2 hts']
    show Except.ok _ = Except.ok _
    rw [XF.sum_perm hperm]

/-- **C04 (NaN gap).** The range check does not catch NaN: a fitted parameter with a free prior and value
NaN has log prior 0, although NaN is not in the allowed range. -/
theorem C04_nan_passes_range_check :
    ∃ (pm : PM), pm.vals.get? "x" = some .nan ∧
      logPriorOver (fun _ => none) pm (parameterFit pm) = .ok (.fin 0) ∧ ¬ InRange .nan 0 1 := by
  refine ⟨⟨[("x", ⟨.free, some (0, 1), some (0, 1)⟩)], [], ["x"], [("x", .nan)]⟩, rfl, ?_, ?_⟩
  · have : parameterFit ⟨[("x", ⟨.free, some (0, 1), some (0, 1)⟩)], [], ["x"], [("x", .nan)]⟩
        = ["x"] := by simp [parameterFit]
    rw [this]
    simp [logPriorOver, PyDict.getItem, PyDict.get?, logPriorTerm, bind, Except.bind, pure, Except.pure, XF.sum]
  · rintro ⟨r, h, _⟩; cases h

/-- Non-vacuity of C04: the example object, inside (value 0.14) the prior is finite. -/
example : logPriorOver (fun _ => none)
    ⟨exConfig, ["w"], ["g1"], [("w", .fin 0.0137), ("g1", .fin 0.14)]⟩ ["g1"] = .ok (.fin (-0.5)) := by
  have h1 : ¬ ((0.14 : ℝ) < 0 ∨ (1 : ℝ) < 0.14) := by norm_num
  simp [logPriorOver, exConfig, PyDict.getItem, PyDict.get?, logPriorTerm, bind, Except.bind, pure,
    Except.pure, XF.sum, h1]
  norm_num

/-! ### C05 -/

/-- One likelihood evaluation: the fitted parameters are set from a vector in `parameter_fit` order
(context.py 163-176 receives this dictionary from the sampler). -/
def evalAt (pm : PM) (xs : List XF) : PM × Res Unit :=
  setParameter pm (.dict ((parameterFit pm).zip xs)) .none

theorem zip_fst_nodup {config : Config} {pm : PM} (h : Inv config pm) (hc : config.keys.Nodup)
    (xs : List XF) (hl : xs.length = (parameterFit pm).length) :
    (((parameterFit pm).zip xs).map Prod.fst) = parameterFit pm := by
  rw [List.map_fst_zip (by omega)]

theorem evalAt_eq {config : Config} {pm : PM} (h : Inv config pm) (hc : config.keys.Nodup)
    (xs : List XF) :
    evalAt pm xs = ({ pm with vals := pm.vals.update ((parameterFit pm).zip xs) }, .ok ()) := by
  unfold evalAt
  refine (C03_set_parameter_atomic pm _ _).1 _ (by rfl) ?_
  intro a ha
  have h1 : a.1 ∈ parameterFit pm := (List.of_mem_zip (a := a.1) (b := a.2) ha).1
  obtain ⟨s, hs, _⟩ := (mem_parameterFit h hc _).1 h1
  rw [h.keys, PyDict.mem_keys_iff, hs]; rfl

/-- **C05 (round trip).** After an evaluation at `xs` the fit vector is `xs` and every fixed parameter is
unchanged. -/
theorem C05_fit_vector_round_trip (config : Config) (hc : config.keys.Nodup) (pm : PM)
    (hr : Reachable config pm) (xs : List XF) (hl : xs.length = (parameterFit pm).length) :
    (evalAt pm xs).2 = .ok () ∧
    parameterFitArray (evalAt pm xs).1 = .ok (.many xs) ∧
    ∀ n, ¬ IsFitted config n → (evalAt pm xs).1.vals.get? n = pm.vals.get? n := by
  have h := hr.inv
  have he := evalAt_eq h hc xs
  have hinv : Inv config (evalAt pm xs).1 := setParameter_inv _ _ h
  have hsame : parameterFit (evalAt pm xs).1 = parameterFit pm := by rw [he]; rfl
  refine ⟨by rw [he], ?_, ?_⟩
  · have hall : (parameterFit pm).all (evalAt pm xs).1.vals.has = true := by
      rw [List.all_eq_true]
      intro k hk
      rw [PyDict.has_iff, hinv.keys]
      obtain ⟨s, hs, _⟩ := (mem_parameterFit h hc k).1 hk
      rw [PyDict.mem_keys_iff, hs]; rfl
    simp only [parameterFitArray, getParameter, hsame, checkExist, hall, getItem]
    have : (parameterFit pm).mapM (evalAt pm xs).1.vals.getItem = .ok xs := by
      rw [mapM_ok_iff, List.forall₂_iff_zip]
      refine ⟨hl.symm, ?_⟩
      intro a b hab
      have hnd : (((parameterFit pm).zip xs).map Prod.fst).Nodup := by
        rw [zip_fst_nodup h hc xs hl]; exact parameterFit_nodup h hc
      rw [he]
      simp only [PyDict.getItem, PyDict.get?_update_nodup pm.vals _ hnd hab]
    rw [this]; rfl
  · intro n hn
    rw [he]
    apply PyDict.get?_update_not_mem
    rw [zip_fst_nodup h hc xs hl, mem_parameterFit h hc, ← isFitted_iff]
    exact hn

/-- **C05 (no leakage).** After any non-empty sequence of evaluations the whole store equals the store
after evaluating only the last vector: nothing of the earlier walkers remains. -/
theorem C05_no_leakage (config : Config) (hc : config.keys.Nodup) (pm : PM)
    (hr : Reachable config pm) (hist : List (List XF)) (last : List XF)
    (hlast : last.length = (parameterFit pm).length)
    (hhist : ∀ xs ∈ hist, xs.length = (parameterFit pm).length) :
    (evalAt (hist.foldl (fun p xs => (evalAt p xs).1) pm) last).1 = (evalAt pm last).1 := by
  have key : ∀ (hist : List (List XF)) (p : PM), Inv config p → p.fitNames = pm.fitNames →
      p.fixedNames = pm.fixedNames →
      (∀ n, ¬ IsFitted config n → p.vals.get? n = pm.vals.get? n) →
      (∀ xs ∈ hist, xs.length = (parameterFit pm).length) →
      (evalAt (hist.foldl (fun p xs => (evalAt p xs).1) p) last).1 = (evalAt pm last).1 := by
    intro hist
    induction hist with
    | nil =>
      intro p hp hf hfx hfixed _
      have h := hr.inv
      have hpf : parameterFit p = parameterFit pm := by unfold parameterFit; rw [hf]
      simp only [List.foldl_nil]
      rw [evalAt_eq hp hc, evalAt_eq h hc, hpf]
      have hvals : p.vals.update ((parameterFit pm).zip last) =
          pm.vals.update ((parameterFit pm).zip last) := by
        have hk : ∀ (q : PM), Inv config q → parameterFit q = parameterFit pm →
            (q.vals.update ((parameterFit pm).zip last)).keys = config.keys := by
          intro q hq hqf
          rw [PyDict.keys_update_of_subset, hq.keys]
          rw [zip_fst_nodup h hc last hlast]
          intro k hk
          obtain ⟨s, hs, _⟩ := (mem_parameterFit h hc k).1 hk
          rw [hq.keys, PyDict.mem_keys_iff, hs]; rfl
        apply PyDict.ext_keys
        · rw [hk p hp hpf]; exact hc
        · rw [hk p hp hpf, hk pm h rfl]
        · intro k _
          by_cases hkf : k ∈ parameterFit pm
          · have hnd : (((parameterFit pm).zip last).map Prod.fst).Nodup := by
              rw [zip_fst_nodup h hc last hlast]; exact parameterFit_nodup h hc
            have : k ∈ ((parameterFit pm).zip last).map Prod.fst := by
              rw [zip_fst_nodup h hc last hlast]; exact hkf
            obtain ⟨⟨a, b⟩, hab, rfl⟩ := List.mem_map.1 this
            rw [PyDict.get?_update_nodup _ _ hnd hab, PyDict.get?_update_nodup _ _ hnd hab]
          · rw [PyDict.get?_update_not_mem, PyDict.get?_update_not_mem]
            · apply hfixed
              rwa [isFitted_iff, ← mem_parameterFit h hc]
            · rw [zip_fst_nodup h hc last hlast]; exact hkf
            · rw [zip_fst_nodup h hc last hlast]; exact hkf
      obtain ⟨c1, a1, b1, v1⟩ := p
      obtain ⟨c2, a2, b2, v2⟩ := pm
      have e1 := hp.cfg; have e2 := h.cfg
      simp only at e1 e2 hf hfx hvals ⊢
      subst e1 hf hfx
      rw [← e2] at *
      simp only [PM.mk.injEq, true_and, and_true]
      exact hvals
    | cons xs hist ih =>
      intro p hp hf hfx hfixed hlen
      rw [List.foldl_cons]
      have hpf : parameterFit p = parameterFit pm := by unfold parameterFit; rw [hf]
      have hxs : xs.length = (parameterFit p).length := by rw [hpf]; exact hlen xs (by simp)
      have he := evalAt_eq hp hc xs
      apply ih
      · exact setParameter_inv _ _ hp
      · rw [he]; exact hf
      · rw [he]; exact hfx
      · intro n hn
        rw [← hfixed n hn, he]
        apply PyDict.get?_update_not_mem
        rw [zip_fst_nodup hp hc xs hxs, mem_parameterFit hp hc, ← isFitted_iff]
        exact hn
      · intro ys hys; exact hlen ys (by simp [hys])
  exact key hist pm hr.inv rfl rfl (fun _ _ => rfl) hhist

/-- Non-vacuity of C05: two evaluations of the example object at different points. -/
example : (parameterFit (mkRaw exConfig)).length = 1 ∧
    (evalAt (evalAt (mkRaw exConfig) [.fin 0.5]).1 [.fin 0.7]).1.vals =
      [("w", .fin 0), ("g1", .fin 0.7)] := by
  have h : parameterFit (mkRaw exConfig) = ["g1"] := by
    simp [parameterFit, mkRaw, exConfig, PyDict.keys, Prior.isFixed, List.filter]
  have hinv := mkRaw_inv exConfig
  refine ⟨by rw [h]; rfl, ?_⟩
  have h2 := evalAt_eq hinv exConfig_nodup [.fin 0.5]
  have hinv2 : Inv exConfig (evalAt (mkRaw exConfig) [.fin 0.5]).1 := setParameter_inv _ _ hinv
  rw [evalAt_eq hinv2 exConfig_nodup, h2]
  have h3 : ∀ v, parameterFit ⟨(mkRaw exConfig).config, (mkRaw exConfig).fixedNames,
      (mkRaw exConfig).fitNames, v⟩ = ["g1"] := fun v => h
  simp only [h3, h]
  simp [mkRaw, exConfig, PyDict.update, PyDict.set]

end Verif.Parameter
