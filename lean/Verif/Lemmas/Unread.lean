/-
What a parameter that no likelihood reads does to the log posterior: its own term of the log prior.
-/
import Verif.Spec.Unread
import Verif.Props.Likelihood
import Verif.Props.Context
import Verif.Lemmas.PriorConcave

namespace Verif.Ctx
open Verif Parameter

section
variable {K : Type}

/-! ### The likelihoods -/

theorem replaceAlias_same {al : PyDict String String} (hal : Llh.PlainAliases al) {names nd : List String} {n : String}
    (hnd : ∀ r ∈ nd, Llh.callerName al r ∈ names ∧ Llh.callerName al r ≠ n) {p q : PyDict String XF}
    (hpq : ∀ k, k ≠ n → p.get? k = q.get? k) (hin : ∀ k ∈ names, ∃ v, p.get? k = some v) :
    ∀ r ∈ nd, (Llh.replaceAlias al p).get? r = (Llh.replaceAlias al q).get? r := by
  intro r hr
  obtain ⟨h1, h2⟩ := hnd r hr
  rw [Llh.replaceAlias_get al hal, Llh.replaceAlias_get al hal]
  split
  · rfl
  · obtain ⟨v, hv⟩ := hin _ h1
    rw [← hpq _ h2, hv]

theorem modelLoop_same (batch : Int) {p q : PyDict String XF} (cs : List (String × Llh.LComp K XF))
    (h : ∀ m c, (m, c) ∈ cs → Honest c ∧ ∀ r ∈ c.needed, p.get? r = q.get? r) (key : K) (acc : Llh.Grid XF) :
    Llh.modelLoop batch p cs key acc = Llh.modelLoop batch q cs key acc := by
  induction cs generalizing key acc with
  | nil => rfl
  | cons a cs ih =>
    obtain ⟨m, c⟩ := a
    obtain ⟨h1, h2⟩ := h m c (by simp)
    have ih' := fun key acc => ih (fun m c hc => h m c (by simp [hc])) key acc
    cases c with
    | sim nd f w =>
      simp only [Llh.modelLoop]
      rw [h1 key batch p q h2]
      simp only [ih']
    | fixed nd f w =>
      simp only [Llh.modelLoop]
      rw [h1 p q h2]
      simp only [ih']
    | other nd => rfl

/-- A likelihood that does not read `n` has the same value for all values of `n`. -/
theorem unread_logL {names : List String} {n : String} {o : Obj K} (ho : o.Unread names n) {p q : PyDict String XF}
    (hpq : ∀ k, k ≠ n → p.get? k = q.get? k) (hin : ∀ k ∈ names, ∃ v, p.get? k = some v) (key : K) (batch : Int) :
    o.logL key batch p = o.logL key batch q := by
  cases o with
  | binned al data st =>
    obtain ⟨hal, hc⟩ := ho
    simp only [Obj.logL, Llh.getLogLikelihood, Llh.simulateModelHist, Llh.replaceAlias_idem al hal]
    rw [modelLoop_same batch st.components (fun m c hm => ⟨(hc m c hm).1, replaceAlias_same hal (hc m c hm).2 hpq hin⟩)]
  | lit al shape nd st =>
    obtain ⟨hal, hc⟩ := ho
    have : Llh.simulateYields al st key 1 (Llh.replaceAlias al p) = Llh.simulateYields al st key 1 (Llh.replaceAlias al q) := by
      simp only [Llh.simulateYields, Llh.replaceAlias_idem al hal]
      split
      · rfl
      split
      · rfl
      rename_i m hm
      simp only [bind, Except.bind]
      cases hg : st.components.getItem m with
      | error e => rfl
      | ok c =>
        have hmem : (m, c) ∈ st.components := by
          unfold PyDict.getItem at hg
          cases hgg : PyDict.get? st.components m with
          | none => rw [hgg] at hg; cases hg
          | some c' => rw [hgg] at hg; cases hg; exact PyDict.mem_of_get? _ hgg
        obtain ⟨nd, h1, h2⟩ := hc m c hmem
        exact h1 key 1 _ _ (replaceAlias_same hal h2 hpq hin)
    simp only [Obj.logL, Llh.litLogLikelihood, this]

theorem onceLoop_same {names : List String} {n : String} (ls : List (String × Obj K)) (h : ∀ m o, (m, o) ∈ ls → o.Unread names n)
    {p q : PyDict String XF} (hpq : ∀ k, k ≠ n → p.get? k = q.get? k) (hin : ∀ k ∈ names, ∃ v, p.get? k = some v) (batch : Int)
    (key : K) (acc : XF) : onceLoop batch p ls key acc = onceLoop batch q ls key acc := by
  induction ls generalizing key acc with
  | nil => rfl
  | cons a ls ih =>
    obtain ⟨m, o⟩ := a
    simp only [onceLoop]
    rw [unread_logL (h m o (by simp)) hpq hin]
    simp only [fun key acc => ih (fun m o ho => h m o (by simp [ho])) key acc]

/-! ### The log prior as an offset -/

theorem once_shift (c : Ctx K) (batch : Int) (key : K) (a δ : ℝ) :
    once c batch key (.fin (a + δ)) = (once c batch key (.fin a)).map (· + .fin δ) := by
  simp only [once, bind, Except.bind, pure, Except.pure]
  cases onceLoop batch c.pm.vals c.likelihoods key (.fin 0) with
  | error e => rfl
  | ok t => simp only [Except.map, XF.add_assoc', XF.fin_add_fin]

theorem mapM_map {α : Type} (f : α → Res XF) (g : XF → XF) (l : List α) :
    l.mapM (fun a => (f a).map g) = (l.mapM f).map (List.map g) := by
  induction l with
  | nil => rfl
  | cons a l ih =>
    simp only [List.mapM_cons, ih, bind, Except.bind, pure, Except.pure]
    cases f a with
    | error e => rfl
    | ok b => cases l.mapM f <;> rfl

theorem sum_shift (vs : List XF) (δ : ℝ) : XF.sum (vs.map (· + .fin δ)) = XF.sum vs + .fin (vs.length * δ) := by
  induction vs with
  | nil => simp
  | cons v vs ih =>
    rw [List.map_cons, XF.sum_cons, ih, XF.sum_cons, List.length_cons]
    have : ((vs.length + 1 : ℕ) : ℝ) * δ = δ + vs.length * δ := by push_cast; ring
    rw [this, ← XF.fin_add_fin, XF.add_assoc', XF.add_assoc', ← XF.add_assoc' (.fin δ), XF.add_comm' (.fin δ), XF.add_assoc']

theorem div_shift (s : XF) (δ : ℝ) {n : ℝ} (hn : 0 < n) : (s + .fin (n * δ)) / .fin n = s / .fin n + .fin δ := by
  have i1 : XF.ninf / XF.fin n = .ninf := by
    rw [XF.ninf_div_fin, if_neg hn.ne']; unfold XF.infSign; rw [if_neg (by linarith), if_pos (by linarith)]
  have i2 : XF.pinf / XF.fin n = .pinf := by
    rw [XF.pinf_div_fin, if_neg hn.ne']; unfold XF.infSign; rw [if_pos hn]
  cases s with
  | nan => simp
  | ninf => simp [i1]
  | pinf => simp [i2]
  | fin x =>
    rw [XF.fin_add_fin, XF.fin_div_fin_of_ne _ hn.ne', XF.fin_div_fin_of_ne _ hn.ne', XF.fin_add_fin, XF.fin.injEq]
    field_simp

theorem repeated_shift (c : Ctx K) (batch repeats : Int) (keys : Nat → K) (a δ : ℝ) :
    repeated c batch repeats keys (.fin (a + δ)) = (repeated c batch repeats keys (.fin a)).map (· + .fin δ) := by
  unfold repeated
  split
  · rename_i h
    simp only [once_shift, mapM_map]
    simp only [bind, Except.bind, pure, Except.pure]
    cases hv : (List.range repeats.toNat).mapM (fun i => once c batch (keys i) (.fin a)) with
    | error e => rfl
    | ok vs =>
      have hlen : vs.length = repeats.toNat := by
        have := (mapM_ok_get _ _ _ hv).1
        simpa using this
      have hpos : (0 : ℝ) < vs.length := by
        rw [hlen]; exact_mod_cast (by omega : 0 < repeats.toNat)
      simp only [Except.map, sum_shift, List.length_map]
      rw [div_shift _ _ hpos]
  · exact once_shift c batch (keys 0) a δ

theorem repeated_same {names : List String} {n : String} (c : Ctx K) (h : ∀ m o, (m, o) ∈ c.likelihoods → o.Unread names n)
    {pm pm' : PM} (hpq : ∀ k, k ≠ n → pm.vals.get? k = pm'.vals.get? k) (hin : ∀ k ∈ names, ∃ v, pm.vals.get? k = some v)
    (batch repeats : Int) (keys : Nat → K) (lp : XF) :
    repeated { c with pm := pm } batch repeats keys lp = repeated { c with pm := pm' } batch repeats keys lp := by
  have : ∀ key, once { c with pm := pm } batch key lp = once { c with pm := pm' } batch key lp := by
    intro key
    simp only [once]
    rw [onceLoop_same c.likelihoods h hpq hin]
  simp only [repeated, this]

end
end Verif.Ctx

namespace Verif.Walk
open Verif Parameter MeasureTheory
open scoped ENNReal

section
variable {K : Type} {d : Nat}

/-- The parameters at a position. -/
noncomputable def pmAt (c : Ctx.Ctx K) (x : Fin d → ℝ) : PM := (evalAt c.pm ((List.ofFn x).map XF.fin)).1

/-- The density that a result stands for. -/
noncomputable def densityRes : Res XF → ℝ≥0∞
  | .ok v => densityOf v
  | .error _ => 0

theorem densityRes_shift (r : Res XF) (δ : ℝ) : densityRes (r.map (· + .fin δ)) = densityRes r * ENNReal.ofReal (Real.exp δ) := by
  cases r with
  | error e => simp [densityRes, Except.map]
  | ok v =>
    cases v with
    | fin x =>
      simp only [densityRes, Except.map, XF.fin_add_fin, densityOf]
      rw [Real.exp_add, ENNReal.ofReal_mul (Real.exp_pos _).le]
    | _ => simp [densityRes, Except.map, densityOf]

theorem density_of {config : Config} (hc : config.keys.Nodup) {o : Settings} {c : Ctx.Ctx K} (hr : Reachable config c.pm) {x : Fin d → ℝ}
    {keys : Nat → K} {lp : ℝ} (h : logPriorOver o.sig (pmAt c x) o.order = .ok (.fin lp)) :
    density o c (x, keys) = densityRes (Ctx.repeated { c with pm := pmAt c x } o.batch o.repeats keys (.fin lp)) := by
  have hset : setParameter c.pm (.dict ((parameterFit c.pm).zip ((List.ofFn x).map XF.fin))) .none = (pmAt c x, .ok ()) :=
    Prod.ext rfl (by have := evalAt_eq hr.inv hc ((List.ofFn x).map XF.fin); unfold evalAt at this; rw [this])
  unfold density posterior Ctx.logPosterior
  simp only [hset, h, bind, Except.bind, pure, Except.pure, XF.isFinite_fin, not_true_eq_false, if_false]
  cases Ctx.repeated { c with pm := pmAt c x } o.batch o.repeats keys (.fin lp) <;> rfl

theorem density_zero {config : Config} (hc : config.keys.Nodup) {o : Settings} {c : Ctx.Ctx K} (hr : Reachable config c.pm) {x : Fin d → ℝ}
    {keys : Nat → K} (h : ∀ lp : ℝ, logPriorOver o.sig (pmAt c x) o.order ≠ .ok (.fin lp)) : density o c (x, keys) = 0 := by
  have hset : setParameter c.pm (.dict ((parameterFit c.pm).zip ((List.ofFn x).map XF.fin))) .none = (pmAt c x, .ok ()) :=
    Prod.ext rfl (by have := evalAt_eq hr.inv hc ((List.ofFn x).map XF.fin); unfold evalAt at this; rw [this])
  unfold density posterior Ctx.logPosterior
  simp only [hset, bind, Except.bind, pure, Except.pure]
  cases hlp : logPriorOver o.sig (pmAt c x) o.order with
  | error e => rfl
  | ok v =>
    cases v with
    | fin lp => exact absurd hlp (h lp)
    | _ => simp [valueOf, densityOf]

/-- Two positions that differ in one parameter. -/
structure Differ (config : Config) (c : Ctx.Ctx K) (n : String) (s : Setting) (x y : Fin d → ℝ) (a b : ℝ) : Prop where
  left : (pmAt c x).vals.get? n = some (.fin a)
  right : (pmAt c y).vals.get? n = some (.fin b)
  others : ∀ k, k ≠ n → (pmAt c x).vals.get? k = (pmAt c y).vals.get? k
  cfgl : (pmAt c x).config = config
  cfgr : (pmAt c y).config = config
  given : ∀ k ∈ config.keys, ∃ v, (pmAt c x).vals.get? k = some v
  setting : config.get? n = some s

theorem Differ.symm {config : Config} {c : Ctx.Ctx K} {n : String} {s : Setting} {x y : Fin d → ℝ} {a b : ℝ}
    (h : Differ config c n s x y a b) : Differ config c n s y x b a where
  left := h.right
  right := h.left
  others := fun k hk => (h.others k hk).symm
  cfgl := h.cfgr
  cfgr := h.cfgl
  given := fun k hk => by
    by_cases e : k = n
    · exact ⟨_, e ▸ h.right⟩
    · rw [← h.others k e]; exact h.given k hk
  setting := h.setting

theorem differ_of {config : Config} (hc : config.keys.Nodup) {c : Ctx.Ctx K} (hr : Reachable config c.pm)
    (hd : (parameterFit c.pm).length = d) {i : Fin d} {n : String} (hn : (parameterFit c.pm)[i.val]? = some n) {s : Setting}
    (hs : config.get? n = some s) {x y : Fin d → ℝ} (hxy : ∀ j, j ≠ i → x j = y j) : Differ config c n s x y (x i) (y i) := by
  have hval : ∀ (z : Fin d → ℝ) (j : Fin d) m, (parameterFit c.pm)[j.val]? = some m → (pmAt c z).vals.get? m = some (.fin (z j)) := by
    intro z j m hm
    unfold pmAt
    rw [evalAt_eq hr.inv hc]
    refine PyDict.get?_update_nodup _ _ ?_ ?_
    · rw [zip_fst_nodup hr.inv hc _ (by simp [hd])]; exact parameterFit_nodup hr.inv hc
    · rw [List.mem_iff_getElem?]
      refine ⟨j.val, ?_⟩
      rw [List.getElem?_zip_eq_some]
      exact ⟨hm, by simp [List.getElem?_ofFn]⟩
  have hinv : ∀ z : Fin d → ℝ, Inv config (pmAt c z) := fun z => setParameter_inv _ _ hr.inv
  refine ⟨hval x i n hn, hval y i n hn, ?_, (hinv x).cfg, (hinv y).cfg, ?_, hs⟩
  · intro k hk
    by_cases hf : k ∈ parameterFit c.pm
    · obtain ⟨j, hj⟩ := List.mem_iff_getElem?.1 hf
      have hlt : j < d := by rw [← hd]; exact (List.getElem?_eq_some_iff.1 hj).1
      rw [hval x ⟨j, hlt⟩ k hj, hval y ⟨j, hlt⟩ k hj, hxy ⟨j, hlt⟩ (by
        rintro rfl
        rw [hn] at hj
        exact hk (Option.some.inj hj).symm)]
    · have h1 : ¬ IsFitted config k := by
        rintro ⟨s', hs', hne⟩
        refine hf ((mem_parameterFit hr.inv hc k).2 ⟨s', hs', ?_⟩)
        cases hp : s'.prior with
        | fixed v => exact absurd hp (hne v)
        | _ => rfl
      have hx := C05_fit_vector_round_trip config hc c.pm hr ((List.ofFn x).map XF.fin) (by simp [hd])
      have hy := C05_fit_vector_round_trip config hc c.pm hr ((List.ofFn y).map XF.fin) (by simp [hd])
      unfold pmAt
      rw [hx.2.2 k h1, hy.2.2 k h1]
  · intro k hk
    rw [← (hinv x).keys] at hk
    exact (PyDict.mem_keys_iff_exists _ _).1 hk

/-- The log prior changes by the term of the parameter. -/
theorem prior_shift {config : Config} {c : Ctx.Ctx K} {n : String} {s : Setting} {x y : Fin d → ℝ} {a b : ℝ}
    (h : Differ config c n s x y a b) {sig : Solver} (hok : EvalOK sig s) {lo hi : ℝ} (hal : s.allowed = some (lo, hi))
    (ha : lo ≤ a ∧ a ≤ hi) (hb : lo ≤ b ∧ b ≤ hi) {order : List String} (ho : order.Nodup) (hmem : n ∈ order) {lp : ℝ}
    (hlp : logPriorOver sig (pmAt c x) order = .ok (.fin lp)) :
    logPriorOver sig (pmAt c y) order = .ok (.fin (lp + (priorLogDensity sig s.prior b - priorLogDensity sig s.prior a))) := by
  classical
  obtain ⟨g, hg, rfl⟩ := logPriorOver_finite hlp
  have hga : g n = priorLogDensity sig s.prior a := by
    have := hg n hmem
    simp only [termOf, PyDict.getItem, bind, Except.bind, h.left, h.cfgl, h.setting] at this
    rw [logPriorTerm_inside sig s a lo hi hal hok ha.1 ha.2] at this
    simpa using this.symm
  have := logPriorOver_of_terms (sig := sig) (pm := pmAt c y) (ord := order)
    (fun k => if k = n then priorLogDensity sig s.prior b else g k) (by
      intro k hk
      by_cases e : k = n
      · subst e
        simp only [termOf, PyDict.getItem, bind, Except.bind, h.right, h.cfgr, h.setting, if_true]
        exact logPriorTerm_inside sig s b lo hi hal hok hb.1 hb.2
      · rw [if_neg e, ← hg k hk]
        simp only [termOf, PyDict.getItem, h.others k e, h.cfgl, h.cfgr])
  rw [this]
  congr 2
  rw [← hga]
  clear this hga hg hlp
  induction order with
  | nil => cases hmem
  | cons k l ih =>
    rw [List.nodup_cons] at ho
    simp only [List.map_cons, List.sum_cons]
    rcases List.mem_cons.1 hmem with rfl | hm
    · rw [if_pos rfl, List.map_congr_left (g := g) (fun j hj => by
        rw [if_neg]; rintro rfl; exact ho.1 hj)]
      ring
    · rw [ih ho.2 hm, if_neg (by rintro rfl; exact ho.1 hm)]
      ring

/-- Inside the allowed range the densities at two such positions differ by the prior densities of the parameter. -/
theorem density_shift {config : Config} (hc : config.keys.Nodup) {o : Settings} {c : Ctx.Ctx K} (hr : Reachable config c.pm)
    {n : String} {s : Setting} {x y : Fin d → ℝ} {a b : ℝ} (h : Differ config c n s x y a b) (hok : EvalOK o.sig s) {lo hi : ℝ}
    (hal : s.allowed = some (lo, hi)) (ha : lo ≤ a ∧ a ≤ hi) (hb : lo ≤ b ∧ b ≤ hi) (ho : o.order.Nodup) (hmem : n ∈ o.order)
    (hl : ∀ m obj, (m, obj) ∈ c.likelihoods → obj.Unread config.keys n) (keys : Nat → K) :
    density o c (y, keys) = density o c (x, keys)
      * ENNReal.ofReal (Real.exp (priorLogDensity o.sig s.prior b - priorLogDensity o.sig s.prior a)) := by
  by_cases hfin : ∃ lp : ℝ, logPriorOver o.sig (pmAt c x) o.order = .ok (.fin lp)
  · obtain ⟨lp, hlp⟩ := hfin
    have hlp' := prior_shift h hok hal ha hb ho hmem hlp
    rw [density_of hc hr hlp', density_of hc hr hlp, Ctx.repeated_shift, densityRes_shift,
      Ctx.repeated_same c hl h.others h.given]
  · rw [density_zero hc hr fun lp hlp => hfin ⟨lp, hlp⟩, density_zero hc hr, zero_mul]
    intro lp hlp
    exact hfin ⟨_, prior_shift h.symm hok hal hb ha ho hmem hlp⟩

/-- Outside the allowed range the density vanishes. -/
theorem density_outside {config : Config} (hc : config.keys.Nodup) {o : Settings} {c : Ctx.Ctx K} (hr : Reachable config c.pm)
    {n : String} {s : Setting} {x y : Fin d → ℝ} {a b : ℝ} (h : Differ config c n s x y a b) (hmem : n ∈ o.order)
    (keys : Nat → K) (hz : priorDensity o.sig s a = 0) : density o c (x, keys) = 0 := by
  refine density_zero hc hr fun lp hlp => ?_
  obtain ⟨g, hg, _⟩ := logPriorOver_finite hlp
  have := hg n hmem
  simp only [termOf, PyDict.getItem, bind, Except.bind, h.left, h.cfgl, h.setting] at this
  obtain ⟨lo, hi, h1, h2, h3, _⟩ := logPriorTerm_finite this
  simp only [priorDensity, h1, h2, h3, and_self, if_true, ENNReal.ofReal_eq_zero] at hz
  exact absurd (Real.exp_pos _) (not_lt.2 hz)

end
end Verif.Walk
