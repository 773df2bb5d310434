/-
Lemmas for likelihoods that share no fitted parameters (C157).
-/
import Verif.Spec.Blocks
import Verif.Lemmas.Renaming
import Verif.Lemmas.Fixing

namespace Verif.Ctx
open Verif Parameter

section
variable {K : Type}

theorem div_fin {s : XF} {n w : ℝ} (hn : 0 < n) (h : s / .fin n = .fin w) : ∃ v, s = .fin v ∧ w = v / n := by
  have i1 : XF.ninf / XF.fin n = .ninf := by
    rw [XF.ninf_div_fin, if_neg hn.ne']; unfold XF.infSign; rw [if_neg (by linarith), if_pos (by linarith)]
  have i2 : XF.pinf / XF.fin n = .pinf := by
    rw [XF.pinf_div_fin, if_neg hn.ne']; unfold XF.infSign; rw [if_pos hn]
  cases s with
  | nan => simp at h
  | ninf => rw [i1] at h; cases h
  | pinf => rw [i2] at h; cases h
  | fin x =>
    rw [XF.fin_div_fin_of_ne _ hn.ne'] at h
    exact ⟨x, rfl, (XF.fin.inj h).symm⟩

theorem evals_of_repeated {c : Ctx K} {batch repeats : Int} {keys : Nat → K} {lp v : XF} (h : repeated c batch repeats keys lp = .ok v) :
    ∃ vals : Nat → List XF, ∀ i < evaluations repeats, Evals batch c.pm.vals c.likelihoods (keys i) (vals i) := by
  unfold repeated at h
  split at h
  · rename_i hr
    have hn : evaluations repeats = repeats.toNat := by unfold evaluations; omega
    cases hm : (List.range repeats.toNat).mapM (fun i => once c batch (keys i) lp) with
    | error e => rw [hm] at h; cases h
    | ok l =>
      have hex : ∀ i, i < evaluations repeats → ∃ vs, Evals batch c.pm.vals c.likelihoods (keys i) vs := by
        intro i hi
        obtain ⟨b, _, hb⟩ := partner ((mapM_ok_iff _ _ _).1 hm) i (List.mem_range.2 (hn ▸ hi))
        obtain ⟨vs, h1, _⟩ := evals_of_once hb
        exact ⟨vs, h1⟩
      choose! vals hv using hex
      exact ⟨vals, hv⟩
  · rename_i hr
    have hn : evaluations repeats = 1 := by unfold evaluations; omega
    obtain ⟨vs, h1, _⟩ := evals_of_once h
    refine ⟨fun _ => vs, fun i hi => ?_⟩
    have : i = 0 := by omega
    subst this
    exact h1

/-- A finite value is the mean of sums of finite log likelihoods, and the log prior. -/
theorem repeated_finite {c : Ctx K} {batch repeats : Int} {keys : Nat → K} {lp w : ℝ}
    (h : repeated c batch repeats keys (.fin lp) = .ok (.fin w)) :
    ∃ vals : Nat → List ℝ, (∀ i < evaluations repeats, Evals batch c.pm.vals c.likelihoods (keys i) ((vals i).map XF.fin)) ∧
      w = ((List.range (evaluations repeats)).map (fun i => (vals i).sum)).sum / evaluations repeats + lp := by
  obtain ⟨vals, hv⟩ := evals_of_repeated h
  have hpos : (0 : ℝ) < evaluations repeats := by
    have : 0 < evaluations repeats := by unfold evaluations; omega
    exact_mod_cast this
  rw [repeated_of_evals hv, Except.ok.injEq] at h
  obtain ⟨s, hs, hw⟩ := div_fin hpos h
  obtain ⟨ts, hts, rfl⟩ := sum_eq_fin hs
  have hex : ∀ i, i < evaluations repeats → ∃ rs : List ℝ, vals i = rs.map XF.fin := by
    intro i hi
    have hm : XF.sum (vals i) + .fin lp ∈ ts.map XF.fin := by
      rw [← hts]; exact List.mem_map.2 ⟨i, List.mem_range.2 hi, rfl⟩
    obtain ⟨t, _, ht⟩ := List.mem_map.1 hm
    cases hz : XF.sum (vals i) with
    | fin z =>
      obtain ⟨rs, hrs, _⟩ := sum_eq_fin hz
      exact ⟨rs, hrs⟩
    | _ => rw [hz] at ht; simp at ht
  choose! rs hrs using hex
  refine ⟨rs, fun i hi => hrs i hi ▸ hv i hi, ?_⟩
  have hsum : ts.sum = ((List.range (evaluations repeats)).map (fun i => (rs i).sum + lp)).sum := by
    have : XF.sum (ts.map XF.fin) = XF.sum (((List.range (evaluations repeats)).map (fun i => (rs i).sum + lp)).map XF.fin) := by
      rw [← hts, List.map_map]
      congr 1
      refine List.map_congr_left fun i hi => ?_
      rw [hrs i (List.mem_range.1 hi), XF.sum_map_fin]
      simp
    rw [XF.sum_map_fin, XF.sum_map_fin] at this
    exact XF.fin.inj this
  rw [hw, hsum, List.sum_map_add]
  simp only [List.map_const', List.sum_replicate, List.length_range, nsmul_eq_mul]
  field_simp

/-- Exchanging the blocks between two points exchanges the log likelihoods of one of the blocks. -/
theorem evals_mix {batch : Int} {ls : List (String × Obj K)} {p1 p2 p12 p21 : PyDict String XF}
    (h : ∀ m o, (m, o) ∈ ls → o.KeysAlike ∧
      (((∀ key, o.logL key batch p12 = o.logL key batch p1) ∧ ∀ key, o.logL key batch p21 = o.logL key batch p2) ∨
        ((∀ key, o.logL key batch p12 = o.logL key batch p2) ∧ ∀ key, o.logL key batch p21 = o.logL key batch p1)))
    {key : K} {v1 v2 : List ℝ} (h1 : Evals batch p1 ls key (v1.map XF.fin)) (h2 : Evals batch p2 ls key (v2.map XF.fin)) :
    ∃ w1 w2 : List ℝ, Evals batch p12 ls key (w1.map XF.fin) ∧ Evals batch p21 ls key (w2.map XF.fin) ∧
      w1.sum + w2.sum = v1.sum + v2.sum := by
  induction ls generalizing key v1 v2 with
  | nil =>
    cases v1 with
    | cons => cases h1
    | nil =>
      cases v2 with
      | cons => cases h2
      | nil => exact ⟨[], [], .nil _, .nil _, rfl⟩
  | cons a ls ih =>
    obtain ⟨m, o⟩ := a
    cases v1 with
    | nil => cases h1
    | cons a1 v1 =>
      cases v2 with
      | nil => cases h2
      | cons a2 v2 =>
        simp only [List.map_cons] at h1 h2
        cases h1 with
        | @cons _ _ _ _ k1 _ _ g1 r1 =>
          cases h2 with
          | @cons _ _ _ _ k2 _ _ g2 r2 =>
            obtain ⟨hk, hcase⟩ := h m o (by simp)
            have e1 := logL_iff.2 g1
            have e2 := logL_iff.2 g2
            have hkk := hk _ _ _ _ _ _ _ _ e1 e2
            subst hkk
            obtain ⟨w1, w2, s1, s2, hs⟩ := ih (fun m o ho => h m o (by simp [ho])) r1 r2
            rcases hcase with ⟨c1, c2⟩ | ⟨c1, c2⟩
            · refine ⟨a1 :: w1, a2 :: w2, .cons (logL_iff.1 (by rw [c1, e1])) s1, .cons (logL_iff.1 (by rw [c2, e2])) s2, ?_⟩
              simp only [List.sum_cons]
              linarith
            · refine ⟨a2 :: w1, a1 :: w2, .cons (logL_iff.1 (by rw [c1, e2])) s1, .cons (logL_iff.1 (by rw [c2, e1])) s2, ?_⟩
              simp only [List.sum_cons]
              linarith

end
end Verif.Ctx

namespace Verif.Walk
open Verif Parameter
open scoped ENNReal

section
variable {K : Type} {d : Nat}

theorem mix_mix (S : Fin d → Bool) (x y : Fin d → ℝ) : mix S (mix S x y) (mix S y x) = x := by
  funext j
  unfold mix
  split <;> simp_all

/-- The value stored for a name at a position. -/
theorem stored_at {config : Config} (hc : config.keys.Nodup) {c : Ctx.Ctx K} (hr : Reachable config c.pm)
    (hd : (parameterFit c.pm).length = d) (z : Fin d → ℝ) (j : Fin d) (k : String) (hk : (parameterFit c.pm)[j.val]? = some k) :
    (pmAt c z).vals.get? k = some (.fin (z j)) := by
  unfold pmAt
  rw [evalAt_eq hr.inv hc]
  refine PyDict.get?_update_nodup _ _ ?_ ?_
  · rw [zip_fst_nodup hr.inv hc _ (by simp [hd])]; exact parameterFit_nodup hr.inv hc
  · rw [List.mem_iff_getElem?]
    refine ⟨j.val, ?_⟩
    rw [List.getElem?_zip_eq_some]
    exact ⟨hk, by simp [List.getElem?_ofFn]⟩

theorem stored_same {config : Config} (hc : config.keys.Nodup) {c : Ctx.Ctx K} (hr : Reachable config c.pm)
    (hd : (parameterFit c.pm).length = d) {z z' : Fin d → ℝ} {k : String}
    (h : ∀ j : Fin d, (parameterFit c.pm)[j.val]? = some k → z j = z' j) :
    (pmAt c z).vals.get? k = (pmAt c z').vals.get? k := by
  by_cases hf : k ∈ parameterFit c.pm
  · obtain ⟨j, hj⟩ := List.mem_iff_getElem?.1 hf
    have hlt : j < d := by rw [← hd]; exact (List.getElem?_eq_some_iff.1 hj).1
    rw [stored_at hc hr hd z ⟨j, hlt⟩ k hj, stored_at hc hr hd z' ⟨j, hlt⟩ k hj, h ⟨j, hlt⟩ hj]
  · have h1 : ¬ IsFitted config k := fun hk => hf ((mem_fit_iff hr.inv hc k).2 hk)
    have e1 : (pmAt c z).vals.get? k = c.pm.vals.get? k :=
      (C05_fit_vector_round_trip config hc c.pm hr ((List.ofFn z).map XF.fin) (by simp [hd])).2.2 k h1
    have e2 : (pmAt c z').vals.get? k = c.pm.vals.get? k :=
      (C05_fit_vector_round_trip config hc c.pm hr ((List.ofFn z').map XF.fin) (by simp [hd])).2.2 k h1
    rw [e1, e2]

theorem reads_same {config : Config} (hc : config.keys.Nodup) {c : Ctx.Ctx K} (hr : Reachable config c.pm)
    (hd : (parameterFit c.pm).length = d) {o : Ctx.Obj K} {names : List String} (ho : o.Reads names)
    (hn : ∀ k ∈ names, k ∈ config.keys) {z z' : Fin d → ℝ}
    (h : ∀ (j : Fin d) k, (parameterFit c.pm)[j.val]? = some k → k ∈ names → z j = z' j) (key : K) (batch : Int) :
    o.logL key batch (pmAt c z).vals = o.logL key batch (pmAt c z').vals := by
  refine Ctx.renamed_logL ho (fun k hk => stored_same hc hr hd fun j hj => h j k hj hk) ?_ key batch
  intro k hk
  have hinv : Inv config (pmAt c z') := setParameter_inv _ _ hr.inv
  have := hn k hk
  rw [← hinv.keys] at this
  exact (PyDict.mem_keys_iff_exists _ _).1 this

/-- Exchanging blocks of parameters exchanges terms of the log prior. -/
theorem prior_mix {config : Config} (hc : config.keys.Nodup) {c : Ctx.Ctx K} (hr : Reachable config c.pm)
    (hd : (parameterFit c.pm).length = d) (S : Fin d → Bool) (x y : Fin d → ℝ) {sig : Solver} {order : List String}
    (ho : ∀ k ∈ order, k ∈ parameterFit c.pm) {l1 l2 : ℝ} (h1 : logPriorOver sig (pmAt c x) order = .ok (.fin l1))
    (h2 : logPriorOver sig (pmAt c y) order = .ok (.fin l2)) :
    ∃ m1 m2 : ℝ, logPriorOver sig (pmAt c (mix S x y)) order = .ok (.fin m1) ∧ logPriorOver sig (pmAt c (mix S y x)) order = .ok (.fin m2) ∧
      m1 + m2 = l1 + l2 := by
  have hcfg : ∀ z : Fin d → ℝ, (pmAt c z).config = config := fun z => (setParameter_inv _ _ hr.inv : Inv config (pmAt c z)).cfg
  obtain ⟨g1, hg1, rfl⟩ := logPriorOver_finite h1
  obtain ⟨g2, hg2, rfl⟩ := logPriorOver_finite h2
  have hterm : ∀ (z z' : Fin d → ℝ) k, (∀ j : Fin d, (parameterFit c.pm)[j.val]? = some k → z j = z' j) →
      termOf sig (pmAt c z) k = termOf sig (pmAt c z') k := by
    intro z z' k h
    simp only [termOf, PyDict.getItem, hcfg, stored_same hc hr hd h]
  have hex : ∀ k ∈ order, ∃ a b : ℝ, termOf sig (pmAt c (mix S x y)) k = .ok (.fin a) ∧ termOf sig (pmAt c (mix S y x)) k = .ok (.fin b) ∧
      a + b = g1 k + g2 k := by
    intro k hk
    obtain ⟨j, hj⟩ := List.mem_iff_getElem?.1 (ho k hk)
    have hlt : j < d := by rw [← hd]; exact (List.getElem?_eq_some_iff.1 hj).1
    have hone : ∀ j' : Fin d, (parameterFit c.pm)[j'.val]? = some k → j' = ⟨j, hlt⟩ := by
      intro j' hj'
      exact Fin.ext ((List.getElem?_inj (List.getElem?_eq_some_iff.1 hj').1 (parameterFit_nodup hr.inv hc)).1 (hj'.trans hj.symm))
    cases hS : S ⟨j, hlt⟩ with
    | true =>
      refine ⟨g1 k, g2 k, ?_, ?_, rfl⟩
      · rw [hterm _ x k (fun j' hj' => by rw [hone j' hj']; simp [mix, hS]), hg1 k hk]
      · rw [hterm _ y k (fun j' hj' => by rw [hone j' hj']; simp [mix, hS]), hg2 k hk]
    | false =>
      refine ⟨g2 k, g1 k, ?_, ?_, add_comm _ _⟩
      · rw [hterm _ y k (fun j' hj' => by rw [hone j' hj']; simp [mix, hS]), hg2 k hk]
      · rw [hterm _ x k (fun j' hj' => by rw [hone j' hj']; simp [mix, hS]), hg1 k hk]
  choose! a b hab using hex
  refine ⟨_, _, logPriorOver_of_terms a fun k hk => (hab k hk).1, logPriorOver_of_terms b fun k hk => (hab k hk).2.1, ?_⟩
  rw [← List.sum_map_add, ← List.sum_map_add]
  congr 1
  exact List.map_congr_left fun k hk => (hab k hk).2.2

/-- A density that is not zero is the exponential of a finite log posterior. -/
theorem density_pos {config : Config} (hc : config.keys.Nodup) {o : Settings} {c : Ctx.Ctx K} (hr : Reachable config c.pm) {x : Fin d → ℝ}
    {keys : Nat → K} (h : density o c (x, keys) ≠ 0) :
    ∃ lp w : ℝ, logPriorOver o.sig (pmAt c x) o.order = .ok (.fin lp) ∧
      Ctx.repeated { c with pm := pmAt c x } o.batch o.repeats keys (.fin lp) = .ok (.fin w) ∧
      density o c (x, keys) = ENNReal.ofReal (Real.exp w) := by
  by_cases hfin : ∃ lp : ℝ, logPriorOver o.sig (pmAt c x) o.order = .ok (.fin lp)
  · obtain ⟨lp, hlp⟩ := hfin
    rw [density_of hc hr hlp] at h ⊢
    cases hrep : Ctx.repeated { c with pm := pmAt c x } o.batch o.repeats keys (.fin lp) with
    | error e => rw [hrep] at h; exact absurd rfl h
    | ok v =>
      cases v with
      | fin w => exact ⟨lp, w, hlp, hrep, by first | rfl | (rw [hrep]; rfl)⟩
      | _ => rw [hrep] at h; exact absurd rfl h
  · exact absurd (density_zero hc hr fun lp hlp => hfin ⟨lp, hlp⟩) h

theorem density_mix_of_pos {config : Config} (hc : config.keys.Nodup) {o : Settings} {c : Ctx.Ctx K} (hr : Reachable config c.pm)
    (hd : (parameterFit c.pm).length = d) (ho : ∀ k ∈ o.order, k ∈ parameterFit c.pm) {S : Fin d → Bool} (hb : Blocks config c S)
    {x y : Fin d → ℝ} {keys : Nat → K} (hx : density o c (x, keys) ≠ 0) (hy : density o c (y, keys) ≠ 0) :
    density o c (mix S x y, keys) * density o c (mix S y x, keys) = density o c (x, keys) * density o c (y, keys) := by
  obtain ⟨l1, w1, p1, r1, e1⟩ := density_pos hc hr hx
  obtain ⟨l2, w2, p2, r2, e2⟩ := density_pos hc hr hy
  obtain ⟨v1, q1, rfl⟩ := Ctx.repeated_finite r1
  obtain ⟨v2, q2, rfl⟩ := Ctx.repeated_finite r2
  obtain ⟨m1, m2, s1, s2, hs⟩ := prior_mix hc hr hd S x y ho p1 p2
  have hmix : ∀ i, i < Ctx.evaluations o.repeats → ∃ u1 u2 : List ℝ,
      Ctx.Evals o.batch (pmAt c (mix S x y)).vals c.likelihoods (keys i) (u1.map XF.fin) ∧
      Ctx.Evals o.batch (pmAt c (mix S y x)).vals c.likelihoods (keys i) (u2.map XF.fin) ∧ u1.sum + u2.sum = (v1 i).sum + (v2 i).sum := by
    intro i hi
    refine Ctx.evals_mix ?_ (q1 i hi) (q2 i hi)
    intro m obj hm
    obtain ⟨hk, b, names, hread, hin, hblock⟩ := hb m obj hm
    refine ⟨hk, ?_⟩
    cases b with
    | true =>
      refine Or.inl ⟨fun key => reads_same hc hr hd hread hin (fun j k hj hkn => ?_) key _,
        fun key => reads_same hc hr hd hread hin (fun j k hj hkn => ?_) key _⟩ <;> simp [mix, hblock j k hj hkn]
    | false =>
      refine Or.inr ⟨fun key => reads_same hc hr hd hread hin (fun j k hj hkn => ?_) key _,
        fun key => reads_same hc hr hd hread hin (fun j k hj hkn => ?_) key _⟩ <;> simp [mix, hblock j k hj hkn]
  choose! u1 u2 hu1 hu2 hu using hmix
  have hval : ∀ (z : Fin d → ℝ) (m : ℝ) (u : Nat → List ℝ), logPriorOver o.sig (pmAt c z) o.order = .ok (.fin m) →
      (∀ i < Ctx.evaluations o.repeats, Ctx.Evals o.batch (pmAt c z).vals c.likelihoods (keys i) ((u i).map XF.fin)) →
      density o c (z, keys) = ENNReal.ofReal (Real.exp
        (((List.range (Ctx.evaluations o.repeats)).map (fun i => (u i).sum)).sum / Ctx.evaluations o.repeats + m)) := by
    intro z m u hm hev
    have hset : setParameter c.pm (.dict ((parameterFit c.pm).zip ((List.ofFn z).map XF.fin))) .none = (pmAt c z, .ok ()) :=
      Prod.ext rfl (by have := evalAt_eq hr.inv hc ((List.ofFn z).map XF.fin); unfold evalAt at this; rw [this])
    unfold density posterior
    rw [Ctx.C40_value _ _ _ _ _ _ _ _ m hset hm u hev]
    rfl
  rw [hval _ m1 u1 s1 hu1, hval _ m2 u2 s2 hu2, e1, e2, ← ENNReal.ofReal_mul (Real.exp_pos _).le, ← ENNReal.ofReal_mul (Real.exp_pos _).le,
    ← Real.exp_add, ← Real.exp_add]
  congr 2
  have hsum : ((List.range (Ctx.evaluations o.repeats)).map (fun i => (u1 i).sum)).sum + ((List.range (Ctx.evaluations o.repeats)).map (fun i => (u2 i).sum)).sum
      = ((List.range (Ctx.evaluations o.repeats)).map (fun i => (v1 i).sum)).sum + ((List.range (Ctx.evaluations o.repeats)).map (fun i => (v2 i).sum)).sum := by
    rw [← List.sum_map_add, ← List.sum_map_add]
    congr 1
    exact List.map_congr_left fun i hi => hu i (List.mem_range.1 hi)
  have h2 : ∀ a b n : ℝ, a / n + b / n = (a + b) / n := fun a b n => (add_div a b n).symm
  calc _ = (((List.range (Ctx.evaluations o.repeats)).map (fun i => (u1 i).sum)).sum + ((List.range (Ctx.evaluations o.repeats)).map (fun i => (u2 i).sum)).sum)
        / Ctx.evaluations o.repeats + (m1 + m2) := by rw [add_div]; ring
    _ = _ := by rw [hsum, hs, add_div]; ring

end
end Verif.Walk
