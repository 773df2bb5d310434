/-
Property C150: arrays of different lengths in a literature likelihood (likelihood.py 461-565).
-/
import Verif.Lemmas.Lengths

namespace Verif.Llh
open Verif

variable {K : Type}

/-- **C150 (agreement, asymmetric errors).** If there is a value, the numbers of yields, measured centres, upper and lower errors and efficiencies
agree, up to single numbers, which stand for all points. -/
theorem C150_agree_twohalfnorm (al : PyDict String String) (hal : PlainAliases al) (mu sp sn : List ℝ) (s : LitState K) (key k' k2 : K)
    (batch : Int) (p : PyDict String XF) (v : XF) (n : String) (c : K → Int → PyDict String XF → Res (K × Grid XF)) (e y f : List XF)
    (hc : s.components = [(n, c)]) (hrun : c key 1 (replaceAlias al p) = .ok (k', [e, y, f]))
    (h : litLogLikelihood al (.twohalfnorm mu sp sn) s key batch p = .ok (k2, v)) :
    Agree [y.length, mu.length, sp.length, sn.length, f.length] := by
  obtain ⟨l, m, h3, hm, -⟩ := lit_parts hal hc hrun h
  simp only [logpdf] at h3
  split at h3
  · obtain ⟨k, hk, rfl⟩ := map_ok h3
    have hone := common_mem hk
    simp only [List.mem_cons, List.not_mem_nil, or_false, forall_eq_or_imp, forall_eq] at hone
    have hlen : ∀ a : Nat, (a ≠ 1 → a = k) → a = k ∨ a = 1 := fun a h => by
      by_cases ha : a = 1
      · exact .inr ha
      · exact .inl (h ha)
    have hl : (List.zipWith (fun y a => twoHalfLogpdf y (XF.fin a.1) (XF.fin a.2.1) (XF.fin a.2.2)) (spread k y)
        ((spread k mu).zip ((spread k sp).zip (spread k sn)))).length = k := by
      simp [spread_length (hlen _ hone.1), spread_length (hlen _ hone.2.1), spread_length (hlen _ hone.2.2.1),
        spread_length (hlen _ hone.2.2.2)]
    rw [hl] at hm
    have ha := common_agree hm
    have hcm := common_or hk
    intro a hain b hbin h1 h2
    have hall : ∀ a ∈ [y.length, mu.length, sp.length, sn.length, f.length], a ≠ 1 → a = k ∨ (a = f.length ∧ k = 1) := by
      intro a hain h1
      simp only [List.mem_cons, List.not_mem_nil, or_false] at hain
      rcases hain with rfl | rfl | rfl | rfl | rfl
      · exact .inl (hone.1 h1)
      · exact .inl (hone.2.1 h1)
      · exact .inl (hone.2.2.1 h1)
      · exact .inl (hone.2.2.2 h1)
      · by_cases hk1 : k = 1
        · exact .inr ⟨rfl, hk1⟩
        · exact .inl (ha _ (by simp) _ (by simp) h1 hk1)
    rcases hall a hain h1 with rfl | ⟨rfl, hk1⟩
    · rcases hall b hbin h2 with rfl | ⟨rfl, hk1⟩
      · rfl
      · exact absurd hk1 h1
    · rcases hall b hbin h2 with rfl | ⟨rfl, _⟩
      · exact absurd hk1 h2
      · rfl
  · cases h3

/-- **C150 (agreement, symmetric errors).** The same for normal errors. -/
theorem C150_agree_norm (al : PyDict String String) (hal : PlainAliases al) (loc scale : List ℝ) (s : LitState K) (key k' k2 : K)
    (batch : Int) (p : PyDict String XF) (v : XF) (n : String) (c : K → Int → PyDict String XF → Res (K × Grid XF)) (e y f : List XF)
    (hc : s.components = [(n, c)]) (hrun : c key 1 (replaceAlias al p) = .ok (k', [e, y, f]))
    (h : litLogLikelihood al (.norm loc scale) s key batch p = .ok (k2, v)) :
    Agree [y.length, loc.length, scale.length, f.length] := by
  obtain ⟨l, m, h3, hm, -⟩ := lit_parts hal hc hrun h
  simp only [logpdf] at h3
  obtain ⟨k, hk, rfl⟩ := map_ok h3
  have hone := common_mem hk
  simp only [List.mem_cons, List.not_mem_nil, or_false, forall_eq_or_imp, forall_eq] at hone
  have hlen : ∀ a : Nat, (a ≠ 1 → a = k) → a = k ∨ a = 1 := fun a h => by
    by_cases ha : a = 1
    · exact .inr ha
    · exact .inl (h ha)
  have hl : (List.zipWith (fun y a => normLogpdf y a.1 a.2) (spread k y) ((spread k loc).zip (spread k scale))).length = k := by
    simp [spread_length (hlen _ hone.1), spread_length (hlen _ hone.2.1), spread_length (hlen _ hone.2.2)]
  rw [hl] at hm
  have ha := common_agree hm
  intro a hain b hbin h1 h2
  have hall : ∀ a ∈ [y.length, loc.length, scale.length, f.length], a ≠ 1 → a = k ∨ (a = f.length ∧ k = 1) := by
    intro a hain h1
    simp only [List.mem_cons, List.not_mem_nil, or_false] at hain
    rcases hain with rfl | rfl | rfl | rfl
    · exact .inl (hone.1 h1)
    · exact .inl (hone.2.1 h1)
    · exact .inl (hone.2.2 h1)
    · by_cases hk1 : k = 1
      · exact .inr ⟨rfl, hk1⟩
      · exact .inl (ha _ (by simp) _ (by simp) h1 hk1)
  rcases hall a hain h1 with rfl | ⟨rfl, hk1⟩
  · rcases hall b hbin h2 with rfl | ⟨rfl, hk1⟩
    · rfl
    · exact absurd hk1 h1
  · rcases hall b hbin h2 with rfl | ⟨rfl, _⟩
    · exact absurd hk1 h2
    · rfl

/-- **C150 (refused).** If the component gives another number of yields than there are measured points, and neither number is one, the evaluation
raises a value error: no point is dropped in silence. -/
theorem C150_refused_twohalfnorm (al : PyDict String String) (hal : PlainAliases al) (mu sp sn : List ℝ) (hsp : ∀ x ∈ sp, 0 < x)
    (hsn : ∀ x ∈ sn, 0 < x) (s : LitState K) (key k' : K) (batch : Int) (p : PyDict String XF) (n : String)
    (c : K → Int → PyDict String XF → Res (K × Grid XF)) (e y f : List XF) (hc : s.components = [(n, c)]) (ho : s.only = some n)
    (hrun : c key 1 (replaceAlias al p) = .ok (k', [e, y, f])) (hy : y.length ≠ 1) (hmu : mu.length ≠ 1) (hne : y.length ≠ mu.length) :
    litLogLikelihood al (.twohalfnorm mu sp sn) s key batch p = .error .valueError := by
  rw [lit_run al _ s key k' batch p n c e y f hc ho (by rw [replaceAlias_idem al hal]; exact hrun)]
  have : common [y.length, mu.length, sp.length, sn.length] = .error .valueError :=
    common_refused (fun h => hne (h _ (by simp) _ (by simp) hy hmu))
  simp only [logpdf]
  rw [if_pos ⟨hsp, hsn⟩, this]
  rfl

/-- **C150 (refused, symmetric errors).** -/
theorem C150_refused_norm (al : PyDict String String) (hal : PlainAliases al) (loc scale : List ℝ) (s : LitState K) (key k' : K) (batch : Int)
    (p : PyDict String XF) (n : String) (c : K → Int → PyDict String XF → Res (K × Grid XF)) (e y f : List XF)
    (hc : s.components = [(n, c)]) (ho : s.only = some n) (hrun : c key 1 (replaceAlias al p) = .ok (k', [e, y, f]))
    (hy : y.length ≠ 1) (hl : loc.length ≠ 1) (hne : y.length ≠ loc.length) :
    litLogLikelihood al (.norm loc scale) s key batch p = .error .valueError := by
  rw [lit_run al _ s key k' batch p n c e y f hc ho (by rw [replaceAlias_idem al hal]; exact hrun)]
  have : common [y.length, loc.length, scale.length] = .error .valueError :=
    common_refused (fun h => hne (h _ (by simp) _ (by simp) hy hl))
  simp only [logpdf]
  rw [this]
  rfl

/-- **C150 (values).** For any number of measured points, with yields, errors and efficiencies given one per point or one for all, there is a
value, and it is the sum over all points of the efficiency times the log density. -/
theorem C150_values_twohalfnorm (al : PyDict String String) (hal : PlainAliases al) (N : Nat) (mu sp sn : List ℝ) (gm gp gn gy gf : Nat → ℝ)
    (hm : mu = (List.range N).map gm) (hp : Gives N sp gp) (hn : Gives N sn gn) (hsp : ∀ x ∈ sp, 0 < x) (hsn : ∀ x ∈ sn, 0 < x)
    (s : LitState K) (key k' : K) (batch : Int) (p : PyDict String XF) (n : String)
    (c : K → Int → PyDict String XF → Res (K × Grid XF)) (e y f : List XF) (hc : s.components = [(n, c)]) (ho : s.only = some n)
    (hrun : c key 1 (replaceAlias al p) = .ok (k', [e, y, f])) (hy : Gives N y (fun i => .fin (gy i))) (hf : Gives N f (fun i => .fin (gf i))) :
    litLogLikelihood al (.twohalfnorm mu sp sn) s key batch p =
      .ok (k', .fin (((List.range N).map fun i => gf i * Real.log (twoHalfDensity (gm i) (gp i) (gn i) (gy i))).sum)) := by
  rw [lit_run al _ s key k' batch p n c e y f hc ho (by rw [replaceAlias_idem al hal]; exact hrun)]
  have hc1 : common [y.length, mu.length, sp.length, sn.length] = .ok N :=
    common_eq (by simp [hm, hy.length, hp.length, hn.length]) (by simp [hm])
  have hpos : ∀ i < N, 0 < gp i ∧ 0 < gn i := by
    intro i hi
    constructor
    · apply hsp
      apply mem_spread (n := N)
      rw [hp.spread]
      exact List.mem_map.2 ⟨i, List.mem_range.2 hi, rfl⟩
    · apply hsn
      apply mem_spread (n := N)
      rw [hn.spread]
      exact List.mem_map.2 ⟨i, List.mem_range.2 hi, rfl⟩
  have hl : logpdf (.twohalfnorm mu sp sn) e y =
      .ok ((List.range N).map fun i => .fin (Real.log (twoHalfDensity (gm i) (gp i) (gn i) (gy i)))) := by
    simp only [logpdf]
    rw [if_pos ⟨hsp, hsn⟩, hc1]
    simp only [Except.map, Except.ok.injEq]
    rw [hy.spread, hp.spread, hn.spread, spread_same (by simp [hm]), hm]
    have hpos' : ∀ i ∈ List.range N, 0 < gp i ∧ 0 < gn i := fun i hi => hpos i (List.mem_range.1 hi)
    clear * - hpos'
    generalize List.range N = r at hpos'
    induction r with
    | nil => rfl
    | cons a r ih =>
      simp only [List.mem_cons, forall_eq_or_imp] at hpos'
      simp only [List.map_cons, List.zip_cons_cons, List.zipWith_cons_cons]
      rw [ih hpos'.2, C39_two_half_logpdf _ _ _ _ hpos'.1.1 hpos'.1.2]
  rw [hl]
  have hc2 : common [((List.range N).map fun i => XF.fin (Real.log (twoHalfDensity (gm i) (gp i) (gn i) (gy i)))).length, f.length] = .ok N :=
    common_eq (by simp [hf.length]) (by simp)
  simp only [bind, Except.bind, hc2, pure, Except.pure]
  rw [spread_same (by simp), hf.spread, sum_range_fin]
  simp

/-- **C150 (values, symmetric errors).** -/
theorem C150_values_norm (al : PyDict String String) (hal : PlainAliases al) (N : Nat) (loc scale : List ℝ) (gm gs gy gf : Nat → ℝ)
    (hm : loc = (List.range N).map gm) (hp : Gives N scale gs) (hs : ∀ i < N, 0 < gs i)
    (s : LitState K) (key k' : K) (batch : Int) (p : PyDict String XF) (n : String)
    (c : K → Int → PyDict String XF → Res (K × Grid XF)) (e y f : List XF) (hc : s.components = [(n, c)]) (ho : s.only = some n)
    (hrun : c key 1 (replaceAlias al p) = .ok (k', [e, y, f])) (hy : Gives N y (fun i => .fin (gy i))) (hf : Gives N f (fun i => .fin (gf i))) :
    litLogLikelihood al (.norm loc scale) s key batch p =
      .ok (k', .fin (((List.range N).map fun i => gf i *
        Real.log (1 / (gs i * √(2 * Real.pi)) * Real.exp (-(gy i - gm i) ^ 2 / (2 * gs i ^ 2)))).sum)) := by
  rw [lit_run al _ s key k' batch p n c e y f hc ho (by rw [replaceAlias_idem al hal]; exact hrun)]
  have hc1 : common [y.length, loc.length, scale.length] = .ok N :=
    common_eq (by simp [hm, hy.length, hp.length]) (by simp [hm])
  have hl : logpdf (.norm loc scale) e y =
      .ok ((List.range N).map fun i => .fin (Real.log (1 / (gs i * √(2 * Real.pi)) * Real.exp (-(gy i - gm i) ^ 2 / (2 * gs i ^ 2))))) := by
    simp only [logpdf]
    rw [hc1]
    simp only [Except.map, Except.ok.injEq]
    rw [hy.spread, hp.spread, spread_same (by simp [hm]), hm]
    have hpos' : ∀ i ∈ List.range N, 0 < gs i := fun i hi => hs i (List.mem_range.1 hi)
    clear * - hpos'
    generalize List.range N = r at hpos'
    induction r with
    | nil => rfl
    | cons a r ih =>
      simp only [List.mem_cons, forall_eq_or_imp] at hpos'
      simp only [List.map_cons, List.zip_cons_cons, List.zipWith_cons_cons]
      rw [ih hpos'.2, (C39_norm_logpdf _ _ _).1 hpos'.1]
  rw [hl]
  have hc2 : ∀ g : Nat → XF, common [((List.range N).map g).length, f.length] = .ok N :=
    fun g => common_eq (by simp [hf.length]) (by simp)
  simp only [bind, Except.bind, hc2, pure, Except.pure]
  rw [spread_same (by simp), hf.spread, sum_range_fin]
  simp

/-- Non-vacuity: one simulated yield, one efficiency and one lower error for two measured points. -/
example : litLogLikelihood [] (.twohalfnorm [5, 6] [1, 2] [3])
      (⟨[("er", fun k _ _ => .ok (k, [[.fin 1], [.fin 4], [.fin 1]]))], some "er"⟩ : LitState Unit) () 9 [] =
    .ok ((), .fin (((List.range 2).map fun i => 1 * Real.log (twoHalfDensity ([5, 6].getD i 0) ([1, 2].getD i 0) 3 4)).sum)) :=
  C150_values_twohalfnorm [] ⟨by simp [PyDict.keys], by simp [PyDict.keys], by simp⟩ 2 _ _ _ _ _ (fun _ => 3) (fun _ => 4) (fun _ => 1)
    (by simp [List.range_succ]) (.inl (by simp [List.range_succ])) (.inr ⟨3, rfl, by simp⟩) (by simp) (by simp) _ () () 9 [] "er" _ _ _ _ rfl rfl rfl
    (.inr ⟨_, rfl, by simp⟩) (.inr ⟨_, rfl, by simp⟩)

/-- Non-vacuity: two yields and three measured points. -/
example : litLogLikelihood [] (.norm [5, 6, 7] [1])
      (⟨[("er", fun k _ _ => .ok (k, [[.fin 1], [.fin 4, .fin 4], [.fin 1]]))], some "er"⟩ : LitState Unit) () 9 [] = .error .valueError :=
  C150_refused_norm [] ⟨by simp [PyDict.keys], by simp [PyDict.keys], by simp⟩ _ _ _ () () 9 [] "er" _ _ _ _ rfl rfl rfl
    (by simp) (by simp) (by simp)

end Verif.Llh
