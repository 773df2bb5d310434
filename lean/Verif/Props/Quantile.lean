/-
Maps from a cumulative distribution to a value: what holds of C64.
-/
import Verif.Lemmas.Quantile
import Verif.Props.MapFile
import Mathlib.MeasureTheory.Measure.Lebesgue.Basic

namespace Verif.MapFile
open Verif Verif.Interp MeasureTheory

theorem zip_swap_map (a b : List ℝ) : (a.zip b).map Prod.swap = b.zip a := by
  induction a generalizing b with
  | nil => simp
  | cons x a ih => cases b with
    | nil => simp
    | cons y b => simp [ih]

/-- **C64, for files given as cdf.** In a file with the name cdf, strictly increasing values and a cdf rising strictly from 0
to 1, the map read at `u` is at most `e` exactly when `u` is at most the tabulated cdf at `e`.  With `u` uniform on `[0, 1)`
the values therefore have the tabulated distribution.  Missing from C64: files given as pdf. -/
theorem C64_given_cdf_partial (method : String) (hm : method = "IDW" ∨ method = "LERP") (cdf x : List ℝ)
    (hlen : cdf.length = x.length) (h2 : 2 ≤ cdf.length) (hc : cdf.Pairwise (· < ·)) (hx : x.Pairwise (· < ·))
    (h0 : cdf.head? = some 0) (h1 : cdf.getLast? = some 1) :
    ∃ f : ℝ → ℝ, build method ⟨some (.one "point"), some (.one "cdf"), .point cdf x⟩ = .ok (.of1 (fun u => .ok (f u))) ∧
      ∀ lo hi e p : ℝ, x.head? = some lo → x.getLast? = some hi → lo ≤ e → e ≤ hi → IsLinearInterp (x.zip cdf) e p →
        (∀ u, 0 ≤ u → u ≤ 1 → lo ≤ f u ∧ f u ≤ hi ∧ (f u ≤ e ↔ u ≤ p)) ∧
        volume {u : ℝ | 0 ≤ u ∧ u < 1 ∧ f u ≤ e} = ENNReal.ofReal p := by
  have pm : (preprocess false : ℝ → ℝ) = id := by funext y; simp [preprocess]
  have hne : cdf ≠ [] := by intro h; simp [h] at h2
  have hcz : ((cdf.zip x).map Prod.fst).Pairwise (· < ·) := by rw [List.map_fst_zip (by omega)]; exact hc
  have hxz : ((cdf.zip x).map Prod.snd).Pairwise (· < ·) := by rw [List.map_snd_zip (by omega)]; exact hx
  have hsw : (cdf.zip x).map Prod.swap = x.zip cdf := zip_swap_map ..
  have hmain : ∃ f : ℝ → ℝ, build method ⟨some (.one "point"), some (.one "cdf"), .point cdf x⟩ = .ok (.of1 (fun u => .ok (f u))) ∧
      ∀ u, IsLinearInterp (cdf.zip x) u (f u) := by
    rcases hm with rfl | rfl
    · refine ⟨curve cdf x, ?_, fun u => (C28_idw_is_linear_interpolation cdf x hlen hne hc u _).1 rfl⟩
      simp [build, buildPoint, pointTable, Interp.buildPoint, pointMethod, validatePoint, pm, ofPoint]
    · refine ⟨linear1d cdf x, ?_, fun u => (C28_lerp_is_linear_interpolation cdf x hlen h2 hc u _).1 rfl⟩
      simp [build, buildPoint, pointTable, Interp.buildPoint, pointMethod, validatePoint, pm, ofPoint]
  obtain ⟨f, hf, hi⟩ := hmain
  refine ⟨f, hf, ?_⟩
  intro lo hi' e p hlo hhi he1 he2 hp
  have hhead : (cdf.zip x).head? = some (0, lo) := by
    cases cdf with
    | nil => simp at hne
    | cons a l => cases x with
      | nil => simp at hlo
      | cons b l' => simp at h0 hlo ⊢; exact ⟨h0, hlo⟩
  have hlast : (cdf.zip x).getLast? = some (1, hi') := by
    rw [List.getLast?_eq_getElem?] at h1 hhi ⊢
    rw [List.length_zip, hlen, min_self, List.getElem?_zip_eq_some]
    exact ⟨by rw [← hlen]; exact h1, hhi⟩
  have hheadx : (x.zip cdf).head? = some (lo, 0) := by rw [← hsw, List.head?_map, hhead]; rfl
  have hlastx : (x.zip cdf).getLast? = some (hi', 1) := by rw [← hsw, List.getLast?_map, hlast]; rfl
  have hxs : ((x.zip cdf).map Prod.fst).Pairwise (· < ·) := by rw [List.map_fst_zip (by omega)]; exact hx
  have hcs : ((x.zip cdf).map Prod.snd).Pairwise (· < ·) := by rw [List.map_snd_zip (by omega)]; exact hc
  have key : ∀ u, 0 ≤ u → u ≤ 1 → (f u ≤ e ↔ u ≤ p) := by
    intro u hu0 hu1
    have inv := interp_swap _ hcz hxz u (f u) (hi u) _ _ hhead hlast hu0 hu1
    rw [hsw] at inv
    have inv' := interp_swap _ hxs hcs e p hp _ _ hheadx hlastx he1 he2
    rw [show (x.zip cdf).map Prod.swap = cdf.zip x from zip_swap_map ..] at inv'
    constructor
    · intro h
      exact interp_mono _ hxs (hcs.imp le_of_lt) _ _ _ _ inv hp h
    · intro h
      exact interp_mono _ hcz (hxz.imp le_of_lt) _ _ _ _ (hi u) inv' h
  have hp01 : 0 ≤ p ∧ p ≤ 1 := by
    have c := interp_compare _ hxs (hcs.imp le_of_lt) e p hp
    exact ⟨(c _ (List.mem_of_mem_head? hheadx)).1 he1, (c _ (List.mem_of_getLast? hlastx)).2 he2⟩
  refine ⟨fun u hu0 hu1 => ?_, ?_⟩
  · have c := interp_compare _ hcz (hxz.imp le_of_lt) u (f u) (hi u)
    exact ⟨(c _ (List.mem_of_mem_head? hhead)).1 hu0, (c _ (List.mem_of_getLast? hlast)).2 hu1, key u hu0 hu1⟩
  · rcases lt_or_eq_of_le hp01.2 with h | h
    · have : {u : ℝ | 0 ≤ u ∧ u < 1 ∧ f u ≤ e} = Set.Icc 0 p := by
        ext u
        simp only [Set.mem_setOf_eq, Set.mem_Icc]
        constructor
        · rintro ⟨a, b, c⟩; exact ⟨a, (key u a b.le).1 c⟩
        · rintro ⟨a, b⟩; exact ⟨a, by linarith, (key u a (by linarith)).2 b⟩
      rw [this, Real.volume_Icc, sub_zero]
    · have : {u : ℝ | 0 ≤ u ∧ u < 1 ∧ f u ≤ e} = Set.Ico 0 p := by
        ext u
        simp only [Set.mem_setOf_eq, Set.mem_Ico]
        constructor
        · rintro ⟨a, b, -⟩; exact ⟨a, by linarith⟩
        · rintro ⟨a, b⟩; exact ⟨a, by linarith, (key u a (by linarith)).2 b.le⟩
      rw [this, Real.volume_Ico, sub_zero]

/-- The table of C64 has such a cdf: a distribution on `[0, 4]`. -/
example : ∃ f : ℝ → ℝ, build "LERP" ⟨some (.one "point"), some (.one "cdf"), .point [0, 1 / 4, 1] [0, 3, 4]⟩ = .ok (.of1 (fun u => .ok (f u))) ∧
    volume {u : ℝ | 0 ≤ u ∧ u < 1 ∧ f u ≤ 3} = ENNReal.ofReal (1 / 4) := by
  obtain ⟨f, hf, h⟩ := C64_given_cdf_partial "LERP" (.inr rfl) [0, 1 / 4, 1] [0, 3, 4] rfl (by simp)
    (by norm_num) (by norm_num) rfl rfl
  refine ⟨f, hf, (h 0 4 3 (1 / 4) rfl rfl (by norm_num) (by norm_num) ?_).2⟩
  exact .inr (.inr ⟨0, (0, 0), (3, 1 / 4), rfl, rfl, by norm_num, by norm_num, by norm_num⟩)

/-- **C64, for files given as pdf.** For increasing positions and positive values, the map built from the pdf, read at
`u ≥ 0`, differs from the quantile of the tabulated distribution (through the points `x[k+1]` and the integrals up to there) by
at most half of the largest step of the table.  Missing from C64: the difference does not vanish between nodes. -/
theorem C64_within_half_a_step_partial (xy : List (ℝ × ℝ)) (hx : (xy.map Prod.fst).Pairwise (· < ·)) (hy : ∀ p ∈ xy, 0 < p.2)
    (xm cdf : List ℝ) (h : pdfToCdf xy = .ok (xm, cdf)) (x0 d : ℝ) (hx0 : (xy.map Prod.fst).head? = some x0)
    (hd : ∀ k p q, xy[k]? = some p → xy[k + 1]? = some q → q.1 - p.1 ≤ d) (u m q : ℝ) (hu : 0 ≤ u)
    (hm : IsLinearInterp (cdf.zip xm) u m) (hq : IsLinearInterp ((0, x0) :: cdf.zip (xy.map Prod.fst).tail) u q) :
    |m - q| ≤ d / 2 := by
  have hlen2 : 2 ≤ xy.length := (MapFile.pdfToCdf_ok xy).1 ⟨_, h⟩
  obtain ⟨hs1, hs2⟩ := cumsum_strict 0 (segments xy) (segments_pos xy hx hy)
  -- the integral
  have hnorm : ∃ norm, integrate xy = .ok norm ∧ 0 < norm ∧ xm = midpoints xy ∧ cdf = (cumsum 0 (segments xy)).map (· / norm) := by
    unfold pdfToCdf at h
    cases hi : integrate xy with
    | error e => rw [hi] at h; cases h
    | ok norm =>
      rw [hi] at h
      simp only [cumulativeIntegrate, Except.ok.injEq, Prod.mk.injEq] at h
      refine ⟨norm, rfl, ?_, h.1.symm, h.2.symm⟩
      unfold integrate cumulativeIntegrate at hi
      simp only at hi
      split at hi
      · rename_i s hs; cases hi
        exact hs2 _ (List.mem_of_getLast? hs)
      · cases hi
  obtain ⟨norm, -, hn, rfl, rfl⟩ := hnorm
  set C := (cumsum 0 (segments xy)).map (· / norm) with hC
  set X := (xy.map Prod.fst).tail with hX
  have lC : C.length = xy.length - 1 := by rw [hC, List.length_map, cumsum_length, segments_length]
  have lM : (midpoints xy).length = xy.length - 1 := midpoints_length xy
  have lX : X.length = xy.length - 1 := by rw [hX]; simp
  have sC : C.Pairwise (· < ·) := by
    rw [hC, List.pairwise_map]
    exact hs1.imp (fun hab => div_lt_div_of_pos_right hab hn)
  have pC : ∀ c ∈ C, 0 < c := by
    intro c hc
    obtain ⟨y, hy', rfl⟩ := List.mem_map.1 hc
    exact div_pos (hs2 y hy') hn
  have sM : ((C.zip (midpoints xy)).map Prod.fst).Pairwise (· < ·) := by rw [List.map_fst_zip (by omega)]; exact sC
  have sP : ((((0 : ℝ), x0) :: C.zip X).map Prod.fst).Pairwise (· < ·) := by
    rw [List.map_cons, List.map_fst_zip (by omega), List.pairwise_cons]
    exact ⟨pC, sC⟩
  have hcons : x0 :: X = xy.map Prod.fst := by
    rw [hX]
    exact List.cons_head?_tail hx0
  have vP : ((((0 : ℝ), x0) :: C.zip X).map Prod.snd).Pairwise (· ≤ ·) := by
    rw [List.map_cons, List.map_snd_zip (by omega), hcons]
    exact hx.imp le_of_lt
  -- entry k of the three columns
  have get : ∀ k c, C[k]? = some c → ∃ a b : ℝ × ℝ, xy[k]? = some a ∧ xy[k + 1]? = some b ∧ (midpoints xy)[k]? = some (1 / 2 * (b.1 + a.1)) ∧
      X[k]? = some b.1 ∧ a.1 < b.1 ∧ b.1 - a.1 ≤ d := by
    intro k c hk
    have hk' := (List.getElem?_eq_some_iff.1 hk).1
    rw [lC] at hk'
    have ha : xy[k]? = some xy[k] := List.getElem?_eq_getElem (by omega)
    have hb : xy[k + 1]? = some xy[k + 1] := List.getElem?_eq_getElem (by omega)
    refine ⟨_, _, ha, hb, midpoints_get xy k _ _ ha hb, ?_, pairwise_get xy Prod.fst (· < ·) hx k (k + 1) _ _ ha hb (by omega), hd k _ _ ha hb⟩
    rw [hX, List.getElem?_tail, List.getElem?_map, hb]; rfl
  have split2 : ∀ (L : List ℝ) (k : Nat) (p : ℝ × ℝ), (C.zip L)[k]? = some p → C[k]? = some p.1 ∧ L[k]? = some p.2 := by
    intro L k p hp
    exact List.getElem?_zip_eq_some.1 hp
  rcases hm with ⟨p, hp, h1, rfl⟩ | ⟨p, hp, h1, rfl⟩ | ⟨k, p, p', hp, hp', h1, h2, rfl⟩
  · rw [List.head?_eq_getElem?] at hp
    obtain ⟨hc, hmid⟩ := split2 _ _ _ hp
    obtain ⟨a, b, ha, hb, hm', hX', hab, hdab⟩ := get 0 _ hc
    rw [hmid] at hm'
    have e : p.2 = 1 / 2 * (b.1 + a.1) := Option.some.inj hm'
    have hxa : x0 = a.1 := by
      have : (xy.map Prod.fst)[0]? = some a.1 := by rw [List.getElem?_map, ha]; rfl
      rw [← List.head?_eq_getElem?, hx0] at this
      exact Option.some.inj this
    have cmp := interp_compare _ sP vP u q hq
    have q1 : x0 ≤ q := (cmp (0, x0) (by simp)).1 hu
    have q2 : q ≤ b.1 := by
      have hmem : (p.1, b.1) ∈ C.zip X := List.mem_of_getElem? (List.getElem?_zip_eq_some.2 ⟨hc, hX'⟩)
      exact (cmp (p.1, b.1) (List.mem_cons_of_mem _ hmem)).2 h1
    rw [e, abs_le]
    constructor <;> linarith
  · rw [List.getLast?_eq_getElem?] at hp
    obtain ⟨hc, hmid⟩ := split2 _ _ _ hp
    obtain ⟨a, b, ha, hb, hm', hX', hab, hdab⟩ := get _ _ hc
    rw [hmid] at hm'
    have e : p.2 = 1 / 2 * (b.1 + a.1) := Option.some.inj hm'
    have hl : (((0 : ℝ), x0) :: C.zip X).getLast? = some (p.1, b.1) := by
      rw [List.getLast?_eq_getElem?]
      have e1 : (((0 : ℝ), x0) :: C.zip X).length - 1 = (C.zip X).length - 1 + 1 := by
        simp only [List.length_cons, List.length_zip]; omega
      rw [e1, List.getElem?_cons_succ]
      have e2 : (C.zip X).length = (C.zip (midpoints xy)).length := by simp only [List.length_zip]; omega
      rw [e2]
      exact List.getElem?_zip_eq_some.2 ⟨hc, hX'⟩
    have hq' := isLinearInterp_unique _ sP u q b.1 hq (.inr (.inl ⟨_, hl, h1, rfl⟩))
    rw [hq', e, abs_le]
    constructor <;> linarith
  · obtain ⟨hc, hmid⟩ := split2 _ _ _ hp
    obtain ⟨hc', hmid'⟩ := split2 _ _ _ hp'
    obtain ⟨a, b, ha, hb, hm1, hX1, hab, hd1⟩ := get _ _ hc
    obtain ⟨a', b', ha', hb', hm2, hX2, hab', hd2⟩ := get _ _ hc'
    have e : p.2 = 1 / 2 * (b.1 + a.1) := by rw [hmid] at hm1; exact Option.some.inj hm1
    have e' : p'.2 = 1 / 2 * (b'.1 + a'.1) := by rw [hmid'] at hm2; exact Option.some.inj hm2
    have hab2 : a' = b := by rw [hb] at ha'; exact (Option.some.inj ha').symm
    have hq' := isLinearInterp_unique _ sP u q (b.1 + (b'.1 - b.1) * ((u - p.1) / (p'.1 - p.1))) hq
      (.inr (.inr ⟨k + 1, (p.1, b.1), (p'.1, b'.1), by
        rw [List.getElem?_cons_succ]; exact List.getElem?_zip_eq_some.2 ⟨hc, hX1⟩, by
        rw [List.getElem?_cons_succ]; exact List.getElem?_zip_eq_some.2 ⟨hc', hX2⟩, h1, h2, rfl⟩))
    have hpp : p.1 < p'.1 := pairwise_get _ Prod.fst (· < ·) sM k (k + 1) p p' hp hp' (by omega)
    have hdd : 0 < p'.1 - p.1 := sub_pos.2 hpp
    have t0 : 0 ≤ (u - p.1) / (p'.1 - p.1) := div_nonneg (sub_nonneg.2 h1) hdd.le
    have t1 : (u - p.1) / (p'.1 - p.1) ≤ 1 := (div_le_one hdd).2 (by linarith)
    rw [hab2] at hab' hd2 e'
    rw [hq', e, e']
    generalize (u - p.1) / (p'.1 - p.1) = t at t0 t1 ⊢
    have id1 : 1 / 2 * (b.1 + a.1) + (1 / 2 * (b'.1 + b.1) - 1 / 2 * (b.1 + a.1)) * t - (b.1 + (b'.1 - b.1) * t)
        = -((1 - t) * ((b.1 - a.1) / 2) + t * ((b'.1 - b.1) / 2)) := by ring
    rw [id1, abs_neg, abs_of_nonneg (by
      have : 0 ≤ 1 - t := by linarith
      have : 0 ≤ b.1 - a.1 := by linarith
      have : 0 ≤ b'.1 - b.1 := by linarith
      positivity)]
    have s0 : 0 ≤ 1 - t := by linarith
    nlinarith [mul_le_mul_of_nonneg_left hd1 s0, mul_le_mul_of_nonneg_left hd2 t0]

/-- The bound is attained: for a flat pdf every node is off by exactly half a step (C64_quantiles_too_low). -/
example : pdfToCdf [(0, 1), (1 / 2, 1), (1, (1 : ℝ))] = .ok ([1 / 4, 3 / 4], [1 / 2, 1]) ∧
    IsLinearInterp ([1 / 2, 1].zip [1 / 4, (3 / 4 : ℝ)]) (1 / 2) (1 / 4) ∧
    IsLinearInterp (((0 : ℝ), (0 : ℝ)) :: [1 / 2, 1].zip [1 / 2, 1]) (1 / 2) (1 / 2) ∧
    |(1 / 4 : ℝ) - 1 / 2| = (1 / 2) / 2 := by
  refine ⟨?_, .inl ⟨_, rfl, le_refl _, rfl⟩, .inr (.inr ⟨0, (0, 0), (1 / 2, 1 / 2), rfl, rfl, by norm_num, by norm_num, by norm_num⟩), by norm_num⟩
  norm_num [pdfToCdf, integrate, cumulativeIntegrate, segments, midpoints, cumsum]

end Verif.MapFile
