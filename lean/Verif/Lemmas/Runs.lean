/-
Lemmas for C151: data in several files.
-/
import Verif.Props.Rates

namespace Verif.Llh
open Verif Comp

/-! ### Building from other rows -/

theorem select_rows {F : Type} [Field F] [LinearOrder F] {dim : Nat} {cfg : Config F} {rows d : List (List (Option F))}
    (h : select dim cfg rows = .ok d) : ∃ f : List (Option F) → Bool, ∀ rows', select dim cfg rows' = .ok (rows'.filter f) := by
  unfold select at h
  split at h
  · rename_i h1
    cases hc : need cfg.clip with
    | error e => simp [hc, bind, Except.bind] at h
    | ok c =>
      refine ⟨fun r => inside c (entry r 0), fun rows' => ?_⟩
      simp [select, h1, hc, bind, Except.bind, pure, Except.pure]
  · rename_i h1
    split at h
    · cases h
    · rename_i h0
      cases hx : need cfg.xClip with
      | error e => simp [hx, bind, Except.bind] at h
      | ok x =>
        cases hy : need cfg.yClip with
        | error e => simp [hx, hy, bind, Except.bind] at h
        | ok y =>
          refine ⟨fun r => inside x (entry r 0) && inside y (entry r 1), fun rows' => ?_⟩
          simp [select, h1, h0, hx, hy, bind, Except.bind, pure, Except.pure]

theorem setBinning_rows {F : Type} [Field F] [LinearOrder F] {eq : Equi F} {dim : Nat} {cfg : Config F} {specs : List (BinSpec F)}
    {rows : List (List (Option F))} {bins : Bins F} {hist : List (List F)} (hk : cfg.binsType ≠ "equiprob")
    (h : setBinning eq dim cfg specs rows = .ok (bins, hist)) (rows' : List (List (Option F))) :
    setBinning eq dim cfg specs rows' = .ok (bins, makeDataHist bins rows') := by
  unfold setBinning at h ⊢
  simp only [hk, if_false] at h ⊢
  split at h
  · cases h
  rename_i hd
  rw [if_neg hd]
  split at h
  · rename_i hm
    rw [if_pos hm]
    split at h
    · simp only [bind, Except.bind] at h ⊢
      split at h
      · cases h
      split at h
      · cases h
      rename_i e2
      cases h
      simp only [pure, Except.pure]
    · simp only [bind, Except.bind] at h ⊢
      split at h
      · cases h
      split at h
      · cases h
      split at h
      · cases h
      split at h
      · cases h
      cases h
      simp only [pure, Except.pure]
    · cases h
  · rename_i hm
    rw [if_neg hm]
    split at h
    · rename_i hi
      rw [if_pos hi]
      split at h
      · simp only [bind, Except.bind] at h ⊢
        split at h
        · cases h
        cases h
        simp only [pure, Except.pure]
      · simp only [bind, Except.bind] at h ⊢
        split at h
        · cases h
        split at h
        · cases h
        split at h
        · cases h
        cases h
        simp only [pure, Except.pure]
      · cases h
    · cases h

theorem init_rows {F : Type} [Field F] [LinearOrder F] {eq : Equi F} {cfg : Config F} {rows : List (List (Option F))} {b : Built F}
    (hk : cfg.binsType ≠ "equiprob") (h : init eq cfg (fun _ => .ok rows) = .ok b) :
    ∃ f : List (Option F) → Bool, ∀ rows', init eq cfg (fun _ => .ok rows') =
      .ok { binsOn := b.binsOn, data := rows'.filter f, bins := b.bins, dataHist := makeDataHist b.bins (rows'.filter f) } := by
  have h0 := h
  unfold init at h
  simp only [bind, Except.bind] at h
  split at h
  · cases h
  rename_i r hn
  split at h
  · cases h
  rename_i hsc
  split at h
  · cases h
  rename_i data hd
  split at h
  · cases h
  rename_i bh hb
  cases h
  obtain ⟨f, hf⟩ := select_rows hd
  refine ⟨f, fun rows' => ?_⟩
  unfold init
  simp only [hn, hsc, hf, bind, Except.bind, setBinning_rows hk hb, pure, Except.pure]

theorem runs_data {eq : Equi ℝ} {cfg : Config ℝ} {rows0 : List (List (Option ℝ))} {b : Built ℝ} (hk : cfg.binsType ≠ "equiprob")
    (h : init eq cfg (fun _ => .ok rows0) = .ok b) {rowss : List (List (List (Option ℝ)))} {bs : List (Built ℝ)}
    (hr : List.Forall₂ (fun rows b => init eq cfg (fun _ => .ok rows) = .ok b) rowss bs) (h0 : rows0 = rowss.flatten) :
    b.data = (bs.map (·.data)).flatten ∧ (∀ b' ∈ bs, b'.bins = b.bins ∧ b'.binsOn = b.binsOn) := by
  obtain ⟨f, hf⟩ := init_rows hk h
  have hb := hf rows0
  rw [h] at hb
  have hbd : b.data = rows0.filter f := by
    have := congrArg (fun r : Res (Built ℝ) => r.map (·.data)) hb
    simpa [Except.map] using this
  have key : (rowss.flatten).filter f = (bs.map (·.data)).flatten ∧ (∀ b' ∈ bs, b'.bins = b.bins ∧ b'.binsOn = b.binsOn) := by
    clear h hb hbd h0
    induction hr with
    | nil => simp
    | cons h1 _ ih =>
      rw [hf] at h1
      cases h1
      refine ⟨?_, ?_⟩
      · simp only [List.flatten_cons, List.filter_append, List.map_cons, ih.1]
      · intro b' hb'
        rcases List.mem_cons.1 hb' with rfl | hb'
        · exact ⟨rfl, rfl⟩
        · exact ih.2 b' hb'
  rw [hbd, h0]
  exact key

theorem countIn_flatten (bins : Bins ℝ) (ds : List (List (List (Option ℝ)))) (c : Nat × Nat) :
    countIn bins ds.flatten c = (ds.map (fun d => countIn bins d c)).sum := by
  unfold countIn
  induction ds with
  | nil => simp
  | cons d ds ih => simp only [List.flatten_cons, List.countP_append, ih, List.map_cons, List.sum_cons]

/-! ### The sum of the log likelihoods of runs -/

theorem sum_runs (bins : Bins ℝ) (ss : List (Sample ℝ)) (rs : List ℝ) (hpos : ∀ c ∈ binList bins, 0 < atRates ss rs c)
    (runs : List (List (List (Option ℝ)) × ℝ)) (ht : ∀ r ∈ runs, 0 < r.2) :
    (runs.map (fun r => logLAtRates bins r.1 ss (rs.map (r.2 * ·)))).sum =
      ((binList bins).map (fun c => ((runs.map (fun r => (countIn bins r.1 c : ℝ))).sum) * Real.log (atRates ss rs c)
        - (runs.map (·.2)).sum * atRates ss rs c)).sum + (runs.map (fun r => observed bins r.1 * Real.log r.2)).sum := by
  induction runs with
  | nil => simp
  | cons r runs ih =>
    have ih := ih (fun r hr => ht r (List.mem_cons_of_mem _ hr))
    have h1 : logLAtRates bins r.1 ss (rs.map (r.2 * ·)) =
        ((binList bins).map (fun c => (countIn bins r.1 c : ℝ) * Real.log (atRates ss rs c) - r.2 * atRates ss rs c)).sum
          + observed bins r.1 * Real.log r.2 := by
      unfold logLAtRates observed
      simp only [atRates_scale]
      have hr := ht r (by simp)
      generalize binList bins = l at hpos
      clear ih
      induction l with
      | nil => simp
      | cons c l ih =>
        simp only [List.map_cons, List.sum_cons]
        rw [ih (fun c hc => hpos c (List.mem_cons_of_mem _ hc)), Real.log_mul (ne_of_gt hr) (ne_of_gt (hpos c (by simp)))]
        ring
    simp only [List.map_cons, List.sum_cons, ih, h1]
    generalize binList bins = l
    have : ∀ a b : Nat × Nat → ℝ, (l.map a).sum + (l.map b).sum = (l.map (fun c => a c + b c)).sum := by
      intro a b
      rw [← List.sum_map_add]
    rw [show ∀ a b c d : ℝ, a + b + (c + d) = (a + c) + (b + d) from fun _ _ _ _ => by ring, this]
    congr 3
    funext c
    ring

/-! ### The log likelihood of any data in the same bins -/

theorem linear_any {K : Type} (bins : Bins ℝ) (S : Setup K) (parts : List Part) (hS : S.Proper bins parts) (hfree : RateFree S parts)
    (g g' : FnCache) (st : State K XF) (hb : S.build parts (⟨[], []⟩, g) = ((st, g'), .ok ())) :
    ∃ order : String → List Plugin,
      (∀ a, Part.sim a ∈ parts → Topological a.registry (S.binsOn ++ ["eff"]) (order a.comp)) ∧
      ∀ key batch q0, (∀ p ∈ parts, p.name ++ "_rate" ∈ (replaceAlias S.al q0).keys) →
        ∃ ss key', Draws S order batch (replaceAlias S.al q0) parts key ss key' ∧
          ((∀ s ∈ ss, s.Normalisable) → ∀ eq cfg load (b : Built ℝ), init eq cfg load = .ok b → b.bins = bins → ∀ q, Varies S parts q0 q →
            ((∀ c ∈ binList bins, 0 < atRates ss (ratesOf parts (replaceAlias S.al q)) c) →
              getLogLikelihood S.al b.dataHist st key batch (floats q) =
                .ok (key', .fin (logLAtRates bins b.data ss (ratesOf parts (replaceAlias S.al q))))) ∧
            ((∃ c ∈ binList bins, atRates ss (ratesOf parts (replaceAlias S.al q)) c ≤ 0) →
              getLogLikelihood S.al b.dataHist st key batch (floats q) = .ok (key', .ninf))) := by
  obtain ⟨order, h0, h2⟩ := log_likelihood_ordered bins S parts hS g g' st hb
  have h1 := fun a ha => (h0 a ha).2
  refine ⟨order, h1, ?_⟩
  intro key batch q0 hr0
  obtain ⟨ss, key', d0, _⟩ := h2 key batch q0 hr0
  refine ⟨ss, key', d0, ?_⟩
  intro hn eq cfg load b hi hbins q hq
  obtain ⟨ss', key'', d1, v⟩ := h2 key batch q hq.rates
  have d2 := draws_withRates S order batch _ _ (hfree _ _ hq.same) parts d0 hq.rates
  obtain ⟨rfl, rfl⟩ := draws_unique S bins parts hS order h1 batch _ parts (fun _ h => h) d1 d2
  have hn' : ∀ s ∈ List.zipWith (fun r s => s.withRate r) (ratesOf parts (replaceAlias S.al q)) ss, s.Normalisable := by
    intro s hs
    obtain ⟨n, hn'⟩ := List.mem_iff_getElem?.1 hs
    rw [List.getElem?_zipWith] at hn'
    split at hn'
    · rename_i r s0 _ hs0
      cases hn'
      exact hn s0 (List.mem_of_getElem? hs0)
    · cases hn'
  have v' := (v hn' eq cfg load b hi hbins).2
  simp only [expectedIn_withRates] at v'
  have hL : binnedLogL b.bins b.data (List.zipWith (fun r s => s.withRate r) (ratesOf parts (replaceAlias S.al q)) ss) =
      logLAtRates b.bins b.data ss (ratesOf parts (replaceAlias S.al q)) := by
    unfold binnedLogL logLAtRates
    simp only [expectedIn_withRates]
  rw [hL, hbins] at v'
  exact v'

end Verif.Llh
