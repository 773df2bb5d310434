/-
Property theorems C17 and C19 for every kind of bins: expected numbers of events and weighted data (component.py 71-79, 430-484,
627-636).
-/
import Verif.Lemmas.Weighted

namespace Verif.Llh
open Verif

section
variable {F : Type} [Field F] [LinearOrder F]

open Classical in
/-- **C17 (expected number of events, every kind of bins).** Without the floor, a component normalised on the number of
simulated events predicts in total the rate times the weight of the events that lie in some bin, divided by the number
simulated. -/
theorem C17_expected_events_any_bins (s : Sample F) (ha : Ascending s.cfg.bins) (hd : s.cols.length = s.cfg.bins.dims)
    (heps : s.cfg.addEps = false) (hn : s.cfg.normType = "on_sim") (he : s.cfg.energy = .simulated ∨ s.cfg.energy = .bootstrap) :
    ∃ h, Comp.simulateHist s.cfg false (s.cols ++ [s.eff]) s.rate s.simulated = .ok h ∧
      h.flatten.sum = s.rate * Hist.weightOf (InSomeBin s.cfg.bins) ((eventRows s.cols).zip s.eff) /
        (if s.cfg.energy = .bootstrap then s.cfg.nSelected else s.simulated) := by
  obtain ⟨h, h1, _, _, h4⟩ := content_spec s ha hd
  have hne : ¬ s.cfg.normType = "on_pdf" := by rw [hn]; decide
  have hf : Comp.normalization s.cfg h s.rate s.simulated =
      .ok (1 / (if s.cfg.energy = .bootstrap then s.cfg.nSelected else s.simulated) * s.rate) := by
    unfold Comp.normalization
    rw [if_neg hne, if_pos hn]
    rcases he with he | he <;> simp [he, Comp.useMcinput, bind, Except.bind, pure, Except.pure]
  refine ⟨Comp.scaleHist (1 / (if s.cfg.energy = .bootstrap then s.cfg.nSelected else s.simulated) * s.rate) h, ?_, ?_⟩
  · unfold Comp.simulateHist Comp.splitEff
    simp only [List.getLast?_append, List.getLast?_singleton, Option.some_or, List.dropLast_concat, Bool.false_eq_true, if_false,
      bind, Except.bind, hd, ne_eq, not_true_eq_false, h1, hf]
    rfl
  · rw [← total_eq_flatten, Comp.total_scale, h4]
    have : s.content = fun b => Hist.weightOf (EventIn s.cfg.bins b.1 b.2) ((eventRows s.cols).zip s.eff) := by
      funext b
      simp [Sample.content, heps]
    rw [this, bins_total s.cfg.bins ha]
    ring

open Classical in
/-- **C19 (alignment, every kind of bins).** The weighted data are exactly the events strictly inside the outermost edges, in
order, each with its own efficiency times one common factor; all columns stay as long as the weights. -/
theorem C19_weighted_data_any_bins (s : Sample F) (ha : Ascending s.cfg.bins) (hd : s.cols.length = s.cfg.bins.dims)
    (hl : ∀ c ∈ s.cols, c.length = s.eff.length) (cols : List (List F)) (w : List F)
    (h : Comp.simulateWeighted s.cfg s.cols s.eff s.rate s.simulated = .ok (cols, w)) :
    cols.length = s.cols.length ∧ (∀ c ∈ cols, c.length = w.length) ∧
      ∃ f, (eventRows cols).zip w = (((eventRows s.cols).zip s.eff).filter
        (fun p => decide (StrictlyInside s.cfg.bins p.1))).map (fun p => (p.1, p.2 * f)) := by
  obtain ⟨h1, h2, h3, _⟩ := clipResult_spec s.cfg.bins ha s.cols s.eff hd hl
  unfold Comp.simulateWeighted at h
  simp only at h
  split at h
  · cases h
  · cases hb : Comp.implementBinning s.cfg (Comp.clipResult s.cfg.bins s.cols s.eff).1
        (Comp.clipResult s.cfg.bins s.cols s.eff).2 with
    | error e => rw [hb] at h; cases h
    | ok g =>
      rw [hb] at h
      simp only [bind, Except.bind] at h
      cases hnorm : Comp.normalization s.cfg g s.rate s.simulated with
      | error e => rw [hnorm] at h; cases h
      | ok f =>
        rw [hnorm] at h
        simp only [pure, Except.pure, Except.ok.injEq, Prod.mk.injEq] at h
        obtain ⟨rfl, rfl⟩ := h
        refine ⟨h1, ?_, f, ?_⟩
        · intro c hc
          rw [List.length_map]
          exact h2 c hc
        · rw [← h3, List.zip_map_right]
          rfl

open Classical in
/-- **C19 (the weights sum to the rate, every kind of bins).** For bins filling a rectangle and without the floor, the weights
of an `on_pdf` component sum to the rate whenever the efficiencies of the events strictly inside do not sum to zero. -/
theorem C19_weights_sum_any_bins (s : Sample F) (ha : Ascending s.cfg.bins) (hr : Rectangular s.cfg.bins)
    (hd : s.cols.length = s.cfg.bins.dims) (hl : ∀ c ∈ s.cols, c.length = s.eff.length)
    (hn : s.cfg.normType = "on_pdf") (heps : s.cfg.addEps = false)
    (hne : Hist.weightOf (StrictlyInside s.cfg.bins) ((eventRows s.cols).zip s.eff) ≠ 0) :
    ∃ cols w, Comp.simulateWeighted s.cfg s.cols s.eff s.rate s.simulated = .ok (cols, w) ∧ w.sum = s.rate := by
  obtain ⟨h1, h2, h3, h4⟩ := clipResult_spec s.cfg.bins ha s.cols s.eff hd hl
  generalize hcr : Comp.clipResult s.cfg.bins s.cols s.eff = r at h1 h2 h3 h4
  obtain ⟨g, g1, _, _, g4⟩ := content_spec ⟨s.cfg, r.1, r.2, s.rate, s.simulated⟩ ha (by simp only; rw [h1, hd])
  simp only at g1
  have htot : Comp.total g = r.2.sum := by
    rw [g4]
    have : Sample.content ⟨s.cfg, r.1, r.2, s.rate, s.simulated⟩ =
        fun b => Hist.weightOf (EventIn s.cfg.bins b.1 b.2) ((eventRows r.1).zip r.2) := by
      funext b
      simp [Sample.content, heps]
    rw [this]
    simp only
    rw [bins_total s.cfg.bins ha, h3,
      weightOf_filter_all (InSomeBin s.cfg.bins) (StrictlyInside s.cfg.bins) _ (fun e _ he => inside_inSomeBin s.cfg.bins ha hr e.1 he), h4]
    rfl
  have hne' : r.2.sum ≠ 0 := by rw [h4]; exact hne
  refine ⟨r.1, r.2.map (· * (1 / Comp.total g * s.rate)), ?_, ?_⟩
  · unfold Comp.simulateWeighted
    simp only [hcr, h1, hd, ne_eq, not_true, if_false, g1, bind, Except.bind, Comp.normalization, hn, if_true, pure, Except.pure]
  · rw [List.sum_map_mul_right, List.map_id', htot]
    field_simp

/-- **C19 (with the floor, every kind of bins).** With the floor the weights sum to at most the rate. -/
theorem C19_floor_weights_any_bins [IsStrictOrderedRing F] (s : Sample F) (ha : Ascending s.cfg.bins) (hr : Rectangular s.cfg.bins)
    (hd : s.cols.length = s.cfg.bins.dims) (hl : ∀ c ∈ s.cols, c.length = s.eff.length)
    (hn : s.cfg.normType = "on_pdf") (hrate : 0 ≤ s.rate) (heff : ∀ e ∈ s.eff, 0 ≤ e) (cols : List (List F)) (w : List F)
    (h : Comp.simulateWeighted s.cfg s.cols s.eff s.rate s.simulated = .ok (cols, w)) : w.sum ≤ s.rate := by
  classical
  obtain ⟨h1, h2, h3, h4⟩ := clipResult_spec s.cfg.bins ha s.cols s.eff hd hl
  generalize hcr : Comp.clipResult s.cfg.bins s.cols s.eff = r at h1 h2 h3 h4
  obtain ⟨g, g1, _, _, g4⟩ := content_spec ⟨s.cfg, r.1, r.2, s.rate, s.simulated⟩ ha (by simp only; rw [h1, hd])
  simp only at g1
  have htot : r.2.sum ≤ Comp.total g := by
    rw [g4]
    have h5 : r.2.sum = ((binList s.cfg.bins).map (fun b => Hist.weightOf (EventIn s.cfg.bins b.1 b.2) ((eventRows r.1).zip r.2))).sum := by
      rw [bins_total s.cfg.bins ha, h3, weightOf_filter_all (InSomeBin s.cfg.bins) (StrictlyInside s.cfg.bins) _
        (fun e _ he => inside_inSomeBin s.cfg.bins ha hr e.1 he), h4]
      rfl
    rw [h5]
    apply List.sum_le_sum
    intro b _
    unfold Sample.content
    simp only
    split
    · exact le_max_left _ _
    · exact le_refl _
  have hnn : 0 ≤ r.2.sum := by
    apply List.sum_nonneg
    intro e he
    rw [h4] at he
    obtain ⟨p, hp, rfl⟩ := List.mem_map.1 he
    exact heff _ (List.of_mem_zip (List.mem_filter.1 hp).1).2
  unfold Comp.simulateWeighted at h
  simp only [hcr, h1, hd, ne_eq, not_true, if_false, g1, bind, Except.bind, Comp.normalization, hn, if_true, pure, Except.pure,
    Except.ok.injEq, Prod.mk.injEq] at h
  obtain ⟨-, rfl⟩ := h
  rw [List.sum_map_mul_right, List.map_id']
  rcases eq_or_lt_of_le (le_trans hnn htot) with h0 | h0
  · rw [← h0]; simpa using hrate
  · have : r.2.sum * (1 / Comp.total g * s.rate) = r.2.sum / Comp.total g * s.rate := by ring
    rw [this]
    calc r.2.sum / Comp.total g * s.rate ≤ 1 * s.rate := mul_le_mul_of_nonneg_right ((div_le_one h0).2 htot) hrate
      _ = s.rate := one_mul _

open Classical in
/-- **C19 (fixed component, every kind of bins).** After `deduce`, the weights of an `on_pdf` fixed component without the floor
sum to the rate, provided some event is strictly inside, the bins fill a rectangle and every event in a bin is strictly inside,
that is none lies on an outermost edge. -/
theorem C19_fixed_weights_any_bins [IsStrictOrderedRing F] (cfg : Comp.HistCfg F) (cols : List (List F)) (n : Nat) (ha : Ascending cfg.bins)
    (hr : Rectangular cfg.bins) (hd : cols.length = cfg.bins.dims) (hl : ∀ c ∈ cols, c.length = n)
    (hn : cfg.normType = "on_pdf") (heps : cfg.addEps = false)
    (hedge : ∀ ev ∈ eventRows cols, InSomeBin cfg.bins ev → StrictlyInside cfg.bins ev)
    (hin : ∃ ev ∈ eventRows cols, StrictlyInside cfg.bins ev)
    (name : String) (needed : List String) (rate : F) :
    ∃ fc cols' w, Comp.fixedDeduce cfg name needed cols n = .ok fc ∧ Comp.fixedWeighted fc rate = .ok (cols', w) ∧ w.sum = rate := by
  have hl' : ∀ c ∈ cols, c.length = (List.replicate n (1 : F)).length := by simpa using hl
  obtain ⟨h1, h2, h3, h4⟩ := clipResult_spec cfg.bins ha cols (List.replicate n (1 : F)) hd hl'
  generalize hcr : Comp.clipResult cfg.bins cols (List.replicate n (1 : F)) = r at h1 h2 h3 h4
  obtain ⟨g, g1, _, _, g4⟩ := content_spec ⟨cfg, cols, List.replicate n (1 : F), rate, 0⟩ ha hd
  simp only at g1
  have hrl := eventRows_length cols n (by rw [hd]; exact dims_of_ascending cfg.bins ha) hl
  have htot : Comp.total g = r.2.sum := by
    rw [g4]
    have : Sample.content ⟨cfg, cols, List.replicate n (1 : F), rate, 0⟩ =
        fun b => Hist.weightOf (EventIn cfg.bins b.1 b.2) ((eventRows cols).zip (List.replicate n (1 : F))) := by
      funext b
      simp [Sample.content, heps]
    rw [this]
    simp only
    rw [bins_total cfg.bins ha, h4]
    unfold Hist.weightOf
    congr 2
    apply List.filter_congr
    intro e he
    have hem := (List.of_mem_zip he).1
    rw [decide_eq_decide]
    exact ⟨hedge e.1 hem, inside_inSomeBin cfg.bins ha hr e.1⟩
  have hne' : r.2.sum ≠ 0 := by
    have hsum : r.2.sum = ((eventRows cols).countP (fun ev => decide (StrictlyInside cfg.bins ev)) : F) := by
      rw [h4, ← sum_ones, hrl]
    rw [hsum, Nat.cast_ne_zero]
    obtain ⟨ev, hev, hp⟩ := hin
    exact (List.countP_pos_iff.2 ⟨ev, hev, by simpa using hp⟩).ne'
  refine ⟨⟨cfg, cols, List.replicate n 1, g, if name ∈ needed then needed else needed ++ [name]⟩, r.1,
    r.2.map (· * (1 / Comp.total g * rate)), ?_, ?_, ?_⟩
  · simp only [Comp.fixedDeduce, g1, bind, Except.bind, pure, Except.pure]
  · simp only [Comp.fixedWeighted, hcr, Comp.normalization, hn, if_true, bind, Except.bind, pure, Except.pure]
  · rw [List.sum_map_mul_right, List.map_id', htot]
    field_simp

/-- **C19 (no efficiency).** For a component deduced without the efficiency, the histogram is made from all simulated columns, but the
weighted data are not: whenever `simulate_hist` succeeds, `simulate_weighted_data` takes the last column of the data for the efficiency
and fails, for every key, batch size and parameters. -/
theorem C19_no_efficiency_fails {K : Type} (d : SimDesc K F) (hforce : d.forceNoEff = true) (key : K) (batch : Int) (p : PyDict String F)
    (nd : List String) (hist weighted : K → Int → PyDict String F → Res (K × Grid F)) (hd : d.comp = .sim nd hist weighted)
    (r : K × Grid F) (h : hist key batch p = .ok r) : weighted key batch p = .error .assertionError := by
  unfold SimDesc.comp at hd
  injection hd with _ h1 h2
  subst h1 h2
  simp only [bind, Except.bind, pure, Except.pure] at h ⊢
  split at h
  · cases h
  rename_i run hrun
  split at h
  · cases h
  rename_i rate hrate
  split at h
  · cases h
  rename_i g hg
  unfold Comp.simulateHist Comp.splitEff at hg
  unfold Comp.splitEff
  cases hl : run.2.getLast? with
  | none => rw [hl] at hg; cases hg
  | some last =>
    rw [hl] at hg
    simp only [hforce, if_true, bind, Except.bind] at hg
    split at hg
    · cases hg
    rename_i hdim
    have hne : run.2 ≠ [] := by rintro e; rw [e] at hl; cases hl
    have hlen : 0 < run.2.length := List.length_pos_iff.2 hne
    have : (Comp.clipResult d.cfg.bins run.2.dropLast last).1.length ≠ d.cfg.bins.dims := by
      simp only [Comp.clipResult, List.length_map, List.length_dropLast]
      have := not_not.1 hdim
      omega
    simp only [Bool.false_eq_true, if_false, Comp.simulateWeighted, this, ne_eq, not_false_eq_true, if_true]

end

/-- Non-vacuity: the same simulator, without an efficiency, gives a histogram and no weighted data. -/
example : ∃ hist weighted, (SimDesc.comp (K := Unit) (F := ℚ) ⟨⟨.irreg1 [0, 1, 2], "on_pdf", false, .simulated, 0⟩, true, "er_rate", ["er_rate"],
      fun k _ _ => .ok (k, [[1 / 2, 3 / 2]])⟩) = .sim ["er_rate"] hist weighted ∧
    hist () 2 [("er_rate", 6)] = .ok ((), [[3, 3]]) ∧ weighted () 2 [("er_rate", 6)] = .error .assertionError :=
  ⟨_, _, rfl, by decide +kernel, by decide +kernel⟩

/-- Two bins along x with different inner y edges and the same ends. -/
def exRect : Comp.Bins ℚ := .irreg2 [0, 10, 20] [[0, 5, 50], [0, 40, 50]]

/-- Non-vacuity: the bins fill a rectangle, and an event on the outer edge of y (50) and one below it keep only the latter, whose
weight is the rate. -/
example : Ascending exRect ∧ Rectangular exRect ∧
    Comp.simulateWeighted ⟨exRect, "on_pdf", false, .simulated, 0⟩ [[5, 15], [30, 50]] [2, 7] 10 2 = .ok ([[5], [30]], [10]) := by
  refine ⟨⟨by decide +kernel, rfl, 3, by decide +kernel⟩, ⟨(0, 50), ?_⟩, by decide +kernel⟩
  intro row hrow
  simp only [List.mem_cons, List.not_mem_nil, or_false] at hrow
  rcases hrow with rfl | rfl
  · exact ⟨[5], rfl, by decide +kernel⟩
  · exact ⟨[40], rfl, by decide +kernel⟩

end Verif.Llh
