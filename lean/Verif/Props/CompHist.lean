/-
Property theorems C17-C20 about normalisation, the histogram floor, weighted data and repeated simulation
(component.py).  `total` is the sum of all bins.
-/
import Verif.Lemmas.CompHist
import Mathlib.Tactic.NormNum

namespace Verif.Comp
open Verif

section
variable {F : Type} [Field F] [LinearOrder F] [IsStrictOrderedRing F]

/-- **C17 (on_pdf).** A nonzero histogram normalised on its sum adds up to the rate, every bin being scaled by
the same factor. -/
theorem C17_on_pdf_total_is_rate (cfg : HistCfg F) (force : Bool) (result mc h0 : List (List F))
    (eff : List F) (rate batch : F) (hn : cfg.normType = "on_pdf")
    (hs : splitEff 1 force result = .ok (mc, eff)) (hd : mc.length = cfg.bins.dims)
    (hb : implementBinning cfg mc eff = .ok h0) (hne : total h0 ≠ 0) :
    ∃ h, simulateHist cfg force result rate batch = .ok h ∧ total h = rate ∧
      h = h0.map (fun row => row.map (fun x => x / total h0 * rate)) := by
  refine ⟨scaleHist (1 / total h0 * rate) h0, ?_, ?_, ?_⟩
  · simp [simulateHist, hs, hd, hb, normalization, hn, bind, Except.bind, pure, Except.pure]
  · rw [total_scale]; field_simp
  · unfold scaleHist
    apply List.map_congr_left
    intro row _
    apply List.map_congr_left
    intro x _
    field_simp

/-- **C17 (on_sim).** Normalised on the number of simulated events (or of selected input events for a
bootstrap input) the histogram adds up to rate times its raw total over that number. -/
theorem C17_on_sim_total (cfg : HistCfg F) (force : Bool) (result mc h0 : List (List F))
    (eff : List F) (rate batch : F) (hn : cfg.normType = "on_sim")
    (he : cfg.energy = .simulated ∨ cfg.energy = .bootstrap)
    (hs : splitEff 1 force result = .ok (mc, eff)) (hd : mc.length = cfg.bins.dims)
    (hb : implementBinning cfg mc eff = .ok h0) :
    ∃ h, simulateHist cfg force result rate batch = .ok h ∧
      total h = rate * total h0 / (if cfg.energy = .bootstrap then cfg.nSelected else batch) := by
  rcases he with he | he
  · refine ⟨scaleHist (1 / batch * rate) h0, ?_, ?_⟩
    · simp [simulateHist, hs, hd, hb, normalization, hn, he, useMcinput, bind, Except.bind, pure,
        Except.pure]
    · rw [total_scale]; simp only [he, reduceCtorEq, if_false]; ring
  · refine ⟨scaleHist (1 / cfg.nSelected * rate) h0, ?_, ?_⟩
    · simp [simulateHist, hs, hd, hb, normalization, hn, he, useMcinput, bind, Except.bind, pure,
        Except.pure]
    · rw [total_scale]; simp only [he, if_true]; ring

/-- **C17 (expected number of events).** For a one-dimensional irregular binning without the floor, the model
of an `on_sim` component expects rate × accepted weight inside the binning / number of simulated events. -/
theorem C17_on_sim_expected_events (cfg : HistCfg F) (c eff : List F) (lo hi : F) (mid : List F)
    (hbins : cfg.bins = .irreg1 (lo :: mid ++ [hi])) (hsort : (lo :: mid ++ [hi]).Pairwise (· ≤ ·))
    (hn : cfg.normType = "on_sim") (he : cfg.energy = .simulated) (heps : cfg.addEps = false)
    (rate batch : F) :
    ∃ h, simulateHist cfg false [c, eff] rate batch = .ok h ∧
      total h = rate * Hist.weightOf (Hist.InBin lo hi) ((c.map some).zip eff) / batch := by
  have hb : implementBinning cfg [c] eff = .ok [Hist.hist1d (lo :: mid ++ [hi]) (samples1 c eff)] := by
    simp [implementBinning, hbins, rawHist, floorHist, heps, bind, Except.bind, pure, Except.pure]
  obtain ⟨h, h1, h2⟩ := C17_on_sim_total cfg false [c, eff] [c] _ eff rate batch hn (.inl he) rfl
    (by simp [hbins, Bins.dims]) hb
  refine ⟨h, h1, ?_⟩
  rw [h2, he]
  simp only [reduceCtorEq, if_false, total, List.map_cons, List.map_nil, List.sum_cons, List.sum_nil,
    add_zero]
  rw [Hist.C08_hist1d_total lo hi mid hsort]
  rfl

omit [IsStrictOrderedRing F] in
/-- **C17 (errors).** Any other norm type raises ValueError, in particular the default, whatever is simulated. -/
theorem C17_unknown_norm_raises (cfg : HistCfg F) (h : List (List F)) (rate batch : F)
    (h1 : cfg.normType ≠ "on_pdf") (h2 : cfg.normType ≠ "on_sim") :
    normalization cfg h rate batch = .error .valueError := by
  simp [normalization, h1, h2]

omit [IsStrictOrderedRing F] in
/-- A fixed component cannot be normalised on the simulation: it has no plugin registry, so the histogram
raises AttributeError instead of using the number of loaded events. -/
theorem C17_fixed_on_sim_raises (c : FixedComp F) (rate : F) (hn : c.cfg.normType = "on_sim")
    (he : c.cfg.energy = .noRegistry) : fixedHist c rate = .error .attributeError := by
  simp [fixedHist, normalization, hn, he, useMcinput, bind, Except.bind]

/-- **C17 (no energy plugin).** With on_sim a component none of whose plugins provides `energy` raises KeyError. -/
theorem C17_on_sim_without_energy (cfg : HistCfg F) (h : List (List F)) (rate batch : F) (hn : cfg.normType = "on_sim")
    (he : cfg.energy = .missing) : normalization cfg h rate batch = .error .keyError := by
  simp [normalization, hn, he, useMcinput, bind, Except.bind]

/-- Non-vacuity of C17: three events, one outside; rate 6. -/
def exHistCfg (norm : String) (eps : Bool) : HistCfg ℚ :=
  { bins := .irreg1 [0, 10, 20], normType := norm, addEps := eps, nSelected := 8 }

example : simulateHist (exHistCfg "on_pdf" false) false [[5, 15, 25], [1, 2, 4]] 6 10 = .ok [[2, 4]] ∧
    simulateHist (exHistCfg "on_sim" false) false [[5, 15, 25], [1, 2, 4]] 6 10 = .ok [[6/10, 12/10]] ∧
    simulateHist { exHistCfg "on_sim" false with energy := .bootstrap } false [[5, 15, 25], [1, 2, 4]] 6 10
      = .ok [[6/8, 12/8]] ∧
    simulateHist (exHistCfg "" false) false [[5, 15, 25], [1, 2, 4]] 6 10 = .error .valueError ∧
    simulateHist { exHistCfg "on_sim" false with energy := .missing } false [[5, 15, 25], [1, 2, 4]] 6 10
      = .error .keyError := by
  refine ⟨by decide +kernel, by decide +kernel, by decide +kernel, by decide +kernel, by decide +kernel⟩

/-- **C18 (floor).** With the floor on, a histogram has the shape of the raw one, every bin is the larger of the
raw bin and 1e-10 plus the mean efficiency; with it off the raw histogram is returned. -/
theorem C18_floor (cfg : HistCfg F) (cols h0 : List (List F)) (eff : List F)
    (hr : rawHist cfg.bins cols eff = .ok h0) :
    ∃ h, implementBinning cfg cols eff = .ok h ∧
      (cfg.addEps = false → h = h0) ∧
      (cfg.addEps = true → h.length = h0.length ∧
        ∀ (i : Nat) (row0 : List F), h0[i]? = some row0 → ∃ row, h[i]? = some row ∧
          row.length = row0.length ∧
          ∀ (j : Nat) (x0 : F), row0[j]? = some x0 → ∃ x, row[j]? = some x ∧
            1 / 10000000000 + eff.sum / (eff.length : F) ≤ x ∧
            (1 / 10000000000 + eff.sum / (eff.length : F) ≤ x0 → x = x0) ∧
            (x0 < 1 / 10000000000 + eff.sum / (eff.length : F) →
              x = 1 / 10000000000 + eff.sum / (eff.length : F))) := by
  refine ⟨floorHist cfg.addEps eff h0, by simp [implementBinning, hr, bind, Except.bind, pure,
    Except.pure], ?_, ?_⟩
  · intro h; simp [floorHist, h]
  · intro h
    simp only [floorHist, h, if_true, List.length_map, true_and]
    intro i row0 hrow
    refine ⟨_, by rw [List.getElem?_map, hrow]; rfl, by simp, ?_⟩
    intro j x0 hx
    refine ⟨_, by rw [List.getElem?_map, hx]; rfl, ?_, ?_, ?_⟩
    · exact le_max_right _ _
    · intro hle; exact max_eq_left hle
    · intro hlt; exact max_eq_right (le_of_lt hlt)

/-- **C18 (positive model).** With the floor on, non-negative efficiencies, a positive rate and, for `on_sim`, a
positive event count, every bin of the simulated model is positive. -/
theorem C18_every_bin_positive (cfg : HistCfg F) (force : Bool) (result mc h : List (List F)) (eff : List F)
    (rate batch : F) (heps : cfg.addEps = true) (hs : splitEff 1 force result = .ok (mc, eff))
    (heff : ∀ e ∈ eff, 0 ≤ e) (hrate : 0 < rate)
    (hbatch : 0 < batch) (hsel : 0 < cfg.nSelected)
    (h1 : simulateHist cfg force result rate batch = .ok h) :
    ∀ row ∈ h, ∀ x ∈ row, 0 < x := by
  simp only [simulateHist, hs, bind, Except.bind] at h1
  split at h1
  · cases h1
  · cases hb : implementBinning cfg mc eff with
    | error e => rw [hb] at h1; cases h1
    | ok h0 =>
      rw [hb] at h1
      simp only at h1
      have hpos0 : ∀ row ∈ h0, ∀ x ∈ row, 0 < x := by
        unfold implementBinning at hb
        cases hr : rawHist cfg.bins mc eff with
        | error e => rw [hr] at hb; cases hb
        | ok raw =>
          rw [hr] at hb
          simp only [bind, Except.bind, pure, Except.pure, Except.ok.injEq] at hb
          subst hb
          simp only [floorHist, heps, if_true]
          intro row hrow x hx
          obtain ⟨r0, _, rfl⟩ := List.mem_map.1 hrow
          obtain ⟨x0, _, rfl⟩ := List.mem_map.1 hx
          exact lt_of_lt_of_le (add_pos_of_pos_of_nonneg tiny_pos (mean_nonneg heff)) (le_max_right _ _)
      cases hnorm : normalization cfg h0 rate batch with
      | error e => rw [hnorm] at h1; cases h1
      | ok f =>
        rw [hnorm] at h1
        simp only [pure, Except.pure, Except.ok.injEq] at h1
        subst h1
        intro row hrow x hx
        obtain ⟨r0, hr0, rfl⟩ := List.mem_map.1 hrow
        obtain ⟨x0, hx0, rfl⟩ := List.mem_map.1 hx
        have hf : 0 < f := by
          unfold normalization at hnorm
          split at hnorm
          · simp only [Except.ok.injEq] at hnorm
            subst hnorm
            have := total_pos ⟨r0, hr0, List.ne_nil_of_mem hx0⟩ hpos0
            positivity
          · split at hnorm
            · cases hm : useMcinput cfg.energy with
              | error e => rw [hm] at hnorm; cases hnorm
              | ok m =>
                rw [hm] at hnorm
                cases m
                · simp only [bind, Except.bind, Bool.false_eq_true, if_false, pure, Except.pure,
                    Except.ok.injEq] at hnorm
                  subst hnorm; positivity
                · simp only [bind, Except.bind, if_true, pure, Except.pure, Except.ok.injEq] at hnorm
                  subst hnorm; positivity
            · cases hnorm
        exact mul_pos (hpos0 r0 hr0 x0 hx0) hf

/-- Non-vacuity of C18: the second bin is empty; mean efficiency 1/2. -/
example : implementBinning (exHistCfg "on_pdf" true) [[5, 6, 7]] [1/2, 1/2, 1/2]
    = .ok [[3/2, 1/2 + 1/10000000000]] := by decide +kernel

/-- **C19 (alignment).** For a one-dimensional binning the weighted data are the events strictly inside the
binning, in order, each with its own efficiency times one common factor. -/
theorem C19_weighted_data_aligned (cfg : HistCfg F) (c eff : List F) (lo hi : F) (mid : List F)
    (hbins : cfg.bins = .irreg1 (lo :: mid ++ [hi])) (hsort : (lo :: mid ++ [hi]).Pairwise (· ≤ ·))
    (hlen : c.length = eff.length) (rate batch : F) (cols : List (List F)) (w : List F)
    (h : simulateWeighted cfg [c] eff rate batch = .ok (cols, w)) :
    ∃ c' f, cols = [c'] ∧ c'.length = w.length ∧
      c'.zip w = ((c.zip eff).filter (fun p => decide (lo < p.1 ∧ p.1 < hi))).map
        (fun p => (p.1, p.2 * f)) := by
  have hmask : clipMask cfg.bins [c] eff.length = c.map (strictlyInside (lo :: mid ++ [hi])) := by
    rw [hbins]; exact clipMask_one _ _ _ hlen
  simp only [simulateWeighted, clipResult, hmask, List.map_cons, List.map_nil, List.length_singleton] at h
  split at h
  · cases h
  · cases hb : implementBinning cfg [applyMask (c.map (strictlyInside (lo :: mid ++ [hi]))) c]
        (applyMask (c.map (strictlyInside (lo :: mid ++ [hi]))) eff) with
    | error e => rw [hb] at h; cases h
    | ok h0 =>
      rw [hb] at h
      simp only [bind, Except.bind] at h
      cases hnorm : normalization cfg h0 rate batch with
      | error e => rw [hnorm] at h; cases h
      | ok f =>
        rw [hnorm] at h
        simp only [pure, Except.pure, Except.ok.injEq, Prod.mk.injEq] at h
        obtain ⟨rfl, rfl⟩ := h
        refine ⟨_, f, rfl, ?_, ?_⟩
        · rw [List.length_map]; exact applyMask_length _ _ _ hlen
        · rw [← List.map_id (applyMask (List.map (strictlyInside (lo :: mid ++ [hi])) c) c), List.zip_map,
            applyMask_zip _ _ _ (by simp) (by simp [hlen])]
          have hsw : applyMask (c.map (strictlyInside (lo :: mid ++ [hi]))) (c.zip eff)
              = (c.zip eff).filter (fun p => decide (lo < p.1 ∧ p.1 < hi)) := by
            have hfst : c = (c.zip eff).map Prod.fst := by rw [List.map_fst_zip (by omega)]
            conv_lhs => rw [show c.map (strictlyInside (lo :: mid ++ [hi]))
              = (c.zip eff).map (fun p => strictlyInside (lo :: mid ++ [hi]) p.1) by
                conv_lhs => rw [hfst]
                rw [List.map_map]; rfl]
            generalize c.zip eff = l
            induction l with
            | nil => simp [applyMask]
            | cons p l ih =>
              by_cases hp : lo < p.1 ∧ p.1 < hi
              · have := (strictlyInside_iff lo hi mid hsort p.1).2 hp
                simp only [List.map_cons, this, List.filter_cons, hp, and_self, decide_true, if_true]
                rw [← ih]; simp [applyMask]
              · have : strictlyInside (lo :: mid ++ [hi]) p.1 = false := by
                  rw [Bool.eq_false_iff]
                  intro hc; exact hp ((strictlyInside_iff lo hi mid hsort p.1).1 hc)
                simp only [List.map_cons, this, List.filter_cons, hp, decide_false, Bool.false_eq_true,
                  if_false]
                rw [← ih]; simp [applyMask]
          rw [hsw]
          apply List.map_congr_left
          rintro ⟨a, b⟩ _
          rfl

/-- **C19 (weights sum to the rate).** For a one-dimensional `on_pdf` component without the floor, the weights
sum to the rate whenever the efficiencies of the events inside the binning do not sum to zero. -/
theorem C19_weights_sum_to_rate (cfg : HistCfg F) (c eff : List F) (lo hi : F) (mid : List F)
    (hbins : cfg.bins = .irreg1 (lo :: mid ++ [hi])) (hsort : (lo :: mid ++ [hi]).Pairwise (· ≤ ·))
    (hn : cfg.normType = "on_pdf") (heps : cfg.addEps = false) (hlen : c.length = eff.length)
    (rate batch : F)
    (hne : Hist.weightOf (fun x => lo < x ∧ x < hi) (c.zip eff) ≠ 0) :
    ∃ cols w, simulateWeighted cfg [c] eff rate batch = .ok (cols, w) ∧ w.sum = rate := by
  have hmask : clipMask cfg.bins [c] eff.length = c.map (strictlyInside (lo :: mid ++ [hi])) := by
    rw [hbins]; exact clipMask_one _ _ _ hlen
  obtain ⟨hc, he⟩ := applyMask_inside lo hi mid hsort c eff hlen
  have htot : total [Hist.hist1d (lo :: mid ++ [hi]) (samples1
      (applyMask (c.map (strictlyInside (lo :: mid ++ [hi]))) c)
      (applyMask (c.map (strictlyInside (lo :: mid ++ [hi]))) eff))]
      = (applyMask (c.map (strictlyInside (lo :: mid ++ [hi]))) eff).sum := by
    rw [he, hc]
    exact total_inside lo hi mid hsort _
      (fun p hp => by
        have := (List.mem_filter.1 hp).2
        simpa using this)
  refine ⟨[applyMask (c.map (strictlyInside (lo :: mid ++ [hi]))) c],
    (applyMask (c.map (strictlyInside (lo :: mid ++ [hi]))) eff).map (· *
      (1 / total [Hist.hist1d (lo :: mid ++ [hi]) (samples1
      (applyMask (c.map (strictlyInside (lo :: mid ++ [hi]))) c)
      (applyMask (c.map (strictlyInside (lo :: mid ++ [hi]))) eff))] * rate)), ?_, ?_⟩
  · simp only [simulateWeighted, clipResult, hmask]
    simp only [List.map_cons, List.map_nil, List.length_singleton,
      hbins, Bins.dims, ne_eq, not_true, if_false, implementBinning, rawHist, floorHist, heps,
      normalization, hn, bind, Except.bind, pure, Except.pure, Bool.false_eq_true, if_true]
  · rw [htot, List.sum_map_mul_right, List.map_id', he]
    unfold Hist.weightOf at hne
    field_simp

/-- **C19 (with the floor).** With the default floor the weights sum to at most the rate. -/
theorem C19_floor_weights_at_most_rate (cfg : HistCfg F) (c eff : List F) (lo hi : F) (mid : List F)
    (hbins : cfg.bins = .irreg1 (lo :: mid ++ [hi])) (hsort : (lo :: mid ++ [hi]).Pairwise (· ≤ ·))
    (hn : cfg.normType = "on_pdf") (hlen : c.length = eff.length)
    (rate batch : F) (hrate : 0 ≤ rate) (heff : ∀ e ∈ eff, 0 ≤ e)
    (cols : List (List F)) (w : List F)
    (h : simulateWeighted cfg [c] eff rate batch = .ok (cols, w)) : w.sum ≤ rate := by
  have hmask : clipMask cfg.bins [c] eff.length = c.map (strictlyInside (lo :: mid ++ [hi])) := by
    rw [hbins]; exact clipMask_one _ _ _ hlen
  obtain ⟨hc, he⟩ := applyMask_inside lo hi mid hsort c eff hlen
  have htot : total [Hist.hist1d (lo :: mid ++ [hi]) (samples1
      (applyMask (c.map (strictlyInside (lo :: mid ++ [hi]))) c)
      (applyMask (c.map (strictlyInside (lo :: mid ++ [hi]))) eff))]
      = (applyMask (c.map (strictlyInside (lo :: mid ++ [hi]))) eff).sum := by
    rw [he, hc]
    exact total_inside lo hi mid hsort _
      (fun p hp => by
        have := (List.mem_filter.1 hp).2
        simpa using this)
  have hnn : 0 ≤ (applyMask (c.map (strictlyInside (lo :: mid ++ [hi]))) eff).sum := by
    apply List.sum_nonneg
    intro e hemem
    rw [he] at hemem
    obtain ⟨p, hp, rfl⟩ := List.mem_map.1 hemem
    exact heff _ (List.of_mem_zip (List.mem_filter.1 hp).1).2
  simp only [simulateWeighted, clipResult, hmask] at h
  simp only [List.map_cons, List.map_nil, List.length_singleton,
      hbins, Bins.dims, ne_eq, not_true, if_false, implementBinning, rawHist,
      normalization, hn, bind, Except.bind, pure, Except.pure, if_true, Except.ok.injEq,
      Prod.mk.injEq] at h
  obtain ⟨-, rfl⟩ := h
  rw [List.sum_map_mul_right, List.map_id']
  have hle := total_le_floor cfg.addEps (applyMask (c.map (strictlyInside (lo :: mid ++ [hi]))) eff)
    [Hist.hist1d (lo :: mid ++ [hi]) (samples1
      (applyMask (c.map (strictlyInside (lo :: mid ++ [hi]))) c)
      (applyMask (c.map (strictlyInside (lo :: mid ++ [hi]))) eff))]
  rw [htot] at hle
  set T := total (floorHist cfg.addEps (applyMask (c.map (strictlyInside (lo :: mid ++ [hi]))) eff)
    [Hist.hist1d (lo :: mid ++ [hi]) (samples1
      (applyMask (c.map (strictlyInside (lo :: mid ++ [hi]))) c)
      (applyMask (c.map (strictlyInside (lo :: mid ++ [hi]))) eff))]) with hT
  set E := (applyMask (c.map (strictlyInside (lo :: mid ++ [hi]))) eff).sum with hE
  rcases eq_or_lt_of_le (le_trans hnn hle) with h0 | h0
  · rw [← h0]; simpa using hrate
  · have : E * (1 / T * rate) = E / T * rate := by ring
    rw [this]
    calc E / T * rate ≤ 1 * rate := mul_le_mul_of_nonneg_right ((div_le_one h0).2 hle) hrate
      _ = rate := one_mul _

/-- The sum can be well below the rate: an empty bin takes part of it. -/
theorem C19_floor_weights_below_rate :
    ∃ cols w, simulateWeighted (exHistCfg "on_pdf" true) [[5]] [1] 10 1 = .ok (cols, w) ∧ w.sum < 6 := by
  refine ⟨[[5]], _, rfl, ?_⟩
  decide +kernel

/-- **C19 (fixed component).** After `deduce`, the weights of a one-dimensional `on_pdf` fixed component without
the floor sum to the rate, provided some event is inside and none lies exactly on the upper edge. -/
theorem C19_fixed_weights_sum_to_rate (cfg : HistCfg F) (c : List F) (lo hi : F) (mid : List F)
    (hbins : cfg.bins = .irreg1 (lo :: mid ++ [hi])) (hsort : (lo :: mid ++ [hi]).Pairwise (· ≤ ·))
    (hn : cfg.normType = "on_pdf") (heps : cfg.addEps = false)
    (hupper : hi ∉ c) (hin : ∃ x ∈ c, lo < x ∧ x < hi) (name : String) (needed : List String) (rate : F) :
    ∃ fc cols w, fixedDeduce cfg name needed [c] c.length = .ok fc ∧
      fixedWeighted fc rate = .ok (cols, w) ∧ w.sum = rate := by
  have hlen : c.length = (List.replicate c.length (1 : F)).length := by simp
  have hmask : clipMask cfg.bins [c] (List.replicate c.length (1 : F)).length
      = c.map (strictlyInside (lo :: mid ++ [hi])) := by
    rw [hbins]; exact clipMask_one _ _ _ hlen
  obtain ⟨hc, he⟩ := applyMask_inside lo hi mid hsort c (List.replicate c.length (1 : F)) hlen
  have htot : total [Hist.hist1d (lo :: mid ++ [hi]) (samples1 c (List.replicate c.length (1 : F)))]
      = (applyMask (c.map (strictlyInside (lo :: mid ++ [hi]))) (List.replicate c.length (1 : F))).sum := by
    rw [he]
    exact total_no_upper lo hi mid hsort c _ hupper
  have hpos : 0 < (applyMask (c.map (strictlyInside (lo :: mid ++ [hi])))
      (List.replicate c.length (1 : F))).sum := by
    apply List.sum_pos
    · intro e hemem
      rw [he] at hemem
      obtain ⟨p, hp, rfl⟩ := List.mem_map.1 hemem
      have := (List.of_mem_zip (List.mem_filter.1 hp).1).2
      rw [List.eq_of_mem_replicate this]; exact zero_lt_one
    · rw [he]
      obtain ⟨x, hx, hlt⟩ := hin
      obtain ⟨i, hi', rfl⟩ := List.getElem_of_mem hx
      apply List.ne_nil_of_mem (a := (1 : F))
      refine List.mem_map.2 ⟨(c[i], 1), List.mem_filter.2 ⟨?_, by simpa using hlt⟩, rfl⟩
      rw [List.mem_iff_getElem]
      exact ⟨i, by simp [hi'], by simp⟩
  refine ⟨⟨cfg, [c], List.replicate c.length 1,
      [Hist.hist1d (lo :: mid ++ [hi]) (samples1 c (List.replicate c.length (1 : F)))],
      if name ∈ needed then needed else needed ++ [name]⟩,
    [applyMask (c.map (strictlyInside (lo :: mid ++ [hi]))) c],
    (applyMask (c.map (strictlyInside (lo :: mid ++ [hi]))) (List.replicate c.length (1 : F))).map (· *
      (1 / total [Hist.hist1d (lo :: mid ++ [hi]) (samples1 c (List.replicate c.length (1 : F)))] * rate)),
    ?_, ?_, ?_⟩
  · simp only [fixedDeduce, implementBinning, hbins, rawHist, floorHist, heps, bind, Except.bind, pure,
      Except.pure, Bool.false_eq_true, if_false]
  · simp only [fixedWeighted, clipResult, hmask, normalization, hn, if_true, bind, Except.bind, pure,
      Except.pure, List.map_cons, List.map_nil]
  · rw [htot, List.sum_map_mul_right, List.map_id']
    field_simp

/-- With an event on the upper edge the weights of a fixed component sum to less: it is counted in the histogram
but clipped from the data. -/
theorem C19_fixed_upper_edge_loses_rate :
    ∃ fc w, fixedDeduce (exHistCfg "on_pdf" false) "rate" [] [[5, 20]] 2 = .ok fc ∧
      fixedWeighted fc 10 = .ok ([[5]], w) ∧ w = [5] := by
  refine ⟨⟨exHistCfg "on_pdf" false, [[5, 20]], [1, 1], [[1, 1]], ["rate"]⟩, [5], ?_, ?_, rfl⟩
  · show (Except.ok _ : Res _) = _
    congr 2
    decide +kernel
  · decide +kernel

/-- In two dimensions the clipping range of the second axis is taken over all rows, so events outside their own
row's range keep a weight: the weights can sum to more than the rate. -/
theorem C19_two_dim_exceeds_rate :
    simulateWeighted { exHistCfg "on_pdf" false with bins := .irreg2 [0, 10, 20] [[0, 5], [0, 50]] }
      [[5, 5], [2, 30]] [1, 1] 10 2 = .ok ([[5, 5], [2, 30]], [10, 10]) := by decide +kernel

/-- Non-vacuity of C19: one event outside, one on the lower edge. -/
example : simulateWeighted (exHistCfg "on_pdf" false) [[5, 0, 15, 25]] [1, 7, 3, 9] 8 4
    = .ok ([[5, 15]], [2, 6]) := by decide +kernel

omit [IsStrictOrderedRing F] in
/-- **C19 (no aliasing).** Computing weighted data of a fixed component leaves every array that existed before
unchanged, in particular the stored data and efficiencies. -/
theorem C19_fixed_data_unchanged (h : Heap F) (mask : List Bool) (dataCols : List Nat) (eff : Nat) (f : F) :
    ∀ i < h.length, (fixedWeightedHeap h mask dataCols eff f).1[i]? = h[i]? := by
  intro i hi
  obtain ⟨⟨ext, h1⟩, h2, h3⟩ := clipHeap_spec (h ++ [h[eff]?.getD []]) mask (dataCols ++ [h.length])
  simp only [fixedWeightedHeap, Heap.alloc]
  cases hl : (clipHeap (h ++ [h[eff]?.getD []]) mask (dataCols ++ [h.length])).2.getLast? with
  | none => simp only; rw [h1]; simp [List.getElem?_append_left, hi]
  | some l =>
    have hmem := h3 l (List.mem_of_getLast? hl)
    simp only [List.length_append, List.length_singleton] at hmem
    simp only
    have hne : l ≠ i := by omega
    rw [List.getElem?_modify, h1]
    simp [List.getElem?_append_left, hi, hne]

/-- Non-vacuity: the returned weights do change. -/
example : fixedWeightedHeap ([[1, 2], [1, 1]] : Heap ℚ) [true, false] [0] 1 5
    = ([[1, 2], [1, 1], [1, 1], [1], [5]], [3, 4]) := by decide +kernel

/-- **C20.** `times` repeated simulations: the i-th output column is the concatenation, in order, of the i-th
columns of the individual simulations, each started from the key returned by the one before; with `apply_eff` each
batch is reduced to its events of positive efficiency. -/
theorem C20_concatenation_in_order {K : Type} (sim : K → K × List (List F)) (force apply : Bool) (times : Int)
    (key : K) (out : K × List (List F))
    (h : multipleSimulations sim force apply times key = .ok out) :
    0 < times ∧
    ∃ keys : Nat → K, keys 0 = key ∧ keys times.toNat = out.1 ∧
      (∀ j < times.toNat, keys (j + 1) = (sim (keys j)).1) ∧
      ∀ (i : Nat) (col : List F), out.2[i]? = some col →
        ∃ parts : List (List F), parts.length = times.toNat ∧ col = parts.flatten ∧
          ∀ j < times.toNat, ∃ raw, (sim (keys j)).2[i]? = some raw ∧
            (apply = false → parts[j]? = some raw) ∧
            (apply = true → force = false ∧ ∃ eff, (sim (keys j)).2.getLast? = some eff ∧
              (raw.length = eff.length → ∃ part, parts[j]? = some part ∧
                part = ((raw.zip eff).filter (fun p => decide (0 < p.2))).map Prod.fst)) := by
  unfold multipleSimulations at h
  by_cases ht : times ≤ 0
  · rw [if_pos ht] at h; cases h
  · rw [if_neg ht] at h
    refine ⟨not_le.1 ht, ?_⟩
    cases hl : simLoop sim force apply times.toNat key [] with
    | error e => rw [hl] at h; cases h
    | ok r =>
      rw [hl] at h
      obtain ⟨new, hnew, hnl, keys, hk0, hkn, hkj⟩ := simLoop_spec sim force apply _ key [] r hl
      simp only [List.nil_append] at hnew
      obtain ⟨rk, rp⟩ := r
      simp only at hnew hkn
      subst hnew
      simp only [bind, Except.bind] at h
      split at h
      · cases h
      · rename_i cols hcols
        simp only [pure, Except.pure, Except.ok.injEq] at h
        subst h
        have hstep : ∀ j < times.toNat, ∀ res, oneSimulation sim force apply (keys j) =
            .ok (keys (j + 1), res) → keys (j + 1) = (sim (keys j)).1 ∧
            (apply = false → res = (sim (keys j)).2) ∧
            (apply = true → force = false ∧ ∃ eff, (sim (keys j)).2.getLast? = some eff ∧
              res = (sim (keys j)).2.map (applyMask (eff.map (fun e => decide (0 < e))))) := by
          intro j _ res hj
          unfold oneSimulation at hj
          cases apply
          · simp only [Bool.false_eq_true, if_false, Except.ok.injEq] at hj
            rw [hj]; simp
          · simp only [if_true] at hj
            cases force
            · simp only [Bool.false_eq_true, if_false] at hj
              cases hg : (sim (keys j)).2.getLast? with
              | none => rw [hg] at hj; cases hj
              | some eff =>
                rw [hg] at hj
                simp only [Except.ok.injEq, Prod.mk.injEq] at hj
                exact ⟨hj.1.symm, by simp, fun _ => ⟨rfl, eff, rfl, hj.2.symm⟩⟩
            · simp at hj
        refine ⟨keys, hk0, hkn, ?_, ?_⟩
        · intro j hj
          obtain ⟨res, _, h2⟩ := hkj j hj
          exact (hstep j hj res h2).1
        · intro i col hcol
          obtain ⟨hlen, hget⟩ := mapM_ok_get _ _ _ hcols
          obtain ⟨i', hi', hparts⟩ := hget i col hcol
          have hii : i' = i := by
            have := List.getElem?_eq_some_iff.1 hi'
            obtain ⟨h1, h2⟩ := this
            rw [List.getElem_range] at h2; exact h2.symm
          subst hii
          simp only [hstackColumn, bind, Except.bind] at hparts
          split at hparts
          · cases hparts
          · rename_i parts hp
            simp only [pure, Except.pure, Except.ok.injEq] at hparts
            obtain ⟨hpl, hpget⟩ := mapM_ok_get _ _ _ hp
            refine ⟨parts, by rw [hpl, hnl], hparts.symm, ?_⟩
            intro j hj
            obtain ⟨res, hr1, hr2⟩ := hkj j hj
            obtain ⟨part, hpart⟩ : ∃ part, parts[j]? = some part :=
              ⟨parts[j]'(by rw [hpl, hnl]; exact hj), by simp⟩
            obtain ⟨res', hr1', hrp⟩ := hpget j part hpart
            rw [hr1] at hr1'
            cases hr1'
            have hri : res[i']? = some part := by
              unfold columnAt at hrp
              cases hq : res[i']? with
              | none => rw [hq] at hrp; cases hrp
              | some c => rw [hq] at hrp; simp only [Except.ok.injEq] at hrp; rw [hrp]
            obtain ⟨-, hs1, hs2⟩ := hstep j hj res hr2
            cases apply
            · rw [hs1 rfl] at hri
              exact ⟨part, hri, fun _ => hpart, by simp⟩
            · obtain ⟨hf, eff, he1, he2⟩ := hs2 rfl
              rw [he2, List.getElem?_map] at hri
              cases hq : (sim (keys j)).2[i']? with
              | none => rw [hq] at hri; cases hri
              | some raw =>
                rw [hq] at hri
                simp only [Option.map_some, Option.some.injEq] at hri
                refine ⟨raw, rfl, by simp, fun _ => ⟨hf, eff, he1, fun hle => ⟨part, hpart, ?_⟩⟩⟩
                rw [← hri, ← applyMask_filter (fun e => decide (0 < e)) _ _ hle, ← applyMask_map,
                  List.map_fst_zip (by omega)]

omit [IsStrictOrderedRing F] in
/-- **C20 (errors).** A non-positive number of repetitions and applying efficiencies to a component deduced
without them are refused. -/
theorem C20_errors {K : Type} (sim : K → K × List (List F)) (force apply : Bool) (times : Int) (key : K) :
    (times ≤ 0 → multipleSimulations sim force apply times key = .error .assertionError) ∧
    (0 < times → multipleSimulations sim true true times key = .error .runtimeError) := by
  constructor
  · intro h; simp [multipleSimulations, h]
  · intro h
    obtain ⟨n, hn⟩ : ∃ n, times.toNat = n + 1 := ⟨times.toNat - 1, by omega⟩
    simp [multipleSimulations, not_le.2 h, hn, simLoop, oneSimulation, bind, Except.bind]

omit [IsStrictOrderedRing F] in
/-- **C20 (success).** If every simulation returns the same positive number of columns and nothing forbids it, the
repeated simulation succeeds with that many columns. -/
theorem C20_succeeds {K : Type} (sim : K → K × List (List F)) (apply : Bool) (times : Int) (key : K)
    (w : Nat) (hw : 0 < w) (hcols : ∀ k, (sim k).2.length = w) (ht : 0 < times) :
    ∃ out, multipleSimulations sim false apply times key = .ok out ∧ out.2.length = w := by
  have hone : ∀ k, ∃ r, oneSimulation sim false apply k = .ok r ∧ r.2.length = w := by
    intro k
    unfold oneSimulation
    cases apply
    · exact ⟨sim k, by simp, hcols k⟩
    · have hne : (sim k).2 ≠ [] := by
        intro h; have := hcols k; rw [h] at this; simp at this; omega
      simp only [if_true, Bool.false_eq_true, if_false, List.getLast?_eq_getLast_of_ne_nil hne]
      exact ⟨_, rfl, by simp [hcols k]⟩
  have hloop : ∀ n k pile, (∀ r ∈ pile, r.length = w) → ∃ r, simLoop sim false apply n k pile = .ok r ∧
      r.2.length = pile.length + n ∧ ∀ q ∈ r.2, q.length = w := by
    intro n
    induction n with
    | zero => intro k pile hp; exact ⟨_, rfl, by simp, hp⟩
    | succ n ih =>
      intro k pile hp
      obtain ⟨r, hr, hrl⟩ := hone k
      obtain ⟨r', h1, h2, h3⟩ := ih r.1 (pile ++ [r.2]) (by
        intro q hq
        rcases List.mem_append.1 hq with hq | hq
        · exact hp q hq
        · rw [List.mem_singleton.1 hq]; exact hrl)
      exact ⟨r', by simp [simLoop, hr, bind, Except.bind, h1], by rw [h2]; simp; omega, h3⟩
  obtain ⟨⟨k', pile⟩, h1, h2, h3⟩ := hloop times.toNat key [] (by simp)
  simp only at h2 h3
  have hlast : (pile.getLast?.getD []).length = w := by
    have hne : pile ≠ [] := by intro h; rw [h] at h2; simp at h2; omega
    rw [List.getLast?_eq_getLast_of_ne_nil hne]
    exact h3 _ (List.getLast_mem hne)
  have hm : (List.range w).mapM (hstackColumn pile) = .ok ((List.range w).map (fun i => (pile.map (fun r => r[i]?.getD [])).flatten)) := by
    apply mapM_ok_of_forall
    intro i hi
    have : pile.mapM (columnAt i) = .ok (pile.map (fun r => r[i]?.getD [])) := by
      apply mapM_ok_of_forall
      intro r hr
      have : i < r.length := by rw [h3 r hr]; simpa using hi
      simp [columnAt, this]
    unfold hstackColumn
    rw [this]; rfl
  refine ⟨(k', (List.range w).map (fun i => (pile.map (fun r => r[i]?.getD [])).flatten)), ?_, ?_⟩
  · unfold multipleSimulations
    rw [if_neg (not_le.2 ht), h1]
    simp only [bind, Except.bind, hlast]
    rw [hm]
    rfl
  · simp

/-- Non-vacuity of C20: three batches, the key counting up; efficiency 0 on even keys. -/
def exSim (k : ℕ) : ℕ × List (List ℚ) := (k + 1, [[(k : ℚ), (k : ℚ) + 10], [if k % 2 = 0 then 0 else 1, 1]])

example : multipleSimulations exSim false false 3 0 = .ok (3, [[0, 10, 1, 11, 2, 12], [0, 1, 1, 1, 0, 1]]) ∧
    multipleSimulations exSim false true 3 0 = .ok (3, [[10, 1, 11, 12], [1, 1, 1, 1]]) := by
  constructor <;> decide +kernel

end
end Verif.Comp
