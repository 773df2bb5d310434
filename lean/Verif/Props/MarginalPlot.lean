/-
C139: the marginal plot of a fit.
-/
import Verif.Lemmas.MarginalPlot
import Verif.Props.ShippedPars

namespace Verif.Plot
open Verif Parameter

/-- The panels of a figure. -/
theorem panels_of {sig : Solver} {config : Config} {names : List String} {flat : List (List ℝ)} {bins : Nat} {fig : MarginPlot}
    (h : plotMarginalPosterior sig config names flat bins = .ok fig) :
    0 < bins ∧ names ≠ [] ∧ fig.panels.length = names.length ∧ (∃ p, fig.panels.getLast? = some p ∧ fig.legend = p.labels) ∧
      ∀ (i : Nat) p, fig.panels[i]? = some p → ∃ name, names[i]? = some name ∧ marginPanel sig config bins names.length flat i name = .ok p := by
  unfold plotMarginalPosterior at h
  simp only [bind, Except.bind, pure, Except.pure] at h
  split at h
  · cases h
  · rename_i panels hp
    obtain ⟨hl, hg⟩ := mapM_ok_get _ _ _ hp
    have hl' : panels.length = names.length := by simpa using hl
    have hg' : ∀ (i : Nat) p, panels[i]? = some p → ∃ name, names[i]? = some name ∧ marginPanel sig config bins names.length flat i name = .ok p := by
      intro i p hi
      obtain ⟨⟨name, k⟩, h1, h2⟩ := hg i p hi
      rw [List.getElem?_zipIdx] at h1
      cases hn : names[i]? with
      | none => rw [hn] at h1; cases h1
      | some nm =>
        rw [hn] at h1
        simp only [Option.map_some, Option.some.injEq, Prod.mk.injEq] at h1
        obtain ⟨rfl, rfl⟩ := h1
        exact ⟨nm, rfl, by simpa using h2⟩
    split at h
    · cases h
    · rename_i p hlast
      cases h
      have hmem := List.mem_of_getLast? hlast
      obtain ⟨i, hi⟩ := List.mem_iff_getElem?.1 hmem
      obtain ⟨name, hn, hm⟩ := hg' i p hi
      refine ⟨?_, ?_, hl', ⟨p, hlast, rfl⟩, hg'⟩
      · by_contra hc
        have : bins = 0 := by omega
        subst this
        simp [marginPanel, bind, Except.bind, throw, throwThe, MonadExceptOf.throw] at hm
      · rintro rfl
        simp at hn

theorem panel_of {sig : Solver} {config : Config} {bins n : Nat} {flat : List (List ℝ)} {i : Nat} {name : String} {p : MarginPanel}
    (h : marginPanel sig config bins n flat i name = .ok p) : ∃ cv, marginalCurve sig config name = .ok cv ∧
      p = ⟨(marginRows n, 2), i + 1, name, barEdges bins (column flat i), barHeights bins (column flat i), cv⟩ := by
  unfold marginPanel at h
  by_cases hb : bins = 0
  · simp [hb, bind, Except.bind, throw, throwThe, MonadExceptOf.throw] at h
  · simp only [hb, if_false, bind, Except.bind, pure, Except.pure] at h
    split at h
    · cases h
    · rename_i cv hcv
      cases h
      exact ⟨cv, hcv, rfl⟩

/-- **C139 (made).** For a fit of at least one parameter, whose priors can all be drawn, the figure is made.  It has one panel for each
parameter, in order and labelled with its name, in a grid with two columns that holds all panels and has no empty row; the curve in it is that of
the prior of the parameter. -/
theorem C139_made (sig : Solver) (config : Config) (names : List String) (flat : List (List ℝ)) (bins : Nat) (hb : 0 < bins) (hne : names ≠ [])
    (hc : ∀ name ∈ names, ∃ cv, marginalCurve sig config name = .ok cv) :
    ∃ fig, plotMarginalPosterior sig config names flat bins = .ok fig ∧ fig.panels.map MarginPanel.name = names ∧
      ∀ (i : Nat) p, fig.panels[i]? = some p → p.place = i + 1 ∧ p.grid.2 = 2 ∧ names.length ≤ p.grid.1 * p.grid.2 ∧ (p.grid.1 - 1) * p.grid.2 < names.length ∧
        marginalCurve sig config p.name = .ok p.prior := by
  choose! cv hcv using hc
  have hm : names.zipIdx.mapM (fun e => marginPanel sig config bins names.length flat e.2 e.1) =
      .ok (names.zipIdx.map (fun e => ⟨(marginRows names.length, 2), e.2 + 1, e.1, barEdges bins (column flat e.2),
        barHeights bins (column flat e.2), cv e.1⟩)) := by
    refine mapM_ok_of_forall _ _ _ fun e he => ?_
    have hmem : e.1 ∈ names := by
      obtain ⟨a, b⟩ := e
      exact (List.mem_zipIdx' he).2 ▸ List.getElem_mem _
    simp [marginPanel, hb.ne', hcv e.1 hmem, bind, Except.bind, pure, Except.pure]
  cases hl : (names.zipIdx.map (fun e => (⟨(marginRows names.length, 2), e.2 + 1, e.1, barEdges bins (column flat e.2),
        barHeights bins (column flat e.2), cv e.1⟩ : MarginPanel))).getLast? with
  | none =>
    rw [List.getLast?_eq_none_iff, List.map_eq_nil_iff, List.zipIdx_eq_nil_iff] at hl
    exact absurd hl hne
  | some p =>
    have hfig : plotMarginalPosterior sig config names flat bins = .ok ⟨names.zipIdx.map (fun e => ⟨(marginRows names.length, 2), e.2 + 1, e.1,
        barEdges bins (column flat e.2), barHeights bins (column flat e.2), cv e.1⟩), p.labels⟩ := by
      unfold plotMarginalPosterior
      simp only [hm, bind, Except.bind, pure, Except.pure, hl]
    refine ⟨_, hfig, ?_, ?_⟩
    · rw [List.map_map]
      change names.zipIdx.map Prod.fst = names
      exact List.zipIdx_map_fst 0 names
    · intro i q hq
      rw [List.getElem?_map, List.getElem?_zipIdx] at hq
      cases hn : names[i]? with
      | none => rw [hn] at hq; cases hq
      | some nm =>
        rw [hn] at hq
        simp only [Option.map_some, Option.some.injEq] at hq
        subst hq
        have := List.length_pos_iff.2 hne
        refine ⟨by simp, rfl, ?_, ?_, hcv nm (List.mem_of_getElem? hn)⟩
        · simp only [marginRows]; omega
        · simp only [marginRows]; omega

/-- **C139 (bars).** In a figure of a chain with samples, each panel has the asked number of bars of equal width from the smallest to the
largest value of its parameter, or half a unit around it if there is only one value.  The area of a bar is the share of the samples in it, and the
area of all bars is one. -/
theorem C139_bars (sig : Solver) (config : Config) (names : List String) (flat : List (List ℝ)) (bins : Nat) (fig : MarginPlot)
    (h : plotMarginalPosterior sig config names flat bins = .ok fig) (hf : flat ≠ []) (i : Nat) (p : MarginPanel) (hp : fig.panels[i]? = some p) :
    ∃ (lo w : ℝ) (hs : List ℝ), 0 < w ∧ p.edges = (List.range (bins + 1)).map (fun j : Nat => lo + w * j) ∧
      p.heights = hs.map some ∧ hs.length = bins ∧ (∀ row ∈ flat, lo ≤ row.getD i 0 ∧ row.getD i 0 ≤ lo + w * bins) ∧
      (∀ (j : Nat) v, hs[j]? = some v →
        w * v = (samplesIn (flat.map (fun row => row.getD i 0)) (lo + w * j) (lo + w * (j + 1)) (j + 1 = bins) : ℝ) / flat.length) ∧
      barArea w hs = 1 ∧
      ((∃ r ∈ flat, ∃ r' ∈ flat, r.getD i 0 ≠ r'.getD i 0) → (∃ r ∈ flat, r.getD i 0 = lo) ∧ ∃ r ∈ flat, r.getD i 0 = lo + w * bins) ∧
      (∀ a, (∀ r ∈ flat, r.getD i 0 = a) → lo = a - 1 / 2 ∧ lo + w * bins = a + 1 / 2) := by
  obtain ⟨hb, _, _, _, hg⟩ := panels_of h
  obtain ⟨name, _, hm⟩ := hg i p hp
  obtain ⟨cv, _, rfl⟩ := panel_of hm
  obtain ⟨lo, w, hs, a1, a2, a3, a4, a5, a6, a7, a8, a9⟩ := hist_bars bins hb (column flat i) (by simpa [column] using hf)
  refine ⟨lo, w, hs, a1, a2, a3, a4, fun row hr => a5 _ (List.mem_map.2 ⟨row, hr, rfl⟩), fun j v hv => ?_, a7, ?_, ?_⟩
  · have := a6 j v hv
    rw [this]
    simp [column]
  · rintro ⟨r, hr, r', hr', hne⟩
    obtain ⟨b1, b2⟩ := a8 ⟨_, List.mem_map.2 ⟨r, hr, rfl⟩, _, List.mem_map.2 ⟨r', hr', rfl⟩, hne⟩
    exact ⟨List.mem_map.1 b1, List.mem_map.1 b2⟩
  · intro a ha
    refine a9 a fun x hx => ?_
    obtain ⟨r, hr, rfl⟩ := List.mem_map.1 hx
    exact ha r hr

/-- **C139 (no samples).** If no sample is left, no bar of any panel has a height. -/
theorem C139_no_samples (sig : Solver) (config : Config) (names : List String) (bins : Nat) (fig : MarginPlot)
    (h : plotMarginalPosterior sig config names [] bins = .ok fig) : ∀ p ∈ fig.panels, p.heights = List.replicate bins none := by
  intro p hp
  obtain ⟨_, _, _, _, hg⟩ := panels_of h
  obtain ⟨i, hi⟩ := List.mem_iff_getElem?.1 hp
  obtain ⟨name, _, hm⟩ := hg i p hi
  obtain ⟨cv, _, rfl⟩ := panel_of hm
  exact hist_bars_nil bins

/-- **C139 (legend, part).** If the last parameter has a curve for its prior, or none of them has, the legend names exactly what is drawn in some
panel. -/
theorem C139_legend_partial (sig : Solver) (config : Config) (names : List String) (flat : List (List ℝ)) (bins : Nat) (fig : MarginPlot)
    (h : plotMarginalPosterior sig config names flat bins = .ok fig)
    (hlast : (∃ p, fig.panels.getLast? = some p ∧ p.prior.isSome) ∨ ∀ p ∈ fig.panels, p.prior = none) :
    ∀ l, l ∈ fig.legend ↔ ∃ p ∈ fig.panels, l ∈ p.labels := by
  obtain ⟨_, _, _, ⟨q, hq, hleg⟩, _⟩ := panels_of h
  intro l
  rw [hleg]
  refine ⟨fun hl => ⟨q, List.mem_of_getLast? hq, hl⟩, ?_⟩
  rintro ⟨p, hp, hl⟩
  rcases hlast with ⟨p', hp', hs⟩ | hnone
  · rw [hq] at hp'
    cases hp'
    unfold MarginPanel.labels at hl ⊢
    rw [if_pos hs]
    split at hl
    · exact hl
    · simp only [List.mem_cons, List.not_mem_nil, or_false] at hl
      simp [hl]
  · unfold MarginPanel.labels at hl ⊢
    rw [hnone q (List.mem_of_getLast? hq)]
    rw [hnone p hp] at hl
    exact hl

/-- **C139 (violated: legend).** If the last parameter is free, the legend does not name the priors that are drawn for the others. -/
theorem C139_legend (sig : Solver) (config : Config) (names : List String) (flat : List (List ℝ)) (bins : Nat) (fig : MarginPlot)
    (h : plotMarginalPosterior sig config names flat bins = .ok fig) (last : String) (hl : names.getLast? = some last)
    (s : Setting) (hs : config.get? last = some s) (hfree : s.prior = .free) (p : MarginPanel) (hp : p ∈ fig.panels) (hpr : p.prior.isSome) :
    "Prior" ∈ p.labels ∧ "Prior" ∉ fig.legend := by
  obtain ⟨_, _, hlen, ⟨q, hq, hleg⟩, hg⟩ := panels_of h
  refine ⟨by simp [MarginPanel.labels, hpr], ?_⟩
  rw [List.getLast?_eq_getElem?, hlen] at hq
  rw [List.getLast?_eq_getElem?] at hl
  obtain ⟨name, hn, hm⟩ := hg _ q hq
  rw [hl] at hn
  cases hn
  obtain ⟨cv, hcv, rfl⟩ := panel_of hm
  have : cv = none := by
    simp only [marginalCurve, PyDict.getItem, hs, hfree, bind, Except.bind, pure, Except.pure] at hcv
    exact (Except.ok.inj hcv).symm
  subst this
  rw [hleg]
  simp [MarginPanel.labels]

/-- **C139 (refused).** Without a parameter, without bars, or if the prior of a parameter cannot be drawn (an unknown or fixed one, an interval
of no width, errors that no two half normal distributions have), no figure is made. -/
theorem C139_refused (sig : Solver) (config : Config) (names : List String) (flat : List (List ℝ)) (bins : Nat)
    (h : names = [] ∨ bins = 0 ∨ ∃ name ∈ names, ∃ e, marginalCurve sig config name = .error e) :
    ∃ e, plotMarginalPosterior sig config names flat bins = .error e := by
  cases hf : plotMarginalPosterior sig config names flat bins with
  | error e => exact ⟨e, rfl⟩
  | ok fig =>
    obtain ⟨hb, hne, hlen, _, hg⟩ := panels_of hf
    rcases h with h | h | ⟨name, hn, e, he⟩
    · exact absurd h hne
    · omega
    · obtain ⟨i, hi⟩ := List.mem_iff_getElem?.1 hn
      have hlt : i < fig.panels.length := by
        rw [hlen]
        by_contra hc
        rw [List.getElem?_eq_none (by omega)] at hi
        cases hi
      obtain ⟨nm, hn', hm⟩ := hg i _ (List.getElem?_eq_getElem hlt)
      rw [hi] at hn'
      cases hn'
      obtain ⟨cv, hcv, _⟩ := panel_of hm
      rw [he] at hcv
      cases hcv

/-- The last of a sorted list. -/
theorem last_sorted {l : List String} (hs : l.Pairwise (fun a b => decide (a ≤ b) = true)) {m : String} (hm : m ∈ l) (hall : ∀ x ∈ l, x ≤ m) :
    l.getLast? = some m := by
  induction l with
  | nil => cases hm
  | cons a l ih =>
    cases l with
    | nil => rw [List.mem_singleton.1 hm]; rfl
    | cons b l =>
      rw [List.getLast?_cons_cons]
      obtain ⟨h1, h2⟩ := List.pairwise_cons.1 hs
      refine ih h2 ?_ (fun x hx => hall x (by simp only [List.mem_cons] at hx ⊢; tauto))
      rcases List.mem_cons.1 hm with rfl | hm
      · have e1 : m ≤ b := by simpa using h1 b (by simp)
        have e2 := hall b (by simp)
        rw [le_antisymm e1 e2]
        simp
      · exact hm

/-- **C139 (violated: the shipped nuclear recoil fit).** For a fit of the parameters of nr_low.json the figure is made; it shows the priors of g1
and of six others, and its legend does not name them. -/
theorem C139_nuclear_recoils (sig : Solver) (pm : PM) (hr : Reachable (ShippedPars.config ShippedPars.file_nr_low) pm) (flat : List (List ℝ)) :
    ∃ fig, plotMarginalPosterior sig pm.config (parameterFit pm) flat = .ok fig ∧ "Prior" ∉ fig.legend ∧
      ∀ name ∈ ["elife_sigma", "g1", "g2", "p_dpe", "s1_cut_acc_sigma", "s1_eff_3f_sigma", "s2_cut_acc_sigma"],
        ∃ p ∈ fig.panels, p.name = name ∧ "Prior" ∈ p.labels := by
  have hk : (ShippedPars.config ShippedPars.file_nr_low).keys.Nodup := by
    rw [ShippedPars.config_keys]
    decide +kernel
  have hcfg : pm.config = ShippedPars.config ShippedPars.file_nr_low := hr.inv.1
  have hget : ∀ n e, ShippedPars.file_nr_low.get? n = some e → pm.config.get? n = some e.setting := by
    intro n e he
    rw [hcfg]
    have : ∀ f : PyDict String ShippedPars.Entry, PyDict.get? f n = some e → PyDict.get? (ShippedPars.config f) n = some e.setting := by
      intro f
      induction f with
      | nil => simp [PyDict.get?_nil]
      | cons a f ih =>
        intro h
        rw [PyDict.get?_cons] at h
        simp only [ShippedPars.config, List.map_cons, PyDict.get?_cons]
        split at h
        · rename_i hk
          cases h
          simp [hk]
        · rename_i hk
          simp only [hk]
          exact ih h
    exact this _ he
  have table : ∀ e ∈ ShippedPars.file_nr_low, (e.2.type = "fixed" ∧ e.2.args.map Prod.fst = ["val"]) ∨ (e.2.type = "free" ∧ e.1 ≤ "t_qy") ∨
      (e.2.type = "norm" ∧ e.2.args.map Prod.fst = ["mean", "std"] ∧ e.1 ≤ "t_qy") := by decide +kernel
  have fixed : ∀ e : ShippedPars.Entry, e.type = "fixed" → e.args.map Prod.fst = ["val"] → ∃ v, e.setting.prior = .fixed v := by
    rintro ⟨t, args, al, ini⟩ h1 h2
    match args, h2 with
    | [(k, v)], h2' =>
      simp only [List.map_cons, List.map_nil, List.cons.injEq, and_true] at h1 h2'
      subst h1 h2'
      exact ⟨v, by simp [ShippedPars.Entry.setting, ShippedPars.Entry.prior, PyDict.get?_cons]⟩
  have normal : ∀ e : ShippedPars.Entry, e.type = "norm" → e.args.map Prod.fst = ["mean", "std"] → ∃ m sd, e.setting.prior = .norm m sd := by
    rintro ⟨t, args, al, ini⟩ h1 h2
    match args, h2 with
    | [(k, v), (k', v')], h2' =>
      simp only [List.map_cons, List.map_nil, List.cons.injEq, and_true] at h1 h2'
      obtain ⟨h3, h4⟩ := h2'
      subst h1 h3 h4
      exact ⟨v, v', by simp [ShippedPars.Entry.setting, ShippedPars.Entry.prior, PyDict.get?_cons]⟩
  have free : ∀ e : ShippedPars.Entry, e.type = "free" → e.setting.prior = .free := by
    intro e h
    simp [ShippedPars.Entry.setting, ShippedPars.Entry.prior, h]
  have fits : ∀ n ∈ parameterFit pm, n ≤ "t_qy" ∧ ∃ cv, marginalCurve sig pm.config n = .ok cv := by
    intro n hn
    obtain ⟨s, hs, hnf⟩ := (mem_parameterFit hr.inv hk n).1 hn
    obtain ⟨e, he, rfl⟩ := ShippedPars.config_get _ _ _ hs
    have hs' := hget n e he
    rcases table _ (PyDict.mem_of_get? _ he) with ⟨h1, h2⟩ | ⟨h1, h2⟩ | ⟨h1, h2, h3⟩
    · obtain ⟨v, hv⟩ := fixed e h1 h2
      rw [hv] at hnf
      cases hnf
    · exact ⟨h2, none, by simp only [marginalCurve, PyDict.getItem, hs', free e h1, bind, Except.bind, pure, Except.pure]⟩
    · obtain ⟨m, sd, hv⟩ := normal e h1 h2
      exact ⟨h3, some (normPdf m sd), by simp only [marginalCurve, PyDict.getItem, hs', hv, bind, Except.bind, pure, Except.pure]⟩
  have inFit : ∀ n e, ShippedPars.file_nr_low.get? n = some e → e.setting.prior.isFixed = false → n ∈ parameterFit pm := by
    intro n e he hf
    exact (mem_parameterFit hr.inv hk n).2 ⟨_, by rw [← hcfg]; exact hget n e he, hf⟩
  have hfree : ∃ e, ShippedPars.file_nr_low.get? "t_qy" = some e ∧ e.type = "free" := by
    refine ⟨_, rfl, rfl⟩
  obtain ⟨ef, hef, htf⟩ := hfree
  have hlast : "t_qy" ∈ parameterFit pm := inFit _ ef hef (by rw [free ef htf]; rfl)
  have hsorted : (parameterFit pm).Pairwise (fun a b => decide (a ≤ b) = true) := by
    unfold parameterFit
    refine List.pairwise_mergeSort (fun a b c h1 h2 => ?_) (fun a b => ?_) _
    · simp only [decide_eq_true_eq] at h1 h2 ⊢; exact le_trans h1 h2
    · simpa using le_total a b
  obtain ⟨fig, hfig, hnames, hall⟩ := C139_made sig pm.config (parameterFit pm) flat 50 (by norm_num) (List.ne_nil_of_mem hlast) (fun n hn => (fits n hn).2)
  have shown : ∀ name ∈ ["elife_sigma", "g1", "g2", "p_dpe", "s1_cut_acc_sigma", "s1_eff_3f_sigma", "s2_cut_acc_sigma"],
      ∃ p ∈ fig.panels, p.name = name ∧ p.prior.isSome := by
    intro name hname
    have hn : ∃ e, ShippedPars.file_nr_low.get? name = some e ∧ e.type = "norm" := by
      simp only [List.mem_cons, List.not_mem_nil, or_false] at hname
      rcases hname with rfl | rfl | rfl | rfl | rfl | rfl | rfl <;> exact ⟨_, rfl, rfl⟩
    obtain ⟨e, he, ht⟩ := hn
    have hmem := PyDict.mem_of_get? _ he
    have hargs : e.args.map Prod.fst = ["mean", "std"] := by
      rcases table _ hmem with ⟨h1, _⟩ | ⟨h1, _⟩ | ⟨_, h2, _⟩
      · rw [ht] at h1; exact absurd h1 (by decide)
      · rw [ht] at h1; exact absurd h1 (by decide)
      · exact h2
    obtain ⟨m, sd, hv⟩ := normal e ht hargs
    have hin := inFit name e he (by rw [hv]; rfl)
    rw [← hnames] at hin
    obtain ⟨p, hp, rfl⟩ := List.mem_map.1 hin
    obtain ⟨i, hi⟩ := List.mem_iff_getElem?.1 hp
    refine ⟨p, hp, rfl, ?_⟩
    have := (hall i p hi).2.2.2.2
    simp only [marginalCurve, PyDict.getItem, hget _ e he, hv, bind, Except.bind, pure, Except.pure] at this
    rw [← Except.ok.inj this]
    rfl
  have leg := fun p hp hpr => C139_legend sig pm.config (parameterFit pm) flat 50 fig hfig "t_qy"
    (last_sorted hsorted hlast (fun n hn => (fits n hn).1)) _ (hget _ _ hef) (free ef htf) p hp hpr
  refine ⟨fig, hfig, ?_, ?_⟩
  · obtain ⟨p, hp, _, hpr⟩ := shown "g1" (by simp)
    exact (leg p hp hpr).2
  · intro name hname
    obtain ⟨p, hp, e, hpr⟩ := shown name hname
    exact ⟨p, hp, e, (leg p hp hpr).1⟩

/-! ### Concrete cases -/

/-- Non-vacuity: a fit of two parameters, the second of them free, with three samples: the figure is made, the bars of the first
panel have area one, and the prior drawn there is missing in the legend. -/
example : ∃ fig, plotMarginalPosterior (fun _ => none) [("a", ⟨.norm 0 2, some (0, 2), none⟩), ("b", ⟨.free, some (0, 2), none⟩)] ["a", "b"]
    [[0, 1], [1, 1], [2, 1]] 2 = .ok fig ∧ "Prior" ∉ fig.legend ∧ ∃ p, fig.panels[0]? = some p ∧ "Prior" ∈ p.labels ∧
      ∃ (w : ℝ) (hs : List ℝ), 0 < w ∧ p.heights = hs.map some ∧ hs.length = 2 ∧ barArea w hs = 1 := by
  obtain ⟨fig, h, hn, hall⟩ := C139_made (fun _ => none) [("a", ⟨.norm 0 2, some (0, 2), none⟩), ("b", ⟨.free, some (0, 2), none⟩)] ["a", "b"]
    [[0, 1], [1, 1], [2, 1]] 2 (by norm_num) (by simp) (by
      intro name hname
      simp only [List.mem_cons, List.not_mem_nil, or_false] at hname
      rcases hname with rfl | rfl
      · exact ⟨some (normPdf 0 2), rfl⟩
      · exact ⟨none, rfl⟩)
  have hlen : fig.panels.length = 2 := by
    have := congrArg List.length hn
    simpa using this
  have hp : fig.panels[0]? = some (fig.panels[0]'(by omega)) := List.getElem?_eq_getElem (by omega)
  have hname : (fig.panels[0]'(by omega)).name = "a" := by
    have := congrArg (fun l => l[0]?) hn
    simpa [hp] using this
  have hc := (hall 0 _ hp).2.2.2.2
  rw [hname] at hc
  have hpr : (fig.panels[0]'(by omega)).prior.isSome := by
    have : (Except.ok (some (normPdf 0 2)) : Res (Option Curve)) = .ok (fig.panels[0]'(by omega)).prior := hc
    rw [← Except.ok.inj this]
    rfl
  obtain ⟨hl, hleg⟩ := C139_legend _ _ _ _ _ fig h "b" rfl ⟨.free, some (0, 2), none⟩ rfl rfl _ (List.mem_of_getElem? hp) hpr
  obtain ⟨lo, w, hs, hw, _, hh, hlen', _, _, harea, _⟩ := C139_bars _ _ _ _ _ fig h (by simp) 0 _ hp
  exact ⟨fig, h, hleg, _, hp, hl, w, hs, hw, hh, hlen', harea⟩

/-- Non-vacuity: the shipped file of parameters for nuclear recoils has a reachable state. -/
example : ∃ pm, Reachable (ShippedPars.config ShippedPars.file_nr_low) pm := ⟨_, fun _ => none, fun _ => 1, [], rfl⟩

end Verif.Plot
