/-
C137: the corner plot of a fit.
-/
import Verif.Lemmas.Corner
import Verif.Props.Files
import Verif.Base.MapM

namespace Verif.Plot
open Verif

theorem cornerColumns_getD (n : Nat) (flat : List (List ℝ)) (post prior : List ℝ) (c : Nat) (hc : c < n + 2) :
    (cornerColumns n flat post prior).getD c [] = shown n flat post prior c := by
  unfold cornerColumns shown
  rw [List.getD_eq_getElem?_getD]
  by_cases h : c < n
  · rw [List.getElem?_append_left (by simpa using h), List.getElem?_map, List.getElem?_range h, if_pos h]
    rfl
  · rw [List.getElem?_append_right (by simpa using h), if_neg h, List.length_map, List.length_range]
    rcases (by omega : c = n ∨ c = n + 1) with rfl | rfl
    · simp
    · simp

theorem cornerColumns_length (n : Nat) (flat : List (List ℝ)) (post prior : List ℝ) : (cornerColumns n flat post prior).length = n + 2 := by
  simp [cornerColumns]

theorem mem_cornerColumns (n : Nat) (flat : List (List ℝ)) (post prior : List ℝ) (x : List ℝ) :
    x ∈ cornerColumns n flat post prior ↔ ∃ c < n + 2, x = shown n flat post prior c := by
  constructor
  · intro h
    obtain ⟨c, hc, rfl⟩ := List.getElem_of_mem h
    rw [cornerColumns_length] at hc
    refine ⟨c, hc, ?_⟩
    rw [← cornerColumns_getD n flat post prior c hc, List.getD_eq_getElem?_getD, List.getElem?_eq_getElem]
    rfl
  · rintro ⟨c, hc, rfl⟩
    rw [← cornerColumns_getD n flat post prior c hc, List.getD_eq_getElem?_getD,
      List.getElem?_eq_getElem (by rw [cornerColumns_length]; exact hc)]
    exact List.getElem_mem _

theorem cornerChecks_ok_iff (n : Nat) (flat : List (List ℝ)) (post prior : List ℝ) :
    cornerChecks (cornerColumns n flat post prior) flat.length = .ok () ↔
      n + 2 ≤ flat.length ∧ ∀ c < n + 2, Varies (shown n flat post prior c) := by
  unfold cornerChecks
  rw [cornerColumns_length]
  by_cases h : flat.length < n + 2
  · rw [if_pos h]
    constructor
    · intro h'; cases h'
    · rintro ⟨h', _⟩; omega
  · rw [if_neg h]
    constructor
    · intro h'
      refine ⟨by omega, fun c hc => ?_⟩
      by_contra hv
      rw [if_pos] at h'
      · cases h'
      · refine ⟨_, (mem_cornerColumns n flat post prior _).2 ⟨c, hc, rfl⟩, ?_⟩
        unfold Varies at hv
        push Not at hv
        exact hv
    · rintro ⟨_, hv⟩
      rw [if_neg]
      rintro ⟨x, hx, hx'⟩
      obtain ⟨c, hc, rfl⟩ := (mem_cornerColumns n flat post prior x).1 hx
      obtain ⟨a, ha, b, hb, hne⟩ := hv c hc
      exact hne (hx' a ha b hb)

theorem plotCorner_ok {sig : Parameter.Solver} {config : Parameter.Config} {names : List String} {flat : List (List ℝ)}
    {post prior mpe : List ℝ} {pl : CornerPlot} (h : plotCorner sig config names flat post prior mpe = .ok pl) :
    cornerChecks (cornerColumns names.length flat post prior) flat.length = .ok () ∧
      pl.labels = names ++ ["log posterior", "log prior"] ∧
      pl.labels.mapM (cornerDiagonal sig config names mpe) = .ok pl.diagonal ∧
      pl.colours = (List.range (names.length + 2)).map (fun yi => (List.range yi).map (fun xi =>
        corrcoef ((cornerColumns names.length flat post prior).getD yi []) ((cornerColumns names.length flat post prior).getD xi []))) := by
  unfold plotCorner at h
  simp only [bind, Except.bind] at h
  split at h
  · cases h
  · rename_i u hu
    split at h
    · cases h
    · rename_i d hd
      cases h
      exact ⟨hu, rfl, hd, rfl⟩

/-- **C137 (colours).** Below the diagonal the colour of the panel of two columns is the place of their correlation coefficient on a
scale from -1 to 1: never off the scale, and at an end exactly if one column is an increasing, or decreasing, linear function of the
other. -/
theorem C137_colours (sig : Parameter.Solver) (config : Parameter.Config) (names : List String) (flat : List (List ℝ))
    (post prior mpe : List ℝ) (hpost : post.length = flat.length) (hprior : prior.length = flat.length) (pl : CornerPlot)
    (h : plotCorner sig config names flat post prior mpe = .ok pl) (y x : Nat) (hy : y < names.length + 2) (hx : x < y) :
    ∃ r, (pl.colours.getD y [])[x]? = some (.fin r) ∧ -1 ≤ r ∧ r ≤ 1 ∧
      r = correlation (shown names.length flat post prior y) (shown names.length flat post prior x) ∧
      (r = 1 ↔ ∃ a b, 0 < a ∧ shown names.length flat post prior x = (shown names.length flat post prior y).map (fun v => a * v + b)) ∧
      (r = -1 ↔ ∃ a b, a < 0 ∧ shown names.length flat post prior x = (shown names.length flat post prior y).map (fun v => a * v + b)) := by
  obtain ⟨h1, _, _, h4⟩ := plotCorner_ok h
  obtain ⟨_, hv⟩ := (cornerChecks_ok_iff _ _ _ _).1 h1
  have hlen : ∀ c, (shown names.length flat post prior c).length = flat.length := by
    intro c
    unfold shown
    split_ifs
    · simp
    · exact hpost
    · exact hprior
  have hl : (shown names.length flat post prior y).length = (shown names.length flat post prior x).length := by rw [hlen, hlen]
  refine ⟨_, ?_, (correlation_bounds _ _ hl).1, (correlation_bounds _ _ hl).2, rfl,
    (correlation_one_iff _ _ hl (hv y hy) (hv x (by omega))).1, (correlation_one_iff _ _ hl (hv y hy) (hv x (by omega))).2⟩
  rw [h4, List.getD_eq_getElem?_getD, List.getElem?_map, List.getElem?_range hy]
  simp only [Option.map_some, Option.getD_some]
  rw [List.getElem?_map, List.getElem?_range hx]
  simp only [Option.map_some]
  rw [cornerColumns_getD _ _ _ _ _ hy, cornerColumns_getD _ _ _ _ _ (by omega : x < names.length + 2), corrcoef_eq _ _ hl (hv y hy) (hv x (by omega))]

/-- **C137 (diagonal).** On the diagonal every parameter has a line at its value in the best fit and the curve of its prior, under its
own name; the last two panels, for the log posterior and the log prior, have neither. -/
theorem C137_diagonal (sig : Parameter.Solver) (config : Parameter.Config) (names : List String) (flat : List (List ℝ))
    (post prior mpe : List ℝ) (hnd : names.Nodup) (hmpe : mpe.length = names.length) (hcfg : ∀ n ∈ names, (config.get? n).isSome)
    (hno : config.get? "log posterior" = none ∧ config.get? "log prior" = none) (pl : CornerPlot)
    (h : plotCorner sig config names flat post prior mpe = .ok pl) :
    pl.labels = names ++ ["log posterior", "log prior"] ∧ pl.diagonal.length = names.length + 2 ∧
      (∀ (i : Nat) (key : String), names[i]? = some key → ∃ v curve, mpe[i]? = some v ∧ cornerCurve sig config key = .ok curve ∧
        pl.diagonal[i]? = some (some v, curve)) ∧
      pl.diagonal[names.length]? = some (none, none) ∧ pl.diagonal[names.length + 1]? = some (none, none) := by
  obtain ⟨_, hlab, hdiag, _⟩ := plotCorner_ok h
  rw [hlab] at hdiag
  obtain ⟨hl, hg⟩ := mapM_ok_get _ _ _ hdiag
  have hl' : pl.diagonal.length = names.length + 2 := by simpa using hl
  have hat : ∀ (c : Nat) (key : String), (names ++ ["log posterior", "log prior"])[c]? = some key → ∃ d, pl.diagonal[c]? = some d ∧
      cornerDiagonal sig config names mpe key = .ok d := by
    intro c key hc
    have hc' : c < pl.diagonal.length := by
      rw [hl]
      exact (List.getElem?_eq_some_iff.1 hc).1
    obtain ⟨a, ha, hd⟩ := hg c _ (List.getElem?_eq_getElem hc')
    rw [hc] at ha
    cases ha
    exact ⟨_, List.getElem?_eq_getElem hc', hd⟩
  refine ⟨hlab, hl', fun i key hi => ?_, ?_, ?_⟩
  · have hi' : i < names.length := (List.getElem?_eq_some_iff.1 hi).1
    obtain ⟨d, hd, hd'⟩ := hat i key (by rw [List.getElem?_append_left hi']; exact hi)
    have hmem : key ∈ names := List.mem_of_getElem? hi
    obtain ⟨s, hs⟩ := Option.isSome_iff_exists.1 (hcfg key hmem)
    have hv : mpe[i]? = some mpe[i] := List.getElem?_eq_getElem (by omega)
    have hmap : (names.zip mpe).map Prod.fst = names := by
      rw [List.map_fst_zip]
      omega
    have hget : (PyDict.ofList (names.zip mpe)).getItem key = .ok mpe[i] := by
      have hkeys : ((names.zip mpe).map Prod.fst).Nodup := by rw [hmap]; exact hnd
      rw [PyDict.ofList_of_nodup _ hkeys, PyDict.getItem, PyDict.get?_of_mem _ hkeys]
      exact List.mem_of_getElem? (i := i) (List.getElem?_zip_eq_some.2 ⟨hi, hv⟩)
    unfold cornerDiagonal at hd'
    simp only [hs, hmem, if_true, hget, Except.map, bind, Except.bind, pure, Except.pure] at hd'
    split at hd'
    · cases hd'
    · rename_i curve hcurve
      cases hd'
      exact ⟨_, curve, hv, hcurve, hd⟩
  · obtain ⟨d, hd, hd'⟩ := hat names.length "log posterior" (by simp)
    unfold cornerDiagonal at hd'
    rw [hno.1] at hd'
    cases hd'
    exact hd
  · obtain ⟨d, hd, hd'⟩ := hat (names.length + 1) "log prior" (by simp)
    unfold cornerDiagonal at hd'
    rw [hno.2] at hd'
    cases hd'
    exact hd

/-- **C137 (made, part).** The plot is made whenever there are two more samples than parameters, none of the columns is constant, and
the curves of the priors can be drawn.  Missing: constant columns, see `C137_flat_priors`, and fewer samples, see `C137_few_samples`. -/
theorem C137_made_partial (sig : Parameter.Solver) (config : Parameter.Config) (names : List String) (flat : List (List ℝ))
    (post prior mpe : List ℝ) (hnd : names.Nodup) (hmpe : mpe.length = names.length) (hs : names.length + 2 ≤ flat.length)
    (hv : ∀ c < names.length + 2, Varies (shown names.length flat post prior c))
    (hcurve : ∀ key ∈ names ++ ["log posterior", "log prior"], ∃ curve, cornerCurve sig config key = .ok curve) :
    ∃ pl, plotCorner sig config names flat post prior mpe = .ok pl := by
  have hmap : (names.zip mpe).map Prod.fst = names := by
    rw [List.map_fst_zip]
    omega
  have hd : ∀ key ∈ names ++ ["log posterior", "log prior"], ∃ d, cornerDiagonal sig config names mpe key = .ok d := by
    intro key hkey
    obtain ⟨curve, hc⟩ := hcurve key hkey
    unfold cornerDiagonal
    cases hg : config.get? key with
    | none => exact ⟨_, rfl⟩
    | some s =>
      simp only [hc, bind, Except.bind]
      by_cases hmem : key ∈ names
      · have hkeys : ((names.zip mpe).map Prod.fst).Nodup := by rw [hmap]; exact hnd
        obtain ⟨v, hv⟩ := (PyDict.mem_keys_iff_exists (names.zip mpe) key).1 (by
          show key ∈ (names.zip mpe).map Prod.fst
          rw [hmap]
          exact hmem)
        rw [if_pos hmem, PyDict.ofList_of_nodup _ hkeys, PyDict.getItem, hv]
        exact ⟨_, rfl⟩
      · rw [if_neg hmem]
        exact ⟨_, rfl⟩
  choose! g hg using hd
  unfold plotCorner
  simp only [(cornerChecks_ok_iff _ _ _ _).2 ⟨hs, hv⟩, mapM_ok_of_forall _ g _ hg, bind, Except.bind]
  exact ⟨_, rfl⟩

/-- **C137 (violated: few samples).** With fewer samples than parameters plus two there is no plot. -/
theorem C137_few_samples (sig : Parameter.Solver) (config : Parameter.Config) (names : List String) (flat : List (List ℝ))
    (post prior mpe : List ℝ) (hs : flat.length < names.length + 2) :
    plotCorner sig config names flat post prior mpe = .error .assertionError := by
  unfold plotCorner cornerChecks
  simp only [cornerColumns_length, if_pos hs, bind, Except.bind]

/-- With free and uniform priors only, every finite log prior is zero. -/
theorem logPrior_flat (sig : Parameter.Solver) (pm : Parameter.PM) (order : List String)
    (hflat : ∀ n ∈ order, ∀ s, pm.config.get? n = some s → s.prior = .free ∨ ∃ l u, s.prior = .uniform l u) (v : ℝ)
    (h : Parameter.logPriorOver sig pm order = .ok (.fin v)) : v = 0 := by
  unfold Parameter.logPriorOver at h
  simp only [bind, Except.bind, pure, Except.pure] at h
  split at h
  · cases h
  · rename_i terms hterms
    have hall : ∀ t ∈ terms, t = .ninf ∨ t = .fin 0 := by
      intro t ht
      obtain ⟨i, hi, rfl⟩ := List.getElem_of_mem ht
      obtain ⟨a, ha, hv⟩ := (mapM_ok_get _ _ _ hterms).2 i _ (List.getElem?_eq_getElem hi)
      have hmem : a ∈ order := List.mem_of_getElem? ha
      split at hv
      · cases hv
      · split at hv
        · cases hv
        · rename_i s hs
          have hs' : pm.config.get? a = some s := by
            unfold PyDict.getItem at hs
            split at hs
            · rename_i s' hs'
              cases hs
              exact hs'
            · cases hs
          unfold Parameter.logPriorTerm at hv
          split at hv
          · cases hv
          · split at hv
            · exact .inl (Except.ok.inj hv).symm
            · rcases hflat a hmem s hs' with hp | ⟨l, u, hp⟩
              · rw [hp] at hv
                exact .inr (Except.ok.inj hv).symm
              · rw [hp] at hv
                exact .inr (Except.ok.inj hv).symm
    have hfold : ∀ (l : List XF) (acc : XF), (acc = .ninf ∨ acc = .fin 0) → (∀ t ∈ l, t = .ninf ∨ t = .fin 0) →
        (l.foldl (· + ·) acc = .ninf ∨ l.foldl (· + ·) acc = .fin 0) := by
      intro l
      induction l with
      | nil => intro acc hacc _; exact hacc
      | cons t l ih =>
        intro acc hacc hl
        refine ih _ ?_ fun t' ht' => hl t' (List.mem_cons_of_mem _ ht')
        rcases hacc with rfl | rfl <;> rcases hl t List.mem_cons_self with rfl | rfl
        · exact .inl rfl
        · exact .inl rfl
        · exact .inl rfl
        · right
          show XF.fin (0 + 0) = XF.fin 0
          rw [add_zero]
    rcases hfold terms (.fin 0) (.inr rfl) hall with h' | h'
    · rw [XF.sum, h'] at h
      cases h
    · rw [XF.sum, h'] at h
      cases h
      rfl

/-- **C137 (violated: flat priors).** If all fitted parameters have free or uniform priors, the log prior is the same for all samples,
and there is no corner plot, whatever the chain.  `prior` holds what the fit stored: log priors of the parameter manager for some
values of the parameters. -/
theorem C137_flat_priors (sig : Parameter.Solver) (config : Parameter.Config) (names : List String) (flat : List (List ℝ))
    (post prior mpe : List ℝ) (hs : names.length + 2 ≤ flat.length)
    (hflat : ∀ n ∈ names, ∀ s, config.get? n = some s → s.prior = .free ∨ ∃ l u, s.prior = .uniform l u)
    (hprior : ∀ v ∈ prior, ∃ (pm : Parameter.PM) (order : List String), pm.config = config ∧ (∀ n ∈ order, n ∈ names) ∧
      Parameter.logPriorOver sig pm order = .ok (.fin v)) :
    plotCorner sig config names flat post prior mpe = .error .valueError := by
  have hz : ∀ v ∈ prior, v = 0 := by
    intro v hv
    obtain ⟨pm, order, rfl, h2, h3⟩ := hprior v hv
    exact logPrior_flat sig pm order (fun n hn => hflat n (h2 n hn)) v h3
  unfold plotCorner cornerChecks
  have hex : ∃ c ∈ cornerColumns names.length flat post prior, ∀ a ∈ c, ∀ b ∈ c, a = b :=
    ⟨prior, by simp [cornerColumns], fun a ha b hb => (hz a ha).trans (hz b hb).symm⟩
  simp only [cornerColumns_length, if_neg (not_lt.2 hs), if_pos hex, bind, Except.bind]

/-- **C137 (violated: flat priors, all plots).** For such a fit `make_all_plots` raises after two of the five plots: the
autocorrelation and the acceptance plot are never made. -/
theorem C137_flat_priors_all_plots (sig : Parameter.Solver) (config : Parameter.Config) (names : List String) (flat : List (List ℝ))
    (post prior mpe : List ℝ) (hs : names.length + 2 ≤ flat.length)
    (hflat : ∀ n ∈ names, ∀ s, config.get? n = some s → s.prior = .free ∨ ∃ l u, s.prior = .uniform l u)
    (hprior : ∀ v ∈ prior, ∃ (pm : Parameter.PM) (order : List String), pm.config = config ∧ (∀ n ∈ order, n ∈ names) ∧
      Parameter.logPriorOver sig pm order = .ok (.fin v))
    (draw : CornerPlot → List Char) (make : String → Res (List Char)) (figs : String → List Char)
    (hcorner : make "corner" = (plotCorner sig config names flat post prior mpe).map draw)
    (hmake : ∀ x ∈ ["burn_in", "marginal_posterior"], make x = .ok (figs x)) (canSave : String → Bool) (dir f : String)
    (hsave : ∀ x ∈ ["burn_in", "marginal_posterior"], canSave (dir ++ "/" ++ x ++ "." ++ f) = true) (fs : Files.FS) :
    ∃ fs', Files.makeAllPlots canSave make true dir (.one f) fs = (fs', .error .valueError) ∧
      ∀ p, (∀ x ∈ ["burn_in", "marginal_posterior"], p ≠ dir ++ "/" ++ x ++ "." ++ f) → fs'.get? p = fs.get? p := by
  rw [C137_flat_priors sig config names flat post prior mpe hs hflat hprior] at hcorner
  obtain ⟨fs', h1, _, h3⟩ := Files.C101_plots_stop canSave make dir (.one f) fs figs ["burn_in", "marginal_posterior"]
    ["autocorr", "acceptance_fraction"] "corner" .valueError rfl hmake hcorner
    (fun x hx g hg => by
      obtain rfl : g = f := by simpa [Files.Fmt.formats] using hg
      exact hsave x hx)
  refine ⟨fs', h1, fun p hp => h3 p fun x hx g hg => ?_⟩
  obtain rfl : g = f := by simpa [Files.Fmt.formats] using hg
  exact hp x hx

/-- The setting of a fit of one parameter with a uniform prior. -/
def uniformSetting : Parameter.Setting := ⟨.uniform 0 1, some (0, 1), none⟩

/-- **C137 (violated).** A fit of one parameter with a uniform prior: four samples with their log priors as the parameter manager gives
them, and no corner plot. -/
theorem C137_uniform_fit (sig : Parameter.Solver) :
    (∀ v ∈ [0.1, 0.2, 0.3, (0.4 : ℝ)], Parameter.logPriorOver sig ⟨[("g1", uniformSetting)], [], ["g1"], [("g1", .fin v)]⟩ ["g1"] =
      .ok (.fin 0)) ∧
      plotCorner sig [("g1", uniformSetting)] ["g1"] [[0.1], [0.2], [0.3], [0.4]] [-3, -2, -2.5, -4] [0, 0, 0, 0] [0.2] =
        .error .valueError := by
  have hv : ∀ v ∈ [0.1, 0.2, 0.3, (0.4 : ℝ)],
      Parameter.logPriorOver sig ⟨[("g1", uniformSetting)], [], ["g1"], [("g1", .fin v)]⟩ ["g1"] = .ok (.fin 0) := by
    intro v hv
    have hr : (0 : ℝ) ≤ v ∧ v ≤ 1 := by
      simp only [List.mem_cons, List.not_mem_nil, or_false] at hv
      rcases hv with rfl | rfl | rfl | rfl <;> norm_num
    have hterm : Parameter.logPriorTerm sig uniformSetting (.fin v) = .ok (.fin 0) := by
      unfold Parameter.logPriorTerm uniformSetting
      simp only
      rw [if_neg]
      rintro (h | h)
      · exact absurd h (not_lt.2 hr.1)
      · exact absurd h (not_lt.2 hr.2)
    unfold Parameter.logPriorOver
    simp only [List.mapM_cons, List.mapM_nil, PyDict.getItem, PyDict.get?, if_true, bind, Except.bind, pure, Except.pure, hterm, XF.sum,
      List.foldl_cons, List.foldl_nil]
    show (Except.ok (XF.fin (0 + 0)) : Res XF) = _
    rw [add_zero]
  refine ⟨hv, C137_flat_priors sig _ _ _ _ _ _ (by simp) ?_ ?_⟩
  · intro n hn s hs
    obtain rfl : n = "g1" := by simpa using hn
    obtain rfl : uniformSetting = s := by simpa [PyDict.get?] using hs
    exact .inr ⟨0, 1, rfl⟩
  · intro v hv'
    obtain rfl : v = 0 := by simpa using hv'
    exact ⟨_, ["g1"], rfl, by simp, hv 0.1 (by simp)⟩

/-- Non-vacuity of `C137_made_partial`, `C137_colours` and `C137_diagonal`: one parameter with a normal prior and three samples. -/
example (sig : Parameter.Solver) : ∃ pl, plotCorner sig [("g1", ⟨.norm 1 1, some (0, 3), none⟩)] ["g1"] [[0], [1], [2]] [-1, 0, -3]
      [-1, -3, -5] [1] = .ok pl ∧ (pl.colours.getD 2 [])[0]? = some (.fin (-1)) ∧
      ∃ curve, pl.diagonal[0]? = some (some 1, curve) := by
  obtain ⟨pl, hpl⟩ := C137_made_partial sig [("g1", ⟨.norm 1 1, some (0, 3), none⟩)] ["g1"] [[0], [1], [2]] [-1, 0, -3] [-1, -3, -5] [1]
    (by simp) rfl (by simp) (by
      intro c hc
      have hc' : c < 3 := hc
      rcases (by omega : c = 0 ∨ c = 1 ∨ c = 2) with rfl | rfl | rfl
      · exact ⟨0, by simp [shown], 1, by simp [shown], by norm_num⟩
      · exact ⟨-1, by simp [shown], 0, by simp [shown], by norm_num⟩
      · exact ⟨-1, by simp [shown], -3, by simp [shown], by norm_num⟩)
    (by
      intro key _
      unfold cornerCurve
      by_cases h : "g1" = key
      · simp only [PyDict.get?, h, if_true]
        exact ⟨_, rfl⟩
      · simp only [PyDict.get?, h, if_false]
        exact ⟨_, rfl⟩)
  refine ⟨pl, hpl, ?_, ?_⟩
  · obtain ⟨r, h1, _, _, _, _, h6⟩ := C137_colours sig _ _ _ _ _ _ rfl rfl pl hpl 2 0 (by simp) (by norm_num)
    rw [h1, h6.2 ⟨-1 / 2, -1 / 2, by norm_num, by norm_num [shown]⟩]
  · obtain ⟨_, _, h, _⟩ := C137_diagonal sig _ _ _ _ _ _ (by simp) rfl (by simp [PyDict.get?]) ⟨by decide +revert, by decide +revert⟩ pl hpl
    obtain ⟨v, curve, hv, _, hd⟩ := h 0 "g1" rfl
    cases hv
    exact ⟨curve, hd⟩

end Verif.Plot
