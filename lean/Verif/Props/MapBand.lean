/-
Property theorems C97, second part: bands, the number of figures, requests to collapse and the file that is drawn.
-/
import Verif.Props.MapPic
import Verif.Props.MapPlot
import Verif.Props.MapSave

namespace Verif.MapPic
open Verif Verif.Plot
open Verif.MapFile (CoordType CoordName File IsLogAxis IsRegular)

/-! ### Which file is drawn, and which request is used -/

/-- **C97 (requests).** The request used for a map does not depend on the order of its names in the set exactly if the requests made under
its names agree. -/
theorem C97_request {C : Type} (d : PyDict String C) (names : List String) :
    (∀ names', names'.Perm names → lookupCollapse (some d) names' = lookupCollapse (some d) names) ↔
      ∀ n ∈ names, ∀ m ∈ names, ∀ r s, d.get? n = some r → d.get? m = some s → r = s := by
  constructor
  · intro h n hn m hm r s hr hs
    have h1 := h (n :: names.erase n) (List.perm_cons_erase hn).symm
    have h2 := h (m :: names.erase m) (List.perm_cons_erase hm).symm
    rw [← h2] at h1
    simpa [lookupCollapse, hr, hs] using h1
  · intro h names' hp
    simp only [lookupCollapse]
    cases h1 : names'.findSome? (fun n => d.get? n) with
    | none =>
      symm
      rw [List.findSome?_eq_none_iff] at h1 ⊢
      exact fun x hx => h1 x (hp.mem_iff.2 hx)
    | some r =>
      obtain ⟨n, hn, hr⟩ := List.exists_of_findSome?_eq_some h1
      cases h2 : names.findSome? (fun n => d.get? n) with
      | none =>
        rw [List.findSome?_eq_none_iff] at h2
        rw [h2 n (hp.mem_iff.1 hn)] at hr; cases hr
      | some s =>
        obtain ⟨m, hm, hs⟩ := List.exists_of_findSome?_eq_some h2
        rw [h n (hp.mem_iff.1 hn) m hm r s hr hs]

/-- A map known under two names with a request for one of them. -/
example : ∀ names', names'.Perm ["s1_lce", "s1_map"] → lookupCollapse (some [("s1_map", 1), ("other", 2)]) names' = some 1 := by
  intro names' hp
  rw [(C97_request [("s1_map", 1), ("other", 2)] ["s1_lce", "s1_map"]).2 ?_ names' hp]
  · decide
  · intro n hn m hm r s hr hs
    simp only [List.mem_cons, List.not_mem_nil, or_false] at hn hm
    rcases hn with rfl | rfl
    · cases hr
    · rcases hm with rfl | rfl
      · cases hs
      · rw [hr] at hs; exact Option.some.inj hs

/-- **C97** is violated if the names of one map have different requests: which one is used depends on the order of a set of strings, which
python chooses anew in every run. -/
theorem C97_request_depends_on_set_order :
    lookupCollapse (some [("a", 1), ("b", 2)]) ["a", "b"] = some 1 ∧ lookupCollapse (some [("a", 1), ("b", 2)]) ["b", "a"] = some 2 := by
  decide

/-- **C97 (files).** The plain maps drawn are, for each map the likelihoods use, the file of its last build. -/
theorem C97_last_build (builds : List (String × String)) (used : List String) (r : PyDict (List String) (MapCfg × List String))
    (h : collectCurrent builds used = .ok r) (k : List String) :
    k ∈ r.keys ↔ ∃ cfg ∈ used, ∃ before file after, k = [file] ∧ builds = before ++ (cfg, file) :: after ∧ ∀ b ∈ after, b.1 ≠ cfg := by
  have hcur : ∀ cfg file, currentFile builds cfg = some file ↔
      ∃ before after, builds = before ++ (cfg, file) :: after ∧ ∀ b ∈ after, b.1 ≠ cfg := by
    intro cfg file
    unfold currentFile
    rw [Option.map_eq_some_iff]
    constructor
    · rintro ⟨⟨c, f⟩, hf, rfl⟩
      rw [List.find?_eq_some_iff_append] at hf
      obtain ⟨hc, as, bs, hab, hno⟩ := hf
      simp only [beq_iff_eq] at hc
      subst hc
      refine ⟨bs.reverse, as.reverse, ?_, ?_⟩
      · rw [← List.reverse_reverse builds, hab]; simp
      · intro b hb; simpa using hno b (by simpa using hb)
    · rintro ⟨before, after, hb, hno⟩
      refine ⟨(cfg, file), ?_, rfl⟩
      rw [List.find?_eq_some_iff_append]
      refine ⟨by simp, after.reverse, before.reverse, by rw [hb]; simp, ?_⟩
      intro a ha
      simpa using hno a (by simpa using ha)
  simp only [collectCurrent, bind, Except.bind, pure, Except.pure] at h
  split at h
  · cases h
  · rename_i cfgs hc
    cases h
    rw [(C75_collects_each_map_once cfgs).2.1 k]
    have hmem : ∀ (u : List String) (cs : List MapCfg), u.mapM (builtMap builds) = .ok cs → ∀ c, c ∈ cs ↔ ∃ n ∈ u, ∃ f, currentFile builds n = some f ∧ c = MapCfg.map n f := by
      intro u
      induction u with
      | nil => intro cs hcs c; simp [List.mapM_nil, pure, Except.pure] at hcs; subst hcs; simp
      | cons n u ih =>
        intro cs hcs c
        rw [List.mapM_cons] at hcs
        simp only [bind, Except.bind, pure, Except.pure, builtMap] at hcs
        cases hf : currentFile builds n with
        | none => rw [hf] at hcs; cases hcs
        | some f =>
          rw [hf] at hcs
          simp only at hcs
          split at hcs
          · cases hcs
          · rename_i cs' hcs'
            cases hcs
            rw [List.mem_cons, ih cs' hcs' c]
            simp [hf]
    constructor
    · rintro ⟨c, hcm, hck⟩
      obtain ⟨n, hn, f, hf, rfl⟩ := (hmem _ _ hc c).1 hcm
      obtain ⟨b, a, hab, hno⟩ := (hcur n f).1 hf
      exact ⟨n, hn, b, f, a, by simpa [MapCfg.key] using hck.symm, hab, hno⟩
    · rintro ⟨n, hn, b, f, a, rfl, hab, hno⟩
      exact ⟨.map n f, (hmem _ _ hc _).2 ⟨n, hn, f, (hcur n f).2 ⟨b, a, hab, hno⟩, rfl⟩, rfl⟩

/-- **C97** is violated by maps that differ between likelihoods: two likelihoods with their own file of the same map give one figure, of the
file of the likelihood built last. -/
theorem C97_only_last_file_drawn :
    (collectCurrent [("s1_lce", "sr0.json"), ("s1_lce", "sr1.json")] ["s1_lce", "s1_lce"]).map PyDict.keys = .ok [["sr1.json"]] := by
  decide

/-- **C97 (files).** Before a map is built there is no file to look up. -/
theorem C97_unbuilt_map (builds : List (String × String)) (used : List String) (cfg : String) (hu : cfg ∈ used)
    (hb : ∀ b ∈ builds, b.1 ≠ cfg) : collectCurrent builds used = .error .attributeError := by
  have hc : currentFile builds cfg = none := by
    unfold currentFile
    rw [Option.map_eq_none_iff, List.find?_eq_none]
    intro b hm; simpa using hb b (by simpa using hm)
  suffices H : used.mapM (builtMap builds) = .error .attributeError by
    simp only [collectCurrent, bind, Except.bind, H]
  clear hb
  induction used with
  | nil => cases hu
  | cons n u ih =>
    rw [List.mapM_cons]
    simp only [bind, Except.bind, pure, Except.pure]
    unfold builtMap at ih ⊢
    cases hn : currentFile builds n with
    | none => rfl
    | some f =>
      rcases List.mem_cons.1 hu with rfl | hu'
      · rw [hc] at hn; cases hn
      · simp only [ih hu']

example : collectCurrent [("s1_lce", "sr0.json")] ["s1_lce", "s2_lce"] = .error .attributeError :=
  C97_unbuilt_map _ _ "s2_lce" (by simp) (by simp)

/-! ### The number of figures -/

/-- **C97 (axes).** A map on a regular grid with distinctly named axes is drawn exactly if one or two axes remain after collapsing: bars for
one, an image for two.  Other numbers give no figure and no error. -/
theorem C97_axes (d : Drawable) (names : List String) (lo hi : List ℝ) (a : NdArr) (collapse : Collapse)
    (hr : IsRegular d.ctype) (hd : d.data = .reg names lo hi a)
    (hkeys : collapse.keys.Nodup) (hnames : names.Nodup) (hlo : lo.length = names.length) (hhi : hi.length = names.length)
    (hsh : a.shape.length = names.length) (hct : ∀ l, d.ctype = .axes l → l.length = names.length) (hpos : ∀ n ∈ a.shape, 1 ≤ n) :
    ∃ r, plotRegular d collapse = .ok r ∧
      ((∃ bs b x y, r = some (.bars bs b x y)) ↔ (names.filter (fun n => (collapse.get? n).isNone)).length = 1) ∧
      ((∃ img x y l, r = some (.image img x y l)) ↔ (names.filter (fun n => (collapse.get? n).isNone)).length = 2) ∧
      (r = none ↔ (names.filter (fun n => (collapse.get? n).isNone)).length ≠ 1 ∧
        (names.filter (fun n => (collapse.get? n).isNone)).length ≠ 2) := by
  have hfl : (flagsOf d.ctype lo.length).length = names.length := by
    cases hc : d.ctype with
    | one s => simp [flagsOf, hlo]
    | axes l => simp [flagsOf, hct l hc]
  have hax : (axesOf d.ctype names lo hi).map Axis.name = names := by
    unfold axesOf
    rw [List.map_map]
    show (names.zip _).map Prod.fst = names
    exact List.map_fst_zip (by simp only [List.length_zip, hfl]; omega)
  have hlen : (axesOf d.ctype names lo hi).length = names.length := by
    have := congrArg List.length hax
    simpa using this
  obtain ⟨b, hb, hbs, -⟩ := C58_collapse a (axesOf d.ctype names lo hi) collapse hkeys (by rw [hax]; exact hnames)
    (by rw [hsh, hlen]) hpos
  have hcount : ((axesOf d.ctype names lo hi).filter (fun ax => (collapse.get? ax.name).isNone)).length
      = (names.filter (fun n => (collapse.get? n).isNone)).length := by
    conv_rhs => rw [← hax, List.filter_map, List.length_map]
    rfl
  have hshape : b.shape.length = ((axesOf d.ctype names lo hi).filter (fun ax => (collapse.get? ax.name).isNone)).length := by
    rw [hbs, List.length_map]
    have : ((axesOf d.ctype names lo hi).zip a.shape).map Prod.fst = axesOf d.ctype names lo hi :=
      List.map_fst_zip (by rw [hlen, hsh])
    conv_rhs => rw [← this, List.filter_map, List.length_map]
    rfl
  have hbpos : ∀ n ∈ b.shape, 1 ≤ n := by
    intro n hn
    rw [hbs] at hn
    obtain ⟨p, hp1, rfl⟩ := List.mem_map.1 hn
    exact hpos _ (List.of_mem_zip (List.mem_filter.1 hp1).1).2
  have hplot : plotRegular d collapse = drawReg d (b, (axesOf d.ctype names lo hi).filter (fun ax => (collapse.get? ax.name).isNone)) := by
    obtain ⟨h1, h2⟩ := regular_branch d.ctype hr
    simp [plotRegular, h1, h2, hd, hb, bind, Except.bind]
  rw [hplot]
  generalize (axesOf d.ctype names lo hi).filter (fun ax => (collapse.get? ax.name).isNone) = axs at *
  have hec : ∀ (ax : Axis) n, 1 ≤ n → ∃ ec, edgesCenters ax.lower ax.upper n ax.isLog = .ok ec := by
    intro ax n hn
    unfold edgesCenters
    split
    · rw [linearEdges_eq _ _ _ hn]; exact ⟨_, rfl⟩
    · rw [linearEdges_eq _ _ _ hn]; exact ⟨_, rfl⟩
  rw [← hcount]
  match axs, hshape with
  | [], h => exact ⟨none, rfl, by simp, by simp, by simp⟩
  | [ax], h =>
    match hs : b.shape, h with
    | [n], _ =>
      obtain ⟨ec, he⟩ := hec ax n (hbpos n (by rw [hs]; simp))
      refine ⟨_, by simp only [drawReg, hs, plotBars, he, bind, Except.bind, pure, Except.pure, Except.map]; rfl, ?_, ?_, ?_⟩ <;> simp
  | [ax0, ax1], h =>
    match hs : b.shape, h with
    | [n0, n1], _ =>
      obtain ⟨e0, he0⟩ := hec ax0 n0 (hbpos n0 (by rw [hs]; simp))
      obtain ⟨e1, he1⟩ := hec ax1 n1 (hbpos n1 (by rw [hs]; simp))
      refine ⟨_, by simp only [drawReg, hs, plotImage, he0, he1, bind, Except.bind, pure, Except.pure, Except.map]; rfl, ?_, ?_, ?_⟩ <;> simp
  | _ :: _ :: _ :: t, h => exact ⟨none, rfl, by simp, by simp, by simp⟩

/-- A map with three axes and a request for one of them leaves an image. -/
example : ∃ r, plotRegular ⟨"m", .one "regbin", .axes ["x", "y", "z"], .reg ["x", "y", "z"] [0, 0, 0] [1, 1, 1] ⟨[2, 2, 2], fun _ => 0⟩⟩
    [("z", none)] = .ok r ∧ ∃ img x y l, r = some (.image img x y l) := by
  obtain ⟨r, h, -, h2, -⟩ := C97_axes ⟨"m", .one "regbin", .axes ["x", "y", "z"], .reg ["x", "y", "z"] [0, 0, 0] [1, 1, 1] ⟨[2, 2, 2], fun _ => 0⟩⟩
    ["x", "y", "z"] [0, 0, 0] [1, 1, 1] ⟨[2, 2, 2], fun _ => 0⟩ [("z", none)] (.inl rfl) rfl (by simp [PyDict.keys]) (by decide) rfl rfl rfl
    (by simp) (by simp)
  exact ⟨r, h, h2.2 (by decide)⟩

/-- **C97** is violated by maps on one regular axis: bars are drawn although the map raises whenever it is applied. -/
theorem C97_bars_of_a_map_that_never_applies :
    ∃ F bs, MapFile.build "LERP" ⟨some (.one "regbin"), some (.axes ["x"]), .reg1 ⟨0, 1⟩ [3, 4]⟩ = .ok (.of1 F) ∧
      (∀ x, F x = .error .valueError) ∧
      (attributes "m" ⟨some (.one "regbin"), some (.axes ["x"]), .reg1 ⟨0, 1⟩ [3, 4]⟩).bind (fun d => plotRegular d []) =
        .ok (some (.bars bs false "x" "m")) ∧ bs = [((-1 / 2, 1 / 2), 3), ((1 / 2, 3 / 2), 4)] := by
  refine ⟨fun _ => .error .valueError, _, ?_, fun _ => rfl, ?_, rfl⟩
  · have : MapFile.logAxes (.one "regbin") 1 = .ok [false] := by decide +kernel
    simp [MapFile.build, MapFile.buildRegbin, MapFile.Body.edges, this, MapFile.namesOk, MapFile.applyRegbin, Interp.validateRegbin]
  · have he : edgesCenters 0 1 2 false = .ok ([-1 / 2, 1 / 2, 3 / 2], [0, 1]) := by
      simp only [edgesCenters]
      norm_num [linearEdges, Interp.linspace, List.range_succ]
    simp [attributes, Except.bind, plotRegular, isPoint, isReg, nameList, collapseMap, collapseOps, axesOf, flagsOf, pure,
      Except.pure, bind, drawReg, plotBars, he, Except.map, bars, entries, List.range_succ]
    norm_num

/-! ### Bands -/

theorem foldl_min_spec (l : List ℝ) : ∀ x, (l.foldl min x = x ∨ l.foldl min x ∈ l) ∧ l.foldl min x ≤ x ∧ ∀ c ∈ l, l.foldl min x ≤ c := by
  induction l with
  | nil => simp
  | cons a l ih =>
    intro x
    obtain ⟨h1, h2, h3⟩ := ih (min x a)
    rw [List.foldl_cons]
    refine ⟨?_, h2.trans (min_le_left _ _), ?_⟩
    · rcases h1 with h1 | h1
      · rcases min_choice x a with h | h
        · left; rw [h1, h]
        · right; rw [h1, h]; simp
      · right; exact List.mem_cons_of_mem _ h1
    · intro c hc
      rcases List.mem_cons.1 hc with rfl | hc
      · exact h2.trans (min_le_right _ _)
      · exact h3 c hc

theorem foldl_max_spec (l : List ℝ) : ∀ x, (l.foldl max x = x ∨ l.foldl max x ∈ l) ∧ x ≤ l.foldl max x ∧ ∀ c ∈ l, c ≤ l.foldl max x := by
  induction l with
  | nil => simp
  | cons a l ih =>
    intro x
    obtain ⟨h1, h2, h3⟩ := ih (max x a)
    rw [List.foldl_cons]
    refine ⟨?_, (le_max_left _ _).trans h2, ?_⟩
    · rcases h1 with h1 | h1
      · rcases max_choice x a with h | h
        · left; rw [h1, h]
        · right; rw [h1, h]; simp
      · right; exact List.mem_cons_of_mem _ h1
    · intro c hc
      rcases List.mem_cons.1 hc with rfl | hc
      · exact (le_max_right _ _).trans h2
      · exact h3 c hc

theorem sigma_in_band (m l u s : ℝ) (h1 : l ≤ m) (h2 : m ≤ u) (hs : -1 ≤ s) (hs' : s ≤ 1) :
    l ≤ Conf.sigmaApply m l u (some s) ∧ Conf.sigmaApply m l u (some s) ≤ u := by
  simp only [Conf.sigmaApply, Option.getD_some]
  split
  · constructor <;> nlinarith
  · constructor <;> nlinarith

/-- **C97 (bands).** For tables with increasing coordinates and the methods IDW and LERP, the band has 500 places from the smallest to the
largest coordinate, at each of which it reaches from the value of the lower map to that of the upper one.  Wherever the median lies
between them the band contains the value the map returns for every parameter between -1 and 1. -/
theorem C97_band (name method : String) (hm : method = "IDW" ∨ method = "LERP") (n : CoordName)
    (cm mm cl ml cu mu xm ym xl yl xu yu : List ℝ)
    (tm : MapFile.pointTable n cm mm = .ok (xm, ym)) (tl : MapFile.pointTable n cl ml = .ok (xl, yl))
    (tu : MapFile.pointTable n cu mu = .ok (xu, yu))
    (em : xm.length = ym.length) (el : xl.length = yl.length) (eu : xu.length = yu.length)
    (h2m : 2 ≤ xm.length) (h2l : 2 ≤ xl.length) (h2u : 2 ≤ xu.length)
    (sm : xm.Pairwise (· < ·)) (sl : xl.Pairwise (· < ·)) (su : xu.Pairwise (· < ·)) (collapse : Collapse) :
    ∃ M L U : ℝ → ℝ, ∃ dm dl du fill,
      MapFile.build method ⟨some (.one "point"), some n, .point cm mm⟩ = .ok (.of1 (fun x => .ok (M x))) ∧
      MapFile.build method ⟨some (.one "point"), some n, .point cl ml⟩ = .ok (.of1 (fun x => .ok (L x))) ∧
      MapFile.build method ⟨some (.one "point"), some n, .point cu mu⟩ = .ok (.of1 (fun x => .ok (U x))) ∧
      attributes name ⟨some (.one "point"), some n, .point cm mm⟩ = .ok dm ∧
      attributes name ⟨some (.one "point"), some n, .point cl ml⟩ = .ok dl ∧
      attributes name ⟨some (.one "point"), some n, .point cu mu⟩ = .ok du ∧
      plotSigma name dm dl du collapse = .ok (some [.band (xm.zip ym) (xl.zip yl) (xu.zip yu) fill false
        (if n = .one "pdf" then .one "cdf" else n) name]) ∧
      fill.length = 500 ∧
      (∀ a ∈ xm ++ xl ++ xu, (fill.headD (0, 0, 0)).1 ≤ a ∧ a ≤ (fill.getLastD (0, 0, 0)).1) ∧
      (fill.headD (0, 0, 0)).1 ∈ xm ++ xl ++ xu ∧ (fill.getLastD (0, 0, 0)).1 ∈ xm ++ xl ++ xu ∧
      ∀ x a b, (x, a, b) ∈ fill → a = L x ∧ b = U x ∧
        (L x ≤ M x → M x ≤ U x → ∀ s, -1 ≤ s → s ≤ 1 →
          a ≤ Conf.sigmaApply (M x) (L x) (U x) (some s) ∧ Conf.sigmaApply (M x) (L x) (U x) (some s) ≤ b) := by
  obtain ⟨M, hM, -⟩ := build_table method hm n cm mm xm ym tm em h2m sm
  obtain ⟨L, hL, sL⟩ := build_table method hm n cl ml xl yl tl el h2l sl
  obtain ⟨U, hU, sU⟩ := build_table method hm n cu mu xu yu tu eu h2u su
  have hint : ∀ (xs ys : List ℝ) (g : ℝ → ℝ), xs.length = ys.length → 2 ≤ xs.length → xs.Pairwise (· < ·) →
      (∀ x, Interp.IsLinearInterp (xs.zip ys) x (g x)) → ∀ x, npInterp xs ys x = .ok (g x) := by
    intro xs ys g he h2 hs hg x
    have hne : xs ≠ [] := by intro h; rw [h] at h2; simp at h2
    rw [npInterp, if_neg hne, if_neg (by simpa using he)]
    congr 1
    refine Interp.isLinearInterp_unique _ ?_ x _ _ (hg x) ?_ |>.symm
    · rw [List.map_fst_zip (by omega)]; exact hs
    · exact Interp.linear1d_spec xs ys he h2 hs x
  obtain ⟨x0, xr, hx0⟩ : ∃ x0 xr, xm ++ xl ++ xu = x0 :: xr := by
    cases xm with
    | nil => simp at h2m
    | cons a t => exact ⟨a, _, rfl⟩
  have hlow := foldl_min_spec xr x0
  have hhigh := foldl_max_spec xr x0
  have hmapM : ∀ l : List ℝ, l.mapM (bandAt xl yl xu yu) = .ok (l.map (fun x => (x, L x, U x))) := by
    intro l
    induction l with
    | nil => rfl
    | cons x l ih =>
      rw [List.mapM_cons, ih]
      simp [bandAt, hint xl yl L el h2l sl sL x, hint xu yu U eu h2u su sU x, bind, Except.bind, pure, Except.pure]
  have hhead : (((Interp.linspace (xr.foldl min x0) (xr.foldl max x0) 500).map (fun x => (x, L x, U x))).headD (0, 0, 0)).1 = xr.foldl min x0 := by
    rw [List.headD_eq_head?_getD, List.head?_map, List.head?_eq_getElem?, Interp.linspace_get _ _ _ _ (by norm_num)]
    simp
  have hlast : (((Interp.linspace (xr.foldl min x0) (xr.foldl max x0) 500).map (fun x => (x, L x, U x))).getLastD (0, 0, 0)).1 = xr.foldl max x0 := by
    rw [List.getLastD_eq_getLast?, List.getLast?_map, List.getLast?_eq_getElem?, Interp.linspace_length,
      Interp.linspace_get _ _ _ _ (by norm_num)]
    simp
    norm_num
  refine ⟨M, L, U, _, _, _, (Interp.linspace (xr.foldl min x0) (xr.foldl max x0) 500).map (fun x => (x, L x, U x)), hM, hL, hU, by simp [attributes, tm, Except.map]; rfl,
    by simp [attributes, tl, Except.map]; rfl, by simp [attributes, tu, Except.map]; rfl, ?_, ?_, ?_, ?_, ?_, ?_⟩
  · have := hmapM (Interp.linspace (xr.foldl min x0) (xr.foldl max x0) 500)
    simp only [plotSigma, isPoint, plotSigmaPoint, plotLine, em, el, eu, hx0, lowest, highest, this, bind, Except.bind, pure, Except.pure, Except.map,
      if_true, decide_true, Bool.true_or]
  · simp [Interp.linspace_length]
  · intro a ha
    rw [hhead, hlast]
    rw [hx0] at ha
    rcases List.mem_cons.1 ha with rfl | ha
    · exact ⟨hlow.2.1, hhigh.2.1⟩
    · exact ⟨hlow.2.2 a ha, hhigh.2.2 a ha⟩
  · rw [hhead, hx0]
    rcases hlow.1 with h | h
    · rw [h]; simp
    · exact List.mem_cons_of_mem _ h
  · rw [hlast, hx0]
    rcases hhigh.1 with h | h
    · rw [h]; simp
    · exact List.mem_cons_of_mem _ h
  · intro x a b hx
    obtain ⟨x', -, hx'⟩ := List.mem_map.1 hx
    cases hx'
    exact ⟨rfl, rfl, fun h1 h2 s hs hs' => sigma_in_band _ _ _ _ h1 h2 hs hs'⟩

/-- Three tables, the outer ones with other coordinates: at the right end the band reaches from 1 to 3. -/
example : ∃ m l u fill, plotSigma "eff" ⟨"eff", .one "point", .one "e", .point [0, 1] [1, 2]⟩ ⟨"eff", .one "point", .one "e", .point [0, 2] [0, 1]⟩
      ⟨"eff", .one "point", .one "e", .point [0, 2] [2, 3]⟩ [] = .ok (some [.band m l u fill false (.one "e") "eff"]) ∧
    fill.length = 500 ∧ (fill.getLastD (0, 0, 0)).1 = 2 := by
  obtain ⟨M, L, U, dm, dl, du, fill, -, -, -, hm, hl, hu, hp, hlen, hends, -, hlast, -⟩ := C97_band "eff" "LERP" (.inr rfl) (.one "e")
    [0, 1] [1, 2] [0, 2] [0, 1] [0, 2] [2, 3] [0, 1] [1, 2] [0, 2] [0, 1] [0, 2] [2, 3] (by simp [MapFile.pointTable])
    (by simp [MapFile.pointTable]) (by simp [MapFile.pointTable]) rfl rfl rfl (by simp) (by simp) (by simp) (by norm_num) (by norm_num) (by norm_num) []
  simp [attributes, MapFile.pointTable, Except.map] at hm hl hu
  subst hm hl hu
  refine ⟨_, _, _, fill, hp, hlen, ?_⟩
  have h2 := (hends 2 (by simp)).2
  simp only [List.cons_append, List.nil_append, List.mem_cons, List.not_mem_nil, or_false] at hlast
  rcases hlast with h | h | h | h | h | h <;> linarith

/-- **C97 (tables).** A table with as many coordinates as values is drawn; one with other numbers of them is a ValueError. -/
theorem C97_lengths (name : String) (ct : CoordType) (cn : CoordName) (x y : List ℝ) (collapse : Collapse) (hp : ct = .one "point" ∨ ct = .one "log_point") :
    plotRegular ⟨name, ct, cn, .point x y⟩ collapse =
      (if x.length = y.length then .ok (some (.line (x.zip y) cn name)) else .error .valueError) := by
  have : isPoint ct = true := by rcases hp with rfl | rfl <;> decide
  simp only [plotRegular, this, if_true, plotPoint, plotLine, bind, Except.bind, pure, Except.pure]
  by_cases h : x.length = y.length
  · simp only [h, if_true, Except.map]
  · simp only [h, if_false, Except.map]

/-- **C97 (tables).** So is a band of three tables one of which has other numbers of coordinates and values. -/
theorem C97_band_lengths (name : String) (ct : CoordType) (cn : CoordName) (xm ym : List ℝ) (dl du : Drawable) (xl yl xu yu : List ℝ) (collapse : Collapse)
    (hp : ct = .one "point" ∨ ct = .one "log_point") (hl : dl.data = .point xl yl) (hu : du.data = .point xu yu)
    (h : xm.length ≠ ym.length ∨ xl.length ≠ yl.length ∨ xu.length ≠ yu.length) :
    plotSigma name ⟨name, ct, cn, .point xm ym⟩ dl du collapse = .error .valueError := by
  have : isPoint ct = true := by rcases hp with rfl | rfl <;> decide
  simp only [plotSigma, this, if_true, hl, hu, plotSigmaPoint, plotLine, bind, Except.bind]
  by_cases h1 : xm.length = ym.length
  · by_cases h2 : xl.length = yl.length
    · have h3 : xu.length ≠ yu.length := by tauto
      simp [h1, h2, h3, Except.map]
    · simp [h1, h2, Except.map]
  · simp [h1, Except.map]

/-- **C97 (bands on bins).** A map on one regular axis with uncertainty is drawn at the centers of its bins: the median, the lower and the upper
value of each bin, with the band between the lower and the upper one.  Files with other numbers of bins than the median are a ValueError. -/
theorem C97_band_on_bins (name : String) (ct : CoordType) (cn : CoordName) (x : String) (hreg : IsRegular ct) (b t : ℝ) (vm vl vu : List ℝ)
    (dl du : Drawable) (nl nu : List String) (ll lu ul uu : List ℝ)
    (hl : dl.data = .reg nl ll lu ⟨[vl.length], fun i => vl.getD (i.getD 0 0) 0⟩)
    (hu : du.data = .reg nu ul uu ⟨[vu.length], fun i => vu.getD (i.getD 0 0) 0⟩)
    (hct : ∀ l, ct = .axes l → l.length = 1) (hm : vm ≠ []) :
    ∃ isLog, (isLog = true ↔ IsLogAxis ct 0) ∧
    plotSigma name ⟨name, ct, cn, .reg [x] [b] [t] ⟨[vm.length], fun i => vm.getD (i.getD 0 0) 0⟩⟩ dl du [] =
      (if vl.length = vm.length ∧ vu.length = vm.length then
        .ok (some [.band ((axisCenters ⟨x, b, t, isLog⟩ vm.length).zip vm) ((axisCenters ⟨x, b, t, isLog⟩ vm.length).zip vl)
          ((axisCenters ⟨x, b, t, isLog⟩ vm.length).zip vu) ((axisCenters ⟨x, b, t, isLog⟩ vm.length).zip (vl.zip vu)) isLog (.one x) name])
      else .error .valueError) := by
  obtain ⟨h1, h2⟩ := regular_branch ct hreg
  obtain ⟨f, hf, hfl⟩ : ∃ f, flagsOf ct 1 = [f] ∧ (f = true ↔ IsLogAxis ct 0) := by
    cases ct with
    | one s => exact ⟨_, rfl, by simp [IsLogAxis]⟩
    | axes l =>
      match l, hct l rfl with
      | [u], _ => exact ⟨_, rfl, by simp [IsLogAxis]⟩
  refine ⟨f, hfl, ?_⟩
  have hlen : 1 ≤ vm.length := List.length_pos_iff.2 hm
  obtain ⟨e, he⟩ := edgesCenters_centers ⟨x, b, t, f⟩ vm.length hlen
  have hent : ∀ v : List ℝ, entries ⟨[v.length], fun i => v.getD (i.getD 0 0) 0⟩ v.length = v := by
    intro v
    refine List.ext_getElem (by simp [entries]) ?_
    intro i hi hi'
    simp [entries, hi']
  simp only [plotSigma, h1, h2, hl, hu, collapseMap, collapseOps, List.filterMap_nil, List.mergeSort_nil, List.foldlM_nil, bind, Except.bind,
    pure, Except.pure, axesOf, List.length_cons, List.length_nil, hf, List.zip_cons_cons, List.zip_nil_left, List.map_cons, List.map_nil, drawSigma,
    if_true, Bool.false_eq_true, if_false, plotSigmaBins, he, hent]
  by_cases hc : vl.length = vm.length ∧ vu.length = vm.length
  · have e1 := hent vl
    have e2 := hent vu
    rw [hc.1] at e1
    rw [hc.2] at e2
    simp only [hc.1, hc.2, e1, e2, Except.map, and_self, if_true]
  · have : ¬([vl.length] = [vm.length] ∧ [vu.length] = [vm.length]) := by simpa using hc
    rw [if_neg this, if_neg hc]
    rfl

/-- Three files of two bins. -/
example : plotSigma "m" ⟨"m", .one "regbin", .one "x", .reg ["x"] [0] [1] ⟨[2], fun i => [1, 2].getD (i.getD 0 0) 0⟩⟩
    ⟨"m", .one "regbin", .one "x", .reg ["x"] [0] [1] ⟨[2], fun i => [0, 1].getD (i.getD 0 0) 0⟩⟩
    ⟨"m", .one "regbin", .one "x", .reg ["x"] [0] [1] ⟨[2], fun i => [4, 5].getD (i.getD 0 0) 0⟩⟩ [] =
    .ok (some [.band [(0, 1), (1, 2)] [(0, 0), (1, 1)] [(0, 4), (1, 5)] [(0, 0, 4), (1, 1, 5)] false (.one "x") "m"]) := by
  obtain ⟨isLog, hi, h⟩ := C97_band_on_bins "m" (.one "regbin") (.one "x") "x" (.inl rfl) 0 1 [1, 2] [0, 1] [4, 5]
    ⟨"m", .one "regbin", .one "x", .reg ["x"] [0] [1] ⟨[2], fun i => [0, 1].getD (i.getD 0 0) 0⟩⟩
    ⟨"m", .one "regbin", .one "x", .reg ["x"] [0] [1] ⟨[2], fun i => [4, 5].getD (i.getD 0 0) 0⟩⟩ ["x"] ["x"] [0] [1] [0] [1] rfl rfl
    (by simp) (by simp)
  have hf : isLog = false := by
    cases isLog with
    | false => rfl
    | true => exact absurd (hi.1 rfl) (by simp [IsLogAxis])
  subst hf
  refine h.trans ?_
  norm_num [axisCenters, Interp.linspace, List.range_succ]

/-- **C97** is violated by a map on one regular axis whose `coordinate_name` is a string, as in the files of tables: only its first letter is shown. -/
theorem C97_first_letter_shown :
    ∃ bs, (attributes "m" ⟨some (.one "regbin"), some (.one "cs1"), .reg1 ⟨0, 1⟩ [3, 4]⟩).bind (fun d => plotRegular d []) =
        .ok (some (.bars bs false "c" "m")) := by
  have he : edgesCenters 0 1 2 false = .ok ([-1 / 2, 1 / 2, 3 / 2], [0, 1]) := by
    simp only [edgesCenters]
    norm_num [linearEdges, Interp.linspace, List.range_succ]
  have hn : nameList (.one "cs1") = ["c", "s", "1"] := by decide +kernel
  simp [attributes, Except.bind, plotRegular, isPoint, isReg, hn, collapseMap, collapseOps, axesOf, flagsOf, pure,
      Except.pure, bind, drawReg, plotBars, he, Except.map]

/-! ### Three images -/

theorem image_of (label : String) (a : NdArr) (n0 n1 : Nat) (ax0 ax1 : Axis) (h0 : 1 ≤ n0) (h1 : 1 ≤ n1) :
    ∃ img, plotImage label a n0 n1 ax0 ax1 = .ok (.image img (axisLabel ax0) (axisLabel ax1) label) ∧
      (∀ row col, img.val row col = a.val [col, row]) ∧ img.cols = n0 ∧ img.rows = n1 := by
  have hec : ∀ (ax : Axis) n, 1 ≤ n → ∃ ec, edgesCenters ax.lower ax.upper n ax.isLog = .ok ec := by
    intro ax n hn
    unfold edgesCenters
    split
    · rw [linearEdges_eq _ _ _ hn]; exact ⟨_, rfl⟩
    · rw [linearEdges_eq _ _ _ hn]; exact ⟨_, rfl⟩
  obtain ⟨e0, he0⟩ := hec ax0 n0 h0
  obtain ⟨e1, he1⟩ := hec ax1 n1 h1
  refine ⟨_, by simp only [plotImage, he0, he1, bind, Except.bind, pure, Except.pure]; rfl, fun _ _ => rfl, rfl, rfl⟩

/-- **C97 (images of a map with uncertainty).** A map on two regular axes with uncertainty is drawn as three images, lower, median and upper, each with the
numbers of its own file. -/
theorem C97_three_images (name : String) (ct : CoordType) (cn : CoordName) (x0 x1 : String) (hreg : IsRegular ct) (b0 b1 : ℝ) (t0 t1 : ℝ)
    (dl du : Drawable) (gm gl gu : Interp.Grid2 ℝ) (nl nu : List String) (ll lu ul uu : List ℝ)
    (hl : dl.data = .reg nl ll lu ⟨[gl.n0, gl.n1], fun i => gl.val (i.getD 0 0) (i.getD 1 0)⟩)
    (hu : du.data = .reg nu ul uu ⟨[gu.n0, gu.n1], fun i => gu.val (i.getD 0 0) (i.getD 1 0)⟩)
    (hct : ∀ l, ct = .axes l → l.length = 2)
    (hm0 : 1 ≤ gm.n0) (hm1 : 1 ≤ gm.n1) (hl0 : 1 ≤ gl.n0) (hl1 : 1 ≤ gl.n1) (hu0 : 1 ≤ gu.n0) (hu1 : 1 ≤ gu.n1) :
    ∃ il im iu X Y, plotSigma name
        ⟨name, ct, cn, .reg [x0, x1] [b0, b1] [t0, t1] ⟨[gm.n0, gm.n1], fun i => gm.val (i.getD 0 0) (i.getD 1 0)⟩⟩ dl du [] =
      .ok (some [.image il X Y (name ++ " (lower)"), .image im X Y (name ++ " (median)"), .image iu X Y (name ++ " (upper)")]) ∧
      (∀ i j, il.val j i = gl.val i j) ∧ (∀ i j, im.val j i = gm.val i j) ∧ (∀ i j, iu.val j i = gu.val i j) ∧
      (il.cols, il.rows) = (gl.n0, gl.n1) ∧ (im.cols, im.rows) = (gm.n0, gm.n1) ∧ (iu.cols, iu.rows) = (gu.n0, gu.n1) := by
  obtain ⟨h1, h2⟩ := regular_branch ct hreg
  obtain ⟨f0, f1, hf⟩ : ∃ f0 f1, flagsOf ct 2 = [f0, f1] := by
    cases ct with
    | one s => exact ⟨_, _, rfl⟩
    | axes l =>
      match l, hct l rfl with
      | [u, v], _ => exact ⟨_, _, rfl⟩
  obtain ⟨il, pl, vl, cl, rl⟩ := image_of (name ++ " (lower)") ⟨[gl.n0, gl.n1], fun i => gl.val (i.getD 0 0) (i.getD 1 0)⟩ gl.n0 gl.n1
    ⟨x0, b0, t0, f0⟩ ⟨x1, b1, t1, f1⟩ hl0 hl1
  obtain ⟨im, pm, vm, cm, rm⟩ := image_of (name ++ " (median)") ⟨[gm.n0, gm.n1], fun i => gm.val (i.getD 0 0) (i.getD 1 0)⟩ gm.n0 gm.n1
    ⟨x0, b0, t0, f0⟩ ⟨x1, b1, t1, f1⟩ hm0 hm1
  obtain ⟨iu, pu, vu, cu, ru⟩ := image_of (name ++ " (upper)") ⟨[gu.n0, gu.n1], fun i => gu.val (i.getD 0 0) (i.getD 1 0)⟩ gu.n0 gu.n1
    ⟨x0, b0, t0, f0⟩ ⟨x1, b1, t1, f1⟩ hu0 hu1
  refine ⟨il, im, iu, axisLabel ⟨x0, b0, t0, f0⟩, axisLabel ⟨x1, b1, t1, f1⟩, ?_, fun i j => by rw [vl]; rfl, fun i j => by rw [vm]; rfl, fun i j => by rw [vu]; rfl,
    by rw [cl, rl], by rw [cm, rm], by rw [cu, ru]⟩
  have q1 : name ++ " (" ++ "lower" ++ ")" = name ++ " (lower)" := by rw [String.append_assoc, String.append_assoc]; rfl
  have q2 : name ++ " (" ++ "median" ++ ")" = name ++ " (median)" := by rw [String.append_assoc, String.append_assoc]; rfl
  have q3 : name ++ " (" ++ "upper" ++ ")" = name ++ " (upper)" := by rw [String.append_assoc, String.append_assoc]; rfl
  simp only [plotSigma, h1, h2, hl, hu, collapseMap, collapseOps, List.filterMap_nil, List.mergeSort_nil, List.foldlM_nil, bind, Except.bind,
    pure, Except.pure, axesOf, List.length_cons, List.length_nil, hf, List.zip_cons_cons, List.zip_nil_left, List.map_cons, List.map_nil, drawSigma,
    List.mapM_cons, List.mapM_nil, q1, q2, q3, pl, pm, pu, if_true, Bool.false_eq_true, if_false]

/-- Three small files. -/
example : ∃ il im iu X Y, plotSigma "m"
    ⟨"m", .one "regbin", .axes ["x", "y"], .reg ["x", "y"] [0, 0] [1, 1] ⟨[2, 2], fun i => ((i.getD 0 0 : Nat) : ℝ)⟩⟩
    ⟨"m", .one "regbin", .axes ["x", "y"], .reg ["x", "y"] [0, 0] [1, 1] ⟨[2, 2], fun i => ((i.getD 1 0 : Nat) : ℝ)⟩⟩
    ⟨"m", .one "regbin", .axes ["x", "y"], .reg ["x", "y"] [0, 0] [1, 1] ⟨[2, 3], fun _ => 7⟩⟩ [] =
      .ok (some [.image il X Y "m (lower)", .image im X Y "m (median)", .image iu X Y "m (upper)"]) ∧ il.val 1 0 = 1 ∧ im.val 1 0 = 0 ∧ iu.rows = 3 := by
  obtain ⟨il, im, iu, X, Y, h, h1, h2, h3, h4, h5, h6⟩ := C97_three_images "m" (.one "regbin") (.axes ["x", "y"]) "x" "y" (.inl rfl) 0 0 1 1
    ⟨"m", .one "regbin", .axes ["x", "y"], .reg ["x", "y"] [0, 0] [1, 1] ⟨[2, 2], fun i => ((i.getD 1 0 : Nat) : ℝ)⟩⟩
    ⟨"m", .one "regbin", .axes ["x", "y"], .reg ["x", "y"] [0, 0] [1, 1] ⟨[2, 3], fun _ => 7⟩⟩
    ⟨2, 2, fun i _ => i⟩ ⟨2, 2, fun _ j => j⟩ ⟨2, 3, fun _ _ => 7⟩ _ _ _ _ _ _ rfl rfl (by simp) (by norm_num) (by norm_num) (by norm_num)
    (by norm_num) (by norm_num) (by norm_num)
  exact ⟨il, im, iu, X, Y, h, by rw [h1]; norm_num, by rw [h2]; norm_num, by simpa using (Prod.mk.inj h6).2⟩

/-- **C97** is violated for maps whose three files have different axes: the images of the outer maps use the axes of the median.  The picture is
the same whether the lower map reaches to 1 or to 10, but the map is not. -/
theorem C97_axes_of_the_median :
    ∃ F G d e, MapFile.build "LERP" ⟨some (.one "regbin"), some (.axes ["x", "y"]), .reg2 ⟨0, 1⟩ ⟨0, 1⟩ ⟨2, 2, fun i _ => i⟩⟩ = .ok (.of2 F) ∧
      MapFile.build "LERP" ⟨some (.one "regbin"), some (.axes ["x", "y"]), .reg2 ⟨0, 10⟩ ⟨0, 1⟩ ⟨2, 2, fun i _ => i⟩⟩ = .ok (.of2 G) ∧
      attributes "m" ⟨some (.one "regbin"), some (.axes ["x", "y"]), .reg2 ⟨0, 1⟩ ⟨0, 1⟩ ⟨2, 2, fun i _ => i⟩⟩ = .ok d ∧
      attributes "m" ⟨some (.one "regbin"), some (.axes ["x", "y"]), .reg2 ⟨0, 10⟩ ⟨0, 1⟩ ⟨2, 2, fun i _ => i⟩⟩ = .ok e ∧
      F 1 0 = .ok 1 ∧ G 1 0 = .ok (1 / 10) ∧ plotSigma "m" d e d [] = plotSigma "m" d d d [] := by
  have hb : ∀ t : ℝ, ∃ F, MapFile.build "LERP" ⟨some (.one "regbin"), some (.axes ["x", "y"]), .reg2 ⟨0, t⟩ ⟨0, 1⟩ ⟨2, 2, fun i _ => i⟩⟩ = .ok (.of2 F) ∧
      F = fun x y => .ok (Interp.bilinear (⟨2, 2, fun i _ => i⟩ : Interp.Grid2 ℝ) ⟨0, t⟩ ⟨0, 1⟩ x y) := by
    intro t
    refine ⟨_, ?_, rfl⟩
    have : MapFile.logAxes (.one "regbin") 2 = .ok [false, false] := by decide +kernel
    simp [MapFile.build, MapFile.buildRegbin, MapFile.Body.edges, this, MapFile.namesOk, MapFile.applyRegbin,
      Interp.validateRegbin, Interp.preprocess]
  obtain ⟨F, hF, rfl⟩ := hb 1
  obtain ⟨G, hG, rfl⟩ := hb 10
  refine ⟨_, _, _, _, hF, hG, rfl, rfl, ?_, ?_, rfl⟩
  · have c0 : Interp.cell 2 (0 : ℝ) = 0 := by
      unfold Interp.cell
      rw [show ⌊(0 : ℝ)⌋ = 0 by norm_num]
      decide
    have c1 : Interp.cell 2 (1 : ℝ) = 0 := by
      unfold Interp.cell
      rw [show ⌊(1 : ℝ)⌋ = 1 by norm_num]
      decide
    have f0 : Interp.frac 2 ⟨0, 1⟩ (1 : ℝ) = 1 := by norm_num [Interp.frac, Interp.binSize]
    have f1 : Interp.frac 2 ⟨0, 1⟩ (0 : ℝ) = 0 := by norm_num [Interp.frac, Interp.binSize]
    simp only [Interp.bilinear, f0, f1, Interp.offset, c0, c1]
    norm_num [Interp.clip, Interp.wrap]
  · have c0 : Interp.cell 2 (0 : ℝ) = 0 := by
      unfold Interp.cell
      rw [show ⌊(0 : ℝ)⌋ = 0 by norm_num]
      decide
    have c1 : Interp.cell 2 ((1 : ℝ) / 10) = 0 := by
      unfold Interp.cell
      rw [show ⌊(1 : ℝ) / 10⌋ = 0 by norm_num]
      decide
    have f0 : Interp.frac 2 ⟨0, 10⟩ (1 : ℝ) = 1 / 10 := by norm_num [Interp.frac, Interp.binSize]
    have f1 : Interp.frac 2 ⟨0, 1⟩ (0 : ℝ) = 0 := by norm_num [Interp.frac, Interp.binSize]
    simp only [Interp.bilinear, f0, f1, Interp.offset, c0, c1]
    norm_num [Interp.clip, Interp.wrap]

end Verif.MapPic
