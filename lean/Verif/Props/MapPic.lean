/-
Property theorems C97: the pictures of maps show what the maps return.
-/
import Verif.Lemmas.MapPic
import Verif.Props.MapFile
import Verif.Props.Config

namespace Verif.MapPic
open Verif Verif.Plot
open Verif.MapFile (CoordType CoordName File IsLogAxis IsRegular)

/-! ### Tables -/

theorem onLine_interp (pts : List (ℝ × ℝ)) (x y : ℝ) (h : OnLine pts x y) : Interp.IsLinearInterp pts x y := .inr (.inr h)

/-- Between the first and the last point the interpolation is the drawn line. -/
theorem interp_onLine (pts : List (ℝ × ℝ)) (p q : ℝ × ℝ) (h2 : 2 ≤ pts.length) (hs : (pts.map Prod.fst).Pairwise (· < ·))
    (hp : pts.head? = some p) (hq : pts.getLast? = some q) (x y : ℝ) (h1 : p.1 ≤ x) (h3 : x ≤ q.1)
    (h : Interp.IsLinearInterp pts x y) : OnLine pts x y := by
  have hlt : ∀ (i : Nat) (hi : i + 1 < pts.length), (pts[i]).1 < (pts[i + 1]).1 := by
    intro i hi
    have := List.pairwise_iff_getElem.1 hs i (i + 1) (by simp; omega) (by simpa using hi) (by omega)
    simpa using this
  rcases h with ⟨r, hr, hx, rfl⟩ | ⟨r, hr, hx, rfl⟩ | h
  · rw [hp] at hr; cases hr
    have hx' : x = p.1 := le_antisymm hx h1
    rw [List.head?_eq_getElem?, List.getElem?_eq_getElem (by omega)] at hp
    cases hp
    refine ⟨0, _, _, List.getElem?_eq_getElem (by omega), List.getElem?_eq_getElem (by omega), h1, ?_, ?_⟩
    · rw [hx']; exact le_of_lt (hlt 0 (by omega))
    · rw [hx']; simp
  · rw [hq] at hr; cases hr
    have hx' : x = q.1 := le_antisymm h3 hx
    rw [List.getLast?_eq_getElem?, List.getElem?_eq_getElem (by omega)] at hq
    cases hq
    have hl := hlt (pts.length - 2) (by omega)
    have he : pts.length - 2 + 1 = pts.length - 1 := by omega
    simp only [he] at hl
    refine ⟨pts.length - 2, pts[pts.length - 2], pts[pts.length - 1], List.getElem?_eq_getElem (by omega), ?_, ?_, h3, ?_⟩
    · rw [he, List.getElem?_eq_getElem]
    · rw [hx']; exact le_of_lt hl
    · rw [hx', div_self (by linarith)]; ring
  · exact h

/-- The function built from a linear table. -/
theorem build_table (method : String) (hm : method = "IDW" ∨ method = "LERP") (n : CoordName) (coords map xs ys : List ℝ)
    (ht : MapFile.pointTable n coords map = .ok (xs, ys)) (hlen : xs.length = ys.length) (h2 : 2 ≤ xs.length)
    (hs : xs.Pairwise (· < ·)) :
    ∃ g : ℝ → ℝ, MapFile.build method ⟨some (.one "point"), some n, .point coords map⟩ = .ok (.of1 (fun x => .ok (g x))) ∧
      ∀ x, Interp.IsLinearInterp (xs.zip ys) x (g x) := by
  obtain ⟨f, g, hf, hg, hfg⟩ := Interp.C28_idw_and_lerp_point_maps xs ys hlen hs h2
  have hb : ∀ m k, Interp.buildPoint m false xs ys = .ok k →
      MapFile.build m ⟨some (.one "point"), some n, .point coords map⟩ = .ok (.of1 (fun x => .ok (k x))) := by
    intro m k hk
    simp [MapFile.build, MapFile.buildPoint, ht, hk, MapFile.ofPoint]
  rcases hm with rfl | rfl
  · exact ⟨f, hb _ _ hf, fun x => (hfg x).1⟩
  · exact ⟨g, hb _ _ hg, fun x => by rw [(hfg x).2]; exact (hfg x).1⟩

/-- **C97 (tables).** For a table with increasing coordinates and the methods IDW and LERP the line drawn is the function that is applied: a point
between the ends lies on the line exactly if its height is the value of the map.  This holds for densities too, where both use the
distribution function made of them. -/
theorem C97_line (name method : String) (hm : method = "IDW" ∨ method = "LERP") (n : CoordName) (coords map xs ys : List ℝ)
    (ht : MapFile.pointTable n coords map = .ok (xs, ys)) (hlen : xs.length = ys.length) (h2 : 2 ≤ xs.length)
    (hs : xs.Pairwise (· < ·)) (collapse : Collapse) :
    ∃ F d lab, MapFile.build method ⟨some (.one "point"), some n, .point coords map⟩ = .ok (.of1 F) ∧
      attributes name ⟨some (.one "point"), some n, .point coords map⟩ = .ok d ∧
      plotRegular d collapse = .ok (some (.line (xs.zip ys) lab name)) ∧
      (lab = if n = .one "pdf" then .one "cdf" else n) ∧
      ∀ x y x0 x1, xs.head? = some x0 → xs.getLast? = some x1 → x0 ≤ x → x ≤ x1 →
        (OnLine (xs.zip ys) x y ↔ F x = .ok y) := by
  obtain ⟨g, hg, hspec⟩ := build_table method hm n coords map xs ys ht hlen h2 hs
  refine ⟨_, ⟨name, .one "point", if n = .one "pdf" then .one "cdf" else n, .point xs ys⟩, _, hg, ?_, ?_, rfl, ?_⟩
  · simp [attributes, ht, Except.map]
  · simp [plotRegular, isPoint, plotPoint, plotLine, hlen, bind, Except.bind, pure, Except.pure, Except.map]
  · intro x y x0 x1 hx0 hx1 h0 h1
    have hfst : (xs.zip ys).map Prod.fst = xs := List.map_fst_zip (by omega)
    have hsp : ((xs.zip ys).map Prod.fst).Pairwise (· < ·) := by rw [hfst]; exact hs
    obtain ⟨p, hp, hp1⟩ : ∃ p, (xs.zip ys).head? = some p ∧ p.1 = x0 := by
      rw [← hfst, List.head?_map] at hx0
      cases hz : (xs.zip ys).head? with
      | none => rw [hz] at hx0; cases hx0
      | some p => rw [hz] at hx0; exact ⟨p, rfl, by simpa using hx0⟩
    obtain ⟨q, hq, hq1⟩ : ∃ q, (xs.zip ys).getLast? = some q ∧ q.1 = x1 := by
      rw [← hfst, List.getLast?_map] at hx1
      cases hz : (xs.zip ys).getLast? with
      | none => rw [hz] at hx1; cases hx1
      | some p => rw [hz] at hx1; exact ⟨p, rfl, by simpa using hx1⟩
    simp only [Except.ok.injEq]
    constructor
    · intro h
      exact Interp.isLinearInterp_unique _ hsp x _ _ (hspec x) (onLine_interp _ _ _ h)
    · intro h
      rw [← h]
      exact interp_onLine _ p q (by simp; omega) hsp hp hq x _ (by rw [hp1]; exact h0) (by rw [hq1]; exact h1) (hspec x)

/-- A table of three points: the line at 3/2 has the value of the map. -/
example : ∃ F d lab, MapFile.build "LERP" ⟨some (.one "point"), some (.one "e"), .point [0, 1, 2] [0, 10, 40]⟩ = .ok (.of1 F) ∧
    attributes "eff" ⟨some (.one "point"), some (.one "e"), .point [0, 1, 2] [0, 10, 40]⟩ = .ok d ∧
    plotRegular d [] = .ok (some (.line ([0, 1, 2].zip [0, 10, 40]) lab "eff")) ∧ F (3 / 2) = .ok 25 := by
  obtain ⟨F, d, lab, h1, h2, h3, _, h4⟩ := C97_line "eff" "LERP" (.inr rfl) (.one "e") [0, 1, 2] [0, 10, 40] [0, 1, 2] [0, 10, 40]
    (by simp [MapFile.pointTable]) rfl (by simp) (by norm_num) []
  refine ⟨F, d, lab, h1, h2, h3, (h4 (3 / 2) 25 0 2 rfl rfl (by norm_num) (by norm_num)).1 ⟨1, (1, 10), (2, 40), rfl, rfl, ?_, ?_, ?_⟩⟩ <;> norm_num

/-- **C97** is violated by tables with the method NN: the line rises between the points, the map jumps. -/
theorem C97_nearest_table_not_a_line :
    ∃ F, MapFile.build "NN" ⟨some (.one "point"), some (.one "e"), .point [0, 1] [0, 1]⟩ = .ok (.of1 F) ∧
      plotRegular ⟨"eff", .one "point", .one "e", .point [0, 1] [0, 1]⟩ [] = .ok (some (.line [(0, 0), (1, 1)] (.one "e") "eff")) ∧
      OnLine [(0, 0), (1, 1)] (1 / 4) (1 / 4) ∧ F (1 / 4) = .ok 0 := by
  obtain ⟨f, hf, h⟩ := Interp.C29_nn_point_map [0, 1] [0, 1] rfl (by simp)
  refine ⟨fun x => .ok (f x), ?_, ?_, ⟨0, (0, 0), (1, 1), rfl, rfl, by norm_num, by norm_num, by norm_num⟩, ?_⟩
  · simp [MapFile.build, MapFile.buildPoint, MapFile.pointTable, hf, MapFile.ofPoint]
  · simp [plotRegular, isPoint, plotPoint, plotLine, bind, Except.bind, pure, Except.pure, Except.map]
  · obtain ⟨i, r, v, h1, h2, h3, h4⟩ := h (1 / 4)
    match i, h1, h2 with
    | 0, h1, h2 => simp at h2; simp only [h3, ← h2]
    | 1, h1, h2 =>
      simp at h1
      subst h1
      have := h4 0 (by simp)
      norm_num at this
    | i + 2, h1, h2 => simp at h1

/-- **C97** is violated by logarithmic tables: the figure shows the stored values, the map returns their logarithms. -/
theorem C97_log_table (coords map : List ℝ) (hlen : coords.length = map.length) (hs : coords.Pairwise (· < ·))
    (hc : ∀ a ∈ coords, Interp.floatPosMin ≤ a ∧ a ≤ Interp.floatPosMax) (n : CoordName) (hn : n ≠ .one "pdf" ∧ n ≠ .one "cdf")
    (name : String) :
    ∃ F d, MapFile.build "IDW" ⟨some (.one "log_point"), some n, .point coords map⟩ = .ok (.of1 F) ∧
      attributes name ⟨some (.one "log_point"), some n, .point coords map⟩ = .ok d ∧
      plotRegular d [] = .ok (some (.line (coords.zip map) n name)) ∧
      ∀ (k : Nat) (r v : ℝ), coords[k]? = some r → map[k]? = some v → Interp.floatPosMin ≤ v → v ≤ Interp.floatPosMax →
        (r, v) ∈ coords.zip map ∧ F r = .ok (Real.logb 10 v) := by
  have ht : MapFile.pointTable n coords map = .ok (coords, map) := by simp [MapFile.pointTable, hn.1]
  have hpos : ∀ a ∈ coords, 0 < a := fun a ha => lt_of_lt_of_le Interp.floatPosMin_pos (hc a ha).1
  obtain ⟨f, hf⟩ := (Interp.C32_point_coordinates_checked "IDW" true coords map (by simp [Interp.pointMethod])).2 (fun _ => hpos)
  refine ⟨fun x => .ok (f x), ⟨name, .one "log_point", n, .point coords map⟩, ?_, ?_, ?_, ?_⟩
  · simp [MapFile.build, MapFile.buildPoint, hn.1, hn.2, ht, hf, MapFile.ofPoint]
  · simp [attributes, ht, Except.map, hn.1]
  · simp [plotRegular, isPoint, plotPoint, plotLine, hlen, bind, Except.bind, pure, Except.pure, Except.map]
  · intro k r v hr hv h1 h2
    refine ⟨?_, ?_⟩
    · obtain ⟨w, hw, hz⟩ := Interp.zip_get coords map hlen k r hr
      rw [hv] at hw; cases hw
      exact List.mem_of_getElem? hz
    · obtain ⟨f', hf', h'⟩ := Interp.C32_log_point_returns_logarithm coords map hlen hs hc k r v hr hv ⟨h1, h2⟩
      rw [hf] at hf'; cases hf'
      simp only [h']

example : ∃ F, MapFile.build "IDW" ⟨some (.one "log_point"), some (.one "e"), .point [1, 10] [100, 1000]⟩ = .ok (.of1 F) ∧
    ((1 : ℝ), (100 : ℝ)) ∈ [(1 : ℝ), 10].zip [(100 : ℝ), 1000] ∧ F 1 = .ok (Real.logb 10 100) := by
  have b1 : Interp.floatPosMin ≤ 1 := by unfold Interp.floatPosMin; norm_num
  have b2 : (1000 : ℝ) ≤ Interp.floatPosMax := by unfold Interp.floatPosMax; norm_num
  obtain ⟨F, d, h1, _, _, h⟩ := C97_log_table [1, 10] [100, 1000] rfl (by norm_num)
    (by
      intro a ha
      simp only [List.mem_cons, List.not_mem_nil, or_false] at ha
      rcases ha with rfl | rfl <;> constructor <;> linarith) (.one "e") (by decide) "eff"
  exact ⟨F, h1, h 0 1 100 rfl rfl (by linarith) (by linarith)⟩

/-! ### Images -/

theorem flags_eq (ct : CoordType) (n : Nat) (flags : List Bool) (h : MapFile.logAxes ct n = .ok flags) : flagsOf ct n = flags := by
  cases ct with
  | one s => simpa [MapFile.logAxes, flagsOf] using h
  | axes l =>
    simp only [MapFile.logAxes] at h
    split at h
    · cases h
    · simpa [flagsOf] using h

theorem regular_branch (ct : CoordType) (h : IsRegular ct) : isPoint ct = false ∧ isReg ct = true := by
  cases ct with
  | axes l => exact ⟨by simp [isPoint], rfl⟩
  | one s => rcases h with rfl | rfl <;> exact ⟨by decide, by decide⟩

/-- What is drawn of a map with two axes. -/
theorem plot_two (name : String) (ct : CoordType) (cn : CoordName) (x0 x1 : String) (hreg : IsRegular ct) (a0 a1 : Interp.Axis ℝ)
    (g : Interp.Grid2 ℝ) (l0 l1 : Bool) (hfl : flagsOf ct 2 = [l0, l1]) (h0 : 1 ≤ g.n0) (h1 : 1 ≤ g.n1) :
    ∃ img, plotRegular ⟨name, ct, cn, .reg [x0, x1] [a0.lo, a1.lo] [a0.hi, a1.hi]
        ⟨[g.n0, g.n1], fun i => g.val (i.getD 0 0) (i.getD 1 0)⟩⟩ [] =
        .ok (some (.image img (axisLabel ⟨x0, a0.lo, a0.hi, l0⟩) (axisLabel ⟨x1, a1.lo, a1.hi, l1⟩) name)) ∧
      img.left = position l0 a0.lo - step (position l0 a0.lo) (position l0 a0.hi) g.n0 / 2 ∧
      img.right = position l0 a0.lo + step (position l0 a0.lo) (position l0 a0.hi) g.n0 * ((g.n0 : ℝ) - 1 / 2) ∧
      img.bottom = position l1 a1.lo - step (position l1 a1.lo) (position l1 a1.hi) g.n1 / 2 ∧
      img.top = position l1 a1.lo + step (position l1 a1.lo) (position l1 a1.hi) g.n1 * ((g.n1 : ℝ) - 1 / 2) ∧
      img.rows = g.n1 ∧ img.cols = g.n0 ∧ ∀ row col, img.val row col = g.val col row := by
  obtain ⟨hp, hr⟩ := regular_branch ct hreg
  obtain ⟨e0, he0, hl0, hr0⟩ := shown_edges ⟨x0, a0.lo, a0.hi, l0⟩ g.n0 h0
  obtain ⟨e1, he1, hl1, hr1⟩ := shown_edges ⟨x1, a1.lo, a1.hi, l1⟩ g.n1 h1
  simp only at he0 he1 hl0 hr0 hl1 hr1
  refine ⟨⟨shownEdge l0 (e0.1.headD 0), shownEdge l0 (e0.1.getLastD 0), shownEdge l1 (e1.1.headD 0), shownEdge l1 (e1.1.getLastD 0),
      g.n1, g.n0, fun row col => g.val col row⟩, ?_, hl0, hr0, hl1, hr1, rfl, rfl, fun _ _ => rfl⟩
  have hax : axesOf ct [x0, x1] [a0.lo, a1.lo] [a0.hi, a1.hi] = [⟨x0, a0.lo, a0.hi, l0⟩, ⟨x1, a1.lo, a1.hi, l1⟩] := by
    simp [axesOf, hfl]
  simp only [plotRegular, hp, hr, Bool.false_eq_true, if_false, if_true, hax]
  have hc : collapseMap ⟨[g.n0, g.n1], fun i => g.val (i.getD 0 0) (i.getD 1 0)⟩
      [⟨x0, a0.lo, a0.hi, l0⟩, ⟨x1, a1.lo, a1.hi, l1⟩] [] = .ok (⟨[g.n0, g.n1], fun i => g.val (i.getD 0 0) (i.getD 1 0)⟩,
      [⟨x0, a0.lo, a0.hi, l0⟩, ⟨x1, a1.lo, a1.hi, l1⟩]) := by
    simp [collapseMap, collapseOps, pure, Except.pure]
  rw [hc]
  simp only [bind, Except.bind, drawReg, plotImage, he0, he1, pure, Except.pure, Except.map, List.getD_cons_zero, List.getD_cons_succ]

/-- **C97 (grids).** The image of a map with two axes and the method NN shows, inside each pixel, the value the map returns there; on a
logarithmic axis the logarithm of the coordinate is drawn, and the axis is labelled so. -/
theorem C97_image (name : String) (f : File) (ct : CoordType) (x0 x1 : String) (a0 a1 : Interp.Axis ℝ) (g : Interp.Grid2 ℝ) (l0 l1 : Bool)
    (hct : f.ctype = some ct) (hreg : IsRegular ct) (hcn : f.cname = some (.axes [x0, x1])) (hb : f.body = .reg2 a0 a1 g)
    (b : MapFile.Built) (h : MapFile.build "NN" f = .ok b) (h0 : 1 ≤ g.n0) (h1 : 1 ≤ g.n1)
    (ha0 : g.n0 = 1 ∨ a0.lo < a0.hi) (ha1 : g.n1 = 1 ∨ a1.lo < a1.hi)
    (hl0 : l0 = true ↔ IsLogAxis ct 0) (hl1 : l1 = true ↔ IsLogAxis ct 1)
    (hr0 : Usable l0 a0.lo ∧ Usable l0 a0.hi) (hr1 : Usable l1 a1.lo ∧ Usable l1 a1.hi) :
    ∃ F d img, b = .of2 F ∧ attributes name f = .ok d ∧
      plotRegular d [] = .ok (some (.image img (if l0 then "log10(" ++ x0 ++ ")" else x0) (if l1 then "log10(" ++ x1 ++ ")" else x1) name)) ∧
      ∀ x y v, Usable l0 x → Usable l1 y → img.Shows (position l0 x) (position l1 y) v → F x y = .ok v := by
  obtain ⟨ct', flags, hct', hfl, ha⟩ := MapFile.build_of_regbin "NN" f b h _ (by rw [hb]; rfl)
  rw [hct] at hct'; cases hct'
  obtain ⟨hlen, hflag⟩ := MapFile.logAxes_ok _ _ _ hfl
  have hf2 : flags = [l0, l1] := by
    match flags, hlen with
    | [u, v], _ =>
      have e0 := hflag 0 (by simp)
      have e1 := hflag 1 (by simp)
      simp at e0 e1
      rw [← hl0] at e0
      rw [← hl1] at e1
      congr 1
      · exact Bool.eq_iff_iff.2 e0
      · congr 1; exact Bool.eq_iff_iff.2 e1
  subst hf2
  rw [hb] at ha
  simp only [MapFile.applyRegbin, List.getD_cons_zero, List.getD_cons_succ] at ha
  cases ha
  obtain ⟨img, hplot, hL, hR, hB, hT, hrows, hcols, hval⟩ := plot_two name ct (.axes [x0, x1]) x0 x1 hreg a0 a1 g l0 l1
    (flags_eq ct 2 _ (by simpa [MapFile.Body.edges] using hfl)) h0 h1
  refine ⟨_, _, img, rfl, by simp [attributes, hct, hcn, hb]; rfl, hplot, ?_⟩
  rintro x y v hx hy ⟨row, col, hrow, hcol, hinx, hiny, rfl⟩
  rw [hcols] at hcol hinx
  rw [hrows] at hrow hiny
  have n0 := nearest_of_inside ⟨x0, a0.lo, a0.hi, l0⟩ g.n0 col (fun hl => lt_of_lt_of_le Interp.floatPosMin_pos (hr0.1 hl).1) ha0 hcol
    (position l0 x) img.left img.right hL hR hinx
  have n1 := nearest_of_inside ⟨x1, a1.lo, a1.hi, l1⟩ g.n1 row (fun hl => lt_of_lt_of_le Interp.floatPosMin_pos (hr1.1 hl).1) ha1 hrow
    (position l1 y) img.bottom img.top hB hT hiny
  simp only at n0 n1
  simp only [Interp.nn2d, position_preprocess _ _ hx, position_preprocess _ _ hy, position_preprocess _ _ hr0.1, position_preprocess _ _ hr0.2,
    position_preprocess _ _ hr1.1, position_preprocess _ _ hr1.2, n0, n1, hval]
  rw [Interp.wrap_of_range _ _ (by omega) (by omega), Interp.wrap_of_range _ _ (by omega) (by omega)]
  simp

/-- The picture of a small map shows the value 0 at (1/4, 0), which the map returns there. -/
example : ∃ F, MapFile.build "NN" ⟨some (.one "regbin"), some (.axes ["x", "y"]), .reg2 ⟨0, 1⟩ ⟨0, 1⟩ ⟨2, 2, fun i _ => i⟩⟩ = .ok (.of2 F) ∧
    F (1 / 4) 0 = .ok 0 := by
  have hb : ∃ F, MapFile.build "NN" ⟨some (.one "regbin"), some (.axes ["x", "y"]), .reg2 ⟨0, 1⟩ ⟨0, 1⟩ ⟨2, 2, fun i _ => i⟩⟩ = .ok (.of2 F) := by
    refine ⟨fun x y => .ok (Interp.nn2d (⟨2, 2, fun i _ => i⟩ : Interp.Grid2 ℝ) ⟨0, 1⟩ ⟨0, 1⟩ x y), ?_⟩
    have : MapFile.logAxes (.one "regbin") 2 = .ok [false, false] := by decide +kernel
    simp [MapFile.build, MapFile.buildRegbin, MapFile.Body.edges, this, MapFile.namesOk, MapFile.applyRegbin,
      Interp.validateRegbin, Interp.preprocess]
  obtain ⟨F, hF⟩ := hb
  obtain ⟨F', d, img, hFF, hd, hp, hall⟩ := C97_image "m" _ (.one "regbin") "x" "y" ⟨0, 1⟩ ⟨0, 1⟩ ⟨2, 2, fun i _ => i⟩ false false rfl (.inl rfl) rfl rfl
    _ hF (by norm_num) (by norm_num) (.inr (by norm_num)) (.inr (by norm_num)) (by simp [IsLogAxis]) (by simp [IsLogAxis])
    ⟨by simp [Usable], by simp [Usable]⟩ ⟨by simp [Usable], by simp [Usable]⟩
  cases hFF
  obtain ⟨img', hplot, hL, hR, hB, hT, hrows, hcols, hval⟩ := plot_two "m" (.one "regbin") (.axes ["x", "y"]) "x" "y" (.inl rfl) ⟨0, 1⟩ ⟨0, 1⟩
    ⟨2, 2, fun i _ => i⟩ false false (by decide) (by norm_num) (by norm_num)
  injection hd with hd
  subst hd
  simp only [nameList] at hp
  rw [hplot] at hp
  simp only [Except.ok.injEq, Option.some.injEq, Pic.image.injEq] at hp
  obtain ⟨rfl, -⟩ := hp
  refine ⟨F, hF, hall (1 / 4) 0 0 (by simp [Usable]) (by simp [Usable]) ⟨0, 0, by rw [hrows]; norm_num, by rw [hcols]; norm_num, ?_, ?_, by rw [hval]; simp⟩⟩
  · rw [hcols, hL, hR]; constructor <;> norm_num [position, step]
  · rw [hrows, hB, hT]; constructor <;> norm_num [position, step]

theorem inside_node (lo s left right : ℝ) (n i : Nat) (hn : 0 < n) (hs : 0 < s) (hl : left = lo - s / 2)
    (hr : right = lo + s * ((n : ℝ) - 1 / 2)) : Inside left right n i (lo + s * i) := by
  have hn' : (0 : ℝ) < n := by exact_mod_cast hn
  have hw : right - left = s * n := by rw [hl, hr]; ring
  unfold Inside
  rw [hw]
  have e1 : left + s * n * (i / n) = lo + s * i - s / 2 := by rw [hl]; field_simp; ring
  have e2 : left + s * n * ((i + 1) / n) = lo + s * i + s / 2 := by rw [hl]; field_simp; ring
  rw [e1, e2]
  constructor <;> linarith

theorem position_axisNode (l : Bool) (n : Nat) (a : Interp.Axis ℝ) (i : Nat) (hn : 2 ≤ n) (ha : a.lo < a.hi) (hl : l = true → 0 < a.lo) :
    position l (MapFile.axisNode l n a i) = position l a.lo + step (position l a.lo) (position l a.hi) n * i := by
  have hn1 : n ≠ 1 := by omega
  have hn2 : (n : ℝ) - 1 ≠ 0 := by
    have : (2 : ℝ) ≤ n := by exact_mod_cast hn
    linarith
  cases l with
  | false => simp [position, MapFile.axisNode, step, hn1]; ring
  | true =>
    have h0 := hl rfl
    have hd : 0 < a.hi / a.lo := div_pos (by linarith) h0
    simp only [position, MapFile.axisNode, step, hn1, if_true, if_false]
    rw [Real.logb_mul (by linarith) (by positivity), Real.logb_rpow_eq_mul_logb_of_pos hd, Real.logb_div (by linarith) (by linarith)]
    ring

/-- **C97 (grids).** With the linear method the image shows the value of the map at the nodes. -/
theorem C97_image_at_nodes (name : String) (f : File) (ct : CoordType) (x0 x1 : String) (a0 a1 : Interp.Axis ℝ) (g : Interp.Grid2 ℝ) (l0 l1 : Bool)
    (hct : f.ctype = some ct) (hreg : IsRegular ct) (hcn : f.cname = some (.axes [x0, x1])) (hb : f.body = .reg2 a0 a1 g)
    (b : MapFile.Built) (h : MapFile.build "LERP" f = .ok b) (h0 : 2 ≤ g.n0) (h1 : 2 ≤ g.n1) (ha0 : a0.lo < a0.hi) (ha1 : a1.lo < a1.hi)
    (hl0 : l0 = true ↔ IsLogAxis ct 0) (hl1 : l1 = true ↔ IsLogAxis ct 1)
    (hr0 : Usable l0 a0.lo ∧ Usable l0 a0.hi) (hr1 : Usable l1 a1.lo ∧ Usable l1 a1.hi) :
    ∃ F d img, b = .of2 F ∧ attributes name f = .ok d ∧
      plotRegular d [] = .ok (some (.image img (if l0 then "log10(" ++ x0 ++ ")" else x0) (if l1 then "log10(" ++ x1 ++ ")" else x1) name)) ∧
      ∀ i j, i < g.n0 → j < g.n1 →
        F (MapFile.axisNode l0 g.n0 a0 i) (MapFile.axisNode l1 g.n1 a1 j) = .ok (g.val i j) ∧
        img.Shows (position l0 (MapFile.axisNode l0 g.n0 a0 i)) (position l1 (MapFile.axisNode l1 g.n1 a1 j)) (g.val i j) := by
  obtain ⟨F, hF, hnode⟩ := MapFile.C92_stored_value_at_nodes f a0 a1 g ct l0 l1 hct hb b h h0 h1 ha0 ha1 hl0 hl1
    (fun hl => ⟨(hr0.1 hl).1, (hr0.2 hl).2⟩) (fun hl => ⟨(hr1.1 hl).1, (hr1.2 hl).2⟩)
  obtain ⟨ct', flags, hct', hfl, ha⟩ := MapFile.build_of_regbin "LERP" f b h _ (by rw [hb]; rfl)
  rw [hct] at hct'; cases hct'
  obtain ⟨hlen, hflag⟩ := MapFile.logAxes_ok _ _ _ hfl
  have hf2 : flags = [l0, l1] := by
    match flags, hlen with
    | [u, v], _ =>
      have e0 := hflag 0 (by simp)
      have e1 := hflag 1 (by simp)
      simp at e0 e1
      rw [← hl0] at e0
      rw [← hl1] at e1
      congr 1
      · exact Bool.eq_iff_iff.2 e0
      · congr 1; exact Bool.eq_iff_iff.2 e1
  subst hf2
  obtain ⟨img, hplot, hL, hR, hB, hT, hrows, hcols, hval⟩ := plot_two name ct (.axes [x0, x1]) x0 x1 hreg a0 a1 g l0 l1
    (flags_eq ct 2 _ (by simpa [MapFile.Body.edges] using hfl)) (by omega) (by omega)
  have p0 : l0 = true → 0 < a0.lo := fun hl => lt_of_lt_of_le Interp.floatPosMin_pos (hr0.1 hl).1
  have p1 : l1 = true → 0 < a1.lo := fun hl => lt_of_lt_of_le Interp.floatPosMin_pos (hr1.1 hl).1
  have q0 := position_lt ⟨x0, a0.lo, a0.hi, l0⟩ g.n0 p0 (.inr ha0)
  have q1 := position_lt ⟨x1, a1.lo, a1.hi, l1⟩ g.n1 p1 (.inr ha1)
  refine ⟨F, _, img, hF, by simp [attributes, hct, hcn, hb]; rfl, hplot, fun i j hi hj => ⟨hnode i j hi hj, j, i, ?_, ?_, ?_, ?_, ?_⟩⟩
  · rw [hrows]; exact hj
  · rw [hcols]; exact hi
  · rw [hcols, position_axisNode l0 g.n0 a0 i h0 ha0 p0]
    exact inside_node _ _ _ _ _ _ (by omega) (step_pos _ _ _ (by omega) q0) hL hR
  · rw [hrows, position_axisNode l1 g.n1 a1 j h1 ha1 p1]
    exact inside_node _ _ _ _ _ _ (by omega) (step_pos _ _ _ (by omega) q1) hB hT
  · rw [hval]

/-- A grid with a linear and a logarithmic axis: the value 21 of the corner is shown at (1, log10 100). -/
example : ∃ F img, MapFile.build "LERP" MapFile.mixedFile = .ok (.of2 F) ∧ F 1 100 = .ok 21 ∧ Image.Shows img 1 2 21 ∧
    (attributes "m" MapFile.mixedFile).bind (fun d => plotRegular d []) = .ok (some (.image img "cdf" "log10(energy)" "m")) := by
  have b1 : Interp.floatPosMin ≤ 1 := by unfold Interp.floatPosMin; norm_num
  have b2 : (100 : ℝ) ≤ Interp.floatPosMax := by unfold Interp.floatPosMax; norm_num
  obtain ⟨b, hb⟩ := (MapFile.C92_regbin_accepted "LERP" MapFile.mixedFile (.axes ["regbin", "log_regbin"]) rfl trivial).2
    ⟨_, _, rfl, rfl, by simp, by
      intro names i name hn hi hp
      simp only [CoordName.axes.injEq] at hn
      subst hn
      match i, hi with
      | 0, hi => simp [IsLogAxis]
      | 1, hi => simp at hi; subst hi; simp at hp
      | i + 2, hi => simp at hi, .inr ⟨.inl rfl, by simp⟩, by
      intro i a hi hl
      match i, hi with
      | 0, hi => simp [IsLogAxis] at hl
      | 1, hi => simp at hi; subst hi; norm_num
      | i + 2, hi => simp at hi⟩
  obtain ⟨F, d, img, rfl, hd, hp, hall⟩ := C97_image_at_nodes "m" MapFile.mixedFile (.axes ["regbin", "log_regbin"]) "cdf" "energy" ⟨0, 1⟩ ⟨1, 100⟩
    ⟨2, 3, fun i j => i + 10 * j⟩ false true rfl trivial rfl rfl b hb (by norm_num) (by norm_num) (by norm_num) (by norm_num)
    (by simp [IsLogAxis]) (by simp [IsLogAxis]) ⟨by simp [Usable], by simp [Usable]⟩
    ⟨fun _ => ⟨b1, by linarith⟩, fun _ => ⟨by linarith, b2⟩⟩
  obtain ⟨h1, h2⟩ := hall 1 2 (by norm_num) (by norm_num)
  have e0 : MapFile.axisNode false 2 ⟨0, 1⟩ 1 = 1 := by norm_num [MapFile.axisNode]
  have e1 : MapFile.axisNode true 3 ⟨1, 100⟩ 2 = 100 := by norm_num [MapFile.axisNode]
  have e2 : position true 100 = 2 := by
    simp only [position, if_true]
    rw [show (100 : ℝ) = 10 ^ (2 : ℝ) by norm_num]
    exact Real.logb_rpow (by norm_num) (by norm_num)
  rw [e0, e1] at h1 h2
  rw [e2] at h2
  refine ⟨F, img, hb, ?_, ?_, ?_⟩
  · rw [h1]; norm_num
  · have : (21 : ℝ) = ((1 : ℕ) : ℝ) + 10 * ((2 : ℕ) : ℝ) := by norm_num
    rw [this]; simpa [position] using h2
  · rw [hd]; exact hp

/-- **C97** is violated between the nodes of maps with the linear method: the image is constant in a pixel, the map is not. -/
theorem C97_linear_grid_between_nodes :
    ∃ F img, MapFile.build "LERP" ⟨some (.one "regbin"), some (.axes ["x", "y"]), .reg2 ⟨0, 1⟩ ⟨0, 1⟩ ⟨2, 2, fun i _ => i⟩⟩ = .ok (.of2 F) ∧
      (attributes "m" ⟨some (.one "regbin"), some (.axes ["x", "y"]), .reg2 ⟨0, 1⟩ ⟨0, 1⟩ ⟨2, 2, fun i _ => i⟩⟩).bind
        (fun d => plotRegular d []) = .ok (some (.image img "x" "y" "m")) ∧
      img.Shows (1 / 4) 0 0 ∧ F (1 / 4) 0 = .ok (1 / 4) := by
  obtain ⟨img, hplot, hL, hR, hB, hT, hrows, hcols, hval⟩ := plot_two "m" (.one "regbin") (.axes ["x", "y"]) "x" "y" (.inl rfl) ⟨0, 1⟩ ⟨0, 1⟩
    ⟨2, 2, fun i _ => i⟩ false false (by decide) (by norm_num) (by norm_num)
  have hb : ∃ F, MapFile.build "LERP" ⟨some (.one "regbin"), some (.axes ["x", "y"]), .reg2 ⟨0, 1⟩ ⟨0, 1⟩ ⟨2, 2, fun i _ => i⟩⟩ = .ok (.of2 F) ∧
      F = fun x y => .ok (Interp.bilinear (⟨2, 2, fun i _ => i⟩ : Interp.Grid2 ℝ) ⟨0, 1⟩ ⟨0, 1⟩ x y) := by
    refine ⟨_, ?_, rfl⟩
    have : MapFile.logAxes (.one "regbin") 2 = .ok [false, false] := by decide +kernel
    simp [MapFile.build, MapFile.buildRegbin, MapFile.Body.edges, this, MapFile.namesOk, MapFile.applyRegbin,
      Interp.validateRegbin, Interp.preprocess]
  obtain ⟨F, hF, rfl⟩ := hb
  refine ⟨_, img, hF, ?_, ⟨0, 0, by rw [hrows]; norm_num, by rw [hcols]; norm_num, ?_, ?_, by rw [hval]; simp⟩, ?_⟩
  · simpa [attributes, Except.bind, nameList, axisLabel] using hplot
  · rw [hcols, hL, hR]; constructor <;> norm_num [position, step]
  · rw [hrows, hB, hT]; constructor <;> norm_num [position, step]
  · have hfl : Interp.cell 2 ((1 : ℝ) / 4) = 0 := by
      unfold Interp.cell
      rw [show ⌊(1 : ℝ) / 4⌋ = 0 by norm_num]
      decide
    have hfl0 : Interp.cell 2 (0 : ℝ) = 0 := by
      unfold Interp.cell
      rw [show ⌊(0 : ℝ)⌋ = 0 by norm_num]
      decide
    have f0 : Interp.frac 2 ⟨0, 1⟩ ((1 : ℝ) / 4) = 1 / 4 := by norm_num [Interp.frac, Interp.binSize]
    have f1 : Interp.frac 2 ⟨0, 1⟩ (0 : ℝ) = 0 := by norm_num [Interp.frac, Interp.binSize]
    simp only [Interp.bilinear, f0, f1, Interp.offset, hfl, hfl0]
    norm_num [Interp.clip, Interp.wrap]

end Verif.MapPic
