/-
Helper lemmas for C135: strictly increasing conversions of coordinates and edges.
-/
import Verif.Spec.Units
import Verif.Lemmas.WholeChain

namespace Verif.Hist
variable {K W : Type*} [LinearOrder K] [Add W] [Zero W]

theorem searchLeft_map {f : K → K} (hf : StrictMono f) (bins : List K) (x : Option K) :
    searchLeft (bins.map f) (x.map f) = searchLeft bins x := by
  cases x with
  | none => simp [searchLeft]
  | some x => simp [searchLeft, List.countP_map, Function.comp_def, hf.lt_iff_lt]

theorem searchRight_map {f : K → K} (hf : StrictMono f) (bins : List K) (x : Option K) :
    searchRight (bins.map f) (x.map f) = searchRight bins x := by
  cases x with
  | none => simp [searchRight]
  | some x => simp [searchRight, List.countP_map, Function.comp_def, hf.le_iff_le]

theorem meshIndex_map {f : K → K} (hf : StrictMono f) (bins : List K) (x : Option K) :
    meshIndex (bins.map f) (x.map f) = meshIndex bins x := by
  unfold meshIndex
  rw [searchRight_map hf, List.getLast?_map]
  have : (x.map f).isSome ∧ x.map f = bins.getLast?.map f ↔ x.isSome ∧ x = bins.getLast? := by
    rw [(Option.map_injective hf.injective).eq_iff, Option.isSome_map]
  simp only [this]

theorem hist1d_map {f : K → K} (hf : StrictMono f) (bins : List K) (sw : List (Option K × W)) :
    hist1d (bins.map f) (sw.map (fun p => (p.1.map f, p.2))) = hist1d bins sw := by
  unfold hist1d
  rw [List.foldl_map]
  simp only [searchLeft_map hf, List.length_map]

theorem mesh1d_map {f : K → K} (hf : StrictMono f) (bins : List K) (sw : List (Option K × W)) :
    mesh1d (bins.map f) (sw.map (fun p => (p.1.map f, p.2))) = mesh1d bins sw := by
  unfold mesh1d
  rw [List.foldl_map]
  simp only [meshIndex_map hf, List.length_map]

theorem gatherRow_map {α β : Type*} (g : α → β) (rows : List (List α)) (i : Int) :
    gatherRow (rows.map (fun r => r.map g)) i = (gatherRow rows i).map g := by
  unfold gatherRow
  simp only [List.length_map, List.getElem?_map]
  cases rows[(max 0 (min (if i < 0 then i + (rows.length : Int) else i) ((rows.length : Int) - 1))).toNat]? <;> simp

theorem index2d_map {f g : K → K} (hf : StrictMono f) (hg : StrictMono g) (x : List K) (y : List (List K)) (p : Option K × Option K) :
    index2d (x.map f) (y.map (fun r => r.map g)) (p.1.map f, p.2.map g) = index2d x y p := by
  simp only [index2d, searchLeft_map hf, gatherRow_map, searchLeft_map hg]

theorem hist2d_map {f g : K → K} (hf : StrictMono f) (hg : StrictMono g) (x : List K) (y : List (List K)) (m : Nat)
    (sw : List ((Option K × Option K) × W)) :
    hist2d (x.map f) (y.map (fun r => r.map g)) m (sw.map (fun p => ((p.1.1.map f, p.1.2.map g), p.2))) = hist2d x y m sw := by
  unfold hist2d
  rw [List.foldl_map]
  simp only [index2d_map hf hg, List.length_map]

theorem mesh2d_map {f g : K → K} (hf : StrictMono f) (hg : StrictMono g) (x y : List K) (sw : List ((Option K × Option K) × W)) :
    mesh2d (x.map f) (y.map g) (sw.map (fun p => ((p.1.1.map f, p.1.2.map g), p.2))) = mesh2d x y sw := by
  unfold mesh2d
  rw [List.foldl_map]
  simp only [meshIndex_map hf, meshIndex_map hg, List.length_map]

end Verif.Hist

namespace Verif.Llh
open Verif Comp

section
variable {F : Type} [Field F] [LinearOrder F]

/-! ### Histograms -/

theorem dims_binsIn (t : Nat → F → F) (bins : Bins F) : (binsIn t bins).dims = bins.dims := by cases bins <;> rfl

theorem rawHist_inUnits {t : Nat → F → F} (ht : ∀ i, StrictMono (t i)) (bins : Bins F) (cols : List (List F)) (eff : List F) :
    rawHist (binsIn t bins) (colsIn t cols) eff = rawHist bins cols eff := by
  have s1 : ∀ c : List F, samples1 (c.map (t 0)) eff = (samples1 c eff).map (fun p => (p.1.map (t 0), p.2)) := by
    intro c
    simp only [samples1, List.map_map, List.zip_map_left]
    rfl
  have s2 : ∀ c d : List F, samples2 (c.map (t 0)) (d.map (t 1)) eff
      = (samples2 c d eff).map (fun p => ((p.1.1.map (t 0), p.1.2.map (t 1)), p.2)) := by
    intro c d
    have e0 : (c.map (t 0)).map some = (c.map some).map (Option.map (t 0)) := by simp [Function.comp_def]
    have e1 : (d.map (t 1)).map some = (d.map some).map (Option.map (t 1)) := by simp [Function.comp_def]
    rw [samples2, e0, e1, List.zip_map, List.zip_map_left]
    rfl
  have hl : ∀ y : List (List F), ((y.map (fun r => r.map (t 1))).head?.getD []).length = (y.head?.getD []).length := by
    intro y; cases y <;> simp
  match bins, cols with
  | .irreg1 b, [c] => simp only [binsIn, colsIn, List.mapIdx_cons, List.mapIdx_nil, rawHist, s1, Hist.hist1d_map (ht 0)]
  | .irreg2 x y, [c, d] =>
    simp only [binsIn, colsIn, List.mapIdx_cons, List.mapIdx_nil, rawHist, s2, Hist.hist2d_map (ht 0) (ht 1), hl, Nat.zero_add]
  | .mesh1 b, [c] => simp only [binsIn, colsIn, List.mapIdx_cons, List.mapIdx_nil, rawHist, s1, Hist.mesh1d_map (ht 0)]
  | .mesh2 x y, [c, d] =>
    simp only [binsIn, colsIn, List.mapIdx_cons, List.mapIdx_nil, rawHist, s2, Hist.mesh2d_map (ht 0) (ht 1), Nat.zero_add]
  | .irreg1 b, [] => rfl
  | .irreg1 b, _ :: _ :: _ => simp [binsIn, colsIn, rawHist, List.mapIdx_cons]
  | .irreg2 x y, [] => rfl
  | .irreg2 x y, [_] => rfl
  | .irreg2 x y, _ :: _ :: _ :: _ => simp [binsIn, colsIn, rawHist, List.mapIdx_cons]
  | .mesh1 b, [] => rfl
  | .mesh1 b, _ :: _ :: _ => simp [binsIn, colsIn, rawHist, List.mapIdx_cons]
  | .mesh2 x y, [] => rfl
  | .mesh2 x y, [_] => rfl
  | .mesh2 x y, _ :: _ :: _ :: _ => simp [binsIn, colsIn, rawHist, List.mapIdx_cons]
  | .irregOther n, _ => simp [binsIn, rawHist]
  | .unset n, _ => simp [binsIn, rawHist]

theorem implementBinning_inUnits {t : Nat → F → F} (ht : ∀ i, StrictMono (t i)) (cfg : HistCfg F) (cols : List (List F)) (eff : List F) :
    implementBinning { cfg with bins := binsIn t cfg.bins } (colsIn t cols) eff = implementBinning cfg cols eff := by
  simp only [implementBinning, rawHist_inUnits ht]

theorem normalization_inUnits (t : Nat → F → F) (cfg : HistCfg F) (h : List (List F)) (rate batch : F) :
    normalization { cfg with bins := binsIn t cfg.bins } h rate batch = normalization cfg h rate batch := rfl

/-! ### Data -/

theorem entry_rowIn (t : Nat → F → F) (row : List (Option F)) (i : Nat) : entry (rowIn t row) i = (entry row i).map (t i) := by
  unfold entry rowIn
  rw [List.getElem?_mapIdx]
  cases row[i]? <;> simp

theorem inside_map {f : F → F} (hf : StrictMono f) (c : F × F) (v : Option F) : inside (clipIn f c) (v.map f) = inside c v := by
  cases v <;> simp [inside, clipIn, hf.lt_iff_lt]

theorem need_map (f : F → F) (c : Option (F × F)) : need (c.map (clipIn f)) = (need c).map (clipIn f) := by cases c <;> rfl

theorem select_inUnits {t : Nat → F → F} (ht : ∀ i, StrictMono (t i)) (dim : Nat) (cfg : Config F) (rows : List (List (Option F))) :
    select dim (configIn t cfg) (rows.map (rowIn t)) = (select dim cfg rows).map (fun r => r.map (rowIn t)) := by
  unfold select
  split
  · simp only [configIn, need_map]
    cases need cfg.clip with
    | error e => rfl
    | ok c =>
      simp only [Except.map, bind, Except.bind, pure, Except.pure, List.filter_map, Function.comp_def, entry_rowIn, inside_map (ht 0)]
  · split
    · rfl
    · simp only [configIn, need_map]
      cases need cfg.xClip with
      | error e => rfl
      | ok c =>
        cases need cfg.yClip with
        | error e => rfl
        | ok c' =>
          simp only [Except.map, bind, Except.bind, pure, Except.pure, List.filter_map, Function.comp_def, entry_rowIn, inside_map (ht 0),
            inside_map (ht 1)]

theorem makeDataHist_inUnits {t : Nat → F → F} (ht : ∀ i, StrictMono (t i)) (bins : Bins F) (rows : List (List (Option F))) :
    makeDataHist (binsIn t bins) (rows.map (rowIn t)) = makeDataHist bins rows := by
  have s1 : unit1 (rows.map (rowIn t)) = (unit1 rows).map (fun p => (p.1.map (t 0), p.2)) := by
    simp only [unit1, List.map_map, Function.comp_def, entry_rowIn]
  have s2 : unit2 (rows.map (rowIn t)) = (unit2 rows).map (fun p => ((p.1.1.map (t 0), p.1.2.map (t 1)), p.2)) := by
    simp only [unit2, List.map_map, Function.comp_def, entry_rowIn]
  have hl : ∀ y : List (List F), ((y.map (fun r => r.map (t 1))).head?.getD []).length = (y.head?.getD []).length := by
    intro y; cases y <;> simp
  cases bins <;>
    simp only [binsIn, makeDataHist, s1, s2, hl, Hist.hist1d_map (ht 0), Hist.mesh1d_map (ht 0), Hist.hist2d_map (ht 0) (ht 1),
      Hist.mesh2d_map (ht 0) (ht 1)]

theorem validate_inUnits (t : Nat → F → F) (x : List F) (y : List (List F)) :
    validateIrreg2 (x.map (t 0)) (y.map (fun r => r.map (t 1))) = validateIrreg2 x y := by
  unfold validateIrreg2
  simp only [List.length_map]
  split
  · rfl
  · cases y with
    | nil => rfl
    | cons r y => simp [List.all_map, Function.comp_def]

theorem clipEdges_inUnits [IsStrictOrderedRing F] {f : F → F} (hf : StrictMono f) (c : F × F) (e : List F) :
    clipEdges (clipIn f c) (e.map f) = (clipEdges c e).map f := by
  simp only [clipEdges, clipIn, List.map_append, List.map_cons, List.map_nil, List.map_map, Function.comp_def, Interp.clip,
    hf.monotone.map_max, hf.monotone.map_min]

theorem linspace_inUnits [IsStrictOrderedRing F] {f : F → F} (hf : Affine f) (lo hi : F) (n : Nat) :
    Interp.linspace (f lo) (f hi) n = (Interp.linspace lo hi n).map f := by
  obtain ⟨a, c, h⟩ := hf
  simp only [Interp.linspace, List.map_map, Function.comp_def, h]
  refine List.map_congr_left fun i _ => ?_
  ring

/-- Where the edges come from, and what the conversion has to be for them to be converted as well. -/
def Convertible (t : Nat → F → F) (eq eq' : Equi F) (cfg : Config F) (specs : List (BinSpec F)) : Prop :=
  (∀ s ∈ specs, ∀ n, s ≠ .int n) ∨ (cfg.binsType ≠ "equiprob" ∧ Affine (t 0) ∧ Affine (t 1)) ∨ (cfg.binsType = "equiprob" ∧ Follows t eq eq')

theorem resolveMesh_inUnits [IsStrictOrderedRing F] {f : F → F} (s : BinSpec F) (c : F × F) (h : (∀ n, s ≠ .int n) ∨ Affine f) :
    resolveMesh (specIn f s) (clipIn f c) = (resolveMesh s c).map (fun e => e.map f) := by
  cases s with
  | int n =>
    rcases h with h | h
    · exact absurd rfl (h n)
    · simp only [specIn, resolveMesh, Except.map, clipIn, linspace_inUnits h]
  | edges e => rfl
  | rows r => rfl

theorem setBinning_inUnits [IsStrictOrderedRing F] {t : Nat → F → F} (ht : ∀ i, StrictMono (t i)) (eq eq' : Equi F) (dim : Nat) (cfg : Config F)
    (specs : List (BinSpec F)) (rows : List (List (Option F))) (hc : Convertible t eq eq' cfg specs) :
    setBinning eq' dim (configIn t cfg) (specs.mapIdx (fun i s => specIn (t i) s)) (rows.map (rowIn t))
      = (setBinning eq dim cfg specs rows).map (fun r => (binsIn t r.1, r.2)) := by
  unfold setBinning
  have hty : (configIn t cfg).binsType = cfg.binsType := rfl
  have c0 : (configIn t cfg).clip = cfg.clip.map (clipIn (t 0)) := rfl
  have c1 : (configIn t cfg).xClip = cfg.xClip.map (clipIn (t 0)) := rfl
  have c2 : (configIn t cfg).yClip = cfg.yClip.map (clipIn (t 1)) := rfl
  rw [hty]
  split
  · rfl
  split
  · rename_i hm
    have hs : ∀ s ∈ specs, ∀ i < 2, (∀ n, s ≠ .int n) ∨ Affine (t i) := by
      intro s hs i hi
      rcases hc with h | ⟨-, h0, h1⟩ | ⟨h, -⟩
      · exact .inl (h s hs)
      · match i, hi with
        | 0, _ => exact .inr h0
        | 1, _ => exact .inr h1
      · rw [hm] at h; exact absurd h (by decide)
    match specs, hs with
    | [], _ => rfl
    | [s], hs =>
      simp only [List.mapIdx_cons, List.mapIdx_nil, c0, need_map]
      cases need cfg.clip with
      | error e => rfl
      | ok c =>
        simp only [Except.map, bind, Except.bind]
        rw [resolveMesh_inUnits s c (hs s (by simp) 0 (by omega))]
        cases resolveMesh s c with
        | error e => rfl
        | ok e =>
          simp only [Except.map, pure, Except.pure]
          rw [← makeDataHist_inUnits ht (.mesh1 e) rows]
          rfl
    | [s, s'], hs =>
      simp only [List.mapIdx_cons, List.mapIdx_nil, c1, c2, need_map, Nat.zero_add]
      cases need cfg.xClip with
      | error e => rfl
      | ok c =>
        simp only [Except.map, bind, Except.bind]
        rw [resolveMesh_inUnits s c (hs s (by simp) 0 (by omega))]
        cases resolveMesh s c with
        | error e => rfl
        | ok e =>
          simp only [Except.map]
          cases need cfg.yClip with
          | error e => rfl
          | ok c' =>
            simp only
            rw [resolveMesh_inUnits s' c' (hs s' (by simp) 1 (by omega))]
            cases resolveMesh s' c' with
            | error e => rfl
            | ok e' =>
              simp only [Except.map, pure, Except.pure]
              rw [← makeDataHist_inUnits ht (.mesh2 e e') rows]
              rfl
    | _ :: _ :: _ :: _, _ => simp [List.mapIdx_cons, Except.map]
  split
  · rename_i hm
    have hs : (∀ s ∈ specs, ∀ n, s ≠ .int n) ∨ Follows t eq eq' := by
      rcases hc with h | ⟨h, -⟩ | ⟨-, h⟩
      · exact .inl h
      · exact absurd hm h
      · exact .inr h
    match specs, hs with
    | [], _ => rfl
    | [.int n], hs =>
      have hs := hs.resolve_left (fun h => h _ (by simp) n rfl)
      simp only [List.mapIdx_cons, List.mapIdx_nil, specIn, c0, need_map]
      cases need cfg.clip with
      | error e => rfl
      | ok c =>
        simp only [Except.map, bind, Except.bind, pure, Except.pure, hs.one, clipEdges_inUnits (ht 0)]
        rw [← makeDataHist_inUnits ht (.irreg1 _) rows]
        rfl
    | [.edges _], _ => rfl
    | [.rows _], _ => rfl
    | [.int n, .int m], hs =>
      have hs := hs.resolve_left (fun h => h _ (by simp) n rfl)
      simp only [List.mapIdx_cons, List.mapIdx_nil, specIn, c1, c2, need_map]
      cases need cfg.xClip with
      | error e => rfl
      | ok c =>
        cases need cfg.yClip with
        | error e => rfl
        | ok c' =>
          simp only [Except.map, bind, Except.bind, pure, Except.pure, hs.two, clipEdges_inUnits (ht 0), List.map_map, Function.comp_def,
            clipEdges_inUnits (ht 1)]
          rw [← makeDataHist_inUnits ht (.irreg2 _ _) rows]
          simp only [binsIn, List.map_map, Function.comp_def]
    | [.int _, .edges _], _ => rfl
    | [.int _, .rows _], _ => rfl
    | [.edges _, _], _ => simp [List.mapIdx_cons, Except.map, specIn]
    | [.rows _, _], _ => simp [List.mapIdx_cons, Except.map, specIn]
    | _ :: _ :: _ :: _, _ => simp [List.mapIdx_cons, Except.map]
  split
  · match specs with
    | [] => rfl
    | [.int n] => rfl
    | [.edges e] =>
      simp only [List.mapIdx_cons, List.mapIdx_nil, specIn, c0, need_map]
      cases need cfg.clip with
      | error e => rfl
      | ok c =>
        simp only [Except.map, bind, Except.bind, pure, Except.pure]
        rw [← makeDataHist_inUnits ht (.irreg1 _) rows]
        rfl
    | [.rows _] => rfl
    | [.edges x, .rows y] =>
      simp only [List.mapIdx_cons, List.mapIdx_nil, specIn, c1, c2, need_map, Nat.zero_add]
      cases need cfg.xClip with
      | error e => rfl
      | ok c =>
        cases need cfg.yClip with
        | error e => rfl
        | ok c' =>
          simp only [Except.map, bind, Except.bind, pure, Except.pure, validate_inUnits]
          cases validateIrreg2 x y with
          | error e => rfl
          | ok _ =>
            simp only
            rw [← makeDataHist_inUnits ht (.irreg2 _ _) rows]
            rfl
    | [.int _, _] => simp [List.mapIdx_cons, Except.map, specIn]
    | [.rows _, _] => simp [List.mapIdx_cons, Except.map, specIn]
    | [.edges _, .int _] => rfl
    | [.edges _, .edges _] => rfl
    | _ :: _ :: _ :: _ => simp [List.mapIdx_cons, Except.map]
  · rfl

/-- A freshly built likelihood in other units. -/
def builtIn (t : Nat → F → F) (b : Built F) : Built F :=
  { b with data := b.data.map (rowIn t), bins := binsIn t b.bins }

theorem init_inUnits [IsStrictOrderedRing F] {t : Nat → F → F} (ht : ∀ i, StrictMono (t i)) (eq eq' : Equi F) (cfg : Config F)
    (load : List String → Res (List (List (Option F))))
    (hc : ∀ on specs, normalise cfg.binsOn cfg.bins = .ok (on, specs) → Convertible t eq eq' cfg specs) :
    init eq' (configIn t cfg) (loadIn t load) = (init eq cfg load).map (builtIn t) := by
  unfold init
  have hn : normalise (configIn t cfg).binsOn (configIn t cfg).bins
      = (normalise cfg.binsOn cfg.bins).map (fun r => (r.1, r.2.mapIdx (fun i s => specIn (t i) s))) := by
    simp only [configIn]
    cases cfg.binsOn <;> cases cfg.bins <;> rfl
  rw [hn]
  cases h : normalise cfg.binsOn cfg.bins with
  | error e => rfl
  | ok r =>
    obtain ⟨on, specs⟩ := r
    simp only [Except.map, bind, Except.bind, sanityCheck, List.length_mapIdx]
    split
    · rfl
    rename_i heq
    simp only [loadIn]
    cases load on with
    | error e => rfl
    | ok rows =>
      simp only [Except.map]
      rw [select_inUnits ht]
      cases select on.length cfg rows with
      | error e => rfl
      | ok d =>
        simp only [Except.map]
        rw [setBinning_inUnits ht eq eq' on.length cfg specs d (hc on specs h)]
        cases setBinning eq on.length cfg specs d with
        | error e => rfl
        | ok r => rfl

/-! ### Weighted data -/

theorem axis_binsIn (t : Nat → F → F) (bins : Bins F) (i : Nat) : (binsIn t bins).axis i = (bins.axis i).map (t i) := by
  match bins, i with
  | .irreg1 _, 0 => rfl
  | .irreg1 _, _ + 1 => rfl
  | .irreg2 _ _, 0 => rfl
  | .irreg2 _ y, 1 => simp [binsIn, Bins.axis, List.map_flatten]
  | .irreg2 _ _, _ + 2 => rfl
  | .mesh1 _, 0 => rfl
  | .mesh1 _, _ + 1 => rfl
  | .mesh2 _ _, 0 => rfl
  | .mesh2 _ _, 1 => rfl
  | .mesh2 _ _, _ + 2 => rfl
  | .irregOther _, _ => rfl
  | .unset _, _ => rfl

theorem strictlyInside_map {f : F → F} (hf : StrictMono f) (e : List F) (v : F) : strictlyInside (e.map f) (f v) = strictlyInside e v := by
  unfold strictlyInside
  simp only [List.mem_map, exists_exists_and_eq_and, forall_exists_index, and_imp, forall_apply_eq_imp_iff₂, hf.le_iff_le, hf.lt_iff_lt]

theorem clipMask_inUnits {t : Nat → F → F} (ht : ∀ i, StrictMono (t i)) (bins : Bins F) (cols : List (List F)) (n : Nat) :
    clipMask (binsIn t bins) (colsIn t cols) n = clipMask bins cols n := by
  unfold clipMask colsIn
  have : ∀ (cs : List (List F)) (k : Nat) (m : List Bool),
      ((cs.mapIdx (fun i c => c.map (t (k + i)))).zipIdx k).foldl
        (fun m c => m.zipWith (· && ·) (c.1.map (strictlyInside ((binsIn t bins).axis c.2)))) m
      = (cs.zipIdx k).foldl (fun m c => m.zipWith (· && ·) (c.1.map (strictlyInside (bins.axis c.2)))) m := by
    intro cs
    induction cs with
    | nil => intros; rfl
    | cons c cs ih =>
      intro k m
      simp only [List.mapIdx_cons, List.zipIdx_cons, List.foldl_cons, Nat.add_zero]
      have e : cs.mapIdx (fun i c => c.map (t (k + (i + 1)))) = cs.mapIdx (fun i c => c.map (t (k + 1 + i))) := by
        congr 1; funext i c; rw [Nat.add_right_comm, Nat.add_assoc]
      rw [e, ih (k + 1)]
      congr 2
      rw [List.map_map, axis_binsIn]
      congr 1
      funext v
      exact strictlyInside_map (ht k) _ v
  have h := this cols 0 (List.replicate n true)
  simpa using h

theorem applyMask_map {α β : Type} (f : α → β) (mask : List Bool) (a : List α) : applyMask mask (a.map f) = (applyMask mask a).map f := by
  unfold applyMask
  rw [List.zip_map_left, List.filterMap_map, List.map_filterMap]
  refine List.filterMap_congr fun p _ => ?_
  simp only [Function.comp_def, Prod.map, id]
  split <;> simp_all

theorem clipResult_inUnits {t : Nat → F → F} (ht : ∀ i, StrictMono (t i)) (bins : Bins F) (cols : List (List F)) (last : List F) :
    clipResult (binsIn t bins) (colsIn t cols) last = (colsIn t (clipResult bins cols last).1, (clipResult bins cols last).2) := by
  simp only [clipResult, clipMask_inUnits ht]
  congr 1
  unfold colsIn
  refine List.ext_getElem? fun i => ?_
  simp only [List.getElem?_map, List.getElem?_mapIdx]
  cases cols[i]? with
  | none => rfl
  | some c => simp only [Option.map_some, applyMask_map]

end

/-! ### Samples -/

section
variable {t : Nat → ℝ → ℝ} (ht : ∀ i, StrictMono (t i))
include ht

theorem upper_inUnits (e : List ℝ) (j : Nat) (row : List (Option ℝ)) (k : Nat) :
    InUpper (e.map (t k)) j (rowIn t row) k ↔ InUpper e j row k := by
  unfold InUpper rowIn
  simp only [List.getElem?_map, List.getElem?_mapIdx, Option.map_eq_some_iff]
  constructor
  · rintro ⟨_, _, _, ⟨lo, h1, rfl⟩, ⟨hi, h2, rfl⟩, ⟨v, h3, h4⟩, h5, h6⟩
    obtain ⟨v, rfl, rfl⟩ := h4
    exact ⟨lo, hi, v, h1, h2, h3, (ht k).lt_iff_lt.1 h5, (ht k).le_iff_le.1 h6⟩
  · rintro ⟨lo, hi, v, h1, h2, h3, h5, h6⟩
    exact ⟨_, _, _, ⟨lo, h1, rfl⟩, ⟨hi, h2, rfl⟩, ⟨some v, h3, v, rfl, rfl⟩, (ht k).lt_iff_lt.2 h5, (ht k).le_iff_le.2 h6⟩

theorem lower_inUnits (e : List ℝ) (j : Nat) (row : List (Option ℝ)) (k : Nat) :
    InLower (e.map (t k)) j (rowIn t row) k ↔ InLower e j row k := by
  unfold InLower rowIn
  simp only [List.getElem?_map, List.getElem?_mapIdx, Option.map_eq_some_iff, List.length_map]
  constructor
  · rintro ⟨_, _, _, ⟨lo, h1, rfl⟩, ⟨hi, h2, rfl⟩, ⟨v, h3, h4⟩, h5, h6⟩
    obtain ⟨v, rfl, rfl⟩ := h4
    exact ⟨lo, hi, v, h1, h2, h3, (ht k).le_iff_le.1 h5, h6.imp (ht k).lt_iff_lt.1 fun h => ⟨h.1, (ht k).injective h.2⟩⟩
  · rintro ⟨lo, hi, v, h1, h2, h3, h5, h6⟩
    exact ⟨_, _, _, ⟨lo, h1, rfl⟩, ⟨hi, h2, rfl⟩, ⟨some v, h3, v, rfl, rfl⟩, (ht k).le_iff_le.2 h5,
      h6.imp (ht k).lt_iff_lt.2 fun h => ⟨h.1, by rw [h.2]⟩⟩

theorem eventIn_inUnits (bins : Bins ℝ) (i j : Nat) (row : List (Option ℝ)) :
    EventIn (binsIn t bins) i j (rowIn t row) ↔ EventIn bins i j row := by
  cases bins with
  | irreg1 e => exact upper_inUnits ht e j row 0
  | mesh1 e => exact lower_inUnits ht e j row 0
  | mesh2 x y => exact and_congr (lower_inUnits ht x i row 0) (lower_inUnits ht y j row 1)
  | irreg2 x y =>
    refine and_congr (upper_inUnits ht x i row 0) ?_
    simp only [List.getElem?_map, Option.map_eq_some_iff]
    constructor
    · rintro ⟨_, ⟨r, h1, rfl⟩, h2⟩
      exact ⟨r, h1, (upper_inUnits ht r j row 1).1 h2⟩
    · rintro ⟨r, h1, h2⟩
      exact ⟨_, ⟨r, h1, rfl⟩, (upper_inUnits ht r j row 1).2 h2⟩
  | irregOther n => exact Iff.rfl
  | unset n => exact Iff.rfl

omit ht in
theorem binList_inUnits (bins : Bins ℝ) : binList (binsIn t bins) = binList bins := by
  unfold binList
  congr 1
  cases bins <;> simp [binsIn, binShape]
  rename_i x y
  intro i _
  cases y[i]? <;> simp

omit ht in
theorem eventRows_inUnits (cols : List (List ℝ)) : eventRows (colsIn t cols) = (eventRows cols).map (rowIn t) := by
  match cols with
  | [] => rfl
  | [c] => simp [colsIn, eventRows, rowIn, Function.comp_def]
  | [c, d] => simp [colsIn, eventRows, rowIn, List.zipWith_map, List.map_zipWith]
  | _ :: _ :: _ :: _ => simp [colsIn, eventRows, List.mapIdx_cons]

theorem countIn_inUnits (bins : Bins ℝ) (rows : List (List (Option ℝ))) (c : Nat × Nat) :
    countIn (binsIn t bins) (rows.map (rowIn t)) c = countIn bins rows c := by
  unfold countIn
  rw [List.countP_map]
  refine List.countP_congr fun r _ => ?_
  simp [eventIn_inUnits ht]

omit ht in
theorem weightOf_congr {P P' : List (Option ℝ) → Prop} [DecidablePred P] [DecidablePred P'] (h : ∀ r, P' (rowIn t r) ↔ P r)
    (sw : List (List (Option ℝ) × ℝ)) : Hist.weightOf P' (sw.map (fun p => (rowIn t p.1, p.2))) = Hist.weightOf P sw := by
  unfold Hist.weightOf
  rw [List.filter_map, List.map_map]
  congr 2
  refine List.filter_congr fun r _ => ?_
  simp [h]

open Classical in
theorem content_inUnits (s : Sample ℝ) (c : Nat × Nat) : (s.inUnits t).content c = s.content c := by
  have hw : Hist.weightOf (EventIn (s.inUnits t).cfg.bins c.1 c.2) ((eventRows (s.inUnits t).cols).zip (s.inUnits t).eff)
      = Hist.weightOf (EventIn s.cfg.bins c.1 c.2) ((eventRows s.cols).zip s.eff) := by
    have e : (eventRows (s.inUnits t).cols).zip (s.inUnits t).eff = ((eventRows s.cols).zip s.eff).map (fun p => (rowIn t p.1, p.2)) := by
      show (eventRows (colsIn t s.cols)).zip s.eff = _
      rw [eventRows_inUnits, List.zip_map_left]
      rfl
    rw [e]
    exact weightOf_congr (eventIn_inUnits ht s.cfg.bins c.1 c.2) _
  unfold Sample.content
  dsimp only
  rw [hw]
  rfl

theorem expected_inUnits (s : Sample ℝ) (c : Nat × Nat) : (s.inUnits t).expected c = s.expected c ∧ (s.inUnits t).norm = s.norm := by
  have hn : (s.inUnits t).norm = s.norm := by
    unfold Sample.norm
    have : (s.inUnits t).content = s.content := funext (content_inUnits ht s)
    rw [this]
    simp only [Sample.inUnits, binList_inUnits]
    rfl
  refine ⟨?_, hn⟩
  unfold Sample.expected
  rw [hn, content_inUnits ht]
  rfl

theorem expectedIn_inUnits (ss : List (Sample ℝ)) (c : Nat × Nat) : expectedIn (ss.map (Sample.inUnits t)) c = expectedIn ss c := by
  unfold expectedIn
  rw [List.map_map]
  congr 1
  exact List.map_congr_left fun s _ => (expected_inUnits ht s c).1

theorem binnedLogL_inUnits (bins : Bins ℝ) (rows : List (List (Option ℝ))) (ss : List (Sample ℝ)) :
    binnedLogL (binsIn t bins) (rows.map (rowIn t)) (ss.map (Sample.inUnits t)) = binnedLogL bins rows ss := by
  unfold binnedLogL
  simp only [binList_inUnits, countIn_inUnits ht, expectedIn_inUnits ht]

theorem ascending_inUnits {bins : Bins ℝ} (h : Ascending bins) : Ascending (binsIn t bins) := by
  have key : ∀ (i : Nat) (e : List ℝ), e.Pairwise (· ≤ ·) → (e.map (t i)).Pairwise (· ≤ ·) :=
    fun i e he => List.pairwise_map.2 (he.imp fun {a b} hab => (ht i).monotone hab)
  cases bins with
  | irreg1 e => exact key 0 e h
  | mesh1 e => exact key 0 e h
  | mesh2 x y => exact ⟨key 0 x h.1, key 1 y h.2⟩
  | irreg2 x y =>
    obtain ⟨h1, h2, m, h3⟩ := h
    refine ⟨key 0 x h1, by simpa using h2, m, fun row hr => ?_⟩
    obtain ⟨r, hr', rfl⟩ := List.mem_map.1 hr
    exact ⟨by rw [List.length_map]; exact (h3 r hr').1, key 1 r (h3 r hr').2⟩
  | irregOther n => exact h
  | unset n => exact h

end

/-! ### Plugins -/

section
variable {K : Type} (U : Units)

theorem Units.unval_val (d : String) (v : PVal) : U.unval d (U.val d v) = v := by
  cases v <;> simp [Units.val, Units.unval, Function.comp_def, U.back_conv]

theorem unval_args (val : String → PVal) (ds : List String) :
    List.zipWith U.unval ds (ds.map (fun d => U.val d (val d))) = ds.map val := by
  rw [List.zipWith_map_right, List.zipWith_self]
  exact List.map_congr_left fun d _ => U.unval_val d _

theorem evaluates_inUnits {S : Setup K} {q : PyDict String ℝ} {needed : String → Prop} {val : String → PVal} {order : List Plugin} {k k' : K}
    (h : Evaluates (S.sem q) needed val order k k') :
    Evaluates ((S.inUnits U).sem q) needed (fun d => U.val d (val d)) order k k' := by
  induction h with
  | nil => exact .nil
  | @cons p ps k k' k'' outs h1 h2 _ ih =>
    refine .cons (k' := k') (outs := List.zipWith U.val p.provides outs) ?_ ?_ ih
    · simp only [Setup.inUnits, unval_args, h1, Except.map]
    · intro i d hd hn
      rw [List.getElem?_zipWith, hd, h2 i d hd hn]

theorem draws_inUnits {S : Setup K} {parts : List Part} {order order' : String → List Plugin} {batch : Int}
    {q : PyDict String ℝ} {k k' : K} {ss : List (Sample ℝ)} (ho : ∀ a, Part.sim a ∈ parts → order a.comp = order' a.comp)
    (h : Draws S order batch q parts k ss k') :
    Draws (S.inUnits U) order' batch q (parts.map (Part.inUnits (U.axes S.binsOn))) k (ss.map (Sample.inUnits (U.axes S.binsOn))) k' := by
  induction h with
  | nil => exact .nil _
  | @sim a ps k k' ss k'' val cols eff rate h1 h2 h3 h4 h5 _ ih =>
    refine .sim (val := fun d => U.val d (val d)) (by rw [h1]; rfl) ?_ ?_ ?_ h5 (ih fun a ha => ho a (by simp [ha]))
    · rw [← ho a (by simp)]
      exact evaluates_inUnits U h2
    · show S.binsOn.map (fun d => U.val d (val d)) = _
      refine List.ext_getElem? fun i => ?_
      have h := congrArg (fun l => l[i]?) h3
      simp only [List.getElem?_map] at h ⊢
      simp only [colsIn, List.getElem?_mapIdx]
      cases hb : S.binsOn[i]? with
      | none =>
        rw [hb] at h
        cases hc : cols[i]? with
        | none => rfl
        | some c => rw [hc] at h; cases h
      | some d =>
        rw [hb] at h
        cases hc : cols[i]? with
        | none => rw [hc] at h; cases h
        | some c =>
          rw [hc] at h
          simp only [Option.map_some, Option.some.injEq] at h ⊢
          rw [h]
          simp only [Units.val, Units.axes, hb, Option.getD_some]
    · simp only [h4, Units.val, U.eff, List.map_id]
  | fixed h1 _ ih => exact .fixed h1 (ih fun a ha => ho a (by simp [ha]))

theorem proper_inUnits {S : Setup K} {bins : Bins ℝ} {parts : List Part} (hS : S.Proper bins parts) :
    (S.inUnits U).Proper (binsIn (U.axes S.binsOn) bins) (parts.map (Part.inUnits (U.axes S.binsOn))) := by
  have hsim : ∀ a, Part.sim a ∈ parts.map (Part.inUnits (U.axes S.binsOn)) → Part.sim a ∈ parts := by
    intro a ha
    obtain ⟨p, hp, h⟩ := List.mem_map.1 ha
    cases p with
    | sim a' => simp only [Part.inUnits, Part.sim.injEq] at h; rw [← h]; exact hp
    | fixed n d m => simp [Part.inUnits] at h
  exact
  { aliases := hS.aliases
    bins_eq := by
      intro p hp
      obtain ⟨p0, hp0, rfl⟩ := List.mem_map.1 hp
      have : (p0.inUnits (U.axes S.binsOn)).name = p0.name := by cases p0 <;> rfl
      rw [this]
      simp only [Setup.inUnits, hS.bins_eq p0 hp0]
    ascending := ascending_inUnits (fun i => U.mono _) hS.ascending
    dims := by rw [dims_binsIn]; exact hS.dims
    no_eff := hS.no_eff
    no_batch := hS.no_batch
    provides := fun a ha => hS.provides a (hsim a ha)
    sole := fun a ha => hS.sole a (hsim a ha)
    returns := by
      intro a ha d p hd hp q k args hl
      obtain ⟨k', outs, h1, h2, h3⟩ := hS.returns a (hsim a ha) d p hd hp q k (List.zipWith U.unval p.dependsOn args) (by simp [hl])
      refine ⟨k', List.zipWith U.val p.provides outs, by simp only [Setup.inUnits, h1, Except.map], by simp [h2], ?_⟩
      intro o ho
      obtain ⟨i, hi⟩ := List.mem_iff_getElem?.1 ho
      rw [List.getElem?_zipWith] at hi
      cases hd : p.provides[i]? with
      | none => rw [hd] at hi; cases hi
      | some d =>
        rw [hd] at hi
        cases ho' : outs[i]? with
        | none => rw [ho'] at hi; cases hi
        | some o' =>
          rw [ho'] at hi
          obtain ⟨c, rfl⟩ := h3 o' (List.mem_of_getElem? ho')
          exact ⟨_, (Option.some.inj hi).symm⟩
    tables := by
      intro n d m hm
      obtain ⟨p, hp, h⟩ := List.mem_map.1 hm
      cases p with
      | sim a' => simp [Part.inUnits] at h
      | fixed n' d' m' =>
        simp only [Part.inUnits, Part.fixed.injEq] at h
        obtain ⟨rfl, rfl, rfl⟩ := h
        rw [dims_binsIn, ← hS.tables _ _ _ hp]
        simp [colsIn] }

end
end Verif.Llh
