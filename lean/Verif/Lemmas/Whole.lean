/-
Helper lemmas for the chain from samples to histograms (C79).
-/
import Verif.Spec.Whole
import Verif.Lemmas.Likelihood
import Verif.Lemmas.CompHist

namespace Verif.Llh
open Verif

section
variable {V : Type}

theorem cells_cons (n : Nat) (shape : List Nat) :
    cells (n :: shape) = (List.range n).map (fun j => (0, j)) ++ (cells shape).map (fun b => (b.1 + 1, b.2)) := by
  unfold cells
  rw [List.zipIdx_cons, List.flatMap_cons, List.zipIdx_succ, List.map_flatMap, List.flatMap_map]
  simp [Function.comp_def]

theorem mem_cells (shape : List Nat) (b : Nat × Nat) : b ∈ cells shape ↔ ∃ n, shape[b.1]? = some n ∧ b.2 < n := by
  obtain ⟨i, j⟩ := b
  induction shape generalizing i with
  | nil => simp [cells]
  | cons n shape ih =>
    rw [cells_cons, List.mem_append]
    cases i with
    | zero => simp
    | succ i =>
      simp only [List.mem_map, List.mem_range, Prod.mk.injEq, List.getElem?_cons_succ]
      have := ih i
      simp only at this
      rw [← this]
      constructor
      · rintro (⟨_, _, h, _⟩ | ⟨⟨a, c⟩, h, h1, h2⟩)
        · cases h
        · simp only at h1 h2
          obtain rfl : a = i := by omega
          subst h2
          exact h
      · intro h
        exact Or.inr ⟨(i, j), h, rfl, rfl⟩

theorem nodup_cells (shape : List Nat) : (cells shape).Nodup := by
  induction shape with
  | nil => simp [cells]
  | cons n shape ih =>
    rw [cells_cons, List.nodup_append]
    refine ⟨List.Nodup.map (fun a b h => by simpa using h) List.nodup_range,
      ih.map (fun a b h => by obtain ⟨a1, a2⟩ := a; obtain ⟨b1, b2⟩ := b; simpa using h), ?_⟩
    intro a ha b hb
    simp only [List.mem_map] at ha hb
    obtain ⟨_, _, rfl⟩ := ha
    obtain ⟨_, _, rfl⟩ := hb
    simp

theorem flatten_cells (g : Grid V) (d : V) :
    g.flatten = (cells (g.map List.length)).map (fun b => (at? g b.1 b.2).getD d) := by
  induction g with
  | nil => simp [cells]
  | cons r g ih =>
    rw [List.map_cons, cells_cons, List.map_append, List.flatten_cons, ih, List.map_map, List.map_map]
    congr 1
    apply List.ext_getElem
    · simp
    · intro k h1 h2
      simp only [List.getElem_map, Function.comp_apply, at?, List.getElem?_cons_zero, Option.bind_some, List.getElem_range]
      rw [List.getElem?_eq_getElem h1]
      rfl

end

section
variable {F : Type} [Field F] [LinearOrder F]

theorem mem_binList (bins : Comp.Bins F) (ha : Ascending bins) (i j : Nat) : (i, j) ∈ binList bins ↔ IsBin bins i j := by
  unfold binList
  rw [mem_cells]
  cases bins with
  | irreg1 e =>
    simp only [binShape, IsBin]
    cases i with
    | zero => simp; omega
    | succ i => simp
  | mesh1 e =>
    simp only [binShape, IsBin]
    cases i with
    | zero => simp; omega
    | succ i => simp
  | mesh2 x y =>
    simp only [binShape, IsBin, List.getElem?_replicate]
    constructor
    · rintro ⟨n, h1, h2⟩
      split at h1
      · cases h1; omega
      · cases h1
    · rintro ⟨h1, h2⟩
      exact ⟨_, if_pos (by omega), by omega⟩
  | irreg2 x y =>
    obtain ⟨_, hlen, _⟩ := ha
    simp only [binShape, IsBin, List.getElem?_map]
    constructor
    · rintro ⟨n, h1, h2⟩
      by_cases hi : i < x.length - 1
      · rw [List.getElem?_range hi, Option.map_some] at h1
        cases h1
        have hy : i < y.length := by omega
        rw [List.getElem?_eq_getElem hy] at h2 ⊢
        exact ⟨by omega, _, rfl, by simpa using (by simpa using h2 : j < y[i].length - 1) |> fun h => by omega⟩
      · rw [List.getElem?_eq_none (by simpa using hi)] at h1
        cases h1
    · rintro ⟨h1, r, hr, h2⟩
      refine ⟨r.length - 1, ?_, by omega⟩
      rw [List.getElem?_range (by omega), Option.map_some, hr]
      rfl
  | irregOther n => exact absurd ha id
  | unset n => exact absurd ha id

theorem weightOf_map {S T : Type} (f : T → S) (p : S → Prop) (q : T → Prop) [DecidablePred p] [DecidablePred q]
    (sw : List (T × F)) (h : ∀ t, p (f t) ↔ q t) :
    Hist.weightOf p (sw.map (fun e => (f e.1, e.2))) = Hist.weightOf q sw := by
  induction sw with
  | nil => rfl
  | cons e sw ih =>
    rw [List.map_cons, Hist.weightOf_cons, Hist.weightOf_cons, ih]
    simp only [h]

theorem samples1_rows (c eff : List F) :
    Comp.samples1 c eff = ((eventRows [c]).zip eff).map (fun e => (entry e.1 0, e.2)) := by
  unfold Comp.samples1 eventRows
  induction c generalizing eff with
  | nil => simp
  | cons a c ih =>
    cases eff with
    | nil => simp
    | cons w eff => simp [entry, ih]

theorem samples2_rows (c d eff : List F) :
    Comp.samples2 c d eff = ((eventRows [c, d]).zip eff).map (fun e => ((entry e.1 0, entry e.1 1), e.2)) := by
  unfold Comp.samples2 eventRows
  induction c generalizing d eff with
  | nil => simp
  | cons a c ih =>
    cases d with
    | nil => simp
    | cons b d =>
      cases eff with
      | nil => simp
      | cons w eff => simp [entry, ih]

open Classical in
theorem rawHist_at (bins : Comp.Bins F) (ha : Ascending bins) (cols : List (List F)) (eff : List F)
    (hd : cols.length = bins.dims) :
    ∃ h, Comp.rawHist bins cols eff = .ok h ∧ h.map List.length = binShape bins ∧
      ∀ i j, IsBin bins i j → at? h i j = some (Hist.weightOf (EventIn bins i j) ((eventRows cols).zip eff)) := by
  cases bins with
  | irreg1 e =>
    obtain ⟨c, rfl⟩ := List.length_eq_one_iff.1 hd
    refine ⟨_, rfl, ?_, ?_⟩
    · simp [binShape, (Hist.C06_hist1d_bins e ha _).1]
    · rintro i j ⟨rfl, hj⟩
      simp only [at?, List.getElem?_cons_zero, Option.bind_some]
      rw [(Hist.C06_hist1d_bins e ha _).2 j hj, samples1_rows]
      rw [weightOf_map (fun r => entry r 0) _ (EventIn (.irreg1 e) 0 j) _ (fun r => inBin_iff e j hj r 0)]
  | mesh1 e =>
    obtain ⟨c, rfl⟩ := List.length_eq_one_iff.1 hd
    refine ⟨_, rfl, ?_, ?_⟩
    · simp [binShape, Hist.mesh1d_eq]
    · rintro i j ⟨rfl, hj⟩
      simp only [at?, List.getElem?_cons_zero, Option.bind_some]
      rw [Hist.C09_mesh1d_bins e ha _ j hj, samples1_rows]
      rw [weightOf_map (fun r => entry r 0) _ (EventIn (.mesh1 e) 0 j) _ (fun r => inMesh_iff e j hj r 0)]
  | irreg2 x y =>
    obtain ⟨c, d, rfl⟩ := List.length_eq_two.1 hd
    obtain ⟨hx, hlen, m, hm⟩ := ha
    refine ⟨_, rfl, ?_, ?_⟩
    · rw [Hist.hist2d_eq]
      simp only [binShape, List.map_map]
      apply List.map_congr_left
      intro i hi
      have hi' : i < y.length := by
        have := List.mem_range.1 hi
        omega
      have hhead : (y.head?.getD []).length = m := by
        cases y with
        | nil => simp at hi'
        | cons a y => exact (hm a (by simp)).1
      rw [List.getElem?_eq_getElem hi', Option.getD_some, (hm _ (List.getElem_mem hi')).1]
      simp [hhead]
    · rintro i j ⟨hi, r, hr, hj⟩
      have hhead : (y.head?.getD []).length = m := by
        cases y with
        | nil => simp at hr
        | cons a y => exact (hm a (by simp)).1
      simp only [at?]
      rw [hhead]
      obtain ⟨row, h1, h2⟩ := (Hist.C07_hist2d_bins x y m hx hlen hm (Comp.samples2 c d eff)).2.2 i j hi r hr hj
      rw [h1, Option.bind_some, h2, samples2_rows]
      rw [weightOf_map (fun r => (entry r 0, entry r 1)) _ (EventIn (.irreg2 x y) i j) _
        (fun q => by simp [EventIn, inBin_iff x i hi q 0, inBin_iff r j hj q 1, hr])]
  | mesh2 x y =>
    obtain ⟨c, d, rfl⟩ := List.length_eq_two.1 hd
    refine ⟨_, rfl, ?_, ?_⟩
    · rw [Hist.mesh2d_eq]
      simp only [binShape, List.map_map]
      apply List.ext_getElem
      · simp
      · intro k h1 h2
        simp
    · rintro i j ⟨hi, hj⟩
      obtain ⟨row, h1, _, h2⟩ := (Hist.C09_mesh2d_bins x y ha.1 ha.2 (Comp.samples2 c d eff)).2 i j hi hj
      simp only [at?]
      rw [h1, Option.bind_some, h2, samples2_rows]
      rw [weightOf_map (fun r => (entry r 0, entry r 1)) _ (EventIn (.mesh2 x y) i j) _
        (fun q => by simp [EventIn, ← inMesh_iff x i hi q 0, ← inMesh_iff y j hj q 1])]
  | irregOther n => exact absurd ha id
  | unset n => exact absurd ha id

theorem makeDataHist_shape (bins : Comp.Bins F) (ha : Ascending bins) (rows : List (List (Option F))) :
    (makeDataHist bins rows).map List.length = binShape bins := by
  cases bins with
  | irreg1 e => simp [makeDataHist, binShape, Hist.hist1d_eq]
  | mesh1 e => simp [makeDataHist, binShape, Hist.mesh1d_eq]
  | irreg2 x y =>
    obtain ⟨hx, hlen, m, hm⟩ := ha
    simp only [makeDataHist, Hist.hist2d_eq, binShape, List.map_map]
    apply List.map_congr_left
    intro i hi
    have hi' : i < y.length := by
      have := List.mem_range.1 hi
      omega
    have hhead : (y.head?.getD []).length = m := by
      cases y with
      | nil => simp at hi'
      | cons a y => exact (hm a (by simp)).1
    rw [List.getElem?_eq_getElem hi', Option.getD_some, (hm _ (List.getElem_mem hi')).1]
    simp [hhead]
  | mesh2 x y =>
    simp only [makeDataHist, Hist.mesh2d_eq, binShape, List.map_map]
    apply List.ext_getElem
    · simp
    · intro k h1 h2
      simp
  | irregOther n => exact absurd ha id
  | unset n => exact absurd ha id

theorem at?_map (f : F → F) (h : Grid F) (i j : Nat) (x : F) (hx : at? h i j = some x) :
    at? (h.map (fun r => r.map f)) i j = some (f x) := by
  unfold at? at hx ⊢
  rw [List.getElem?_map]
  cases hr : h[i]? with
  | none => rw [hr] at hx; simp at hx
  | some r => rw [hr] at hx; simp only [Option.bind_some, Option.map_some, List.getElem?_map] at hx ⊢; rw [hx]; rfl

theorem shape_map (f : F → F) (h : Grid F) : (h.map (fun r => r.map f)).map List.length = h.map List.length := by
  simp [Function.comp_def]

theorem total_eq_flatten (h : Grid F) : Comp.total h = h.flatten.sum := by
  unfold Comp.total
  rw [List.sum_flatten]

/-- The histogram of a component before normalisation. -/
theorem content_spec (s : Sample F) (ha : Ascending s.cfg.bins) (hd : s.cols.length = s.cfg.bins.dims) :
    ∃ h, Comp.implementBinning s.cfg s.cols s.eff = .ok h ∧ h.map List.length = binShape s.cfg.bins ∧
      (∀ i j, IsBin s.cfg.bins i j → at? h i j = some (s.content (i, j))) ∧
      Comp.total h = ((binList s.cfg.bins).map s.content).sum := by
  classical
  obtain ⟨h, h1, h2, h3⟩ := rawHist_at s.cfg.bins ha s.cols s.eff hd
  refine ⟨Comp.floorHist s.cfg.addEps s.eff h, ?_, ?_, ?_⟩
  · unfold Comp.implementBinning
    rw [h1]
    rfl
  · unfold Comp.floorHist
    split
    · rw [shape_map, h2]
    · exact h2
  · have hat : ∀ i j, IsBin s.cfg.bins i j → at? (Comp.floorHist s.cfg.addEps s.eff h) i j = some (s.content (i, j)) := by
      intro i j hij
      unfold Comp.floorHist Sample.content
      simp only
      split
      · rw [at?_map _ _ _ _ _ (h3 i j hij)]
        rfl
      · convert h3 i j hij
    refine ⟨hat, ?_⟩
    rw [total_eq_flatten, flatten_cells _ 0]
    have hs : (Comp.floorHist s.cfg.addEps s.eff h).map List.length = binShape s.cfg.bins := by
      unfold Comp.floorHist
      split
      · rw [shape_map, h2]
      · exact h2
    rw [hs]
    congr 1
    apply List.map_congr_left
    rintro ⟨i, j⟩ hb
    rw [hat i j ((mem_binList s.cfg.bins ha i j).1 hb)]
    rfl

/-- The histogram of a component. -/
theorem expected_spec (s : Sample F) (ha : Ascending s.cfg.bins) (hd : s.cols.length = s.cfg.bins.dims)
    (hn : s.Normalisable) (h : Grid F) (hb : Comp.implementBinning s.cfg s.cols s.eff = .ok h) :
    ∃ f, Comp.normalization s.cfg h s.rate s.simulated = .ok f ∧
      (Comp.scaleHist f h).map List.length = binShape s.cfg.bins ∧
      ∀ i j, IsBin s.cfg.bins i j → at? (Comp.scaleHist f h) i j = some (s.expected (i, j)) := by
  obtain ⟨h', e1, h2, h3, h4⟩ := content_spec s ha hd
  rw [hb] at e1
  cases e1
  have hf : Comp.normalization s.cfg h s.rate s.simulated = .ok (1 / s.norm * s.rate) := by
    unfold Comp.normalization Sample.norm
    rcases hn.1 with hn | ⟨hn, he⟩
    · rw [if_pos hn, if_pos hn, h4]
    · have hne : ¬ s.cfg.normType = "on_pdf" := by rw [hn]; decide
      rw [if_neg hne, if_neg hne, if_pos hn]
      rcases he with he | he <;> simp [he, Comp.useMcinput, bind, Except.bind, pure, Except.pure]
  refine ⟨_, hf, ?_, ?_⟩
  · unfold Comp.scaleHist
    rw [shape_map, h2]
  · intro i j hij
    unfold Comp.scaleHist
    rw [at?_map _ _ _ _ _ (h3 i j hij)]
    unfold Sample.expected
    congr 1
    ring

theorem simulateHist_spec (s : Sample F) (ha : Ascending s.cfg.bins) (hd : s.cols.length = s.cfg.bins.dims)
    (hn : s.Normalisable) :
    ∃ h, Comp.simulateHist s.cfg false (s.cols ++ [s.eff]) s.rate s.simulated = .ok h ∧
      h.map List.length = binShape s.cfg.bins ∧
      ∀ i j, IsBin s.cfg.bins i j → at? h i j = some (s.expected (i, j)) := by
  obtain ⟨h, h1, _, _, _⟩ := content_spec s ha hd
  obtain ⟨f, hf, h5, h6⟩ := expected_spec s ha hd hn h h1
  refine ⟨_, ?_, h5, h6⟩
  unfold Comp.simulateHist Comp.splitEff
  simp only [List.getLast?_append, List.getLast?_singleton, Option.some_or, List.dropLast_concat, Bool.false_eq_true, if_false,
    bind, Except.bind, hd, ne_eq, not_true_eq_false, h1, hf]
  rfl

end
end Verif.Llh
