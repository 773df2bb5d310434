/- Helper lemmas about the geometry of maps and collapsing. -/
import Verif.Model.Plot
import Verif.Spec.Plot
import Mathlib.Tactic.Linarith
import Mathlib.Tactic.FieldSimp
import Mathlib.Tactic.Ring
import Mathlib.Tactic.NormNum
import Mathlib.Tactic.Push

namespace Verif.Plot
open Verif

/-! ### Edges and centres -/

/-- The distance of neighbouring nodes (1 for a single node). -/
noncomputable def step (lo hi : ℝ) (n : Nat) : ℝ := if n = 1 then 1 else (hi - lo) / ((n : ℝ) - 1)

theorem linspace_eq (lo hi : ℝ) (n : Nat) :
    Interp.linspace lo hi n = (List.range n).map (fun i : Nat => lo + step lo hi n * i) := by
  unfold Interp.linspace step
  by_cases h : n = 1
  · subst h; simp
  · simp [h]

theorem step_pos (lo hi : ℝ) (n : Nat) (hn : 1 ≤ n) (h : n = 1 ∨ lo < hi) : 0 < step lo hi n := by
  unfold step
  by_cases h1 : n = 1
  · simp [h1]
  · rw [if_neg h1]
    have : (2 : ℝ) ≤ n := by exact_mod_cast (by omega : 2 ≤ n)
    exact div_pos (by linarith [h.resolve_left h1]) (by linarith)

theorem getD_map_range {n i : Nat} (g : Nat → ℝ) (h : i < n) : ((List.range n).map g).getD i 0 = g i := by
  rw [List.getD_eq_getElem?_getD, List.getElem?_map, List.getElem?_range h]
  rfl

theorem zipWith_tail_range {g : Nat → ℝ} (f : ℝ → ℝ → ℝ) (k : Nat) :
    List.zipWith f ((List.range (k + 1)).map g) ((List.range (k + 1)).map g).tail
      = (List.range k).map (fun i => f (g i) (g (i + 1))) := by
  apply List.ext_getElem
  · simp
  · intro i h1 h2
    simp

theorem linearEdges_eq (lo hi : ℝ) (n : Nat) (hn : 1 ≤ n) :
    linearEdges lo hi n = .ok ((List.range (n + 1)).map (fun i : Nat => lo + step lo hi n * ((i : ℝ) - 1 / 2)),
      (List.range n).map (fun i : Nat => lo + step lo hi n * i)) := by
  match n, hn with
  | 1, _ =>
    unfold linearEdges
    rw [linspace_eq]
    simp [step, List.range_succ]
    constructor <;> ring
  | m + 2, _ =>
    unfold linearEdges
    rw [linspace_eq]
    set d := step lo hi (m + 2)
    set g : Nat → ℝ := fun i => lo + d * i with hg
    have hmids := zipWith_tail_range (g := g) (fun a b => (a + b) / 2) (m + 1)
    have hshape : (List.range (m + 2)).map g = g 0 :: g 1 :: ((List.range m).map (fun i => g (i + 2))) := by
      rw [List.range_succ_eq_map, List.map_cons, List.range_succ_eq_map]
      simp [List.map_map, Function.comp_def]
    have hlast : (g 1 :: ((List.range m).map (fun i => g (i + 2)))).getLast (by simp) = g (m + 1) := by
      have : (List.range (m + 1)).map (fun i => g (i + 1)) = g 1 :: ((List.range m).map (fun i => g (i + 2))) := by
        rw [List.range_succ_eq_map, List.map_cons]
        simp [List.map_map, Function.comp_def]
      simp only [← this]
      rw [List.getLast_map, List.getLast_range]
      simp
    rw [hshape] at hmids ⊢
    simp only
    rw [hmids, hlast]
    congr 2
    have hr : List.range (m + 2 + 1) = 0 :: ((List.range (m + 1)).map Nat.succ ++ [m + 2]) := by
      rw [List.range_succ_eq_map, List.range_succ (n := m + 1), List.map_append]; rfl
    rw [hr]
    simp only [List.cons_append, List.map_cons, List.map_nil, Function.comp_def, List.map_append, List.map_map]
    congr 1
    · simp only [hg]; push_cast; ring
    · congr 1
      · apply List.map_congr_left
        intro i _
        simp only [hg]; push_cast; ring
      · simp only [hg]; push_cast; congr 1; ring

/-- The centres found by `edgesCenters`. -/
theorem edgesCenters_centers (ax : Axis) (n : Nat) (hn : 1 ≤ n) :
    ∃ e, edgesCenters ax.lower ax.upper n ax.isLog = .ok (e, axisCenters ax n) := by
  unfold edgesCenters axisCenters
  cases ax.isLog with
  | false =>
    simp only [Bool.false_eq_true, if_false]
    rw [linearEdges_eq _ _ _ hn, linspace_eq]
    exact ⟨_, rfl⟩
  | true =>
    simp only [if_true]
    rw [linearEdges_eq _ _ _ hn, linspace_eq]
    exact ⟨_, rfl⟩

/-! ### Collapsing -/

/-- The collapse operations for requests given axis by axis, from the highest axis down. -/
def opsOf {R : Type} : List (Option R) → List (Nat × R)
  | [] => []
  | r :: rs => (opsOf rs).map (fun o => (o.1 + 1, o.2)) ++ (r.map (fun x => (0, x))).toList

theorem mem_opsOf {R : Type} (rs : List (Option R)) (j : Nat) (x : R) :
    (j, x) ∈ opsOf rs ↔ rs[j]? = some (some x) := by
  induction rs generalizing j with
  | nil => simp [opsOf]
  | cons r rs ih =>
    rw [opsOf, List.mem_append, List.mem_map]
    cases j with
    | zero =>
      cases r with
      | none => simp
      | some y =>
        simp
        exact eq_comm
    | succ j =>
      have : (∃ a ∈ opsOf rs, (a.1 + 1, a.2) = (j + 1, x)) ↔ (j, x) ∈ opsOf rs := by
        constructor
        · rintro ⟨⟨a, b⟩, h1, h2⟩
          simp at h2; obtain ⟨rfl, rfl⟩ := h2; exact h1
        · intro h; exact ⟨_, h, rfl⟩
      rw [this, ih]
      cases r with
      | none => simp
      | some y => simp

theorem opsOf_sorted {R : Type} (rs : List (Option R)) : (opsOf rs).Pairwise (fun a b => b.1 < a.1) := by
  induction rs with
  | nil => simp [opsOf]
  | cons r rs ih =>
    rw [opsOf, List.pairwise_append]
    refine ⟨?_, by cases r <;> simp, ?_⟩
    · rw [List.pairwise_map]
      exact ih.imp (fun h => by simpa using h)
    · intro a ha b hb
      obtain ⟨o, _, rfl⟩ := List.mem_map.1 ha
      cases r with
      | none => simp at hb
      | some x => simp at hb; subst hb; simp

theorem collapseOps_eq (names : List String) (hnames : names.Nodup) (collapse : PyDict String (Option (ℝ × ℝ)))
    (hkeys : collapse.keys.Nodup) :
    collapseOps names collapse = opsOf (names.map (fun s => collapse.get? s)) := by
  set raw := collapse.filterMap (fun e => if e.1 ∈ names then some (names.idxOf e.1, e.2) else none) with hraw
  have hmem : ∀ j x, (j, x) ∈ raw ↔ (names.map (fun s => collapse.get? s))[j]? = some (some x) := by
    intro j x
    rw [hraw, List.mem_filterMap]
    constructor
    · rintro ⟨⟨s, y⟩, hs, he⟩
      by_cases hin : s ∈ names
      · rw [if_pos hin] at he
        simp at he
        obtain ⟨rfl, rfl⟩ := he
        have hg := PyDict.get?_of_mem collapse hkeys hs
        rw [List.getElem?_map, List.getElem?_idxOf hin]
        simp [hg]
      · rw [if_neg hin] at he; cases he
    · intro h
      rw [List.getElem?_map] at h
      cases hs : names[j]? with
      | none => rw [hs] at h; cases h
      | some s =>
        rw [hs] at h
        simp at h
        have hin : s ∈ names := List.mem_of_getElem? hs
        refine ⟨(s, x), PyDict.mem_of_get? collapse h, ?_⟩
        rw [if_pos hin]
        have hj : j < names.length := (List.getElem?_eq_some_iff.1 hs).1
        have : names.idxOf s = j := by
          have h2 := (List.getElem?_eq_some_iff.1 hs).2
          rw [← h2]
          exact List.Nodup.idxOf_getElem hnames j hj
        simp [this]
  have hrawnd : (raw.map Prod.fst).Nodup := by
    have : raw.map Prod.fst = (collapse.keys.filter (fun s => s ∈ names)).map (fun s => names.idxOf s) := by
      rw [hraw]
      clear hmem hkeys hraw
      clear raw
      induction collapse with
      | nil => rfl
      | cons e d ih =>
        simp only [PyDict.keys, List.filterMap_cons, List.map_cons, List.filter_cons] at ih ⊢
        by_cases hin : e.1 ∈ names <;> simp [hin, ih]
    rw [this]
    refine List.Nodup.map_on ?_ (hkeys.filter _)
    intro a ha b hb hab
    have ha' := (List.mem_filter.1 ha).2
    have hb' := (List.mem_filter.1 hb).2
    simp at ha' hb'
    exact (List.idxOf_inj ha').1 hab
  have hperm : (collapseOps names collapse).Perm (opsOf (names.map (fun s => collapse.get? s))) := by
    refine (List.mergeSort_perm _ _).trans ?_
    rw [List.perm_ext_iff_of_nodup (List.Nodup.of_map _ hrawnd)
      ((opsOf_sorted _).imp (fun h e => by subst e; exact absurd h (Nat.lt_irrefl _)))]
    rintro ⟨j, x⟩
    rw [hmem, mem_opsOf]
  have hsort : (collapseOps names collapse).Pairwise (fun a b => b.1 ≤ a.1) := by
    have := List.pairwise_mergeSort (le := fun a b : Nat × Option (ℝ × ℝ) => decide (b.1 ≤ a.1))
      (by intro a b c h1 h2; simp at *; omega) (by intro a b; simp; omega) raw
    refine this.imp ?_
    intro a b h; simpa using h
  have hnd : ((collapseOps names collapse).map Prod.fst).Nodup := by
    have := (List.mergeSort_perm raw (fun a b => decide (b.1 ≤ a.1))).map Prod.fst
    exact this.nodup_iff.2 hrawnd
  refine hperm.eq_of_pairwise (le := fun a b => b.1 ≤ a.1) ?_ hsort ((opsOf_sorted _).imp (fun h => h.le))
  intro a b ha hb h1 h2
  exact List.inj_on_of_nodup_map hnd ha (hperm.symm.subset hb) (by omega)

/-- The entries kept. -/
def kept {R A : Type} : List (Option R) → List A → List A
  | none :: rs, a :: as => a :: kept rs as
  | some _ :: rs, _ :: as => kept rs as
  | _, _ => []

/-- Collapsing later axes slice by slice. -/
theorem collapse_shift (i n0 : Nat) (ax0 : Axis) (ops : List (Nat × Option (ℝ × ℝ))) (shape : List Nat)
    (f : List Nat → ℝ) (axes : List Axis) (sh' : List Nat) (g' : List Nat → ℝ) (axes' : List Axis)
    (h : ops.foldlM collapseStep ((⟨shape, fun l => f (i :: l)⟩ : NdArr), axes) = .ok (⟨sh', g'⟩, axes')) :
    ∃ g, (ops.map (fun o => (o.1 + 1, o.2))).foldlM collapseStep ((⟨n0 :: shape, f⟩ : NdArr), ax0 :: axes)
        = .ok (⟨n0 :: sh', g⟩, ax0 :: axes') ∧ (fun l => g (i :: l)) = g' := by
  induction ops generalizing shape f axes with
  | nil =>
    simp only [List.foldlM_nil] at h
    cases h
    exact ⟨f, rfl, rfl⟩
  | cons o ops ih =>
    obtain ⟨j, r⟩ := o
    rw [List.map_cons, List.foldlM_cons]
    rw [List.foldlM_cons] at h
    unfold collapseStep at h ⊢
    simp only [List.getElem?_cons_succ] at h ⊢
    cases hs : shape[j]? with
    | none => rw [hs] at h; cases h
    | some n =>
      cases ha : axes[j]? with
      | none => rw [hs, ha] at h; cases h
      | some ax =>
        rw [hs, ha] at h
        simp only at h ⊢
        cases he : edgesCenters ax.lower ax.upper n ax.isLog with
        | error e => rw [he] at h; cases h
        | ok ec =>
          rw [he] at h
          simp only [bind, Except.bind] at h ⊢
          exact ih (shape.eraseIdx j) (meanAxis ⟨n0 :: shape, f⟩ (j + 1) (selectBins ec.2 r)).val (axes.eraseIdx j) h

theorem collapse_spec (rs : List (Option (Option (ℝ × ℝ)))) (shape : List Nat) (axes : List Axis)
    (h1 : rs.length = axes.length) (h2 : shape.length = axes.length) (hpos : ∀ n ∈ shape, 1 ≤ n) (f : List Nat → ℝ) :
    ∃ g, (opsOf rs).foldlM collapseStep ((⟨shape, f⟩ : NdArr), axes) = .ok (⟨kept rs shape, g⟩, kept rs axes) ∧
      ∀ idx : List Nat, idx.length = (kept rs shape).length → g idx =
        meanOver (List.zipWith (fun (r : Option (Option (ℝ × ℝ))) (p : Axis × Nat) =>
          r.map (selectBins (axisCenters p.1 p.2))) rs (axes.zip shape)) idx f := by
  induction rs generalizing shape axes f with
  | nil =>
    cases axes with
    | cons a as => simp at h1
    | nil =>
      cases shape with
      | cons n ns => simp at h2
      | nil => exact ⟨f, rfl, fun idx _ => by simp [meanOver]⟩
  | cons r rs ih =>
    cases axes with
    | nil => simp at h1
    | cons ax axes =>
      cases shape with
      | nil => simp at h2
      | cons n shape =>
        have ih' := fun f => ih shape axes (by simpa using h1) (by simpa using h2)
          (fun m hm => hpos m (by simp [hm])) f
        -- one function for all slices
        have hshift : ∃ g, ((opsOf rs).map (fun o => (o.1 + 1, o.2))).foldlM collapseStep
              ((⟨n :: shape, f⟩ : NdArr), ax :: axes) = .ok (⟨n :: kept rs shape, g⟩, ax :: kept rs axes) ∧
            ∀ i idx, idx.length = (kept rs shape).length → g (i :: idx) =
              meanOver (List.zipWith (fun (r : Option (Option (ℝ × ℝ))) (p : Axis × Nat) =>
                r.map (selectBins (axisCenters p.1 p.2))) rs (axes.zip shape)) idx (fun l => f (i :: l)) := by
          obtain ⟨g0, hg0, _⟩ := ih' (fun l => f (0 :: l))
          obtain ⟨g, hg, _⟩ := collapse_shift 0 n ax _ _ f _ _ _ _ hg0
          refine ⟨g, hg, ?_⟩
          intro i idx hidx
          obtain ⟨gi, hgi, hv⟩ := ih' (fun l => f (i :: l))
          obtain ⟨g2, hg2, he⟩ := collapse_shift i n ax _ _ f _ _ _ _ hgi
          rw [hg] at hg2
          cases hg2
          rw [← hv idx hidx, ← he]
        obtain ⟨g, hg, hval⟩ := hshift
        cases r with
        | none =>
          refine ⟨g, by simpa [opsOf, kept] using hg, ?_⟩
          intro idx hidx
          cases idx with
          | nil => simp [kept] at hidx
          | cons i idx =>
            simp only [List.zip_cons_cons, List.zipWith_cons_cons, Option.map_none, meanOver]
            exact hval i idx (by simpa [kept] using hidx)
        | some r =>
          obtain ⟨e, he⟩ := edgesCenters_centers ax n (hpos n (by simp))
          refine ⟨(meanAxis ⟨n :: kept rs shape, g⟩ 0 (selectBins (axisCenters ax n) r)).val, ?_, ?_⟩
          · simp only [opsOf, List.foldlM_append, hg, bind, Except.bind]
            simp only [Option.map_some, Option.toList_some, List.foldlM_cons, List.foldlM_nil, collapseStep,
              List.getElem?_cons_zero, he, bind, Except.bind, kept, pure, Except.pure]
            rfl
          · intro idx hidx
            simp only [List.zip_cons_cons, List.zipWith_cons_cons, Option.map_some, meanOver, meanAxis,
              List.insertIdx_zero]
            congr 2
            apply List.map_congr_left
            intro i _
            exact hval i idx (by simpa [kept] using hidx)

theorem kept_axes (collapse : PyDict String (Option (ℝ × ℝ))) (axes : List Axis) :
    kept (axes.map (fun ax => collapse.get? ax.name)) axes
      = axes.filter (fun ax => (collapse.get? ax.name).isNone) := by
  induction axes with
  | nil => rfl
  | cons ax axes ih =>
    rw [List.map_cons, List.filter_cons]
    cases h : collapse.get? ax.name with
    | none => simp [kept, ih]
    | some r => simp [kept, ih]

theorem kept_shape (collapse : PyDict String (Option (ℝ × ℝ))) (axes : List Axis) (shape : List Nat)
    (hs : shape.length = axes.length) :
    kept (axes.map (fun ax => collapse.get? ax.name)) shape
      = ((axes.zip shape).filter (fun p => (collapse.get? p.1.name).isNone)).map Prod.snd := by
  induction axes generalizing shape with
  | nil => cases shape <;> rfl
  | cons ax axes ih =>
    cases shape with
    | nil => simp at hs
    | cons n shape =>
      rw [List.map_cons, List.zip_cons_cons, List.filter_cons]
      have := ih shape (by simpa using hs)
      cases h : collapse.get? ax.name with
      | none => simp [kept, this]
      | some r => simp [kept, this]

theorem requested_eq (collapse : PyDict String (Option (ℝ × ℝ))) (axes : List Axis) (shape : List Nat) :
    List.zipWith (fun (r : Option (Option (ℝ × ℝ))) (p : Axis × Nat) => r.map (selectBins (axisCenters p.1 p.2)))
      (axes.map (fun ax => collapse.get? ax.name)) (axes.zip shape) = requested collapse axes shape := by
  unfold requested
  induction axes generalizing shape with
  | nil => rfl
  | cons ax axes ih =>
    cases shape with
    | nil => rfl
    | cons n shape =>
      simp only [List.map_cons, List.zip_cons_cons, List.zipWith_cons_cons]
      rw [ih]

end Verif.Plot
