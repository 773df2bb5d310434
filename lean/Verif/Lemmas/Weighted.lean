/- Helper lemmas about weighted data in any binning (not claims). -/
import Verif.Spec.Weighted
import Verif.Lemmas.Whole
import Verif.Lemmas.CompHist

namespace Verif.Llh
open Verif

section
variable {F : Type} [Field F] [LinearOrder F]

omit [Field F] in
theorem index_unique {P : Nat → Prop} (h : ∀ j k, j < k → P j → P k → False) (j k : Nat) (hj : P j) (hk : P k) : j = k := by
  rcases lt_trichotomy j k with h' | h' | h'
  · exact (h j k h' hj hk).elim
  · exact h'
  · exact (h k j h' hk hj).elim

omit [Field F] in
theorem sorted_get {e : List F} (hs : e.Pairwise (· ≤ ·)) {j k : Nat} {a b : F} (hjk : j ≤ k) (ha : e[j]? = some a)
    (hb : e[k]? = some b) : a ≤ b := by
  rcases Nat.lt_or_ge j k with h | h
  · obtain ⟨h1, rfl⟩ := List.getElem?_eq_some_iff.1 ha
    obtain ⟨h2, rfl⟩ := List.getElem?_eq_some_iff.1 hb
    exact List.pairwise_iff_getElem.1 hs j k h1 h2 h
  · have : j = k := by omega
    subst this
    rw [ha] at hb
    cases hb
    exact le_refl _

omit [Field F] in
theorem inUpper_unique (e : List F) (hs : e.Pairwise (· ≤ ·)) (row : List (Option F)) (k j j' : Nat) (h : InUpper e j row k)
    (h' : InUpper e j' row k) : j = j' := by
  refine index_unique (P := fun j => InUpper e j row k) ?_ j j' h h'
  rintro j j' hlt ⟨lo, hi, v, h1, h2, h3, h4, h5⟩ ⟨lo', hi', v', h1', h2', h3', h4', h5'⟩
  rw [h3] at h3'
  cases h3'
  exact absurd (lt_of_lt_of_le h4' (le_trans h5 (sorted_get hs (by omega) h2 h1'))) (lt_irrefl _)

omit [Field F] in
theorem inLower_unique (e : List F) (hs : e.Pairwise (· ≤ ·)) (row : List (Option F)) (k j j' : Nat) (h : InLower e j row k)
    (h' : InLower e j' row k) : j = j' := by
  refine index_unique (P := fun j => InLower e j row k) ?_ j j' h h'
  rintro j j' hlt ⟨lo, hi, v, h1, h2, h3, h4, h5⟩ ⟨lo', hi', v', h1', h2', h3', h4', h5'⟩
  rw [h3] at h3'
  cases h3'
  have hle := le_trans (sorted_get hs (by omega) h2 h1') h4'
  rcases h5 with h5 | ⟨h5, rfl⟩
  · exact absurd (lt_of_lt_of_le h5 hle) (lt_irrefl _)
  · obtain ⟨hl, _⟩ := List.getElem?_eq_some_iff.1 h2'
    omega

theorem eventIn_unique (bins : Comp.Bins F) (ha : Ascending bins) (row : List (Option F)) (b b' : Nat × Nat)
    (hb : IsBin bins b.1 b.2) (hb' : IsBin bins b'.1 b'.2)
    (h : EventIn bins b.1 b.2 row) (h' : EventIn bins b'.1 b'.2 row) : b = b' := by
  obtain ⟨i, j⟩ := b
  obtain ⟨i', j'⟩ := b'
  cases bins with
  | mesh1 e =>
    obtain ⟨rfl, _⟩ := hb
    obtain ⟨h0, _⟩ := hb'
    simp only at h0
    subst h0
    simp [inLower_unique e ha row 0 j j' h h']
  | irreg1 e =>
    obtain ⟨rfl, _⟩ := hb
    obtain ⟨h0, _⟩ := hb'
    simp only at h0
    subst h0
    simp [inUpper_unique e ha row 0 j j' h h']
  | mesh2 x y => simp [inLower_unique x ha.1 row 0 i i' h.1 h'.1, inLower_unique y ha.2 row 1 j j' h.2 h'.2]
  | irreg2 x y =>
    have hi : i = i' := inUpper_unique x ha.1 row 0 i i' h.1 h'.1
    subst hi
    obtain ⟨_, _, m, hm⟩ := ha
    obtain ⟨_, r, hr, h2⟩ := h
    obtain ⟨_, r', hr', h2'⟩ := h'
    simp only at hr hr'
    rw [hr] at hr'
    cases hr'
    simp [inUpper_unique r (hm r (List.mem_of_getElem? hr)).2 row 1 j j' h2 h2']
  | _ => exact ha.elim

omit [LinearOrder F] in
open Classical in
/-- The sum over cells of which at most one contains each sample. -/
theorem sum_weightOf {S C : Type} (P : C → S → Prop) (l : List C) (hnd : l.Nodup) (sw : List (S × F))
    (hu : ∀ e ∈ sw, ∀ c ∈ l, ∀ c' ∈ l, P c e.1 → P c' e.1 → c = c') :
    (l.map (fun c => Hist.weightOf (P c) sw)).sum = Hist.weightOf (fun s => ∃ c ∈ l, P c s) sw := by
  induction sw with
  | nil => simp [Hist.weightOf]
  | cons e sw ih =>
    have ih' := ih (fun e he => hu e (List.mem_cons_of_mem _ he))
    simp only [Hist.weightOf_cons]
    rw [List.sum_map_add, ih']
    congr 1
    have hu' := hu e List.mem_cons_self
    clear ih ih' hu
    induction l with
    | nil => simp
    | cons c l ih2 =>
      rw [List.map_cons, List.sum_cons, ih2 (List.nodup_cons.1 hnd).2
        (fun c hc c' hc' => hu' c (List.mem_cons_of_mem _ hc) c' (List.mem_cons_of_mem _ hc'))]
      by_cases h : P c e.1
      · have hno : ¬ ∃ c' ∈ l, P c' e.1 := by
          rintro ⟨c', hc', hp⟩
          have := hu' c List.mem_cons_self c' (List.mem_cons_of_mem _ hc') h hp
          subst this
          exact (List.nodup_cons.1 hnd).1 hc'
        rw [if_pos h, if_neg hno, if_pos ⟨c, List.mem_cons_self, h⟩, add_zero]
      · rw [if_neg h, zero_add]
        by_cases h' : ∃ c' ∈ l, P c' e.1
        · obtain ⟨c', hc', hp⟩ := h'
          rw [if_pos ⟨c', hc', hp⟩, if_pos ⟨c', List.mem_cons_of_mem _ hc', hp⟩]
        · rw [if_neg h', if_neg]
          rintro ⟨c', hc', hp⟩
          rcases List.mem_cons.1 hc' with rfl | hc'
          · exact h hp
          · exact h' ⟨c', hc', hp⟩

open Classical in
theorem bins_total (bins : Comp.Bins F) (ha : Ascending bins) (sw : List (List (Option F) × F)) :
    ((binList bins).map (fun b => Hist.weightOf (EventIn bins b.1 b.2) sw)).sum = Hist.weightOf (InSomeBin bins) sw := by
  rw [sum_weightOf (fun b row => EventIn bins b.1 b.2 row) (binList bins) (nodup_cells _) sw ?_]
  · apply Hist.weightOf_congr
    intro e _
    constructor
    · rintro ⟨b, hb, h⟩
      exact ⟨b.1, b.2, (mem_binList bins ha b.1 b.2).1 hb, h⟩
    · rintro ⟨i, j, hb, h⟩
      exact ⟨(i, j), (mem_binList bins ha i j).2 hb, h⟩
  · intro e _ c hc c' hc' h h'
    exact eventIn_unique bins ha e.1 c c' ((mem_binList bins ha c.1 c.2).1 hc) ((mem_binList bins ha c'.1 c'.2).1 hc') h h'

omit [Field F] in
/-- Between two edges there is a bin. -/
theorem between_bin (e : List F) (hs : e.Pairwise (· ≤ ·)) (row : List (Option F)) (k : Nat) (h : BetweenEdges e row k) :
    (∃ j, j + 1 < e.length ∧ InUpper e j row k) ∧ ∃ j, j + 1 < e.length ∧ InLower e j row k := by
  obtain ⟨lo, hlo, hi, hhi, v, hv, h1, h2⟩ := h
  obtain ⟨p, hp, rfl⟩ := List.getElem_of_mem hlo
  obtain ⟨q, hq, rfl⟩ := List.getElem_of_mem hhi
  have hpq : p < q := by
    by_contra hc
    have := sorted_get hs (Nat.le_of_not_lt hc) (List.getElem?_eq_getElem hq) (List.getElem?_eq_getElem hp)
    exact absurd (lt_of_lt_of_le (lt_trans h1 h2) this) (lt_irrefl _)
  constructor
  · have hex : ∃ q, p < q ∧ ∃ h : q < e.length, v ≤ e[q] := ⟨q, hpq, hq, le_of_lt h2⟩
    obtain ⟨a, b, c⟩ := Nat.find_spec hex
    have hmin := fun m hm => Nat.find_min hex (m := m) hm
    generalize Nat.find hex = r at *
    obtain ⟨r, rfl⟩ : ∃ r', r = r' + 1 := ⟨r - 1, by omega⟩
    refine ⟨r, b, e[r], e[r + 1], v, List.getElem?_eq_getElem _, List.getElem?_eq_getElem _, hv, ?_, c⟩
    by_cases hr : p = r
    · subst hr; exact h1
    · by_contra hc
      exact hmin r (by omega) ⟨by omega, by omega, not_lt.1 hc⟩
  · have hex : ∃ q, p < q ∧ ∃ h : q < e.length, v < e[q] := ⟨q, hpq, hq, h2⟩
    obtain ⟨a, b, c⟩ := Nat.find_spec hex
    have hmin := fun m hm => Nat.find_min hex (m := m) hm
    generalize Nat.find hex = r at *
    obtain ⟨r, rfl⟩ : ∃ r', r = r' + 1 := ⟨r - 1, by omega⟩
    refine ⟨r, b, e[r], e[r + 1], v, List.getElem?_eq_getElem _, List.getElem?_eq_getElem _, hv, ?_, .inl c⟩
    by_cases hr : p = r
    · subst hr; exact le_of_lt h1
    · by_contra hc
      exact hmin r (by omega) ⟨by omega, by omega, not_le.1 hc⟩

/-- In a rectangle every event strictly inside lies in a bin. -/
theorem inside_inSomeBin (bins : Comp.Bins F) (ha : Ascending bins) (hr : Rectangular bins) (row : List (Option F))
    (h : StrictlyInside bins row) : InSomeBin bins row := by
  cases bins with
  | mesh1 e =>
    obtain ⟨-, j, hj, hin⟩ := between_bin e ha row 0 h
    exact ⟨0, j, ⟨rfl, hj⟩, hin⟩
  | irreg1 e =>
    obtain ⟨⟨j, hj, hin⟩, -⟩ := between_bin e ha row 0 h
    exact ⟨0, j, ⟨rfl, hj⟩, hin⟩
  | mesh2 x y =>
    obtain ⟨-, i, hi, hix⟩ := between_bin x ha.1 row 0 h.1
    obtain ⟨-, j, hj, hjy⟩ := between_bin y ha.2 row 1 h.2
    exact ⟨i, j, ⟨hi, hj⟩, hix, hjy⟩
  | irreg2 x y =>
    obtain ⟨hx, hlen, m, hm⟩ := ha
    obtain ⟨c, hc⟩ := hr
    obtain ⟨⟨i, hi, hix⟩, -⟩ := between_bin x hx row 0 h.1
    have hiy : i < y.length := by omega
    obtain ⟨lo, hlo, hi', hhi, v, hv, h1, h2⟩ := h.2
    have hends : ∀ e ∈ y.flatten, c.1 ≤ e ∧ e ≤ c.2 := by
      intro e he
      obtain ⟨r, hr, her⟩ := List.mem_flatten.1 he
      obtain ⟨mid, rfl, hs⟩ := hc r hr
      constructor
      · rw [List.cons_append, List.pairwise_cons] at hs
        rcases List.mem_cons.1 her with rfl | he
        · exact le_refl _
        · exact hs.1 e he
      · rw [List.pairwise_append] at hs
        rcases List.mem_append.1 her with he | he
        · exact hs.2.2 e he c.2 (by simp)
        · rw [List.mem_singleton] at he; rw [he]
    have hmem : y[i] ∈ y := List.getElem_mem hiy
    obtain ⟨mid, hy, hs⟩ := hc _ hmem
    obtain ⟨⟨j, hj, hjy⟩, -⟩ := between_bin y[i] hs row 1
      ⟨c.1, by rw [hy]; simp, c.2, by rw [hy]; simp, v, hv, lt_of_le_of_lt (hends lo hlo).1 h1, lt_of_lt_of_le h2 (hends hi' hhi).2⟩
    exact ⟨i, j, ⟨hi, y[i], List.getElem?_eq_getElem hiy, hj⟩, hix, y[i], List.getElem?_eq_getElem hiy, hjy⟩
  | _ => exact ha.elim

omit [Field F] in
theorem strictlyInside_between (e : List F) (v : F) (row : List (Option F)) (k : Nat) (hv : row[k]? = some (some v)) :
    Comp.strictlyInside e v = true ↔ BetweenEdges e row k := by
  unfold Comp.strictlyInside BetweenEdges
  rw [Bool.and_eq_true, decide_eq_true_eq, decide_eq_true_eq]
  constructor
  · rintro ⟨⟨lo, hlo, _, h1⟩, hi, hhi, _, h2⟩
    exact ⟨lo, hlo, hi, hhi, v, hv, h1, h2⟩
  · rintro ⟨lo, hlo, hi, hhi, v', hv', h1, h2⟩
    rw [hv] at hv'
    cases hv'
    have hne : e.toFinset.Nonempty := ⟨lo, List.mem_toFinset.2 hlo⟩
    obtain ⟨a, ha, hmin⟩ := e.toFinset.exists_min_image id hne
    obtain ⟨b, hb, hmax⟩ := e.toFinset.exists_max_image id hne
    refine ⟨⟨a, List.mem_toFinset.1 ha, fun x hx => hmin x (List.mem_toFinset.2 hx), ?_⟩,
      b, List.mem_toFinset.1 hb, fun x hx => hmax x (List.mem_toFinset.2 hx), ?_⟩
    · exact lt_of_le_of_lt (hmin lo (List.mem_toFinset.2 hlo)) h1
    · exact lt_of_lt_of_le h2 (hmax hi (List.mem_toFinset.2 hhi))

open Classical in
/-- The mask, event by event. -/
theorem clipMask_rows (bins : Comp.Bins F) (ha : Ascending bins) (cols : List (List F)) (n : Nat) (hd : cols.length = bins.dims)
    (hl : ∀ c ∈ cols, c.length = n) :
    Comp.clipMask bins cols n = (eventRows cols).map (fun r => decide (StrictlyInside bins r)) := by
  match bins, cols, hd, ha with
  | .mesh1 e, [c], _, _ =>
    have hc := hl c (by simp)
    apply List.ext_getElem
    · simp [Comp.clipMask, eventRows, hc]
    · intro i h1 h2
      simp only [Comp.clipMask, List.zipIdx_cons, List.zipIdx_nil, List.foldl_cons, List.foldl_nil, Comp.Bins.axis, eventRows]
      simp only [List.getElem_zipWith, List.getElem_replicate, Bool.true_and, List.getElem_map]
      rw [Bool.eq_iff_iff, decide_eq_true_eq]
      exact strictlyInside_between e _ [some _] 0 rfl
  | .irreg1 e, [c], _, _ =>
    have hc := hl c (by simp)
    apply List.ext_getElem
    · simp [Comp.clipMask, eventRows, hc]
    · intro i h1 h2
      simp only [Comp.clipMask, List.zipIdx_cons, List.zipIdx_nil, List.foldl_cons, List.foldl_nil, Comp.Bins.axis, eventRows]
      simp only [List.getElem_zipWith, List.getElem_replicate, Bool.true_and, List.getElem_map]
      rw [Bool.eq_iff_iff, decide_eq_true_eq]
      exact strictlyInside_between e _ [some _] 0 rfl
  | .mesh2 x y, [c, d], _, _ =>
    have hc := hl c (by simp)
    have hd := hl d (by simp)
    apply List.ext_getElem
    · simp [Comp.clipMask, eventRows, hc, hd]
    · intro i h1 h2
      simp only [Comp.clipMask, List.zipIdx_cons, List.zipIdx_nil, List.foldl_cons, List.foldl_nil, Comp.Bins.axis, eventRows]
      simp only [List.getElem_zipWith, List.getElem_replicate, Bool.true_and, List.getElem_map]
      rw [Bool.eq_iff_iff, decide_eq_true_eq, Bool.and_eq_true]
      exact and_congr (strictlyInside_between x _ [some _, some _] 0 rfl) (strictlyInside_between y _ [some _, some _] 1 rfl)
  | .irreg2 x y, [c, d], _, _ =>
    have hc := hl c (by simp)
    have hd := hl d (by simp)
    apply List.ext_getElem
    · simp [Comp.clipMask, eventRows, hc, hd]
    · intro i h1 h2
      simp only [Comp.clipMask, List.zipIdx_cons, List.zipIdx_nil, List.foldl_cons, List.foldl_nil, Comp.Bins.axis, eventRows]
      simp only [List.getElem_zipWith, List.getElem_replicate, Bool.true_and, List.getElem_map]
      rw [Bool.eq_iff_iff, decide_eq_true_eq, Bool.and_eq_true]
      exact and_congr (strictlyInside_between x _ [some _, some _] 0 rfl) (strictlyInside_between y.flatten _ [some _, some _] 1 rfl)

omit [Field F] [LinearOrder F] in
theorem eventRows_length (cols : List (List F)) (n : Nat) (hd : cols.length = 1 ∨ cols.length = 2) (hl : ∀ c ∈ cols, c.length = n) :
    (eventRows cols).length = n := by
  match cols, hd with
  | [c], _ => simpa [eventRows] using hl c (by simp)
  | [c, d], _ => simp [eventRows, hl c (by simp), hl d (by simp)]
  | _ :: _ :: _ :: _, hd => simp at hd

omit [Field F] [LinearOrder F] in
theorem eventRows_mask (cols : List (List F)) (m : List Bool) (hl : ∀ c ∈ cols, c.length = m.length) :
    eventRows (cols.map (Comp.applyMask m)) = Comp.applyMask m (eventRows cols) := by
  match cols with
  | [] => simp [eventRows, Comp.applyMask]
  | [c] => simp only [List.map_cons, List.map_nil, eventRows]; rw [Comp.applyMask_map]
  | [c, d] =>
    simp only [List.map_cons, List.map_nil, eventRows]
    have key : ∀ a b : List F, List.zipWith (fun a b => [some a, some b]) a b = (a.zip b).map (fun p => [some p.1, some p.2]) := by
      intro a b
      simp [List.zip, List.map_zipWith]
    rw [key, key, Comp.applyMask_zip _ _ _ (hl c (by simp)) (hl d (by simp)),
      Comp.applyMask_map]
  | _ :: _ :: _ :: _ => simp [eventRows, Comp.applyMask]

theorem applyMask_self {α : Type} (p : α → Bool) (l : List α) : Comp.applyMask (l.map p) l = l.filter p := by
  induction l with
  | nil => rfl
  | cons a l ih =>
    cases h : p a <;> simp [Comp.applyMask, h] at ih ⊢ <;> exact ih

open Classical in
/-- The events that are kept, with their weights. -/
theorem clipResult_spec (bins : Comp.Bins F) (ha : Ascending bins) (cols : List (List F)) (eff : List F)
    (hd : cols.length = bins.dims) (hl : ∀ c ∈ cols, c.length = eff.length) :
    let r := Comp.clipResult bins cols eff
    r.1.length = cols.length ∧ (∀ c ∈ r.1, c.length = r.2.length) ∧
      (eventRows r.1).zip r.2 = ((eventRows cols).zip eff).filter (fun p => decide (StrictlyInside bins p.1)) ∧
      r.2 = (((eventRows cols).zip eff).filter (fun p => decide (StrictlyInside bins p.1))).map Prod.snd := by
  have hd' : cols.length = 1 ∨ cols.length = 2 := by
    cases bins <;> simp_all [Ascending, Comp.Bins.dims]
  have hrl := eventRows_length cols eff.length hd' hl
  have hm := clipMask_rows bins ha cols eff.length hd hl
  have hml : (Comp.clipMask bins cols eff.length).length = eff.length := by rw [hm, List.length_map, hrl]
  have hzip : Comp.applyMask (Comp.clipMask bins cols eff.length) ((eventRows cols).zip eff) =
      ((eventRows cols).zip eff).filter (fun p => decide (StrictlyInside bins p.1)) := by
    rw [← applyMask_self, hm]
    congr 1
    rw [← List.map_fst_zip (l₁ := eventRows cols) (l₂ := eff) (by omega), List.map_map]
    simp [List.map_fst_zip, hrl, Function.comp_def]
  refine ⟨?_, ?_, ?_, ?_⟩
  · simp [Comp.clipResult]
  · intro c hc
    simp only [Comp.clipResult, List.mem_map] at hc ⊢
    obtain ⟨c0, hc0, rfl⟩ := hc
    exact Comp.applyMask_length _ _ _ (hl c0 hc0)
  · simp only [Comp.clipResult]
    rw [eventRows_mask _ _ (fun c hc => by rw [hl c hc, hml]), Comp.applyMask_zip _ _ _ (by rw [hrl, hml]) hml.symm, hzip]
  · simp only [Comp.clipResult]
    rw [← hzip, ← Comp.applyMask_map, List.map_snd_zip (by omega)]

open Classical in
theorem weightOf_filter_all {S : Type} (p q : S → Prop) (sw : List (S × F)) (h : ∀ e ∈ sw, q e.1 → p e.1) :
    Hist.weightOf p (sw.filter (fun e => decide (q e.1))) = Hist.weightOf q sw := by
  unfold Hist.weightOf
  rw [List.filter_filter]
  congr 2
  apply List.filter_congr
  intro e he
  by_cases hq : q e.1
  · simp [hq, h e he hq]
  · simp [hq]

omit [LinearOrder F] in
open Classical in
theorem sum_ones {S : Type} (p : S → Prop) (l : List S) :
    (((l.zip (List.replicate l.length (1 : F))).filter (fun e => decide (p e.1))).map Prod.snd).sum = (l.countP (fun s => decide (p s)) : F) := by
  induction l with
  | nil => simp
  | cons a l ih =>
    by_cases hp : p a
    · simp only [List.length_cons, List.replicate_succ, List.zip_cons_cons, List.filter_cons, hp, decide_true, if_true,
        List.map_cons, List.sum_cons, ih, List.countP_cons, Nat.cast_add, Nat.cast_one]
      ring
    · simp only [List.length_cons, List.replicate_succ, List.zip_cons_cons, List.filter_cons, hp, decide_false, Bool.false_eq_true,
        if_false, ih, List.countP_cons, Nat.add_zero]

theorem dims_of_ascending (bins : Comp.Bins F) (ha : Ascending bins) : bins.dims = 1 ∨ bins.dims = 2 := by
  cases bins <;> simp_all [Ascending, Comp.Bins.dims]

end
end Verif.Llh
