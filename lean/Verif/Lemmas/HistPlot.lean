import Verif.Spec.HistPlot
import Mathlib.Tactic.Linarith
import Mathlib.Tactic.FieldSimp

namespace Verif.HistPlot
open Verif

theorem mapM_ok {α β : Type} (f : α → Res β) (g : α → β) (l : List α) (h : ∀ a ∈ l, f a = .ok (g a)) :
    l.mapM f = .ok (l.map g) := by
  induction l with
  | nil => rfl
  | cons a l ih =>
    rw [List.mapM_cons, h a (by simp), ih (fun b hb => h b (by simp [hb]))]
    rfl

theorem mapM_error {α β : Type} (f : α → Res β) (e : PyErr) (l : List α) (h : ∀ a ∈ l, f a = .error e ∨ ∃ b, f a = .ok b)
    (hx : ∃ a ∈ l, f a = .error e) : l.mapM f = .error e := by
  induction l with
  | nil => obtain ⟨a, ha, _⟩ := hx; cases ha
  | cons a l ih =>
    rw [List.mapM_cons]
    rcases h a (by simp) with h1 | ⟨b, h1⟩
    · rw [h1]; rfl
    · rw [h1]
      have hx' : ∃ a ∈ l, f a = .error e := by
        obtain ⟨c, hc, hce⟩ := hx
        rcases List.mem_cons.1 hc with rfl | hc
        · rw [h1] at hce; cases hce
        · exact ⟨c, hc, hce⟩
      rw [ih (fun b hb => h b (by simp [hb])) hx']
      rfl

theorem foldl_lesser (a : ℝ) (l : List ℝ) : ∃ m, (l.map XF.fin).foldl lesser (.fin a) = .fin m ∧ m ∈ a :: l ∧ ∀ x ∈ a :: l, m ≤ x := by
  induction l generalizing a with
  | nil => exact ⟨a, rfl, by simp, by simp⟩
  | cons b l ih =>
    have hs : lesser (.fin a) (.fin b) = .fin (if b < a then b else a) := by
      unfold lesser
      rw [if_neg (by simp)]
      show (if b < a then XF.fin b else XF.fin a) = _
      split <;> rfl
    obtain ⟨m, h1, h2, h3⟩ := ih (if b < a then b else a)
    refine ⟨m, by rw [List.map_cons, List.foldl_cons, hs, h1], ?_, ?_⟩
    · rcases List.mem_cons.1 h2 with h | h
      · rw [h]; split <;> simp
      · simp [h]
    · intro x hx
      have h0 := h3 _ (List.mem_cons_self ..)
      rcases List.mem_cons.1 hx with rfl | hx
      · refine le_trans h0 ?_; split
        · rename_i h; exact h.le
        · exact le_refl _
      · rcases List.mem_cons.1 hx with rfl | hx
        · refine le_trans h0 ?_; split
          · exact le_refl _
          · rename_i h; exact not_lt.1 h
        · exact h3 x (by simp [hx])

theorem foldl_greater (a : ℝ) (l : List ℝ) : ∃ m, (l.map XF.fin).foldl greater (.fin a) = .fin m ∧ m ∈ a :: l ∧ ∀ x ∈ a :: l, x ≤ m := by
  induction l generalizing a with
  | nil => exact ⟨a, rfl, by simp, by simp⟩
  | cons b l ih =>
    have hs : greater (.fin a) (.fin b) = .fin (if a < b then b else a) := by
      unfold greater
      rw [if_neg (by simp)]
      show (if a < b then XF.fin b else XF.fin a) = _
      split <;> rfl
    obtain ⟨m, h1, h2, h3⟩ := ih (if a < b then b else a)
    refine ⟨m, by rw [List.map_cons, List.foldl_cons, hs, h1], ?_, ?_⟩
    · rcases List.mem_cons.1 h2 with h | h
      · rw [h]; split <;> simp
      · simp [h]
    · intro x hx
      have h0 := h3 _ (List.mem_cons_self ..)
      rcases List.mem_cons.1 hx with rfl | hx
      · refine le_trans ?_ h0; split
        · rename_i h; exact h.le
        · exact le_refl _
      · rcases List.mem_cons.1 hx with rfl | hx
        · refine le_trans ?_ h0; split
          · exact le_refl _
          · rename_i h; exact not_lt.1 h
        · exact h3 x (by simp [hx])

theorem minOf_fin (l : List ℝ) (h : l ≠ []) : ∃ m, minOf (l.map XF.fin) = .ok (.fin m) ∧ m ∈ l ∧ ∀ x ∈ l, m ≤ x := by
  cases l with
  | nil => exact absurd rfl h
  | cons a l =>
    obtain ⟨m, h1, h2⟩ := foldl_lesser a l
    exact ⟨m, by rw [List.map_cons, minOf, h1], h2⟩

theorem maxOf_fin (l : List ℝ) (h : l ≠ []) : ∃ m, maxOf (l.map XF.fin) = .ok (.fin m) ∧ m ∈ l ∧ ∀ x ∈ l, x ≤ m := by
  cases l with
  | nil => exact absurd rfl h
  | cons a l =>
    obtain ⟨m, h1, h2⟩ := foldl_greater a l
    exact ⟨m, by rw [List.map_cons, maxOf, h1], h2⟩

theorem lesser_nan (a b : XF) (h : a = .nan ∨ b = .nan) : lesser a b = .nan := by
  unfold lesser; rw [if_pos]; rcases h with rfl | rfl <;> simp

theorem greater_nan (a b : XF) (h : a = .nan ∨ b = .nan) : greater a b = .nan := by
  unfold greater; rw [if_pos]; rcases h with rfl | rfl <;> simp

theorem foldl_nan (f : XF → XF → XF) (hf : ∀ a b, a = .nan ∨ b = .nan → f a b = .nan) (l : List XF) (a : XF)
    (h : a = .nan ∨ .nan ∈ l) : l.foldl f a = .nan := by
  induction l generalizing a with
  | nil => rcases h with h | h; exact h; cases h
  | cons b l ih =>
    rw [List.foldl_cons]
    apply ih
    rcases h with h | h
    · exact Or.inl (hf _ _ (Or.inl h))
    · rcases List.mem_cons.1 h with h | h
      · exact Or.inl (hf _ _ (Or.inr h.symm))
      · exact Or.inr h

theorem minOf_nan (l : List XF) (h : .nan ∈ l) : minOf l = .ok .nan := by
  cases l with
  | nil => cases h
  | cons a l => rw [minOf, foldl_nan lesser lesser_nan l a (by rcases List.mem_cons.1 h with h | h; exact Or.inl h.symm; exact Or.inr h)]

theorem maxOf_nan (l : List XF) (h : .nan ∈ l) : maxOf l = .ok .nan := by
  cases l with
  | nil => cases h
  | cons a l => rw [maxOf, foldl_nan greater greater_nan l a (by rcases List.mem_cons.1 h with h | h; exact Or.inl h.symm; exact Or.inr h)]

/-- Contents that are finite or infinitely large. -/
def Upward (a : XF) : Prop := a = .pinf ∨ ∃ v, a = .fin v

theorem lesser_upward (a b : XF) (ha : Upward a) (hb : Upward b) :
    Upward (lesser a b) ∧ (((∃ v, a = .fin v) ∨ ∃ v, b = .fin v) → ∃ v, lesser a b = .fin v) := by
  unfold lesser
  rcases ha with rfl | ⟨v, rfl⟩ <;> rcases hb with rfl | ⟨w, rfl⟩
  · refine ⟨?_, by simp⟩
    rw [if_neg (by simp), if_neg (show ¬ (XF.pinf < XF.pinf) from fun h => h)]; exact Or.inl rfl
  · rw [if_neg (by simp), if_pos (show XF.fin w < XF.pinf from trivial)]; exact ⟨Or.inr ⟨w, rfl⟩, fun _ => ⟨w, rfl⟩⟩
  · rw [if_neg (by simp), if_neg (show ¬ (XF.pinf < XF.fin v) from fun h => h)]; exact ⟨Or.inr ⟨v, rfl⟩, fun _ => ⟨v, rfl⟩⟩
  · rw [if_neg (by simp)]
    split
    · exact ⟨Or.inr ⟨w, rfl⟩, fun _ => ⟨w, rfl⟩⟩
    · exact ⟨Or.inr ⟨v, rfl⟩, fun _ => ⟨v, rfl⟩⟩

theorem greater_upward (a b : XF) (ha : Upward a) (hb : Upward b) :
    Upward (greater a b) ∧ ((a = .pinf ∨ b = .pinf) → greater a b = .pinf) := by
  unfold greater
  rcases ha with rfl | ⟨v, rfl⟩ <;> rcases hb with rfl | ⟨w, rfl⟩
  · rw [if_neg (by simp), if_neg (show ¬ (XF.pinf < XF.pinf) from fun h => h)]; exact ⟨Or.inl rfl, fun _ => rfl⟩
  · rw [if_neg (by simp), if_neg (show ¬ (XF.pinf < XF.fin w) from fun h => h)]; exact ⟨Or.inl rfl, fun _ => rfl⟩
  · rw [if_neg (by simp), if_pos (show XF.fin v < XF.pinf from trivial)]; exact ⟨Or.inl rfl, fun _ => rfl⟩
  · rw [if_neg (by simp)]
    refine ⟨?_, by simp⟩
    split
    · exact Or.inr ⟨w, rfl⟩
    · exact Or.inr ⟨v, rfl⟩

theorem minOf_upward (l : List XF) (hl : ∀ a ∈ l, Upward a) (h : ∃ v, XF.fin v ∈ l) : ∃ v, minOf l = .ok (.fin v) := by
  have key : ∀ (l : List XF) (a : XF), Upward a → (∀ b ∈ l, Upward b) → ((∃ v, a = .fin v) ∨ ∃ v, XF.fin v ∈ l) →
      ∃ v, l.foldl lesser a = .fin v := by
    intro l
    induction l with
    | nil => rintro a _ _ (h | ⟨v, h⟩); exact h; cases h
    | cons b l ih =>
      intro a ha hl h
      obtain ⟨h1, h2⟩ := lesser_upward a b ha (hl b (by simp))
      rw [List.foldl_cons]
      refine ih _ h1 (fun c hc => hl c (by simp [hc])) ?_
      rcases h with h | ⟨v, h⟩
      · exact Or.inl (h2 (Or.inl h))
      · rcases List.mem_cons.1 h with h | h
        · exact Or.inl (h2 (Or.inr ⟨v, h.symm⟩))
        · exact Or.inr ⟨v, h⟩
  cases l with
  | nil => obtain ⟨v, h⟩ := h; cases h
  | cons a l =>
    obtain ⟨w, hw⟩ := key l a (hl a (by simp)) (fun c hc => hl c (by simp [hc])) (by
      obtain ⟨v, h⟩ := h
      rcases List.mem_cons.1 h with h | h
      · exact Or.inl ⟨v, h.symm⟩
      · exact Or.inr ⟨v, h⟩)
    exact ⟨w, by rw [minOf, hw]⟩

theorem maxOf_upward (l : List XF) (hl : ∀ a ∈ l, Upward a) (h : XF.pinf ∈ l) : maxOf l = .ok .pinf := by
  have key : ∀ (l : List XF) (a : XF), Upward a → (∀ b ∈ l, Upward b) → (a = .pinf ∨ XF.pinf ∈ l) → l.foldl greater a = .pinf := by
    intro l
    induction l with
    | nil => rintro a _ _ (h | h); exact h; cases h
    | cons b l ih =>
      intro a ha hl h
      obtain ⟨h1, h2⟩ := greater_upward a b ha (hl b (by simp))
      rw [List.foldl_cons]
      refine ih _ h1 (fun c hc => hl c (by simp [hc])) ?_
      rcases h with h | h
      · exact Or.inl (h2 (Or.inl h))
      · rcases List.mem_cons.1 h with h | h
        · exact Or.inl (h2 (Or.inr h.symm))
        · exact Or.inr h
  cases l with
  | nil => cases h
  | cons a l =>
    rw [maxOf, key l a (hl a (by simp)) (fun c hc => hl c (by simp [hc])) (by
      rcases List.mem_cons.1 h with h | h
      · exact Or.inl h.symm
      · exact Or.inr h)]

/-- The entries of a table with their positions. -/
theorem entries_eq {α : Type} (d : α) (hist : List (List α)) :
    hist.zipIdx.flatMap (fun ri => ri.1.zipIdx.map (fun nj => (ri.2, nj.2, nj.1))) =
      (Llh.cells (hist.map List.length)).map (fun b => (b.1, b.2, (hist.getD b.1 []).getD b.2 d)) := by
  have key : ∀ (k : Nat) (l : List (List α)) (pre : List (List α)), pre.length = k →
      (l.zipIdx k).flatMap (fun ri => ri.1.zipIdx.map (fun nj => (ri.2, nj.2, nj.1))) =
        (((l.map List.length).zipIdx k).flatMap (fun ni => (List.range ni.1).map (fun j => (ni.2, j)))).map
          (fun b => (b.1, b.2, ((pre ++ l).getD b.1 []).getD b.2 d)) := by
    intro k l
    induction l generalizing k with
    | nil => intro pre _; rfl
    | cons r l ih =>
      intro pre hp
      have ih' := ih (k + 1) (pre ++ [r]) (by simp [hp])
      rw [List.append_assoc, List.singleton_append] at ih'
      rw [List.zipIdx_cons, List.flatMap_cons, List.map_cons, List.zipIdx_cons, List.flatMap_cons, List.map_append, ih']
      congr 1
      simp only [List.map_map]
      apply List.ext_getElem?
      intro j
      simp only [List.getElem?_map, List.getElem?_zipIdx, Nat.zero_add]
      by_cases hj : j < r.length
      · rw [List.getElem?_range hj, List.getElem?_eq_getElem hj]
        simp [hp.symm, List.getElem?_append_right, List.getElem?_eq_getElem hj]
      · rw [List.getElem?_eq_none (by omega), List.getElem?_eq_none (by simp; omega)]; rfl
  have := key 0 hist [] rfl
  rw [List.nil_append] at this
  exact this

/-- The rectangle of a bin. -/
noncomputable def rectOf (binsX : List ℝ) (binsY : List (List ℝ)) (i j : Nat) (n : XF) : Rect :=
  let x0 := binsX.getD i 0
  let x1 := binsX.getD (i + 1) 0
  let y0 := (binsY.getD i []).getD j 0
  let y1 := (binsY.getD i []).getD (j + 1) 0
  ⟨x0, y0, x1 - x0, y1 - y0, (x1 - x0) * (y1 - y0), n⟩

theorem entry_ok {α : Type} (d : α) (a : List α) (i : Nat) (h : i < a.length) : entry a i = .ok (a.getD i d) := by
  unfold entry
  rw [List.getElem?_eq_getElem h]
  simp [List.getElem?_eq_getElem h]

theorem entry_error {α : Type} (a : List α) (i : Nat) (h : a.length ≤ i) : entry a i = .error .indexError := by
  unfold entry
  rw [List.getElem?_eq_none h]

theorem entry_cases {α : Type} (a : List α) (i : Nat) : entry a i = .error .indexError ∨ ∃ v, entry a i = .ok v := by
  unfold entry; split
  · exact Or.inr ⟨_, rfl⟩
  · exact Or.inl rfl

theorem rect_ok (binsX : List ℝ) (binsY : List (List ℝ)) (i j : Nat) (n : XF) (h : Llh.IsBin (.irreg2 binsX binsY) i j) :
    rect binsX binsY i j n = .ok (rectOf binsX binsY i j n) := by
  obtain ⟨hi, r, hr, hj⟩ := h
  have hlen : i < binsY.length := by
    by_contra hc
    rw [List.getElem?_eq_none (by omega)] at hr; cases hr
  have hr' : binsY.getD i [] = r := by simp [hr]
  unfold rect
  rw [entry_ok 0 binsX i (by omega), entry_ok 0 binsX (i + 1) hi, entry_ok [] binsY i hlen]
  simp only [bind, Except.bind]
  rw [hr', entry_ok 0 r j (by omega), entry_ok 0 r (j + 1) hj]
  simp only [pure, Except.pure, rectOf, hr']

theorem rect_error (binsX : List ℝ) (binsY : List (List ℝ)) (i j : Nat) (n : XF) (h : ¬ Llh.IsBin (.irreg2 binsX binsY) i j) :
    rect binsX binsY i j n = .error .indexError := by
  unfold rect
  rcases entry_cases binsX i with h1 | ⟨v1, h1⟩
  · rw [h1]; rfl
  rcases Nat.lt_or_ge (i + 1) binsX.length with hi | hi
  swap
  · rw [h1, entry_error binsX (i + 1) hi]; rfl
  rw [h1, entry_ok 0 binsX (i + 1) hi]
  simp only [bind, Except.bind]
  rcases Nat.lt_or_ge i binsY.length with hb | hb
  swap
  · rw [entry_error binsY i hb]
  rw [entry_ok [] binsY i hb]
  simp only
  have hr : binsY[i]? = some (binsY.getD i []) := by simp [List.getElem?_eq_getElem hb]
  have hj : (binsY.getD i []).length ≤ j + 1 := by
    by_contra hc
    exact h ⟨hi, _, hr, by omega⟩
  rcases entry_cases (binsY.getD i []) j with h2 | ⟨v2, h2⟩
  · rw [h2]
  · rw [h2]
    simp only
    rw [entry_error _ _ hj]

theorem rects_ok (binsX : List ℝ) (binsY : List (List ℝ)) (hist : List (List XF))
    (h : ∀ b ∈ Llh.cells (hist.map List.length), Llh.IsBin (.irreg2 binsX binsY) b.1 b.2) :
    rects binsX binsY hist = .ok ((Llh.cells (hist.map List.length)).map
      (fun b => rectOf binsX binsY b.1 b.2 ((hist.getD b.1 []).getD b.2 .nan))) := by
  unfold rects
  rw [entries_eq .nan hist, mapM_ok _ (fun t => rectOf binsX binsY t.1 t.2.1 t.2.2), List.map_map]
  · rfl
  · intro t ht
    obtain ⟨b, hb, rfl⟩ := List.mem_map.1 ht
    exact rect_ok _ _ _ _ _ (h b hb)

theorem rects_error (binsX : List ℝ) (binsY : List (List ℝ)) (hist : List (List XF))
    (h : ∃ b ∈ Llh.cells (hist.map List.length), ¬ Llh.IsBin (.irreg2 binsX binsY) b.1 b.2) :
    rects binsX binsY hist = .error .indexError := by
  unfold rects
  rw [entries_eq .nan hist]
  apply mapM_error
  · intro t _
    by_cases hc : Llh.IsBin (.irreg2 binsX binsY) t.1 t.2.1
    · exact Or.inr ⟨_, rect_ok _ _ _ _ _ hc⟩
    · exact Or.inl (rect_error _ _ _ _ _ hc)
  · obtain ⟨b, hb, hn⟩ := h
    exact ⟨_, List.mem_map.2 ⟨b, hb, rfl⟩, rect_error _ _ _ _ _ hn⟩

theorem rectOf_covers (binsX : List ℝ) (binsY : List (List ℝ)) (i j : Nat) (n : XF) (l : XF)
    (h : Llh.IsBin (.irreg2 binsX binsY) i j) : Covers binsX binsY i j ⟨rectOf binsX binsY i j n, l⟩ := by
  obtain ⟨hi, r, hr, hj⟩ := h
  have hr' : binsY.getD i [] = r := by simp [hr]
  refine ⟨binsX.getD i 0, binsX.getD (i + 1) 0, r, r.getD j 0, r.getD (j + 1) 0, ?_, ?_, hr, ?_, ?_, ?_⟩
  · rw [List.getElem?_eq_getElem (by omega)]; simp [List.getElem?_eq_getElem (show i < binsX.length by omega)]
  · rw [List.getElem?_eq_getElem hi]; simp [List.getElem?_eq_getElem hi]
  · rw [List.getElem?_eq_getElem (by omega)]; simp [List.getElem?_eq_getElem (show j < r.length by omega)]
  · rw [List.getElem?_eq_getElem hj]; simp [List.getElem?_eq_getElem hj]
  · simp only [rectOf, hr']
    refine ⟨trivial, by ring, trivial, by ring⟩

theorem cells_fits {α : Type} (binsX : List ℝ) (binsY : List (List ℝ)) (hist : List (List α)) (h : Fits binsX binsY hist) :
    Llh.cells (hist.map List.length) = Llh.binList (.irreg2 binsX binsY) := by
  unfold Llh.binList
  congr 1
  unfold Llh.binShape
  apply List.ext_getElem?
  intro i
  have hl : hist.length = binsY.length := by simpa using congrArg List.length h.2
  have h1 := h.1
  rcases Nat.lt_or_ge i hist.length with hi | hi
  · have h2 := congrArg (fun l => l[i]?) h.2
    simp only [List.getElem?_map, List.getElem?_eq_getElem hi, List.getElem?_eq_getElem (show i < binsY.length by omega),
      Option.map_some, Option.some.injEq] at h2
    rw [List.getElem?_map, List.getElem?_map, List.getElem?_range (by omega), List.getElem?_eq_getElem hi]
    simp only [Option.map_some, List.getElem?_eq_getElem (show i < binsY.length by omega), Option.getD_some]
    congr 1; omega
  · rw [List.getElem?_eq_none (by simp; omega), List.getElem?_eq_none (by simp; omega)]

theorem mem_cells (shape : List Nat) (b : Nat × Nat) : b ∈ Llh.cells shape ↔ ∃ n, shape[b.1]? = some n ∧ b.2 < n := by
  unfold Llh.cells
  rw [List.mem_flatMap]
  constructor
  · rintro ⟨⟨n, i⟩, hn, hb⟩
    rw [List.mem_zipIdx_iff_getElem?] at hn
    obtain ⟨j, hj, rfl⟩ := List.mem_map.1 hb
    exact ⟨n, hn, List.mem_range.1 hj⟩
  · rintro ⟨n, hn, hb⟩
    exact ⟨(n, b.1), List.mem_zipIdx_iff_getElem?.2 hn, List.mem_map.2 ⟨b.2, List.mem_range.2 hb, rfl⟩⟩

theorem isBin_of_fits {α : Type} (binsX : List ℝ) (binsY : List (List ℝ)) (hist : List (List α)) (h : Fits binsX binsY hist)
    (b : Nat × Nat) (hb : b ∈ Llh.cells (hist.map List.length)) : Llh.IsBin (.irreg2 binsX binsY) b.1 b.2 := by
  obtain ⟨n, hn, hlt⟩ := (mem_cells _ _).1 hb
  obtain ⟨h1, h2⟩ := h
  rw [List.getElem?_map] at hn
  cases hr : hist[b.1]? with
  | none => rw [hr] at hn; cases hn
  | some r =>
    rw [hr] at hn
    simp only [Option.map_some, Option.some.injEq] at hn
    have hi : b.1 < hist.length := (List.getElem?_eq_some_iff.1 hr).1
    have h3 := congrArg (fun l => l[b.1]?) h2
    simp only [List.getElem?_map, hr, Option.map_some] at h3
    cases hy : binsY[b.1]? with
    | none => rw [hy] at h3; cases h3
    | some y =>
      rw [hy] at h3
      simp only [Option.map_some, Option.some.injEq] at h3
      exact ⟨by omega, y, hy, by omega⟩

end Verif.HistPlot
