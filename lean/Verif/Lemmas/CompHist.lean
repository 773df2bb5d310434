/- Helper lemmas about histogram normalisation and masking (not claims). -/
import Verif.Model.CompHist
import Verif.Props.Hist
import Verif.Base.MapM
import Mathlib.Algebra.Order.BigOperators.Group.List
import Mathlib.Algebra.BigOperators.Ring.List
import Mathlib.Tactic.FieldSimp
import Mathlib.Tactic.Ring
import Mathlib.Tactic.Positivity

namespace Verif.Comp
open Verif

section
variable {F : Type} [Field F] [LinearOrder F] [IsStrictOrderedRing F]

omit [LinearOrder F] [IsStrictOrderedRing F] in
theorem total_scale (f : F) (h : List (List F)) : total (scaleHist f h) = total h * f := by
  unfold total scaleHist
  rw [List.map_map]
  induction h with
  | nil => simp
  | cons r h ih =>
    simp only [List.map_cons, Function.comp_apply, List.sum_cons] at ih ⊢
    rw [ih, List.sum_map_mul_right, List.map_id']; ring

theorem total_pos {h : List (List F)} (hne : ∃ r ∈ h, r ≠ []) (hp : ∀ r ∈ h, ∀ x ∈ r, 0 < x) :
    0 < total h := by
  unfold total
  obtain ⟨r, hr, hrne⟩ := hne
  have h0 : ∀ y ∈ h.map List.sum, 0 ≤ y := by
    intro y hy
    obtain ⟨q, hq, rfl⟩ := List.mem_map.1 hy
    exact List.sum_nonneg (fun x hx => le_of_lt (hp q hq x hx))
  have h1 : 0 < r.sum := List.sum_pos r (hp r hr) hrne
  exact lt_of_lt_of_le h1 (List.single_le_sum h0 _ (List.mem_map_of_mem hr))

theorem mean_nonneg {eff : List F} (h : ∀ e ∈ eff, 0 ≤ e) : 0 ≤ mean eff := by
  unfold mean
  exact div_nonneg (List.sum_nonneg h) (Nat.cast_nonneg _)

theorem tiny_pos : (0 : F) < tiny := by unfold tiny; positivity

end

theorem applyMask_zip {α β : Type} (m : List Bool) (a : List α) (b : List β) (h1 : a.length = m.length)
    (h2 : b.length = m.length) : (applyMask m a).zip (applyMask m b) = applyMask m (a.zip b) := by
  induction m generalizing a b with
  | nil =>
    simp only [List.length_nil, List.length_eq_zero_iff] at h1 h2
    subst h1 h2; rfl
  | cons x m ih =>
    cases a with
    | nil => simp at h1
    | cons u a =>
      cases b with
      | nil => simp at h2
      | cons v b =>
        have := ih a b (by simpa using h1) (by simpa using h2)
        cases x
        · simpa [applyMask] using this
        · simpa [applyMask] using this

theorem applyMask_map {α β : Type} (m : List Bool) (a : List α) (f : α → β) :
    applyMask m (a.map f) = (applyMask m a).map f := by
  induction m generalizing a with
  | nil => simp [applyMask]
  | cons x m ih =>
    cases a with
    | nil => simp [applyMask]
    | cons u a =>
      have := ih a
      cases x <;> simpa [applyMask] using this

/-- Masking by a predicate on a column of the same length is filtering. -/
theorem applyMask_filter {α β : Type} (p : β → Bool) (a : List α) (b : List β)
    (h : a.length = b.length) :
    applyMask (b.map p) (a.zip b) = (a.zip b).filter (fun x => p x.2) := by
  induction b generalizing a with
  | nil => simp [applyMask]
  | cons v b ih =>
    cases a with
    | nil => simp at h
    | cons u a =>
      have := ih a (by simpa using h)
      cases hp : p v
      · simpa [applyMask, hp, List.filter_cons] using this
      · simpa [applyMask, hp, List.filter_cons] using this

theorem applyMask_length {α β : Type} (m : List Bool) (a : List α) (b : List β) (h : a.length = b.length) :
    (applyMask m a).length = (applyMask m b).length := by
  induction m generalizing a b with
  | nil => simp [applyMask]
  | cons x m ih =>
    cases a <;> cases b
    · rfl
    · simp at h
    · simp at h
    · rename_i u a v b
      have := ih a b (by simpa using h)
      cases x <;> simpa [applyMask] using this

end Verif.Comp

namespace Verif.Comp
open Verif
variable {F : Type} [Field F] [LinearOrder F]

omit [Field F] in
theorem strictlyInside_iff (lo hi : F) (mid : List F) (hs : (lo :: mid ++ [hi]).Pairwise (· ≤ ·)) (v : F) :
    strictlyInside (lo :: mid ++ [hi]) v = true ↔ lo < v ∧ v < hi := by
  have hlo : ∀ e ∈ lo :: mid ++ [hi], lo ≤ e := by
    intro e he
    rw [List.cons_append, List.pairwise_cons] at hs
    rcases List.mem_cons.1 he with rfl | he
    · exact le_refl _
    · exact hs.1 e he
  have hhi : ∀ e ∈ lo :: mid ++ [hi], e ≤ hi := by
    intro e he
    rw [List.pairwise_append] at hs
    rcases List.mem_append.1 he with he | he
    · exact hs.2.2 e he hi (by simp)
    · rw [List.mem_singleton] at he; rw [he]
  unfold strictlyInside
  rw [Bool.and_eq_true, decide_eq_true_eq, decide_eq_true_eq]
  constructor
  · rintro ⟨⟨a, ha, hamin, hav⟩, ⟨b, hb, hbmax, hbv⟩⟩
    exact ⟨lt_of_le_of_lt (hlo a ha) hav, lt_of_lt_of_le hbv (hhi b hb)⟩
  · rintro ⟨h1, h2⟩
    exact ⟨⟨lo, by simp, hlo, h1⟩, ⟨hi, by simp, hhi, h2⟩⟩

omit [Field F] in
theorem clipMask_one (b : List F) (c : List F) (n : Nat) (h : c.length = n) :
    clipMask (.irreg1 b) [c] n = c.map (strictlyInside b) := by
  subst h
  simp only [clipMask, List.zipIdx_cons, List.zipIdx_nil, List.foldl_cons, List.foldl_nil, Bins.axis]
  apply List.ext_getElem
  · simp
  · intro i h1 h2
    simp

theorem clipHeap_spec (h : Heap F) (mask : List Bool) (is : List Nat) :
    (∃ ext, (clipHeap h mask is).1 = h ++ ext) ∧ (clipHeap h mask is).2.length = is.length ∧
    ∀ j ∈ (clipHeap h mask is).2, h.length ≤ j := by
  induction is generalizing h with
  | nil => exact ⟨⟨[], by simp [clipHeap]⟩, rfl, by simp [clipHeap]⟩
  | cons i is ih =>
    obtain ⟨⟨ext, h1⟩, h2, h3⟩ := ih (h ++ [applyMask mask (h[i]?.getD [])])
    refine ⟨⟨[applyMask mask (h[i]?.getD [])] ++ ext, ?_⟩, ?_, ?_⟩
    · simp only [clipHeap, Heap.alloc]; rw [h1]; simp
    · simp only [clipHeap, Heap.alloc, List.length_cons]; rw [h2]
    · intro j hj
      simp only [clipHeap, Heap.alloc, List.mem_cons] at hj
      rcases hj with rfl | hj
      · exact Nat.le_refl _
      · have := h3 j hj
        simp at this
        omega

theorem simLoop_spec {K : Type} (sim : K → K × List (List F)) (force apply : Bool) (n : Nat) (key : K)
    (pile : List (List (List F))) (r : K × List (List (List F)))
    (h : simLoop sim force apply n key pile = .ok r) :
    ∃ new : List (List (List F)), r.2 = pile ++ new ∧ new.length = n ∧
      ∃ keys : Nat → K, keys 0 = key ∧ keys n = r.1 ∧
        ∀ j (hj : j < n), ∃ res, new[j]? = some res ∧
          oneSimulation sim force apply (keys j) = .ok (keys (j + 1), res) := by
  induction n generalizing key pile with
  | zero =>
    simp only [simLoop, Except.ok.injEq] at h
    subst h
    exact ⟨[], by simp, rfl, fun _ => key, rfl, rfl, fun j hj => absurd hj (by omega)⟩
  | succ n ih =>
    simp only [simLoop] at h
    cases ho : oneSimulation sim force apply key with
    | error e => rw [ho] at h; cases h
    | ok v =>
      rw [ho] at h
      obtain ⟨new, h1, h2, keys, hk0, hkn, hkj⟩ := ih v.1 (pile ++ [v.2]) h
      refine ⟨v.2 :: new, by rw [h1]; simp, by simp [h2],
        fun j => match j with | 0 => key | j + 1 => keys j, rfl, hkn, ?_⟩
      intro j hj
      cases j with
      | zero => exact ⟨v.2, by simp, by rw [ho]; simp [hk0]⟩
      | succ j =>
        obtain ⟨res, hr1, hr2⟩ := hkj j (by omega)
        exact ⟨res, by simpa using hr1, hr2⟩

end Verif.Comp

namespace Verif.Comp
open Verif
variable {F : Type} [Field F] [LinearOrder F]

omit [Field F] in
theorem applyMask_fst_filter {α : Type} (q : F → Bool) (l : List (F × α)) :
    applyMask (l.map (fun p => q p.1)) l = l.filter (fun p => q p.1) := by
  induction l with
  | nil => simp [applyMask]
  | cons p l ih =>
    cases hp : q p.1
    · simp only [List.map_cons, List.filter_cons, hp, Bool.false_eq_true, if_false]
      rw [← ih]; simp [applyMask]
    · simp only [List.map_cons, List.filter_cons, hp, if_true]
      rw [← ih]; simp [applyMask]

omit [Field F] in
/-- Clipping both columns of a one-dimensional result. -/
theorem applyMask_inside (lo hi : F) (mid : List F) (hs : (lo :: mid ++ [hi]).Pairwise (· ≤ ·))
    (c eff : List F) (hlen : c.length = eff.length) :
    applyMask (c.map (strictlyInside (lo :: mid ++ [hi]))) c
      = ((c.zip eff).filter (fun p => decide (lo < p.1 ∧ p.1 < hi))).map Prod.fst ∧
    applyMask (c.map (strictlyInside (lo :: mid ++ [hi]))) eff
      = ((c.zip eff).filter (fun p => decide (lo < p.1 ∧ p.1 < hi))).map Prod.snd := by
  have hq : strictlyInside (lo :: mid ++ [hi]) = fun v => decide (lo < v ∧ v < hi) := by
    funext v
    rw [Bool.eq_iff_iff, strictlyInside_iff lo hi mid hs, decide_eq_true_eq]
  have hfst : (c.zip eff).map Prod.fst = c := List.map_fst_zip (by omega)
  have hsnd : (c.zip eff).map Prod.snd = eff := List.map_snd_zip (by omega)
  have hm : c.map (strictlyInside (lo :: mid ++ [hi]))
      = (c.zip eff).map (fun p => decide (lo < p.1 ∧ p.1 < hi)) := by
    conv_lhs => rw [← hfst]
    rw [List.map_map, hq]; rfl
  rw [hm]
  constructor
  · conv_lhs => rw [← hfst]
    rw [hfst, ← applyMask_fst_filter (fun v => decide (lo < v ∧ v < hi)), ← applyMask_map, hfst]
  · rw [← applyMask_fst_filter (fun v => decide (lo < v ∧ v < hi)), ← applyMask_map, hsnd]

theorem total_inside (lo hi : F) (mid : List F) (hs : (lo :: mid ++ [hi]).Pairwise (· ≤ ·))
    (l : List (F × F)) (hin : ∀ p ∈ l, lo < p.1 ∧ p.1 < hi) :
    total [Hist.hist1d (lo :: mid ++ [hi]) (samples1 (l.map Prod.fst) (l.map Prod.snd))]
      = (l.map Prod.snd).sum := by
  simp only [total, List.map_cons, List.map_nil, List.sum_cons, List.sum_nil, add_zero]
  rw [Hist.C08_hist1d_total lo hi mid hs]
  unfold Hist.weightOf samples1
  congr 1
  induction l with
  | nil => rfl
  | cons p l ih =>
    have hp := hin p (by simp)
    have : Hist.InBin lo hi (some p.1) := ⟨p.1, rfl, hp.1, le_of_lt hp.2⟩
    simp only [List.map_cons, List.zip_cons_cons, List.filter_cons, this, decide_true, if_true]
    rw [ih (fun q hq => hin q (by simp [hq]))]

theorem total_no_upper (lo hi : F) (mid : List F) (hs : (lo :: mid ++ [hi]).Pairwise (· ≤ ·))
    (c eff : List F) (hup : hi ∉ c) :
    total [Hist.hist1d (lo :: mid ++ [hi]) (samples1 c eff)]
      = (((c.zip eff).filter (fun p => decide (lo < p.1 ∧ p.1 < hi))).map Prod.snd).sum := by
  simp only [total, List.map_cons, List.map_nil, List.sum_cons, List.sum_nil, add_zero]
  rw [Hist.C08_hist1d_total lo hi mid hs]
  unfold Hist.weightOf samples1
  congr 1
  induction c generalizing eff with
  | nil => rfl
  | cons x c ih =>
    cases eff with
    | nil => rfl
    | cons e eff =>
      have hx : x ≠ hi := fun h => hup (by simp [h])
      have hiff : Hist.InBin lo hi (some x) ↔ lo < x ∧ x < hi := by
        constructor
        · rintro ⟨r, hr, h1, h2⟩
          cases hr
          exact ⟨h1, lt_of_le_of_ne h2 hx⟩
        · rintro ⟨h1, h2⟩
          exact ⟨x, rfl, h1, le_of_lt h2⟩
      have ih' := ih eff (fun h => hup (by simp [h]))
      simp only [List.map_cons, List.zip_cons_cons, List.filter_cons]
      by_cases hp : lo < x ∧ x < hi
      · simp only [hiff, hp, and_self, decide_true, if_true, List.map_cons]
        rw [ih']
      · simp only [hiff, hp, decide_false, Bool.false_eq_true, if_false]
        rw [ih']

theorem total_le_floor [IsStrictOrderedRing F] (eps : Bool) (eff : List F) (h : List (List F)) :
    total h ≤ total (floorHist eps eff h) := by
  unfold floorHist
  split
  · unfold total
    rw [List.map_map]
    apply List.sum_le_sum
    intro row _
    simp only [Function.comp_apply]
    conv_lhs => rw [← List.map_id row]
    exact List.sum_le_sum (fun x _ => le_max_left _ _)
  · exact le_refl _

end Verif.Comp
