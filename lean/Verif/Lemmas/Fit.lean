/-
Helper lemmas about fitting and its backend.
-/
import Verif.Spec.Fit

namespace Verif.Fit
open Verif Parameter

section
variable {I : Type}

theorem XF_lt_trans {a b c : XF} (h1 : a < b) (h2 : b < c) : a < c := by
  change XF.lt a c
  change XF.lt a b at h1
  change XF.lt b c at h2
  cases a <;> cases b <;> cases c <;> simp_all only [XF.lt]
  exact lt_trans h1 h2

theorem XF_lt_irrefl (a : XF) : ¬ a < a := by
  change ¬ XF.lt a a
  cases a <;> simp [XF.lt]

theorem argmaxFrom_spec (L : List XF) (hL : XF.nan ∉ L) (best : Nat) (v : XF) (i : Nat) (xs : List XF) (hxs : L.drop i = xs)
    (hi : i ≤ L.length) (hbi : best < i) (hb : L[best]? = some v) (hmax : ∀ (j : Nat) (y : XF), j < i → L[j]? = some y → ¬ v < y) :
    ∃ m : XF, L[argmaxFrom best v i xs]? = some m ∧ ∀ y ∈ L, ¬ m < y := by
  induction xs generalizing best v i with
  | nil =>
    have hlen : L.length ≤ i := by simpa using hxs
    refine ⟨v, hb, ?_⟩
    intro y hy
    obtain ⟨j, hj, rfl⟩ := List.getElem_of_mem hy
    exact hmax j _ (by omega) (by simp [hj])
  | cons x xs ih =>
    have hlt : i < L.length := by
      by_contra hcon
      rw [List.drop_eq_nil_of_le (by omega)] at hxs
      cases hxs
    have hx : L[i]? = some x := by
      rw [List.drop_eq_getElem_cons hlt] at hxs
      simp only [List.cons.injEq] at hxs
      rw [List.getElem?_eq_getElem hlt, hxs.1]
    have hdrop : L.drop (i + 1) = xs := by
      rw [List.drop_eq_getElem_cons hlt] at hxs
      exact (List.cons.inj hxs).2
    unfold argmaxFrom
    split
    · rename_i hvx
      refine ih i x (i + 1) hdrop (by omega) (by omega) hx ?_
      intro j y hj hy
      rcases Nat.lt_or_ge j i with h | h
      · intro hxy
        exact hmax j y h hy (XF_lt_trans hvx hxy)
      · have : j = i := by omega
        subst this
        rw [hx] at hy; cases hy
        exact XF_lt_irrefl x
    · rename_i hvx
      refine ih best v (i + 1) hdrop (by omega) (by omega) hb ?_
      intro j y hj hy
      rcases Nat.lt_or_ge j i with h | h
      · exact hmax j y h hy
      · have : j = i := by omega
        subst this
        rw [hx] at hy; cases hy
        exact hvx

theorem argmax_spec (L : List XF) (hL : XF.nan ∉ L) (hne : L ≠ []) :
    ∃ i m, argmax L = .ok i ∧ L[i]? = some m ∧ ∀ y ∈ L, ¬ m < y := by
  cases L with
  | nil => exact absurd rfl hne
  | cons x xs =>
    obtain ⟨m, h1, h2⟩ := argmaxFrom_spec (x :: xs) hL 0 x 1 xs rfl (by simp) (by omega) rfl (by
      intro j y hj hy
      have : j = 0 := by omega
      subst this
      simp only [List.getElem?_cons_zero, Option.some.injEq] at hy
      subst hy
      exact XF_lt_irrefl x)
    exact ⟨_, m, rfl, h1, h2⟩

theorem fromSample_update (pm : PM) (hnd : (parameterFit pm).Nodup) (s : Sample)
    (hw : s.vec.length = (parameterFit pm).length) :
    FromSample pm s (pm.vals.update ((parameterFit pm).zip s.vec)) := by
  have hfst : ((parameterFit pm).zip s.vec).map Prod.fst = parameterFit pm := List.map_fst_zip (by omega)
  constructor
  · intro i n x hn hx
    apply PyDict.get?_update_nodup
    · rw [hfst]; exact hnd
    · rw [List.mem_iff_getElem?]
      exact ⟨i, by rw [List.getElem?_zip_eq_some]; exact ⟨hn, hx⟩⟩
  · intro n hn
    apply PyDict.get?_update_not_mem
    rw [hfst]; exact hn

theorem dumpMeta_ok (med : List (List XF) → List XF) (w : World I) (batch : Int) (hh : w.ctx.h5 = true) (w2 : World I)
    (p : PyDict String XF) (h : getPost med { w with file := applyAll w.file metaBefore } .mpe = (w2, .ok p)) :
    dumpMeta med w batch = (⟨w2.ctx, applyAll w2.file
      (.attr "post_parameters" (.params p) :: metaAfter w.ctx.instruct (parameterFit w.ctx.pm) batch)⟩, .ok ()) := by
  unfold dumpMeta
  rw [if_neg (by simp [hh])]
  simp only [h]

theorem getPost_cached (med : List (List XF) → List XF) (w : World I) (which : Which) (L : List XF) (C : List (List XF))
    (h1 : w.ctx.logp = some L) (h2 : w.ctx.chain = some C) :
    (getPost med w which).1 = w ∧
      (getPost med w which).2 = (do
        let v ← choose med L C which
        return w.ctx.pm.vals.update ((parameterFit w.ctx.pm).zip v)) := by
  unfold getPost
  rw [if_neg (by simp [h1])]
  constructor
  · obtain ⟨c, f⟩ := w
    obtain ⟨i, h5, pm, sm, mem, lp, ch⟩ := c
    simp only at h1 h2
    subst h1 h2
    simp [cache]
  · simp [cache, h1, h2]

theorem dumpMeta_cached (med : List (List XF) → List XF) (w : World I) (batch : Int) (L : List XF) (C : List (List XF))
    (h1 : w.ctx.logp = some L) (h2 : w.ctx.chain = some C) :
    (dumpMeta med w batch).1.ctx = w.ctx := by
  unfold dumpMeta
  split
  · rfl
  · have := (getPost_cached med { w with file := applyAll w.file metaBefore } .mpe L C h1 h2).1
    cases hgp : getPost med { w with file := applyAll w.file metaBefore } .mpe with
    | mk w3 res =>
      rw [hgp] at this
      simp only at this
      subst this
      simp only [hgp]
      cases res <;> rfl

theorem applyAll_append (f : Option (File I)) (a b : List (Write I)) :
    applyAll f (a ++ b) = applyAll (applyAll f a) b := by simp [applyAll]

theorem applyAll_appends (st : List (List Sample)) (f : File I) :
    applyAll (some f) (st.map Write.append) = some { f with chain := f.chain ++ st } := by
  induction st generalizing f with
  | nil => simp [applyAll]
  | cons a st ih =>
    have := ih { f with chain := f.chain ++ [a] }
    simp only [applyAll, List.map_cons, List.foldl_cons, apply, Option.getD_some] at this ⊢
    rw [this]
    simp

/-- The last part of the writes, one attribute at a time. -/
def metaWrites (post : PyDict String XF) (i : I) (names : List String) (batch : Int) : List (Write I) :=
  metaBefore ++ .attr "post_parameters" (.params post) :: metaAfter i names batch

theorem metaWrites_length (post : PyDict String XF) (i : I) (names : List String) (batch : Int) :
    (metaWrites post i names batch).length = 10 := rfl

/-- Reading after some of the metadata writes. -/
theorem fromBackend_meta (f : File I) (post : PyDict String XF) (i : I) (names : List String) (batch : Int) (k : Nat) :
    let g := applyAll (some f) ((metaWrites post i names batch).take k)
    ∃ h, g = some h ∧ h.chain = f.chain ∧ h.attrs.get? "nwalkers" = f.attrs.get? "nwalkers" ∧
      h.attrs.get? "instruct" = (if 5 ≤ k then some (.instruct i) else f.attrs.get? "instruct") ∧
      h.attrs.get? "batch_size" = (if 8 ≤ k then some (.int batch) else f.attrs.get? "batch_size") ∧
      h.attrs.get? "post_parameters" = (if 3 ≤ k then some (.params post) else f.attrs.get? "post_parameters") := by
  intro g
  have hk : k = 0 ∨ k = 1 ∨ k = 2 ∨ k = 3 ∨ k = 4 ∨ k = 5 ∨ k = 6 ∨ k = 7 ∨ k = 8 ∨ k = 9 ∨ 10 ≤ k := by omega
  have htake : 10 ≤ k → (metaWrites post i names batch).take k = metaWrites post i names batch := fun h =>
    List.take_of_length_le (by rw [metaWrites_length]; exact h)
  rcases hk with rfl | rfl | rfl | rfl | rfl | rfl | rfl | rfl | rfl | rfl | hk <;>
    (try (have ht := htake (by omega))) <;>
    (try simp only [g, ht]) <;>
    (refine ⟨_, rfl, ?_⟩; simp [metaWrites, metaBefore, metaAfter, apply, PyDict.get?_set])
  all_goals omega

theorem take_add_append {α : Type} (a b : List α) (n k : Nat) (h : n = a.length) : (a ++ b).take (n + k) = a ++ b.take k := by
  subst h
  rw [List.take_append, List.take_of_length_le (by omega), Nat.add_sub_cancel_left]

theorem getPost_file (med : List (List XF) → List XF) (w : World I) (which : Which) :
    (getPost med w which).1.file = w.file := by
  unfold getPost
  split
  · rfl
  · rfl

/-- What `_dump_meta` leaves in the file. -/
theorem dumpMeta_writes (med : List (List XF) → List XF) (w : World I) (batch : Int) (hh : w.ctx.h5 = true) :
    ∃ post k, (dumpMeta med w batch).1.file =
        applyAll w.file ((metaWrites post w.ctx.instruct (parameterFit w.ctx.pm) batch).take k) ∧
      ((dumpMeta med w batch).2 = .ok () → 10 ≤ k) := by
  have hf := getPost_file med { w with file := applyAll w.file metaBefore } .mpe
  cases hgp : getPost med { w with file := applyAll w.file metaBefore } .mpe with
  | mk w2 res =>
    rw [hgp] at hf
    cases res with
    | error e =>
      have hd : dumpMeta med w batch = (w2, .error e) := by
        unfold dumpMeta
        rw [if_neg (by simp [hh])]
        simp only [hgp]
      refine ⟨[], 2, ?_, ?_⟩
      · rw [hd]; exact hf
      · rw [hd]; intro h; cases h
    | ok p =>
      refine ⟨p, 10, ?_, fun _ => le_refl _⟩
      rw [dumpMeta_ok med w batch hh w2 p hgp]
      simp only at hf ⊢
      rw [hf, ← applyAll_append]
      rfl

end
end Verif.Fit
