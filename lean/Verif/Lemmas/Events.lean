/-
Lemmas for C152: the events of a data file.
-/
import Verif.Spec.Events
import Verif.Props.Hist
import Verif.Lemmas.Likelihood

namespace Verif.Llh
open Verif Comp

section
variable {F : Type} [Field F] [LinearOrder F]

theorem makeDataHist_perm (bins : Bins F) {rows rows' : List (List (Option F))} (h : rows.Perm rows') :
    makeDataHist bins rows = makeDataHist bins rows' := by
  have h1 : (unit1 rows).Perm (unit1 rows') := h.map _
  have h2 : (unit2 rows).Perm (unit2 rows') := h.map _
  cases bins with
  | mesh1 e => simp only [makeDataHist, Hist.mesh1d_eq, Hist.weightOf_perm _ h1]
  | mesh2 x y => simp only [makeDataHist, Hist.mesh2d_eq, Hist.weightOf_perm _ h2]
  | irreg1 e => simp only [makeDataHist, Hist.hist1d_eq, Hist.weightOf_perm _ h1]
  | irreg2 x y => simp only [makeDataHist, Hist.hist2d_eq, Hist.weightOf_perm _ h2]
  | _ => rfl

theorem setBinning_perm {eq : Equi F} (hq : eq.Symmetric) (dim : Nat) (cfg : Config F) (specs : List (BinSpec F))
    {rows rows' : List (List (Option F))} (h : rows.Perm rows') : setBinning eq dim cfg specs rows = setBinning eq dim cfg specs rows' := by
  unfold setBinning
  simp only [makeDataHist_perm _ h, hq.one _ _ _ h, hq.two _ _ _ _ h]

theorem select_perm (dim : Nat) (cfg : Config F) {rows rows' : List (List (Option F))} (h : rows.Perm rows') :
    (∃ e, select dim cfg rows = .error e ∧ select dim cfg rows' = .error e) ∨
    ∃ d d', select dim cfg rows = .ok d ∧ select dim cfg rows' = .ok d' ∧ d.Perm d' := by
  unfold select
  split
  · cases need cfg.clip with
    | error e => exact .inl ⟨e, rfl, rfl⟩
    | ok c => exact .inr ⟨_, _, rfl, rfl, h.filter _⟩
  · split
    · exact .inl ⟨_, rfl, rfl⟩
    · cases need cfg.xClip with
      | error e => exact .inl ⟨e, rfl, rfl⟩
      | ok x =>
        cases need cfg.yClip with
        | error e => exact .inl ⟨e, rfl, rfl⟩
        | ok y => exact .inr ⟨_, _, rfl, rfl, h.filter _⟩

theorem normalise_count {on : BinsOn} {bins : BinsVal F} {l : List String} {specs : List (BinSpec F)} (h : normalise on bins = .ok (l, specs)) :
    on.count = l.length := by
  unfold normalise at h
  split at h <;> cases h <;> rfl

theorem select_cut (cfg : Config F) (dim : Nat) (hd : cfg.binsOn.count = dim) (rows1 rows2 : List (List (Option F))) (r : List (Option F))
    (h : CutAway cfg r) : select dim cfg (rows1 ++ r :: rows2) = select dim cfg (rows1 ++ rows2) := by
  unfold select
  split
  · rename_i h1
    cases hc : cfg.clip with
    | none => rfl
    | some c =>
      have : inside c (entry r 0) = false := by
        rw [Bool.eq_false_iff]
        exact fun hi => h.1 (hd.trans h1) c hc ((inside_iff c r 0).1 hi)
      simp only [need, bind, Except.bind, List.filter_append, List.filter_cons, this]
      rfl
  · rename_i h1
    split
    · rfl
    · cases hx : cfg.xClip with
      | none => rfl
      | some x =>
        cases hy : cfg.yClip with
        | none => rfl
        | some y =>
          have : (inside x (entry r 0) && inside y (entry r 1)) = false := by
            rw [Bool.eq_false_iff]
            intro hi
            rw [Bool.and_eq_true] at hi
            exact h.2 (hd ▸ h1) x y hx hy ⟨(inside_iff x r 0).1 hi.1, (inside_iff y r 1).1 hi.2⟩
          simp only [need, bind, Except.bind, List.filter_append, List.filter_cons, this]
          rfl

end
end Verif.Llh
