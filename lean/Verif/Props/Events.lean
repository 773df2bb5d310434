/-
C152: a likelihood depends on the events of its data file alone.
-/
import Verif.Lemmas.Events

namespace Verif.Llh
open Verif Comp

section
variable {F : Type} [Field F] [LinearOrder F]

/-- **C152 (order).** Listing the events of a file in another order gives a likelihood with the same bins, the same selected events
up to order and the same contents, or the same exception. -/
theorem C152_order (eq : Equi F) (hq : eq.Symmetric) (cfg : Config F) (rows rows' : List (List (Option F))) (hp : rows.Perm rows') :
    (∀ e, init eq cfg (fun _ => .ok rows) = .error e ↔ init eq cfg (fun _ => .ok rows') = .error e) ∧
    ∀ b, init eq cfg (fun _ => .ok rows) = .ok b → ∃ b', init eq cfg (fun _ => .ok rows') = .ok b' ∧
      b'.binsOn = b.binsOn ∧ b'.bins = b.bins ∧ b'.data.Perm b.data ∧ b'.dataHist = b.dataHist := by
  unfold init
  cases hn : normalise cfg.binsOn cfg.bins with
  | error e => simp [bind, Except.bind]
  | ok n =>
    obtain ⟨on, specs⟩ := n
    simp only [bind, Except.bind]
    cases hs : sanityCheck on specs with
    | error e => simp
    | ok _ =>
      simp only
      rcases select_perm on.length cfg hp with ⟨e, h1, h2⟩ | ⟨d, d', h1, h2, h3⟩
      · simp [h1, h2]
      · simp only [h1, h2, setBinning_perm hq on.length cfg specs h3]
        cases hb : setBinning eq on.length cfg specs d' with
        | error e => simp
        | ok x =>
          simp only [pure, Except.pure]
          refine ⟨by simp, ?_⟩
          intro b hb'
          cases hb'
          exact ⟨_, rfl, rfl, rfl, h3.symm, rfl⟩

/-- **C152 (events outside).** An event that is cut away, wherever it stands in the file, leaves the likelihood, or the exception,
exactly as it is without that event. -/
theorem C152_outside (eq : Equi F) (cfg : Config F) (rows1 rows2 : List (List (Option F))) (r : List (Option F)) (hr : CutAway cfg r) :
    init eq cfg (fun _ => .ok (rows1 ++ r :: rows2)) = init eq cfg (fun _ => .ok (rows1 ++ rows2)) := by
  unfold init
  cases hn : normalise cfg.binsOn cfg.bins with
  | error e => rfl
  | ok n =>
    obtain ⟨on, specs⟩ := n
    simp only [bind, Except.bind, select_cut cfg on.length (normalise_count hn) rows1 rows2 r hr]

end

/-- **C152 (likelihood).** With the same components, the log likelihood of the reordered file, with any number of events added that
are cut away, is the log likelihood of the file, at all parameters and with the same random numbers. -/
theorem C152_likelihood {K : Type} (eq : Equi ℝ) (hq : eq.Symmetric) (cfg : Config ℝ) (rows rows' extra : List (List (Option ℝ)))
    (hp : rows'.Perm (rows ++ extra)) (hx : ∀ r ∈ extra, CutAway cfg r) (b b' : Built ℝ)
    (h : init eq cfg (fun _ => .ok rows) = .ok b) (h' : init eq cfg (fun _ => .ok rows') = .ok b')
    (al : PyDict String String) (st : State K XF) (key : K) (batch : Int) (p : PyDict String XF) :
    getLogLikelihood al b'.dataHist st key batch p = getLogLikelihood al b.dataHist st key batch p := by
  have hext : init eq cfg (fun _ => .ok (rows ++ extra)) = init eq cfg (fun _ => .ok rows) := by
    clear hp
    induction extra with
    | nil => rw [List.append_nil]
    | cons r extra ih =>
      rw [C152_outside eq cfg rows extra r (hx r (by simp)), ih fun q hq' => hx q (by simp [hq'])]
  obtain ⟨b2, h2, _, _, _, h3⟩ := (C152_order eq hq cfg _ _ hp).2 b' h'
  rw [hext, h] at h2
  cases h2
  rw [h3]

/-- A library that divides the events at their mean. -/
noncomputable def meanLib : Equi ℝ :=
  ⟨fun rows _ => [(rows.map (fun r => (entry r 0).getD 0)).sum / rows.length], fun _ _ _ => ([], [])⟩

theorem meanLib_symmetric : meanLib.Symmetric where
  one := by
    intro rows rows' n h
    simp only [meanLib, (h.map (fun r => (entry r 0).getD 0)).sum_eq, h.length_eq]
  two := fun _ _ _ _ _ => rfl

/-- Non-vacuity of C152: equiprobable bins; the second file has the events in another order, one on the bound of the clip and one
that is NaN. -/
example {K : Type} (al : PyDict String String) (st : State K XF) (key : K) (batch : Int) (p : PyDict String XF) : ∃ b b',
    init meanLib { binsType := "equiprob", binsOn := .str "cs1", bins := .int 2, clip := some (0, 10) }
      (fun _ => .ok [[some 1], [some 2], [some 6]]) = .ok b ∧
    init meanLib { binsType := "equiprob", binsOn := .str "cs1", bins := .int 2, clip := some (0, 10) }
      (fun _ => .ok [[none], [some 6], [some 1], [some 10], [some 2]]) = .ok b' ∧ b.bins = .irreg1 [0, 3, 10] ∧
    getLogLikelihood al b'.dataHist st key batch p = getLogLikelihood al b.dataHist st key batch p := by
  obtain ⟨b, hb⟩ : ∃ b, init meanLib { binsType := "equiprob", binsOn := .str "cs1", bins := .int 2, clip := some (0, 10) }
      (fun _ => .ok [[some 1], [some 2], [some 6]]) = .ok b := ⟨_, rfl⟩
  obtain ⟨b', hb'⟩ : ∃ b, init meanLib { binsType := "equiprob", binsOn := .str "cs1", bins := .int 2, clip := some (0, 10) }
      (fun _ => .ok [[none], [some 6], [some 1], [some 10], [some 2]]) = .ok b := ⟨_, rfl⟩
  refine ⟨b, b', hb, hb', ?_, ?_⟩
  · have he : ([[some 1], [some 2], [some 6]] : List (List (Option ℝ))).filter (fun r => inside (0, 10) (entry r 0)) =
        [[some 1], [some 2], [some 6]] := by
      simp [inside, entry, List.filter_cons]
      norm_num
    simp only [init, normalise, sanityCheck, select, need, setBinning, bind, Except.bind, pure, Except.pure, List.length_cons,
      List.length_nil] at hb
    rw [he] at hb
    simp at hb
    rw [← hb]
    simp [clipEdges, meanLib, entry, Interp.clip]
    norm_num
  · refine C152_likelihood meanLib meanLib_symmetric _ _ _ [[none], [some 10]] ?_ ?_ b b' hb hb' al st key batch p
    · exact (show ([0, 1, 2, 3, 4] : List (Fin 5)).Perm [2, 4, 1, 0, 3] by decide).map
        (![[none], [some 6], [some 1], [some 10], [some 2]] : Fin 5 → List (Option ℝ))
    · intro r hr
      simp only [List.mem_cons, List.not_mem_nil, or_false] at hr
      rcases hr with rfl | rfl
      · refine ⟨fun _ c hc => ?_, fun h => absurd rfl h⟩
        rintro ⟨v, hv, _⟩
        simp at hv
      · refine ⟨fun _ c hc => ?_, fun h => absurd rfl h⟩
        cases hc
        rintro ⟨v, hv, _, h2⟩
        simp at hv
        subst hv
        norm_num at h2

end Verif.Llh
