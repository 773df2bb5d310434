/-
Lemmas for C79: the log likelihood of a built likelihood, and of several in a row.
-/
import Verif.Lemmas.Flow
import Verif.Props.Context

namespace Verif.Llh
open Verif Comp

section
variable {K : Type}

/-- The samples do not depend on the data, only on the bins, and the plugins run in the order of the resolved dependencies. -/
theorem log_likelihood_ordered (bins : Bins ℝ) (S : Setup K) (parts : List Part) (hS : S.Proper bins parts) (g g' : FnCache)
    (st : State K XF) (hb : S.build parts (⟨[], []⟩, g) = ((st, g'), .ok ())) :
    ∃ order : String → List Plugin,
      (∀ a, Part.sim a ∈ parts → order a.comp = simOrder a.registry (S.binsOn ++ ["eff"]) ∧
        Topological a.registry (S.binsOn ++ ["eff"]) (order a.comp)) ∧
      ∀ key batch q, (∀ p ∈ parts, p.name ++ "_rate" ∈ (replaceAlias S.al q).keys) →
        ∃ ss key', Draws S order batch (replaceAlias S.al q) parts key ss key' ∧
          ((∀ s ∈ ss, s.Normalisable) → ∀ eq cfg load (b : Built ℝ), init eq cfg load = .ok b → b.bins = bins →
            (∃ h : Grid ℝ, simulateModelHist S.al b.dataHist st key batch (floats q) = .ok (key', gridFloats h) ∧
              h.flatten = (binList b.bins).map (expectedIn ss)) ∧
            ((∀ c ∈ binList b.bins, 0 < expectedIn ss c) →
              getLogLikelihood S.al b.dataHist st key batch (floats q) = .ok (key', .fin (binnedLogL b.bins b.data ss))) ∧
            ((∃ c ∈ binList b.bins, expectedIn ss c ≤ 0) →
              getLogLikelihood S.al b.dataHist st key batch (floats q) = .ok (key', .ninf))) := by
  obtain ⟨cs, order, e1, _, e3, e4⟩ := build_runs S bins parts hS parts (fun _ h => h) _ _ hb
  refine ⟨order, e3, ?_⟩
  intro key batch q hr
  obtain ⟨ss, k', f1, f2⟩ := e4 order (fun _ _ => rfl) batch (replaceAlias S.al q) key (fun p hp => by
    obtain ⟨v, hv⟩ := Option.isSome_iff_exists.1 ((PyDict.mem_keys_iff _ _).1 (hr p hp))
    exact ⟨v, hv⟩)
  refine ⟨ss, k', f1, ?_⟩
  intro hn eq cfg load b h hbins
  subst hbins
  obtain ⟨hs, j1, j2⟩ := f2 hn
  have hshape : b.dataHist.map List.length = binShape b.bins := by
    obtain ⟨specs, rows, _, _, _, _, hb⟩ := init_spec eq cfg load b h
    rw [(setBinning_hist eq _ cfg specs b.data b.bins b.dataHist hb).1]
    exact makeDataHist_shape b.bins hS.ascending b.data
  have hcomp : st.components = cs := by simpa using e1
  rw [← hcomp] at j1
  obtain ⟨hh, m1, m2⟩ := model_of_runs hS.ascending hshape j2 S.al j1
  have hdata : b.dataHist.flatten = (binList b.bins).map (fun c => (countIn b.bins b.data c : ℝ)) := by
    rw [flatten_cells _ 0, hshape]
    apply List.map_congr_left
    rintro ⟨i, j⟩ hc
    rw [C34_bin_contents eq cfg load b h hS.ascending i j ((mem_binList b.bins hS.ascending i j).1 hc)]
    rfl
  have hflat : (gridFloats hh).flatten = ((binList b.bins).map (expectedIn ss)).map XF.fin := by
    have : (gridFloats hh).flatten = hh.flatten.map XF.fin := by
      unfold gridFloats; rw [← List.map_flatten]
    rw [this, m2]
    rfl
  have hsame : simulateModelHist S.al b.dataHist st key batch (replaceAlias S.al (floats q)) = .ok (k', gridFloats hh) := by
    rw [← m1]; unfold simulateModelHist; rw [replaceAlias_idem S.al hS.aliases]
  refine ⟨⟨hh, m1, m2⟩, ?_, ?_⟩
  · intro hp
    unfold getLogLikelihood
    rw [hsame]
    simp only [bind, Except.bind]
    rw [C38_value b.dataHist (gridFloats hh) _ hflat (by
      intro m hm
      obtain ⟨c, hc, rfl⟩ := List.mem_map.1 hm
      exact hp c hc)]
    have : poissonValue b.dataHist.flatten ((binList b.bins).map (expectedIn ss)) = binnedLogL b.bins b.data ss := by
      unfold poissonValue binnedLogL
      rw [hdata, List.zipWith_map, List.zipWith_self]
    rw [this]
    rfl
  · rintro ⟨c, hc, hle⟩
    unfold getLogLikelihood
    rw [hsame]
    simp only [bind, Except.bind]
    rw [C38_minus_infinity b.dataHist (gridFloats hh) (.fin (expectedIn ss c))
      (by rw [hflat]; exact List.mem_map.2 ⟨_, List.mem_map.2 ⟨c, hc, rfl⟩, rfl⟩)
      (by
        rintro ⟨m, hm, he⟩
        cases he
        exact absurd hm (not_lt.2 hle))]
    rfl

/-- The samples do not depend on the data, only on the bins. -/
theorem log_likelihood_of_bins (bins : Bins ℝ) (S : Setup K) (parts : List Part) (hS : S.Proper bins parts) (g g' : FnCache)
    (st : State K XF) (hb : S.build parts (⟨[], []⟩, g) = ((st, g'), .ok ())) :
    ∃ order : String → List Plugin,
      (∀ a, Part.sim a ∈ parts → Topological a.registry (S.binsOn ++ ["eff"]) (order a.comp)) ∧
      ∀ key batch q, (∀ p ∈ parts, p.name ++ "_rate" ∈ (replaceAlias S.al q).keys) →
        ∃ ss key', Draws S order batch (replaceAlias S.al q) parts key ss key' ∧
          ((∀ s ∈ ss, s.Normalisable) → ∀ eq cfg load (b : Built ℝ), init eq cfg load = .ok b → b.bins = bins →
            ((∀ c ∈ binList b.bins, 0 < expectedIn ss c) →
              getLogLikelihood S.al b.dataHist st key batch (floats q) = .ok (key', .fin (binnedLogL b.bins b.data ss))) ∧
            ((∃ c ∈ binList b.bins, expectedIn ss c ≤ 0) →
              getLogLikelihood S.al b.dataHist st key batch (floats q) = .ok (key', .ninf))) := by
  obtain ⟨order, h1, h2⟩ := log_likelihood_ordered bins S parts hS g g' st hb
  refine ⟨order, fun a ha => (h1 a ha).2, fun key batch q hr => ?_⟩
  obtain ⟨ss, key', d, hv⟩ := h2 key batch q hr
  exact ⟨ss, key', d, fun hn eq cfg load b h hbins => (hv hn eq cfg load b h hbins).2⟩

theorem log_likelihood_of_build (eq : Equi ℝ) (cfg : Config ℝ) (load : List String → Res (List (List (Option ℝ)))) (b : Built ℝ)
    (h : init eq cfg load = .ok b) (S : Setup K) (parts : List Part) (hS : S.Proper b.bins parts) (g g' : FnCache)
    (st : State K XF) (hb : S.build parts (⟨[], []⟩, g) = ((st, g'), .ok ())) :
    ∃ order : String → List Plugin,
      (∀ a, Part.sim a ∈ parts → Topological a.registry (S.binsOn ++ ["eff"]) (order a.comp)) ∧
      ∀ key batch q, (∀ p ∈ parts, p.name ++ "_rate" ∈ (replaceAlias S.al q).keys) →
        ∃ ss key', Draws S order batch (replaceAlias S.al q) parts key ss key' ∧
          ((∀ s ∈ ss, s.Normalisable) →
            ((∀ c ∈ binList b.bins, 0 < expectedIn ss c) →
              getLogLikelihood S.al b.dataHist st key batch (floats q) = .ok (key', .fin (binnedLogL b.bins b.data ss))) ∧
            ((∃ c ∈ binList b.bins, expectedIn ss c ≤ 0) →
              getLogLikelihood S.al b.dataHist st key batch (floats q) = .ok (key', .ninf))) := by
  obtain ⟨order, h1, h2⟩ := log_likelihood_of_bins b.bins S parts hS g g' st hb
  refine ⟨order, h1, fun key batch q hr => ?_⟩
  obtain ⟨ss, key', d, hv⟩ := h2 key batch q hr
  exact ⟨ss, key', d, fun hn => hv hn eq cfg load b h rfl⟩

open Classical in
/-- The value a likelihood gives. -/
noncomputable def valueOf (f : Fitted K) (ss : List (Sample ℝ)) : XF :=
  if ∀ b ∈ binList f.bins, 0 < expectedIn ss b then .fin (binnedLogL f.bins f.data ss) else .ninf

theorem all_likelihoods (es : List (String × Ctx.Obj K)) (fs : List (Fitted K))
    (hfs : List.Forall₂ (fun e f => Fitted.Made f e) es fs) (hnames : (fs.map Fitted.name).Nodup) :
    ∃ order : String → String → List Plugin,
      (∀ f ∈ fs, ∀ a, Part.sim a ∈ f.parts → Topological a.registry (f.setup.binsOn ++ ["eff"]) (order f.name a.comp)) ∧
      ∀ order' : String → String → List Plugin, (∀ f ∈ fs, order' f.name = order f.name) → ∀ key batch q,
        (∀ f ∈ fs, ∀ p ∈ f.parts, p.name ++ "_rate" ∈ (replaceAlias f.setup.al q).keys) →
        ∃ sss key', DrawsAll order' batch q fs key sss key' ∧ sss.length = fs.length ∧
          ((∀ ss ∈ sss, ∀ s ∈ ss, s.Normalisable) → Ctx.Evals batch (floats q) es key (List.zipWith valueOf fs sss)) := by
  induction hfs with
  | nil => exact ⟨fun _ _ => [], by simp, fun _ _ key _ _ _ => ⟨[], key, .nil _, rfl, fun _ => .nil _⟩⟩
  | @cons e f es fs hd _ ih =>
    obtain ⟨eq, cfg, load, b, g, st, g', hinit, hbins, hdata, hprop, hbuild, rfl⟩ := hd
    rw [List.map_cons, List.nodup_cons] at hnames
    obtain ⟨order, h1, h2⟩ := ih hnames.2
    obtain ⟨ord, h3, h4⟩ := log_likelihood_of_build eq cfg load b hinit f.setup f.parts (by rw [hbins]; exact hprop) g g' st hbuild
    have hne : ∀ f' ∈ fs, f'.name ≠ f.name := fun f' hf' hn => hnames.1 (List.mem_map.2 ⟨f', hf', hn⟩)
    refine ⟨fun n => if n = f.name then ord else order n, ?_, ?_⟩
    · intro f' hf' a ha
      rcases List.mem_cons.1 hf' with rfl | hf'
      · simpa using h3 a ha
      · have := hne f' hf'
        simp only [this, if_false]
        exact h1 f' hf' a ha
    · intro order' ho key batch q hr
      obtain ⟨ss, k1, d1, d2⟩ := h4 key batch q (hr f (by simp))
      obtain ⟨sss, k2, i1, i2, i3⟩ := h2 order' (fun f' hf' => by
        rw [ho f' (by simp [hf'])]
        exact if_neg (hne f' hf')) k1 batch q (fun f' hf' => hr f' (by simp [hf']))
      refine ⟨ss :: sss, k2, .cons ?_ i1, by simp [i2], ?_⟩
      · rw [ho f (by simp)]
        simpa using d1
      · intro hn
        rw [List.zipWith_cons_cons]
        refine .cons (k' := k1) ?_ (i3 (fun ss' hs' => hn ss' (by simp [hs'])))
        obtain ⟨v1, v2⟩ := d2 (hn ss (by simp))
        rw [hbins, hdata] at v1
        rw [hbins] at v2
        simp only [Ctx.GivesLogL]
        unfold valueOf
        split
        · rename_i hp; exact v1 hp
        · rename_i hp
          push Not at hp
          exact v2 hp

theorem values_fin (fs : List (Fitted K)) (sss : List (List (Sample ℝ)))
    (h : List.Forall₂ (fun f ss => ∀ b ∈ binList f.bins, 0 < expectedIn ss b) fs sss) :
    List.zipWith valueOf fs sss = (List.zipWith (fun f ss => binnedLogL f.bins f.data ss) fs sss).map XF.fin := by
  induction h with
  | nil => rfl
  | cons hd _ ih =>
    rw [List.zipWith_cons_cons, List.zipWith_cons_cons, List.map_cons, ih]
    congr 1
    unfold valueOf
    rw [if_pos hd]

theorem values_good (fs : List (Fitted K)) (sss : List (List (Sample ℝ))) (v : XF) (hv : v ∈ List.zipWith valueOf fs sss) :
    v.isFinite ∨ v = .ninf := by
  obtain ⟨f, ss, rfl⟩ : ∃ f ss, v = valueOf (K := K) f ss := by
    obtain ⟨n, hn⟩ := List.mem_iff_getElem?.1 hv
    rw [List.getElem?_zipWith] at hn
    split at hn
    · exact ⟨_, _, (Option.some.inj hn).symm⟩
    · cases hn
  unfold valueOf
  split
  · exact .inl (by simp)
  · exact .inr rfl

theorem values_ninf (fs : List (Fitted K)) (sss : List (List (Sample ℝ))) (hl : sss.length = fs.length)
    (h : ¬ List.Forall₂ (fun f ss => ∀ b ∈ binList f.bins, 0 < expectedIn ss b) fs sss) :
    XF.ninf ∈ List.zipWith valueOf fs sss := by
  induction fs generalizing sss with
  | nil => rw [List.length_eq_zero_iff.1 hl] at h; exact absurd .nil h
  | cons f fs ih =>
    cases sss with
    | nil => simp at hl
    | cons ss sss =>
      rw [List.zipWith_cons_cons, List.mem_cons]
      by_cases hf : ∀ b ∈ binList f.bins, 0 < expectedIn ss b
      · exact .inr (ih sss (by simpa using hl) (fun hh => h (.cons hf hh)))
      · left; unfold valueOf; rw [if_neg hf]

end
end Verif.Llh
