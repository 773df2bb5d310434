/-
Property C151: a data set taken in several runs (likelihood.py 49-100, 152-173, 341-375).
-/
import Verif.Lemmas.Runs
import Verif.Spec.Runs

namespace Verif.Llh
open Verif Comp

/-- **C151 (data).** If the bins are given by the configuration and every run can be read alone, the file of all runs can be read, in the same
bins; the events kept are those kept of the runs, and every bin holds as many as in the runs together. -/
theorem C151_data (eq : Equi ℝ) (cfg : Config ℝ) (hk : cfg.binsType ≠ "equiprob") (rowss : List (List (List (Option ℝ)))) (hne : rowss ≠ [])
    (bs : List (Built ℝ)) (hr : List.Forall₂ (fun rows b => init eq cfg (fun _ => .ok rows) = .ok b) rowss bs) :
    ∃ b, init eq cfg (fun _ => .ok rowss.flatten) = .ok b ∧ b.data = (bs.map (·.data)).flatten ∧
      (∀ b' ∈ bs, b'.bins = b.bins ∧ b'.binsOn = b.binsOn) ∧
      ∀ c, countIn b.bins b.data c = (bs.map (fun b' => countIn b.bins b'.data c)).sum := by
  cases hr with
  | nil => exact absurd rfl hne
  | @cons rows b0 rest bs' h1 h2 =>
    obtain ⟨f, hf⟩ := init_rows hk h1
    refine ⟨_, hf _, ?_⟩
    obtain ⟨d1, d2⟩ := runs_data hk (hf _) (List.Forall₂.cons h1 h2) rfl
    refine ⟨d1, d2, fun c => ?_⟩
    rw [d1, countIn_flatten, List.map_map]
    rfl

/-- **C151 (histogram).** The data histogram of two runs together is the sum of the two. -/
theorem C151_histogram (eq : Equi ℝ) (cfg : Config ℝ) (hk : cfg.binsType ≠ "equiprob") (rows1 rows2 : List (List (Option ℝ))) (b1 b2 b : Built ℝ)
    (h1 : init eq cfg (fun _ => .ok rows1) = .ok b1) (h2 : init eq cfg (fun _ => .ok rows2) = .ok b2)
    (h : init eq cfg (fun _ => .ok (rows1 ++ rows2)) = .ok b) :
    b.dataHist = List.zipWith (List.zipWith (· + ·)) b1.dataHist b2.dataHist := by
  obtain ⟨f, hf⟩ := init_rows hk h
  rw [hf] at h1 h2 h
  have e1 := Except.ok.inj h1
  have e2 := Except.ok.inj h2
  have e := Except.ok.inj h
  rw [← e1, ← e2, ← congrArg Built.dataHist e]
  simp only [List.filter_append]
  generalize rows1.filter f = a
  generalize rows2.filter f = a'
  have h1d := fun bins : List ℝ => (Hist.C08_additive_and_order_independent bins (unit1 a) (unit1 a') [] [] 0 [] []).1
  have h2d := fun (bx : List ℝ) by' m2 => (Hist.C08_additive_and_order_independent [] [] [] bx by' m2 (unit2 a) (unit2 a')).2.1
  have m1d := fun bins : List ℝ => (Hist.C08_mesh (W' := ℝ) (AddMonoidHom.id ℝ) bins (unit1 a) (unit1 a') [] [] [] [] [] []).1.1
  have m2d := fun ex ey : List ℝ => (Hist.C08_mesh (W' := ℝ) (AddMonoidHom.id ℝ) [] [] [] ex ey (unit2 a) (unit2 a') [] []).1.2
  have u1 : unit1 (a ++ a') = unit1 a ++ unit1 a' := by simp [unit1]
  have u2 : unit2 (a ++ a') = unit2 a ++ unit2 a' := by simp [unit2]
  unfold makeDataHist
  cases b.bins <;> simp [u1, u2, h1d, h2d, m1d, m2d]

section
variable {K : Type}

/-- **C151 (log likelihood).** For components compiled from plugins that read no rate or made from tables: divide the data of a likelihood into any
number of runs, and evaluate each run at the same key with the rates that belong to its share of the exposure.  Then the log likelihoods of the
runs add up to that of the whole, but for a number that depends on the data and the shares only; if the one of the whole is minus infinity, so are
those of all runs. -/
theorem C151_split (bins : Bins ℝ) (S : Setup K) (parts : List Part) (hS : S.Proper bins parts) (hfree : RateFree S parts)
    (g g' : FnCache) (st : State K XF) (hb : S.build parts (⟨[], []⟩, g) = ((st, g'), .ok ())) :
    ∃ order : String → List Plugin,
      (∀ a, Part.sim a ∈ parts → Topological a.registry (S.binsOn ++ ["eff"]) (order a.comp)) ∧
      ∀ key batch q, (∀ p ∈ parts, p.name ++ "_rate" ∈ (replaceAlias S.al q).keys) →
        ∃ ss key', Draws S order batch (replaceAlias S.al q) parts key ss key' ∧
          ((∀ s ∈ ss, s.Normalisable) →
            ∀ (eq : Equi ℝ) (cfg : Config ℝ) (rowss : List (List (List (Option ℝ)))) (runs : List Run) (b : Built ℝ),
              cfg.binsType ≠ "equiprob" → init eq cfg (fun _ => .ok rowss.flatten) = .ok b → b.bins = bins →
              List.Forall₂ (fun rows (r : Run) => init eq cfg (fun _ => .ok rows) = .ok r.built) rowss runs → Shared S parts q runs →
              (∀ k v, getLogLikelihood S.al b.dataHist st key batch (floats q) = .ok (k, .fin v) →
                ∃ w : Run → ℝ,
                  (∀ r ∈ runs, getLogLikelihood S.al r.built.dataHist st key batch (floats r.pars) = .ok (k, .fin (w r))) ∧
                  (runs.map w).sum = v + (runs.map (fun r => observed bins r.built.data * Real.log r.share)).sum) ∧
              (∀ k, getLogLikelihood S.al b.dataHist st key batch (floats q) = .ok (k, .ninf) →
                ∀ r ∈ runs, getLogLikelihood S.al r.built.dataHist st key batch (floats r.pars) = .ok (k, .ninf))) := by
  obtain ⟨order, h1, h2⟩ := linear_any bins S parts hS hfree g g' st hb
  refine ⟨order, h1, fun key batch q hr => ?_⟩
  obtain ⟨ss, key', d, hv⟩ := h2 key batch q hr
  refine ⟨ss, key', d, fun hn eq cfg rowss runs b hk hinit hbins hruns hsh => ?_⟩
  have hbs : List.Forall₂ (fun rows b => init eq cfg (fun _ => .ok rows) = .ok b) rowss (runs.map Run.built) := by
    rw [List.forall₂_map_right_iff]
    exact hruns
  obtain ⟨d1, d2⟩ := runs_data hk hinit hbs rfl
  have hself : Varies S parts q q := ⟨fun _ _ => rfl, hr⟩
  have whole := hv hn eq cfg _ b hinit hbins q hself
  have each : ∀ r ∈ runs, ∃ load, init eq cfg load = .ok r.built := by
    intro r hr'
    obtain ⟨n, hn'⟩ := List.mem_iff_getElem?.1 hr'
    have hlen : n < runs.length := (List.getElem?_eq_some_iff.1 hn').1
    have hlen' : n < rowss.length := by rw [hruns.length_eq]; exact hlen
    have := List.Forall₂.get hruns hlen' hlen
    rw [List.getElem?_eq_getElem hlen] at hn'
    cases hn'
    exact ⟨_, this⟩
  have part := fun r (hr' : r ∈ runs) =>
    hv hn eq cfg _ r.built (each r hr').choose_spec ((d2 _ (List.mem_map_of_mem hr')).1.trans hbins) r.pars (hsh.varies r hr')
  by_cases hpos : ∀ c ∈ binList bins, 0 < atRates ss (ratesOf parts (replaceAlias S.al q)) c
  · have hw := whole.1 hpos
    refine ⟨fun k v hkv => ?_, fun k hk' => ?_⟩
    · rw [hw] at hkv
      cases hkv
      refine ⟨fun r => logLAtRates bins r.built.data ss (ratesOf parts (replaceAlias S.al r.pars)), fun r hr' => ?_, ?_⟩
      · refine (part r hr').1 (fun c hc => ?_)
        rw [hsh.rates r hr', atRates_scale]
        exact mul_pos (hsh.positive r hr') (hpos c hc)
      · have hs := sum_runs bins ss (ratesOf parts (replaceAlias S.al q)) hpos (runs.map (fun r => (r.built.data, r.share))) (by
          intro x hx
          obtain ⟨r, hr', rfl⟩ := List.mem_map.1 hx
          exact hsh.positive r hr')
        simp only [List.map_map, Function.comp_def] at hs
        have hws := hsh.whole
        rw [show (runs.map (fun r => r.share)).sum = 1 from hws] at hs
        rw [List.map_congr_left (fun r hr' => by rw [hsh.rates r hr']), hs]
        congr 1
        unfold logLAtRates
        congr 1
        refine List.map_congr_left (fun c _ => ?_)
        rw [d1, countIn_flatten, List.map_map, List.map_map, one_mul]
        congr 2
        rw [Nat.cast_list_sum, List.map_map]
        rfl
    · rw [hw] at hk'
      cases hk'
  · push Not at hpos
    obtain ⟨c, hc, hle⟩ := hpos
    have hw := whole.2 ⟨c, hc, hle⟩
    refine ⟨fun k v hkv => ?_, fun k hk' r hr' => ?_⟩
    · rw [hw] at hkv
      cases hkv
    · rw [hw] at hk'
      cases hk'
      refine (part r hr').2 ⟨c, hc, ?_⟩
      rw [hsh.rates r hr', atRates_scale]
      exact mul_nonpos_of_nonneg_of_nonpos (hsh.positive r hr').le hle

end

/-- Non-vacuity of C151: two events in different bins, taken in two runs with a quarter and three quarters of the exposure. -/
example (eq : Equi ℝ) : ∃ st g', exSetup.build exParts (⟨[], []⟩, {}) = ((st, g'), .ok ()) ∧ ∀ key batch, ∃ (b b1 b2 : Built ℝ) (v v1 v2 : ℝ) (k : Nat),
    init eq { binsType := "irreg", binsOn := .str "cs1", bins := .list [.edges [0, 1, 2]], clip := some (0, 2) }
      (fun _ => .ok [[some (1 / 2)], [some (3 / 2)], [some 7]]) = .ok b ∧
    init eq { binsType := "irreg", binsOn := .str "cs1", bins := .list [.edges [0, 1, 2]], clip := some (0, 2) }
      (fun _ => .ok [[some (1 / 2)]]) = .ok b1 ∧
    init eq { binsType := "irreg", binsOn := .str "cs1", bins := .list [.edges [0, 1, 2]], clip := some (0, 2) }
      (fun _ => .ok [[some (3 / 2)], [some 7]]) = .ok b2 ∧
    getLogLikelihood exSetup.al b.dataHist st key batch (floats [("amount", 3), ("ac_rate", 1)]) = .ok (k, .fin v) ∧
    getLogLikelihood exSetup.al b1.dataHist st key batch (floats [("amount", 3 / 4), ("ac_rate", 1 / 4)]) = .ok (k, .fin v1) ∧
    getLogLikelihood exSetup.al b2.dataHist st key batch (floats [("amount", 9 / 4), ("ac_rate", 3 / 4)]) = .ok (k, .fin v2) ∧
    v1 + v2 = v + (Real.log (1 / 4) + Real.log (3 / 4)) := by
  obtain ⟨st, g', hb⟩ := exBuild
  refine ⟨st, g', hb, fun key batch => ?_⟩
  obtain ⟨b1, i1, n1, d1⟩ : ∃ b, init eq { binsType := "irreg", binsOn := .str "cs1", bins := .list [.edges [0, 1, 2]], clip := some (0, 2) }
      (fun _ => .ok [[some (1 / 2)]]) = .ok b ∧ b.bins = .irreg1 [0, 1, 2] ∧ b.data = [[some (1 / 2)]] := by
    refine ⟨_, rfl, rfl, ?_⟩
    simp only [List.filter, inside, entry]
    norm_num
  obtain ⟨b2, i2, n2, d2⟩ : ∃ b, init eq { binsType := "irreg", binsOn := .str "cs1", bins := .list [.edges [0, 1, 2]], clip := some (0, 2) }
      (fun _ => .ok [[some (3 / 2)], [some 7]]) = .ok b ∧ b.bins = .irreg1 [0, 1, 2] ∧ b.data = [[some (3 / 2)]] := by
    refine ⟨_, rfl, rfl, ?_⟩
    simp only [List.filter, inside, entry]
    norm_num
  obtain ⟨b, hinit, hbins⟩ : ∃ b, init eq { binsType := "irreg", binsOn := .str "cs1", bins := .list [.edges [0, 1, 2]], clip := some (0, 2) }
      (fun _ => .ok [[some (1 / 2)], [some (3 / 2)], [some 7]]) = .ok b ∧ b.bins = .irreg1 [0, 1, 2] := ⟨_, rfl, rfl⟩
  have norm : ∀ ss, ss = [⟨exSetup.cfg "er", [[1 / 2, 3 / 2]], [1 / 2, 3 / 2], 3, (batch : ℝ)⟩,
      ⟨exSetup.cfg "ac", [[1 / 2, 3 / 2]], List.replicate 2 1, 1, 2⟩] → (∀ s ∈ ss, Sample.Normalisable s) ∧
      ∀ c ∈ binList b.bins, 0 < expectedIn ss c := by
    rintro ss rfl
    obtain ⟨n1, a0, a1⟩ := exContent1 batch
    obtain ⟨n2, c0, c1⟩ := exContent2
    refine ⟨?_, ?_⟩
    · intro s hs
      simp only [List.mem_cons, List.not_mem_nil, or_false] at hs
      rcases hs with rfl | rfl
      · exact n1
      · exact n2
    · rw [hbins, exBins]
      intro c hc
      simp only [List.mem_cons, List.not_mem_nil, or_false] at hc
      unfold expectedIn
      rcases hc with rfl | rfl
      · simp only [List.map_cons, List.map_nil, List.sum_cons, List.sum_nil, a0, c0]; norm_num
      · simp only [List.map_cons, List.map_nil, List.sum_cons, List.sum_nil, a1, c1]; norm_num
  obtain ⟨order', h1', h2'⟩ := C79_log_likelihood eq _ _ b hinit exSetup exParts (by rw [hbins]; exact exProper) _ _ st hb
  obtain ⟨ss', k', d', hv'⟩ := h2' key batch [("amount", 3), ("ac_rate", 1)] (exVaries 3 1 3 1).rates
  have hss' := norm _ (exDraws (h1' exArgs (by simp [exParts])) d')
  have hw := (hv' hss'.1).1 hss'.2
  obtain ⟨order, h1, h2⟩ := C151_split _ exSetup exParts exProper exRateFree _ _ st hb
  obtain ⟨ss, key', d, hv⟩ := h2 key batch [("amount", 3), ("ac_rate", 1)] (exVaries 3 1 3 1).rates
  have hss := norm _ (exDraws (h1 exArgs (by simp [exParts])) d)
  have rates : ∀ r s : ℝ, ratesOf exParts (replaceAlias exSetup.al [("amount", r), ("ac_rate", s)]) = [r, s] := fun r s => rfl
  obtain ⟨w, w1, w2⟩ := (hv hss.1 eq _ [[[some (1 / 2)]], [[some (3 / 2)], [some 7]]]
    [⟨b1, 1 / 4, [("amount", 3 / 4), ("ac_rate", 1 / 4)]⟩, ⟨b2, 3 / 4, [("amount", 9 / 4), ("ac_rate", 3 / 4)]⟩] b (by simp) hinit hbins
    (.cons i1 (.cons i2 .nil))
    { varies := by
        intro r hr
        simp only [List.mem_cons, List.not_mem_nil, or_false] at hr
        rcases hr with rfl | rfl <;> exact exVaries _ _ _ _
      positive := by
        intro r hr
        simp only [List.mem_cons, List.not_mem_nil, or_false] at hr
        rcases hr with rfl | rfl <;> norm_num
      rates := by
        intro r hr
        simp only [List.mem_cons, List.not_mem_nil, or_false] at hr
        rcases hr with rfl | rfl
        · simp only [rates, List.map_cons, List.map_nil]; norm_num
        · simp only [rates, List.map_cons, List.map_nil]; norm_num
      whole := by norm_num }).1 _ _ hw
  refine ⟨b, b1, b2, _, _, _, _, hinit, i1, i2, hw, w1 _ (.head _), w1 _ (.tail _ (.head _)), ?_⟩
  have o1 : observed (.irreg1 [0, 1, 2]) b1.data = 1 := by
    rw [d1]
    simp [observed, exBins, countIn, exIn, List.countP_cons]
    norm_num
  have o2 : observed (.irreg1 [0, 1, 2]) b2.data = 1 := by
    rw [d2]
    simp [observed, exBins, countIn, exIn, List.countP_cons]
    norm_num
  simpa [o1, o2] using w2

end Verif.Llh
