/-
C109: the rates of the components in the log likelihood.
-/
import Verif.Lemmas.Rates
import Verif.Props.Whole

namespace Verif.Llh
open Verif Comp

section
variable {K : Type}

/-- **C109 (linear).** For a likelihood made from a data file, with components compiled from plugins that read no rate or made
from tables: at a key and batch size, whatever the rates, the events are the same, the key that comes out is the same, and
the log likelihood is the Poisson one for a prediction that is the sum over the components of the rate times a fixed template;
minus infinity if this is not positive in some bin. -/
theorem C109_linear (eq : Equi ℝ) (cfg : Config ℝ) (load : List String → Res (List (List (Option ℝ)))) (b : Built ℝ)
    (h : init eq cfg load = .ok b) (S : Setup K) (parts : List Part) (hS : S.Proper b.bins parts) (hfree : RateFree S parts)
    (g g' : FnCache) (st : State K XF) (hb : S.build parts (⟨[], []⟩, g) = ((st, g'), .ok ())) :
    ∃ order : String → List Plugin,
      (∀ a, Part.sim a ∈ parts → Topological a.registry (S.binsOn ++ ["eff"]) (order a.comp)) ∧
      ∀ key batch q0, (∀ p ∈ parts, p.name ++ "_rate" ∈ (replaceAlias S.al q0).keys) →
        ∃ ss key', Draws S order batch (replaceAlias S.al q0) parts key ss key' ∧
          ((∀ s ∈ ss, s.Normalisable) → ∀ q, Varies S parts q0 q →
            ((∀ c ∈ binList b.bins, 0 < atRates ss (ratesOf parts (replaceAlias S.al q)) c) →
              getLogLikelihood S.al b.dataHist st key batch (floats q) =
                .ok (key', .fin (logLAtRates b.bins b.data ss (ratesOf parts (replaceAlias S.al q))))) ∧
            ((∃ c ∈ binList b.bins, atRates ss (ratesOf parts (replaceAlias S.al q)) c ≤ 0) →
              getLogLikelihood S.al b.dataHist st key batch (floats q) = .ok (key', .ninf))) := by
  obtain ⟨order, h1, h2⟩ := C79_log_likelihood eq cfg load b h S parts hS g g' st hb
  refine ⟨order, h1, ?_⟩
  intro key batch q0 hr0
  obtain ⟨ss, key', d0, _⟩ := h2 key batch q0 hr0
  refine ⟨ss, key', d0, ?_⟩
  intro hn q hq
  obtain ⟨ss', key'', d1, v⟩ := h2 key batch q hq.rates
  have d2 := draws_withRates S order batch _ _ (hfree _ _ hq.same) parts d0 hq.rates
  obtain ⟨rfl, rfl⟩ := draws_unique S b.bins parts hS order h1 batch _ parts (fun _ h => h) d1 d2
  have hn' : ∀ s ∈ List.zipWith (fun r s => s.withRate r) (ratesOf parts (replaceAlias S.al q)) ss, s.Normalisable := by
    intro s hs
    obtain ⟨n, hn'⟩ := List.mem_iff_getElem?.1 hs
    rw [List.getElem?_zipWith] at hn'
    split at hn'
    · rename_i r s0 _ hs0
      cases hn'
      exact hn s0 (List.mem_of_getElem? hs0)
    · cases hn'
  have v' := v hn'
  simp only [expectedIn_withRates] at v'
  have hL : binnedLogL b.bins b.data (List.zipWith (fun r s => s.withRate r) (ratesOf parts (replaceAlias S.al q)) ss) =
      logLAtRates b.bins b.data ss (ratesOf parts (replaceAlias S.al q)) := by
    unfold binnedLogL logLAtRates
    simp only [expectedIn_withRates]
  rw [hL] at v'
  exact v'

/-- What the value says about the prediction. -/
private theorem finite_positive {al : PyDict String String} {data : Grid ℝ} {st : State K XF} {key key' : K} {batch : Int}
    {p : PyDict String XF} {bs : List (Nat × Nat)} {m : Nat × Nat → ℝ} {L : ℝ}
    (h : ((∀ c ∈ bs, 0 < m c) → getLogLikelihood al data st key batch p = .ok (key', .fin L)) ∧
      ((∃ c ∈ bs, m c ≤ 0) → getLogLikelihood al data st key batch p = .ok (key', .ninf)))
    {k : K} {v : ℝ} (hv : getLogLikelihood al data st key batch p = .ok (k, .fin v)) : (∀ c ∈ bs, 0 < m c) ∧ v = L ∧ k = key' := by
  by_cases hp : ∀ c ∈ bs, 0 < m c
  · rw [h.1 hp] at hv
    cases hv
    exact ⟨hp, rfl, rfl⟩
  · push Not at hp
    rw [h.2 hp] at hv
    cases hv

/-- **C109 (concave).** The log likelihood is concave in all the rates together: where it is finite at two sets of rates it is
finite at every mean of them, and at least the mean of the values.  If it equals that mean, the two sets of rates predict the
same number of events in every bin that holds data. -/
theorem C109_concave (eq : Equi ℝ) (cfg : Config ℝ) (load : List String → Res (List (List (Option ℝ)))) (b : Built ℝ)
    (h : init eq cfg load = .ok b) (S : Setup K) (parts : List Part) (hS : S.Proper b.bins parts) (hfree : RateFree S parts)
    (g g' : FnCache) (st : State K XF) (hb : S.build parts (⟨[], []⟩, g) = ((st, g'), .ok ())) :
    ∃ order : String → List Plugin,
      (∀ a, Part.sim a ∈ parts → Topological a.registry (S.binsOn ++ ["eff"]) (order a.comp)) ∧
      ∀ key batch q0, (∀ p ∈ parts, p.name ++ "_rate" ∈ (replaceAlias S.al q0).keys) →
        ∃ ss key', Draws S order batch (replaceAlias S.al q0) parts key ss key' ∧
          ((∀ s ∈ ss, s.Normalisable) → ∀ q1 q2 q t k1 k2 v1 v2, Varies S parts q0 q1 → Varies S parts q0 q2 →
            Varies S parts q0 q → 0 ≤ t → t ≤ 1 →
            ratesOf parts (replaceAlias S.al q) =
              mixRates t (ratesOf parts (replaceAlias S.al q1)) (ratesOf parts (replaceAlias S.al q2)) →
            getLogLikelihood S.al b.dataHist st key batch (floats q1) = .ok (k1, .fin v1) →
            getLogLikelihood S.al b.dataHist st key batch (floats q2) = .ok (k2, .fin v2) →
            ∃ v, getLogLikelihood S.al b.dataHist st key batch (floats q) = .ok (key', .fin v) ∧
              t * v1 + (1 - t) * v2 ≤ v ∧
              (0 < t → t < 1 → t * v1 + (1 - t) * v2 = v → ∀ c ∈ binList b.bins, 0 < countIn b.bins b.data c →
                atRates ss (ratesOf parts (replaceAlias S.al q1)) c = atRates ss (ratesOf parts (replaceAlias S.al q2)) c)) := by
  obtain ⟨order, h1, h2⟩ := C109_linear eq cfg load b h S parts hS hfree g g' st hb
  refine ⟨order, h1, ?_⟩
  intro key batch q0 hr0
  obtain ⟨ss, key', d0, hv⟩ := h2 key batch q0 hr0
  refine ⟨ss, key', d0, ?_⟩
  intro hn q1 q2 q t k1 k2 v1 v2 hq1 hq2 hq h0 h1' hmix e1 e2
  obtain ⟨p1, rfl, _⟩ := finite_positive (hv hn q1 hq1) e1
  obtain ⟨p2, rfl, _⟩ := finite_positive (hv hn q2 hq2) e2
  have hl := draws_length d0
  have l1 : (ratesOf parts (replaceAlias S.al q1)).length = ss.length := by rw [ratesOf_length, hl]
  have l2 : (ratesOf parts (replaceAlias S.al q2)).length = ss.length := by rw [ratesOf_length, hl]
  have hp : ∀ c ∈ binList b.bins, 0 < atRates ss (ratesOf parts (replaceAlias S.al q)) c := by
    intro c hc
    rw [hmix, atRates_mix ss t _ _ l1 l2]
    have a := p1 c hc
    have d := p2 c hc
    rcases h0.eq_or_lt with rfl | h0
    · simpa using d
    · have := mul_pos h0 a
      have := mul_nonneg (sub_nonneg.2 h1') d.le
      linarith
  refine ⟨_, (hv hn q hq).1 hp, ?_, ?_⟩
  · rw [hmix]
    exact logL_concave b.bins b.data ss _ _ l1 l2 t h0 h1' p1 p2
  · intro h0 h1 he c hc hcount
    rw [hmix] at he
    exact logL_concave_eq b.bins b.data ss _ _ l1 l2 t h0 h1 p1 p2 he c hc hcount

/-- **C109 (best fit).** If at some rates every component is balanced (the data over the prediction, weighted with the template
of the component, add up to the sum of the template), no other rates have a larger log likelihood. -/
theorem C109_best_fit (eq : Equi ℝ) (cfg : Config ℝ) (load : List String → Res (List (List (Option ℝ)))) (b : Built ℝ)
    (h : init eq cfg load = .ok b) (S : Setup K) (parts : List Part) (hS : S.Proper b.bins parts) (hfree : RateFree S parts)
    (g g' : FnCache) (st : State K XF) (hb : S.build parts (⟨[], []⟩, g) = ((st, g'), .ok ())) :
    ∃ order : String → List Plugin,
      (∀ a, Part.sim a ∈ parts → Topological a.registry (S.binsOn ++ ["eff"]) (order a.comp)) ∧
      ∀ key batch q0, (∀ p ∈ parts, p.name ++ "_rate" ∈ (replaceAlias S.al q0).keys) →
        ∃ ss key', Draws S order batch (replaceAlias S.al q0) parts key ss key' ∧
          ((∀ s ∈ ss, s.Normalisable) → ∀ q1 q2 k1 k2 v1 v2, Varies S parts q0 q1 → Varies S parts q0 q2 →
            Balanced b.bins b.data ss (ratesOf parts (replaceAlias S.al q1)) →
            getLogLikelihood S.al b.dataHist st key batch (floats q1) = .ok (k1, .fin v1) →
            getLogLikelihood S.al b.dataHist st key batch (floats q2) = .ok (k2, .fin v2) → v2 ≤ v1) := by
  obtain ⟨order, h1, h2⟩ := C109_linear eq cfg load b h S parts hS hfree g g' st hb
  refine ⟨order, h1, ?_⟩
  intro key batch q0 hr0
  obtain ⟨ss, key', d0, hv⟩ := h2 key batch q0 hr0
  refine ⟨ss, key', d0, ?_⟩
  intro hn q1 q2 k1 k2 v1 v2 hq1 hq2 hbal e1 e2
  obtain ⟨p1, rfl, _⟩ := finite_positive (hv hn q1 hq1) e1
  obtain ⟨p2, rfl, _⟩ := finite_positive (hv hn q2 hq2) e2
  exact logL_balanced b.bins b.data ss _ _ p1 p2 hbal

/-- **C109 (common factor).** Among the rates obtained from given ones with a positive common factor, the log likelihood is
largest, and only there, where the expected number of events in all bins is the number of data events in them. -/
theorem C109_common_factor (eq : Equi ℝ) (cfg : Config ℝ) (load : List String → Res (List (List (Option ℝ)))) (b : Built ℝ)
    (h : init eq cfg load = .ok b) (S : Setup K) (parts : List Part) (hS : S.Proper b.bins parts) (hfree : RateFree S parts)
    (g g' : FnCache) (st : State K XF) (hb : S.build parts (⟨[], []⟩, g) = ((st, g'), .ok ())) :
    ∃ order : String → List Plugin,
      (∀ a, Part.sim a ∈ parts → Topological a.registry (S.binsOn ++ ["eff"]) (order a.comp)) ∧
      ∀ key batch q0, (∀ p ∈ parts, p.name ++ "_rate" ∈ (replaceAlias S.al q0).keys) →
        ∃ ss key', Draws S order batch (replaceAlias S.al q0) parts key ss key' ∧
          ((∀ s ∈ ss, s.Normalisable) → ∀ q1 q2 f k1 k2 v1 v2, Varies S parts q0 q1 → Varies S parts q0 q2 → 0 < f →
            ratesOf parts (replaceAlias S.al q2) = (ratesOf parts (replaceAlias S.al q1)).map (f * ·) →
            0 < observed b.bins b.data →
            ((binList b.bins).map (atRates ss (ratesOf parts (replaceAlias S.al q1)))).sum = observed b.bins b.data →
            getLogLikelihood S.al b.dataHist st key batch (floats q1) = .ok (k1, .fin v1) →
            getLogLikelihood S.al b.dataHist st key batch (floats q2) = .ok (k2, .fin v2) → v2 ≤ v1 ∧ (v2 = v1 ↔ f = 1)) := by
  obtain ⟨order, h1, h2⟩ := C109_linear eq cfg load b h S parts hS hfree g g' st hb
  refine ⟨order, h1, ?_⟩
  intro key batch q0 hr0
  obtain ⟨ss, key', d0, hv⟩ := h2 key batch q0 hr0
  refine ⟨ss, key', d0, ?_⟩
  intro hn q1 q2 f k1 k2 v1 v2 hq1 hq2 hf hscale ho hsum e1 e2
  obtain ⟨p1, rfl, _⟩ := finite_positive (hv hn q1 hq1) e1
  obtain ⟨p2, rfl, _⟩ := finite_positive (hv hn q2 hq2) e2
  rw [hscale]
  have := logL_scale b.bins b.data ss (ratesOf parts (replaceAlias S.al q1)) p1 ho f 1 hf (by rw [one_mul]; exact hsum)
  simpa only [one_mul, List.map_id'] using this

/-- **C109 (predictions).** Rates that predict the same number of events in every bin have the same log likelihood and the same
key. -/
theorem C109_only_predictions (eq : Equi ℝ) (cfg : Config ℝ) (load : List String → Res (List (List (Option ℝ)))) (b : Built ℝ)
    (h : init eq cfg load = .ok b) (S : Setup K) (parts : List Part) (hS : S.Proper b.bins parts) (hfree : RateFree S parts)
    (g g' : FnCache) (st : State K XF) (hb : S.build parts (⟨[], []⟩, g) = ((st, g'), .ok ())) :
    ∃ order : String → List Plugin,
      (∀ a, Part.sim a ∈ parts → Topological a.registry (S.binsOn ++ ["eff"]) (order a.comp)) ∧
      ∀ key batch q0, (∀ p ∈ parts, p.name ++ "_rate" ∈ (replaceAlias S.al q0).keys) →
        ∃ ss key', Draws S order batch (replaceAlias S.al q0) parts key ss key' ∧
          ((∀ s ∈ ss, s.Normalisable) → ∀ q1 q2, Varies S parts q0 q1 → Varies S parts q0 q2 →
            (∀ c ∈ binList b.bins, atRates ss (ratesOf parts (replaceAlias S.al q1)) c =
              atRates ss (ratesOf parts (replaceAlias S.al q2)) c) →
            getLogLikelihood S.al b.dataHist st key batch (floats q1) =
              getLogLikelihood S.al b.dataHist st key batch (floats q2)) := by
  obtain ⟨order, h1, h2⟩ := C109_linear eq cfg load b h S parts hS hfree g g' st hb
  refine ⟨order, h1, ?_⟩
  intro key batch q0 hr0
  obtain ⟨ss, key', d0, hv⟩ := h2 key batch q0 hr0
  refine ⟨ss, key', d0, ?_⟩
  intro hn q1 q2 hq1 hq2 hsame
  by_cases hp : ∀ c ∈ binList b.bins, 0 < atRates ss (ratesOf parts (replaceAlias S.al q1)) c
  · have hp' : ∀ c ∈ binList b.bins, 0 < atRates ss (ratesOf parts (replaceAlias S.al q2)) c := fun c hc => by
      rw [← hsame c hc]; exact hp c hc
    rw [(hv hn q1 hq1).1 hp, (hv hn q2 hq2).1 hp']
    have : logLAtRates b.bins b.data ss (ratesOf parts (replaceAlias S.al q1)) =
        logLAtRates b.bins b.data ss (ratesOf parts (replaceAlias S.al q2)) := by
      unfold logLAtRates
      congr 1
      exact List.map_congr_left (fun c hc => by rw [hsame c hc])
    rw [this]
  · push Not at hp
    obtain ⟨c, hc, hle⟩ := hp
    rw [(hv hn q1 hq1).2 ⟨c, hc, hle⟩, (hv hn q2 hq2).2 ⟨c, hc, by rw [← hsame c hc]; exact hle⟩]

end

/-- **C109 (zero rate).** A fixed component whose rate is zero leaves the model histogram, the key and any exception as they
would be without it. -/
theorem C109_zero_rate_fixed {K F W : Type} [Field F] [LinearOrder F] (al : PyDict String String) (data : Grid W)
    (pre post : PyDict String (LComp K F)) (needed : List String) (n rn : String) (c : FixedComp F) (key : K) (batch : Int)
    (p : PyDict String F) (hz : (replaceAlias al p).get? rn = some 0) (h0 : Grid F) (hok : fixedHist c 0 = .ok h0)
    (hshape : h0.map List.length = data.map List.length) :
    simulateModelHist al data ⟨pre ++ (n, fixedComp c rn) :: post, needed⟩ key batch p =
      simulateModelHist al data ⟨pre ++ post, needed⟩ key batch p := by
  unfold simulateModelHist
  have hzero : ∀ r ∈ h0, ∀ x ∈ r, x = 0 := fixedHist_zero c h0 hok
  have hacc : (zeros data : Grid F).map List.length = h0.map List.length := by
    rw [hshape]; unfold zeros; simp
  generalize (zeros data : Grid F) = acc at hacc ⊢
  induction pre generalizing key acc with
  | nil =>
    simp only [List.nil_append, modelLoop, fixedComp, PyDict.getItem, hz, hok, bind, Except.bind]
    rw [addGrid_zero acc h0 hacc hzero]
  | cons e pre ih =>
    obtain ⟨m, lc⟩ := e
    simp only [List.cons_append]
    cases lc with
    | other nd => rfl
    | fixed nd hist w =>
      simp only [modelLoop, bind, Except.bind]
      cases hist (replaceAlias al p) with
      | error e => rfl
      | ok h =>
        simp only
        cases ha : addGrid acc h with
        | error e => rfl
        | ok acc' => exact ih key acc' (by rw [addGrid_shape ha]; exact hacc)
    | sim nd hist w =>
      simp only [modelLoop, bind, Except.bind]
      cases hist key batch (replaceAlias al p) with
      | error e => rfl
      | ok r =>
        simp only
        cases ha : addGrid acc r.2 with
        | error e => rfl
        | ok acc' => exact ih r.1 acc' (by rw [addGrid_shape ha]; exact hacc)

/-- **C109 (totals).** Normalised on the template, the expected number of events in all bins is the sum of the rates. -/
theorem C109_total (bins : Bins ℝ) (ss : List (Sample ℝ)) (rs : List ℝ) (hl : rs.length = ss.length)
    (hb : ∀ s ∈ ss, s.cfg.bins = bins) (hn : ∀ s ∈ ss, s.cfg.normType = "on_pdf") (hz : ∀ s ∈ ss, s.norm ≠ 0) :
    ((binList bins).map (atRates ss rs)).sum = rs.sum := by
  have h := sum_atRates ss rs (binList bins) (fun _ => 1)
  simp only [one_mul] at h
  rw [h]
  clear h
  induction ss generalizing rs with
  | nil => rw [List.length_eq_zero_iff.1 hl]; rfl
  | cons s ss ih =>
    match rs, hl with
    | r :: rs, hl =>
      simp only [List.zipWith_cons_cons, List.sum_cons]
      rw [ih rs (by simpa using hl) (fun s hs => hb s (by simp [hs])) (fun s hs => hn s (by simp [hs]))
        (fun s hs => hz s (by simp [hs]))]
      have e : ((binList bins).map s.template).sum = 1 := by
        have hnorm : s.norm = ((binList bins).map s.content).sum := by
          unfold Sample.norm
          rw [if_pos (hn s (by simp)), hb s (by simp)]
        have : (binList bins).map s.template = (binList bins).map (fun c => s.content c * (s.norm)⁻¹) := by
          apply List.map_congr_left
          intro c _
          exact div_eq_mul_inv _ _
        rw [this, List.sum_map_mul_right, ← hnorm]
        exact mul_inv_cancel₀ (hz s (by simp))
      rw [e, mul_one]

/-- **C109 (cannot be told apart).** Events moved from one component to another of the same template change no prediction. -/
theorem C109_same_template (pre mid post : List (Sample ℝ)) (s s' : Sample ℝ) (rpre rmid rpost : List ℝ) (r r' d : ℝ)
    (h1 : rpre.length = pre.length) (h2 : rmid.length = mid.length) (c : Nat × Nat) (ht : s.template c = s'.template c) :
    atRates (pre ++ s :: mid ++ s' :: post) (rpre ++ (r + d) :: rmid ++ (r' - d) :: rpost) c =
      atRates (pre ++ s :: mid ++ s' :: post) (rpre ++ r :: rmid ++ r' :: rpost) c := by
  unfold atRates
  rw [List.zipWith_append (by simp [h1, h2]), List.zipWith_append h1, List.zipWith_append (by simp [h1, h2]),
    List.zipWith_append h1]
  simp only [List.sum_append, List.zipWith_cons_cons, List.sum_cons]
  rw [ht]
  ring

/-! ### The concrete case of C79: a simulated component with a quarter and three quarters of its events in the two bins, and a
table with one half in each; one data event in each bin -/

theorem exRateFree : RateFree exSetup exParts := fun _ _ _ _ => rfl

theorem exVaries (r s r' s' : ℝ) :
    Varies exSetup exParts [("amount", r), ("ac_rate", s)] [("amount", r'), ("ac_rate", s')] where
  same := by
    intro k hk
    have h1 : k ≠ "ac_rate" := fun e => hk ⟨.fixed "ac" [[1 / 2, 3 / 2]] 2, by simp [exParts], by rw [e]; rfl⟩
    have h2 : k ≠ "er_rate" := fun e => hk ⟨.sim exArgs, by simp [exParts], by rw [e]; rfl⟩
    change PyDict.get? [("ac_rate", s), ("er_rate", r)] k = PyDict.get? [("ac_rate", s'), ("er_rate", r')] k
    simp [PyDict.get?, List.find?, h1.symm, h2.symm]
  rates := by
    intro p hp
    change _ ∈ PyDict.keys [("ac_rate", s'), ("er_rate", r')]
    simp only [exParts, List.mem_cons, List.not_mem_nil, or_false] at hp
    rcases hp with rfl | rfl <;> simp [Part.name, PyDict.keys, exArgs]

/-- Non-vacuity of C109: the table alone at rate 2 predicts the data, and no positive rates do better. -/
example (eq : Equi ℝ) : ∃ b st g', init eq { binsType := "irreg", binsOn := .str "cs1", bins := .list [.edges [0, 1, 2]], clip := some (0, 2) }
      (fun _ => .ok [[some (1 / 2)], [some (3 / 2)], [some 7]]) = .ok b ∧ exSetup.Proper b.bins exParts ∧
    exSetup.build exParts (⟨[], []⟩, {}) = ((st, g'), .ok ()) ∧
    ∀ key batch, ∃ key', getLogLikelihood exSetup.al b.dataHist st key batch (floats [("amount", 0), ("ac_rate", 2)]) =
        .ok (key', .fin (-2)) ∧
      ∀ r s : ℝ, 0 < r → 0 < s → ∃ v, getLogLikelihood exSetup.al b.dataHist st key batch
        (floats [("amount", r), ("ac_rate", s)]) = .ok (key', .fin v) ∧ v ≤ -2 := by
  obtain ⟨st, g', hb⟩ := exBuild
  obtain ⟨b, hinit, hbins, hdata⟩ : ∃ b, init eq { binsType := "irreg", binsOn := .str "cs1", bins := .list [.edges [0, 1, 2]], clip := some (0, 2) }
      (fun _ => .ok [[some (1 / 2)], [some (3 / 2)], [some 7]]) = .ok b ∧ b.bins = .irreg1 [0, 1, 2] ∧
      b.data = [[some (1 / 2)], [some (3 / 2)]] := by
    refine ⟨_, rfl, rfl, ?_⟩
    simp only [List.filter, inside, entry]
    norm_num
  have hP : exSetup.Proper b.bins exParts := by rw [hbins]; exact exProper
  refine ⟨b, st, g', hinit, hP, hb, ?_⟩
  intro key batch
  obtain ⟨order, h1, h2⟩ := C109_linear eq _ _ b hinit exSetup exParts hP exRateFree _ _ st hb
  obtain ⟨ss, key', d, hv⟩ := h2 key batch [("amount", 3), ("ac_rate", 1)] (exVaries 3 1 3 1).rates
  have hss := exDraws (h1 exArgs (by simp [exParts])) d
  obtain ⟨n1, a0, a1⟩ := exContent1 batch
  obtain ⟨n2, b0, b1⟩ := exContent2
  have hn : ∀ s ∈ ss, s.Normalisable := by
    rw [hss]
    intro s hs
    simp only [List.mem_cons, List.not_mem_nil, or_false] at hs
    rcases hs with rfl | rfl
    · exact n1
    · exact n2
  have tmpl : ∀ (s : Sample ℝ) (c : Nat × Nat) (x : ℝ), s.rate ≠ 0 → s.expected c = x → s.template c = x / s.rate := by
    intro s c x hr h
    unfold Sample.expected at h
    unfold Sample.template
    rw [← h]
    field_simp
  have t10 := tmpl _ _ _ (by norm_num) a0
  have t11 := tmpl _ _ _ (by norm_num) a1
  have t20 := tmpl _ _ _ (by norm_num) b0
  have t21 := tmpl _ _ _ (by norm_num) b1
  have rates : ∀ r s : ℝ, ratesOf exParts (replaceAlias exSetup.al [("amount", r), ("ac_rate", s)]) = [r, s] := fun r s => rfl
  have m0 : ∀ r s : ℝ, atRates ss [r, s] (0, 0) = r / 4 + s / 2 := by
    intro r s
    rw [hss]
    simp only [atRates, List.zipWith_cons_cons, List.zipWith_nil_right, List.sum_cons, List.sum_nil, t10, t20]
    ring
  have m1 : ∀ r s : ℝ, atRates ss [r, s] (0, 1) = 3 * r / 4 + s / 2 := by
    intro r s
    rw [hss]
    simp only [atRates, List.zipWith_cons_cons, List.zipWith_nil_right, List.sum_cons, List.sum_nil, t11, t21]
    ring
  have k0 : countIn (.irreg1 [0, 1, 2]) [[some (1 / 2)], [some (3 / 2)]] (0, 0) = 1 := by
    simp [countIn, exIn, List.countP_cons]; norm_num
  have k1 : countIn (.irreg1 [0, 1, 2]) [[some (1 / 2)], [some (3 / 2)]] (0, 1) = 1 := by
    simp [countIn, exIn, List.countP_cons]; norm_num
  have pos : ∀ r s : ℝ, 0 ≤ r → 0 < s → ∀ c ∈ binList b.bins, 0 < atRates ss [r, s] c := by
    intro r s hr hs
    rw [hbins, exBins]
    intro c hc
    simp only [List.mem_cons, List.not_mem_nil, or_false] at hc
    rcases hc with rfl | rfl
    · rw [m0]; linarith
    · rw [m1]; linarith
  refine ⟨key', ?_, ?_⟩
  · have := (hv hn _ (exVaries 3 1 0 2)).1 (by rw [rates]; exact pos 0 2 le_rfl (by norm_num))
    rw [this, rates]
    congr 3
    unfold logLAtRates
    rw [hbins, hdata, exBins]
    simp only [List.map_cons, List.map_nil, k0, k1, m0, m1, List.sum_cons, List.sum_nil]
    norm_num
  · intro r s hr hs
    refine ⟨_, (hv hn _ (exVaries 3 1 r s)).1 (by rw [rates]; exact pos r s hr.le hs), ?_⟩
    rw [rates]
    have hbal : Balanced b.bins b.data ss [0, 2] := by
      intro s hs
      rw [hbins, hdata, exBins]
      simp only [List.map_cons, List.map_nil, k0, k1, m0, m1, List.sum_cons, List.sum_nil]
      norm_num
    have := logL_balanced b.bins b.data ss [0, 2] [r, s] (pos 0 2 le_rfl (by norm_num)) (pos r s hr.le hs) hbal
    refine this.trans (le_of_eq ?_)
    unfold logLAtRates
    rw [hbins, hdata, exBins]
    simp only [List.map_cons, List.map_nil, k0, k1, m0, m1, List.sum_cons, List.sum_nil]
    norm_num

/-- Non-vacuity of C109: a zero rate among two tables. -/
example : simulateModelHist (K := Unit) (V := ℚ) [] [[0, 0]]
    ⟨[("a", fixedComp (F := ℚ) ⟨{ bins := .irreg1 [0, 1, 2], normType := "on_pdf", nSelected := 0 }, [[1], [1]], [1, 1], [[1, 3]], []⟩ "a_rate"),
      ("b", fixedComp (F := ℚ) ⟨{ bins := .irreg1 [0, 1, 2], normType := "on_pdf", nSelected := 0 }, [[1], [1]], [1, 1], [[1, 1]], []⟩ "b_rate")], []⟩
    () 1 [("a_rate", 8), ("b_rate", 0)] = .ok ((), [[2, 6]]) := by decide +kernel

end Verif.Llh
