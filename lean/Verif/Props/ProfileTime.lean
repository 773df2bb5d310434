/-
Property theorems C94 about the times the profiler reports (profiler.py).

The clock is any function from the number of the reading to the time; it is monotone where a theorem says so.
-/
import Verif.Lemmas.ProfileTime
import Mathlib.Algebra.Order.BigOperators.Group.List
import Mathlib.Data.List.Sort

namespace Verif.Prof
open Verif Verif.Comp

section
variable {K V : Type}

/-- **C94.** Timing changes nothing: key, data and names of the lines are those of profiling without a clock. -/
theorem C94_same_as_untimed (clock : Nat → ℝ) (reg : Registry) (ws : Option (List Work)) (sem : Plugin → K → List V → Res (K × List V))
    (warmup runs : Nat) (key : K) (batch : V) (reads : Nat) :
    (profileComponent clock reg ws sem warmup runs key batch reads).map (fun r => (r.key, r.store, r.lines.map (fun l => l.line))) =
      Comp.profileComponent reg ws sem warmup runs key batch := by
  cases ws with
  | none => rfl
  | some ws =>
    simp only [profileComponent, Comp.profileComponent]
    have hstep : ∀ (s : CompRun K V) (w : Work),
        (profileWork clock reg sem warmup runs s w).map (fun r => (r.key, r.store, r.lines.map (fun l => l.line))) =
          Comp.profileWork reg sem warmup runs (s.key, s.store, s.lines.map (fun l => l.line)) w := by
      intro s w
      unfold profileWork Comp.profileWork
      simp only [bind, Except.bind, pure, Except.pure]
      cases w.provides with
      | nil => rfl
      | cons d ds =>
        simp only
        cases reg.getItem d with
        | error e => rfl
        | ok cls =>
          simp only
          by_cases hc : (decide (cls.dependsOn = []) || decide (cls.provides = [])) = true
          · rw [if_pos hc, if_pos hc]; rfl
          · rw [if_neg hc, if_neg hc, ← plugin_erase clock sem warmup runs cls s.key s.store s.reads]
            cases profilePlugin clock sem warmup runs cls s.key s.store s.reads with
            | error e => rfl
            | ok r => simp [Except.map]
    have hfold : ∀ (ws : List Work) (s : CompRun K V),
        (ws.foldlM (profileWork clock reg sem warmup runs) s).map (fun r => (r.key, r.store, r.lines.map (fun l => l.line))) =
          ws.foldlM (Comp.profileWork reg sem warmup runs) (s.key, s.store, s.lines.map (fun l => l.line)) := by
      intro ws
      induction ws with
      | nil => intro s; rfl
      | cons w ws ih =>
        intro s
        simp only [List.foldlM_cons, bind, Except.bind]
        rw [← hstep s w]
        cases profileWork clock reg sem warmup runs s w with
        | error e => rfl
        | ok s' => exact ih s'
    exact hfold ws _

/-- **C94.** One line per worksheet line, each with the mean and the deviation of its own `runs` pairs of clock readings, taken
in order; nothing else reads the clock. -/
theorem C94_lines_and_readings (clock : Nat → ℝ) (reg : Registry) (ws : List Work) (sem : Plugin → K → List V → Res (K × List V))
    (warmup runs : Nat) (key : K) (batch : V) (reads : Nat) (r : CompRun K V)
    (h : profileComponent clock reg (some ws) sem warmup runs key batch reads = .ok r) :
    r.reads = reads + 2 * runs * ws.length ∧
    r.lines.map (fun l => l.line) = ws.map (fun w => (⟨w.name, w.provides, w.dependsOn⟩ : ProfileLine)) ∧
    ∀ (i : Nat) (l : Line), r.lines[i]? = some l →
      l.mean = npMean ((List.range runs).map (fun j => (clock (reads + 2 * runs * i + 2 * j + 1) - clock (reads + 2 * runs * i + 2 * j)) * 1000)) ∧
      l.std = npStd ((List.range runs).map (fun j => (clock (reads + 2 * runs * i + 2 * j + 1) - clock (reads + 2 * runs * i + 2 * j)) * 1000)) := by
  obtain ⟨h1, new, h2, h3, h4⟩ := work_times clock reg sem warmup runs ws _ r h
  simp only [List.nil_append] at h2
  rw [h2]
  exact ⟨h1, h3, h4⟩

/-- **C94.** With at least one run the means and deviations are non-negative numbers, and the means lie between the shortest and
the longest run; without runs both are NaN. -/
theorem C94_mean_and_std (l : List ℝ) (lo hi : ℝ) (hb : ∀ t ∈ l, lo ≤ t ∧ t ≤ hi) :
    (l ≠ [] → ∃ m s, npMean l = .fin m ∧ npStd l = .fin s ∧ lo ≤ m ∧ m ≤ hi ∧ 0 ≤ s ∧ (s = 0 ↔ ∀ t ∈ l, t = m)) ∧
    (l = [] → npMean l = .nan ∧ npStd l = .nan) := by
  refine ⟨fun hne => ?_, fun he => by simp [npMean, npStd, he]⟩
  have hpos : (0 : ℝ) < l.length := by exact_mod_cast List.length_pos_iff.2 hne
  refine ⟨l.sum / l.length, _, by rw [npMean, if_neg hne], by rw [npStd, if_neg hne], ?_, ?_, Real.sqrt_nonneg _, ?_⟩
  · rw [le_div_iff₀ hpos]
    have := List.card_nsmul_le_sum l lo (fun t ht => (hb t ht).1)
    simpa [nsmul_eq_mul, mul_comm] using this
  · rw [div_le_iff₀ hpos]
    have := List.sum_le_card_nsmul l hi (fun t ht => (hb t ht).2)
    simpa [nsmul_eq_mul, mul_comm] using this
  · set m := l.sum / l.length with hm
    have hnn : ∀ d ∈ l.map (fun t => (t - m) ^ 2), 0 ≤ d := by
      intro d hd
      obtain ⟨t, _, rfl⟩ := List.mem_map.1 hd
      positivity
    have hs : 0 ≤ (l.map (fun t => (t - m) ^ 2)).sum := List.sum_nonneg hnn
    rw [Real.sqrt_eq_zero (div_nonneg hs hpos.le), div_eq_zero_iff]
    constructor
    · rintro (h | h)
      · intro t ht
        have := List.all_zero_of_le_zero_le_of_sum_eq_zero hnn h (List.mem_map_of_mem (f := fun t => (t - m) ^ 2) ht)
        have h2 : t - m = 0 := by simpa using this
        linarith
      · exact absurd h hpos.ne'
    · intro h
      left
      rw [List.sum_eq_zero]
      intro d hd
      obtain ⟨t, ht, rfl⟩ := List.mem_map.1 hd
      rw [h t ht]; ring

/-- **C94.** The times of a component add up to at most the time that passed: `runs` times the total of the mean times is at
most the time between the first and the last reading. -/
theorem C94_times_add_up (clock : Nat → ℝ) (hm : Monotone clock) (reg : Registry) (ws : List Work)
    (sem : Plugin → K → List V → Res (K × List V)) (warmup runs : Nat) (hr : 0 < runs) (key : K) (batch : V) (reads : Nat) (r : CompRun K V)
    (h : profileComponent clock reg (some ws) sem warmup runs key batch reads = .ok r) :
    ∃ T, total r.lines = .fin T ∧ 0 ≤ T ∧ runs * T ≤ (clock r.reads - clock reads) * 1000 ∧
      ∀ l ∈ r.lines, ∃ m, l.mean = .fin m ∧ 0 ≤ m := by
  obtain ⟨h1, new, h2, h3, h4⟩ := work_times clock reg sem warmup runs ws _ r h
  simp only [List.nil_append] at h1 h2
  have hlen : new.length = ws.length := by
    have := congrArg List.length h3
    simpa using this
  rw [h1, ← hlen, h2]
  have hne : ∀ q, durations clock q runs ≠ [] := by
    intro q hq
    have := durations_length clock q runs
    rw [hq] at this
    simp at this; omega
  have hrp : (0 : ℝ) < runs := by exact_mod_cast hr
  clear h h2 hlen h1 h3
  induction new generalizing reads with
  | nil => exact ⟨0, by simp [total, XF.sum], le_refl _, by simp, by simp⟩
  | cons l new ih =>
    have h0 := h4 0 l (by simp)
    simp only [Nat.mul_zero, Nat.add_zero] at h0
    have hrest : LinesFrom clock runs (reads + 2 * runs) new := by
      intro i l' hl'
      have := h4 (i + 1) l' (by simpa using hl')
      rw [show reads + 2 * runs * (i + 1) = reads + 2 * runs + 2 * runs * i by ring] at this
      exact this
    obtain ⟨T, hT, hT0, hTle, hmem⟩ := ih (reads + 2 * runs) hrest
    have hmean : l.mean = .fin ((durations clock reads runs).sum / runs) := by
      rw [h0.1, npMean, if_neg (hne _), durations_length]
    have hsum : 0 ≤ (durations clock reads runs).sum := List.sum_nonneg (durations_nonneg clock hm reads runs)
    have hd := sum_durations_le clock hm reads runs
    have hm0 : 0 ≤ (durations clock reads runs).sum / runs := div_nonneg hsum hrp.le
    refine ⟨(durations clock reads runs).sum / runs + T, ?_, add_nonneg hm0 hT0, ?_, ?_⟩
    · have hfin : ∃ ts : List ℝ, new.map Line.mean = ts.map XF.fin := by
        refine ⟨new.map (fun l => match l.mean with | .fin m => m | _ => 0), ?_⟩
        rw [List.map_map]
        apply List.map_congr_left
        intro l' hl'
        obtain ⟨m, e, _⟩ := hmem l' hl'
        simp [e]
      obtain ⟨ts, hts⟩ := hfin
      unfold total at hT ⊢
      rw [List.map_cons, hmean, hts, ← List.map_cons (f := XF.fin), sum_fin]
      rw [hts, sum_fin] at hT
      have : ts.sum = T := by injection hT
      rw [List.sum_cons, this]
    · rw [List.length_cons, show reads + 2 * runs * (new.length + 1) = reads + 2 * runs + 2 * runs * new.length by ring, mul_add,
        mul_div_cancel₀ _ hrp.ne']
      linarith
    · intro l' hl'
      rcases List.mem_cons.1 hl' with rfl | hl'
      · exact ⟨_, hmean, hm0⟩
      · exact hmem l' hl'

/-- **C94 (overhead).** For a positive full time the overhead is positive exactly when the plugins alone took longer; it is
reported as zero when the full time is zero or NaN. -/
theorem C94_overhead (p f : ℝ) :
    (0 < f → ∃ o, overhead (.fin p) (.fin f) = .fin o ∧ (0 < o ↔ f < p) ∧ p = f * (1 + o / 100)) ∧
    (f ≤ 0 → overhead (.fin p) (.fin f) = .fin 0) ∧ overhead (.fin p) .nan = .fin 0 := by
  refine ⟨fun hf => ?_, fun hf => ?_, ?_⟩
  · refine ⟨(p / f - 1) * 100, ?_, ?_, ?_⟩
    · unfold overhead
      rw [if_pos (by rw [XF.fin_lt_fin]; exact hf), XF.fin_div_fin_of_ne _ hf.ne']
      simp
    · constructor
      · intro h
        have : 1 < p / f := by linarith
        rwa [lt_div_iff₀ hf, one_mul] at this
      · intro h
        have : 1 < p / f := by rwa [lt_div_iff₀ hf, one_mul]
        linarith
    · field_simp
      ring
  · unfold overhead
    rw [if_neg (by rw [XF.fin_lt_fin]; linarith)]
  · unfold overhead
    rw [if_neg (by simp)]

/-- **C94 (parameters).** Profiling with given parameters leaves the context as it was; without, the context's parameters are
sampled anew, once, and stay so; an error of the sampling is the outcome. -/
theorem C94_parameters (clock : Nat → ℝ) (keys : Nat → K) (draw : String → ℝ) (warmup runs : Nat) (batch : V)
    (llhs : List (String × PLlh K V XF)) (pm : Parameter.PM) (u : Used) :
    (∀ p, (profileContext clock keys draw warmup runs batch llhs pm (some p) u).1 = pm ∧
      (profileFull clock keys draw warmup runs batch llhs pm (some p) u).1 = pm ∧
      (compare clock keys draw warmup runs batch llhs pm (some p) u).1 = pm) ∧
    (profileContext clock keys draw warmup runs batch llhs pm none u).1 = (Parameter.sampleInit draw pm).1 ∧
    (profileFull clock keys draw warmup runs batch llhs pm none u).1 = (Parameter.sampleInit draw pm).1 ∧
    (compare clock keys draw warmup runs batch llhs pm none u).1 = (Parameter.sampleInit draw pm).1 ∧
    ((Parameter.sampleInit draw pm).2 = .ok () →
      compare clock keys draw warmup runs batch llhs pm none u =
        compare clock keys draw warmup runs batch llhs (Parameter.sampleInit draw pm).1 (some (Parameter.sampleInit draw pm).1.vals) u) ∧
    (∀ e, (Parameter.sampleInit draw pm).2 = .error e →
      (profileContext clock keys draw warmup runs batch llhs pm none u).2 = .error e ∧
      (profileFull clock keys draw warmup runs batch llhs pm none u).2 = .error e ∧
      (compare clock keys draw warmup runs batch llhs pm none u).2 = .error e) := by
  have hc : ∀ p pm, (compare clock keys draw warmup runs batch llhs pm (some p) u).1 = pm := by
    intro p pm
    unfold compare profileContext profileFull
    simp only [takeParameters]
    cases llhLoop (pluginsStep clock keys warmup runs batch) p llhs (u, []) with
    | error e => rfl
    | ok a =>
      simp only
      cases llhLoop (fullStep clock keys warmup runs batch) p llhs (a.1, []) <;> rfl
  have hs : ∀ (e : (Parameter.sampleInit draw pm).2 = .ok ()), compare clock keys draw warmup runs batch llhs pm none u =
        compare clock keys draw warmup runs batch llhs (Parameter.sampleInit draw pm).1 (some (Parameter.sampleInit draw pm).1.vals) u := by
    intro e
    unfold compare
    simp only [takeParameters]
    rcases hx : Parameter.sampleInit draw pm with ⟨pm', r⟩
    rw [hx] at e
    simp only at e
    subst e
    rfl
  have he : ∀ e, (Parameter.sampleInit draw pm).2 = .error e →
      (profileContext clock keys draw warmup runs batch llhs pm none u).2 = .error e ∧
      (profileFull clock keys draw warmup runs batch llhs pm none u).2 = .error e ∧
      (compare clock keys draw warmup runs batch llhs pm none u).2 = .error e := by
    intro e h
    unfold profileContext profileFull compare
    simp only [takeParameters]
    rcases hx : Parameter.sampleInit draw pm with ⟨pm', r⟩
    rw [hx] at h
    simp only at h
    subst h
    exact ⟨rfl, rfl, rfl⟩
  refine ⟨fun p => ⟨rfl, rfl, hc p pm⟩, ?_, ?_, ?_, hs, he⟩
  · unfold profileContext takeParameters
    rcases Parameter.sampleInit draw pm with ⟨pm', _ | _⟩ <;> rfl
  · unfold profileFull takeParameters
    rcases Parameter.sampleInit draw pm with ⟨pm', _ | _⟩ <;> rfl
  · rcases hx : Parameter.sampleInit draw pm with ⟨pm', r⟩
    cases r with
    | error e => unfold compare takeParameters; rw [hx]
    | ok x =>
      rw [hs (by rw [hx])]
      rw [hx]
      exact hc _ _

/-- **C94 (full simulation).** Profiling the full simulation succeeds exactly when the compiled function of every simulated
component can be called `warmup + runs` times from the component's own fresh key; each component then uses one key and `runs`
pairs of readings, and is reported with the mean and deviation of its own pairs. -/
theorem C94_full (clock : Nat → ℝ) (keys : Nat → K) (draw : String → ℝ) (warmup runs : Nat) (batch : V)
    (llhs : List (String × PLlh K V XF)) (pm : Parameter.PM) (p : PyDict String XF) (u : Used) (b : Used × PyDict String (XF × XF)) :
    (profileFull clock keys draw warmup runs batch llhs pm (some p) u).2 = .ok b ↔
      (∀ (i : Nat) (e : SimEntry K V XF), (sims p llhs)[i]? = some e → ∃ g, e.simulate = some g ∧
        CanRun (fun k => g e.params k batch) (warmup + runs) (keys (u.keys + i))) ∧
      b.1 = ⟨u.keys + (sims p llhs).length, u.reads + 2 * runs * (sims p llhs).length⟩ ∧
      b.2 = PyDict.ofList ((sims p llhs).zipIdx.map (fun x => (x.1.name,
        (npMean (durations clock (u.reads + 2 * runs * x.2) runs), npStd (durations clock (u.reads + 2 * runs * x.2) runs))))) := by
  rw [profileFull_flat]
  have gen : ∀ (es : List (SimEntry K V XF)) (u0 : Used) (j : Nat) (d : PyDict String (XF × XF)),
      flatLoop (fun u e => fullOne clock keys warmup runs batch e.params u e.simulate) es (⟨u0.keys + j, u0.reads + 2 * runs * j⟩, d) = .ok b ↔
      (∀ (i : Nat) (e : SimEntry K V XF), es[i]? = some e → ∃ g, e.simulate = some g ∧
        CanRun (fun k => g e.params k batch) (warmup + runs) (keys (u0.keys + (j + i)))) ∧
      b.1 = ⟨u0.keys + (j + es.length), u0.reads + 2 * runs * (j + es.length)⟩ ∧
      b.2 = PyDict.update d ((es.zipIdx j).map (fun x => (x.1.name,
        (npMean (durations clock (u0.reads + 2 * runs * x.2) runs), npStd (durations clock (u0.reads + 2 * runs * x.2) runs))))) := by
    intro es
    induction es with
    | nil =>
      intro u0 j d
      rw [flatLoop]
      simp only [List.getElem?_nil, reduceCtorEq, false_imp_iff, implies_true, true_and, List.length_nil, Nat.add_zero, List.zipIdx_nil,
        List.map_nil, PyDict.update, List.foldl_nil, Except.ok.injEq]
      constructor
      · rintro rfl; exact ⟨rfl, rfl⟩
      · rintro ⟨h1, h2⟩; exact Prod.ext h1.symm h2.symm
    | cons e es ih =>
      intro u0 j d
      rw [flatLoop]
      have hone := fullOne_ok_iff clock keys warmup runs batch e.params ⟨u0.keys + j, u0.reads + 2 * runs * j⟩ e.simulate
      cases hx : fullOne clock keys warmup runs batch e.params ⟨u0.keys + j, u0.reads + 2 * runs * j⟩ e.simulate with
      | error x =>
        simp only [reduceCtorEq, false_iff, not_and]
        intro h
        exfalso
        obtain ⟨g, hg, hc⟩ := h 0 e (by simp)
        have := (hone _).2 ⟨⟨g, hg, by simpa using hc⟩, rfl⟩
        rw [hx] at this
        cases this
      | ok r =>
        obtain ⟨hg, hr⟩ := (hone r).1 hx
        subst hr
        simp only
        have ih' := ih u0 (j + 1) (d.set e.name (npMean (durations clock (u0.reads + 2 * runs * j) runs), npStd (durations clock (u0.reads + 2 * runs * j) runs)))
        rw [show u0.keys + (j + 1) = u0.keys + j + 1 by omega,
          show u0.reads + 2 * runs * (j + 1) = u0.reads + 2 * runs * j + 2 * runs by ring] at ih'
        rw [ih']
        simp only [List.length_cons, List.zipIdx_cons, List.map_cons, PyDict.update, List.foldl_cons]
        rw [show j + 1 + es.length = j + (es.length + 1) by omega]
        constructor
        · rintro ⟨h1, h2, h3⟩
          refine ⟨?_, h2, h3⟩
          intro i e' he'
          cases i with
          | zero => simp at he'; subst he'; simpa using hg
          | succ i =>
            have := h1 i e' (by simpa using he')
            rwa [show j + 1 + i = j + (i + 1) by omega] at this
        · rintro ⟨h1, h2, h3⟩
          refine ⟨?_, h2, h3⟩
          intro i e' he'
          have := h1 (i + 1) e' (by simpa using he')
          rwa [show j + (i + 1) = j + 1 + i by omega] at this
  have := gen (sims p llhs) u 0 []
  simp only [Nat.add_zero, Nat.mul_zero, Nat.zero_add] at this
  exact this

/-- **C94 (plugins).** Profiling a context profiles every simulated component, in order, each with its own fresh key, and reports
it under "likelihood/component". -/
theorem C94_context (clock : Nat → ℝ) (keys : Nat → K) (draw : String → ℝ) (warmup runs : Nat) (batch : V)
    (llhs : List (String × PLlh K V XF)) (pm : Parameter.PM) (p : PyDict String XF) (u : Used) (a : Used × PyDict String (List Line))
    (h : (profileContext clock keys draw warmup runs batch llhs pm (some p) u).2 = .ok a) :
    a.1.keys = u.keys + (sims p llhs).length ∧
    ∃ rs : List (CompRun K V), rs.length = (sims p llhs).length ∧
      a.2 = PyDict.ofList (((sims p llhs).map (fun e => e.name)).zip (rs.map (fun r => r.lines))) ∧
      ∀ (i : Nat) (e : SimEntry K V XF) (r : CompRun K V), (sims p llhs)[i]? = some e → rs[i]? = some r →
        ∃ reads, profileComponent clock e.reg e.worksheet (e.sem e.params) warmup runs (keys (u.keys + i)) batch reads = .ok r := by
  rw [profileContext_flat] at h
  have gen : ∀ (es : List (SimEntry K V XF)) (u0 : Used) (d : PyDict String (List Line)),
      flatLoop (fun u e => pluginsOne clock keys warmup runs batch e.params u e.reg e.worksheet e.sem) es (u0, d) = .ok a →
      a.1.keys = u0.keys + es.length ∧
      ∃ rs : List (CompRun K V), rs.length = es.length ∧
      a.2 = PyDict.update d ((es.map (fun e => e.name)).zip (rs.map (fun r => r.lines))) ∧
      ∀ (i : Nat) (e : SimEntry K V XF) (r : CompRun K V), es[i]? = some e → rs[i]? = some r →
        ∃ reads, profileComponent clock e.reg e.worksheet (e.sem e.params) warmup runs (keys (u0.keys + i)) batch reads = .ok r := by
    intro es
    induction es with
    | nil =>
      intro u0 d h
      rw [flatLoop] at h
      cases h
      exact ⟨rfl, [], rfl, rfl, by simp⟩
    | cons e es ih =>
      intro u0 d h
      rw [flatLoop] at h
      cases hx : pluginsOne clock keys warmup runs batch e.params u0 e.reg e.worksheet e.sem with
      | error x => rw [hx] at h; cases h
      | ok r =>
        rw [hx] at h
        simp only at h
        have hp : ∃ c, profileComponent clock e.reg e.worksheet (e.sem e.params) warmup runs (keys u0.keys) batch u0.reads = .ok c ∧
            r = (⟨u0.keys + 1, c.reads⟩, c.lines) := by
          unfold pluginsOne at hx
          cases hw : e.worksheet with
          | none => rw [hw] at hx; cases hx
          | some ws =>
            rw [hw] at hx
            simp only [bind, Except.bind, pure, Except.pure] at hx
            cases hc : profileComponent clock e.reg (some ws) (e.sem e.params) warmup runs (keys u0.keys) batch u0.reads with
            | error x => rw [hc] at hx; cases hx
            | ok c => rw [hc] at hx; cases hx; exact ⟨c, rfl, rfl⟩
        obtain ⟨c, hc, rfl⟩ := hp
        obtain ⟨h1, rs, h2, h3, h4⟩ := ih _ _ h
        refine ⟨by rw [h1, List.length_cons]; simp only; omega, c :: rs, by simp [h2], by rw [h3]; rfl, ?_⟩
        intro i e' r' he' hr'
        cases i with
        | zero =>
          simp only [List.getElem?_cons_zero, Option.some.injEq] at he' hr'
          subst he' hr'
          exact ⟨_, hc⟩
        | succ i =>
          simp only [List.getElem?_cons_succ] at he' hr'
          have := h4 i e' r' he' hr'
          rwa [show u0.keys + (i + 1) = u0.keys + 1 + i by omega]
  exact gen _ _ _ h

/-- **C94 (comparison).** If both ways of profiling succeed the comparison does: it never misses an entry, and has a row for each
profiled component with the two times and their overhead. -/
theorem C94_compare (clock : Nat → ℝ) (keys : Nat → K) (draw : String → ℝ) (warmup runs : Nat) (batch : V)
    (llhs : List (String × PLlh K V XF)) (pm : Parameter.PM) (p : PyDict String XF) (u : Used)
    (a : Used × PyDict String (List Line)) (b : Used × PyDict String (XF × XF))
    (ha : (profileContext clock keys draw warmup runs batch llhs pm (some p) u).2 = .ok a)
    (hb : (profileFull clock keys draw warmup runs batch llhs pm (some p) a.1).2 = .ok b) :
    ∃ rows, (compare clock keys draw warmup runs batch llhs pm (some p) u).2 = .ok (b.1, rows) ∧ rows.map (fun r => r.name) = a.2.keys ∧
      a.2.keys = b.2.keys ∧
      ∀ r ∈ rows, ∃ lines f, (r.name, lines) ∈ a.2 ∧ b.2.get? r.name = some f ∧ r.plugins = total lines ∧ r.full = f.1 ∧
        r.overhead = overhead r.plugins r.full := by
  have hkeys : a.2.keys = b.2.keys := by
    rw [profileContext_flat] at ha
    rw [profileFull_flat] at hb
    rw [flatLoop_keys _ _ _ _ ha, flatLoop_keys _ _ _ _ hb]
    rfl
  have hrows : ∀ l : PyDict String (List Line), (∀ e ∈ l, e.1 ∈ b.2.keys) → ∃ rows, l.mapM (rowOf b.2) = .ok rows ∧
      rows.map (fun r => r.name) = l.keys ∧
      ∀ r ∈ rows, ∃ lines f, (r.name, lines) ∈ l ∧ b.2.get? r.name = some f ∧ r.plugins = total lines ∧ r.full = f.1 ∧
        r.overhead = overhead r.plugins r.full := by
    intro l
    induction l with
    | nil => intro _; exact ⟨[], rfl, rfl, by simp⟩
    | cons e l ih =>
      intro h
      obtain ⟨rows, h1, h2, h3⟩ := ih (fun x hx => h x (by simp [hx]))
      have he := h e (by simp)
      rw [PyDict.mem_keys_iff] at he
      obtain ⟨f, hf⟩ := Option.isSome_iff_exists.1 he
      refine ⟨⟨e.1, total e.2, f.1, overhead (total e.2) f.1⟩ :: rows, ?_, ?_, ?_⟩
      · rw [List.mapM_cons, h1]
        simp [rowOf, PyDict.getItem, hf, bind, Except.bind, pure, Except.pure]
      · simp only [List.map_cons, h2]; rfl
      · intro r hr
        rcases List.mem_cons.1 hr with rfl | hr
        · exact ⟨e.2, f, by simp, hf, rfl, rfl, rfl⟩
        · obtain ⟨lines, f', q1, q2⟩ := h3 r hr
          exact ⟨lines, f', by simp [q1], q2⟩
  obtain ⟨rows, h1, h2, h3⟩ := hrows a.2 (fun e he => by rw [← hkeys]; exact List.mem_map_of_mem he)
  refine ⟨rows, ?_, h2, hkeys, h3⟩
  have e1 : profileContext clock keys draw warmup runs batch llhs pm (some p) u = (pm, .ok a) := by
    rw [← ha]; rfl
  have e2 : profileFull clock keys draw warmup runs batch llhs pm (some p) a.1 = (pm, .ok b) := by
    rw [← hb]; rfl
  unfold compare
  simp only [takeParameters, e1, e2, h1]
  rfl

/-- **C94 (summary).** The totals are those of the components and the grand total their sum; the list of slowest plugins has
`min n` entries of all plugins, in descending order, and no plugin left out is slower than one listed. -/
theorem C94_summary (all : PyDict String (List Line)) (n : Nat) (hfin : ∀ e ∈ all, ∀ l ∈ e.2, ∃ m, l.mean = .fin m) :
    let every := all.flatMap (fun e => e.2.map (fun r => (r.line.plugin, r.mean, e.1)))
    (summary all n).totals = all.map (fun e => (e.1, total e.2, e.2.length)) ∧
    (summary all n).grand = XF.sum (every.map (fun x => x.2.1)) ∧
    (summary all n).top.length = min n every.length ∧
    (summary all n).top.Pairwise (fun x y => y.2.1 ≤ x.2.1) ∧
    ∃ rest, ((summary all n).top ++ rest).Perm every ∧ ∀ x ∈ (summary all n).top, ∀ y ∈ rest, y.2.1 ≤ x.2.1 := by
  classical
  intro every
  have hev : ∀ x ∈ every, ∃ m, x.2.1 = .fin m := by
    intro x hx
    obtain ⟨e, he, hx⟩ := List.mem_flatMap.1 hx
    obtain ⟨l, hl, rfl⟩ := List.mem_map.1 hx
    exact hfin e he l hl
  set le : (String × XF × String) → (String × XF × String) → Bool := fun a b => decide (¬ a.2.1 < b.2.1) with hle
  have hslice : (summary all n).top = (every.mergeSort le).take n := by
    simp only [summary, sliceTo]
    rw [if_pos (by omega), Int.toNat_natCast]
  have hperm := List.mergeSort_perm every le
  have hmem : ∀ x ∈ every.mergeSort le, ∃ m, x.2.1 = .fin m := fun x hx => hev x (hperm.mem_iff.1 hx)
  have hsorted : (every.mergeSort le).Pairwise (fun x y => y.2.1 ≤ x.2.1) := by
    let num : (String × XF × String) → ℝ := fun x => match x.2.1 with | .fin m => m | _ => 0
    let le' : (String × XF × String) → (String × XF × String) → Bool := fun a b => decide (num b ≤ num a)
    have hsame : every.mergeSort le = every.mergeSort le' := by
      have := List.map_mergeSort (r := le) (s := le') (f := id) (l := every) (by
        intro a ha b hb
        obtain ⟨m, hm⟩ := hev a ha
        obtain ⟨m', hm'⟩ := hev b hb
        simp only [le, le', num, hm, hm', id, XF.fin_lt_fin, not_lt])
      simpa using this
    rw [hsame] at hmem ⊢
    have hp : (every.mergeSort le').Pairwise (fun a b => le' a b = true) := by
      apply List.pairwise_mergeSort
      · intro a b c; simp only [le', decide_eq_true_eq]; exact fun h1 h2 => le_trans h2 h1
      · intro a b; simp only [le', Bool.or_eq_true, decide_eq_true_eq]; exact le_total _ _
    refine hp.imp_of_mem (fun {x y} hx hy h => ?_)
    obtain ⟨m, hm⟩ := hmem x hx
    obtain ⟨m', hm'⟩ := hmem y hy
    simpa [le', num, hm, hm'] using h
  have hgrand : (summary all n).grand = XF.sum (every.map (fun x => x.2.1)) := by
    show XF.sum (all.map (fun e => total e.2)) = _
    clear_value le
    clear hslice hperm hmem hsorted hev hfin
    simp only [every]
    induction all with
    | nil => rfl
    | cons e all ih =>
      rw [List.map_cons, List.flatMap_cons, List.map_append, sum_append, ← ih, List.map_map,
        show (total e.2 :: all.map (fun e => total e.2)) = [total e.2] ++ all.map (fun e => total e.2) from rfl, sum_append]
      congr 1
      show XF.fin 0 + total e.2 = _
      rw [XF.fin_zero_add]
      rfl
  refine ⟨rfl, hgrand, ?_, ?_, (every.mergeSort le).drop n, ?_, ?_⟩
  · rw [hslice, List.length_take, hperm.length_eq]
  · rw [hslice]; exact hsorted.sublist (List.take_sublist _ _)
  · rw [hslice, List.take_append_drop]; exact hperm
  · rw [hslice]
    rw [← List.take_append_drop n (every.mergeSort le), List.pairwise_append] at hsorted
    exact hsorted.2.2

/-- Non-vacuity of C94: a clock ticking every second, two runs, a plugin that works. -/
example : ∃ r : CompRun Nat Nat, profileComponent (fun n => (n : ℝ)) [("a", ⟨"P", ["a"], ["batch_size"], [], []⟩)]
      (some [⟨"P", ["a"], ["batch_size"]⟩]) (fun _ k args => .ok (k + 1, args)) 1 2 0 7 0 = .ok r ∧
    r.key = 3 ∧ r.reads = 4 ∧ r.lines.map Line.mean = [.fin 1000] ∧ r.lines.map Line.std = [.fin 0] := by
  refine ⟨_, rfl, rfl, rfl, ?_, ?_⟩
  · simp [npMean]; norm_num
  · simp [npStd]; norm_num

/-- **C94 (negative number).** Asked for a negative number of plugins the summary lists all but the last that many of the sorted
plugins: with the ones it would list for a number as large as there are plugins in front. -/
theorem C94_summary_negative (all : PyDict String (List Line)) (k : Nat) (hk : 0 < k) :
    let every := all.flatMap (fun e => e.2.map (fun r => (r.line.plugin, r.mean, e.1)))
    (summary all (-k)).top = ((summary all every.length).top).take (every.length - k) ∧
    (summary all (-k)).totals = (summary all every.length).totals ∧ (summary all (-k)).grand = (summary all every.length).grand := by
  intro every
  refine ⟨?_, rfl, rfl⟩
  simp only [summary, sliceTo]
  rw [if_neg (by omega), if_pos (by omega)]
  simp only [neg_neg, Int.toNat_natCast, List.length_mergeSort, List.take_take]
  congr 1
  exact (min_eq_left (Nat.sub_le _ _)).symm

/-- Non-vacuity of C94_summary_negative: two plugins, without the last. -/
example (a b : Line) (ha : a.mean = .fin 1) (hb : b.mean = .fin 2) :
    (summary [("er", [a, b])] (-1)).top = [(b.line.plugin, .fin 2, "er")] := by
  simp [summary, sliceTo, ha, hb, List.mergeSort, List.MergeSort.Internal.splitInTwo, List.merge]

/-- **C94 (not ready).** Profiling succeeds only if every simulated component has been deduced, respectively compiled.  If the first
one has not, nothing is run and an AssertionError is raised. -/
theorem C94_not_ready (clock : Nat → ℝ) (keys : Nat → K) (draw : String → ℝ) (warmup runs : Nat) (batch : V)
    (llhs : List (String × PLlh K V XF)) (pm : Parameter.PM) (p : PyDict String XF) (u : Used) :
    (∀ b, (profileContext clock keys draw warmup runs batch llhs pm (some p) u).2 = .ok b → ∀ e ∈ sims p llhs, e.worksheet ≠ none) ∧
    (∀ b, (profileFull clock keys draw warmup runs batch llhs pm (some p) u).2 = .ok b → ∀ e ∈ sims p llhs, e.simulate ≠ none) ∧
    (∀ e, (sims p llhs).head? = some e →
      (e.worksheet = none → (profileContext clock keys draw warmup runs batch llhs pm (some p) u).2 = .error .assertionError) ∧
      (e.simulate = none → (profileFull clock keys draw warmup runs batch llhs pm (some p) u).2 = .error .assertionError)) := by
  have hall : ∀ {R : Type} (one : Used → SimEntry K V XF → Res (Used × R)) (es : List (SimEntry K V XF)) (s b : Used × PyDict String R),
      flatLoop one es s = .ok b → ∀ e ∈ es, ∃ u r, one u e = .ok r := by
    intro R one es
    induction es with
    | nil => intro s b _ e he; simp at he
    | cons a es ih =>
      intro s b h e he
      rw [flatLoop] at h
      cases hx : one s.1 a with
      | error x => rw [hx] at h; cases h
      | ok r =>
        rw [hx] at h
        rcases List.mem_cons.1 he with rfl | he
        · exact ⟨s.1, r, hx⟩
        · exact ih _ _ h e he
  rw [profileContext_flat, profileFull_flat]
  refine ⟨?_, ?_, ?_⟩
  · intro b h e he hn
    obtain ⟨u, r, hr⟩ := hall _ _ _ _ h e he
    rw [hn, pluginsOne] at hr
    cases hr
  · intro b h e he hn
    obtain ⟨u, r, hr⟩ := hall _ _ _ _ h e he
    rw [hn, fullOne] at hr
    cases hr
  · intro e he
    cases hs : sims p llhs with
    | nil => rw [hs] at he; cases he
    | cons a es =>
      rw [hs] at he
      cases he
      constructor <;> intro hn <;> rw [flatLoop] <;> simp only [hn, pluginsOne, fullOne]

/-- Non-vacuity of C94_not_ready: one component, not deduced. -/
example (reg : Registry) (sem : PyDict String XF → Plugin → Nat → List Nat → Res (Nat × List Nat)) :
    (sims [] [("l", (⟨[], [("er", .sim reg none sem none)]⟩ : PLlh Nat Nat XF))]).head?.map (fun e => e.worksheet) = some none := rfl

end
end Verif.Prof
