/-
C136: the plot of the autocorrelation times.
-/
import Verif.Lemmas.ChainPlots
import Verif.Base.MapM

namespace Verif.Plot
open Verif

theorem plotAutocorr_ok {thin walkers : Nat} {names : List String} {inner : List Nat} {chain : List (List (List ℝ))} {pl : AutoPlot}
    (h : plotAutocorr thin walkers names inner chain = .ok pl) : 0 < chain.length ∧ 2 ≤ names.length ∧
      (names.zipIdx).mapM (fun e => autoPanel thin walkers chain (100 :: inner ++ [chain.length]) e.2 e.1) = .ok pl.panels ∧
      pl.panels.length = names.length ∧ pl.rows = (names.length + 1) / 2 ∧ pl.warned = decide (chain.length < 1000) ∧
      pl.labelled = [names.length - 1, names.length - 2] := by
  unfold plotAutocorr lengths minAutocorrTime at h
  by_cases hc : chain.length = 0
  · simp only [hc, if_true, bind, Except.bind] at h
    cases h
  simp only [hc, if_false, bind, Except.bind] at h
  split at h
  · cases h
  · rename_i ps hps
    have hl := (mapM_ok_get _ _ _ hps).1
    rw [List.length_zipIdx] at hl
    split at h
    · cases h
    · rename_i h2
      cases h
      exact ⟨by omega, by omega, hps, hl, rfl, rfl, by rw [hl]⟩

theorem autoPanel_ok {thin walkers : Nat} {chain : List (List (List ℝ))} {ns : List Nat} {i : Nat} {name : String} {p : AutoPanel}
    (h : autoPanel thin walkers chain ns i name = .ok p) : p.place = i + 1 ∧ p.name = name ∧
      p.line = ns.map (fun n => (n * thin, ((n * thin : Nat) : ℝ) / 50)) ∧ p.times.length = ns.length ∧
      ∀ (j n : Nat), ns[j]? = some n → ∃ t, p.times[j]? = some (n * thin, t) ∧
        autocorrTime (min n chain.length) (walkerRows walkers chain i n) = .ok t := by
  unfold autoPanel at h
  simp only [bind, Except.bind] at h
  split at h
  · cases h
  · rename_i ts hts
    cases h
    obtain ⟨hl, hg⟩ := mapM_ok_get _ _ _ hts
    refine ⟨rfl, rfl, rfl, by simp [hl], fun j n hj => ?_⟩
    have hj' : j < ts.length := by
      rw [hl]
      exact (List.getElem?_eq_some_iff.1 hj).1
    obtain ⟨a, ha, hv⟩ := hg j ts[j] (List.getElem?_eq_getElem hj')
    rw [hj] at ha
    cases ha
    refine ⟨ts[j], ?_, hv⟩
    rw [List.getElem?_zip_eq_some]
    exact ⟨by rw [List.getElem?_map, hj]; rfl, List.getElem?_eq_getElem hj'⟩

/-- **C136 (made).** The plot is made for every chain with an iteration, a walker and two parameters; the numbers of iterations it
takes in between are at least 1. -/
theorem C136_made (thin walkers : Nat) (names : List String) (inner : List Nat) (chain : List (List (List ℝ)))
    (hc : 0 < chain.length) (hw : 1 ≤ walkers) (hn : 2 ≤ names.length) (hi : ∀ n ∈ inner, 1 ≤ n) :
    ∃ pl, plotAutocorr thin walkers names inner chain = .ok pl := by
  have hpan : ∀ e ∈ names.zipIdx, ∃ p, autoPanel thin walkers chain (100 :: inner ++ [chain.length]) e.2 e.1 = .ok p := by
    intro e _
    have hts : ∀ n ∈ 100 :: inner ++ [chain.length], ∃ t, autocorrTime (min n chain.length) (walkerRows walkers chain e.2 n) = .ok t := by
      intro n hn
      refine autocorrTime_ok walkers chain e.2 n hw ?_
      have : 1 ≤ n := by
        simp only [List.mem_append, List.mem_cons, List.not_mem_nil, or_false] at hn
        rcases hn with (rfl | h) | rfl
        · norm_num
        · exact hi n h
        · exact hc
      omega
    choose! g hg using hts
    unfold autoPanel
    rw [mapM_ok_of_forall _ g _ hg]
    exact ⟨_, rfl⟩
  haveI : Nonempty AutoPanel := ⟨⟨0, "", [], []⟩⟩
  choose! g hg using hpan
  unfold plotAutocorr lengths minAutocorrTime
  simp only [hc.ne', if_false, bind, Except.bind]
  rw [mapM_ok_of_forall _ g _ hg]
  simp only [List.length_map, List.length_zipIdx]
  rw [if_neg (by omega)]
  exact ⟨_, rfl⟩

/-- **C136 (panels).** The figure has one panel for each parameter, in order, each in its own place of a grid of two columns; the
lines to compare with are drawn at the same abscissas as the estimates, a fiftieth of the abscissa high; there is a warning exactly
for fewer than 1000 iterations; and the abscissa is labelled in exactly the panels that have no other below them. -/
theorem C136_panels (thin walkers : Nat) (names : List String) (inner : List Nat) (chain : List (List (List ℝ))) (pl : AutoPlot)
    (h : plotAutocorr thin walkers names inner chain = .ok pl) : pl.panels.length = names.length ∧
      (∀ i name, names[i]? = some name → ∃ p, pl.panels[i]? = some p ∧ p.name = name ∧ p.place = i + 1 ∧ p.place ≤ 2 * pl.rows ∧
        p.line = (100 :: inner ++ [chain.length]).map (fun n => (n * thin, ((n * thin : Nat) : ℝ) / 50)) ∧
        p.times.map Prod.fst = p.line.map Prod.fst) ∧
      (pl.warned = true ↔ chain.length < 1000) ∧
      ∀ i < names.length, (i ∈ pl.labelled ↔ names.length ≤ i + 2) := by
  obtain ⟨hc, hn, hm, hl, hr, hwn, hlab⟩ := plotAutocorr_ok h
  refine ⟨hl, fun i name hi => ?_, by rw [hwn, decide_eq_true_iff], fun i hi => ?_⟩
  · have hi' : i < names.length := (List.getElem?_eq_some_iff.1 hi).1
    obtain ⟨a, ha, hp⟩ := (mapM_ok_get _ _ _ hm).2 i _ (List.getElem?_eq_getElem (hl.symm ▸ hi'))
    rw [List.getElem?_zipIdx, hi] at ha
    cases ha
    obtain ⟨h1, h2, h3, h4, h5⟩ := autoPanel_ok hp
    refine ⟨_, List.getElem?_eq_getElem (hl.symm ▸ hi'), h2, by simpa using h1, ?_, h3, ?_⟩
    · rw [h1, hr]
      dsimp
      omega
    · apply List.ext_getElem?
      intro j
      rw [List.getElem?_map, List.getElem?_map, h3, List.getElem?_map]
      cases hj : (100 :: inner ++ [chain.length])[j]? with
      | none =>
        rw [List.getElem?_eq_none_iff] at hj
        rw [List.getElem?_eq_none (by omega)]
        rfl
      | some n =>
        obtain ⟨t, ht, _⟩ := h5 j n hj
        rw [ht]
        rfl
  · rw [hlab]
    simp only [List.mem_cons, List.not_mem_nil, or_false]
    omega

/-- The `j`-th point of the panel of parameter `i`. -/
theorem point_of {thin walkers : Nat} {names : List String} {inner : List Nat} {chain : List (List (List ℝ))} {pl : AutoPlot}
    (h : plotAutocorr thin walkers names inner chain = .ok pl) {i : Nat} {p : AutoPanel} (hp : pl.panels[i]? = some p) {j n : Nat}
    (hj : (100 :: inner ++ [chain.length])[j]? = some n) : ∃ t, p.times[j]? = some (n * thin, t) ∧
      p.line[j]? = some (n * thin, ((n * thin : Nat) : ℝ) / 50) ∧
      autocorrTime (min n chain.length) (walkerRows walkers chain i n) = .ok t := by
  obtain ⟨_, _, hm, _⟩ := plotAutocorr_ok h
  obtain ⟨a, ha, hp'⟩ := (mapM_ok_get _ _ _ hm).2 i _ hp
  obtain ⟨_, _, h3, _, h5⟩ := autoPanel_ok hp'
  rw [List.getElem?_zipIdx] at ha
  cases hn : names[i]? with
  | none => rw [hn] at ha; cases ha
  | some name =>
    rw [hn] at ha
    cases ha
    obtain ⟨t, ht, hv⟩ := h5 j n hj
    refine ⟨t, ht, ?_, by simpa using hv⟩
    rw [h3, List.getElem?_map, hj]
    rfl

/-- **C136 (times).** A point for `n` of the iterations that are left is drawn at `n * thin`, at the height of the integrated
autocorrelation time of the first `n` iterations, counted in iterations that are left, if every walker moved during them. -/
theorem C136_times (thin walkers : Nat) (names : List String) (inner : List Nat) (chain : List (List (List ℝ))) (pl : AutoPlot)
    (h : plotAutocorr thin walkers names inner chain = .ok pl) (hw : 1 ≤ walkers) (i : Nat) (p : AutoPanel)
    (hp : pl.panels[i]? = some p) (j n : Nat) (hj : (100 :: inner ++ [chain.length])[j]? = some n) (h1 : 1 ≤ n)
    (hn : n ≤ chain.length) (hm : ∀ w < walkers, Moved chain n w i) :
    ∃ t, p.times[j]? = some (n * thin, .fin t) ∧ IsTime (sequences walkers chain n i) n t := by
  obtain ⟨t, ht, _, hv⟩ := point_of h hp hj
  obtain ⟨t', ht', hs⟩ := autocorrTime_moved walkers chain i n hw (by omega) hm
  rw [ht'] at hv
  cases hv
  rw [min_eq_left hn] at hs
  exact ⟨t', ht, hs⟩

/-- **C136 (criterion, part).** Without thinning a point lies below the line exactly if the iterations up to there are more than
fifty times their autocorrelation time.  Missing: thinned chains, see `C136_thinned`, and chains of fewer than 100 iterations, see
`C136_short`. -/
theorem C136_criterion_partial (walkers : Nat) (names : List String) (inner : List Nat) (chain : List (List (List ℝ))) (pl : AutoPlot)
    (h : plotAutocorr 1 walkers names inner chain = .ok pl) (hw : 1 ≤ walkers) (i : Nat) (p : AutoPanel)
    (hp : pl.panels[i]? = some p) (j n : Nat) (hj : (100 :: inner ++ [chain.length])[j]? = some n) (h1 : 1 ≤ n)
    (hn : n ≤ chain.length) (hm : ∀ w < walkers, Moved chain n w i) :
    ∃ t l, p.times[j]? = some (n, .fin t) ∧ p.line[j]? = some (n, l) ∧ IsTime (sequences walkers chain n i) n t ∧
      (t < l ↔ 50 * t < n) := by
  obtain ⟨t, ht, hs⟩ := C136_times 1 walkers names inner chain pl h hw i p hp j n hj h1 hn hm
  obtain ⟨_, _, hl, _⟩ := point_of h hp hj
  rw [mul_one] at ht hl
  exact ⟨t, _, ht, hl, hs, by constructor <;> intro h <;> linarith⟩

/-- **C136 (thinned).** In the plot of a thinned chain the estimate is counted in iterations that are left and the line in
iterations of the fit: a point lies below the line exactly if the iterations left are more than `50 / thin` times their
autocorrelation time. -/
theorem C136_thinned_line (thin walkers : Nat) (names : List String) (inner : List Nat) (chain : List (List (List ℝ))) (pl : AutoPlot)
    (h : plotAutocorr thin walkers names inner chain = .ok pl) (hw : 1 ≤ walkers) (i : Nat) (p : AutoPanel)
    (hp : pl.panels[i]? = some p) (j n : Nat) (hj : (100 :: inner ++ [chain.length])[j]? = some n) (h1 : 1 ≤ n)
    (hn : n ≤ chain.length) (hm : ∀ w < walkers, Moved chain n w i) :
    ∃ t l, p.times[j]? = some (n * thin, .fin t) ∧ p.line[j]? = some (n * thin, l) ∧ IsTime (sequences walkers chain n i) n t ∧
      (t < l ↔ 50 * t < thin * n) := by
  obtain ⟨t, ht, hs⟩ := C136_times thin walkers names inner chain pl h hw i p hp j n hj h1 hn hm
  obtain ⟨_, _, hl, _⟩ := point_of h hp hj
  refine ⟨t, _, ht, hl, hs, ?_⟩
  push_cast
  constructor <;> intro h <;> linarith

/-- **C136 (violated: short chains).** For a chain of fewer than 100 iterations the plot begins at 100 all the same, to the right of
its last point: the estimate drawn there is that of the whole chain, and the line it is compared with is higher. -/
theorem C136_short (thin walkers : Nat) (names : List String) (inner : List Nat) (chain : List (List (List ℝ))) (pl : AutoPlot)
    (h : plotAutocorr thin walkers names inner chain = .ok pl) (ht : 1 ≤ thin) (hs : chain.length < 100) (i : Nat) (p : AutoPanel)
    (hp : pl.panels[i]? = some p) : pl.warned = true ∧ chain.length * thin < 100 * thin ∧
      ∃ t, p.times[0]? = some (100 * thin, t) ∧ p.times[inner.length + 1]? = some (chain.length * thin, t) := by
  obtain ⟨hc, _, _, _, _, hwn, _⟩ := plotAutocorr_ok h
  refine ⟨by rw [hwn, decide_eq_true_iff]; omega, Nat.mul_lt_mul_of_pos_right hs ht, ?_⟩
  obtain ⟨t, h1, _, h2⟩ := point_of h hp (j := 0) (n := 100) (by simp)
  obtain ⟨t', h1', _, h2'⟩ := point_of h hp (j := inner.length + 1) (n := chain.length) (by simp)
  refine ⟨t, h1, ?_⟩
  rw [walkerRows_min, min_eq_right hs.le] at h2
  rw [walkerRows_min, min_self] at h2'
  rw [h2] at h2'
  cases h2'
  exact h1'

/-- **C136 (violated: one walker that did not move).** If a parameter of a single walker did not change in the first `n` iterations,
there is no point for `n` at all in the panel of that parameter, however well the other walkers moved. -/
theorem C136_stuck (thin walkers : Nat) (names : List String) (inner : List Nat) (chain : List (List (List ℝ))) (pl : AutoPlot)
    (h : plotAutocorr thin walkers names inner chain = .ok pl) (i : Nat) (p : AutoPanel) (hp : pl.panels[i]? = some p) (j n : Nat)
    (hj : (100 :: inner ++ [chain.length])[j]? = some n) (h1 : 1 ≤ n) (w : Nat) (hw : w < walkers) (hm : ¬ Moved chain n w i) :
    p.times[j]? = some (n * thin, .nan) := by
  obtain ⟨hc, _⟩ := plotAutocorr_ok h
  obtain ⟨t, ht, _, hv⟩ := point_of h hp hj
  rw [autocorrTime_stuck walkers chain i n (by omega) w hw hm] at hv
  cases hv
  exact ht

/-- **C136 (violated: one parameter).** A fit of a single parameter has no autocorrelation plot. -/
theorem C136_one_parameter (thin walkers : Nat) (name : String) (inner : List Nat) (chain : List (List (List ℝ)))
    (hc : 0 < chain.length) (hw : 1 ≤ walkers) (hi : ∀ n ∈ inner, 1 ≤ n) :
    plotAutocorr thin walkers [name] inner chain = .error .indexError := by
  have hts : ∀ n ∈ 100 :: inner ++ [chain.length], ∃ t, autocorrTime (min n chain.length) (walkerRows walkers chain 0 n) = .ok t := by
    intro n hn
    refine autocorrTime_ok walkers chain 0 n hw ?_
    have : 1 ≤ n := by
      simp only [List.mem_append, List.mem_cons, List.not_mem_nil, or_false] at hn
      rcases hn with (rfl | h) | rfl
      · norm_num
      · exact hi n h
      · exact hc
    omega
  choose! g hg using hts
  unfold plotAutocorr lengths minAutocorrTime
  simp only [hc.ne', if_false, bind, Except.bind, List.zipIdx_cons, List.zipIdx_nil, List.mapM_cons, List.mapM_nil, autoPanel]
  rw [mapM_ok_of_forall _ g _ hg]
  rfl

/-- **C136 (no iteration).** If no iteration is left, the plot is refused with a ValueError. -/
theorem C136_no_iteration (thin walkers : Nat) (names : List String) (inner : List Nat) :
    plotAutocorr thin walkers names inner [] = .error .valueError := rfl

/-! ### A chain of 128 iterations -/

/-- One walker with two parameters that are 1 in the first half of the chain and -1 in the second one. -/
def halves : List (List (List ℝ)) := (List.range 128).map (fun k => [[if k < 64 then 1 else -1, if k < 64 then 1 else -1]])

/-- The numbers of iterations between 100 and 128. -/
def halvesInner : List Nat := [102, 105, 108, 111, 114, 117, 121, 124]

def sgn (k : Nat) : Int := if k < 64 then 1 else -1

def lagZ (k : Nat) : Int := ∑ j ∈ Finset.range (128 - k), sgn j * sgn (j + k)

def totalZ : Nat → Int
  | 0 => 64
  | k + 1 => totalZ k + lagZ (k + 1)

theorem totalZ_small : ∀ i : Nat, i < 82 → 64 * (i : Int) < 5 * totalZ i := by decide +kernel

theorem totalZ_82 : totalZ 82 = 1035 := by decide +kernel

theorem halves_length : halves.length = 128 := by simp [halves]

theorem halves_position (k : Nat) (i : Nat) (hk : k < 128) (hi : i < 2) : position halves k 0 i = (sgn k : ℝ) := by
  have h : halves.getD k [] = [[if k < 64 then 1 else -1, if k < 64 then 1 else -1]] := by
    rw [halves, List.getD_eq_getElem?_getD, List.getElem?_map, List.getElem?_range hk]
    rfl
  unfold position
  rw [h]
  unfold sgn
  rcases (by omega : i = 0 ∨ i = 1) with rfl | rfl <;> by_cases h64 : k < 64 <;> simp [h64]

theorem halves_row (i : Nat) (hi : i < 2) : sequences 1 halves 128 i = [(List.range 128).map (fun k => ((sgn k : Int) : ℝ))] := by
  unfold sequences
  rw [show List.range 1 = [0] from rfl, List.map_singleton]
  congr 1
  exact List.map_congr_left fun k hk => halves_position k i (List.mem_range.1 hk) hi

theorem sgn_mean : mean ((List.range 128).map (fun k => ((sgn k : Int) : ℝ))) = 0 := by
  have h : ((List.range 128).map sgn).sum = 0 := by decide +kernel
  have h2 : ((List.range 128).map (fun k => ((sgn k : Int) : ℝ))).sum = (((List.range 128).map sgn).sum : Int) := by
    rw [Int.cast_list_sum, List.map_map]
    rfl
  rw [mean, h2, h]
  simp

theorem sgn_lag (k : Nat) : lagSum ((List.range 128).map (fun k => ((sgn k : Int) : ℝ))) k = (lagZ k : ℝ) := by
  unfold lagSum lagZ
  rw [sgn_mean, List.length_map, List.length_range, Int.cast_sum]
  refine Finset.sum_congr rfl fun j hj => ?_
  rw [Finset.mem_range] at hj
  rw [getD_map_range' _ (by omega), getD_map_range' _ (by omega)]
  push_cast
  ring

theorem halves_tau (i : Nat) (hi : i < 2) (w : Nat) : tau (sequences 1 halves 128 i) w = (totalZ w : ℝ) / 64 := by
  have h0 : lagZ 0 = 128 := by decide +kernel
  rw [halves_row i hi]
  unfold tau
  induction w with
  | zero => simp [totalZ]
  | succ w ih =>
    rw [Finset.sum_range_succ, mul_add, ← add_assoc, ih, totalZ]
    unfold rhoBar
    simp only [List.map_singleton, List.sum_singleton, List.length_singleton, sgn_lag, h0]
    push_cast
    ring

theorem halves_moved (i : Nat) (hi : i < 2) : Moved halves 128 0 i := by
  refine ⟨0, 64, by norm_num, by norm_num, by rw [halves_length]; norm_num, by rw [halves_length]; norm_num, ?_⟩
  rw [halves_position 0 i (by norm_num) hi, halves_position 64 i (by norm_num) hi]
  norm_num [sgn]

theorem halves_time (i : Nat) (hi : i < 2) (t : ℝ) (h : IsTime (sequences 1 halves 128 i) 128 t) : t = 1035 / 64 := by
  obtain ⟨w, _, _, rfl, h3, h4⟩ := h
  have hw : w = 82 := by
    rcases lt_trichotomy w 82 with hlt | heq | hgt
    · exfalso
      rw [halves_tau i hi] at h3
      have := totalZ_small w hlt
      have h' : (64 : ℝ) * w < 5 * totalZ w := by exact_mod_cast this
      linarith
    · exact heq
    · exfalso
      have := h4 82 hgt
      rw [halves_tau i hi, totalZ_82] at this
      norm_num at this
  rw [hw, halves_tau i hi, totalZ_82]
  norm_num

/-- **C136 (violated: thinned chains).** 1280 iterations, of which every tenth is read: the 128 that are left have an autocorrelation
time of about 16 of them, so the chain is only eight times as long; but in the panels of both parameters the last point is drawn below
the line, which says that it is more than fifty times as long. -/
theorem C136_thinned : ∃ pl, plotAutocorr 10 1 ["a", "b"] halvesInner halves = .ok pl ∧
    ∀ i < 2, ∃ p t l, pl.panels[i]? = some p ∧ p.times[9]? = some (1280, .fin t) ∧ p.line[9]? = some (1280, l) ∧ t < l ∧
      IsTime (sequences 1 halves 128 i) 128 t ∧ ((128 : ℕ) : ℝ) < 8 * t := by
  obtain ⟨pl, hpl⟩ := C136_made 10 1 ["a", "b"] halvesInner halves (by rw [halves_length]; norm_num) le_rfl (by simp)
    (by decide)
  refine ⟨pl, hpl, fun i hi => ?_⟩
  obtain ⟨hl, _⟩ := C136_panels _ _ _ _ _ _ hpl
  have hi' : i < pl.panels.length := by rw [hl]; exact hi
  obtain ⟨t, l, h1, h2, h3, h4⟩ := C136_thinned_line 10 1 _ _ _ _ hpl le_rfl i _ (List.getElem?_eq_getElem hi') 9 128
    (by rw [halves_length]; rfl) (by norm_num) (by rw [halves_length])
    (fun w hw => by obtain rfl : w = 0 := by omega
                    exact halves_moved i hi)
  have ht := halves_time i hi t h3
  exact ⟨_, t, l, List.getElem?_eq_getElem hi', h1, h2, h4.2 (by rw [ht]; norm_num), h3, by rw [ht]; norm_num⟩

/-- Non-vacuity of `C136_made`, `C136_times` and `C136_criterion_partial`: the same chain read without thinning; its last point is
above the line. -/
example : ∃ pl, plotAutocorr 1 1 ["a", "b"] halvesInner halves = .ok pl ∧
    ∃ p t l, pl.panels[0]? = some p ∧ p.times[9]? = some (128, .fin t) ∧ p.line[9]? = some (128, l) ∧ l < t := by
  obtain ⟨pl, hpl⟩ := C136_made 1 1 ["a", "b"] halvesInner halves (by rw [halves_length]; norm_num) le_rfl (by simp) (by decide)
  obtain ⟨hl, _⟩ := C136_panels _ _ _ _ _ _ hpl
  have hi' : 0 < pl.panels.length := by rw [hl]; norm_num
  obtain ⟨t, l, h1, h2, h3, h4⟩ := C136_criterion_partial 1 _ _ _ _ hpl le_rfl 0 _ (List.getElem?_eq_getElem hi') 9 128
    (by rw [halves_length]; rfl) (by norm_num) (by rw [halves_length])
    (fun w hw => by obtain rfl : w = 0 := by omega
                    exact halves_moved 0 (by norm_num))
  have ht := halves_time 0 (by norm_num) t h3
  obtain ⟨_, _, hl', _⟩ := point_of hpl (List.getElem?_eq_getElem hi') (j := 9) (n := 128) (by rw [halves_length]; rfl)
  rw [h2] at hl'
  cases hl'
  exact ⟨pl, hpl, _, t, _, List.getElem?_eq_getElem hi', h1, h2, by rw [ht]; norm_num⟩

/-- Non-vacuity of `C136_short` and `C136_stuck`: two iterations, in which the second of two walkers did not move. -/
example : ∃ pl, plotAutocorr 1 2 ["a", "b"] [64, 42, 27, 17, 11, 7, 4, 3] [[[0, 1], [5, 5]], [[1, 3], [5, 5]]] = .ok pl ∧
    ∀ p, pl.panels[0]? = some p → p.times[0]? = some (100, .nan) ∧ p.times[9]? = some (2, .nan) := by
  obtain ⟨pl, hpl⟩ := C136_made 1 2 ["a", "b"] [64, 42, 27, 17, 11, 7, 4, 3] [[[0, 1], [5, 5]], [[1, 3], [5, 5]]] (by simp) (by simp)
    (by simp) (by decide)
  refine ⟨pl, hpl, fun p hp => ?_⟩
  have hm : ∀ n, ¬ Moved [[[0, 1], [5, 5]], [[1, 3], [5, 5]]] n 1 0 := by
    rintro n ⟨k, l, _, _, h3, h4, h5⟩
    have hpos : ∀ k < 2, position [[[0, 1], [5, 5]], [[1, 3], [5, 5]]] k 1 0 = 5 := by
      intro k hk
      rcases (by omega : k = 0 ∨ k = 1) with rfl | rfl <;> simp [position]
    exact h5 ((hpos k (by simpa using h3)).trans (hpos l (by simpa using h4)).symm)
  exact ⟨C136_stuck 1 2 _ _ _ _ hpl 0 p hp 0 100 rfl (by norm_num) 1 (by norm_num) (hm _),
    C136_stuck 1 2 _ _ _ _ hpl 0 p hp 9 2 rfl (by norm_num) 1 (by norm_num) (hm _)⟩

end Verif.Plot
