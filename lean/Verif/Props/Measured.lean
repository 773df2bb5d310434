/-
Property theorems of C149: a literature likelihood prefers the measured yield (likelihood.py 461-565).
-/
import Verif.Lemmas.Measured

namespace Verif.Llh
open Verif MeasureTheory ProbabilityTheory Randgen

section
variable {K : Type}

/-- **C149 (difference).** Two evaluations of a literature likelihood with points, at parameters `p` and `p'` and with any keys, differ by
half the difference of the squared distances to the measured yields in units of the errors, each weighted with its efficiency. -/
theorem C149_difference (al : PyDict String String) (hal : PlainAliases al) (shape : Shape) (s : LitState K) (key key' k k' : K)
    (batch batch' : Int) (p p' : PyDict String XF) (v v' : XF) (pts : List (Measured × ℝ × ℝ))
    (hd : Describes shape (pts.map (·.1)))
    (hs : Simulates al s p key k (pts.map (·.2.1)) (pts.map (·.1.eff)))
    (hs' : Simulates al s p' key' k' (pts.map (·.2.2)) (pts.map (·.1.eff)))
    (h : litLogLikelihood al shape s key batch p = .ok (k, v))
    (h' : litLogLikelihood al shape s key' batch' p' = .ok (k', v')) :
    ∃ a b : ℝ, v = .fin a ∧ v' = .fin b ∧
      a - b = (pts.map (fun q => q.1.eff * (q.1.pull q.2.2 ^ 2 - q.1.pull q.2.1 ^ 2) / 2)).sum := by
  have e1 := (lit_value hal (pts.map (fun q => (q.1, q.2.1))) (by simpa [List.map_map, Function.comp_def] using hd)
    (by simpa [List.map_map, Function.comp_def] using hs) h).2
  have e2 := (lit_value hal (pts.map (fun q => (q.1, q.2.2))) (by simpa [List.map_map, Function.comp_def] using hd)
    (by simpa [List.map_map, Function.comp_def] using hs') h').2
  refine ⟨_, _, e1, e2, ?_⟩
  simp only [List.map_map, Function.comp_def]
  clear * -
  induction pts with
  | nil => simp
  | cons q pts ih =>
    simp only [List.map_cons, List.sum_cons]
    rw [ell_pull, ell_pull, ← ih]
    ring

/-- **C149 (closer is better).** Yields that are nowhere further from the measured ones, in units of the errors, never have a smaller log
likelihood, and a larger one if one that counts is closer. -/
theorem C149_closer (al : PyDict String String) (hal : PlainAliases al) (shape : Shape) (s : LitState K) (key key' k k' : K)
    (batch batch' : Int) (p p' : PyDict String XF) (v v' : XF) (pts : List (Measured × ℝ × ℝ)) (heff : ∀ q ∈ pts, 0 ≤ q.1.eff)
    (hd : Describes shape (pts.map (·.1)))
    (hs : Simulates al s p key k (pts.map (·.2.1)) (pts.map (·.1.eff)))
    (hs' : Simulates al s p' key' k' (pts.map (·.2.2)) (pts.map (·.1.eff)))
    (h : litLogLikelihood al shape s key batch p = .ok (k, v))
    (h' : litLogLikelihood al shape s key' batch' p' = .ok (k', v'))
    (hc : ∀ q ∈ pts, |q.1.pull q.2.1| ≤ |q.1.pull q.2.2|) :
    ∃ a b : ℝ, v = .fin a ∧ v' = .fin b ∧ b ≤ a ∧
      ((∃ q ∈ pts, 0 < q.1.eff ∧ |q.1.pull q.2.1| < |q.1.pull q.2.2|) → b < a) := by
  obtain ⟨a, b, ha, hb, hab⟩ := C149_difference al hal shape s key key' k k' batch batch' p p' v v' pts hd hs hs' h h'
  have hnn : ∀ q ∈ pts, 0 ≤ q.1.eff * (q.1.pull q.2.2 ^ 2 - q.1.pull q.2.1 ^ 2) / 2 := by
    intro q hq
    have := sq_le_sq.2 (hc q hq)
    have h1 : 0 ≤ q.1.pull q.2.2 ^ 2 - q.1.pull q.2.1 ^ 2 := by linarith
    have := mul_nonneg (heff q hq) h1
    linarith
  have hnn' : ∀ x ∈ pts.map (fun q => q.1.eff * (q.1.pull q.2.2 ^ 2 - q.1.pull q.2.1 ^ 2) / 2), 0 ≤ x := by
    intro x hx
    obtain ⟨q, hq, rfl⟩ := List.mem_map.1 hx
    exact hnn q hq
  have hsum : 0 ≤ (pts.map (fun q => q.1.eff * (q.1.pull q.2.2 ^ 2 - q.1.pull q.2.1 ^ 2) / 2)).sum :=
    List.sum_nonneg hnn'
  refine ⟨a, b, ha, hb, by linarith, ?_⟩
  rintro ⟨q, hq, h0, hlt⟩
  have hq1 : 0 < q.1.eff * (q.1.pull q.2.2 ^ 2 - q.1.pull q.2.1 ^ 2) / 2 := by
    have := sq_lt_sq.2 hlt
    have h1 : 0 < q.1.pull q.2.2 ^ 2 - q.1.pull q.2.1 ^ 2 := by linarith
    have := mul_pos h0 h1
    linarith
  have hle := List.single_le_sum (l := pts.map (fun q => q.1.eff * (q.1.pull q.2.2 ^ 2 - q.1.pull q.2.1 ^ 2) / 2))
    hnn' _ (List.mem_map.2 ⟨q, hq, rfl⟩)
  linarith

/-- **C149 (best yields).** The measured yields have the largest log likelihood, and only yields that agree with the measured ones
wherever the efficiency is not zero share it. -/
theorem C149_best (al : PyDict String String) (hal : PlainAliases al) (shape : Shape) (s : LitState K) (key key' k k' : K)
    (batch batch' : Int) (p p' : PyDict String XF) (v v' : XF) (pts : List (Measured × ℝ × ℝ)) (heff : ∀ q ∈ pts, 0 ≤ q.1.eff)
    (hd : Describes shape (pts.map (·.1)))
    (hs : Simulates al s p key k (pts.map (·.2.1)) (pts.map (·.1.eff)))
    (hs' : Simulates al s p' key' k' (pts.map (·.2.2)) (pts.map (·.1.eff)))
    (h : litLogLikelihood al shape s key batch p = .ok (k, v))
    (h' : litLogLikelihood al shape s key' batch' p' = .ok (k', v')) (hbest : ∀ q ∈ pts, q.2.1 = q.1.mu) :
    ∃ a b : ℝ, v = .fin a ∧ v' = .fin b ∧ b ≤ a ∧ (b = a ↔ ∀ q ∈ pts, 0 < q.1.eff → q.2.2 = q.1.mu) := by
  have hpos := (lit_value hal (pts.map (fun q => (q.1, q.2.1))) (by simpa [List.map_map, Function.comp_def] using hd)
    (by simpa [List.map_map, Function.comp_def] using hs) h).1
  have hz : ∀ q ∈ pts, q.1.pull q.2.1 = 0 := by
    intro q hq
    rw [hbest q hq]
    simp [Measured.pull]
  have hnz : ∀ q ∈ pts, q.2.2 ≠ q.1.mu → q.1.pull q.2.2 ≠ 0 := by
    intro q hq hne
    have hp := hpos (q.1, q.2.1) (List.mem_map.2 ⟨q, hq, rfl⟩)
    unfold Measured.pull
    refine div_ne_zero (sub_ne_zero.2 hne) ?_
    split
    · exact hp.2.ne'
    · exact hp.1.ne'
  obtain ⟨a, b, ha, hb, hle, hlt⟩ := C149_closer al hal shape s key key' k k' batch batch' p p' v v' pts heff hd hs hs' h h'
    (fun q hq => by rw [hz q hq, abs_zero]; exact abs_nonneg _)
  obtain ⟨a', b', ha', hb', hab⟩ := C149_difference al hal shape s key key' k k' batch batch' p p' v v' pts hd hs hs' h h'
  rw [ha] at ha'
  rw [hb] at hb'
  cases ha'
  cases hb'
  refine ⟨a, b, ha, hb, hle, fun he q hq h0 => ?_, fun hall => ?_⟩
  · by_contra hne
    have := hlt ⟨q, hq, h0, by rw [hz q hq, abs_zero]; exact abs_pos.2 (hnz q hq hne)⟩
    linarith
  · have hsum : (pts.map (fun q => q.1.eff * (q.1.pull q.2.2 ^ 2 - q.1.pull q.2.1 ^ 2) / 2)).sum = 0 := by
      refine List.sum_eq_zero (fun x hx => ?_)
      obtain ⟨q, hq, rfl⟩ := List.mem_map.1 hx
      rcases (heff q hq).eq_or_lt with h0 | h0
      · rw [← h0]; simp
      · rw [hz q hq, hall q hq h0]
        simp [Measured.pull]
    linarith

/-- **C149 (repeated measurements).** If the errors mean what they say, then on average over repetitions of the measurements the
log likelihood of the true yields is not smaller than that of any other yields, and larger than that of yields which differ where
the efficiency is not zero. -/
theorem C149_repeated {Ω : Type} [MeasurableSpace Ω] (P : Measure Ω) [IsProbabilityMeasure P] (al : PyDict String String)
    (hal : PlainAliases al) (shape : Ω → Shape) (s : LitState K) (key key' k k' : K) (batch batch' : Int)
    (p p' : PyDict String XF) (v v' : Ω → XF) (ts : List (Trial Ω × ℝ)) (heff : ∀ q ∈ ts, 0 ≤ q.1.eff)
    (hhonest : ∀ q ∈ ts, q.1.Honest P) (hd : ∀ ω, Describes (shape ω) (ts.map (·.1.at ω)))
    (hs : Simulates al s p key k (ts.map (·.1.truth)) (ts.map (·.1.eff)))
    (hs' : Simulates al s p' key' k' (ts.map (·.2)) (ts.map (·.1.eff)))
    (h : ∀ ω, litLogLikelihood al (shape ω) s key batch p = .ok (k, v ω))
    (h' : ∀ ω, litLogLikelihood al (shape ω) s key' batch' p' = .ok (k', v' ω)) :
    ∃ a b : Ω → ℝ, (∀ ω, v ω = .fin (a ω)) ∧ (∀ ω, v' ω = .fin (b ω)) ∧ Integrable a P ∧ Integrable b P ∧
      ∫ ω, b ω ∂P ≤ ∫ ω, a ω ∂P ∧ ((∃ q ∈ ts, 0 < q.1.eff ∧ q.2 ≠ q.1.truth) → ∫ ω, b ω ∂P < ∫ ω, a ω ∂P) := by
  have e1 := fun ω => lit_value hal (ts.map (fun q => (q.1.at ω, q.1.truth)))
    (by simpa only [List.map_map, Function.comp_def] using hd ω)
    (by simpa only [List.map_map, Function.comp_def, Trial.at] using hs) (h ω)
  have e2 := fun ω => lit_value hal (ts.map (fun q => (q.1.at ω, q.2)))
    (by simpa only [List.map_map, Function.comp_def] using hd ω)
    (by simpa only [List.map_map, Function.comp_def, Trial.at] using hs') (h' ω)
  obtain ⟨ω0⟩ := P.nonempty_of_neZero
  have hpos : ∀ q ∈ ts, 0 < q.1.sp ∧ 0 < q.1.sn := by
    intro q hq
    have := (e1 ω0).1 (q.1.at ω0, q.1.truth) (List.mem_map.2 ⟨q, hq, rfl⟩)
    exact this
  obtain ⟨i1, i2, i3, i4⟩ := trials_mean ts hhonest hpos heff
  refine ⟨_, _, fun ω => ?_, fun ω => ?_, i1, i2, i3, i4⟩
  · rw [(e1 ω).2, List.map_map]
    rfl
  · rw [(e2 ω).2, List.map_map]
    rfl

end

/-- A likelihood with one component that returns the yield `y` given as parameter. -/
def demo : LitState Unit := ⟨[("er", fun k _ p => (p.getItem "y").map fun y => (k, [[.fin 1], [y], [.fin 1]]))], some "er"⟩

/-- Non-vacuity: measured 5 with errors +2 and -1, the yields 5 and 7 are compared. -/
example : ∃ a b : ℝ, litLogLikelihood [] (.twohalfnorm [5] [2] [1]) demo () 1 [("y", .fin 5)] = .ok ((), .fin a) ∧
    litLogLikelihood [] (.twohalfnorm [5] [2] [1]) demo () 1 [("y", .fin 7)] = .ok ((), .fin b) ∧ b < a := by
  have hal : PlainAliases [] := ⟨by simp [PyDict.keys], by simp [PyDict.keys], by simp⟩
  have hrun : ∀ y : ℝ, ∃ v, litLogLikelihood [] (.twohalfnorm [5] [2] [1]) demo () 1 [("y", .fin y)] = .ok ((), v) := by
    intro y
    have h1 : common [1, 1] = .ok 1 := common_same (by simp) (by simp)
    have h4 : common [1, 1, 1, 1] = .ok 1 := common_same (by simp) (by simp)
    simp [litLogLikelihood, simulateYields, demo, PyDict.getItem, PyDict.get?, PyDict.keys, logpdf, h1, h4, spread, bind, Except.bind, pure, Except.pure,
      replaceAlias, Except.map]
  obtain ⟨v, hv⟩ := hrun 5
  obtain ⟨v', hv'⟩ := hrun 7
  have hs : ∀ y : ℝ, Simulates [] demo [("y", .fin y)] () () [y] [1] := by
    intro y
    refine ⟨"er", _, [.fin 1], rfl, ?_⟩
    simp [replaceAlias, PyDict.getItem, PyDict.get?, Except.map]
  obtain ⟨a, b, rfl, rfl, -, hlt⟩ := C149_closer [] hal _ demo () () () () 1 1 _ _ v v' [(⟨5, 2, 1, 1⟩, 5, 7)] (by simp)
    (Or.inl rfl) (hs 5) (hs 7) hv hv' (by simp [Measured.pull])
  exact ⟨a, b, hv, hv', hlt ⟨_, List.mem_singleton.2 rfl, by norm_num, by norm_num [Measured.pull]⟩⟩

/-- Non-vacuity of the repeated measurements: there is a measurement whose errors mean what they say. -/
example : ∃ (P : Measure ℝ) (_ : IsProbabilityMeasure P) (t : Trial ℝ), t.Honest P ∧ t.sp = 2 ∧ t.sn = 1 ∧ t.truth = 5 := by
  refine ⟨devLaw 2 1, devLaw_prob (by norm_num) (by norm_num), ⟨fun x => 5 - x, 2, 1, 1, 5⟩, ⟨by fun_prop, ?_⟩, rfl, rfl, rfl⟩
  simp only [sub_sub_cancel, Measure.map_id', exp_ell _ _ _ (by norm_num : (0 : ℝ) < 2) (by norm_num : (0 : ℝ) < 1)]
  rfl

end Verif.Llh
