/-
Lemmas for C109: samples when only the rates change, and the Poisson log likelihood as a function of the rates.
-/
import Verif.Spec.Rates
import Verif.Lemmas.WholeChain

namespace Verif.Llh
open Verif Comp

section
variable {K : Type}

/-- The same events at another rate. -/
def Sample.withRate (s : Sample ℝ) (r : ℝ) : Sample ℝ := { s with rate := r }

theorem withRate_content (s : Sample ℝ) (r : ℝ) (b : Nat × Nat) : (s.withRate r).content b = s.content b := rfl

theorem withRate_norm (s : Sample ℝ) (r : ℝ) : (s.withRate r).norm = s.norm := rfl

theorem withRate_normalisable (s : Sample ℝ) (r : ℝ) : (s.withRate r).Normalisable ↔ s.Normalisable := Iff.rfl

theorem withRate_expected (s : Sample ℝ) (r : ℝ) (b : Nat × Nat) : (s.withRate r).expected b = r * s.template b := by
  unfold Sample.expected Sample.template
  rw [withRate_content, withRate_norm]
  exact mul_div_assoc _ _ _

theorem expectedIn_withRates (ss : List (Sample ℝ)) (rs : List ℝ) (b : Nat × Nat) :
    expectedIn (List.zipWith (fun r s => s.withRate r) rs ss) b = atRates ss rs b := by
  unfold expectedIn atRates
  rw [List.map_zipWith]
  congr 2
  funext r s
  exact withRate_expected s r b

theorem evaluates_congr {V : Type} {sem sem' : Plugin → K → List V → Res (K × List V)} (hs : ∀ p, sem p = sem' p)
    {needed : String → Prop} {val : String → V} {ps : List Plugin} {k k' : K} (h : Evaluates sem needed val ps k k') :
    Evaluates sem' needed val ps k k' := by
  have : sem = sem' := funext hs
  rw [← this]; exact h

/-- Only the rates of the samples change. -/
theorem draws_withRates (S : Setup K) (order : String → List Plugin) (batch : Int) (q q' : PyDict String ℝ)
    (hs : ∀ p, S.sem q p = S.sem q' p) (parts : List Part) {key k' : K} {ss : List (Sample ℝ)}
    (h : Draws S order batch q parts key ss k') (hr : ∀ p ∈ parts, p.name ++ "_rate" ∈ q'.keys) :
    Draws S order batch q' parts key (List.zipWith (fun r s => s.withRate r) (ratesOf parts q') ss) k' := by
  induction h with
  | nil => exact .nil _
  | @sim a ps k k1 ss k2 val cols eff rate h1 h2 h3 h4 _ _ ih =>
    obtain ⟨v, hv⟩ := (PyDict.mem_keys_iff_exists _ _).1 (hr (.sim a) (by simp))
    have hv' : q'.get? (a.comp ++ "_rate") = some v := hv
    have := ih (fun p hp => hr p (by simp [hp]))
    have e : ratesOf (.sim a :: ps) q' = v :: ratesOf ps q' := by
      simp [ratesOf, Part.name, hv']
    rw [e, List.zipWith_cons_cons]
    exact .sim h1 (evaluates_congr hs h2) h3 h4 hv' this
  | @fixed name data n ps k ss k1 rate _ _ ih =>
    obtain ⟨v, hv⟩ := (PyDict.mem_keys_iff_exists _ _).1 (hr (.fixed name data n) (by simp))
    have hv' : q'.get? (name ++ "_rate") = some v := hv
    have := ih (fun p hp => hr p (by simp [hp]))
    have e : ratesOf (.fixed name data n :: ps) q' = v :: ratesOf ps q' := by
      simp [ratesOf, Part.name, hv']
    rw [e, List.zipWith_cons_cons]
    exact .fixed hv' this

theorem draws_length {S : Setup K} {order : String → List Plugin} {batch : Int} {q : PyDict String ℝ} {parts : List Part}
    {key k' : K} {ss : List (Sample ℝ)} (h : Draws S order batch q parts key ss k') : ss.length = parts.length := by
  induction h with
  | nil => rfl
  | sim _ _ _ _ _ _ ih => simp [ih]
  | fixed _ _ ih => simp [ih]

theorem ratesOf_length (parts : List Part) (q : PyDict String ℝ) : (ratesOf parts q).length = parts.length := by
  simp [ratesOf]

end

/-! ### Linear in the rates -/

theorem atRates_mix (ss : List (Sample ℝ)) (t : ℝ) (rs rs' : List ℝ) (h : rs.length = ss.length) (h' : rs'.length = ss.length)
    (b : Nat × Nat) : atRates ss (mixRates t rs rs') b = t * atRates ss rs b + (1 - t) * atRates ss rs' b := by
  unfold atRates mixRates
  induction ss generalizing rs rs' with
  | nil => simp
  | cons s ss ih =>
    match rs, rs', h, h' with
    | r :: rs, r' :: rs', h, h' =>
      simp only [List.zipWith_cons_cons, List.sum_cons]
      rw [ih rs rs' (by simpa using h) (by simpa using h')]
      ring

theorem atRates_scale (ss : List (Sample ℝ)) (f : ℝ) (rs : List ℝ) (b : Nat × Nat) :
    atRates ss (rs.map (f * ·)) b = f * atRates ss rs b := by
  unfold atRates
  induction ss generalizing rs with
  | nil => simp
  | cons s ss ih =>
    match rs with
    | [] => simp
    | r :: rs =>
      simp only [List.map_cons, List.zipWith_cons_cons, List.sum_cons]
      rw [ih rs]
      ring

/-- The sum over the bins of a combination is the combination of the sums. -/
theorem sum_atRates (ss : List (Sample ℝ)) (rs : List ℝ) (bs : List (Nat × Nat)) (w : Nat × Nat → ℝ) :
    (bs.map (fun b => w b * atRates ss rs b)).sum =
      (List.zipWith (fun r s => r * (bs.map (fun b => w b * Sample.template s b)).sum) rs ss).sum := by
  unfold atRates
  induction ss generalizing rs with
  | nil => simp
  | cons s ss ih =>
    match rs with
    | [] => simp
    | r :: rs =>
      simp only [List.zipWith_cons_cons, List.sum_cons]
      rw [← ih rs, ← List.sum_map_mul_left, ← List.sum_map_add]
      congr 2
      funext b
      ring

/-! ### One bin -/

/-- The log likelihood of a bin lies below its tangents. -/
theorem bin_tangent (n : ℕ) (m m' : ℝ) (hm : 0 < m) (hm' : 0 < m') :
    n * Real.log m' - m' ≤ n * Real.log m - m + (n / m - 1) * (m' - m) := by
  have h1 : Real.log (m' / m) ≤ m' / m - 1 := Real.log_le_sub_one_of_pos (div_pos hm' hm)
  rw [Real.log_div hm'.ne' hm.ne'] at h1
  have h2 : (n : ℝ) * (Real.log m' - Real.log m) ≤ n * (m' / m - 1) := mul_le_mul_of_nonneg_left h1 (Nat.cast_nonneg n)
  have h3 : (n : ℝ) * (m' / m - 1) = n / m * (m' - m) := by field_simp
  rw [h3] at h2
  nlinarith

theorem bin_tangent_eq (n : ℕ) (hn : 0 < n) (m m' : ℝ) (hm : 0 < m) (hm' : 0 < m')
    (he : n * Real.log m' - m' = n * Real.log m - m + (n / m - 1) * (m' - m)) : m' = m := by
  by_contra hne
  have hx : m' / m ≠ 1 := fun h => hne ((div_eq_one_iff_eq hm.ne').1 h)
  have h1 : Real.log (m' / m) < m' / m - 1 := Real.log_lt_sub_one_of_pos (div_pos hm' hm) hx
  rw [Real.log_div hm'.ne' hm.ne'] at h1
  have h2 : (n : ℝ) * (Real.log m' - Real.log m) < n * (m' / m - 1) := mul_lt_mul_of_pos_left h1 (Nat.cast_pos.2 hn)
  have h3 : (n : ℝ) * (m' / m - 1) = n / m * (m' - m) := by field_simp
  rw [h3] at h2
  nlinarith

theorem bin_concave (n : ℕ) (t m m' : ℝ) (h0 : 0 ≤ t) (h1 : t ≤ 1) (hm : 0 < m) (hm' : 0 < m') :
    t * (n * Real.log m - m) + (1 - t) * (n * Real.log m' - m') ≤
      n * Real.log (t * m + (1 - t) * m') - (t * m + (1 - t) * m') := by
  have hp : 0 < t * m + (1 - t) * m' := by
    rcases h0.eq_or_lt with rfl | h0
    · simpa using hm'
    · have := mul_pos h0 hm
      have := mul_nonneg (sub_nonneg.2 h1) hm'.le
      linarith
  have a := bin_tangent n (t * m + (1 - t) * m') m hp hm
  have b := bin_tangent n (t * m + (1 - t) * m') m' hp hm'
  have a' := mul_le_mul_of_nonneg_left a h0
  have b' := mul_le_mul_of_nonneg_left b (sub_nonneg.2 h1)
  have e : t * ((n / (t * m + (1 - t) * m') - 1) * (m - (t * m + (1 - t) * m'))) +
      (1 - t) * ((n / (t * m + (1 - t) * m') - 1) * (m' - (t * m + (1 - t) * m'))) = 0 := by ring
  nlinarith

theorem bin_concave_eq (n : ℕ) (hn : 0 < n) (t m m' : ℝ) (h0 : 0 < t) (h1 : t < 1) (hm : 0 < m) (hm' : 0 < m')
    (he : t * (n * Real.log m - m) + (1 - t) * (n * Real.log m' - m') =
      n * Real.log (t * m + (1 - t) * m') - (t * m + (1 - t) * m')) : m = m' := by
  have hp : 0 < t * m + (1 - t) * m' := by
    have := mul_pos h0 hm
    have := mul_pos (sub_pos.2 h1) hm'
    linarith
  have a := bin_tangent n (t * m + (1 - t) * m') m hp hm
  have b := bin_tangent n (t * m + (1 - t) * m') m' hp hm'
  have e : t * ((n / (t * m + (1 - t) * m') - 1) * (m - (t * m + (1 - t) * m'))) +
      (1 - t) * ((n / (t * m + (1 - t) * m') - 1) * (m' - (t * m + (1 - t) * m'))) = 0 := by ring
  have b' := mul_le_mul_of_nonneg_left b (sub_pos.2 h1).le
  have ha : n * Real.log m - m = n * Real.log (t * m + (1 - t) * m') - (t * m + (1 - t) * m') +
      (n / (t * m + (1 - t) * m') - 1) * (m - (t * m + (1 - t) * m')) := by
    apply le_antisymm a
    by_contra hlt
    have := mul_lt_mul_of_pos_left (not_le.1 hlt) h0
    nlinarith
  have := bin_tangent_eq n hn _ m hp hm ha
  have h2 : (1 - t) * (m - m') = 0 := by linarith
  rcases mul_eq_zero.1 h2 with h | h
  · linarith
  · linarith

/-! ### All bins -/

theorem logL_concave (bins : Bins ℝ) (data : List (List (Option ℝ))) (ss : List (Sample ℝ)) (rs rs' : List ℝ)
    (hl : rs.length = ss.length) (hl' : rs'.length = ss.length) (t : ℝ) (h0 : 0 ≤ t) (h1 : t ≤ 1)
    (hp : ∀ b ∈ binList bins, 0 < atRates ss rs b) (hp' : ∀ b ∈ binList bins, 0 < atRates ss rs' b) :
    t * logLAtRates bins data ss rs + (1 - t) * logLAtRates bins data ss rs' ≤
      logLAtRates bins data ss (mixRates t rs rs') := by
  unfold logLAtRates
  rw [← List.sum_map_mul_left, ← List.sum_map_mul_left, ← List.sum_map_add]
  apply List.sum_le_sum
  intro b hb
  rw [atRates_mix ss t rs rs' hl hl']
  exact bin_concave _ t _ _ h0 h1 (hp b hb) (hp' b hb)

theorem sum_eq_of_le {α : Type} (l : List α) (f g : α → ℝ) (h : ∀ a ∈ l, f a ≤ g a)
    (he : (l.map f).sum = (l.map g).sum) : ∀ a ∈ l, f a = g a := by
  induction l with
  | nil => simp
  | cons x l ih =>
    simp only [List.map_cons, List.sum_cons] at he
    have a := h x (by simp)
    have b : (l.map f).sum ≤ (l.map g).sum := List.sum_le_sum (fun y hy => h y (by simp [hy]))
    intro y hy
    rcases List.mem_cons.1 hy with rfl | hy
    · linarith
    · exact ih (fun z hz => h z (by simp [hz])) (by linarith) y hy

theorem logL_concave_eq (bins : Bins ℝ) (data : List (List (Option ℝ))) (ss : List (Sample ℝ)) (rs rs' : List ℝ)
    (hl : rs.length = ss.length) (hl' : rs'.length = ss.length) (t : ℝ) (h0 : 0 < t) (h1 : t < 1)
    (hp : ∀ b ∈ binList bins, 0 < atRates ss rs b) (hp' : ∀ b ∈ binList bins, 0 < atRates ss rs' b)
    (he : t * logLAtRates bins data ss rs + (1 - t) * logLAtRates bins data ss rs' =
      logLAtRates bins data ss (mixRates t rs rs')) (b : Nat × Nat) (hb : b ∈ binList bins) (hc : 0 < countIn bins data b) :
    atRates ss rs b = atRates ss rs' b := by
  unfold logLAtRates at he
  rw [← List.sum_map_mul_left, ← List.sum_map_mul_left, ← List.sum_map_add] at he
  have := sum_eq_of_le _ _ _ (fun c hc => by
    rw [atRates_mix ss t rs rs' hl hl']
    exact bin_concave _ t _ _ h0.le h1.le (hp c hc) (hp' c hc)) he b hb
  rw [atRates_mix ss t rs rs' hl hl'] at this
  exact bin_concave_eq _ hc t _ _ h0 h1 (hp b hb) (hp' b hb) this

theorem zipWith_zero {α β : Type} (rs : List α) (ss : List β) (f : α → β → ℝ) (h : ∀ s ∈ ss, ∀ r, f r s = 0) :
    (List.zipWith f rs ss).sum = 0 := by
  induction ss generalizing rs with
  | nil => simp
  | cons s ss ih =>
    match rs with
    | [] => simp
    | r :: rs =>
      simp only [List.zipWith_cons_cons, List.sum_cons]
      rw [ih rs (fun s hs => h s (by simp [hs])), h s (by simp) r, add_zero]

theorem logL_balanced (bins : Bins ℝ) (data : List (List (Option ℝ))) (ss : List (Sample ℝ)) (rs rs' : List ℝ)
    (hp : ∀ b ∈ binList bins, 0 < atRates ss rs b) (hp' : ∀ b ∈ binList bins, 0 < atRates ss rs' b)
    (hb : Balanced bins data ss rs) : logLAtRates bins data ss rs' ≤ logLAtRates bins data ss rs := by
  have key : ∀ xs : List ℝ, ((binList bins).map (fun b => (countIn bins data b / atRates ss rs b - 1) * atRates ss xs b)).sum = 0 := by
    intro xs
    rw [sum_atRates ss xs (binList bins) (fun b => countIn bins data b / atRates ss rs b - 1)]
    apply zipWith_zero
    intro s hs r
    have := hb s hs
    have e : ((binList bins).map (fun b => (countIn bins data b / atRates ss rs b - 1) * s.template b)).sum = 0 := by
      have : (fun b => ((countIn bins data b : ℝ) / atRates ss rs b - 1) * s.template b) =
          fun b => (countIn bins data b : ℝ) / atRates ss rs b * s.template b + (-1) * s.template b := by
        funext b; ring
      rw [this, List.sum_map_add, List.sum_map_mul_left, hb s hs]
      ring
    rw [e, mul_zero]
  have hle : logLAtRates bins data ss rs' ≤ ((binList bins).map (fun b =>
      (countIn bins data b * Real.log (atRates ss rs b) - atRates ss rs b) +
      ((countIn bins data b / atRates ss rs b - 1) * atRates ss rs' b +
        (-1) * ((countIn bins data b / atRates ss rs b - 1) * atRates ss rs b)))).sum := by
    unfold logLAtRates
    apply List.sum_le_sum
    intro b hb
    have := bin_tangent (countIn bins data b) _ _ (hp b hb) (hp' b hb)
    linarith
  rw [List.sum_map_add, List.sum_map_add, List.sum_map_mul_left, key, key] at hle
  unfold logLAtRates at *
  linarith

theorem logL_scale (bins : Bins ℝ) (data : List (List (Option ℝ))) (ss : List (Sample ℝ)) (rs : List ℝ)
    (hp : ∀ b ∈ binList bins, 0 < atRates ss rs b) (ho : 0 < observed bins data) (f f0 : ℝ) (hf : 0 < f)
    (h0 : f0 * ((binList bins).map (atRates ss rs)).sum = observed bins data) :
    logLAtRates bins data ss (rs.map (f * ·)) ≤ logLAtRates bins data ss (rs.map (f0 * ·)) ∧
    (logLAtRates bins data ss (rs.map (f * ·)) = logLAtRates bins data ss (rs.map (f0 * ·)) ↔ f = f0) := by
  have e : ∀ u : ℝ, logLAtRates bins data ss (rs.map (u * ·)) =
      poissonValue ((binList bins).map (fun b => (countIn bins data b : ℝ)))
        (((binList bins).map (atRates ss rs)).map (u * ·)) := by
    intro u
    unfold logLAtRates poissonValue
    rw [List.map_map, List.zipWith_map, List.zipWith_self]
    simp only [Function.comp, atRates_scale]
  have hs : ∀ u : ℝ, (((binList bins).map (atRates ss rs)).map (u * ·)).sum = u * ((binList bins).map (atRates ss rs)).sum := by
    intro u; rw [List.sum_map_mul_left, List.map_id']
  have hpos : ((binList bins).map (atRates ss rs)).sum ≠ 0 := by
    intro hz
    rw [hz, mul_zero] at h0
    linarith
  obtain ⟨h1, h2⟩ := C38_fixed_shape_maximal_at_total ((binList bins).map (fun b => (countIn bins data b : ℝ)))
    ((binList bins).map (atRates ss rs)) (by simp) (by
      intro x hx
      obtain ⟨b, hb, rfl⟩ := List.mem_map.1 hx
      exact hp b hb) ho f f0 hf (by rw [hs]; exact h0)
  rw [e, e]
  refine ⟨h1, h2.trans ?_⟩
  rw [hs]
  constructor
  · intro h
    rw [← observed, ← h0] at h
    exact mul_right_cancel₀ hpos h
  · rintro rfl
    exact h0

/-! ### A fixed component with rate zero -/

section
variable {F : Type} [Field F] [LinearOrder F]

theorem fixedHist_zero (c : FixedComp F) (h : Grid F) (hok : fixedHist c 0 = .ok h) : ∀ r ∈ h, ∀ x ∈ r, x = 0 := by
  unfold fixedHist at hok
  simp only [bind, Except.bind, pure, Except.pure] at hok
  cases hn : normalization c.cfg c.hist 0 (c.eff.length : F) with
  | error e => rw [hn] at hok; cases hok
  | ok f =>
    have hf : f = 0 := by
      unfold normalization at hn
      split at hn
      · cases hn; simp
      · split at hn
        · simp only [bind, Except.bind, pure, Except.pure] at hn
          split at hn
          · cases hn
          · split at hn <;> cases hn <;> simp
        · cases hn
    rw [hn] at hok
    cases hok
    subst hf
    intro r hr x hx
    unfold scaleHist at hr
    obtain ⟨r0, _, rfl⟩ := List.mem_map.1 hr
    obtain ⟨x0, _, rfl⟩ := List.mem_map.1 hx
    exact mul_zero _

theorem addGrid_shape {a b c : Grid F} (h : addGrid a b = .ok c) : c.map List.length = a.map List.length := by
  unfold addGrid at h
  split at h
  · rename_i hs
    cases h
    induction a generalizing b with
    | nil => simp
    | cons r a ih =>
      match b, hs with
      | s :: b, hs =>
        simp only [List.map_cons, List.cons.injEq] at hs
        simp only [List.zipWith_cons_cons, List.map_cons, List.length_zipWith, ih hs.2, hs.1, Nat.min_self]
  · cases h

theorem addRow_zero (r s : List F) (h : r.length = s.length) (hz : ∀ x ∈ s, x = 0) : List.zipWith (· + ·) r s = r := by
  induction r generalizing s with
  | nil => simp
  | cons x r ih =>
    match s, h with
    | y :: s, h =>
      simp only [List.zipWith_cons_cons]
      rw [ih s (by simpa using h) (fun x hx => hz x (by simp [hx])), hz y (by simp), add_zero]

theorem addGrid_zero (a b : Grid F) (h : a.map List.length = b.map List.length) (hz : ∀ r ∈ b, ∀ x ∈ r, x = 0) :
    addGrid a b = .ok a := by
  unfold addGrid
  rw [if_pos h]
  congr 1
  clear * - h hz
  induction a generalizing b with
  | nil => simp
  | cons r a ih =>
    match b, h with
    | s :: b, h =>
      simp only [List.map_cons, List.cons.injEq] at h
      simp only [List.zipWith_cons_cons]
      rw [ih b h.2 (fun r hr => hz r (by simp [hr])), addRow_zero r s h.1 (hz s (by simp))]

end
end Verif.Llh
