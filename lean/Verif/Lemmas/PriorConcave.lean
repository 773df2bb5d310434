/-
Lemmas for C138: the log prior along a straight line.
-/
import Verif.Spec.Peak
import Verif.Props.Parameter
import Verif.Lemmas.Rates

namespace Verif.Parameter
open Verif

/-! ### Parabolas -/

theorem square_mix (t a b : ℝ) (h0 : 0 ≤ t) (h1 : t ≤ 1) : (t * a + (1 - t) * b) ^ 2 ≤ t * a ^ 2 + (1 - t) * b ^ 2 := by
  nlinarith [mul_nonneg (mul_nonneg h0 (sub_nonneg.2 h1)) (sq_nonneg (a - b))]

theorem square_mix_eq (t a b : ℝ) (h0 : 0 < t) (h1 : t < 1) (h : t * a ^ 2 + (1 - t) * b ^ 2 ≤ (t * a + (1 - t) * b) ^ 2) : a = b := by
  have e : t * (1 - t) * (a - b) ^ 2 ≤ 0 := by nlinarith
  have p : 0 < t * (1 - t) := mul_pos h0 (sub_pos.2 h1)
  have : (a - b) ^ 2 ≤ 0 := by
    by_contra hc
    push Not at hc
    nlinarith [mul_pos p hc]
  have : a - b = 0 := by nlinarith [sq_nonneg (a - b)]
  linarith

theorem pos_mix (t a b : ℝ) (h0 : 0 ≤ t) (h1 : t ≤ 1) : max (t * a + (1 - t) * b) 0 ≤ t * max a 0 + (1 - t) * max b 0 := by
  have s := sub_nonneg.2 h1
  refine max_le ?_ ?_
  · exact add_le_add (mul_le_mul_of_nonneg_left (le_max_left _ _) h0) (mul_le_mul_of_nonneg_left (le_max_left _ _) s)
  · exact add_nonneg (mul_nonneg h0 (le_max_right _ _)) (mul_nonneg s (le_max_right _ _))

theorem pos_square_mix (t a b : ℝ) (h0 : 0 ≤ t) (h1 : t ≤ 1) :
    (max (t * a + (1 - t) * b) 0) ^ 2 ≤ t * (max a 0) ^ 2 + (1 - t) * (max b 0) ^ 2 :=
  (pow_le_pow_left₀ (le_max_right _ _) (pos_mix t a b h0 h1) 2).trans (square_mix t _ _ h0 h1)

theorem pos_square_mix_eq (t a b : ℝ) (h0 : 0 < t) (h1 : t < 1)
    (h : t * (max a 0) ^ 2 + (1 - t) * (max b 0) ^ 2 ≤ (max (t * a + (1 - t) * b) 0) ^ 2) : max a 0 = max b 0 :=
  square_mix_eq t _ _ h0 h1 (h.trans (pow_le_pow_left₀ (le_max_right _ _) (pos_mix t a b h0.le h1.le) 2))

/-- The exponent of the two halves as a sum of squares of the parts on both sides of the middle. -/
theorem halves (mu a b x : ℝ) :
    (x - mu) ^ 2 / (2 * (if x < mu then b else a) ^ 2) = (max (x - mu) 0) ^ 2 * (1 / (2 * a ^ 2)) + (max (mu - x) 0) ^ 2 * (1 / (2 * b ^ 2)) := by
  split
  · rename_i h
    rw [max_eq_right (by linarith : x - mu ≤ 0), max_eq_left (by linarith : 0 ≤ mu - x)]
    ring
  · rename_i h
    rw [max_eq_left (by linarith : 0 ≤ x - mu), max_eq_right (by linarith : mu - x ≤ 0)]
    ring

/-! ### The log density of a prior -/

theorem density_concave (sig : Solver) (p : Prior) (t x y : ℝ) (h0 : 0 ≤ t) (h1 : t ≤ 1) :
    t * priorLogDensity sig p x + (1 - t) * priorLogDensity sig p y ≤ priorLogDensity sig p (t * x + (1 - t) * y) := by
  cases p with
  | norm m std =>
    simp only [priorLogDensity]
    have e := square_mix t (x - m) (y - m) h0 h1
    have r : t * (x - m) + (1 - t) * (y - m) = t * x + (1 - t) * y - m := by ring
    rw [r] at e
    have p : 0 ≤ 1 / (2 * std ^ 2) := by positivity
    have := mul_le_mul_of_nonneg_right e p
    have r' : ∀ z : ℝ, -(z - m) ^ 2 / (2 * std ^ 2) = -((z - m) ^ 2 * (1 / (2 * std ^ 2))) := fun z => by ring
    rw [r', r', r']
    linarith
  | twohalfnorm mu sp sn =>
    simp only [priorLogDensity]
    cases hs : sig (sp, sn) with
    | none => simp
    | some ab =>
      obtain ⟨a, b⟩ := ab
      simp only [halves]
      have e1 := mul_le_mul_of_nonneg_right (pos_square_mix t (x - mu) (y - mu) h0 h1) (by positivity : 0 ≤ 1 / (2 * a ^ 2))
      have e2 := mul_le_mul_of_nonneg_right (pos_square_mix t (mu - x) (mu - y) h0 h1) (by positivity : 0 ≤ 1 / (2 * b ^ 2))
      rw [show t * (x - mu) + (1 - t) * (y - mu) = t * x + (1 - t) * y - mu by ring] at e1
      rw [show t * (mu - x) + (1 - t) * (mu - y) = mu - (t * x + (1 - t) * y) by ring] at e2
      nlinarith
  | _ => simp [priorLogDensity]

theorem density_concave_eq (sig : Solver) (s : Setting) (hok : EvalOK sig s) (hc : Llh.Curved s.prior) (t x y : ℝ) (h0 : 0 < t) (h1 : t < 1)
    (h : priorLogDensity sig s.prior (t * x + (1 - t) * y) ≤ t * priorLogDensity sig s.prior x + (1 - t) * priorLogDensity sig s.prior y) :
    x = y := by
  cases hp : s.prior with
  | norm m std =>
    rw [hp] at h
    simp only [priorLogDensity] at h
    have hstd := hok.2.1 m std hp
    have p : 0 < 1 / (2 * std ^ 2) := by positivity
    have r' : ∀ z : ℝ, -(z - m) ^ 2 / (2 * std ^ 2) = -((z - m) ^ 2 * (1 / (2 * std ^ 2))) := fun z => by ring
    rw [r', r', r'] at h
    have : t * (x - m) ^ 2 + (1 - t) * (y - m) ^ 2 ≤ (t * (x - m) + (1 - t) * (y - m)) ^ 2 := by
      rw [show t * (x - m) + (1 - t) * (y - m) = t * x + (1 - t) * y - m by ring]
      refine le_of_mul_le_mul_right ?_ p
      linarith
    have := square_mix_eq t _ _ h0 h1 this
    linarith
  | twohalfnorm mu sp sn =>
    obtain ⟨a, b, hs, ha, hb⟩ := hok.2.2 mu sp sn hp
    rw [hp] at h
    simp only [priorLogDensity, hs, halves] at h
    have pa : 0 < 1 / (2 * a ^ 2) := by positivity
    have pb : 0 < 1 / (2 * b ^ 2) := by positivity
    have e1 := pos_square_mix t (x - mu) (y - mu) h0.le h1.le
    have e2 := pos_square_mix t (mu - x) (mu - y) h0.le h1.le
    have f1 := pos_square_mix_eq t (x - mu) (y - mu) h0 h1
    have f2 := pos_square_mix_eq t (mu - x) (mu - y) h0 h1
    rw [show t * (x - mu) + (1 - t) * (y - mu) = t * x + (1 - t) * y - mu by ring] at e1 f1
    rw [show t * (mu - x) + (1 - t) * (mu - y) = mu - (t * x + (1 - t) * y) by ring] at e2 f2
    have m1 := mul_le_mul_of_nonneg_right e1 pa.le
    have m2 := mul_le_mul_of_nonneg_right e2 pb.le
    have g1 := f1 (le_of_mul_le_mul_right (by linarith) pa)
    have g2 := f2 (le_of_mul_le_mul_right (by linarith) pb)
    rcases le_total x mu with hx | hx
    · rw [max_eq_left (by linarith : 0 ≤ mu - x)] at g2
      rw [max_eq_right (by linarith : x - mu ≤ 0)] at g1
      have : y ≤ mu := by
        by_contra hc
        push Not at hc
        rw [max_eq_left (by linarith)] at g1
        linarith
      rw [max_eq_left (by linarith)] at g2
      linarith
    · rw [max_eq_left (by linarith : 0 ≤ x - mu)] at g1
      rw [max_eq_right (by linarith : mu - x ≤ 0)] at g2
      have : mu ≤ y := by
        by_contra hc
        push Not at hc
        rw [max_eq_left (by linarith)] at g2
        linarith
      rw [max_eq_left (by linarith)] at g1
      linarith
  | uniform => rw [hp] at hc; exact hc.elim
  | free => rw [hp] at hc; exact hc.elim
  | fixed => rw [hp] at hc; exact hc.elim
  | other => rw [hp] at hc; exact hc.elim

/-! ### One term of the log prior -/

/-- A finite term says that the value is inside and that the prior can be evaluated. -/
theorem logPriorTerm_finite {sig : Solver} {s : Setting} {x v : ℝ} (h : logPriorTerm sig s (.fin x) = .ok (.fin v)) :
    ∃ lo hi, s.allowed = some (lo, hi) ∧ lo ≤ x ∧ x ≤ hi ∧ EvalOK sig s ∧ v = priorLogDensity sig s.prior x := by
  cases ha : s.allowed with
  | none => simp [logPriorTerm, ha] at h
  | some r =>
    obtain ⟨lo, hi⟩ := r
    by_cases hin : XF.fin x < .fin lo ∨ XF.fin hi < .fin x
    · simp only [logPriorTerm, ha, hin, if_true] at h
      cases h
    · have hb : lo ≤ x ∧ x ≤ hi := by
        simpa only [XF.fin_lt_fin, not_or, not_lt] using hin
      have hok : EvalOK sig s := by
        refine ⟨⟨_, ha⟩, ?_, ?_⟩
        · intro m std hp h0
          subst h0
          simp only [logPriorTerm, ha, hin, if_false, hp, XF.fin_sub_fin, XF.fin_mul_fin, XF.neg_fin] at h
          rw [XF.fin_div_fin_of_ne _ (by norm_num)] at h
          simp only [Except.ok.injEq] at h
          have : XF.fin (-((x - m) * (x - m)) / 2) / .fin ((0 : ℝ) ^ 2) = XF.infSign (-((x - m) * (x - m)) / 2) := by simp
          rw [this] at h
          unfold XF.infSign at h
          split_ifs at h
        · intro mu sp sn hp
          simp only [logPriorTerm, ha, hin, if_false, hp] at h
          cases hs : sig (sp, sn) with
          | none => simp [hs] at h
          | some ab =>
            obtain ⟨a, b⟩ := ab
            simp only [hs, thnLogpdf] at h
            by_cases hpos : 0 < a ∧ 0 < b
            · exact ⟨a, b, rfl, hpos⟩
            · simp [hpos] at h
      refine ⟨lo, hi, rfl, hb.1, hb.2, hok, ?_⟩
      rw [logPriorTerm_inside sig s x lo hi ha hok hb.1 hb.2] at h
      simpa using h.symm

theorem logPriorTerm_concave {sig : Solver} {s : Setting} {x y v w : ℝ} (hx : logPriorTerm sig s (.fin x) = .ok (.fin v))
    (hy : logPriorTerm sig s (.fin y) = .ok (.fin w)) (t : ℝ) (h0 : 0 ≤ t) (h1 : t ≤ 1) :
    ∃ u, logPriorTerm sig s (.fin (t * x + (1 - t) * y)) = .ok (.fin u) ∧ t * v + (1 - t) * w ≤ u ∧
      (u = t * v + (1 - t) * w → 0 < t → t < 1 → Llh.Curved s.prior → x = y) := by
  obtain ⟨lo, hi, ha, a1, a2, hok, rfl⟩ := logPriorTerm_finite hx
  obtain ⟨lo', hi', ha', b1, b2, _, rfl⟩ := logPriorTerm_finite hy
  rw [ha] at ha'
  cases ha'
  have s := sub_nonneg.2 h1
  refine ⟨_, logPriorTerm_inside sig _ _ lo hi ha hok ?_ ?_, density_concave sig _ t x y h0 h1, ?_⟩
  · nlinarith [mul_le_mul_of_nonneg_left a1 h0, mul_le_mul_of_nonneg_left b1 s]
  · nlinarith [mul_le_mul_of_nonneg_left a2 h0, mul_le_mul_of_nonneg_left b2 s]
  · intro he p1 p2 hc
    exact density_concave_eq sig _ hok hc t x y p1 p2 he.le

/-! ### All terms -/

theorem sum_eq_fin {l : List XF} {v : ℝ} (h : XF.sum l = .fin v) : ∃ vs : List ℝ, l = vs.map XF.fin ∧ v = vs.sum := by
  induction l generalizing v with
  | nil => exact ⟨[], rfl, by simpa using h.symm⟩
  | cons x l ih =>
    rw [XF.sum_cons] at h
    cases x with
    | fin r =>
      cases hs : XF.sum l with
      | fin w =>
        obtain ⟨ws, rfl, rfl⟩ := ih hs
        rw [hs] at h
        exact ⟨r :: ws, rfl, by simpa using h.symm⟩
      | nan => rw [hs] at h; simp at h
      | pinf => rw [hs] at h; simp at h
      | ninf => rw [hs] at h; simp at h
    | nan => simp at h
    | pinf => cases hs : XF.sum l <;> rw [hs] at h <;> simp at h
    | ninf => cases hs : XF.sum l <;> rw [hs] at h <;> simp at h

theorem partner {α β : Type} {R : α → β → Prop} {l : List α} {l' : List β} (h : List.Forall₂ R l l') :
    ∀ a ∈ l, ∃ b ∈ l', R a b := by
  induction h with
  | nil => simp
  | cons hd _ ih =>
    intro a ha
    rcases List.mem_cons.1 ha with rfl | ha
    · exact ⟨_, by simp, hd⟩
    · obtain ⟨b, hb, e⟩ := ih a ha
      exact ⟨b, by simp [hb], e⟩

/-- The term of one fitted name. -/
noncomputable def termOf (sig : Solver) (pm : PM) (n : String) : Res XF := do
  let v ← pm.vals.getItem n
  let s ← pm.config.getItem n
  logPriorTerm sig s v

theorem logPriorOver_finite {sig : Solver} {pm : PM} {ord : List String} {lp : ℝ} (h : logPriorOver sig pm ord = .ok (.fin lp)) :
    ∃ g : String → ℝ, (∀ n ∈ ord, termOf sig pm n = .ok (.fin (g n))) ∧ lp = (ord.map g).sum := by
  have h' : (do let terms ← ord.mapM (termOf sig pm); return XF.sum terms : Res XF) = .ok (.fin lp) := h
  simp only [bind, Except.bind, pure, Except.pure] at h'
  split at h'
  · cases h'
  · rename_i l hl
    obtain ⟨vs, rfl, rfl⟩ := sum_eq_fin (Except.ok.inj h')
    have hex : ∀ n ∈ ord, ∃ v, termOf sig pm n = .ok (.fin v) := by
      intro n hn
      obtain ⟨b, hb, e⟩ := partner ((mapM_ok_iff _ _ _).1 hl) n hn
      obtain ⟨v, _, rfl⟩ := List.mem_map.1 hb
      exact ⟨v, e⟩
    choose! g hg using hex
    refine ⟨g, hg, ?_⟩
    rw [mapM_ok_of_forall _ (fun n => XF.fin (g n)) ord hg, Except.ok.injEq] at hl
    have : XF.sum (vs.map XF.fin) = XF.sum ((ord.map g).map XF.fin) := by rw [← hl, List.map_map]; rfl
    rw [XF.sum_map_fin, XF.sum_map_fin] at this
    exact XF.fin.inj this

theorem logPriorOver_of_terms {sig : Solver} {pm : PM} {ord : List String} (g : String → ℝ)
    (h : ∀ n ∈ ord, termOf sig pm n = .ok (.fin (g n))) : logPriorOver sig pm ord = .ok (.fin (ord.map g).sum) := by
  have : logPriorOver sig pm ord = (do let terms ← ord.mapM (termOf sig pm); return XF.sum terms : Res XF) := rfl
  rw [this, mapM_ok_of_forall _ (fun n => XF.fin (g n)) ord h]
  simp only [bind, Except.bind, pure, Except.pure]
  rw [show ord.map (fun n => XF.fin (g n)) = (ord.map g).map XF.fin by rw [List.map_map]; rfl, XF.sum_map_fin]

theorem termOf_fin {sig : Solver} {pm : PM} {n : String} {q : PyDict String ℝ} (hq : pm.vals = Llh.floats q) {v : ℝ}
    (h : termOf sig pm n = .ok (.fin v)) :
    ∃ x s, q.get? n = some x ∧ pm.config.get? n = some s ∧ logPriorTerm sig s (.fin x) = .ok (.fin v) := by
  unfold termOf at h
  rw [hq] at h
  simp only [bind, Except.bind, PyDict.getItem, Llh.floats_get?] at h
  cases hx : q.get? n with
  | none => rw [hx] at h; cases h
  | some x =>
    cases hs : pm.config.get? n with
    | none => rw [hx, hs] at h; cases h
    | some s => rw [hx, hs] at h; exact ⟨x, s, rfl, rfl, h⟩

theorem termOf_of {sig : Solver} {pm : PM} {n : String} {q : PyDict String ℝ} (hq : pm.vals = Llh.floats q) {v x : ℝ} {s : Setting}
    (hx : q.get? n = some x) (hs : pm.config.get? n = some s) (h : logPriorTerm sig s (.fin x) = .ok (.fin v)) :
    termOf sig pm n = .ok (.fin v) := by
  unfold termOf
  rw [hq]
  simp only [bind, Except.bind, PyDict.getItem, Llh.floats_get?, hx, hs]
  exact h

/-- The log prior along a straight line. -/
theorem logPriorOver_concave {sig : Solver} {pm1 pm2 pm : PM} {ord : List String} {q1 q2 q : PyDict String ℝ} {lp1 lp2 t : ℝ}
    (hc2 : pm2.config = pm1.config) (hc : pm.config = pm1.config)
    (h1 : pm1.vals = Llh.floats q1) (h2 : pm2.vals = Llh.floats q2) (h : pm.vals = Llh.floats q) (hb : Llh.Between t q1 q2 q)
    (ht0 : 0 ≤ t) (ht1 : t ≤ 1) (e1 : logPriorOver sig pm1 ord = .ok (.fin lp1)) (e2 : logPriorOver sig pm2 ord = .ok (.fin lp2)) :
    ∃ lp, logPriorOver sig pm ord = .ok (.fin lp) ∧ t * lp1 + (1 - t) * lp2 ≤ lp ∧
      (lp = t * lp1 + (1 - t) * lp2 → 0 < t → t < 1 → ∀ n ∈ ord, ∀ s, pm1.config.get? n = some s → Llh.Curved s.prior →
        q1.get? n = q2.get? n) := by
  obtain ⟨g1, a1, rfl⟩ := logPriorOver_finite e1
  obtain ⟨g2, a2, rfl⟩ := logPriorOver_finite e2
  have hex : ∀ n ∈ ord, ∃ u, termOf sig pm n = .ok (.fin u) ∧ t * g1 n + (1 - t) * g2 n ≤ u ∧
      (u = t * g1 n + (1 - t) * g2 n → 0 < t → t < 1 → ∀ s, pm1.config.get? n = some s → Llh.Curved s.prior → q1.get? n = q2.get? n) := by
    intro n hn
    obtain ⟨x, s, hx, hs, ex⟩ := termOf_fin h1 (a1 n hn)
    obtain ⟨y, s', hy, hs', ey⟩ := termOf_fin h2 (a2 n hn)
    rw [hc2, hs] at hs'
    cases hs'
    obtain ⟨u, b1, b2, b3⟩ := logPriorTerm_concave ex ey t ht0 ht1
    refine ⟨u, termOf_of h (hb.value n x y hx hy) (by rw [hc]; exact hs) b1, b2, ?_⟩
    intro he p0 p1 s' hs' hcv
    rw [hs] at hs'
    cases hs'
    rw [hx, hy, b3 he p0 p1 hcv]
  choose! g b1 b2 b3 using hex
  have hsum : t * (ord.map g1).sum + (1 - t) * (ord.map g2).sum = (ord.map (fun n => t * g1 n + (1 - t) * g2 n)).sum := by
    rw [← List.sum_map_mul_left, ← List.sum_map_mul_left, ← List.sum_map_add]
  refine ⟨_, logPriorOver_of_terms g b1, ?_, ?_⟩
  · rw [hsum]
    exact List.sum_le_sum b2
  · intro he p0 p1 n hn
    rw [hsum] at he
    exact b3 n hn (Llh.sum_eq_of_le ord _ g b2 he.symm n hn).symm p0 p1

end Verif.Parameter
