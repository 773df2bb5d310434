/-
The log posterior cannot exceed a number that depends on the data and the priors only.
-/
import Verif.Spec.Proper
import Verif.Props.Likelihood
import Verif.Props.Context
import Verif.Lemmas.PriorConcave
import Verif.Lemmas.Interp

namespace Verif.Ctx
open Verif Parameter

theorem AtMost.mono {M N : ℝ} (h : M ≤ N) {a : XF} (ha : AtMost M a) : AtMost N a := by
  cases a with
  | fin x => exact le_trans ha h
  | _ => exact ha

theorem AtMost.add {M N : ℝ} {a b : XF} (ha : AtMost M a) (hb : AtMost N b) : AtMost (M + N) (a + b) := by
  cases a <;> cases b <;> first | exact ha.elim | exact hb.elim | trivial | exact add_le_add ha hb

theorem AtMost.frac {M : ℝ} (hM : 0 ≤ M) {a b : XF} (ha : AtMost M a) (hb : Fraction b) : AtMost M (a * b) := by
  rcases hb with rfl | ⟨e, h0, h1, rfl⟩
  · simp [AtMost]
  · cases a with
    | nan => simp [AtMost]
    | pinf => exact ha.elim
    | ninf =>
      rw [XF.ninf_mul_fin]
      unfold XF.infSign
      rw [if_neg (by linarith)]
      split <;> trivial
    | fin x =>
      have hx : x ≤ M := ha
      show x * e ≤ M
      nlinarith

theorem AtMost.div {M : ℝ} {a : XF} (ha : AtMost M a) {n : ℝ} (hn : 0 < n) : AtMost (M / n) (a / .fin n) := by
  cases a with
  | nan => simp [AtMost]
  | pinf => exact ha.elim
  | ninf =>
    rw [XF.ninf_div_fin, if_neg hn.ne']
    unfold XF.infSign
    rw [if_neg (by linarith), if_pos (by linarith)]
    trivial
  | fin x =>
    rw [XF.fin_div_fin_of_ne _ hn.ne']
    exact div_le_div_of_nonneg_right ha hn.le

theorem sum_atMost {M : ℝ} (l : List XF) (h : ∀ a ∈ l, AtMost M a) : AtMost (l.length * M) (XF.sum l) := by
  induction l with
  | nil => simp [AtMost]
  | cons a l ih =>
    rw [XF.sum_cons]
    refine ((h a (by simp)).add (ih fun b hb => h b (by simp [hb]))).mono (le_of_eq ?_)
    push_cast [List.length_cons]
    ring

theorem le_abs_sum (l : List ℝ) (f : ℝ → ℝ) {d : ℝ} (h : d ∈ l) : f d ≤ (l.map fun x => |f x|).sum :=
  le_trans (le_abs_self _) (List.single_le_sum (by simp) _ (List.mem_map.2 ⟨d, h, rfl⟩))

theorem abs_sum_nonneg {α : Type} (l : List α) (f : α → ℝ) : 0 ≤ (l.map fun x => |f x|).sum := List.sum_nonneg (by simp)

/-! ### Binned likelihoods -/

/-- A number no log likelihood of the data exceeds. -/
noncomputable def dataTop (data : Llh.Grid ℝ) : ℝ :=
  data.flatten.length * (data.flatten.map fun d => |d * Real.log d - d|).sum

theorem dataTop_nonneg (data : Llh.Grid ℝ) : 0 ≤ dataTop data := mul_nonneg (Nat.cast_nonneg _) (abs_sum_nonneg _ _)

theorem llhOf_atMost {data : Llh.Grid ℝ} (hd : ∀ d ∈ data.flatten, 0 ≤ d) {h : Llh.Grid XF} {v : XF} (e : Llh.llhOf data h = .ok v) :
    AtMost (dataTop data) v := by
  unfold Llh.llhOf at e
  split at e
  · cases e; trivial
  rename_i hp
  split at e
  · cases e; trivial
  rename_i hf
  split at e
  · cases e
  cases e
  have hpos : ∀ m ∈ h.flatten, ∃ r : ℝ, 0 < r ∧ m = .fin r := by
    intro m hm
    have h1 : ¬ m ≤ .fin 0 := by
      intro hle
      refine hp ?_
      unfold Llh.anyNonPositive
      rw [List.any_eq_true]
      exact ⟨m, hm, by simpa using hle⟩
    have h2 : m.isFinite := by
      by_contra hn
      refine hf ?_
      unfold Llh.anyNotFinite
      rw [List.any_eq_true]
      exact ⟨m, hm, by simpa using hn⟩
    obtain ⟨r, rfl⟩ := (XF.isFinite_iff m).1 h2
    exact ⟨r, by simpa using h1, rfl⟩
  unfold Llh.poisson
  refine (sum_atMost (M := (data.flatten.map fun d => |d * Real.log d - d|).sum) _ ?_).mono ?_
  · intro a ha
    obtain ⟨d, hd', m, hm, rfl⟩ := Llh.mem_zipWith _ _ _ _ ha
    obtain ⟨r, hr, rfl⟩ := hpos m hm
    rw [XF.log_fin_pos hr]
    show d * Real.log r + -r ≤ _
    have h1 := (Llh.poisson_term_le d r (hd d hd') hr).1
    have h2 := le_abs_sum data.flatten (fun d => d * Real.log d - d) hd'
    linarith
  · unfold dataTop
    refine mul_le_mul_of_nonneg_right ?_ (abs_sum_nonneg _ _)
    rw [List.length_zipWith]
    exact_mod_cast min_le_left _ _

/-! ### Literature likelihoods -/

/-- The logarithm of the top of a two-half-normal density with the given sum of widths. -/
noncomputable def top (w : ℝ) : ℝ := Real.log (2 / w / √(2 * Real.pi))

theorem twoHalf_atMost (x : XF) (mu sp sn m : ℝ) (hsp : 0 < sp) (hsn : 0 < sn) (hm : 0 < m) (hle : m ≤ sp + sn) :
    AtMost (top m) (Llh.twoHalfLogpdf x (.fin mu) (.fin sp) (.fin sn)) := by
  have h2pi : (0 : ℝ) < √(2 * Real.pi) := Real.sqrt_pos.2 (by positivity)
  have hnp := Llh.twoHalf_not_pinf x mu sp sn hsp hsn
  cases x with
  | fin x =>
    rw [Llh.C39_two_half_logpdf x mu sp sn hsp hsn]
    show Real.log _ ≤ Real.log _
    unfold Llh.twoHalfDensity
    refine Real.log_le_log (by positivity) ?_
    calc 2 / ((sp + sn) * √(2 * Real.pi)) * Real.exp (-((x - mu) / (if x < mu then sn else sp)) ^ 2 / 2)
        ≤ 2 / ((sp + sn) * √(2 * Real.pi)) * 1 := by
          refine mul_le_mul_of_nonneg_left ?_ (by positivity)
          rw [Real.exp_le_one_iff]
          have := sq_nonneg ((x - mu) / (if x < mu then sn else sp))
          linarith
      _ ≤ 2 / (m * √(2 * Real.pi)) := by
          rw [mul_one]
          exact div_le_div_of_nonneg_left (by norm_num) (by positivity) (mul_le_mul_of_nonneg_right hle h2pi.le)
      _ = 2 / m / √(2 * Real.pi) := by rw [div_div]
  | nan => simp [Llh.twoHalfLogpdf, AtMost]
  | pinf =>
    have i2 : XF.ninf / XF.fin 2 = .ninf := by
      rw [XF.ninf_div_fin, if_neg two_ne_zero]; unfold XF.infSign; rw [if_neg (by norm_num), if_pos (by norm_num)]
    have ip : XF.ninf / XF.fin (sp * sp) = .ninf := by
      have : (0 : ℝ) < sp * sp := by positivity
      rw [XF.ninf_div_fin, if_neg this.ne']; unfold XF.infSign; rw [if_neg (by linarith), if_pos (by linarith)]
    have m1 : XF.pinf * XF.pinf = XF.pinf := rfl
    unfold Llh.twoHalfLogpdf at hnp ⊢
    simp only [XF.not_pinf_lt_fin, if_false, XF.neg_fin, XF.pinf_add_fin, m1, XF.neg_pinf, XF.fin_mul_fin, ip, i2] at hnp ⊢
    generalize XF.log _ = w at *
    cases w <;> trivial
  | ninf =>
    have i2 : XF.ninf / XF.fin 2 = .ninf := by
      rw [XF.ninf_div_fin, if_neg two_ne_zero]; unfold XF.infSign; rw [if_neg (by norm_num), if_pos (by norm_num)]
    have ip : XF.ninf / XF.fin (sn * sn) = .ninf := by
      have : (0 : ℝ) < sn * sn := by positivity
      rw [XF.ninf_div_fin, if_neg this.ne']; unfold XF.infSign; rw [if_neg (by linarith), if_pos (by linarith)]
    have m1 : XF.ninf * XF.ninf = XF.pinf := rfl
    unfold Llh.twoHalfLogpdf at hnp ⊢
    simp only [XF.ninf_lt_fin, if_true, XF.neg_fin, XF.ninf_add_fin, m1, XF.neg_pinf, XF.fin_mul_fin, ip, i2] at hnp ⊢
    generalize XF.log _ = w at *
    cases w <;> trivial

/-- The logarithm of the top of a normal density. -/
noncomputable def normTop (s : ℝ) : ℝ := -Real.log (√(2 * Real.pi)) - Real.log s

theorem norm_atMost (x : XF) (loc scale : ℝ) : AtMost (normTop scale) (Llh.normLogpdf x loc scale) := by
  have hnp := Llh.norm_not_pinf x loc scale
  unfold Llh.normLogpdf at hnp ⊢
  split
  · rename_i h
    rw [if_pos h] at hnp
    have i2 : XF.ninf / XF.fin 2 = .ninf := by
      rw [XF.ninf_div_fin, if_neg two_ne_zero]; unfold XF.infSign; rw [if_neg (by norm_num), if_pos (by norm_num)]
    have m1 : XF.pinf * XF.pinf = XF.pinf := rfl
    have m2 : XF.ninf * XF.ninf = XF.pinf := rfl
    cases x with
    | nan => simp [AtMost]
    | pinf =>
      have ip : XF.pinf / XF.fin scale = .pinf := by
        rw [XF.pinf_div_fin, if_neg h.ne']; unfold XF.infSign; rw [if_pos h]
      simp [ip, m1, i2, AtMost]
    | ninf =>
      have ip : XF.ninf / XF.fin scale = .ninf := by
        rw [XF.ninf_div_fin, if_neg h.ne']; unfold XF.infSign; rw [if_neg (by linarith), if_pos (by linarith)]
      simp [ip, m2, i2, AtMost]
    | fin x =>
      simp only [XF.neg_fin, XF.fin_add_fin, XF.fin_mul_fin, XF.fin_div_fin_of_ne _ h.ne', XF.fin_div_fin_of_ne _ (two_ne_zero)]
      show _ ≤ normTop scale
      unfold normTop
      have := mul_self_nonneg ((x + -loc) / scale)
      linarith
  · trivial

theorem list_min_pos (l : List ℝ) (h : ∀ s ∈ l, 0 < s) : ∃ m : ℝ, 0 < m ∧ ∀ s ∈ l, m ≤ s := by
  induction l with
  | nil => exact ⟨1, one_pos, by simp⟩
  | cons a l ih =>
    obtain ⟨m, hm, hle⟩ := ih fun s hs => h s (by simp [hs])
    refine ⟨min a m, lt_min (h a (by simp)) hm, ?_⟩
    intro s hs
    rcases List.mem_cons.1 hs with rfl | hs
    · exact min_le_left _ _
    · exact (min_le_right _ _).trans (hle s hs)

theorem linear_ge {xs ys : List ℝ} (hl : xs.length = ys.length) (h2 : 2 ≤ xs.length) (hs : xs.Pairwise (· < ·)) {m : ℝ}
    (hm : ∀ s ∈ ys, m ≤ s) (x : ℝ) : m ≤ Interp.linear1d xs ys x := by
  have hmem : ∀ p ∈ xs.zip ys, m ≤ p.2 := fun p hp => hm _ (List.of_mem_zip hp).2
  rcases Interp.linear1d_spec xs ys hl h2 hs x with ⟨p, hp, _, e⟩ | ⟨p, hp, _, e⟩ | ⟨k, p, q, hp, hq, h1, h2', e⟩
  · rw [e]; exact hmem p (List.mem_of_mem_head? hp)
  · rw [e]; exact hmem p (List.mem_of_mem_getLast? hp)
  · rw [e]
    have a := hmem p (List.mem_of_getElem? hp)
    have b := hmem q (List.mem_of_getElem? hq)
    have t0 : 0 ≤ (x - p.1) / (q.1 - p.1) := div_nonneg (by linarith) (by linarith)
    have t1 : (x - p.1) / (q.1 - p.1) ≤ 1 := div_le_one_of_le₀ (by linarith) (by linarith)
    generalize (x - p.1) / (q.1 - p.1) = t at *
    nlinarith

theorem interp1d_fin {xs ys zs : List ℝ} {x : XF} (h : ¬ (Llh.interp1d xs ys x).isNaN) :
    ∃ r : ℝ, Llh.interp1d xs ys x = .fin (Interp.linear1d xs ys r) ∧ Llh.interp1d xs zs x = .fin (Interp.linear1d xs zs r) := by
  cases x with
  | fin r =>
    refine ⟨r, ?_⟩
    simp only [Llh.interp1d] at h ⊢
    split
    · rename_i a b ha hb
      simp only [ha, hb] at h
      split_ifs at h ⊢
      · exact ⟨rfl, rfl⟩
      · exact absurd trivial h
    · rename_i hn
      split at h
      · rename_i a b ha hb
        exact absurd hb (hn a b ha)
      · exact absurd trivial h
  | _ => exact absurd trivial h

theorem common_le {lens : List Nat} {n : Nat} (h : Llh.common lens = .ok n) : n ≤ 1 + lens.sum := by
  unfold Llh.common at h
  simp only at h
  split at h
  · cases h
    cases hr : lens.filter (· ≠ 1) with
    | nil => simp
    | cons a r =>
      have : a ∈ lens.filter (· ≠ 1) := by rw [hr]; simp
      have := List.le_sum_of_mem (List.mem_filter.1 this).1
      simp only [List.headD_cons]
      omega
  · cases h

theorem spread_length_le {α : Type} (n : Nat) (l : List α) : (Llh.spread n l).length ≤ n + l.length := by
  unfold Llh.spread
  split <;> simp

/-- The number of terms is limited by the number of simulated and of measured points. -/
theorem logpdf_length (shape : Llh.Shape) :
    ∃ L : Nat, ∀ e y l, Llh.logpdf shape e y = .ok l → l.length ≤ L + 2 * e.length + 2 * y.length := by
  cases shape with
  | twohalfnorm mu sp sn =>
    refine ⟨1 + mu.length + sp.length + sn.length, ?_⟩
    intro e y l h
    simp only [Llh.logpdf] at h
    split at h
    · obtain ⟨n, hn, rfl⟩ := Llh.map_ok h
      have := common_le hn
      have h2 := spread_length_le n y
      simp only [List.sum_cons, List.sum_nil] at this
      rw [List.length_zipWith]
      omega
    · cases h
  | norm loc scale =>
    refine ⟨1 + loc.length + scale.length, ?_⟩
    intro e y l h
    simp only [Llh.logpdf] at h
    obtain ⟨n, hn, rfl⟩ := Llh.map_ok h
    have := common_le hn
    have h2 := spread_length_le n y
    simp only [List.sum_cons, List.sum_nil] at this
    rw [List.length_zipWith]
    omega
  | band xs ys up lo =>
    refine ⟨1, ?_⟩
    intro e y l h
    simp only [Llh.logpdf] at h
    split at h
    · obtain ⟨n, hn, rfl⟩ := Llh.map_ok h
      have := common_le hn
      have h2 := spread_length_le n y
      simp only [List.sum_cons, List.sum_nil] at this
      rw [List.length_zipWith]
      omega
    · cases h

/-- One number for all terms of a literature likelihood. -/
theorem logpdf_atMost (shape : Llh.Shape) (hs : LimitedShape shape) :
    ∃ M : ℝ, 0 ≤ M ∧ ∀ e y l, Llh.logpdf shape e y = .ok l → ∀ a ∈ l, AtMost M a := by
  cases shape with
  | twohalfnorm mu sp sn =>
    refine ⟨((sp.product sn).map fun q => |top (q.1 + q.2)|).sum, abs_sum_nonneg _ _, ?_⟩
    intro e y l h a ha
    simp only [Llh.logpdf] at h
    split at h
    · rename_i hpos
      obtain ⟨n, -, rfl⟩ := Llh.map_ok h
      obtain ⟨x, _, q, hq, rfl⟩ := Llh.mem_zipWith _ _ _ _ ha
      have h1 := (List.of_mem_zip hq).2
      have h2 := List.of_mem_zip h1
      have p1 := hpos.1 _ (Llh.mem_spread h2.1)
      have p2 := hpos.2 _ (Llh.mem_spread h2.2)
      refine (twoHalf_atMost x q.1 q.2.1 q.2.2 (q.2.1 + q.2.2) p1 p2 (by positivity) le_rfl).mono ?_
      exact le_trans (le_abs_self _) (List.single_le_sum (fun z hz => by
        obtain ⟨w, _, rfl⟩ := List.mem_map.1 hz
        exact abs_nonneg _) _ (List.mem_map.2 ⟨q.2, List.pair_mem_product.2 ⟨Llh.mem_spread h2.1, Llh.mem_spread h2.2⟩, rfl⟩))
    · cases h
  | norm loc scale =>
    refine ⟨(scale.map fun s => |normTop s|).sum, abs_sum_nonneg _ _, ?_⟩
    intro e y l h a ha
    simp only [Llh.logpdf] at h
    obtain ⟨n, -, rfl⟩ := Llh.map_ok h
    obtain ⟨x, _, q, hq, rfl⟩ := Llh.mem_zipWith _ _ _ _ ha
    exact (norm_atMost x q.1 q.2).mono (le_abs_sum scale normTop (Llh.mem_spread (List.of_mem_zip hq).2))
  | band xs ys up lo =>
    obtain ⟨h2, hu, hlo, hsort, hup, hlow⟩ := hs
    obtain ⟨mu, mu0, hmu⟩ := list_min_pos up hup
    obtain ⟨ml, ml0, hml⟩ := list_min_pos lo hlow
    refine ⟨|top (mu + ml)|, abs_nonneg _, ?_⟩
    intro e y l h a ha
    simp only [Llh.logpdf] at h
    split at h
    · obtain ⟨n, -, rfl⟩ := Llh.map_ok h
      obtain ⟨x, _, w, _, rfl⟩ := Llh.mem_zipWith _ _ _ _ ha
      unfold Llh.bandLogpdf
      by_cases hn : (Llh.interp1d xs ys x).isNaN
      · simp only [hn, if_true]; trivial
      · obtain ⟨r, e1, e2⟩ := interp1d_fin (zs := up) hn
        obtain ⟨r', e1', e3⟩ := interp1d_fin (zs := lo) hn
        have g2 := linear_ge hu h2 hsort hmu r
        have g3 := linear_ge hlo h2 hsort hml r'
        simp only [hn, if_false, e1, e2, e3, XF.not_isNaN_fin]
        exact (twoHalf_atMost w _ _ _ (mu + ml) (by linarith) (by linarith) (by positivity) (by linarith)).mono (le_abs_self _)
    · cases h

/-! ### One likelihood, all of them, and the priors -/

section
variable {K : Type}

/-- A log likelihood does not exceed a number that depends on the likelihood only. -/
theorem logL_atMost (o : Obj K) (ho : Limited o) :
    ∃ M : ℝ, 0 ≤ M ∧ ∀ key batch p k v, o.logL key batch p = .ok (k, v) → AtMost M v := by
  cases o with
  | binned al data st =>
    refine ⟨dataTop data, dataTop_nonneg data, ?_⟩
    intro key batch p k v h
    simp only [Obj.logL, Llh.getLogLikelihood, bind, Except.bind, pure, Except.pure] at h
    split at h
    · cases h
    split at h
    · cases h
    rename_i e
    cases h
    exact llhOf_atMost ho e
  | lit al shape nd st =>
    obtain ⟨hal, hsh, N, hN⟩ := ho
    obtain ⟨M, hM, hl⟩ := logpdf_atMost shape hsh
    obtain ⟨L, hL⟩ := logpdf_length shape
    refine ⟨(1 + L + 6 * N : Nat) * M, by positivity, ?_⟩
    intro key batch p k v h
    obtain ⟨n, c, e, y, f, l, m, h1, h2, h3, hm, h4⟩ := Llh.litLogLikelihood_ok (batch := batch) hal h
    rcases h4 with ⟨_, rfl⟩ | ⟨_, rfl⟩
    · trivial
    · obtain ⟨he, hy, hlen, hf⟩ := hN n c _ _ _ _ _ _ (by rw [h1]; simp) h2
      refine (sum_atMost _ (fun a ha => ?_)).mono (mul_le_mul_of_nonneg_right ?_ hM)
      · obtain ⟨b, hb, x, hx, rfl⟩ := Llh.mem_zipWith _ _ _ _ ha
        exact (hl _ _ _ h3 b (Llh.mem_spread hb)).frac hM (hf x (Llh.mem_spread hx))
      · rw [List.length_zipWith]
        have g1 := common_le hm
        have g2 := spread_length_le m f
        have g3 := hL _ _ _ h3
        simp only [List.sum_cons, List.sum_nil] at g1
        exact_mod_cast (min_le_right _ _).trans (by omega)

theorem onceLoop_atMost (ls : List (String × Obj K)) (h : ∀ m o, (m, o) ∈ ls → Limited o) :
    ∃ M : ℝ, ∀ batch p key acc A v, AtMost A acc → onceLoop batch p ls key acc = .ok v → AtMost (A + M) v := by
  induction ls with
  | nil =>
    refine ⟨0, ?_⟩
    intro batch p key acc A v ha h
    cases h
    simpa using ha
  | cons a ls ih =>
    obtain ⟨m, o⟩ := a
    obtain ⟨M, hM⟩ := ih fun m o ho => h m o (by simp [ho])
    obtain ⟨L, _, hL⟩ := logL_atMost o (h m o (by simp))
    refine ⟨L + M, ?_⟩
    intro batch p key acc A v ha hv
    simp only [onceLoop, bind, Except.bind] at hv
    split at hv
    · cases hv
    rename_i kv hkv
    have := hM batch p kv.1 _ (A + L) v (ha.add (hL key batch p kv.1 kv.2 hkv)) hv
    exact this.mono (by linarith)

/-- The logarithm of the top of a prior, without the normalisation of the normal one. -/
noncomputable def priorTop (sig : Solver) : Prior → ℝ
  | .twohalfnorm _ sp sn => match sig (sp, sn) with
    | some (a, b) => |top (a + b)|
    | none => 0
  | _ => 0

theorem logPriorTerm_top {sig : Solver} {s : Setting} {x : XF} {v : ℝ} (h : logPriorTerm sig s x = .ok (.fin v)) :
    v ≤ priorTop sig s.prior := by
  unfold logPriorTerm at h
  split at h
  · cases h
  rename_i lo hi ha
  split at h
  · cases h
  rename_i hin
  have hx : x = .nan ∨ ∃ r, x = .fin r := by
    cases x with
    | nan => exact .inl rfl
    | fin r => exact .inr ⟨r, rfl⟩
    | pinf => exact absurd (.inr (XF.fin_lt_pinf hi)) hin
    | ninf => exact absurd (.inl (XF.ninf_lt_fin lo)) hin
  split at h
  · rename_i mean std hp
    rw [hp]
    show v ≤ 0
    rcases hx with rfl | ⟨r, rfl⟩
    · simp [XF.sub_def] at h
    · simp only [XF.fin_sub_fin, XF.fin_mul_fin, XF.neg_fin, XF.fin_div_fin_of_ne _ (two_ne_zero), XF.fin_div_fin, Except.ok.injEq] at h
      split at h
      · unfold XF.infSign at h
        split_ifs at h
      · cases h
        have := mul_self_nonneg (r - mean)
        exact div_nonpos_of_nonpos_of_nonneg (by linarith) (sq_nonneg _)
  · rename_i mu sp sn hp
    rw [hp]
    unfold priorTop
    split at h
    · cases h
    rename_i a b hs
    simp only [hs]
    unfold thnLogpdf at h
    split at h
    · rename_i hpos
      have h2pi : (0 : ℝ) < √(2 * Real.pi) := Real.sqrt_pos.2 (by positivity)
      have hn : 0 < 2 / (a + b) / √(2 * Real.pi) := by have := hpos.1; have := hpos.2; positivity
      refine le_trans ?_ (le_abs_self _)
      unfold top
      rcases hx with rfl | ⟨r, rfl⟩
      · simp [XF.sub_def] at h
      · have p1 : (a ^ 2) ≠ 0 := pow_ne_zero _ hpos.1.ne'
        have p2 : (b ^ 2) ≠ 0 := pow_ne_zero _ hpos.2.ne'
        simp only [XF.log_fin_pos hn, XF.fin_sub_fin, XF.fin_mul_fin, XF.neg_fin, XF.fin_div_fin_of_ne _ p1,
          XF.fin_div_fin_of_ne _ p2, XF.fin_div_fin_of_ne _ (two_ne_zero)] at h
        have q := mul_self_nonneg (r - mu)
        have q1 : -((r - mu) * (r - mu)) / a ^ 2 / 2 ≤ 0 :=
          div_nonpos_of_nonpos_of_nonneg (div_nonpos_of_nonpos_of_nonneg (by linarith) (sq_nonneg _)) (by norm_num)
        have q2 : -((r - mu) * (r - mu)) / b ^ 2 / 2 ≤ 0 :=
          div_nonpos_of_nonpos_of_nonneg (div_nonpos_of_nonpos_of_nonneg (by linarith) (sq_nonneg _)) (by norm_num)
        split at h
        · cases h; linarith
        · cases h; linarith
    · cases h
  · cases h
    cases hp : s.prior <;> simp_all [priorTop]

theorem logPriorOver_top {sig : Solver} {pm : PM} {ord : List String} {lp : ℝ} (h : logPriorOver sig pm ord = .ok (.fin lp)) :
    lp ≤ (ord.map fun n => match pm.config.get? n with | some s => priorTop sig s.prior | none => 0).sum := by
  obtain ⟨g, hg, rfl⟩ := logPriorOver_finite h
  refine List.sum_le_sum ?_
  intro n hn
  have := hg n hn
  simp only [termOf, PyDict.getItem, bind, Except.bind] at this
  split at this
  · cases this
  split at this
  · cases this
  rename_i s hs
  cases hc : pm.config.get? n with
  | none => rw [hc] at hs; cases hs
  | some s' =>
    rw [hc] at hs
    cases hs
    exact logPriorTerm_top this

end
end Verif.Ctx
