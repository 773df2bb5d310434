/-
Property theorems of C122: log likelihoods in single precision (likelihood.py 294-314, 340-376).
-/
import Verif.Model.SingleLlh
import Verif.Lemmas.SingleNorm
import Verif.Lemmas.Round
import Mathlib.Analysis.SpecialFunctions.Log.Basic
import Mathlib.Analysis.Complex.ExponentialBounds

namespace Verif.Single
open Verif

/-- The exact log likelihood of the bins, up to a constant of the data. -/
noncomputable def exactLlh (l : List Cell) : ℝ := (l.map (fun c => c.data.val * Real.log c.model.val - c.model.val)).sum

/-- The sizes of the parts of which the terms consist. -/
noncomputable def sizes (l : List Cell) : ℝ := (l.map (fun c => |c.data.val * Real.log c.model.val| + c.model.val)).sum

/-- A logarithm with relative error at most `δ`. -/
def Accurate (δ : ℝ) (log32 : ℝ → ℝ) : Prop := ∀ x, 0 < x → |log32 x - Real.log x| ≤ δ * |Real.log x|

theorem term32_error {δ : ℝ} (hδ : 0 ≤ δ) {log32 : ℝ → ℝ} (hl : Accurate δ log32) (c : Cell) (hm : 0 < c.model.val) :
    |(term32 log32 c).val - (c.data.val * Real.log c.model.val - c.model.val)| ≤
      ((1 + δ) * (1 + 1 / 2 ^ 24) ^ 2 - 1) * (|c.data.val * Real.log c.model.val| + c.model.val) := by
  have h1 := hl _ hm
  unfold term32
  simp only
  generalize c.model.val = m at *
  generalize c.data.val = d at *
  generalize log32 m = l at *
  generalize Real.log m = L at *
  set e : ℝ := 1 / 2 ^ 24 with he
  have he0 : 0 ≤ e := by positivity
  have h2 : |d * l - d * L| ≤ δ * |d * L| := by
    rw [← mul_sub, abs_mul, abs_mul]
    calc |d| * |l - L| ≤ |d| * (δ * |L|) := mul_le_mul_of_nonneg_left h1 (abs_nonneg _)
      _ = _ := by ring
  have h3 := rnd_rel (d * l)
  have h4 := rnd_rel (rnd (d * l) - m)
  rw [← he] at h3 h4
  have h5 : |d * l| ≤ (1 + δ) * |d * L| := by
    have := abs_sub_abs_le_abs_sub (d * l) (d * L)
    linarith
  have h6 : |rnd (d * l) - d * L| ≤ ((1 + δ) * (1 + e) - 1) * |d * L| := by
    have := abs_sub_le (rnd (d * l)) (d * l) (d * L)
    have h7 : |d * l| * e ≤ (1 + δ) * |d * L| * e := mul_le_mul_of_nonneg_right h5 he0
    nlinarith
  have h8 : |rnd (d * l) - m| ≤ (1 + δ) * (1 + e) * |d * L| + m := by
    have t1 := abs_sub_abs_le_abs_sub (rnd (d * l)) (d * L)
    have t2 := abs_sub (rnd (d * l)) m
    rw [abs_of_pos hm] at t2
    nlinarith
  have h9 : |rnd (d * l) - m| * e ≤ ((1 + δ) * (1 + e) * |d * L| + m) * e := mul_le_mul_of_nonneg_right h8 he0
  have h10 := abs_sub_le (rnd (rnd (d * l) - m)) (rnd (d * l) - m) (d * L - m)
  have h11 : |rnd (d * l) - m - (d * L - m)| = |rnd (d * l) - d * L| := by ring_nf
  rw [h11] at h10
  have h12 : m * e ≤ ((1 + δ) * (1 + e) ^ 2 - 1) * m := by
    have : e ≤ (1 + δ) * (1 + e) ^ 2 - 1 := by nlinarith [mul_nonneg hδ (sq_nonneg (1 + e))]
    nlinarith
  nlinarith

theorem sum32_error {δ : ℝ} (hδ : 0 ≤ δ) {log32 : ℝ → ℝ} (hl : Accurate δ log32) (cs : Cells)
    (hm : ∀ c ∈ cs.list, 0 < c.model.val) :
    |(sum32 log32 cs).val - exactLlh cs.list| ≤ ((1 + δ) * (1 + 1 / 2 ^ 24) ^ (cs.depth + 2) - 1) * sizes cs.list ∧
      |exactLlh cs.list| ≤ sizes cs.list ∧ 0 ≤ sizes cs.list := by
  induction cs with
  | leaf c =>
    have hc := hm c (by simp [Cells.list])
    have h := term32_error hδ hl c hc
    simp only [Cells.list, exactLlh, sizes, sum32, Cells.depth, List.map_cons, List.map_nil, List.sum_cons, List.sum_nil, add_zero,
      zero_add]
    refine ⟨h, ?_, ?_⟩
    · have := abs_sub (c.data.val * Real.log c.model.val) c.model.val
      rwa [abs_of_pos hc] at this
    · positivity
  | add a b iha ihb =>
    obtain ⟨ha1, ha2, ha3⟩ := iha (fun c hc => hm c (by simp [Cells.list, hc]))
    obtain ⟨hb1, hb2, hb3⟩ := ihb (fun c hc => hm c (by simp [Cells.list, hc]))
    have e1 : exactLlh (Cells.add a b).list = exactLlh a.list + exactLlh b.list := by simp [exactLlh, Cells.list]
    have e2 : sizes (Cells.add a b).list = sizes a.list + sizes b.list := by simp [sizes, Cells.list]
    rw [e1, e2]
    refine ⟨?_, (abs_add_le _ _).trans (add_le_add ha2 hb2), add_nonneg ha3 hb3⟩
    simp only [sum32, Cells.depth, val_add]
    set e : ℝ := 1 / 2 ^ 24 with he
    have he0 : 0 ≤ e := by positivity
    have hr := rnd_rel ((sum32 log32 a).val + (sum32 log32 b).val)
    rw [← he] at hr
    generalize (sum32 log32 a).val = x at *
    generalize (sum32 log32 b).val = y at *
    generalize exactLlh a.list = X at *
    generalize exactLlh b.list = Y at *
    generalize sizes a.list = A at *
    generalize sizes b.list = B at *
    have hK : ∀ j, j ≤ max a.depth b.depth → (1 + δ) * (1 + e) ^ (j + 2) - 1 ≤ (1 + δ) * (1 + e) ^ (max a.depth b.depth + 2) - 1 := by
      intro j hj
      have : (1 + e) ^ (j + 2) ≤ (1 + e) ^ (max a.depth b.depth + 2) := pow_le_pow_right₀ (by linarith) (by omega)
      have := mul_le_mul_of_nonneg_left this (by linarith : 0 ≤ 1 + δ)
      linarith
    have ha1' := ha1.trans (mul_le_mul_of_nonneg_right (hK _ (le_max_left _ _)) ha3)
    have hb1' := hb1.trans (mul_le_mul_of_nonneg_right (hK _ (le_max_right _ _)) hb3)
    rw [show max a.depth b.depth + 1 + 2 = (max a.depth b.depth + 2) + 1 by ring, pow_succ]
    generalize (1 + e) ^ (max a.depth b.depth + 2) = g at *
    have hs : |x + y - (X + Y)| ≤ ((1 + δ) * g - 1) * (A + B) := by
      have : x + y - (X + Y) = (x - X) + (y - Y) := by ring
      rw [this, mul_add]
      exact (abs_add_le _ _).trans (add_le_add ha1' hb1')
    have hs2 : |x + y| ≤ (1 + δ) * g * (A + B) := by
      have t := abs_sub_abs_le_abs_sub (x + y) (X + Y)
      have t2 := abs_add_le X Y
      linarith
    have hs3 := mul_le_mul_of_nonneg_right hs2 he0
    have ht := abs_sub_le (rnd (x + y)) (x + y) (X + Y)
    linarith

/-- **C122 (error).** With every operation rounded to single precision and a logarithm of relative accuracy `δ`, a log likelihood
is minus infinity exactly when a bin of the model is not positive, and otherwise differs from the exact one by at most a multiple
of the sum of `data * |log model| + model` over the bins. -/
theorem C122_error {δ : ℝ} (hδ : 0 ≤ δ) {log32 : ℝ → ℝ} (hl : Accurate δ log32) (cs : Cells) :
    (llh32 log32 cs = none ↔ ∃ c ∈ cs.list, c.model.val ≤ 0) ∧
    ∀ v, llh32 log32 cs = some v →
      |v - exactLlh cs.list| ≤ ((1 + δ) * (1 + 1 / 2 ^ 24) ^ (cs.depth + 2) - 1) * sizes cs.list := by
  unfold llh32
  by_cases h : ∃ c ∈ cs.list, c.model.val ≤ 0
  · simp [if_pos h, h]
  · rw [if_neg h]
    refine ⟨by simpa using h, fun v hv => ?_⟩
    rw [Option.some.injEq] at hv
    rw [← hv]
    push Not at h
    exact (sum32_error hδ hl cs h).1

/-- **C122 (order).** Two parameter points are ordered as their exact log likelihoods are, if these differ by more than the sum of
the bounds.  Without that condition the order can be lost: `C122_difference_lost`. -/
theorem C122_order_partial {δ : ℝ} (hδ : 0 ≤ δ) {log32 : ℝ → ℝ} (hl : Accurate δ log32) (cs cs' : Cells) (v v' : ℝ)
    (h : llh32 log32 cs = some v) (h' : llh32 log32 cs' = some v')
    (hd : ((1 + δ) * (1 + 1 / 2 ^ 24) ^ (cs.depth + 2) - 1) * sizes cs.list +
      ((1 + δ) * (1 + 1 / 2 ^ 24) ^ (cs'.depth + 2) - 1) * sizes cs'.list < exactLlh cs'.list - exactLlh cs.list) :
    v < v' := by
  have h1 := abs_le.1 ((C122_error hδ hl cs).2 v h)
  have h2 := abs_le.1 ((C122_error hδ hl cs').2 v' h')
  linarith [h1.2, h2.1]

/-- **C122 (adding components).** The content of a bin of the model is the sum of the templates up to one rounding for each. -/
theorem C122_model_bin (templates : List F32) (h : ∀ t ∈ templates, 0 ≤ t.val) :
    (1 - 1 / 2 ^ 24) ^ templates.length * (templates.map F32.val).sum ≤ (modelBin templates).val ∧
    (modelBin templates).val ≤ (1 + 1 / 2 ^ 24) ^ templates.length * (templates.map F32.val).sum := by
  have := foldl_bounds templates 0 le_rfl h
  rw [val_zero, zero_add] at this
  exact this

/-- A bin with four million events and as many expected. -/
noncomputable def exBig : Cell := ⟨⟨2 ^ 22⟩, ⟨2 ^ 22⟩⟩

/-- A bin without events. -/
noncomputable def exSmall (m : ℝ) : Cell := ⟨⟨0⟩, ⟨m⟩⟩

/-- **C122 (violation).** Next to a bin with four million events, what an empty bin contributes is lost: expecting 1/4 or 7/4
events there gives log likelihoods that differ by 3/2, but the same number in single precision, for every logarithm that is
accurate to one percent and returns single-precision numbers. -/
theorem C122_difference_lost {log32 : ℝ → ℝ} (hl : Accurate (1 / 100) log32) (hs : ∀ x, rnd (log32 x) = log32 x) :
    exactLlh [exBig, exSmall (1 / 4)] - exactLlh [exBig, exSmall (7 / 4)] = 3 / 2 ∧
    ∃ v, llh32 log32 (.add (.leaf exBig) (.leaf (exSmall (1 / 4)))) = some v ∧
      llh32 log32 (.add (.leaf exBig) (.leaf (exSmall (7 / 4)))) = some v := by
  constructor
  · simp [exactLlh, exSmall]
    norm_num
  have hL := hl (2 ^ 22) (by norm_num)
  have hlog : Real.log (2 ^ 22) = 22 * Real.log 2 := by rw [Real.log_pow]; norm_num
  have hg := Real.log_two_gt_d9
  have hlt := Real.log_two_lt_d9
  norm_num at hg hlt
  rw [hlog, abs_of_pos (a := 22 * Real.log 2) (by linarith)] at hL
  have hL' := abs_le.1 hL
  have hLlo : 15 ≤ log32 (2 ^ 22) := by
    have := hL'.1
    generalize log32 (2 ^ 22) = L at this ⊢
    linarith
  have hLhi : log32 (2 ^ 22) ≤ 31 / 2 := by
    have := hL'.2
    generalize log32 (2 ^ 22) = L at this ⊢
    linarith
  obtain ⟨k, hk⟩ : ∃ k : ℤ, log32 (2 ^ 22) = k * (1 / 2 ^ 20) := by
    have h := hs (2 ^ 22)
    generalize log32 (2 ^ 22) = L at *
    have hLp : 0 < L := by linarith
    have hlg : Int.log 2 |L| = 3 := by
      rw [abs_of_pos hLp]
      have a : (3 : ℤ) ≤ Int.log 2 L := (Int.zpow_le_iff_le_log (by norm_num) hLp).1 (by norm_num; linarith)
      have b : Int.log 2 L < 4 := (Int.lt_zpow_iff_log_lt (by norm_num) hLp).1 (by norm_num; linarith)
      omega
    refine ⟨halfEven (L / ulp L), ?_⟩
    conv_lhs => rw [← h]
    unfold rnd
    congr 1
    unfold ulp
    rw [hlg]
    norm_num
  have hk1 : (15 * 2 ^ 20 : ℝ) ≤ k := by rw [hk] at hLlo; linarith
  have hk2 : (k : ℝ) ≤ 31 * 2 ^ 19 := by rw [hk] at hLhi; linarith
  have t1 : rnd ((2 : ℝ) ^ 22 * log32 (2 ^ 22)) = 4 * k := by
    rw [hk, show (2 : ℝ) ^ 22 * (k * (1 / 2 ^ 20)) = 4 * k by ring]
    rw [rnd_close 25 k (by norm_num; linarith) (by norm_num; linarith) (by norm_num; rw [mul_comm]; simp)]
    norm_num
    ring
  have t2 : (term32 log32 exBig).val = 4 * ((k - 2 ^ 20 : ℤ) : ℝ) := by
    unfold term32 exBig
    simp only
    rw [t1, show (4 : ℝ) * k - 2 ^ 22 = 4 * ((k - 2 ^ 20 : ℤ) : ℝ) by push_cast; ring]
    rw [rnd_close 25 (k - 2 ^ 20) (by push_cast; norm_num; linarith) (by push_cast; norm_num; linarith) (by norm_num; rw [mul_comm]; simp)]
    norm_num
    ring
  have t3 : ∀ m, rnd m = m → (term32 log32 (exSmall m)).val = -m := by
    intro m hm
    unfold term32 exSmall
    simp only
    rw [zero_mul, rnd_zero, zero_sub, rnd_neg, hm]
  have t4 : ∀ m, rnd m = m → 0 ≤ m → m < 2 →
      (sum32 log32 (.add (.leaf exBig) (.leaf (exSmall m)))).val = 4 * ((k - 2 ^ 20 : ℤ) : ℝ) := by
    intro m hm h0 h2
    simp only [sum32, val_add]
    rw [t2, t3 m hm]
    rw [rnd_close 25 (k - 2 ^ 20) (by push_cast; norm_num; linarith) (by push_cast; norm_num; linarith) (by
      norm_num
      rw [show (4 : ℝ) * (k - 1048576) + -m - (k - 1048576) * 4 = -m by ring, abs_neg, abs_of_nonneg h0]
      exact h2)]
    norm_num
    ring
  have r1 : rnd (1 / 4) = 1 / 4 := by
    rw [rnd_close (-2) (2 ^ 23) (by norm_num) (by norm_num) (by norm_num)]
    norm_num
  have r2 : rnd (7 / 4) = 7 / 4 := by
    rw [rnd_close 0 (7 * 2 ^ 21) (by norm_num) (by norm_num) (by norm_num)]
    norm_num
  refine ⟨4 * ((k - 2 ^ 20 : ℤ) : ℝ), ?_, ?_⟩
  · unfold llh32
    rw [if_neg (by simp [Cells.list, exBig, exSmall]), t4 _ r1 (by norm_num) (by norm_num)]
  · unfold llh32
    rw [if_neg (by simp [Cells.list, exBig, exSmall]), t4 _ r2 (by norm_num) (by norm_num)]

/-- The correctly rounded logarithm is accurate. -/
theorem rounded_log_accurate {δ : ℝ} (hδ : 1 / 2 ^ 24 ≤ δ) : Accurate δ (fun x => rnd (Real.log x)) := by
  intro x _
  have h := rnd_rel (Real.log x)
  have := mul_le_mul_of_nonneg_right hδ (abs_nonneg (Real.log x))
  simp only
  linarith

/-- Non-vacuity of C122 (violation): the correctly rounded logarithm meets the conditions. -/
example : ∃ v, llh32 (fun x => rnd (Real.log x)) (.add (.leaf exBig) (.leaf (exSmall (1 / 4)))) = some v ∧
    llh32 (fun x => rnd (Real.log x)) (.add (.leaf exBig) (.leaf (exSmall (7 / 4)))) = some v :=
  (C122_difference_lost (rounded_log_accurate (by norm_num)) (fun _ => rnd_rnd _)).2

/-- Non-vacuity of C122 (order): for one bin with ten events, expecting ten is found more likely than expecting one. -/
example : ∃ v v', llh32 (fun x => rnd (Real.log x)) (.leaf ⟨⟨10⟩, ⟨1⟩⟩) = some v ∧
    llh32 (fun x => rnd (Real.log x)) (.leaf ⟨⟨10⟩, ⟨10⟩⟩) = some v' ∧ v < v' := by
  have h1 : llh32 (fun x => rnd (Real.log x)) (.leaf ⟨⟨10⟩, ⟨1⟩⟩) = some _ := if_neg (by simp [Cells.list])
  have h2 : llh32 (fun x => rnd (Real.log x)) (.leaf ⟨⟨10⟩, ⟨10⟩⟩) = some _ := if_neg (by simp [Cells.list])
  refine ⟨_, _, h1, h2, C122_order_partial (δ := 1 / 2 ^ 24) (by norm_num) (rounded_log_accurate le_rfl) _ _ _ _ h1 h2 ?_⟩
  have hlo : 2 ≤ Real.log 10 := by
    have : Real.log 8 ≤ Real.log 10 := Real.log_le_log (by norm_num) (by norm_num)
    have e : Real.log 8 = 3 * Real.log 2 := by rw [show (8 : ℝ) = 2 ^ 3 by norm_num, Real.log_pow]; norm_num
    have hg := Real.log_two_gt_d9
    norm_num at hg
    linarith
  have hhi : Real.log 10 ≤ 3 := by
    have : Real.log 10 ≤ Real.log 16 := Real.log_le_log (by norm_num) (by norm_num)
    have e : Real.log 16 = 4 * Real.log 2 := by rw [show (16 : ℝ) = 2 ^ 4 by norm_num, Real.log_pow]; norm_num
    have hg := Real.log_two_lt_d9
    norm_num at hg
    linarith
  simp only [Cells.list, Cells.depth, exactLlh, sizes, List.map_cons, List.map_nil, List.sum_cons, List.sum_nil, Real.log_one]
  rw [abs_of_nonneg (by linarith : 0 ≤ 10 * Real.log 10)]
  norm_num
  linarith

end Verif.Single
