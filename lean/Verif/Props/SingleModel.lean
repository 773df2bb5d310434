/-
Property theorems of C125: from simulated contents to the log likelihood in single precision.
-/
import Verif.Model.SingleModel
import Verif.Props.SingleNorm
import Verif.Props.SingleLlh
import Verif.Props.Single

namespace Verif.Single
open Verif

variable {β : Type}

/-- The number of events a component is meant to contribute to a bin: its share of the rate, or its content times rate over batch size. -/
noncomputable def expected (bins : List β) (t : Template32 β) (b : β) : ℝ :=
  match t.norm with
  | .onPdf _ => t.rate * ((t.content b).val / (bins.map (fun c => (t.content c).val)).sum)
  | .onSim batch => t.rate * ((t.content b).val / batch)

/-- The exact log likelihood of the data for the model of all components, up to a constant of the data. -/
noncomputable def meantLlh (bins : List β) (data : β → F32) (comps : List (Template32 β)) : ℝ :=
  (bins.map (fun b => (data b).val * Real.log (comps.map (fun t => expected bins t b)).sum - (comps.map (fun t => expected bins t b)).sum)).sum

/-- The parts of which it consists. -/
noncomputable def meantSizes (bins : List β) (data : β → F32) (comps : List (Template32 β)) : ℝ :=
  (bins.map (fun b => |(data b).val * Real.log (comps.map (fun t => expected bins t b)).sum| + (comps.map (fun t => expected bins t b)).sum)).sum

/-- A component that can be normalised: a rate and contents that are not negative; if it is normalised on its sum, this is the sum of all
bins in an order of depth at most `m - 4`, and it is positive. -/
structure Usable (bins : List β) (m : Nat) (t : Template32 β) : Prop where
  rate : 0 ≤ t.rate
  content : ∀ b ∈ bins, 0 ≤ (t.content b).val
  two : 2 ≤ m
  onPdf : ∀ o, t.norm = .onPdf o → o.contents.Perm (bins.map t.content) ∧ o.depth + 4 ≤ m ∧ 0 < (bins.map (fun b => (t.content b).val)).sum

theorem bin_within {bins : List β} {m : Nat} {t : Template32 β} (h : Usable bins m t) {b : β} (hb : b ∈ bins) :
    0 ≤ (t.bin b).val ∧ 0 ≤ expected bins t b ∧ Within m (t.bin b).val (expected bins t b) := by
  have hc := h.content b hb
  have hr := h.rate
  cases hn : t.norm with
  | onPdf o =>
    obtain ⟨hp, hd, ht⟩ := h.onPdf o hn
    have es : (o.contents.map F32.val).sum = (bins.map (fun b => (t.content b).val)).sum := by
      rw [(hp.map F32.val).sum_eq, List.map_map]
      rfl
    obtain ⟨h0, w⟩ := scaled_within o t.rate hr
      (fun c hc => by
        obtain ⟨b', hb', rfl⟩ := List.mem_map.1 (hp.mem_iff.1 hc)
        exact h.content b' hb')
      (by rw [es]; exact ht) (t.content b) (hp.mem_iff.2 (List.mem_map.2 ⟨b, hb, rfl⟩))
    rw [es, mul_div_assoc] at w
    have e1 : t.bin b = scale32 (factorOnPdf o t.rate) (t.content b) := by simp [Template32.bin, Template32.factor, hn]
    have e2 : expected bins t b = t.rate * ((t.content b).val / (bins.map (fun c => (t.content c).val)).sum) := by simp [expected, hn]
    rw [e1, e2]
    have hx : 0 ≤ t.rate * ((t.content b).val / (bins.map (fun c => (t.content c).val)).sum) := by positivity
    exact ⟨h0, hx, w.mono hd h0 hx⟩
  | onSim batch =>
    have e1 : t.bin b = scale32 (factorOnSim batch t.rate) (t.content b) := by simp [Template32.bin, Template32.factor, hn]
    have e2 : expected bins t b = t.rate * ((t.content b).val / batch) := by simp [expected, hn]
    rw [e1, e2]
    have hf : 0 ≤ 1 / (batch : ℝ) * t.rate := by positivity
    have w := (Within.refl (t.content b).val).mul (within_rnd hf) hc hc (rnd_nonneg hf) hf
    have hq : 0 ≤ (t.content b).val * rnd (1 / (batch : ℝ) * t.rate) := mul_nonneg hc (rnd_nonneg hf)
    have w' := (within_rnd hq).trans w
    have e : (t.content b).val * (1 / (batch : ℝ) * t.rate) = t.rate * ((t.content b).val / batch) := by ring
    rw [e] at w'
    have hx : 0 ≤ t.rate * ((t.content b).val / batch) := by positivity
    exact ⟨rnd_nonneg hq, hx, w'.mono h.two (rnd_nonneg hq) hx⟩

theorem foldl_within {m : Nat} (l : List (F32 × ℝ)) (h : ∀ p ∈ l, 0 ≤ p.1.val ∧ 0 ≤ p.2 ∧ Within m p.1.val p.2) (a : F32) (x : ℝ) (k : Nat)
    (ha : 0 ≤ a.val) (hx : 0 ≤ x) (hk : m ≤ k) (w : Within k a.val x) :
    0 ≤ ((l.map Prod.fst).foldl (· + ·) a).val ∧ Within (k + l.length) ((l.map Prod.fst).foldl (· + ·) a).val (x + (l.map Prod.snd).sum) := by
  induction l generalizing a x k with
  | nil => simpa using ⟨ha, w⟩
  | cons p l ih =>
    obtain ⟨p0, q0, wp⟩ := h p (by simp)
    have hs : 0 ≤ a.val + p.1.val := by linarith
    have w2 := (within_rnd hs).trans (w.add (wp.mono hk p0 q0))
    have := ih (fun q hq => h q (by simp [hq])) (a + p.1) (x + p.2) (1 + k) (by rw [val_add]; exact rnd_nonneg hs) (by linarith) (by omega)
      (by rw [val_add]; exact w2)
    simp only [List.map_cons, List.foldl_cons, List.sum_cons, List.length_cons]
    rw [show k + (l.length + 1) = 1 + k + l.length by omega, ← add_assoc]
    exact this

/-- The content of a bin of the model, after all roundings. -/
theorem model_within {bins : List β} {m : Nat} {comps : List (Template32 β)} (h : ∀ t ∈ comps, Usable bins m t) {b : β} (hb : b ∈ bins) :
    0 ≤ (modelBin (comps.map (fun t => t.bin b))).val ∧ 0 ≤ (comps.map (fun t => expected bins t b)).sum ∧
      Within (m + comps.length) (modelBin (comps.map (fun t => t.bin b))).val (comps.map (fun t => expected bins t b)).sum := by
  have := foldl_within (m := m) (comps.map (fun t => (t.bin b, expected bins t b)))
    (fun p hp => by
      obtain ⟨t, ht, rfl⟩ := List.mem_map.1 hp
      exact bin_within (h t ht) hb) 0 0 m le_rfl le_rfl le_rfl ⟨by simp [val_zero], by simp [val_zero]⟩
  simp only [List.map_map, zero_add, List.length_map] at this
  refine ⟨this.1, List.sum_nonneg (fun x hx => ?_), this.2⟩
  obtain ⟨t, ht, rfl⟩ := List.mem_map.1 hx
  exact (bin_within (h t ht) hb).2.1

theorem within_pos {k : Nat} {x y : ℝ} (w : Within k x y) : 0 < x ↔ 0 < y := by
  have hp : (0 : ℝ) < (1 - 1 / 2 ^ 24) ^ k := pow_pos low_pos k
  constructor
  · intro h
    exact lt_of_lt_of_le (mul_pos hp h) w.2
  · intro h
    exact lt_of_lt_of_le (mul_pos hp h) w.1

theorem within_log {k : Nat} {x y : ℝ} (w : Within k x y) (hx : 0 < x) (hy : 0 < y) : |Real.log x - Real.log y| ≤ k / 2 ^ 23 := by
  have hp : (0 : ℝ) < (1 - 1 / 2 ^ 24) ^ k := pow_pos low_pos k
  have l1 := Real.log_le_log (mul_pos hp hy) w.1
  have l2 := Real.log_le_log (mul_pos hp hx) w.2
  rw [Real.log_mul hp.ne' hy.ne', Real.log_pow] at l1
  rw [Real.log_mul hp.ne' hx.ne', Real.log_pow] at l2
  have lb : -(1 / 2 ^ 23 : ℝ) ≤ Real.log (1 - 1 / 2 ^ 24) := by
    have := Real.one_sub_inv_le_log_of_pos low_pos
    norm_num at this ⊢
    linarith
  have : -((k : ℝ) / 2 ^ 23) ≤ k * Real.log (1 - 1 / 2 ^ 24) := by
    have := mul_le_mul_of_nonneg_left lb (Nat.cast_nonneg (α := ℝ) k)
    calc -((k : ℝ) / 2 ^ 23) = k * -(1 / 2 ^ 23) := by ring
      _ ≤ _ := this
  rw [abs_le]
  constructor <;> linarith

/-- **C125 (whole error).** With templates, sums, normalisation, the sum over components, the logarithm and the log likelihood in single
precision, the log likelihood is minus infinity exactly when a bin that is meant to be empty exists, and else differs from the exact
log likelihood of the exact model by at most the inaccuracy `η` of the last steps on the parts, and that of the templates, `k 2⁻²³`
with `k` roundings, on the numbers of events. -/
theorem C125_error {δ : ℝ} (hδ : 0 ≤ δ) {log32 : ℝ → ℝ} (hl : Accurate δ log32) (bins : List β) (data : β → F32) (hd : ∀ b ∈ bins, 0 ≤ (data b).val)
    (comps : List (Template32 β)) (m : Nat) (h : ∀ t ∈ comps, Usable bins m t) (hm : m + comps.length ≤ 2 ^ 23) (cs : Cells)
    (hcs : cs.list.Perm (bins.map (cellOf data comps))) (η : ℝ) (hη : η = (1 + δ) * (1 + 1 / 2 ^ 24) ^ (cs.depth + 2) - 1) :
    (llh32 log32 cs = none ↔ ∃ b ∈ bins, (comps.map (fun t => expected bins t b)).sum ≤ 0) ∧
    ∀ v, llh32 log32 cs = some v → |v - meantLlh bins data comps| ≤ η * meantSizes bins data comps +
      (1 + η) * ((m + comps.length : ℕ) / 2 ^ 23 *
        ((bins.map (fun b => (data b).val)).sum + (bins.map (fun b => (comps.map (fun t => expected bins t b)).sum)).sum)) := by
  have hη0 : 0 ≤ η := by
    rw [hη]
    have : (1 : ℝ) ≤ (1 + 1 / 2 ^ 24) ^ (cs.depth + 2) := one_le_pow₀ (by norm_num)
    nlinarith
  obtain ⟨c1, c2⟩ := C122_error hδ hl cs
  rw [← hη] at c2
  have hnone : llh32 log32 cs = none ↔ ∃ b ∈ bins, (comps.map (fun t => expected bins t b)).sum ≤ 0 := by
    rw [c1]
    constructor
    · rintro ⟨c, hc, hc0⟩
      obtain ⟨b, hb, rfl⟩ := List.mem_map.1 (hcs.mem_iff.1 hc)
      refine ⟨b, hb, ?_⟩
      by_contra hneg
      have := (within_pos (model_within h hb).2.2).2 (not_le.1 hneg)
      simp only [cellOf] at hc0
      linarith
    · rintro ⟨b, hb, hb0⟩
      refine ⟨_, hcs.mem_iff.2 (List.mem_map.2 ⟨b, hb, rfl⟩), ?_⟩
      by_contra hneg
      have := (within_pos (model_within h hb).2.2).1 (not_le.1 hneg)
      linarith
  refine ⟨hnone, fun v hv => ?_⟩
  have hpos : ∀ b ∈ bins, 0 < (comps.map (fun t => expected bins t b)).sum := by
    intro b hb
    by_contra hneg
    have := hnone.2 ⟨b, hb, not_lt.1 hneg⟩
    rw [this] at hv
    cases hv
  have e := c2 v hv
  set E : β → ℝ := fun b => (comps.map (fun t => expected bins t b)).sum with hE
  set k : ℝ := ((m + comps.length : ℕ) : ℝ) / 2 ^ 23 with hk
  have k0 : 0 ≤ k := by positivity
  have ex : exactLlh cs.list = (bins.map (fun b => (data b).val * Real.log (cellOf data comps b).model.val - (cellOf data comps b).model.val)).sum := by
    unfold exactLlh
    rw [(hcs.map _).sum_eq, List.map_map]
    rfl
  have sz : sizes cs.list = (bins.map (fun b => |(data b).val * Real.log (cellOf data comps b).model.val| + (cellOf data comps b).model.val)).sum := by
    unfold sizes
    rw [(hcs.map _).sum_eq, List.map_map]
    rfl
  -- bin by bin
  have hbin : ∀ b ∈ bins, |(data b).val * Real.log (cellOf data comps b).model.val - (data b).val * Real.log (E b)| ≤ k * (data b).val ∧
      |(cellOf data comps b).model.val - E b| ≤ k * E b := by
    intro b hb
    obtain ⟨m0, e0, w⟩ := model_within h hb
    have ep := hpos b hb
    have mp := (within_pos w).2 ep
    refine ⟨?_, w.linear hm m0 e0⟩
    rw [← mul_sub, abs_mul, abs_of_nonneg (hd b hb), mul_comm]
    exact mul_le_mul_of_nonneg_right (within_log w mp ep) (hd b hb)
  have hsum : ∀ l : List β, (∀ b ∈ l, b ∈ bins) →
      |(l.map (fun b => (data b).val * Real.log (cellOf data comps b).model.val - (cellOf data comps b).model.val)).sum
        - (l.map (fun b => (data b).val * Real.log (E b) - E b)).sum| ≤ k * ((l.map (fun b => (data b).val)).sum + (l.map E).sum) ∧
      (l.map (fun b => |(data b).val * Real.log (cellOf data comps b).model.val| + (cellOf data comps b).model.val)).sum
        ≤ (l.map (fun b => |(data b).val * Real.log (E b)| + E b)).sum + k * ((l.map (fun b => (data b).val)).sum + (l.map E).sum) := by
    intro l hl
    induction l with
    | nil => simp
    | cons b l ih =>
      obtain ⟨i1, i2⟩ := ih (fun c hc => hl c (by simp [hc]))
      obtain ⟨b1, b2⟩ := hbin b (hl b (by simp))
      simp only [List.map_cons, List.sum_cons]
      have b3 := abs_sub_abs_le_abs_sub ((data b).val * Real.log (cellOf data comps b).model.val) ((data b).val * Real.log (E b))
      rw [abs_le] at i1 b2
      have b1' := abs_le.1 b1
      constructor
      · rw [abs_le]
        constructor <;> nlinarith [i1.1, i1.2, b1'.1, b1'.2, b2.1, b2.2]
      · nlinarith [b2.2]
  obtain ⟨s1, s2⟩ := hsum bins (fun _ hb => hb)
  rw [ex, sz] at e
  have e2 := mul_le_mul_of_nonneg_left s2 hη0
  have e3 := abs_sub_le v ((bins.map (fun b => (data b).val * Real.log (cellOf data comps b).model.val - (cellOf data comps b).model.val)).sum)
    (meantLlh bins data comps)
  have e4 : meantLlh bins data comps = (bins.map (fun b => (data b).val * Real.log (E b) - E b)).sum := rfl
  have e5 : meantSizes bins data comps = (bins.map (fun b => |(data b).val * Real.log (E b)| + E b)).sum := rfl
  rw [e4] at e3 ⊢
  rw [e5]
  calc _ ≤ _ := e3
    _ ≤ _ := add_le_add (e.trans e2) s1
    _ = _ := by ring

/-- **C125 (in numbers).** With at most 30 components, a logarithm accurate to `2⁻²²` and sums in which no number goes through more than
30 additions (as for a thousand million bins added pairwise), the error is at most one part in a hundred thousand of the parts of the log
likelihood and the numbers of events. -/
theorem C125_small {δ : ℝ} (hδ : 0 ≤ δ) (hδ' : δ ≤ 1 / 2 ^ 22) {log32 : ℝ → ℝ} (hl : Accurate δ log32) (bins : List β) (data : β → F32)
    (hd : ∀ b ∈ bins, 0 ≤ (data b).val) (comps : List (Template32 β)) (h : ∀ t ∈ comps, Usable bins 34 t) (hn : comps.length ≤ 30) (cs : Cells)
    (hcs : cs.list.Perm (bins.map (cellOf data comps))) (hdep : cs.depth ≤ 30) (v : ℝ) (hv : llh32 log32 cs = some v) :
    |v - meantLlh bins data comps| ≤ 1 / 100000 * (meantSizes bins data comps +
      ((bins.map (fun b => (data b).val)).sum + (bins.map (fun b => (comps.map (fun t => expected bins t b)).sum)).sum)) := by
  have e := (C125_error hδ hl bins data hd comps 34 h (by omega) cs hcs _ rfl).2 v hv
  have hp : ((1 : ℝ) + 1 / 2 ^ 24) ^ (cs.depth + 2) ≤ (1 + 1 / 2 ^ 24) ^ 32 := pow_le_pow_right₀ (by norm_num) (by omega)
  have h1 : (1 : ℝ) ≤ (1 + 1 / 2 ^ 24) ^ (cs.depth + 2) := one_le_pow₀ (by norm_num)
  have hη : (1 + δ) * (1 + 1 / 2 ^ 24) ^ (cs.depth + 2) - 1 ≤ 1 / 400000 := by
    have a : (1 + δ) * (1 + 1 / 2 ^ 24) ^ (cs.depth + 2) ≤ (1 + 1 / 2 ^ 22) * (1 + 1 / 2 ^ 24) ^ 32 :=
      mul_le_mul (by linarith) hp (by linarith) (by positivity)
    have b : ((1 : ℝ) + 1 / 2 ^ 22) * (1 + 1 / 2 ^ 24) ^ 32 ≤ 1 + 1 / 400000 := by norm_num
    linarith
  have hη0 : 0 ≤ (1 + δ) * (1 + 1 / 2 ^ 24) ^ (cs.depth + 2) - 1 := by nlinarith
  generalize (1 + δ) * (1 + 1 / 2 ^ 24) ^ (cs.depth + 2) - 1 = η at *
  have hk : (((34 + comps.length : ℕ) : ℝ)) / 2 ^ 23 ≤ 64 / 2 ^ 23 := by
    have : ((34 + comps.length : ℕ) : ℝ) ≤ 64 := by exact_mod_cast (by omega : 34 + comps.length ≤ 64)
    gcongr
  have hk0 : 0 ≤ (((34 + comps.length : ℕ) : ℝ)) / 2 ^ 23 := by positivity
  generalize (((34 + comps.length : ℕ) : ℝ)) / 2 ^ 23 = k at *
  have hS : 0 ≤ meantSizes bins data comps := by
    refine List.sum_nonneg (fun x hx => ?_)
    obtain ⟨b, hb, rfl⟩ := List.mem_map.1 hx
    exact add_nonneg (abs_nonneg _) (model_within h hb).2.1
  have hE : 0 ≤ (bins.map (fun b => (comps.map (fun t => expected bins t b)).sum)).sum := by
    refine List.sum_nonneg (fun x hx => ?_)
    obtain ⟨b, hb, rfl⟩ := List.mem_map.1 hx
    exact (model_within h hb).2.1
  have hD : 0 ≤ (bins.map (fun b => (data b).val)).sum := by
    refine List.sum_nonneg (fun x hx => ?_)
    obtain ⟨b, hb, rfl⟩ := List.mem_map.1 hx
    exact hd b hb
  generalize meantSizes bins data comps = S at *
  generalize (bins.map (fun b => (comps.map (fun t => expected bins t b)).sum)).sum = E' at *
  generalize (bins.map (fun b => (data b).val)).sum = D at *
  have a1 : η * S ≤ 1 / 100000 * S := mul_le_mul_of_nonneg_right (by linarith) hS
  have a2 : (1 + η) * k ≤ 1 / 100000 := by
    have : (1 + η) * k ≤ (1 + 1 / 400000) * (64 / 2 ^ 23) := mul_le_mul (by linarith) hk hk0 (by norm_num)
    exact this.trans (by norm_num)
  have a3 := mul_le_mul_of_nonneg_right a2 (add_nonneg hD hE)
  nlinarith

/-- **C125 (comparing parameter points).** Two parameter points are ordered as by the exact log likelihoods of the exact models, if these
differ by more than the two bounds. -/
theorem C125_order {δ : ℝ} (hδ : 0 ≤ δ) (hδ' : δ ≤ 1 / 2 ^ 22) {log32 : ℝ → ℝ} (hl : Accurate δ log32) (bins : List β) (data : β → F32)
    (hd : ∀ b ∈ bins, 0 ≤ (data b).val) (comps comps' : List (Template32 β)) (h : ∀ t ∈ comps, Usable bins 34 t) (h' : ∀ t ∈ comps', Usable bins 34 t)
    (hn : comps.length ≤ 30) (hn' : comps'.length ≤ 30) (cs cs' : Cells) (hcs : cs.list.Perm (bins.map (cellOf data comps)))
    (hcs' : cs'.list.Perm (bins.map (cellOf data comps'))) (hdep : cs.depth ≤ 30) (hdep' : cs'.depth ≤ 30) (v v' : ℝ)
    (hv : llh32 log32 cs = some v) (hv' : llh32 log32 cs' = some v')
    (hlt : 1 / 100000 * (meantSizes bins data comps +
        ((bins.map (fun b => (data b).val)).sum + (bins.map (fun b => (comps.map (fun t => expected bins t b)).sum)).sum)) +
      1 / 100000 * (meantSizes bins data comps' +
        ((bins.map (fun b => (data b).val)).sum + (bins.map (fun b => (comps'.map (fun t => expected bins t b)).sum)).sum))
      < meantLlh bins data comps' - meantLlh bins data comps) : v < v' := by
  have a := abs_le.1 (C125_small hδ hδ' hl bins data hd comps h hn cs hcs hdep v hv)
  have b := abs_le.1 (C125_small hδ hδ' hl bins data hd comps' h' hn' cs' hcs' hdep' v' hv')
  linarith [a.2, b.1]

/-- Three bins, one event in each of two, two components normalised in the two ways. -/
noncomputable def exComps : List (Template32 (Fin 3)) :=
  [⟨.onPdf (.add (.add (.leaf ⟨1⟩) (.leaf ⟨2⟩)) (.leaf ⟨3⟩)), 7, fun b => ⟨b.val + 1⟩⟩, ⟨.onSim 100, 5, fun b => ⟨10 * b.val⟩⟩]

example : (∀ t ∈ exComps, Usable [0, 1, 2] 34 t) ∧ expected ([0, 1, 2] : List (Fin 3)) (exComps[0]'(by simp [exComps])) 1 = 7 / 3 ∧
    expected ([0, 1, 2] : List (Fin 3)) (exComps[1]'(by simp [exComps])) 1 = 1 / 2 := by
  refine ⟨?_, ?_, ?_⟩
  · intro t ht
    simp only [exComps, List.mem_cons, List.not_mem_nil, or_false] at ht
    rcases ht with rfl | rfl
    · refine ⟨by norm_num, fun b _ => by simp only; positivity, by norm_num, fun o ho => ?_⟩
      simp only [Norm32.onPdf.injEq] at ho
      subst ho
      refine ⟨?_, by decide, by norm_num⟩
      simp [Order.contents]
      norm_num
    · exact ⟨by norm_num, fun b _ => by simp only; positivity, by norm_num, fun o ho => by simp at ho⟩
  · simp [exComps, expected]
    norm_num
  · simp [exComps, expected]
    norm_num

end Verif.Single
