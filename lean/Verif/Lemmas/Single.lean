/- Helper lemmas about single-precision sums and histograms with rounded sums (`Model/Single.lean`). -/
import Verif.Model.Single
import Verif.Lemmas.Hist
import Mathlib.Tactic.Linarith
import Mathlib.Tactic.Positivity
import Mathlib.Tactic.FieldSimp
import Mathlib.Tactic.NormNum
import Mathlib.Algebra.Order.Floor.Ring

namespace Verif.Single
open Verif Verif.Hist

theorem halfEven_int (n : ℤ) : halfEven n = n := by
  unfold halfEven
  simp

theorem halfEven_near (q : ℝ) : |(halfEven q : ℝ) - q| ≤ 1 / 2 := by
  have h0 := Int.floor_le q
  have h1 := Int.lt_floor_add_one q
  unfold halfEven
  rw [abs_le]
  split
  · constructor <;> linarith
  · split
    · push_cast; constructor <;> linarith
    · split
      · constructor <;> linarith
      · push_cast; constructor <;> linarith

theorem halfEven_half (n : ℤ) (h : Even n) : halfEven ((n : ℝ) + 1 / 2) = n := by
  have hf : ⌊(n : ℝ) + 1 / 2⌋ = n := by
    rw [Int.floor_eq_iff]; constructor <;> linarith
  unfold halfEven
  rw [hf]
  rw [if_neg (by norm_num), if_neg (by norm_num), if_pos h]

theorem ulp_pos (x : ℝ) : 0 < ulp x := by unfold ulp; exact zpow_pos (by norm_num) _

theorem rnd_near (x : ℝ) : |rnd x - x| ≤ ulp x / 2 := by
  have h := halfEven_near (x / ulp x)
  have hu := ulp_pos x
  have e : rnd x - x = ((halfEven (x / ulp x) : ℝ) - x / ulp x) * ulp x := by
    unfold rnd; field_simp
  rw [e, abs_mul, abs_of_pos hu]
  nlinarith

theorem ulp_le (x : ℝ) (h : x ≠ 0) : ulp x ≤ |x| * (1 / 2 ^ 23) := by
  have h1 : (2 : ℝ) ^ Int.log 2 |x| ≤ |x| := Int.zpow_log_le_self (by norm_num) (abs_pos.2 h)
  unfold ulp
  rw [zpow_sub₀ (by norm_num), div_eq_mul_one_div]
  have : (1 : ℝ) / 2 ^ (23 : ℤ) = 1 / 2 ^ 23 := by norm_num
  rw [this]
  exact mul_le_mul_of_nonneg_right h1 (by positivity)

theorem rnd_zero : rnd 0 = 0 := by
  unfold rnd
  rw [zero_div]
  have := halfEven_int 0
  push_cast at this
  rw [this]; simp

/-- The relative error of rounding. -/
theorem rnd_rel (x : ℝ) : |rnd x - x| ≤ |x| * (1 / 2 ^ 24) := by
  by_cases h : x = 0
  · subst h; rw [rnd_zero]; simp
  · refine (rnd_near x).trans ?_
    have := ulp_le x h
    have e : |x| * (1 / 2 ^ 24) = |x| * (1 / 2 ^ 23) / 2 := by ring
    rw [e]; linarith

theorem rnd_bounds (x : ℝ) (hx : 0 ≤ x) : (1 - 1 / 2 ^ 24) * x ≤ rnd x ∧ rnd x ≤ (1 + 1 / 2 ^ 24) * x := by
  have h := abs_le.1 (rnd_rel x)
  rw [abs_of_nonneg hx] at h
  constructor <;> linarith [h.1, h.2]

/-- Integers up to 2^24 are not rounded. -/
theorem rnd_nat (n : ℕ) (hn : n ≤ 2 ^ 24) : rnd n = n := by
  by_cases h0 : n = 0
  · subst h0; simpa using rnd_zero
  have hpos : (0 : ℝ) < n := by positivity
  have hlog : Int.log 2 (n : ℝ) = (Nat.log 2 n : ℤ) := Int.log_natCast 2 n
  have hk : Nat.log 2 n ≤ 24 := by
    have := Nat.log_mono_right (b := 2) hn
    rwa [Nat.log_pow (by norm_num)] at this
  have key : ∃ z : ℤ, (n : ℝ) / ulp n = z := by
    unfold ulp
    rw [abs_of_pos hpos, hlog]
    by_cases hk' : Nat.log 2 n ≤ 23
    · refine ⟨(n * 2 ^ (23 - Nat.log 2 n) : ℕ), ?_⟩
      have e : ((Nat.log 2 n : ℤ) - 23) = -((23 - Nat.log 2 n : ℕ) : ℤ) := by omega
      rw [e, zpow_neg, zpow_natCast, div_inv_eq_mul]
      push_cast
      rfl
    · have hk24 : Nat.log 2 n = 24 := by omega
      have hge : 2 ^ 24 ≤ n := by
        have := Nat.pow_log_le_self 2 h0
        rwa [hk24] at this
      have hn' : n = 2 ^ 24 := le_antisymm hn hge
      refine ⟨2 ^ 23, ?_⟩
      rw [hk24, hn']
      norm_num
  obtain ⟨z, hz⟩ := key
  unfold rnd
  rw [hz, halfEven_int, ← hz]
  exact div_mul_cancel₀ _ (ulp_pos _).ne'

/-- One more event is lost in a bin with 2^24 events. -/
theorem rnd_stuck : rnd ((2 : ℝ) ^ 24 + 1) = 2 ^ 24 := by
  have hlog : Int.log 2 |(2 : ℝ) ^ 24 + 1| = 24 := by
    rw [abs_of_pos (by positivity)]
    have e : ((2 : ℝ) ^ 24 + 1) = ((2 ^ 24 + 1 : ℕ) : ℝ) := by push_cast; norm_num
    rw [e, Int.log_natCast]
    have : Nat.log 2 (2 ^ 24 + 1) = 24 := by
      rw [Nat.log_eq_iff (by norm_num)]; norm_num
    rw [this]; rfl
  have hu : ulp ((2 : ℝ) ^ 24 + 1) = 2 := by
    unfold ulp; rw [hlog]; norm_num
  unfold rnd
  rw [hu]
  have e : ((2 : ℝ) ^ 24 + 1) / 2 = ((2 ^ 23 : ℤ) : ℝ) + 1 / 2 := by push_cast; norm_num
  rw [e, halfEven_half _ (by decide)]
  push_cast; norm_num

theorem val_add (a b : F32) : (a + b).val = rnd (a.val + b.val) := rfl

theorem val_zero : (0 : F32).val = 0 := rfl

/-- Counting by adding ones stops at 2^24. -/
theorem ones_val (n : ℕ) (a : F32) (k : ℕ) (ha : a.val = k) (hk : k ≤ 2 ^ 24) :
    ((List.replicate n (⟨1⟩ : F32)).foldl (· + ·) a).val = ((min (k + n) (2 ^ 24) : ℕ) : ℝ) := by
  induction n generalizing a k with
  | zero => rw [List.replicate_zero, List.foldl_nil, ha, Nat.add_zero, min_eq_left hk]
  | succ n ih =>
    rw [List.replicate_succ, List.foldl_cons]
    by_cases hlt : k < 2 ^ 24
    · rw [ih (a + ⟨1⟩) (k + 1) (by
        rw [val_add, ha]
        have := rnd_nat (k + 1) hlt
        rw [Nat.cast_succ] at this ⊢
        exact this) hlt]
      congr 2; omega
    · have hke : k = 2 ^ 24 := by omega
      subst hke
      rw [ih (a + ⟨1⟩) (2 ^ 24) (by
        rw [val_add, ha, Nat.cast_pow]
        exact rnd_stuck) le_rfl]
      rw [min_eq_right (by omega), min_eq_right (by omega)]

/-- Bounds of a rounded sum of non-negative numbers. -/
theorem foldl_bounds (l : List F32) (a : F32) (ha : 0 ≤ a.val) (hl : ∀ w ∈ l, 0 ≤ w.val) :
    (1 - 1 / 2 ^ 24) ^ l.length * (a.val + (l.map F32.val).sum) ≤ (l.foldl (· + ·) a).val ∧
    (l.foldl (· + ·) a).val ≤ (1 + 1 / 2 ^ 24) ^ l.length * (a.val + (l.map F32.val).sum) := by
  induction l generalizing a with
  | nil => simp
  | cons b l ih =>
    have hb : 0 ≤ b.val := hl b (by simp)
    have hs : 0 ≤ (l.map F32.val).sum := by
      apply List.sum_nonneg
      intro x hx
      obtain ⟨w, hw, rfl⟩ := List.mem_map.1 hx
      exact hl w (by simp [hw])
    obtain ⟨h1, h2⟩ := rnd_bounds (a.val + b.val) (by linarith)
    have hab : 0 ≤ a.val + b.val := by linarith
    have hr : 0 ≤ (a + b).val := by
      rw [val_add]
      refine le_trans ?_ h1
      apply mul_nonneg _ hab
      norm_num
    obtain ⟨i1, i2⟩ := ih (a + b) hr (fun w hw => hl w (by simp [hw]))
    rw [List.foldl_cons, List.length_cons, List.map_cons, List.sum_cons]
    rw [val_add] at i1 i2
    constructor
    · refine le_trans ?_ i1
      rw [pow_succ _ l.length, mul_assoc]
      apply mul_le_mul_of_nonneg_left _ (by apply pow_nonneg; norm_num)
      have : (1 - 1 / 2 ^ 24 : ℝ) * (l.map F32.val).sum ≤ (l.map F32.val).sum := by
        have : (0 : ℝ) ≤ 1 / 2 ^ 24 := by positivity
        nlinarith
      nlinarith
    · refine le_trans i2 ?_
      rw [pow_succ _ l.length, mul_assoc]
      apply mul_le_mul_of_nonneg_left _ (by apply pow_nonneg; norm_num)
      have : (l.map F32.val).sum ≤ (1 + 1 / 2 ^ 24 : ℝ) * (l.map F32.val).sum := by
        have : (0 : ℝ) ≤ 1 / 2 ^ 24 := by positivity
        nlinarith
      nlinarith

/-! ### Histograms with any sum -/

section
variable {K W : Type*} [LinearOrder K] [Add W] [Zero W]

/-- The weights of the samples with a property, in their order, added one after the other. -/
def added {S : Type*} (p : S → Prop) [DecidablePred p] (sw : List (S × W)) : W :=
  ((sw.filter (fun e => decide (p e.1))).map Prod.snd).foldl (· + ·) 0

theorem added_congr {S : Type*} {p q : S → Prop} [DecidablePred p] [DecidablePred q] (sw : List (S × W))
    (h : ∀ e ∈ sw, p e.1 ↔ q e.1) : added p sw = added q sw := by
  unfold added
  rw [List.filter_congr (q := fun e => decide (q e.1)) (fun e he => by simp [h e he])]

theorem scatter_length' {S : Type*} (f : S → Nat) (sw : List (S × W)) (h : List W) :
    (sw.foldl (fun h p => scatterAdd h (f p.1) p.2) h).length = h.length := by
  induction sw generalizing h with
  | nil => rfl
  | cons e sw ih => rw [List.foldl_cons, ih]; simp [scatterAdd]

theorem scatter_get' {S : Type*} (f : S → Nat) (sw : List (S × W)) (h : List W) (k : Nat) (hk : k < h.length) :
    (sw.foldl (fun h p => scatterAdd h (f p.1) p.2) h)[k]? =
      some (((sw.filter (fun e => decide (f e.1 = k))).map Prod.snd).foldl (· + ·) h[k]) := by
  induction sw generalizing h with
  | nil => simp [hk]
  | cons e sw ih =>
    rw [List.foldl_cons]
    have hl : k < (scatterAdd h (f e.1) e.2).length := by simpa [scatterAdd] using hk
    rw [ih _ hl]
    congr 1
    by_cases hf : f e.1 = k
    · rw [List.filter_cons_of_pos (by simp [hf]), List.map_cons, List.foldl_cons]
      congr 1
      simp [scatterAdd, List.getElem_modify, hf]
    · rw [List.filter_cons_of_neg (by simp [hf])]
      congr 1
      simp [scatterAdd, List.getElem_modify, hf]

theorem inner_scatter' {S : Type*} (f : S → Nat) (sw : List (S × W)) (n : Nat) :
    inner (sw.foldl (fun h p => scatterAdd h (f p.1) p.2) (List.replicate (n + 1) 0)) =
      (List.range (n - 1)).map (fun i => added (fun s => f s = i + 1) sw) := by
  apply List.ext_getElem?
  intro k
  by_cases hk : k < n - 1
  · rw [inner_getElem?]
    · rw [scatter_get' _ _ _ _ (by simp; omega)]
      simp [hk, added]
    · rw [scatter_length']; simp; omega
  · rw [List.getElem?_eq_none, List.getElem?_eq_none]
    · simp; omega
    · rw [inner_length, scatter_length']; simp; omega

theorem scatter2_length' {S : Type*} (f : S → Nat × Nat) (sw : List (S × W)) (h : List (List W)) :
    (sw.foldl (fun h p => scatterAdd2 h (f p.1).1 (f p.1).2 p.2) h).length = h.length := by
  induction sw generalizing h with
  | nil => rfl
  | cons e sw ih => rw [List.foldl_cons, ih]; simp [scatterAdd2]

theorem scatter2_row' {S : Type*} (f : S → Nat × Nat) (sw : List (S × W)) (h : List (List W)) (k : Nat)
    (hk : k < h.length) :
    (sw.foldl (fun h p => scatterAdd2 h (f p.1).1 (f p.1).2 p.2) h)[k]? =
      some ((sw.filter (fun e => (f e.1).1 = k)).foldl (fun r p => scatterAdd r (f p.1).2 p.2) h[k]) := by
  induction sw generalizing h with
  | nil => simp [hk]
  | cons e sw ih =>
    rw [List.foldl_cons]
    have hl : k < (scatterAdd2 h (f e.1).1 (f e.1).2 e.2).length := by simpa [scatterAdd2] using hk
    rw [ih _ hl]
    congr 1
    by_cases hf : (f e.1).1 = k
    · rw [List.filter_cons_of_pos (by simp [hf]), List.foldl_cons]
      congr 1
      simp [scatterAdd2, List.getElem_modify, hf]
    · rw [List.filter_cons_of_neg (by simp [hf])]
      congr 1
      simp [scatterAdd2, List.getElem_modify, hf]

theorem added_filter {S : Type*} {p : S → Prop} {_ : DecidablePred p} (q : S → Prop) [DecidablePred q] (sw : List (S × W)) :
    added p (sw.filter (fun e => decide (q e.1))) = added (fun s => q s ∧ p s) sw := by
  unfold added
  rw [List.filter_filter]
  congr 2
  apply List.filter_congr
  intro e _
  simp [Bool.and_comm]

theorem inner_scatter2' {S : Type*} (f : S → Nat × Nat) (sw : List (S × W)) (n m : Nat) :
    (inner (sw.foldl (fun h p => scatterAdd2 h (f p.1).1 (f p.1).2 p.2)
      (List.replicate (n + 1) (List.replicate (m + 1) 0)))).map inner =
      (List.range (n - 1)).map (fun i => (List.range (m - 1)).map (fun j =>
        added (fun s => (f s).1 = i + 1 ∧ (f s).2 = j + 1) sw)) := by
  apply List.ext_getElem?
  intro k
  rw [List.getElem?_map, List.getElem?_map]
  by_cases hk : k < n - 1
  · rw [inner_getElem?]
    · rw [scatter2_row' _ _ _ _ (by simp; omega)]
      simp only [List.getElem_replicate, Option.map_some, hk, List.getElem?_range, Option.some.injEq]
      rw [inner_scatter' (fun s => (f s).2)]
      apply List.map_congr_left
      intro j _
      exact added_filter (fun s => (f s).1 = k + 1) sw
    · rw [scatter2_length']; simp; omega
  · rw [List.getElem?_eq_none, List.getElem?_eq_none]
    · simp
    · simp; omega
    · rw [inner_length, scatter2_length']; simp; omega

theorem hist1d_eq' (bins : List K) (sw : List (Option K × W)) :
    hist1d bins sw = (List.range (bins.length - 1)).map (fun i => added (fun s => searchLeft bins s = i + 1) sw) :=
  inner_scatter' (searchLeft bins) sw bins.length

theorem mesh1d_eq' (bins : List K) (sw : List (Option K × W)) :
    mesh1d bins sw = (List.range (bins.length - 1)).map (fun i => added (fun s => meshIndex bins s = i + 1) sw) :=
  inner_scatter' (meshIndex bins) sw bins.length

theorem hist2d_eq' (bx : List K) (by' : List (List K)) (m2 : Nat) (sw : List ((Option K × Option K) × W)) :
    hist2d bx by' m2 sw = (List.range (bx.length - 1)).map (fun i => (List.range (m2 - 1)).map
      (fun j => added (fun s => (index2d bx by' s).1 = i + 1 ∧ (index2d bx by' s).2 = j + 1) sw)) :=
  inner_scatter2' (index2d bx by') sw bx.length m2

theorem mesh2d_eq' (ex ey : List K) (sw : List ((Option K × Option K) × W)) :
    mesh2d ex ey sw = (List.range (ex.length - 1)).map (fun i => (List.range (ey.length - 1)).map
      (fun j => added (fun s => meshIndex ex s.1 = i + 1 ∧ meshIndex ey s.2 = j + 1) sw)) :=
  inner_scatter2' (fun s : Option K × Option K => (meshIndex ex s.1, meshIndex ey s.2)) sw ex.length ey.length
end

/-- Unit weights. -/
theorem added_ones {S : Type*} (p : S → Prop) [DecidablePred p] (l : List S) :
    (added p (l.map (fun s => (s, (⟨1⟩ : F32))))).val = ((min (l.countP (fun s => decide (p s))) (2 ^ 24) : ℕ) : ℝ) := by
  have h : ((l.map (fun s => (s, (⟨1⟩ : F32)))).filter (fun e => decide (p e.1))).map Prod.snd =
      List.replicate (l.countP (fun s => decide (p s))) (⟨1⟩ : F32) := by
    induction l with
    | nil => rfl
    | cons s l ih =>
      rw [List.map_cons]
      by_cases hp : p s
      · rw [List.filter_cons_of_pos (by simpa using hp), List.map_cons, ih, List.countP_cons_of_pos (by simpa using hp)]; rfl
      · rw [List.filter_cons_of_neg (by simpa using hp), ih, List.countP_cons_of_neg (by simpa using hp)]
  unfold added
  rw [h, ones_val _ 0 0 (by rw [val_zero]; simp) (by norm_num), Nat.zero_add]

end Verif.Single
