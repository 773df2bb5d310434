/-
Property theorems C124: maps vary continuously with the position.
-/
import Mathlib.Topology.MetricSpace.Pseudo.Lemmas
import Mathlib.Topology.Algebra.Order.Group
import Mathlib.Topology.Instances.Real.Lemmas
import Verif.Lemmas.Smooth
import Verif.Props.Interp

namespace Verif.Interp
open Verif

section
variable {F : Type} [Field F] [LinearOrder F] [IsStrictOrderedRing F]

theorem chain_pairwise {pts : List (F × F)} {D : F} (h : pts.IsChain (fun p q => |q.2 - p.2| ≤ D * (q.1 - p.1))) :
    pts.Pairwise (fun p q => |q.2 - p.2| ≤ D * (q.1 - p.1)) := by
  have : IsTrans (F × F) (fun p q => |q.2 - p.2| ≤ D * (q.1 - p.1)) := ⟨fun p q r a b => by
    have c := abs_add_le (r.2 - q.2) (q.2 - p.2)
    rw [sub_add_sub_cancel] at c
    linarith⟩
  exact List.isChain_iff_pairwise.1 h

/-- **C124 (point maps).** If neighbouring entries of a point map differ by at most `D` times the distance of their positions, the values the map
returns at any two positions differ by at most `D` times the distance of the positions. -/
theorem C124_point_map (ref val : List F) (hlen : ref.length = val.length) (hne : ref ≠ []) (hs : ref.Pairwise (· < ·)) (D : F) (hD : 0 ≤ D)
    (h : (ref.zip val).IsChain (fun p q => |q.2 - p.2| ≤ D * (q.1 - p.1))) (x x' : F) :
    |curve ref val x' - curve ref val x| ≤ D * |x' - x| := by
  refine interp_lipschitz (pts := ref.zip val) ?_ hD (chain_pairwise h) (curve_spec ref val hlen hne hs x) (curve_spec ref val hlen hne hs x')
  rw [List.map_fst_zip (by omega)]
  exact hs

/-- **C124 (point maps, order).** A point map whose entries increase with the position returns values that increase with the position. -/
theorem C124_point_map_increases (ref val : List F) (hlen : ref.length = val.length) (hne : ref ≠ []) (hs : ref.Pairwise (· < ·))
    (h : val.Pairwise (· ≤ ·)) (x x' : F) (hx : x ≤ x') : curve ref val x ≤ curve ref val x' := by
  refine interp_increases (pts := ref.zip val) ?_ ?_ (curve_spec ref val hlen hne hs x) (curve_spec ref val hlen hne hs x') hx
  · rw [List.map_fst_zip (by omega)]
    exact hs
  · have : ((ref.zip val).map Prod.snd).Pairwise (· ≤ ·) := by
      rw [List.map_snd_zip (by omega)]
      exact h
    rwa [List.pairwise_map] at this

/-- **C124 (point maps read linearly).** The same for the method `LERP`, for maps of at least two points. -/
theorem C124_point_map_linear (ref val : List F) (hlen : ref.length = val.length) (h2 : 2 ≤ ref.length) (hs : ref.Pairwise (· < ·)) (D : F)
    (hD : 0 ≤ D) (h : (ref.zip val).IsChain (fun p q => |q.2 - p.2| ≤ D * (q.1 - p.1))) (x x' : F) :
    |linear1d ref val x' - linear1d ref val x| ≤ D * |x' - x| ∧ (val.Pairwise (· ≤ ·) → x ≤ x' → linear1d ref val x ≤ linear1d ref val x') := by
  have e : ((ref.zip val).map Prod.fst).Pairwise (· < ·) := by
    rw [List.map_fst_zip (by omega)]
    exact hs
  refine ⟨interp_lipschitz (pts := ref.zip val) e hD (chain_pairwise h) (linear1d_spec ref val hlen h2 hs x) (linear1d_spec ref val hlen h2 hs x'),
    fun hv hx => interp_increases (pts := ref.zip val) e ?_ (linear1d_spec ref val hlen h2 hs x) (linear1d_spec ref val hlen h2 hs x') hx⟩
  have : ((ref.zip val).map Prod.snd).Pairwise (· ≤ ·) := by
    rw [List.map_snd_zip (by omega)]
    exact hv
  rwa [List.pairwise_map] at this

variable [FloorRing F]

/-- **C124 (bilinear maps).** If neighbouring entries along either axis differ by at most `D0` and `D1` times their distance, the values at any two
positions, inside or outside, differ by at most `D0` and `D1` times the distances along the axes. -/
theorem C124_bilinear (g : Grid2 F) (a0 a1 : Axis F) (h0 : 2 ≤ g.n0) (h1 : 2 ≤ g.n1) (ha0 : a0.lo < a0.hi) (ha1 : a1.lo < a1.hi) (D0 D1 : F)
    (hD0 : 0 ≤ D0) (hD1 : 0 ≤ D1) (hv0 : ∀ i j, i + 1 < g.n0 → j < g.n1 → |g.val (i + 1) j - g.val i j| ≤ D0 * spacing g.n0 a0)
    (hv1 : ∀ i j, i < g.n0 → j + 1 < g.n1 → |g.val i (j + 1) - g.val i j| ≤ D1 * spacing g.n1 a1) (x y x' y' : F) :
    |bilinear g a0 a1 x' y' - bilinear g a0 a1 x y| ≤ D0 * |x' - x| + D1 * |y' - y| := by
  rw [bilinear_eq, bilinear_eq]
  have s1 : |axisLerp g.n0 a0 x' (fun i => axisLerp g.n1 a1 y' (fun j => g.val i j))
      - axisLerp g.n0 a0 x (fun i => axisLerp g.n1 a1 y' (fun j => g.val i j))| ≤ D0 * |x' - x| :=
    axisLerp_lipschitz _ _ _ _ _ h0 ha0 hD0 (fun i hi => axisLerp_diff _ _ _ _ _ h1 _ (fun j hj => hv0 i j hi hj))
  have s2 : |axisLerp g.n0 a0 x (fun i => axisLerp g.n1 a1 y' (fun j => g.val i j))
      - axisLerp g.n0 a0 x (fun i => axisLerp g.n1 a1 y (fun j => g.val i j))| ≤ D1 * |y' - y| :=
    axisLerp_diff _ _ _ _ _ h0 _ (fun i hi => axisLerp_lipschitz _ _ _ _ _ h1 ha1 hD1 (fun j hj => hv1 i j hi hj))
  have := abs_add_le (axisLerp g.n0 a0 x' (fun i => axisLerp g.n1 a1 y' (fun j => g.val i j))
      - axisLerp g.n0 a0 x (fun i => axisLerp g.n1 a1 y' (fun j => g.val i j))) (axisLerp g.n0 a0 x (fun i => axisLerp g.n1 a1 y' (fun j => g.val i j))
      - axisLerp g.n0 a0 x (fun i => axisLerp g.n1 a1 y (fun j => g.val i j)))
  rw [sub_add_sub_cancel] at this
  linarith

/-- **C124 (trilinear maps).** -/
theorem C124_trilinear (g : Grid3 F) (a0 a1 a2 : Axis F) (h0 : 2 ≤ g.n0) (h1 : 2 ≤ g.n1) (h2 : 2 ≤ g.n2) (ha0 : a0.lo < a0.hi)
    (ha1 : a1.lo < a1.hi) (ha2 : a2.lo < a2.hi) (D0 D1 D2 : F) (hD0 : 0 ≤ D0) (hD1 : 0 ≤ D1) (hD2 : 0 ≤ D2)
    (hv0 : ∀ i j k, i + 1 < g.n0 → j < g.n1 → k < g.n2 → |g.val (i + 1) j k - g.val i j k| ≤ D0 * spacing g.n0 a0)
    (hv1 : ∀ i j k, i < g.n0 → j + 1 < g.n1 → k < g.n2 → |g.val i (j + 1) k - g.val i j k| ≤ D1 * spacing g.n1 a1)
    (hv2 : ∀ i j k, i < g.n0 → j < g.n1 → k + 1 < g.n2 → |g.val i j (k + 1) - g.val i j k| ≤ D2 * spacing g.n2 a2) (x y z x' y' z' : F) :
    |trilinear g a0 a1 a2 x' y' z' - trilinear g a0 a1 a2 x y z| ≤ D0 * |x' - x| + D1 * |y' - y| + D2 * |z' - z| := by
  simp only [trilinear_eq]
  have s1 : |axisLerp g.n0 a0 x' (fun i => axisLerp g.n1 a1 y' (fun j => axisLerp g.n2 a2 z' (fun k => g.val i j k)))
      - axisLerp g.n0 a0 x (fun i => axisLerp g.n1 a1 y' (fun j => axisLerp g.n2 a2 z' (fun k => g.val i j k)))| ≤ D0 * |x' - x| :=
    axisLerp_lipschitz _ _ _ _ _ h0 ha0 hD0 (fun i hi => axisLerp_diff _ _ _ _ _ h1 _ (fun j hj => axisLerp_diff _ _ _ _ _ h2 _
      (fun k hk => hv0 i j k hi hj hk)))
  have s2 : |axisLerp g.n0 a0 x (fun i => axisLerp g.n1 a1 y' (fun j => axisLerp g.n2 a2 z' (fun k => g.val i j k)))
      - axisLerp g.n0 a0 x (fun i => axisLerp g.n1 a1 y (fun j => axisLerp g.n2 a2 z' (fun k => g.val i j k)))| ≤ D1 * |y' - y| :=
    axisLerp_diff _ _ _ _ _ h0 _ (fun i hi => axisLerp_lipschitz _ _ _ _ _ h1 ha1 hD1 (fun j hj => axisLerp_diff _ _ _ _ _ h2 _
      (fun k hk => hv1 i j k hi hj hk)))
  have s3 : |axisLerp g.n0 a0 x (fun i => axisLerp g.n1 a1 y (fun j => axisLerp g.n2 a2 z' (fun k => g.val i j k)))
      - axisLerp g.n0 a0 x (fun i => axisLerp g.n1 a1 y (fun j => axisLerp g.n2 a2 z (fun k => g.val i j k)))| ≤ D2 * |z' - z| :=
    axisLerp_diff _ _ _ _ _ h0 _ (fun i hi => axisLerp_diff _ _ _ _ _ h1 _ (fun j hj => axisLerp_lipschitz _ _ _ _ _ h2 ha2 hD2
      (fun k hk => hv2 i j k hi hj hk)))
  rw [abs_le] at s1 s2 s3 ⊢
  constructor <;> linarith [s1.1, s1.2, s2.1, s2.2, s3.1, s3.2]

/-- **C124 (bilinear maps, order).** A bilinear map whose entries increase along an axis increases along it. -/
theorem C124_bilinear_increases (g : Grid2 F) (a0 a1 : Axis F) (h0 : 2 ≤ g.n0) (h1 : 2 ≤ g.n1) (ha0 : a0.lo < a0.hi) (ha1 : a1.lo < a1.hi)
    (x x' y y' : F) :
    ((∀ i j, i + 1 < g.n0 → j < g.n1 → g.val i j ≤ g.val (i + 1) j) → x ≤ x' → bilinear g a0 a1 x y ≤ bilinear g a0 a1 x' y) ∧
    ((∀ i j, i < g.n0 → j + 1 < g.n1 → g.val i j ≤ g.val i (j + 1)) → y ≤ y' → bilinear g a0 a1 x y ≤ bilinear g a0 a1 x y') := by
  have diff : ∀ (n : Nat) (a : Axis F) (x : F) (v w : Nat → F), 2 ≤ n → (∀ i, i < n → v i ≤ w i) → axisLerp n a x v ≤ axisLerp n a x w := by
    intro n a x v w hn hvw
    obtain ⟨i, hi⟩ := cell_range n (frac n a x) hn
    obtain ⟨t0, t1⟩ := offset_range n (frac n a x)
    unfold axisLerp
    have e1 := hvw _ (wrap_lt n (cell n (frac n a x)) (by omega))
    have e2 := hvw _ (wrap_lt n (cell n (frac n a x) + 1) (by omega))
    have := mul_le_mul_of_nonneg_left e1 (sub_nonneg.2 t1)
    have := mul_le_mul_of_nonneg_left e2 t0
    linarith
  constructor
  · intro hv hx
    rw [bilinear_eq, bilinear_eq]
    exact axisLerp_mono _ _ _ _ _ h0 ha0 (fun i hi => diff _ _ _ _ _ h1 (fun j hj => hv i j hi hj)) hx
  · intro hv hy
    rw [bilinear_eq, bilinear_eq]
    exact diff _ _ _ _ _ h0 (fun i hi => axisLerp_mono _ _ _ _ _ h1 ha1 (fun j hj => hv i j hi hj) hy)

end

/-- **C124 (continuity).** So a bilinear map is continuous, whatever its entries.  Missing: the default method
`IDW`, for which continuity fails (`C124_idw_not_continuous`). -/
theorem C124_bilinear_continuous_partial (g : Grid2 ℝ) (a0 a1 : Axis ℝ) (h0 : 2 ≤ g.n0) (h1 : 2 ≤ g.n1) (ha0 : a0.lo < a0.hi) (ha1 : a1.lo < a1.hi) :
    Continuous (fun p : ℝ × ℝ => bilinear g a0 a1 p.1 p.2) := by
  have b0 := binSize_pos g.n0 a0 h0 ha0
  have b1 := binSize_pos g.n1 a1 h1 ha1
  let M : ℝ := ∑ i ∈ Finset.range g.n0, ∑ j ∈ Finset.range g.n1, |g.val i j|
  have hM : ∀ i j, i < g.n0 → j < g.n1 → |g.val i j| ≤ M := by
    intro i j hi hj
    have s1 : |g.val i j| ≤ ∑ j ∈ Finset.range g.n1, |g.val i j| :=
      Finset.single_le_sum (f := fun j => |g.val i j|) (fun _ _ => abs_nonneg _) (Finset.mem_range.2 hj)
    have s2 : ∑ j ∈ Finset.range g.n1, |g.val i j| ≤ M :=
      Finset.single_le_sum (f := fun i => ∑ j ∈ Finset.range g.n1, |g.val i j|) (fun _ _ => Finset.sum_nonneg (fun _ _ => abs_nonneg _)) (Finset.mem_range.2 hi)
    exact s1.trans s2
  have hM0 : 0 ≤ M := Finset.sum_nonneg (fun _ _ => Finset.sum_nonneg (fun _ _ => abs_nonneg _))
  have hd : ∀ i j i' j', i < g.n0 → j < g.n1 → i' < g.n0 → j' < g.n1 → |g.val i' j' - g.val i j| ≤ 2 * M := by
    intro i j i' j' a b c d
    have := abs_sub (g.val i' j') (g.val i j)
    have := hM i j a b
    have := hM i' j' c d
    linarith
  have hL := C124_bilinear g a0 a1 h0 h1 ha0 ha1 (2 * M / binSize g.n0 a0) (2 * M / binSize g.n1 a1) (by positivity) (by positivity)
    (fun i j hi hj => by
      have e : 2 * M / binSize g.n0 a0 * spacing g.n0 a0 = 2 * M := div_mul_cancel₀ _ b0.ne'
      rw [e]
      exact hd i j (i + 1) j (by omega) hj hi hj)
    (fun i j hi hj => by
      have e : 2 * M / binSize g.n1 a1 * spacing g.n1 a1 = 2 * M := div_mul_cancel₀ _ b1.ne'
      rw [e]
      exact hd i j i (j + 1) hi (by omega) hi hj)
  rw [continuous_iff_continuousAt]
  intro p
  rw [ContinuousAt, tendsto_iff_dist_tendsto_zero]
  have hc : Continuous (fun q : ℝ × ℝ => 2 * M / binSize g.n0 a0 * |q.1 - p.1| + 2 * M / binSize g.n1 a1 * |q.2 - p.2|) := by fun_prop
  have ht := hc.tendsto p
  simp only [sub_self, abs_zero, mul_zero, add_zero] at ht
  refine squeeze_zero (fun q => dist_nonneg) (fun q => ?_) ht
  rw [Real.dist_eq]
  exact hL p.1 p.2 q.1 q.2

/-- **C124 (inverse-distance maps jump).** An inverse-distance map takes the corners of one cell only, so it jumps where cells meet.  Even a map
whose entries are the column numbers `0, 1, 2, …`, whatever its length, stays below `k - 3/10` on the way to column `k` and is above `k + 3/10` there. -/
theorem C124_idw_jumps (n k : Nat) (hk : 1 ≤ k) (hn : k + 1 < n) :
    (∀ x : ℝ, (k : ℝ) - 1 ≤ x → x < k → idw2d ⟨n, 2, fun i _ => i⟩ ⟨0, (n : ℝ) - 1⟩ ⟨0, 1⟩ x (1 / 2) ≤ k - 3 / 10) ∧
    k + 3 / 10 ≤ idw2d ⟨n, 2, fun i _ => i⟩ ⟨0, (n : ℝ) - 1⟩ ⟨0, 1⟩ k (1 / 2) := by
  have hn' : (k : ℝ) + 1 < n := by exact_mod_cast hn
  have hk' : (1 : ℝ) ≤ k := by exact_mod_cast hk
  have b0 : binSize n (⟨0, (n : ℝ) - 1⟩ : Axis ℝ) = 1 := by
    unfold binSize
    have : (n : ℝ) - 1 ≠ 0 := by linarith
    simp [div_self this]
  have b1 : binSize 2 (⟨0, 1⟩ : Axis ℝ) = 1 := by
    unfold binSize
    norm_num
  have i1 : idwIndex 2 (⟨0, 1⟩ : Axis ℝ) (1 / 2) = 0 := by
    unfold idwIndex frac
    rw [b1]
    have : ⌊((1 : ℝ) / 2 - 0) / 1⌋ = 0 := by
      rw [Int.floor_eq_iff]
      norm_num
    rw [this]
    rfl
  have i0 : ∀ (m : Nat) (x : ℝ), m + 1 < n → (m : ℝ) ≤ x → x < m + 1 → idwIndex n (⟨0, (n : ℝ) - 1⟩ : Axis ℝ) x = m := by
    intro m x hm h1 h2
    unfold idwIndex frac
    rw [b0]
    have : ⌊(x - 0) / 1⌋ = (m : ℤ) := by
      rw [Int.floor_eq_iff]
      constructor
      · push_cast; linarith
      · push_cast; linarith
    rw [this]
    exact clip_of_mem _ _ _ (by omega) (by omega)
  -- the average over the four corners of the cell of column `m`
  have hval : ∀ (m : Nat) (x : ℝ), m + 1 < n → (m : ℝ) ≤ x → x < m + 1 →
      idw2d ⟨n, 2, fun i _ => i⟩ ⟨0, (n : ℝ) - 1⟩ ⟨0, 1⟩ x (1 / 2)
        = m + √((m - x) ^ 2 + 1 / 4) / (√((m - x) ^ 2 + 1 / 4) + √((m + 1 - x) ^ 2 + 1 / 4)) := by
    intro m x hm h1 h2
    have w0 : wrap n (m : ℤ) = m := by rw [wrap_of_range n m (by omega) (by omega)]; simp
    have w1 : wrap n ((m : ℤ) + 1) = m + 1 := by rw [wrap_of_range n _ (by omega) (by omega)]; omega
    have small : ∀ d : ℝ, 1 / 4 ≤ d → d ≤ 4 → clip (√d) floatPosMin floatPosMax = √d := by
      intro d d1 d2
      apply clip_of_mem
      · have : floatPosMin ≤ √(1 / 4) := by
          have e : √(1 / 4 : ℝ) = 1 / 2 := by rw [show (1 / 4 : ℝ) = (1 / 2) ^ 2 by norm_num, Real.sqrt_sq (by norm_num)]
          rw [e]
          unfold floatPosMin
          norm_num
        exact this.trans (Real.sqrt_le_sqrt d1)
      · have : √d ≤ 2 := by
          rw [show (2 : ℝ) = √(2 ^ 2) from (Real.sqrt_sq (by norm_num)).symm]
          exact Real.sqrt_le_sqrt (by linarith)
        refine this.trans ?_
        unfold floatPosMax
        norm_num
    unfold idw2d
    simp only [i0 m x hm h1 h2, i1, corners2, List.map_cons, List.map_nil, w0, w1, refPos, b0, b1]
    have q1 : (0 : ℝ) + 1 * ((m : ℤ) : ℝ) - x = m - x := by push_cast; ring
    have q2 : (0 : ℝ) + 1 * (((m : ℤ) + 1 : ℤ) : ℝ) - x = m + 1 - x := by push_cast; ring
    have q3 : ((0 : ℝ) + 1 * ((0 : ℤ) : ℝ) - 1 / 2) ^ 2 = 1 / 4 := by norm_num
    have q4 : ((0 : ℝ) + 1 * (((0 : ℤ) + 1 : ℤ) : ℝ) - 1 / 2) ^ 2 = 1 / 4 := by norm_num
    rw [q1, q2, q3, q4]
    have r1 : ((m : ℝ) - x) ^ 2 ≤ 1 := by nlinarith
    have r2 : ((m : ℝ) + 1 - x) ^ 2 ≤ 1 := by nlinarith
    have r3 : 0 ≤ ((m : ℝ) - x) ^ 2 := sq_nonneg _
    have r4 : 0 ≤ ((m : ℝ) + 1 - x) ^ 2 := sq_nonneg _
    rw [small _ (by linarith) (by linarith), small _ (by linarith) (by linarith)]
    have p1 : 0 < √(((m : ℝ) - x) ^ 2 + 1 / 4) := Real.sqrt_pos.2 (by linarith)
    have p2 : 0 < √(((m : ℝ) + 1 - x) ^ 2 + 1 / 4) := Real.sqrt_pos.2 (by linarith)
    generalize √(((m : ℝ) - x) ^ 2 + 1 / 4) = d at *
    generalize √(((m : ℝ) + 1 - x) ^ 2 + 1 / 4) = e at *
    unfold weighted
    simp only [List.map_cons, List.map_nil, List.sum_cons, List.sum_nil]
    push_cast
    field_simp
    ring
  have s5 : (2236 / 1000 : ℝ) ≤ √5 := Real.le_sqrt_of_sq_le (by norm_num)
  have s5' : √(5 : ℝ) ≤ 2237 / 1000 := by
    rw [Real.sqrt_le_left (by norm_num)]
    norm_num
  have e4 : √(1 / 4 : ℝ) = 1 / 2 := by rw [show (1 / 4 : ℝ) = (1 / 2) ^ 2 by norm_num, Real.sqrt_sq (by norm_num)]
  have e54 : √(5 / 4 : ℝ) = √5 / 2 := by
    rw [show (5 / 4 : ℝ) = 5 / 2 ^ 2 by norm_num, Real.sqrt_div (by norm_num), Real.sqrt_sq (by norm_num)]
  constructor
  · intro x h1 h2
    obtain ⟨m, rfl⟩ : ∃ m, k = m + 1 := ⟨k - 1, by omega⟩
    push_cast at *
    rw [hval m x (by omega) (by linarith) h2]
    have d1 : √(((m : ℝ) - x) ^ 2 + 1 / 4) ≤ √5 / 2 := by
      rw [← e54]
      exact Real.sqrt_le_sqrt (by nlinarith)
    have d2 : 1 / 2 ≤ √(((m : ℝ) + 1 - x) ^ 2 + 1 / 4) := by
      rw [← e4]
      exact Real.sqrt_le_sqrt (by have := sq_nonneg ((m : ℝ) + 1 - x); linarith)
    have p1 : 0 ≤ √(((m : ℝ) - x) ^ 2 + 1 / 4) := Real.sqrt_nonneg _
    generalize √(((m : ℝ) - x) ^ 2 + 1 / 4) = d at *
    generalize √(((m : ℝ) + 1 - x) ^ 2 + 1 / 4) = e at *
    have : d / (d + e) ≤ 7 / 10 := by
      rw [div_le_iff₀ (by linarith)]
      linarith
    linarith
  · rw [hval k k (by omega) (le_refl _) (by linarith)]
    have z1 : √(((k : ℝ) - k) ^ 2 + 1 / 4) = 1 / 2 := by rw [← e4]; congr 1; ring
    have z2 : √(((k : ℝ) + 1 - k) ^ 2 + 1 / 4) = √5 / 2 := by rw [← e54]; congr 1; ring
    rw [z1, z2]
    have : 3 / 10 ≤ 1 / 2 / (1 / 2 + √5 / 2) := by
      rw [le_div_iff₀ (by linarith)]
      linarith
    linarith

/-- **C124 (inverse-distance maps are not continuous).** -/
theorem C124_idw_not_continuous (n k : Nat) (hk : 1 ≤ k) (hn : k + 1 < n) :
    ¬ ContinuousAt (fun x : ℝ => idw2d ⟨n, 2, fun i _ => i⟩ ⟨0, (n : ℝ) - 1⟩ ⟨0, 1⟩ x (1 / 2)) k := by
  obtain ⟨h1, h2⟩ := C124_idw_jumps n k hk hn
  intro hc
  rw [Metric.continuousAt_iff] at hc
  obtain ⟨δ, hδ, h⟩ := hc (6 / 10) (by norm_num)
  have hx : dist ((k : ℝ) - min (δ / 2) 1) k < δ := by
    rw [Real.dist_eq]
    have : |(k : ℝ) - min (δ / 2) 1 - k| = min (δ / 2) 1 := by
      rw [show (k : ℝ) - min (δ / 2) 1 - k = -(min (δ / 2) 1) by ring, abs_neg, abs_of_nonneg (by positivity)]
    rw [this]
    exact (min_le_left _ _).trans_lt (by linarith)
  have hpos : 0 < min (δ / 2) 1 := by positivity
  have a := h hx
  have b := h1 ((k : ℝ) - min (δ / 2) 1) (by have := min_le_right (δ / 2) 1; linarith) (by linarith)
  rw [Real.dist_eq, abs_lt] at a
  linarith [a.1]

/-- The hypotheses of the statements above can be met. -/
example : ([0, 1, 3] : List ℚ).Pairwise (· < ·) ∧ (([0, 1, 3] : List ℚ).zip [2, 4, 0]).IsChain (fun p q => |q.2 - p.2| ≤ 2 * (q.1 - p.1)) ∧
    curve [0, 1, 3] [2, 4, 0] (2 : ℚ) - curve [0, 1, 3] [2, 4, 0] (3 / 2 : ℚ) = -1 := by decide +kernel

example : ∀ i j, i + 1 < 3 → j < 2 → |(fun i j : Nat => 2 * (i : ℚ) + j) (i + 1) j - (fun i j : Nat => 2 * (i : ℚ) + j) i j| ≤ 2 * spacing 3 (⟨0, 2⟩ : Axis ℚ) := by
  intro i j _ _
  simp [spacing]
  norm_num
  ring_nf
  norm_num

end Verif.Interp
