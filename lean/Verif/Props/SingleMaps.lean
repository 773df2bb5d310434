/-
C131: maps evaluated in single precision.
-/
import Verif.Model.SingleMaps
import Verif.Lemmas.SingleMaps
import Verif.Props.Smooth

namespace Verif.SingleMaps
open Verif Verif.Single Verif.Interp

/-- The relative size of a rounding error in single precision. -/
noncomputable def eps : ℝ := 1 / 2 ^ 24

/-- **C131 (point maps, efficiencies).** With non-negative values the single-precision result of a point map is the exact one up to a relative
error of seven units: no cancellation occurs, whatever the positions are, sorted or not, inside or outside the table. -/
theorem C131_point_map (ref val : List ℝ) (hv : ∀ v ∈ val, 0 ≤ v) (x : ℝ) :
    |curve32 ref val x - curve ref val x| ≤ 7 * eps * curve ref val x ∧ 0 ≤ curve32 ref val x ∧
      (curve32 ref val x = 0 ↔ curve ref val x = 0) := by
  obtain ⟨a, b, wa, wb, θa, θb, ma, mb, ha, hb, -, fa, fb, e, e'⟩ := curve32_form ref val x
  have nn : ∀ v ∈ val ++ [0], 0 ≤ v := by
    intro v h
    rcases List.mem_append.1 h with h | h
    · exact hv v h
    · simp at h; exact h.ge
  have pa := mul_nonneg (nn a ma) ha
  have pb := mul_nonneg (nn b mb) hb
  have na := fa.near (by norm_num)
  have nb := fb.near (by norm_num)
  rw [e, e']
  generalize a * wa = A at *
  generalize b * wb = B at *
  have t0 := fa.1
  have t1 := fb.1
  refine ⟨?_, by positivity, ?_⟩
  · have d : A * θa + B * θb - (A + B) = A * (θa - 1) + B * (θb - 1) := by ring
    rw [d]
    refine (abs_add_le _ _).trans ?_
    rw [abs_mul, abs_mul, abs_of_nonneg pa, abs_of_nonneg pb]
    have k : (((6 : ℕ) : ℝ) + 1) / 2 ^ 24 = 7 * eps := by unfold eps; norm_num
    rw [k] at na nb
    have := mul_le_mul_of_nonneg_left na pa
    have := mul_le_mul_of_nonneg_left nb pb
    linarith
  · constructor
    · intro h
      have h1 : A * θa = 0 := by nlinarith [mul_nonneg pa t0.le, mul_nonneg pb t1.le]
      have h2 : B * θb = 0 := by nlinarith [mul_nonneg pa t0.le, mul_nonneg pb t1.le]
      have := (mul_eq_zero.1 h1).resolve_right t0.ne'
      have := (mul_eq_zero.1 h2).resolve_right t1.ne'
      linarith
    · intro h
      have h1 : A = 0 := by linarith
      have h2 : B = 0 := by linarith
      simp [h1, h2]

/-- **C131 (point maps, any values).** With values of either sign the error is at most seven units of the largest magnitude. -/
theorem C131_point_map_signed (ref val : List ℝ) (M : ℝ) (hM : 0 ≤ M) (hv : ∀ v ∈ val, |v| ≤ M) (x : ℝ) :
    |curve32 ref val x - curve ref val x| ≤ 7 * eps * M := by
  obtain ⟨a, b, wa, wb, θa, θb, ma, mb, ha, hb, hw, fa, fb, e, e'⟩ := curve32_form ref val x
  have nn : ∀ v ∈ val ++ [0], |v| ≤ M := by
    intro v h
    rcases List.mem_append.1 h with h | h
    · exact hv v h
    · simp at h; simpa [h] using hM
  have na := fa.near (by norm_num)
  have nb := fb.near (by norm_num)
  have k : (((6 : ℕ) : ℝ) + 1) / 2 ^ 24 = 7 * eps := by unfold eps; norm_num
  rw [k] at na nb
  have k0 : 0 ≤ 7 * eps := by unfold eps; norm_num
  rw [e, e']
  have hwa : wa = 1 - wb := by linarith
  have d : a * wa * θa + b * wb * θb - (a * wa + b * wb) = (1 - wb) * ((θa - 1) * a) + wb * ((θb - 1) * b) := by rw [hwa]; ring
  rw [d]
  refine lerp_abs hb (by linarith) ?_ ?_
  · rw [abs_mul]; exact mul_le_mul na (nn a ma) (abs_nonneg _) k0
  · rw [abs_mul]; exact mul_le_mul nb (nn b mb) (abs_nonneg _) k0

/-- **C131 (point maps, everything rounded).** Positions, values and the position of the event are stored in single precision as well.  The result
differs from the exact interpolation of the file at the exact position at most by nine units of the largest value, and by what the steepest slope
makes of a shift by one unit of the positions. -/
theorem C131_total (ref val : List ℝ) (hlen : ref.length = val.length) (hne : ref ≠ []) (hs : ref.Pairwise (· < ·))
    (hs' : (ref.map rnd).Pairwise (· < ·)) (R M D : ℝ) (hR : ∀ r ∈ ref, |r| ≤ R) (hM : ∀ v ∈ val, |v| ≤ M) (hD : 0 ≤ D)
    (h : (ref.zip val).IsChain (fun p q => |q.2 - p.2| ≤ D * (q.1 - p.1))) (x : ℝ) :
    |pointMap32 ref val x - curve ref val x| ≤ 9 * eps * M + D * eps * (R + |x|) := by
  have hM0 : 0 ≤ M := by
    rcases val with _ | ⟨v, l⟩
    · exact absurd (List.length_eq_zero_iff.1 (by simpa using hlen)) hne
    · exact (abs_nonneg v).trans (hM v (by simp))
  have e1 : ∀ v ∈ val.map rnd, |v| ≤ M * (1 + eps) := by
    intro v hv
    obtain ⟨w, hw, rfl⟩ := List.mem_map.1 hv
    have r1 := rnd_rel w
    have r2 := hM w hw
    have r3 := abs_add_le w (rnd w - w)
    rw [add_sub_cancel] at r3
    unfold eps
    nlinarith
  have ep : 0 ≤ eps := by unfold eps; norm_num
  have s1 := C131_point_map_signed (ref.map rnd) (val.map rnd) (M * (1 + eps)) (by positivity) e1 (rnd x)
  have sp := curve_spec (ref.map rnd) (val.map rnd) (by simpa using hlen) (by simpa using hne) hs' (rnd x)
  have hz : (ref.map rnd).zip (val.map rnd) = (ref.zip val).map (fun p => (rnd p.1, rnd p.2)) := by
    rw [List.zip_map]
    rfl
  have f1 : (ref.zip val).map Prod.fst = ref := List.map_fst_zip (by omega)
  have f2 : ((ref.zip val).map (fun p => (rnd p.1, rnd p.2))).map Prod.fst = ref.map rnd := by
    rw [List.map_map, ← f1, List.map_map]
    rw [f1]
    rfl
  rw [hz] at sp
  obtain ⟨z, w, hw, hzx, hwy⟩ := moved_table (by rw [f2]; exact hs') (by rw [f1]; exact hs)
    (fun p hp => hR p.1 (List.of_mem_zip hp).1) (fun p hp => hM p.2 (List.of_mem_zip hp).2) sp
  have s2 := interp_lipschitz (by rw [f1]; exact hs) hD (chain_pairwise h) (curve_spec ref val hlen hne hs x) hw
  have s3 : |z - x| ≤ eps * (R + |x|) := by
    have r := rnd_rel x
    have := abs_sub_le z (rnd x) x
    have e : eps * (R + |x|) = R / 2 ^ 24 + |x| * (1 / 2 ^ 24) := by unfold eps; ring
    rw [e]
    linarith
  have s4 := mul_le_mul_of_nonneg_left s3 hD
  unfold pointMap32
  have t1 := abs_sub_le (curve32 (ref.map rnd) (val.map rnd) (rnd x)) (curve (ref.map rnd) (val.map rnd) (rnd x)) (curve ref val x)
  have t2 := abs_sub_le (curve (ref.map rnd) (val.map rnd) (rnd x)) w (curve ref val x)
  rw [abs_sub_comm (curve (ref.map rnd) (val.map rnd) (rnd x)) w] at t2
  have m1 : M / 2 ^ 24 = eps * M := by unfold eps; ring
  rw [m1] at hwy
  have m2 : 7 * eps * (M * (1 + eps)) + eps * M ≤ 9 * eps * M := by
    have e8 : 7 * eps * eps ≤ eps := by unfold eps; norm_num
    have := mul_le_mul_of_nonneg_right e8 hM0
    nlinarith
  have e : D * (eps * (R + |x|)) = D * eps * (R + |x|) := by ring
  rw [e] at s4
  linarith

/-- **C131 (two dimensions).** The single-precision bilinear map on a regular grid differs from the exact one at most by eight units of the largest
entry and, along each axis, by the largest step between neighbours times five units per bin: also where rounding makes the map look at the neighbouring cell,
and also outside the box. -/
theorem C131_bilinear (g : Grid2 ℝ) (a0 a1 : Axis ℝ) (h0 : 2 ≤ g.n0) (h1 : 2 ≤ g.n1) (ha0 : a0.lo < a0.hi) (ha1 : a1.lo < a1.hi) (M D0 D1 : ℝ)
    (hM : ∀ i j, i < g.n0 → j < g.n1 → |g.val i j| ≤ M) (hv0 : ∀ i j, i + 1 < g.n0 → j < g.n1 → |g.val (i + 1) j - g.val i j| ≤ D0)
    (hv1 : ∀ i j, i < g.n0 → j + 1 < g.n1 → |g.val i (j + 1) - g.val i j| ≤ D1) (x y : ℝ) :
    |bilinear32 g a0 a1 x y - bilinear g a0 a1 x y| ≤ eps * (8 * M + (5 * ((g.n0 : ℝ) - 1) + 1) * D0 + (5 * ((g.n1 : ℝ) - 1) + 1) * D1) := by
  have hD0 : 0 ≤ D0 := (abs_nonneg _).trans (hv0 0 0 (by omega) (by omega))
  have hD1 : 0 ≤ D1 := (abs_nonneg _).trans (hv1 0 0 (by omega) (by omega))
  obtain ⟨i, ci, hi, t0, t1, ni⟩ := place32 g.n0 a0 x h0 ha0
  obtain ⟨j, cj, hj, u0, u1, nj⟩ := place32 g.n1 a1 y h1 ha1
  have w0 : wrap g.n0 (i : Int) = i := by rw [wrap_of_range _ _ (by omega) (by omega)]; rfl
  have w0' : wrap g.n0 ((i : Int) + 1) = i + 1 := by rw [wrap_of_range _ _ (by omega) (by omega)]; rfl
  have w1 : wrap g.n1 (j : Int) = j := by rw [wrap_of_range _ _ (by omega) (by omega)]; rfl
  have w1' : wrap g.n1 ((j : Int) + 1) = j + 1 := by rw [wrap_of_range _ _ (by omega) (by omega)]; rfl
  have near := four_near t0 t1 u0 u1 (hM i j (by omega) (by omega)) (hM (i + 1) j (by omega) (by omega)) (hM i (j + 1) (by omega) (by omega))
    (hM (i + 1) (j + 1) (by omega) (by omega))
  rw [bilinear_eq]
  unfold bilinear32
  simp only [ci, cj, w0, w0', w1, w1']
  generalize offset32 g.n0 (frac32 g.n0 a0 x) = t at *
  generalize offset32 g.n1 (frac32 g.n1 a1 y) = u at *
  obtain ⟨k, s, hk, s0, s1, hks, ek⟩ := axisLerp_eq g.n0 a0 x (fun i => axisLerp g.n1 a1 y (fun j => g.val i j)) h0
  rw [ek]
  -- along the second axis
  have ax : ∀ m, m < g.n0 → |((1 - u) * g.val m j + u * g.val m (j + 1)) - axisLerp g.n1 a1 y (fun j => g.val m j)|
      ≤ (5 * ((g.n1 : ℝ) - 1) + 1) / 2 ^ 24 * D1 := by
    intro m hm
    obtain ⟨l, r, hl, r0, r1, hlr, el⟩ := axisLerp_eq g.n1 a1 y (fun j => g.val m j) h1
    rw [el]
    refine (blend_lipschitz g.n1 h1 (fun j => g.val m j) hD1 (fun j hj => hv1 m j hm hj) hj hl u0 u1 r0 r1).trans ?_
    rw [hlr, mul_comm]
    exact mul_le_mul_of_nonneg_right nj hD1
  -- along the first axis
  have ay := blend_lipschitz g.n0 h0 (fun m => axisLerp g.n1 a1 y (fun j => g.val m j)) hD0
    (fun m hm => axisLerp_diff _ _ _ _ _ h1 _ (fun j hj => hv0 m j hm hj)) hi hk t0 t1 s0 s1
  rw [hks] at ay
  have ay' := ay.trans (mul_le_mul_of_nonneg_left ni hD0)
  have az := lerp_abs t0 t1 (ax i (by omega)) (ax (i + 1) hi)
  generalize axisLerp g.n1 a1 y (fun j => g.val i j) = A at *
  generalize axisLerp g.n1 a1 y (fun j => g.val (i + 1) j) = B at *
  generalize axisLerp g.n1 a1 y (fun j => g.val k j) = A' at *
  generalize axisLerp g.n1 a1 y (fun j => g.val (k + 1) j) = B' at *
  have e : eps * (8 * M + (5 * ((g.n0 : ℝ) - 1) + 1) * D0 + (5 * ((g.n1 : ℝ) - 1) + 1) * D1)
      = 8 / 2 ^ 24 * M + (5 * ((g.n1 : ℝ) - 1) + 1) / 2 ^ 24 * D1 + D0 * ((5 * ((g.n0 : ℝ) - 1) + 1) / 2 ^ 24) := by unfold eps; ring
  rw [e]
  refine le_trans ?_ (add_le_add (add_le_add near az) ay')
  refine le_trans (le_of_eq ?_) ((abs_add_le _ _).trans (add_le_add_left (abs_add_le _ _) _))
  congr 1
  ring

/-- **C131 (three dimensions).** The same for the trilinear map, which blends axis by axis. -/
theorem C131_trilinear (g : Grid3 ℝ) (a0 a1 a2 : Axis ℝ) (h0 : 2 ≤ g.n0) (h1 : 2 ≤ g.n1) (h2 : 2 ≤ g.n2) (ha0 : a0.lo < a0.hi)
    (ha1 : a1.lo < a1.hi) (ha2 : a2.lo < a2.hi) (M D0 D1 D2 : ℝ) (hM : ∀ i j k, i < g.n0 → j < g.n1 → k < g.n2 → |g.val i j k| ≤ M)
    (hv0 : ∀ i j k, i + 1 < g.n0 → j < g.n1 → k < g.n2 → |g.val (i + 1) j k - g.val i j k| ≤ D0)
    (hv1 : ∀ i j k, i < g.n0 → j + 1 < g.n1 → k < g.n2 → |g.val i (j + 1) k - g.val i j k| ≤ D1)
    (hv2 : ∀ i j k, i < g.n0 → j < g.n1 → k + 1 < g.n2 → |g.val i j (k + 1) - g.val i j k| ≤ D2) (x y z : ℝ) :
    |trilinear32 g a0 a1 a2 x y z - trilinear g a0 a1 a2 x y z|
      ≤ eps * (13 * M + (5 * ((g.n0 : ℝ) - 1) + 1) * D0 + (5 * ((g.n1 : ℝ) - 1) + 1) * D1 + (5 * ((g.n2 : ℝ) - 1) + 1) * D2) := by
  have hM0 : 0 ≤ M := (abs_nonneg _).trans (hM 0 0 0 (by omega) (by omega) (by omega))
  have hD0 : 0 ≤ D0 := (abs_nonneg _).trans (hv0 0 0 0 (by omega) (by omega) (by omega))
  have hD1 : 0 ≤ D1 := (abs_nonneg _).trans (hv1 0 0 0 (by omega) (by omega) (by omega))
  have hD2 : 0 ≤ D2 := (abs_nonneg _).trans (hv2 0 0 0 (by omega) (by omega) (by omega))
  obtain ⟨i, ci, hi, t0, t1, ni⟩ := place32 g.n0 a0 x h0 ha0
  obtain ⟨j, cj, hj, u0, u1, nj⟩ := place32 g.n1 a1 y h1 ha1
  obtain ⟨k, ck, hk, w0, w1, nk⟩ := place32 g.n2 a2 z h2 ha2
  have p0 : wrap g.n0 (i : Int) = i := by rw [wrap_of_range _ _ (by omega) (by omega)]; rfl
  have p0' : wrap g.n0 ((i : Int) + 1) = i + 1 := by rw [wrap_of_range _ _ (by omega) (by omega)]; rfl
  have p1 : wrap g.n1 (j : Int) = j := by rw [wrap_of_range _ _ (by omega) (by omega)]; rfl
  have p1' : wrap g.n1 ((j : Int) + 1) = j + 1 := by rw [wrap_of_range _ _ (by omega) (by omega)]; rfl
  have p2 : wrap g.n2 (k : Int) = k := by rw [wrap_of_range _ _ (by omega) (by omega)]; rfl
  have p2' : wrap g.n2 ((k : Int) + 1) = k + 1 := by rw [wrap_of_range _ _ (by omega) (by omega)]; rfl
  rw [trilinear_eq]
  unfold trilinear32
  simp only [ci, cj, ck, p0, p0', p1, p1', p2, p2']
  generalize offset32 g.n0 (frac32 g.n0 a0 x) = t at *
  generalize offset32 g.n1 (frac32 g.n1 a1 y) = u at *
  generalize offset32 g.n2 (frac32 g.n2 a2 z) = w at *
  -- the rounded blends against exact blends at the same place
  have b : ∀ j k, j < g.n1 → k < g.n2 → |blend32 t (g.val i j k) (g.val (i + 1) j k) - ((1 - t) * g.val i j k + t * g.val (i + 1) j k)|
      ≤ 4 * eps * M := by
    intro j k hj hk
    have h := blend32_near t0 t1 (hM i j k (by omega) hj hk) (hM (i + 1) j k hi hj hk) (E := 0)
      (a' := g.val i j k) (b' := g.val (i + 1) j k) (by simp) (by simp)
    refine h.trans (le_of_eq ?_)
    unfold eps; ring
  have bM : ∀ j k, j < g.n1 → k < g.n2 → |(1 - t) * g.val i j k + t * g.val (i + 1) j k| ≤ M := fun j k hj hk =>
    lerp_abs t0 t1 (hM i j k (by omega) hj hk) (hM (i + 1) j k hi hj hk)
  have c : ∀ k, k < g.n2 → _ := fun k hk => blend32_near u0 u1 (bM j k (by omega) hk) (bM (j + 1) k hj hk) (b j k (by omega) hk) (b (j + 1) k hj hk)
  have cM : ∀ k, k < g.n2 → _ := fun k hk => lerp_abs u0 u1 (bM j k (by omega) hk) (bM (j + 1) k hj hk)
  have d := blend32_near w0 w1 (cM k (by omega)) (cM (k + 1) hk) (c k (by omega)) (c (k + 1) hk)
  -- the exact blends at the two places
  let v := g.val
  have az : ∀ m n, m < g.n0 → n < g.n1 → |((1 - w) * g.val m n k + w * g.val m n (k + 1)) - axisLerp g.n2 a2 z (fun k => g.val m n k)|
      ≤ (5 * ((g.n2 : ℝ) - 1) + 1) / 2 ^ 24 * D2 := by
    intro m n hm hn
    obtain ⟨l, r, hl, r0, r1, hlr, el⟩ := axisLerp_eq g.n2 a2 z (fun k => g.val m n k) h2
    rw [el]
    refine (blend_lipschitz g.n2 h2 (fun k => g.val m n k) hD2 (fun k hk => hv2 m n k hm hn hk) hk hl w0 w1 r0 r1).trans ?_
    rw [hlr, mul_comm]
    exact mul_le_mul_of_nonneg_right nk hD2
  have ay : ∀ m, m < g.n0 → |((1 - u) * axisLerp g.n2 a2 z (fun k => g.val m j k) + u * axisLerp g.n2 a2 z (fun k => g.val m (j + 1) k))
      - axisLerp g.n1 a1 y (fun j => axisLerp g.n2 a2 z (fun k => g.val m j k))| ≤ (5 * ((g.n1 : ℝ) - 1) + 1) / 2 ^ 24 * D1 := by
    intro m hm
    obtain ⟨l, r, hl, r0, r1, hlr, el⟩ := axisLerp_eq g.n1 a1 y (fun j => axisLerp g.n2 a2 z (fun k => g.val m j k)) h1
    rw [el]
    refine (blend_lipschitz g.n1 h1 (fun j => axisLerp g.n2 a2 z (fun k => g.val m j k)) hD1
      (fun j hj => axisLerp_diff _ _ _ _ _ h2 _ (fun k hk => hv1 m j k hm hj hk)) hj hl u0 u1 r0 r1).trans ?_
    rw [hlr, mul_comm]
    exact mul_le_mul_of_nonneg_right nj hD1
  have ax : |((1 - t) * axisLerp g.n1 a1 y (fun j => axisLerp g.n2 a2 z (fun k => g.val i j k))
      + t * axisLerp g.n1 a1 y (fun j => axisLerp g.n2 a2 z (fun k => g.val (i + 1) j k)))
      - axisLerp g.n0 a0 x (fun i => axisLerp g.n1 a1 y (fun j => axisLerp g.n2 a2 z (fun k => g.val i j k)))|
      ≤ (5 * ((g.n0 : ℝ) - 1) + 1) / 2 ^ 24 * D0 := by
    obtain ⟨l, r, hl, r0, r1, hlr, el⟩ := axisLerp_eq g.n0 a0 x (fun i => axisLerp g.n1 a1 y (fun j => axisLerp g.n2 a2 z (fun k => g.val i j k))) h0
    rw [el]
    refine (blend_lipschitz g.n0 h0 (fun i => axisLerp g.n1 a1 y (fun j => axisLerp g.n2 a2 z (fun k => g.val i j k))) hD0
      (fun m hm => axisLerp_diff _ _ _ _ _ h1 _ (fun j hj => axisLerp_diff _ _ _ _ _ h2 _ (fun k hk => hv0 m j k hm hj hk)))
      hi hl t0 t1 r0 r1).trans ?_
    rw [hlr, mul_comm]
    exact mul_le_mul_of_nonneg_right ni hD0
  have az' := lerp_abs t0 t1 (lerp_abs u0 u1 (az i j (by omega) (by omega)) (az i (j + 1) (by omega) hj))
    (lerp_abs u0 u1 (az (i + 1) j hi (by omega)) (az (i + 1) (j + 1) hi hj))
  have ay' := lerp_abs t0 t1 (ay i (by omega)) (ay (i + 1) hi)
  have tot := (abs_add_le _ _).trans (add_le_add ((abs_add_le _ _).trans (add_le_add ((abs_add_le _ _).trans (add_le_add d az')) ay')) ax)
  refine le_trans (le_of_eq ?_) (tot.trans ?_)
  · congr 1
    ring
  · have e13 : 4 / 2 ^ 24 * (M + (4 / 2 ^ 24 * (M + 4 * eps * M) + 4 * eps * M)) + (4 / 2 ^ 24 * (M + 4 * eps * M) + 4 * eps * M)
        ≤ 13 * eps * M := by
      have : 4 / 2 ^ 24 * (M + (4 / 2 ^ 24 * (M + 4 * eps * M) + 4 * eps * M)) + (4 / 2 ^ 24 * (M + 4 * eps * M) + 4 * eps * M)
          = (4 / 2 ^ 24 * (1 + (4 / 2 ^ 24 * (1 + 4 * eps) + 4 * eps)) + (4 / 2 ^ 24 * (1 + 4 * eps) + 4 * eps)) * M := by ring
      rw [this]
      refine mul_le_mul_of_nonneg_right ?_ hM0
      unfold eps
      norm_num
    have e : eps * (13 * M + (5 * ((g.n0 : ℝ) - 1) + 1) * D0 + (5 * ((g.n1 : ℝ) - 1) + 1) * D1 + (5 * ((g.n2 : ℝ) - 1) + 1) * D2)
        = 13 * eps * M + (5 * ((g.n2 : ℝ) - 1) + 1) / 2 ^ 24 * D2 + (5 * ((g.n1 : ℝ) - 1) + 1) / 2 ^ 24 * D1
          + (5 * ((g.n0 : ℝ) - 1) + 1) / 2 ^ 24 * D0 := by unfold eps; ring
    rw [e]
    linarith

/-- **C131 (efficiencies stay efficiencies).** Point maps and trilinear maps with entries between 0 and 1 return numbers between 0 and 1 in single
precision too, and return exactly 1 where all entries are 1. -/
theorem C131_unit_range :
    (∀ (ref val : List ℝ) (x : ℝ), (∀ v ∈ val, 0 ≤ v ∧ v ≤ 1) → 0 ≤ curve32 ref val x ∧ curve32 ref val x ≤ 1) ∧
    (∀ (ref val : List ℝ) (x : ℝ), val ≠ [] → (∀ v ∈ val, v = 1) → curve32 ref val x = 1) ∧
    (∀ (g : Grid3 ℝ) (a0 a1 a2 : Axis ℝ) (x y z : ℝ), (∀ i j k, 0 ≤ g.val i j k ∧ g.val i j k ≤ 1) →
      0 ≤ trilinear32 g a0 a1 a2 x y z ∧ trilinear32 g a0 a1 a2 x y z ≤ 1) ∧
    (∀ (g : Grid3 ℝ) (a0 a1 a2 : Axis ℝ) (x y z : ℝ), (∀ i j k, g.val i j k = 1) → trilinear32 g a0 a1 a2 x y z = 1) := by
  have mem : ∀ (val : List ℝ) i, gather val i ∈ val ∨ gather val i = 0 := by
    intro val i
    unfold gather
    rw [List.getD_eq_getElem?_getD]
    rcases h : val[min i (val.length - 1)]? with _ | v
    · simp
    · simp [List.mem_of_getElem? h]
  have off := offset32_unit
  refine ⟨?_, ?_, ?_, ?_⟩
  · intro ref val x hv
    refine ⟨(C131_point_map ref val (fun v h => (hv v h).1) x).2.1, ?_⟩
    unfold curve32
    simp only
    have g1 : ∀ i, 0 ≤ gather val i ∧ gather val i ≤ 1 := by
      intro i
      rcases mem val i with h | h
      · exact hv _ h
      · rw [h]; norm_num
    split_ifs with c
    · exact average_le_one (g1 _) (g1 _) c
    · exact (g1 _).2
  · intro ref val x hne hv
    have g1 : ∀ i, gather val i = 1 := by
      intro i
      have hp : 0 < val.length := List.length_pos_iff.2 hne
      unfold gather
      rw [List.getD_eq_getElem?_getD, List.getElem?_eq_getElem (by omega)]
      exact hv _ (List.getElem_mem _)
    unfold curve32
    simp only [g1, one_mul]
    split_ifs with c
    · rw [rnd_abs_rnd, rnd_abs_rnd, add_comm, div_self c.ne']
      exact rnd_one
    · rfl
  · intro g a0 a1 a2 x y z hv
    unfold trilinear32
    simp only
    have b := fun {t a b : ℝ} (ht : 0 ≤ t ∧ t ≤ 1 ∧ rnd t = t) (ha : 0 ≤ a ∧ a ≤ 1) (hb : 0 ≤ b ∧ b ≤ 1) => blend32_unit ht.1 ht.2.1 ht.2.2 ha hb
    exact b (off _ _) (b (off _ _) (b (off _ _) (hv _ _ _) (hv _ _ _)) (b (off _ _) (hv _ _ _) (hv _ _ _)))
      (b (off _ _) (b (off _ _) (hv _ _ _) (hv _ _ _)) (b (off _ _) (hv _ _ _) (hv _ _ _)))
  · intro g a0 a1 a2 x y z hv
    unfold trilinear32
    simp only [hv]
    simp only [blend32_one (off _ _).1 (off _ _).2.1 (off _ _).2.2]

/-- **C131 (bilinear maps exceed one).** The bilinear map multiplies the weights of the corners first, and their rounded sum may exceed 1: a map of
efficiencies that are all 1 returns a number above 1 (by the smallest step possible). -/
theorem C131_bilinear_exceeds : ∃ (a0 a1 : Axis ℝ) (x y : ℝ), bilinear32 ⟨2, 2, fun _ _ => 1⟩ a0 a1 x y = 1 + 1 / 2 ^ 23 ∧
    bilinear ⟨2, 2, fun _ _ => 1⟩ a0 a1 x y = 1 ∧ rnd x = x ∧ rnd y = y := by
  have near : ∀ (e j : ℤ) (x y : ℝ), (2 : ℝ) ^ e ≤ x → x < 2 ^ (e + 1) → |x - j * 2 ^ (e - 23)| < 2 ^ (e - 23) / 2 → y = j * 2 ^ (e - 23) →
      rnd x = y := by
    intro e j x y h1 h2 h3 h4
    rw [h4]
    exact rnd_close e j h1 h2 h3
  have tie : ∀ (e n : ℤ) (x y : ℝ), (2 : ℝ) ^ e ≤ x → x < 2 ^ (e + 1) → x / 2 ^ (e - 23) = n + 1 / 2 → ¬ Even n → y = (n + 1) * 2 ^ (e - 23) →
      rnd x = y := by
    intro e n x y h1 h2 h3 h4 h5
    rw [rnd_at e (n + 1) h1 h2 (by rw [h3]; exact halfEven_tie_odd n h4), h5]
    push_cast
    rfl
  have rt : rnd (11377 / 16384) = 11377 / 16384 :=
    near (-1) 11650048 _ _ (by norm_num) (by norm_num) (by norm_num) (by norm_num)
  have ru : rnd (4458593 / 16777216) = 4458593 / 16777216 :=
    near (-2) 8917186 _ _ (by norm_num) (by norm_num) (by norm_num) (by norm_num)
  have rT : rnd (5007 / 16384) = 5007 / 16384 :=
    near (-2) 10254336 _ _ (by norm_num) (by norm_num) (by norm_num) (by norm_num)
  have rU : rnd (12318623 / 16777216) = 12318623 / 16777216 :=
    near (-1) 12318623 _ _ (by norm_num) (by norm_num) (by norm_num) (by norm_num)
  have r1 : rnd (61679345361 / 274877906944) = 7529217 / 33554432 :=
    near (-3) 15058434 _ _ (by norm_num) (by norm_num) (by norm_num [abs_lt]) (by norm_num)
  have r2 : rnd (140148973871 / 274877906944) = 8554015 / 16777216 :=
    near (-1) 8554015 _ _ (by norm_num) (by norm_num) (by norm_num [abs_lt]) (by norm_num)
  have r3 : rnd (22324175151 / 274877906944) = 2725119 / 33554432 :=
    near (-4) 10900476 _ _ (by norm_num) (by norm_num) (by norm_num [abs_lt]) (by norm_num)
  have r4 : rnd (50725412561 / 274877906944) = 6192067 / 33554432 :=
    near (-3) 12384134 _ _ (by norm_num) (by norm_num) (by norm_num [abs_lt]) (by norm_num)
  have s1 : rnd (24637247 / 33554432) = 384957 / 524288 :=
    tie (-1) 12318623 _ _ (by norm_num) (by norm_num) (by norm_num) (by decide) (by norm_num)
  have s2 : rnd (27362367 / 33554432) = 427537 / 524288 :=
    tie (-1) 13681183 _ _ (by norm_num) (by norm_num) (by norm_num) (by decide) (by norm_num)
  have s3 : rnd (33554435 / 33554432) = 1 + 1 / 2 ^ 23 :=
    near 0 8388609 _ _ (by norm_num) (by norm_num) (by norm_num [abs_lt]) (by norm_num)
  have fr : ∀ x : ℝ, rnd x = x → frac32 2 (⟨0, 1⟩ : Axis ℝ) x = x := by
    intro x hx
    unfold frac32
    norm_num [rnd_one, hx]
  have ce : ∀ f : ℝ, cell 2 f = 0 := by
    intro f
    unfold cell clip
    simp
  have of' : ∀ x : ℝ, rnd x = x → 0 ≤ x → x ≤ 1 → offset32 2 x = x := by
    intro x hx h0 h1
    unfold offset32
    rw [ce]
    simp only [Int.cast_zero, sub_zero, hx]
    exact clip_of_mem x 0 1 h0 h1
  refine ⟨⟨0, 1⟩, ⟨0, 1⟩, 11377 / 16384, 4458593 / 16777216, ?_, ?_, rt, ru⟩
  · unfold bilinear32
    simp only
    rw [fr _ rt, fr _ ru, of' _ rt (by norm_num) (by norm_num), of' _ ru (by norm_num) (by norm_num)]
    rw [show (1 - 11377 / 16384 : ℝ) = 5007 / 16384 by norm_num, show (1 - 4458593 / 16777216 : ℝ) = 12318623 / 16777216 by norm_num, rT, rU]
    rw [show (5007 / 16384 * (12318623 / 16777216) : ℝ) = 61679345361 / 274877906944 by norm_num,
      show (11377 / 16384 * (12318623 / 16777216) : ℝ) = 140148973871 / 274877906944 by norm_num,
      show (5007 / 16384 * (4458593 / 16777216) : ℝ) = 22324175151 / 274877906944 by norm_num,
      show (11377 / 16384 * (4458593 / 16777216) : ℝ) = 50725412561 / 274877906944 by norm_num]
    simp only [mul_one, rnd_rnd]
    rw [r1, r2, r3, r4, show (7529217 / 33554432 + 8554015 / 16777216 : ℝ) = 24637247 / 33554432 by norm_num, s1,
      show (384957 / 524288 + 2725119 / 33554432 : ℝ) = 27362367 / 33554432 by norm_num, s2,
      show (427537 / 524288 + 6192067 / 33554432 : ℝ) = 33554435 / 33554432 by norm_num, s3]
  · unfold bilinear
    ring

/-- **C131 (bilinear maps, how far).** In general the rounded bilinear map with entries between 0 and 1 lies between 0 and 1 plus eight units. -/
theorem C131_bilinear_unit_partial (g : Grid2 ℝ) (a0 a1 : Axis ℝ) (x y : ℝ) (hv : ∀ i j, 0 ≤ g.val i j ∧ g.val i j ≤ 1) :
    0 ≤ bilinear32 g a0 a1 x y ∧ bilinear32 g a0 a1 x y ≤ 1 + 8 * eps := by
  have ab : ∀ i j, |g.val i j| ≤ 1 := fun i j => abs_le.2 ⟨by linarith [(hv i j).1], (hv i j).2⟩
  unfold bilinear32
  simp only
  obtain ⟨t0, t1, -⟩ := offset32_unit g.n0 (frac32 g.n0 a0 x)
  obtain ⟨u0, u1, -⟩ := offset32_unit g.n1 (frac32 g.n1 a1 y)
  generalize offset32 g.n0 (frac32 g.n0 a0 x) = t at *
  generalize offset32 g.n1 (frac32 g.n1 a1 y) = u at *
  generalize cell g.n0 (frac32 g.n0 a0 x) = i
  generalize cell g.n1 (frac32 g.n1 a1 y) = j
  have T0 : 0 ≤ rnd (1 - t) := rnd_nonneg (by linarith)
  have U0 : 0 ≤ rnd (1 - u) := rnd_nonneg (by linarith)
  have p : ∀ {w v : ℝ}, 0 ≤ w → 0 ≤ v → 0 ≤ rnd (rnd w * v) := fun hw h => rnd_nonneg (mul_nonneg (rnd_nonneg hw) h)
  constructor
  · exact rnd_nonneg (add_nonneg (rnd_nonneg (add_nonneg (rnd_nonneg (add_nonneg (p (mul_nonneg T0 U0) (hv _ _).1) (p (mul_nonneg t0 U0) (hv _ _).1)))
      (p (mul_nonneg T0 u0) (hv _ _).1))) (p (mul_nonneg t0 u0) (hv _ _).1))
  · have near := four_near t0 t1 u0 u1 (ab (wrap g.n0 i) (wrap g.n1 j)) (ab (wrap g.n0 (i + 1)) (wrap g.n1 j)) (ab (wrap g.n0 i) (wrap g.n1 (j + 1)))
      (ab (wrap g.n0 (i + 1)) (wrap g.n1 (j + 1)))
    have ex := lerp_abs u0 u1 (lerp_abs t0 t1 (ab (wrap g.n0 i) (wrap g.n1 j)) (ab (wrap g.n0 (i + 1)) (wrap g.n1 j)))
      (lerp_abs t0 t1 (ab (wrap g.n0 i) (wrap g.n1 (j + 1))) (ab (wrap g.n0 (i + 1)) (wrap g.n1 (j + 1))))
    have e8 : 8 / 2 ^ 24 * (1 : ℝ) = 8 * eps := by unfold eps; norm_num
    rw [e8] at near
    have n2 := (abs_le.1 near).2
    have e2 := (abs_le.1 ex).2
    linarith

/-- A point map with two entries, in the middle between them. -/
theorem curve32_middle (a b : ℝ) : curve32 [0, 10] [a, b] 5 = rnd (rnd (rnd (b * 5) + rnd (a * 5)) / 10) := by
  have r5 : rnd 5 = 5 := by have := rnd_nat 5 (by norm_num); simpa using this
  have r10 : rnd 10 = 10 := by have := rnd_nat 10 (by norm_num); simpa using this
  have rm : rnd (-5) = -5 := by rw [rnd_neg, r5]
  have hr : ([0, 10] : List ℝ).countP (fun b => decide (b < 5)) = 1 := by
    rw [List.countP_cons_of_pos (by norm_num), List.countP_cons_of_neg (by norm_num)]
    rfl
  unfold curve32
  simp only [hr]
  norm_num [gather, rm, r5, r10]

/-- **C131 (constants are not kept).** A point map whose entries all are the same number may return another number. -/
theorem C131_constant_map : curve32 [0, 10] [2 - 1 / 2 ^ 23, 2 - 1 / 2 ^ 23] 5 = 2 - 2 / 2 ^ 23 ∧
    curve [0, 10] [2 - 1 / 2 ^ 23, 2 - 1 / 2 ^ 23] (5 : ℝ) = 2 - 1 / 2 ^ 23 := by
  constructor
  · rw [curve32_middle]
    have r1 : rnd ((2 - 1 / 2 ^ 23) * 5) = 10485759 / 1048576 := by
      rw [rnd_close 3 10485759 (by norm_num) (by norm_num) (by norm_num [abs_lt])]
      norm_num
    have r2 : rnd (10485759 / 1048576 + 10485759 / 1048576) = 10485759 / 524288 := by
      rw [rnd_close 4 10485759 (by norm_num) (by norm_num) (by norm_num [abs_lt])]
      norm_num
    have r3 : rnd (10485759 / 524288 / 10) = 2 - 2 / 2 ^ 23 := by
      rw [rnd_close 0 16777214 (by norm_num) (by norm_num) (by norm_num [abs_lt])]
      norm_num
    rw [r1, r2, r3]
  · have hr : ([0, 10] : List ℝ).countP (fun b => decide (b < 5)) = 1 := by
      rw [List.countP_cons_of_pos (by norm_num), List.countP_cons_of_neg (by norm_num)]
      rfl
    unfold curve
    simp only [hr]
    norm_num [gather]

/-- An efficiency curve that rises from 0 to 1: its middle is exact. -/
example : curve32 [0, 10] [0, 1] 5 = 1 / 2 := by
  rw [curve32_middle]
  have r5 : rnd 5 = 5 := by have := rnd_nat 5 (by norm_num); simpa using this
  rw [one_mul, zero_mul, rnd_zero, add_zero, r5, r5, rnd_close (x := 5 / 10) (-1) (2 ^ 23) (by norm_num) (by norm_num) (by norm_num [abs_lt])]
  norm_num

/-- The bound for everything rounded, with the constants of that curve. -/
example (x : ℝ) : |pointMap32 [0, 10] [0, 1] x - curve [0, 10] [0, 1] x| ≤ 9 * eps * 1 + 1 / 10 * eps * (10 + |x|) := by
  have r10 : rnd 10 = 10 := by have := rnd_nat 10 (by norm_num); simpa using this
  refine C131_total [0, 10] [0, 1] rfl (by simp) (by norm_num) ?_ 10 1 (1 / 10) (by norm_num) (by norm_num) (by norm_num) ?_ x
  · simp [rnd_zero, r10]
  · simp

/-- The bound for a map of two by two efficiencies. -/
example (x y : ℝ) : |bilinear32 ⟨2, 2, fun i j => if i = j then 1 else 0⟩ ⟨0, 1⟩ ⟨0, 1⟩ x y
    - bilinear ⟨2, 2, fun i j => if i = j then 1 else 0⟩ ⟨0, 1⟩ ⟨0, 1⟩ x y| ≤ 20 * eps := by
  have h := C131_bilinear ⟨2, 2, fun i j => if i = j then 1 else 0⟩ ⟨0, 1⟩ ⟨0, 1⟩ le_rfl le_rfl (by norm_num) (by norm_num) 1 1 1
    (by intro i j _ _; simp only; split_ifs <;> norm_num) (by intro i j _ _; simp only; split_ifs <;> norm_num)
    (by intro i j _ _; simp only; split_ifs <;> norm_num) x y
  refine h.trans (le_of_eq ?_)
  push_cast
  ring

end Verif.SingleMaps
