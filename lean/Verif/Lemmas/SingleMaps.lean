/-
Lemmas for C131: maps in single precision.
-/
import Verif.Model.SingleMaps
import Verif.Lemmas.SingleNorm
import Verif.Lemmas.Round
import Verif.Lemmas.Interp
import Verif.Lemmas.Smooth

namespace Verif.SingleMaps
open Verif Verif.Single Verif.Interp

/-- A factor collected in `k` roundings. -/
def Fac (k : Nat) (θ : ℝ) : Prop := 0 < θ ∧ Within k θ 1

theorem Fac.one : Fac 0 1 := ⟨one_pos, Within.refl 1⟩

theorem Fac.mul {j k : Nat} {θ η : ℝ} (h : Fac j θ) (g : Fac k η) : Fac (j + k) (θ * η) := by
  refine ⟨mul_pos h.1 g.1, ?_⟩
  have := h.2.mul g.2 h.1.le zero_le_one g.1.le zero_le_one
  simpa using this

theorem Fac.inv {k : Nat} {θ : ℝ} (h : Fac k θ) : Fac k (1 / θ) := by
  refine ⟨by have := h.1; positivity, ?_⟩
  have := h.2.inv h.1 one_pos
  simpa using this

theorem Fac.mono {j k : Nat} {θ : ℝ} (h : Fac j θ) (hjk : j ≤ k) : Fac k θ := ⟨h.1, h.2.mono hjk h.1.le zero_le_one⟩

theorem rnd_fac (x : ℝ) : ∃ θ, Fac 1 θ ∧ rnd x = x * θ := by
  rcases lt_trichotomy x 0 with h | h | h
  · have hx : 0 < -x := by linarith
    have p := rnd_pos hx
    have w := within_rnd hx.le
    refine ⟨rnd (-x) / -x, ⟨by positivity, ?_⟩, ?_⟩
    · unfold Within at w ⊢
      constructor
      · rw [le_div_iff₀ hx]; linarith [w.1]
      · rw [← mul_div_assoc, div_le_one hx]; exact w.2
    · have := h.ne
      rw [rnd_neg]; field_simp
  · subst h
    exact ⟨1, Fac.one.mono (by omega), by simp [rnd_zero]⟩
  · have p := rnd_pos h
    have w := within_rnd h.le
    refine ⟨rnd x / x, ⟨by positivity, ?_⟩, ?_⟩
    · unfold Within at w ⊢
      constructor
      · rw [le_div_iff₀ h]; linarith [w.1]
      · rw [← mul_div_assoc, div_le_one h]; exact w.2
    · field_simp

/-- How far a factor is from one. -/
theorem Fac.near {k : Nat} {θ : ℝ} (h : Fac k θ) (hk : k ≤ 4000) : |θ - 1| ≤ ((k : ℝ) + 1) / 2 ^ 24 := by
  obtain ⟨h0, h1, h2⟩ := h
  have hb : (1 : ℝ) + k * (-(1 / 2 ^ 24)) ≤ (1 + -(1 / 2 ^ 24)) ^ k := one_add_mul_le_pow (by norm_num) k
  have e : (1 : ℝ) + -(1 / 2 ^ 24) = 1 - 1 / 2 ^ 24 := by ring
  rw [e] at hb
  have hk' : (k : ℝ) ≤ 4000 := by exact_mod_cast hk
  have hk0 : (0 : ℝ) ≤ k := by positivity
  have l := hb.trans (by linarith [h1] : (1 - 1 / 2 ^ 24 : ℝ) ^ k ≤ θ)
  have u := (mul_le_mul_of_nonneg_right hb h0.le).trans h2
  generalize (k : ℝ) = q at *
  rw [abs_le]
  constructor
  · have : (q + 1) / 2 ^ 24 = q * (1 / 2 ^ 24) + 1 / 2 ^ 24 := by ring
    rw [this]
    norm_num at *
    linarith
  · by_contra hc
    push Not at hc
    have hc' : 1 + (q + 1) / 2 ^ 24 < θ := by linarith
    have pos : (0 : ℝ) < 1 + q * -(1 / 2 ^ 24) := by norm_num; linarith
    have := mul_lt_mul_of_pos_left hc' pos
    have : (1 + q * -(1 / 2 ^ 24)) * (1 + (q + 1) / 2 ^ 24) < 1 := by linarith
    have e2 : (1 + q * -(1 / 2 ^ 24)) * (1 + (q + 1) / 2 ^ 24) = 1 + (2 ^ 24 - q * (q + 1)) / 2 ^ 48 := by ring
    rw [e2] at this
    have : q * (q + 1) ≤ 4000 * 4001 := by nlinarith
    have : (0 : ℝ) ≤ (2 ^ 24 - q * (q + 1)) / 2 ^ 48 := by
      apply div_nonneg
      · norm_num at *; linarith
      · positivity
    linarith

/-- What a point map computes: the two weights are off by at most six roundings. -/
theorem curve32_form (ref val : List ℝ) (x : ℝ) :
    ∃ (a b wa wb θa θb : ℝ), a ∈ val ++ [0] ∧ b ∈ val ++ [0] ∧ 0 ≤ wa ∧ 0 ≤ wb ∧ wa + wb = 1 ∧ Fac 6 θa ∧ Fac 6 θb ∧
      curve ref val x = a * wa + b * wb ∧ curve32 ref val x = a * wa * θa + b * wb * θb := by
  have mem : ∀ i, gather val i ∈ val ++ [0] := by
    intro i
    unfold gather
    rw [List.getD_eq_getElem?_getD]
    rcases h : val[min i (val.length - 1)]? with _ | v
    · simp
    · simp [List.mem_of_getElem? h]
  unfold curve curve32
  simp only
  generalize ref.countP (fun b => decide (b < x)) = r
  generalize min r (ref.length - 1) = i
  generalize min (r - 1) (ref.length - 1) = j
  obtain ⟨θr, fr, er⟩ := rnd_fac (x - gather ref i)
  obtain ⟨θl, fl, el⟩ := rnd_fac (x - gather ref j)
  rw [er, el, abs_mul, abs_mul, abs_of_pos fr.1, abs_of_pos fl.1]
  have hr : 0 ≤ |x - gather ref i| := abs_nonneg _
  have hl : 0 ≤ |x - gather ref j| := abs_nonneg _
  generalize |x - gather ref i| = dr at *
  generalize |x - gather ref j| = dl at *
  have ma := mem i
  have mb := mem j
  generalize gather val i = a at *
  generalize gather val j = b at *
  by_cases h : 0 < dr + dl
  · have h' : 0 < dr * θr + dl * θl := by
      have p1 := fr.1
      have p2 := fl.1
      rcases hr.lt_or_eq with c | c
      · have := mul_pos c p1
        have := mul_nonneg hl p2.le
        linarith
      · have := mul_pos (by linarith : 0 < dl) p2
        have := mul_nonneg hr p1.le
        linarith
    rw [if_pos h, if_pos (rnd_pos h')]
    have hs : ∃ θs, Fac 2 θs ∧ rnd (dr * θr + dl * θl) = (dr + dl) * θs := by
      have w1 : Within 1 (dr * θr + dl * θl) (dr + dl) := by
        refine Within.add ?_ ?_
        · have := (Within.refl dr).mul fr.2 hr hr fr.1.le zero_le_one
          simpa using this
        · have := (Within.refl dl).mul fl.2 hl hl fl.1.le zero_le_one
          simpa using this
      have w2 := (within_rnd h'.le).trans w1
      refine ⟨rnd (dr * θr + dl * θl) / (dr + dl), ⟨by have := rnd_pos h'; positivity, ?_⟩, by field_simp⟩
      unfold Within at w2 ⊢
      constructor
      · rw [le_div_iff₀ h]; linarith [w2.1]
      · rw [← mul_div_assoc, div_le_one h]; exact w2.2
    obtain ⟨θs, fs, es⟩ := hs
    obtain ⟨θ1, f1, e1⟩ := rnd_fac (a * (dl * θl))
    obtain ⟨θ2, f2, e2⟩ := rnd_fac (b * (dr * θr))
    rw [e1, e2, es]
    obtain ⟨θ3, f3, e3⟩ := rnd_fac (a * (dl * θl) * θ1 + b * (dr * θr) * θ2)
    rw [e3]
    obtain ⟨θ4, f4, e4⟩ := rnd_fac ((a * (dl * θl) * θ1 + b * (dr * θr) * θ2) * θ3 / ((dr + dl) * θs))
    rw [e4]
    refine ⟨a, b, dl / (dr + dl), dr / (dr + dl), θl * θ1 * θ3 * (1 / θs) * θ4, θr * θ2 * θ3 * (1 / θs) * θ4, ma, mb, by positivity,
      by positivity, by field_simp; ring, ?_, ?_, by field_simp, ?_⟩
    · exact (((fl.mul f1).mul f3).mul fs.inv).mul f4
    · exact (((fr.mul f2).mul f3).mul fs.inv).mul f4
    · have := fs.1.ne'
      have := h.ne'
      field_simp
  · have d0 : dr = 0 := by linarith
    have d1 : dl = 0 := by linarith
    subst d0 d1
    simp only [zero_mul, add_zero, rnd_zero, lt_irrefl, if_false]
    exact ⟨a, b, 1, 0, 1, 1, ma, mb, by norm_num, by norm_num, by norm_num, Fac.one.mono (by omega), Fac.one.mono (by omega), by ring,
      by ring⟩

/-- A clipped number changes at most in proportion to the upper edge. -/
theorem clip_near {z z' κ N : ℝ} (hN : 0 ≤ N) (hκ : 0 ≤ κ) (hκ1 : κ ≤ 1) (h : |z' - z| ≤ κ * |z|) : |clip z' 0 N - clip z 0 N| ≤ κ * N := by
  have hp : 0 ≤ κ * N := mul_nonneg hκ hN
  rcases le_total z 0 with c | c
  · rw [abs_of_nonpos c, abs_le] at h
    have : z' ≤ 0 := by nlinarith [h.2]
    rw [clip_low z 0 N c hN, clip_low z' 0 N this hN]
    simpa using hp
  · rw [abs_of_nonneg c, abs_le] at h
    have z0 : 0 ≤ z' := by nlinarith [h.1]
    rcases le_total z N with d | d
    · rw [clip_of_mem z 0 N c d]
      have hz : κ * z ≤ κ * N := mul_le_mul_of_nonneg_left d hκ
      rcases le_total z' N with e | e
      · rw [clip_of_mem z' 0 N z0 e, abs_le]
        constructor <;> linarith [h.1, h.2]
      · rw [clip_high z' 0 N e, abs_le]
        constructor <;> linarith [h.1, h.2]
    · rw [clip_high z 0 N d]
      rcases le_total z' N with e | e
      · rw [clip_of_mem z' 0 N z0 e, abs_le]
        constructor
        · have : (1 - κ) * N ≤ (1 - κ) * z := mul_le_mul_of_nonneg_left d (by linarith)
          linarith [h.1]
        · linarith
      · rw [clip_high z' 0 N e]
        simpa using hp

theorem frac32_near (n : Nat) (a : Axis ℝ) (x : ℝ) (hn : 2 ≤ n) (ha : a.lo < a.hi) :
    |frac32 n a x - frac n a x| ≤ 5 / 2 ^ 24 * |frac n a x| := by
  unfold frac32 frac binSize
  obtain ⟨θ1, f1, e1⟩ := rnd_fac (x - a.lo)
  obtain ⟨θ2, f2, e2⟩ := rnd_fac (a.hi - a.lo)
  rw [e1, e2]
  obtain ⟨θ3, f3, e3⟩ := rnd_fac ((a.hi - a.lo) * θ2 / ((n : ℝ) - 1))
  rw [e3]
  obtain ⟨θ4, f4, e4⟩ := rnd_fac ((x - a.lo) * θ1 / ((a.hi - a.lo) * θ2 / ((n : ℝ) - 1) * θ3))
  rw [e4]
  have hn' : (n : ℝ) - 1 ≠ 0 := by
    have : (2 : ℝ) ≤ n := by exact_mod_cast hn
    intro h
    linarith
  have hd : a.hi - a.lo ≠ 0 := by linarith
  have e : (x - a.lo) * θ1 / ((a.hi - a.lo) * θ2 / ((n : ℝ) - 1) * θ3) * θ4
      = (x - a.lo) / ((a.hi - a.lo) / ((n : ℝ) - 1)) * (θ1 * (1 / (θ2 * θ3)) * θ4) := by
    have := f2.1.ne'
    have := f3.1.ne'
    field_simp
  rw [e]
  have f := ((f1.mul (f2.mul f3).inv).mul f4).near (by norm_num)
  generalize θ1 * (1 / (θ2 * θ3)) * θ4 = θ at *
  generalize (x - a.lo) / ((a.hi - a.lo) / ((n : ℝ) - 1)) = y at *
  have : y * θ - y = (θ - 1) * y := by ring
  rw [this, abs_mul]
  refine mul_le_mul_of_nonneg_right (f.trans ?_) (abs_nonneg _)
  norm_num

/-- The place where a single-precision map looks: cell and offset along one axis. -/
theorem place32 (n : Nat) (a : Axis ℝ) (x : ℝ) (hn : 2 ≤ n) (ha : a.lo < a.hi) :
    ∃ (i : Nat), cell n (frac32 n a x) = i ∧ i + 1 < n ∧ 0 ≤ offset32 n (frac32 n a x) ∧ offset32 n (frac32 n a x) ≤ 1 ∧
      |(i : ℝ) + offset32 n (frac32 n a x) - clip (frac n a x) 0 ((n : ℝ) - 1)| ≤ (5 * ((n : ℝ) - 1) + 1) / 2 ^ 24 := by
  obtain ⟨h0, h1⟩ := cell_range n (frac32 n a x) hn
  obtain ⟨i, hi⟩ := Int.eq_ofNat_of_zero_le h0
  have hr := clip_mem (rnd (frac32 n a x - (cell n (frac32 n a x) : ℝ))) 0 1 zero_le_one
  refine ⟨i, hi, by omega, hr.1, hr.2, ?_⟩
  have hn' : (2 : ℝ) ≤ n := by exact_mod_cast hn
  have s1 := clip_near (N := (n : ℝ) - 1) (by linarith) (by norm_num) (by norm_num) (frac32_near n a x hn ha)
  have s2 : |offset32 n (frac32 n a x) - offset n (frac32 n a x)| ≤ 1 / 2 ^ 24 * 1 := by
    unfold offset32 offset
    refine clip_near zero_le_one (by norm_num) (by norm_num) ?_
    rw [mul_comm]
    exact rnd_rel _
  have s3 := cell_add_offset n (frac32 n a x) hn
  rw [hi] at s3
  have e : (i : ℝ) + offset32 n (frac32 n a x) - clip (frac n a x) 0 ((n : ℝ) - 1)
      = (offset32 n (frac32 n a x) - offset n (frac32 n a x)) + (clip (frac32 n a x) 0 ((n : ℝ) - 1) - clip (frac n a x) 0 ((n : ℝ) - 1)) := by
    rw [← s3]
    push_cast
    ring
  rw [e]
  refine (abs_add_le _ _).trans ((add_le_add s2 s1).trans (le_of_eq ?_))
  ring

/-- Two blends along one axis differ at most by the distance of their places. -/
theorem blend_lipschitz (n : Nat) (hn : 2 ≤ n) (v : Nat → ℝ) {D : ℝ} (hD : 0 ≤ D) (h : ∀ i, i + 1 < n → |v (i + 1) - v i| ≤ D) {i j : Nat}
    (hi : i + 1 < n) (hj : j + 1 < n) {s t : ℝ} (hs : 0 ≤ s) (hs1 : s ≤ 1) (ht : 0 ≤ t) (ht1 : t ≤ 1) :
    |((1 - s) * v i + s * v (i + 1)) - ((1 - t) * v j + t * v (j + 1))| ≤ D * |((i : ℝ) + s) - (j + t)| := by
  have hn' : (2 : ℝ) ≤ n := by exact_mod_cast hn
  have ha : (0 : ℝ) < (n : ℝ) - 1 := by linarith
  have hb : binSize n (⟨0, (n : ℝ) - 1⟩ : Axis ℝ) = 1 := by unfold binSize; simp [ha.ne']
  have fr : ∀ x : ℝ, frac n (⟨0, (n : ℝ) - 1⟩ : Axis ℝ) x = x := by intro x; unfold frac; rw [hb]; simp
  have key : ∀ (k : Nat) (u : ℝ), k + 1 < n → 0 ≤ u → u ≤ 1 →
      axisLerp n (⟨0, (n : ℝ) - 1⟩ : Axis ℝ) (k + u) v = (1 - u) * v k + u * v (k + 1) := by
    intro k u hk hu hu1
    obtain ⟨m, w, hm, w0, w1, hmw, he⟩ := axisLerp_eq n (⟨0, (n : ℝ) - 1⟩ : Axis ℝ) (k + u) v hn
    rw [he]
    have hk' : (k : ℝ) + 2 ≤ n := by exact_mod_cast hk
    rw [fr, clip_of_mem _ _ _ (by positivity) (by linarith)] at hmw
    exact lerp_unique v m k w u w0 w1 hu hu1 hmw
  rw [← key i s hi hs hs1, ← key j t hj ht ht1]
  refine axisLerp_lipschitz n ⟨0, (n : ℝ) - 1⟩ _ _ v hn ha hD ?_
  rw [hb, mul_one]
  exact h

theorem lerp_abs {t a b M : ℝ} (h0 : 0 ≤ t) (h1 : t ≤ 1) (ha : |a| ≤ M) (hb : |b| ≤ M) : |(1 - t) * a + t * b| ≤ M := by
  rw [abs_le] at *
  constructor <;> nlinarith

/-- One blend in single precision. -/
theorem blend32_near {t a b a' b' M E : ℝ} (h0 : 0 ≤ t) (h1 : t ≤ 1) (ha : |a| ≤ M) (hb : |b| ≤ M) (ha' : |a' - a| ≤ E) (hb' : |b' - b| ≤ E) :
    |blend32 t a' b' - ((1 - t) * a + t * b)| ≤ 4 / 2 ^ 24 * (M + E) + E := by
  unfold blend32
  obtain ⟨θ1, f1, e1⟩ := rnd_fac (1 - t)
  rw [e1]
  obtain ⟨θ2, f2, e2⟩ := rnd_fac ((1 - t) * θ1 * a')
  obtain ⟨θ3, f3, e3⟩ := rnd_fac (t * b')
  rw [e2, e3]
  obtain ⟨θ4, f4, e4⟩ := rnd_fac ((1 - t) * θ1 * a' * θ2 + t * b' * θ3)
  rw [e4]
  have g1 := ((f1.mul f2).mul f4).near (by norm_num)
  have g2 := ((f3.mul f4).mono (by norm_num : 1 + 1 ≤ 1 + 1 + 1)).near (by norm_num)
  have ma : |a'| ≤ M + E := by
    have := abs_add_le a (a' - a)
    rw [add_sub_cancel] at this
    linarith
  have mb : |b'| ≤ M + E := by
    have := abs_add_le b (b' - b)
    rw [add_sub_cancel] at this
    linarith
  have e : ((1 - t) * θ1 * a' * θ2 + t * b' * θ3) * θ4 - ((1 - t) * a + t * b)
      = ((1 - t) * ((θ1 * θ2 * θ4 - 1) * a') + t * ((θ3 * θ4 - 1) * b')) + ((1 - t) * (a' - a) + t * (b' - b)) := by ring
  rw [e]
  refine (abs_add_le _ _).trans (add_le_add (lerp_abs h0 h1 ?_ ?_) (lerp_abs h0 h1 ha' hb'))
  · rw [abs_mul]
    refine mul_le_mul (g1.trans (by norm_num)) ma (abs_nonneg _) (by norm_num)
  · rw [abs_mul]
    refine mul_le_mul (g2.trans (by norm_num)) mb (abs_nonneg _) (by norm_num)

/-- The blend of four corners in single precision. -/
theorem four_near {t u a b c d M : ℝ} (t0 : 0 ≤ t) (t1 : t ≤ 1) (u0 : 0 ≤ u) (u1 : u ≤ 1) (ha : |a| ≤ M) (hb : |b| ≤ M) (hc : |c| ≤ M)
    (hd : |d| ≤ M) :
    |rnd (rnd (rnd (rnd (rnd (rnd (1 - t) * rnd (1 - u)) * a) + rnd (rnd (t * rnd (1 - u)) * b)) + rnd (rnd (rnd (1 - t) * u) * c))
      + rnd (rnd (t * u) * d)) - ((1 - t) * (1 - u) * a + t * (1 - u) * b + (1 - t) * u * c + t * u * d)| ≤ 8 / 2 ^ 24 * M := by
  obtain ⟨θt, ft, et⟩ := rnd_fac (1 - t)
  obtain ⟨θu, fu, eu⟩ := rnd_fac (1 - u)
  rw [et, eu]
  obtain ⟨θ1, f1, e1⟩ := rnd_fac ((1 - t) * θt * ((1 - u) * θu))
  obtain ⟨θ2, f2, e2⟩ := rnd_fac (t * ((1 - u) * θu))
  obtain ⟨θ3, f3, e3⟩ := rnd_fac ((1 - t) * θt * u)
  obtain ⟨θ4, f4, e4⟩ := rnd_fac (t * u)
  rw [e1, e2, e3, e4]
  obtain ⟨η1, g1, i1⟩ := rnd_fac ((1 - t) * θt * ((1 - u) * θu) * θ1 * a)
  obtain ⟨η2, g2, i2⟩ := rnd_fac (t * ((1 - u) * θu) * θ2 * b)
  obtain ⟨η3, g3, i3⟩ := rnd_fac ((1 - t) * θt * u * θ3 * c)
  obtain ⟨η4, g4, i4⟩ := rnd_fac (t * u * θ4 * d)
  rw [i1, i2, i3, i4]
  obtain ⟨ζ1, k1, j1⟩ := rnd_fac ((1 - t) * θt * ((1 - u) * θu) * θ1 * a * η1 + t * ((1 - u) * θu) * θ2 * b * η2)
  rw [j1]
  obtain ⟨ζ2, k2, j2⟩ := rnd_fac (((1 - t) * θt * ((1 - u) * θu) * θ1 * a * η1 + t * ((1 - u) * θu) * θ2 * b * η2) * ζ1
    + (1 - t) * θt * u * θ3 * c * η3)
  rw [j2]
  obtain ⟨ζ3, k3, j3⟩ := rnd_fac ((((1 - t) * θt * ((1 - u) * θu) * θ1 * a * η1 + t * ((1 - u) * θu) * θ2 * b * η2) * ζ1
    + (1 - t) * θt * u * θ3 * c * η3) * ζ2 + t * u * θ4 * d * η4)
  rw [j3]
  have n1 := ((((((ft.mul fu).mul f1).mul g1).mul k1).mul k2).mul k3).near (by norm_num)
  have n2 := ((((((fu.mul f2).mul g2).mul k1).mul k2).mul k3).mono (by norm_num : _ ≤ 7)).near (by norm_num)
  have n3 := (((((ft.mul f3).mul g3).mul k2).mul k3).mono (by norm_num : _ ≤ 7)).near (by norm_num)
  have n4 := (((f4.mul g4).mul k3).mono (by norm_num : _ ≤ 7)).near (by norm_num)
  have e : ((((1 - t) * θt * ((1 - u) * θu) * θ1 * a * η1 + t * ((1 - u) * θu) * θ2 * b * η2) * ζ1
      + (1 - t) * θt * u * θ3 * c * η3) * ζ2 + t * u * θ4 * d * η4) * ζ3 - ((1 - t) * (1 - u) * a + t * (1 - u) * b + (1 - t) * u * c + t * u * d)
      = (1 - u) * ((1 - t) * ((θt * θu * θ1 * η1 * ζ1 * ζ2 * ζ3 - 1) * a) + t * ((θu * θ2 * η2 * ζ1 * ζ2 * ζ3 - 1) * b))
        + u * ((1 - t) * ((θt * θ3 * η3 * ζ2 * ζ3 - 1) * c) + t * ((θ4 * η4 * ζ3 - 1) * d)) := by ring
  rw [e]
  have step : ∀ {θ v : ℝ} {k : ℕ}, |θ - 1| ≤ ((k : ℝ) + 1) / 2 ^ 24 → k ≤ 7 → |v| ≤ M → |(θ - 1) * v| ≤ 8 / 2 ^ 24 * M := by
    intro θ v k h hk hv
    have hk' : (k : ℝ) ≤ 7 := by exact_mod_cast hk
    rw [abs_mul]
    refine mul_le_mul (h.trans ?_) hv (abs_nonneg _) (by norm_num)
    apply div_le_div_of_nonneg_right _ (by norm_num)
    linarith
  exact lerp_abs u0 u1 (lerp_abs t0 t1 (step n1 (by norm_num) ha) (step n2 (by norm_num) hb))
    (lerp_abs t0 t1 (step n3 (by norm_num) hc) (step n4 (by norm_num) hd))

/-- A table whose positions and values are moved a little: its interpolation is the old one at a place nearby. -/
theorem moved_table {pts : List (ℝ × ℝ)} (hs' : ((pts.map (fun p => (rnd p.1, rnd p.2))).map Prod.fst).Pairwise (· < ·))
    (hs : (pts.map Prod.fst).Pairwise (· < ·)) {R M : ℝ} (hR : ∀ p ∈ pts, |p.1| ≤ R) (hM : ∀ p ∈ pts, |p.2| ≤ M) {x y : ℝ}
    (h : IsLinearInterp (pts.map (fun p => (rnd p.1, rnd p.2))) x y) :
    ∃ z w, IsLinearInterp pts z w ∧ |z - x| ≤ R / 2 ^ 24 ∧ |w - y| ≤ M / 2 ^ 24 := by
  have near : ∀ {a B : ℝ}, |a| ≤ B → |a - rnd a| ≤ B / 2 ^ 24 := by
    intro a B h
    have := rnd_rel a
    rw [abs_sub_comm]
    calc |rnd a - a| ≤ |a| * (1 / 2 ^ 24) := this
      _ ≤ B * (1 / 2 ^ 24) := mul_le_mul_of_nonneg_right h (by norm_num)
      _ = B / 2 ^ 24 := by ring
  rcases h with ⟨p', h1, h2, rfl⟩ | ⟨p', h1, h2, rfl⟩ | ⟨k, p', q', h1, h2, h3, h4, rfl⟩
  · rw [List.head?_map] at h1
    rcases hp : pts.head? with _ | p
    · simp [hp] at h1
    · simp only [hp, Option.map_some, Option.some.injEq] at h1
      subst h1
      have mp := List.mem_of_head? hp
      have nR := near (hR p mp)
      refine ⟨min x p.1, p.2, .inl ⟨p, hp, min_le_right _ _, rfl⟩, ?_, near (hM p mp)⟩
      rcases le_total x p.1 with c | c
      · rw [min_eq_left c, sub_self, abs_zero]
        exact (abs_nonneg _).trans nR
      · rw [min_eq_right c]
        simp only at h2
        rw [abs_of_nonpos (by linarith)]
        have := abs_le.1 nR
        linarith [this.1]
  · rw [List.getLast?_map] at h1
    rcases hp : pts.getLast? with _ | p
    · simp [hp] at h1
    · simp only [hp, Option.map_some, Option.some.injEq] at h1
      subst h1
      have mp := List.mem_of_getLast? hp
      have nR := near (hR p mp)
      refine ⟨max x p.1, p.2, .inr (.inl ⟨p, hp, le_max_right _ _, rfl⟩), ?_, near (hM p mp)⟩
      rcases le_total p.1 x with c | c
      · rw [max_eq_left c, sub_self, abs_zero]
        exact (abs_nonneg _).trans nR
      · rw [max_eq_right c]
        simp only at h2
        rw [abs_of_nonneg (by linarith)]
        have := abs_le.1 nR
        linarith [this.2]
  · have lt' := table_mono hs' h1 h2 (Nat.lt_succ_self k)
    rw [List.getElem?_map] at h1 h2
    rcases hp : pts[k]? with _ | p
    · simp [hp] at h1
    rcases hq : pts[k + 1]? with _ | q
    · simp [hq] at h2
    simp only [hp, hq, Option.map_some, Option.some.injEq] at h1 h2
    subst h1 h2
    have lt := table_mono hs hp hq (Nat.lt_succ_self k)
    have mp := List.mem_of_getElem? hp
    have mq := List.mem_of_getElem? hq
    simp only at h3 h4 lt' ⊢
    obtain ⟨l0, l1⟩ := fraction_range h3 h4 lt'
    have hx : x = rnd p.1 + (rnd q.1 - rnd p.1) * ((x - rnd p.1) / (rnd q.1 - rnd p.1)) := by
      have : rnd q.1 - rnd p.1 ≠ 0 := by linarith
      field_simp
      ring
    generalize (x - rnd p.1) / (rnd q.1 - rnd p.1) = l at *
    have hd : 0 < q.1 - p.1 := by linarith
    refine ⟨p.1 + (q.1 - p.1) * l, p.2 + (q.2 - p.2) * l, .inr (.inr ⟨k, p, q, hp, hq, by nlinarith, by nlinarith, ?_⟩), ?_, ?_⟩
    · rw [add_sub_cancel_left, mul_div_cancel_left₀ _ hd.ne']
    · rw [hx]
      have e : p.1 + (q.1 - p.1) * l - (rnd p.1 + (rnd q.1 - rnd p.1) * l) = (1 - l) * (p.1 - rnd p.1) + l * (q.1 - rnd q.1) := by ring
      rw [e]
      exact lerp_abs l0 l1 (near (hR p mp)) (near (hR q mq))
    · have e : p.2 + (q.2 - p.2) * l - (rnd p.2 + (rnd q.2 - rnd p.2) * l) = (1 - l) * (p.2 - rnd p.2) + l * (q.2 - rnd q.2) := by ring
      rw [e]
      exact lerp_abs l0 l1 (near (hM p mp)) (near (hM q mq))

theorem rnd_one : rnd 1 = 1 := by
  have := rnd_nat 1 (by norm_num)
  simpa using this

theorem rnd_abs_rnd (x : ℝ) : rnd |rnd x| = |rnd x| := by
  rcases abs_choice (rnd x) with h | h
  · rw [h, rnd_rnd]
  · rw [h, rnd_neg, rnd_rnd]

theorem average_le_one {a b p q : ℝ} (ha : 0 ≤ a ∧ a ≤ 1) (hb : 0 ≤ b ∧ b ≤ 1) (h : 0 < rnd (|rnd p| + |rnd q|)) :
    rnd (rnd (rnd (a * |rnd q|) + rnd (b * |rnd p|)) / rnd (|rnd p| + |rnd q|)) ≤ 1 := by
  have h1 : rnd (a * |rnd q|) ≤ |rnd q| := by
    rw [← rnd_abs_rnd q]
    conv_rhs => rw [← rnd_abs_rnd q]
    refine rnd_mono ?_
    rw [rnd_abs_rnd]
    exact mul_le_of_le_one_left (abs_nonneg _) ha.2
  have h2 : rnd (b * |rnd p|) ≤ |rnd p| := by
    rw [← rnd_abs_rnd p]
    conv_rhs => rw [← rnd_abs_rnd p]
    refine rnd_mono ?_
    rw [rnd_abs_rnd]
    exact mul_le_of_le_one_left (abs_nonneg _) hb.2
  have h3 : rnd (rnd (a * |rnd q|) + rnd (b * |rnd p|)) ≤ rnd (|rnd p| + |rnd q|) := rnd_mono (by linarith)
  have h4 := rnd_mono ((div_le_one h).2 h3)
  rwa [rnd_one] at h4

/-- What is close enough to one is rounded to one. -/
theorem rnd_near_one {x : ℝ} (h : |x - 1| ≤ 1 / 2 ^ 25) : rnd x = 1 := by
  rw [abs_le] at h
  rcases lt_or_ge x 1 with c | c
  · have e : Int.log 2 |x| = -1 := by
      rw [abs_of_pos (by norm_num at h ⊢; linarith)]
      have a : -1 ≤ Int.log 2 x := (Int.zpow_le_iff_le_log (by norm_num) (by norm_num at h ⊢; linarith)).1 (by norm_num at h ⊢; linarith)
      have b : Int.log 2 x < 0 := (Int.lt_zpow_iff_log_lt (by norm_num) (by norm_num at h ⊢; linarith)).1 (by simpa using c)
      omega
    have hu : ulp x = 1 / 2 ^ 24 := by unfold ulp; rw [e]; norm_num
    have l : (2 : ℝ) ^ 24 - 1 / 2 ≤ x / ulp x := by rw [hu]; norm_num at h ⊢; linarith
    have u : x / ulp x < 2 ^ 24 := by rw [hu]; norm_num at h ⊢; linarith
    have fl : ⌊x / ulp x⌋ = 2 ^ 24 - 1 := by
      rw [Int.floor_eq_iff]
      push_cast
      constructor <;> linarith
    have hh : halfEven (x / ulp x) = 2 ^ 24 := by
      unfold halfEven
      rw [fl]
      push_cast
      rw [if_neg (by linarith)]
      split_ifs with c1 c2
      · norm_num
      · exact absurd c2 (by decide)
      · norm_num
    unfold rnd
    rw [hh, hu]
    norm_num
  · have e : Int.log 2 |x| = 0 := by
      rw [abs_of_pos (by linarith)]
      have a : 0 ≤ Int.log 2 x := (Int.zpow_le_iff_le_log (by norm_num) (by linarith)).1 (by simpa using c)
      have b : Int.log 2 x < 1 := (Int.lt_zpow_iff_log_lt (by norm_num) (by linarith)).1 (by norm_num at h ⊢; linarith)
      omega
    have hu : ulp x = 1 / 2 ^ 23 := by unfold ulp; rw [e]; norm_num
    have fl : ⌊x / ulp x⌋ = 2 ^ 23 := by
      rw [Int.floor_eq_iff, hu]
      push_cast
      norm_num at h ⊢
      constructor <;> linarith
    have lt : x / ulp x - ⌊x / ulp x⌋ < 1 / 2 := by
      rw [fl, hu]
      push_cast
      norm_num at h ⊢
      linarith
    unfold rnd halfEven
    rw [if_pos lt, fl, hu]
    norm_num

theorem one_sub_rnd {t : ℝ} (h0 : 0 ≤ t) (h1 : t ≤ 1) : |rnd (1 - t) - (1 - t)| ≤ 1 / 2 ^ 25 := by
  rcases h0.lt_or_eq with c | c
  · rcases h1.lt_or_eq with d | d
    · refine (rnd_near _).trans ?_
      have : ulp (1 - t) ≤ 1 / 2 ^ 24 := by
        unfold ulp
        have b : Int.log 2 |1 - t| < 0 := by
          rw [abs_of_pos (by linarith)]
          exact (Int.lt_zpow_iff_log_lt (by norm_num) (by linarith)).1 (by simp; linarith)
        calc (2 : ℝ) ^ (Int.log 2 |1 - t| - 23) ≤ 2 ^ (-24 : ℤ) := zpow_le_zpow_right₀ (by norm_num) (by omega)
          _ = 1 / 2 ^ 24 := by norm_num
      linarith [show (1 : ℝ) / 2 ^ 25 = 1 / 2 ^ 24 / 2 by norm_num]
    · subst d
      simp [rnd_zero]
  · rw [← c]
    simp [rnd_one]

theorem blend32_one {t : ℝ} (h0 : 0 ≤ t) (h1 : t ≤ 1) (ht : rnd t = t) : blend32 t 1 1 = 1 := by
  unfold blend32
  rw [mul_one, mul_one, rnd_rnd, ht]
  refine rnd_near_one ?_
  have := one_sub_rnd h0 h1
  rwa [show rnd (1 - t) + t - 1 = rnd (1 - t) - (1 - t) by ring]

theorem blend32_unit {t a b : ℝ} (h0 : 0 ≤ t) (h1 : t ≤ 1) (ht : rnd t = t) (ha : 0 ≤ a ∧ a ≤ 1) (hb : 0 ≤ b ∧ b ≤ 1) :
    0 ≤ blend32 t a b ∧ blend32 t a b ≤ 1 := by
  have s0 : 0 ≤ rnd (1 - t) := rnd_nonneg (by linarith)
  constructor
  · unfold blend32
    exact rnd_nonneg (add_nonneg (rnd_nonneg (mul_nonneg s0 ha.1)) (rnd_nonneg (mul_nonneg h0 hb.1)))
  · rw [← blend32_one h0 h1 ht]
    unfold blend32
    exact rnd_mono (add_le_add (rnd_mono (mul_le_mul_of_nonneg_left ha.2 s0)) (rnd_mono (mul_le_mul_of_nonneg_left hb.2 h0)))

theorem offset32_unit (n : Nat) (f : ℝ) : 0 ≤ offset32 n f ∧ offset32 n f ≤ 1 ∧ rnd (offset32 n f) = offset32 n f := by
  refine ⟨(clip_mem _ 0 1 zero_le_one).1, (clip_mem _ 0 1 zero_le_one).2, ?_⟩
  unfold offset32
  rcases le_total (rnd (f - (cell n f : ℝ))) 0 with c | c
  · rw [clip_low _ _ _ c zero_le_one, rnd_zero]
  · rcases le_total (rnd (f - (cell n f : ℝ))) 1 with d | d
    · rw [clip_of_mem _ _ _ c d, rnd_rnd]
    · rw [clip_high _ _ _ d, rnd_one]

/-- Rounding computed from the exponent and a quotient with remainder. -/
theorem rnd_at {x : ℝ} (e j : ℤ) (h1 : (2 : ℝ) ^ e ≤ x) (h2 : x < 2 ^ (e + 1)) (hj : halfEven (x / 2 ^ (e - 23)) = j) :
    rnd x = j * 2 ^ (e - 23) := by
  have hx : 0 < x := lt_of_lt_of_le (zpow_pos (by norm_num) _) h1
  have hlog : Int.log 2 |x| = e := by
    rw [abs_of_pos hx]
    have a : e ≤ Int.log 2 x := (Int.zpow_le_iff_le_log (by norm_num) hx).1 (by exact_mod_cast h1)
    have b : Int.log 2 x < e + 1 := (Int.lt_zpow_iff_log_lt (by norm_num) hx).1 (by exact_mod_cast h2)
    omega
  have hu : ulp x = 2 ^ (e - 23) := by unfold ulp; rw [hlog]
  unfold rnd
  rw [hu, hj]

theorem halfEven_tie_odd (n : ℤ) (h : ¬ Even n) : halfEven ((n : ℝ) + 1 / 2) = n + 1 := by
  have fl : ⌊(n : ℝ) + 1 / 2⌋ = n := by
    rw [Int.floor_eq_iff]
    constructor <;> linarith
  unfold halfEven
  rw [fl, if_neg (by linarith), if_neg (by linarith), if_neg h]

end Verif.SingleMaps
