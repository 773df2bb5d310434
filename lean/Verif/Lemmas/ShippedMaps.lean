/-
Helper lemmas on the shipped map files: from checks on integers to statements about the maps.
-/
import Verif.Model.MapUse
import Verif.Props.MapFile
import Verif.Lemmas.Quantile
import Mathlib.Tactic.IntervalCases

namespace Verif.MapFile
open Verif Verif.Interp

theorem decimals_strict (den : Nat) (hd : 0 < den) (l : List Int) (h : l.IsChain (· < ·)) : (decimals den l).Pairwise (· < ·) := by
  have hp : l.Pairwise (· < ·) := List.isChain_iff_pairwise.1 h
  unfold decimals
  rw [List.pairwise_map]
  have : (0 : ℝ) < den := by exact_mod_cast hd
  exact hp.imp (fun hab => div_lt_div_of_pos_right (by exact_mod_cast hab) this)

theorem decimals_length (den : Nat) (l : List Int) : (decimals den l).length = l.length := by simp [decimals]

theorem preprocess_linear : (preprocess false : ℝ → ℝ) = id := by funext y; simp [preprocess]

/-- A point file with another name than pdf is read with the interpolator of its method. -/
theorem build_raw_point (method name : String) (cden vden : Nat) (coords vals : List Int) (hn : name ≠ "pdf")
    (g : List ℝ → List ℝ → ℝ → ℝ) (hg : pointMethod method = some g) :
    build method (Raw.point name cden coords vden vals).file
      = .ok (.of1 (fun x => .ok (g (decimals cden coords) (decimals vden vals) x))) := by
  simp [Raw.file, build, buildPoint, pointTable, Interp.buildPoint, hg, validatePoint, preprocess_linear, ofPoint, hn]

theorem read1_lerp (f name : String) (cden vden : Nat) (coords vals : List Int)
    (hget : mapFiles.get? f = some (.point name cden coords vden vals)) (hn : name ≠ "pdf") (x : ℝ) :
    read1 "LERP" f x = .ok (linear1d (decimals cden coords) (decimals vden vals) x) := by
  unfold read1 readFile
  rw [hget]
  simp only [build_raw_point "LERP" name cden vden coords vals hn linear1d rfl]

theorem read1_nn (f name : String) (cden vden : Nat) (coords vals : List Int)
    (hget : mapFiles.get? f = some (.point name cden coords vden vals)) (hn : name ≠ "pdf") (x : ℝ) :
    read1 "NN" f x = .ok (nn1d (decimals cden coords) (decimals vden vals) x) := by
  unfold read1 readFile
  rw [hget]
  simp only [build_raw_point "NN" name cden vden coords vals hn nn1d rfl]

/-- What a table check on integers gives for linear interpolation: a value, the piecewise linear one, within bounds. -/
theorem read1_lerp_bounds (f name : String) (cden vden : Nat) (coords vals : List Int) (lo hi : Int)
    (hget : mapFiles.get? f = some (.point name cden coords vden vals)) (hn : name ≠ "pdf") (hc : 0 < cden) (hv : 0 < vden)
    (hlen : coords.length = vals.length) (h2 : 2 ≤ coords.length) (hs : coords.IsChain (· < ·))
    (hb : ∀ v ∈ vals, lo ≤ v ∧ v ≤ hi) (x : ℝ) :
    ∃ y, read1 "LERP" f x = .ok y ∧ (lo : ℝ) / vden ≤ y ∧ y ≤ (hi : ℝ) / vden := by
  refine ⟨_, read1_lerp f name cden vden coords vals hget hn x, ?_⟩
  have hvp : (0 : ℝ) < vden := by exact_mod_cast hv
  have hint := (C28_lerp_is_linear_interpolation (decimals cden coords) (decimals vden vals) (by simp [decimals, hlen])
    (by simpa [decimals] using h2) (decimals_strict cden hc coords hs) x _).1 rfl
  refine interp_bounds _ ?_ x _ _ _ hint ?_
  · rw [List.map_fst_zip (by simp [decimals, hlen])]
    exact decimals_strict cden hc coords hs
  · intro p hp
    obtain ⟨v, hv', he⟩ := List.mem_map.1 (List.of_mem_zip hp).2
    rw [← he]
    obtain ⟨h1, h3⟩ := hb v hv'
    exact ⟨div_le_div_of_nonneg_right (by exact_mod_cast h1) hvp.le, div_le_div_of_nonneg_right (by exact_mod_cast h3) hvp.le⟩

/-- A file whose build needs nothing but a known method. -/
def Raw.plain (method : String) : Raw → Bool
  | .point name .. => name != "pdf" && ["IDW", "NN", "LERP"].contains method
  | .grid names _ _ _ shape _ _ => (shape.length == 2 || shape.length == 3) && !names.contains "pdf" && !names.contains "cdf" &&
      ["IDW", "LERP", "NN"].contains method

theorem plain_builds (method : String) (r : Raw) (h : r.plain method = true) : ∃ b, build method r.file = .ok b := by
  cases r with
  | point name cden coords vden vals =>
    simp only [Raw.plain, Bool.and_eq_true, bne_iff_ne, ne_eq, List.contains_iff_mem] at h
    refine (C92_point_accepted method "point" _ rfl (.inl rfl)).2 ⟨h.2, _, _, _, rfl, rfl, by simp, ?_⟩
    intro hn
    exact absurd (CoordName.one.inj hn) h.1
  | grid names cden lowers uppers shape vden vals =>
    simp only [Raw.plain, Bool.and_eq_true, Bool.or_eq_true, beq_iff_eq, Bool.not_eq_true', List.contains_iff_mem] at h
    obtain ⟨⟨⟨h1, h2⟩, h3⟩, h4⟩ := h
    have n2 : "pdf" ∉ names := by intro hm; rw [← List.contains_iff_mem] at hm; rw [hm] at h2; cases h2
    have n3 : "cdf" ∉ names := by intro hm; rw [← List.contains_iff_mem] at hm; rw [hm] at h3; cases h3
    have hnm : ∀ (ns : List String) (i : Nat) (s : String), CoordName.axes names = .axes ns → ns[i]? = some s → (s = "pdf" ∨ s = "cdf") → False := by
      intro ns i s hns hi hs
      cases hns
      have := List.mem_of_getElem? hi
      rcases hs with rfl | rfl
      · exact n2 this
      · exact n3 this
    refine (C92_regbin_accepted method _ (.one "regbin") rfl (.inl rfl)).2 ?_
    match shape, h1 with
    | [n0, n1], _ =>
      refine ⟨_, _, rfl, rfl, by simp, fun ns i s a b c => (hnm ns i s a b c).elim, .inr ⟨.inl rfl, h4⟩, ?_⟩
      intro i a _ hl; simp [IsLogAxis] at hl
    | [n0, n1, n2], _ =>
      refine ⟨_, _, rfl, rfl, by simp, fun ns i s a b c => (hnm ns i s a b c).elim, .inr ⟨.inr rfl, h4⟩, ?_⟩
      intro i a _ hl; simp [IsLogAxis] at hl

theorem read2_const (method f : String) (names : List String) (cden vden : Nat) (lowers uppers vals : List Int) (n0 n1 : Nat) (v : Int)
    (hget : mapFiles.get? f = some (.grid names cden lowers uppers [n0, n1] vden vals))
    (hp : (Raw.grid names cden lowers uppers [n0, n1] vden vals).plain method = true) (h0 : 2 ≤ n0) (h1 : 2 ≤ n1)
    (hlen : vals.length = n0 * n1) (hv : ∀ w ∈ vals, w = v) (x y : ℝ) : read2 method f x y = .ok ((v : ℝ) / vden) := by
  obtain ⟨b, hb⟩ := plain_builds _ _ hp
  have hval : ∀ i j, i < n0 → j < n1 → ((vals.getD (i * n1 + j) 0 : Int) : ℝ) / vden = (v : ℝ) / vden := by
    intro i j hi hj
    have hlt : i * n1 + j < vals.length := by rw [hlen]; nlinarith
    have hw := hv _ (List.getElem_mem hlt)
    have e : vals.getD (i * n1 + j) 0 = v := by
      rw [List.getD_eq_getElem?_getD, List.getElem?_eq_getElem hlt, Option.getD_some]; exact hw
    rw [e]
  obtain ⟨F, rfl, hF⟩ := C92_bounds_2d method _ _ _ _ rfl b hb h0 h1 ((v : ℝ) / vden) ((v : ℝ) / vden)
    (fun i j hi hj => by simp only; rw [hval i j hi hj]; exact ⟨le_refl _, le_refl _⟩)
  obtain ⟨w, hw, hw1, hw2⟩ := hF x y
  unfold read2 readFile
  rw [hget]
  simp only [hb]
  rw [hw, le_antisymm hw2 hw1]

theorem read3_const (method f : String) (names : List String) (cden vden : Nat) (lowers uppers vals : List Int) (n0 n1 n2 : Nat) (v : Int)
    (hget : mapFiles.get? f = some (.grid names cden lowers uppers [n0, n1, n2] vden vals))
    (hp : (Raw.grid names cden lowers uppers [n0, n1, n2] vden vals).plain method = true) (h0 : 2 ≤ n0) (h1 : 2 ≤ n1) (h2 : 2 ≤ n2)
    (hlen : vals.length = n0 * n1 * n2) (hv : ∀ w ∈ vals, w = v) (x y z : ℝ) : read3 method f x y z = .ok ((v : ℝ) / vden) := by
  obtain ⟨b, hb⟩ := plain_builds _ _ hp
  have hval : ∀ i j k, i < n0 → j < n1 → k < n2 → ((vals.getD ((i * n1 + j) * n2 + k) 0 : Int) : ℝ) / vden = (v : ℝ) / vden := by
    intro i j k hi hj hk
    have hlt : (i * n1 + j) * n2 + k < vals.length := by
      rw [hlen]
      have : i * n1 + j < n0 * n1 := by nlinarith
      nlinarith
    have hw := hv _ (List.getElem_mem hlt)
    have e : vals.getD ((i * n1 + j) * n2 + k) 0 = v := by
      rw [List.getD_eq_getElem?_getD, List.getElem?_eq_getElem hlt, Option.getD_some]; exact hw
    rw [e]
  obtain ⟨F, rfl, hF⟩ := C92_bounds_3d method _ _ _ _ _ rfl b hb h0 h1 h2 ((v : ℝ) / vden) ((v : ℝ) / vden)
    (fun i j k hi hj hk => by simp only; rw [hval i j k hi hj hk]; exact ⟨le_refl _, le_refl _⟩)
  obtain ⟨w, hw, hw1, hw2⟩ := hF x y z
  unfold read3 readFile
  rw [hget]
  simp only [hb]
  rw [hw, le_antisymm hw2 hw1]

/-- The threshold of the shipped three-fold table under nearest-neighbour lookup. -/
theorem nn_threefold (x : ℝ) : nn1d (decimals 10 [0, 10, 20, 30, 40, 50]) (decimals 10 [0, 0, 0, 10, 10, 10]) x = if 5 / 2 < x then 1 else 0 := by
  have hd : decimals 10 [0, 10, 20, 30, 40, 50] = [0, 1, 2, 3, 4, (5 : ℝ)] := by norm_num [decimals]
  have hv : decimals 10 [0, 0, 0, 10, 10, 10] = [0, 0, 0, 1, 1, (1 : ℝ)] := by simp [decimals]
  rw [hd, hv]
  obtain ⟨i, r, v, hr, hv', e, hmin, htie⟩ := C29_point_map [0, 1, 2, 3, 4, (5 : ℝ)] [0, 0, 0, 1, 1, (1 : ℝ)] rfl (by simp) x
  rw [e]
  have hi : i < 6 := by simpa using (List.getElem?_eq_some_iff.1 hr).1
  have m2 := hmin 2 (by simp)
  have m3 := hmin 3 (by simp)
  have t2 := fun h => htie 2 2 h rfl
  have aux1 : ∀ a : ℝ, a ≤ 2 → |x - a| ≤ |x - 3| → ¬ 5 / 2 < x := by
    intro a ha h hx
    have h1 : |x - a| = x - a := abs_of_nonneg (by linarith)
    rw [h1] at h
    have h3 : |x - 3| < x - a := by rw [abs_lt]; constructor <;> linarith
    linarith
  have aux2 : ∀ a : ℝ, 3 ≤ a → |x - a| < |x - 2| → 5 / 2 < x := by
    intro a ha h
    by_contra hx
    push Not at hx
    have h1 : |x - a| = a - x := by rw [abs_sub_comm]; exact abs_of_nonneg (by linarith)
    rw [h1] at h
    have h3 : |x - 2| ≤ a - x := by rw [abs_le]; constructor <;> linarith
    linarith
  interval_cases i <;> simp at hr hv' <;> subst hr <;> subst hv'
  · rw [if_neg (aux1 0 (by norm_num) m3)]
  · rw [if_neg (aux1 1 (by norm_num) m3)]
  · rw [if_neg (aux1 2 (by norm_num) m3)]
  · rw [if_pos (aux2 3 (by norm_num) (t2 (by omega)))]
  · rw [if_pos (aux2 4 (by norm_num) (t2 (by omega)))]
  · rw [if_pos (aux2 5 (by norm_num) (t2 (by omega)))]

/-- The integers in the first column of a point file. -/
def Raw.cs : Raw → List Int
  | .point _ _ c _ _ => c
  | .grid .. => []

/-- The integers in the second column of a file. -/
def Raw.vs : Raw → List Int
  | .point _ _ _ _ v => v
  | .grid _ _ _ _ _ _ v => v

theorem s1_cut_acc_one (sigma x : ℝ) : applySigma "s1_cut_acc" sigma x = .ok 1 := by
  have hu : useOf "s1_cut_acc" = some ⟨Shipped.efficiency_S1CutAccept, "s1_cut_acc", "LERP",
    ["_s1_cut_acc.json", "_s1_cut_acc.json", "_s1_cut_acc.json"], some "s1_cut_acc_sigma"⟩ := by decide +kernel
  obtain ⟨y, hy, h1, h2⟩ := read1_lerp_bounds "_s1_cut_acc.json" "s1_area" 1 10 file_s1_cut_acc.cs file_s1_cut_acc.vs 10 10
    rfl (by decide) (by decide) (by decide) (by decide +kernel) (by decide +kernel) (by decide +kernel) (by decide +kernel) x
  have e : y = 1 := by norm_num at h1 h2; linarith
  unfold applySigma
  rw [hu]
  simp only [readSigma, hy, bind, Except.bind, e]
  simp [Conf.sigmaApply]

theorem s2_cut_acc_one (sigma x : ℝ) : applySigma "s2_cut_acc" sigma x = .ok 1 := by
  have hu : useOf "s2_cut_acc" = some ⟨Shipped.efficiency_S2CutAccept, "s2_cut_acc", "LERP",
    ["_s2_cut_acc.json", "_s2_cut_acc.json", "_s2_cut_acc.json"], some "s2_cut_acc_sigma"⟩ := by decide +kernel
  obtain ⟨y, hy, h1, h2⟩ := read1_lerp_bounds "_s2_cut_acc.json" "s2_area" 1 10 file_s2_cut_acc.cs file_s2_cut_acc.vs 10 10
    rfl (by decide) (by decide) (by decide) (by decide +kernel) (by decide +kernel) (by decide +kernel) (by decide +kernel) x
  have e : y = 1 := by norm_num at h1 h2; linarith
  unfold applySigma
  rw [hu]
  simp only [readSigma, hy, bind, Except.bind, e]
  simp [Conf.sigmaApply]

theorem s1_eff_step (sigma x : ℝ) : applySigma "s1_eff_3f" sigma x = .ok (if 5 / 2 < x then 1 else 0) := by
  have hu : useOf "s1_eff_3f" = some ⟨Shipped.efficiency_S1ReconEff, "s1_eff_3f", "NN",
    ["_3fold_recon_eff.json", "_3fold_recon_eff.json", "_3fold_recon_eff.json"], none⟩ := by decide +kernel
  have hy := read1_nn "_3fold_recon_eff.json" "hit" 10 10 [0, 10, 20, 30, 40, 50] [0, 0, 0, 10, 10, 10] rfl (by decide) x
  rw [nn_threefold] at hy
  unfold applySigma
  rw [hu]
  simp only [readSigma, hy, bind, Except.bind]
  simp [Conf.sigmaApply]

end Verif.MapFile
