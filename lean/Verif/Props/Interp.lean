/-
Maps: C28 to C33 and C63.
-/
import Verif.Lemmas.Interp

namespace Verif.Interp
open Verif

section
variable {F : Type} [Field F] [LinearOrder F] [IsStrictOrderedRing F]

/-! ### C28 -/

/-- **C28.** With strictly increasing reference positions the IDW point map is the piecewise linear function through the
table, constant outside. -/
theorem C28_idw_is_linear_interpolation (ref val : List F) (hlen : ref.length = val.length) (hne : ref ≠ [])
    (hs : ref.Pairwise (· < ·)) (x y : F) :
    curve ref val x = y ↔ IsLinearInterp (ref.zip val) x y := by
  have h := curve_spec ref val hlen hne hs x
  constructor
  · rintro rfl; exact h
  · intro h'
    refine isLinearInterp_unique (ref.zip val) ?_ x _ _ h h'
    rw [List.map_fst_zip (by omega)]; exact hs

/-- **C28.** So is the LERP point map, for tables of at least two points. -/
theorem C28_lerp_is_linear_interpolation (ref val : List F) (hlen : ref.length = val.length) (h2 : 2 ≤ ref.length)
    (hs : ref.Pairwise (· < ·)) (x y : F) :
    linear1d ref val x = y ↔ IsLinearInterp (ref.zip val) x y := by
  have h := linear1d_spec ref val hlen h2 hs x
  constructor
  · rintro rfl; exact h
  · intro h'
    refine isLinearInterp_unique (ref.zip val) ?_ x _ _ h h'
    rw [List.map_fst_zip (by omega)]; exact hs

/-- **C28.** The two methods agree everywhere. -/
theorem C28_idw_equals_lerp (ref val : List F) (hlen : ref.length = val.length) (h2 : 2 ≤ ref.length)
    (hs : ref.Pairwise (· < ·)) (x : F) : curve ref val x = linear1d ref val x :=
  (C28_idw_is_linear_interpolation ref val hlen (by intro h; simp [h] at h2) hs x _).2
    (linear1d_spec ref val hlen h2 hs x)

/-- **C28.** A point map returns the stored value at a stored position. -/
theorem C28_exact_at_reference (ref val : List F) (hlen : ref.length = val.length)
    (hs : ref.Pairwise (· < ·)) (k : Nat) (r v : F) (hr : ref[k]? = some r) (hv : val[k]? = some v) :
    curve ref val r = v := by
  have hk := (List.getElem?_eq_some_iff.1 hr).1
  obtain ⟨v', hv', hz⟩ := zip_get ref val hlen k r hr
  rw [hv] at hv'; cases hv'
  rw [C28_idw_is_linear_interpolation ref val hlen (by intro h; simp [h] at hk) hs]
  by_cases hlast : k + 1 < ref.length
  · obtain ⟨b, hb⟩ := get_exists ref (k + 1) hlast
    obtain ⟨w, hw, hz'⟩ := zip_get ref val hlen (k + 1) b hb
    have hrb : r < b := by
      have := List.pairwise_iff_getElem.1 hs k (k + 1) hk hlast (by omega)
      rwa [(List.getElem?_eq_some_iff.1 hr).2, (List.getElem?_eq_some_iff.1 hb).2] at this
    exact .inr (.inr ⟨k, _, _, hz, hz', le_refl _, le_of_lt hrb, by simp⟩)
  · refine .inr (.inl ⟨(r, v), ?_, le_refl _, rfl⟩)
    rw [List.getLast?_eq_getElem?]
    simp only [List.length_zip, ← hlen, min_self]
    rw [show ref.length - 1 = k by omega]; exact hz

/-- **C28.** Between two neighbouring positions the value lies between the two stored values. -/
theorem C28_between_neighbours (ref val : List F) (hlen : ref.length = val.length)
    (hs : ref.Pairwise (· < ·)) (k : Nat) (r r' v v' x : F) (hr : ref[k]? = some r) (hr' : ref[k + 1]? = some r')
    (hv : val[k]? = some v) (hv' : val[k + 1]? = some v') (h1 : r ≤ x) (h2 : x ≤ r') :
    min v v' ≤ curve ref val x ∧ curve ref val x ≤ max v v' := by
  have hk := (List.getElem?_eq_some_iff.1 hr).1
  obtain ⟨w, hw, hz⟩ := zip_get ref val hlen k r hr
  rw [hv] at hw; cases hw
  obtain ⟨w', hw', hz'⟩ := zip_get ref val hlen (k + 1) r' hr'
  rw [hv'] at hw'; cases hw'
  have hrr : r < r' := by
    have := List.pairwise_iff_getElem.1 hs k (k + 1) hk (List.getElem?_eq_some_iff.1 hr').1 (by omega)
    rwa [(List.getElem?_eq_some_iff.1 hr).2, (List.getElem?_eq_some_iff.1 hr').2] at this
  have he : curve ref val x = v + (v' - v) * ((x - r) / (r' - r)) :=
    (C28_idw_is_linear_interpolation ref val hlen (by intro h; simp [h] at hk) hs x _).2
      (.inr (.inr ⟨k, _, _, hz, hz', h1, h2, rfl⟩))
  rw [he]
  have t0 : 0 ≤ (x - r) / (r' - r) := div_nonneg (by linarith) (by linarith)
  have t1 : (x - r) / (r' - r) ≤ 1 := by rw [div_le_one (by linarith)]; linarith
  generalize (x - r) / (r' - r) = t at t0 t1
  rcases le_total v v' with h | h
  · rw [min_eq_left h, max_eq_right h]
    constructor <;> nlinarith
  · rw [min_eq_right h, max_eq_left h]
    constructor <;> nlinarith

/-- With a repeated position the two methods differ there. -/
theorem C28_repeated_position_differs :
    curve [0, 1, 1, 2] [0, 1, 5, 6] (1 : ℚ) = 1 ∧ linear1d [0, 1, 1, 2] [0, 1, 5, 6] (1 : ℚ) = 5 := by
  decide +kernel

/-- Non-vacuity of C28. -/
example : curve [0, 1, 3] [2, 4, 0] (2 : ℚ) = 2 ∧ linear1d [0, 1, 3] [2, 4, 0] (2 : ℚ) = 2 ∧
    curve [0, 1, 3] [2, 4, 0] (5 : ℚ) = 0 ∧ curve [0, 1, 3] [2, 4, 0] (-1 : ℚ) = 2 := by decide +kernel

/-! ### C29 -/

/-- **C29.** Nearest-neighbour lookup in a point map returns the stored value of a position no other position is closer
than, the first such position on ties. -/
theorem C29_point_map (ref val : List F) (hlen : ref.length = val.length) (hne : ref ≠ []) (x : F) :
    ∃ (i : Nat) (r v : F), ref[i]? = some r ∧ val[i]? = some v ∧ nn1d ref val x = v ∧
      (∀ r' ∈ ref, |x - r| ≤ |x - r'|) ∧ ∀ (j : Nat) (r' : F), j < i → ref[j]? = some r' → |x - r| < |x - r'| := by
  obtain ⟨b, h1, h2, h3⟩ := nearest_spec x ref hne
  obtain ⟨v, hv, _⟩ := zip_get ref val hlen _ b h1
  exact ⟨_, b, v, h1, hv, gather_of_get _ _ _ hv, h2, h3⟩

/-- **C29.** If there are fewer values than positions, positions beyond the last value read the last value: indexing clamps. -/
theorem C29_fewer_values (ref val : List F) (v : F) (x : F) (hne : ref ≠ []) (hv : val.getLast? = some v)
    (h : ∀ r ∈ ref.take val.length, ∃ r' ∈ ref.drop val.length, |x - r'| < |x - r|) : nn1d ref val x = v := by
  obtain ⟨b, h1, h2, h3⟩ := nearest_spec x ref hne
  have hge : val.length ≤ nearest x ref := by
    by_contra hlt
    have hm : b ∈ ref.take val.length := by
      rw [List.mem_take_iff_getElem]
      obtain ⟨hi, hb⟩ := List.getElem?_eq_some_iff.1 h1
      exact ⟨nearest x ref, by omega, hb⟩
    obtain ⟨r', hr', hlt'⟩ := h b hm
    exact absurd (h2 r' (List.mem_of_mem_drop hr')) (not_le.2 hlt')
  unfold nn1d gather
  rw [min_eq_right (by omega), List.getD_eq_getElem?_getD, ← List.getLast?_eq_getElem?, hv]
  rfl

example : nn1d [0, 1, 2, 3] [5, 6] (3 : ℚ) = 6 := by decide +kernel

/-- The distance between neighbouring nodes when `n` nodes divide the axis evenly, the first and the last on its ends. -/
def spacing (n : Nat) (a : Axis F) : F := (a.hi - a.lo) / ((n : F) - 1)

/-- Position of a node along an axis. -/
def node (n : Nat) (a : Axis F) (i : Nat) : F := a.lo + spacing n a * (i : F)

/-- The same for an index that may lie outside the map. -/
def nodeZ (n : Nat) (a : Axis F) (i : Int) : F := a.lo + spacing n a * (i : F)

theorem spacing_eq (n : Nat) (a : Axis F) : spacing n a = binSize n a := rfl

theorem node_eq (n : Nat) (a : Axis F) (i : Nat) : node n a i = a.lo + binSize n a * (i : F) := rfl

theorem nodeZ_eq (n : Nat) (a : Axis ℝ) (i : Int) : nodeZ n a i = refPos n a i := rfl

theorem nearest_node (n : Nat) (a : Axis F) (x : F) (hn : 0 < n) :
    wrap n (nearest x (linspace a.lo a.hi n)) = nearest x (linspace a.lo a.hi n) ∧
    nearest x (linspace a.lo a.hi n) < n ∧
    (∀ i, i < n → |x - node n a (nearest x (linspace a.lo a.hi n))| ≤ |x - node n a i|) ∧
    ∀ i, i < nearest x (linspace a.lo a.hi n) →
      |x - node n a (nearest x (linspace a.lo a.hi n))| < |x - node n a i| := by
  obtain ⟨b, h1, h2, h3⟩ := nearest_spec x (linspace a.lo a.hi n) (by
    intro h; have := linspace_length a.lo a.hi n; rw [h] at this; simp at this; omega)
  have hlt := (List.getElem?_eq_some_iff.1 h1).1
  rw [linspace_length] at hlt
  have hb : b = node n a (nearest x (linspace a.lo a.hi n)) := by
    rw [linspace_get _ _ _ _ hlt] at h1; exact (Option.some.inj h1).symm
  refine ⟨?_, hlt, ?_, ?_⟩
  · rw [wrap_of_range _ _ (by omega) (by omega)]; simp
  · intro i hi
    rw [← hb]
    exact h2 _ (List.mem_of_getElem? (linspace_get a.lo a.hi n i hi))
  · intro i hi
    rw [← hb]
    exact h3 i _ hi (linspace_get a.lo a.hi n i (by omega))

/-- **C29.** In two dimensions the entry returned is that of a node with the smallest Euclidean distance, in range, with
the lowest index on each axis among the equally near ones. -/
theorem C29_grid_2d (g : Grid2 F) (a0 a1 : Axis F) (x y : F) (h0 : 0 < g.n0) (h1 : 0 < g.n1) :
    ∃ i j, i < g.n0 ∧ j < g.n1 ∧ nn2d g a0 a1 x y = g.val i j ∧
      (∀ i' j', i' < g.n0 → j' < g.n1 →
        (x - node g.n0 a0 i) ^ 2 + (y - node g.n1 a1 j) ^ 2 ≤ (x - node g.n0 a0 i') ^ 2 + (y - node g.n1 a1 j') ^ 2) ∧
      (∀ i', i' < i → |x - node g.n0 a0 i| < |x - node g.n0 a0 i'|) ∧
      (∀ j', j' < j → |y - node g.n1 a1 j| < |y - node g.n1 a1 j'|) := by
  obtain ⟨w0, l0, m0, t0⟩ := nearest_node g.n0 a0 x h0
  obtain ⟨w1, l1, m1, t1⟩ := nearest_node g.n1 a1 y h1
  refine ⟨_, _, l0, l1, ?_, ?_, t0, t1⟩
  · unfold nn2d; rw [w0, w1]
  · intro i' j' hi hj
    have e0 := sq_le_sq.2 (m0 i' hi)
    have e1 := sq_le_sq.2 (m1 j' hj)
    linarith

/-- **C29.** The same in three dimensions. -/
theorem C29_grid_3d (g : Grid3 F) (a0 a1 a2 : Axis F) (x y z : F) (h0 : 0 < g.n0) (h1 : 0 < g.n1) (h2 : 0 < g.n2) :
    ∃ i j k, i < g.n0 ∧ j < g.n1 ∧ k < g.n2 ∧ nn3d g a0 a1 a2 x y z = g.val i j k ∧
      ∀ i' j' k', i' < g.n0 → j' < g.n1 → k' < g.n2 →
        (x - node g.n0 a0 i) ^ 2 + (y - node g.n1 a1 j) ^ 2 + (z - node g.n2 a2 k) ^ 2 ≤
        (x - node g.n0 a0 i') ^ 2 + (y - node g.n1 a1 j') ^ 2 + (z - node g.n2 a2 k') ^ 2 := by
  obtain ⟨w0, l0, m0, t0⟩ := nearest_node g.n0 a0 x h0
  obtain ⟨w1, l1, m1, t1⟩ := nearest_node g.n1 a1 y h1
  obtain ⟨w2, l2, m2, t2⟩ := nearest_node g.n2 a2 z h2
  refine ⟨_, _, _, l0, l1, l2, ?_, ?_⟩
  · unfold nn3d; rw [w0, w1, w2]
  · intro i' j' k' hi hj hk
    have e0 := sq_le_sq.2 (m0 i' hi)
    have e1 := sq_le_sq.2 (m1 j' hj)
    have e2 := sq_le_sq.2 (m2 k' hk)
    linarith

/-- Non-vacuity of C29: a tie goes to the lower index, positions outside to the border. -/
example : nn1d [0, 1, 3] [7, 8, 9] (2 : ℚ) = 8 ∧ nn1d [0, 1, 3] [7, 8, 9] (50 : ℚ) = 9 ∧
    nn2d (F := ℚ) ⟨3, 2, fun i j => 10 * (i : ℚ) + (j : ℚ)⟩ ⟨0, 2⟩ ⟨0, 1⟩ (1 / 2) 7 = 1 := by decide +kernel

/-! ### C30 -/

section
variable [FloorRing F]

/-- **C30 (range of indices).** With at least two entries the cell and its upper neighbour are valid indices. -/
theorem C30_indices_in_range (n : Nat) (a : Axis F) (x : F) (hn : 2 ≤ n) :
    0 ≤ cell n (frac n a x) ∧ cell n (frac n a x) + 1 < n := by
  have := cell_range n (frac n a x) hn; omega

/-- **C30 (bounds).** -/
theorem C30_bilinear_bounds (g : Grid2 F) (a0 a1 : Axis F) (x y m M : F) (h0 : 2 ≤ g.n0) (h1 : 2 ≤ g.n1)
    (hv : ∀ i j, i < g.n0 → j < g.n1 → m ≤ g.val i j ∧ g.val i j ≤ M) :
    m ≤ bilinear g a0 a1 x y ∧ bilinear g a0 a1 x y ≤ M := by
  rw [bilinear_eq]
  exact axisLerp_bounds _ _ _ _ h0 m M (fun i hi => axisLerp_bounds _ _ _ _ h1 m M (fun j hj => hv i j hi hj))

theorem C30_trilinear_bounds (g : Grid3 F) (a0 a1 a2 : Axis F) (x y z m M : F) (h0 : 2 ≤ g.n0) (h1 : 2 ≤ g.n1)
    (h2 : 2 ≤ g.n2) (hv : ∀ i j k, i < g.n0 → j < g.n1 → k < g.n2 → m ≤ g.val i j k ∧ g.val i j k ≤ M) :
    m ≤ trilinear g a0 a1 a2 x y z ∧ trilinear g a0 a1 a2 x y z ≤ M := by
  rw [trilinear_eq]
  exact axisLerp_bounds _ _ _ _ h0 m M (fun i hi => axisLerp_bounds _ _ _ _ h1 m M (fun j hj =>
    axisLerp_bounds _ _ _ _ h2 m M (fun k hk => hv i j k hi hj hk)))

/-- **C30 (nodes).** -/
theorem C30_bilinear_exact_at_nodes (g : Grid2 F) (a0 a1 : Axis F) (i j : Nat) (h0 : 2 ≤ g.n0) (h1 : 2 ≤ g.n1)
    (ha0 : a0.lo < a0.hi) (ha1 : a1.lo < a1.hi) (hi : i < g.n0) (hj : j < g.n1) :
    bilinear g a0 a1 (node g.n0 a0 i) (node g.n1 a1 j) = g.val i j := by
  rw [bilinear_eq]
  simp only [node_eq]
  rw [axisLerp_node _ _ _ _ h0 ha0 hi, axisLerp_node _ _ _ _ h1 ha1 hj]

theorem C30_trilinear_exact_at_nodes (g : Grid3 F) (a0 a1 a2 : Axis F) (i j k : Nat) (h0 : 2 ≤ g.n0) (h1 : 2 ≤ g.n1)
    (h2 : 2 ≤ g.n2) (ha0 : a0.lo < a0.hi) (ha1 : a1.lo < a1.hi) (ha2 : a2.lo < a2.hi)
    (hi : i < g.n0) (hj : j < g.n1) (hk : k < g.n2) :
    trilinear g a0 a1 a2 (node g.n0 a0 i) (node g.n1 a1 j) (node g.n2 a2 k) = g.val i j k := by
  rw [trilinear_eq]
  simp only [node_eq]
  rw [axisLerp_node _ _ _ _ h0 ha0 hi, axisLerp_node _ _ _ _ h1 ha1 hj, axisLerp_node _ _ _ _ h2 ha2 hk]

/-- Inside an axis. -/
def Axis.has (a : Axis F) (x : F) : Prop := a.lo ≤ x ∧ x ≤ a.hi

/-- **C30 (affine maps).** -/
theorem C30_bilinear_reproduces_affine (g : Grid2 F) (a0 a1 : Axis F) (x y b c d : F) (h0 : 2 ≤ g.n0) (h1 : 2 ≤ g.n1)
    (ha0 : a0.lo < a0.hi) (ha1 : a1.lo < a1.hi) (hx : a0.has x) (hy : a1.has y)
    (hv : ∀ i j, i < g.n0 → j < g.n1 → g.val i j = b + c * node g.n0 a0 i + d * node g.n1 a1 j) :
    bilinear g a0 a1 x y = b + c * x + d * y := by
  rw [bilinear_eq, axisLerp_affine g.n0 a0 x (b + d * y) c _ h0 ha0 hx.1 hx.2]
  · ring
  · intro i hi
    rw [axisLerp_affine g.n1 a1 y (b + c * node g.n0 a0 i) d _ h1 ha1 hy.1 hy.2 (fun j hj => hv i j hi hj)]
    simp only [node_eq]; ring

theorem C30_trilinear_reproduces_affine (g : Grid3 F) (a0 a1 a2 : Axis F) (x y z b c d e : F) (h0 : 2 ≤ g.n0)
    (h1 : 2 ≤ g.n1) (h2 : 2 ≤ g.n2) (ha0 : a0.lo < a0.hi) (ha1 : a1.lo < a1.hi) (ha2 : a2.lo < a2.hi)
    (hx : a0.has x) (hy : a1.has y) (hz : a2.has z)
    (hv : ∀ i j k, i < g.n0 → j < g.n1 → k < g.n2 →
      g.val i j k = b + c * node g.n0 a0 i + d * node g.n1 a1 j + e * node g.n2 a2 k) :
    trilinear g a0 a1 a2 x y z = b + c * x + d * y + e * z := by
  rw [trilinear_eq, axisLerp_affine g.n0 a0 x (b + d * y + e * z) c _ h0 ha0 hx.1 hx.2]
  · ring
  · intro i hi
    rw [axisLerp_affine g.n1 a1 y (b + c * node g.n0 a0 i + e * z) d _ h1 ha1 hy.1 hy.2]
    · simp only [node_eq]; ring
    · intro j hj
      rw [axisLerp_affine g.n2 a2 z (b + c * node g.n0 a0 i + d * node g.n1 a1 j) e _ h2 ha2 hz.1 hz.2
        (fun k hk => hv i j k hi hj hk)]
      simp only [node_eq]; ring

/-- **C30 (outside).** Outside the box the value is that of the nearest point of the box. -/
theorem C30_bilinear_clamps (g : Grid2 F) (a0 a1 : Axis F) (x y : F) (h0 : 2 ≤ g.n0) (h1 : 2 ≤ g.n1)
    (ha0 : a0.lo < a0.hi) (ha1 : a1.lo < a1.hi) :
    bilinear g a0 a1 x y = bilinear g a0 a1 (max a0.lo (min x a0.hi)) (max a1.lo (min y a1.hi)) := by
  have e : ∀ (a : Axis F) (x : F), a.lo < a.hi → max a.lo (min x a.hi) = clip x a.lo a.hi := by
    intro a x h
    unfold clip
    rw [max_comm, max_min_distrib_right, max_eq_left (le_of_lt h)]
  rw [e a0 x ha0, e a1 y ha1, bilinear_eq, bilinear_eq, axisLerp_clip _ _ x _ h0 ha0]
  congr 1
  funext i
  exact axisLerp_clip _ _ y _ h1 ha1

theorem C30_trilinear_clamps (g : Grid3 F) (a0 a1 a2 : Axis F) (x y z : F) (h0 : 2 ≤ g.n0) (h1 : 2 ≤ g.n1)
    (h2 : 2 ≤ g.n2) (ha0 : a0.lo < a0.hi) (ha1 : a1.lo < a1.hi) (ha2 : a2.lo < a2.hi) :
    trilinear g a0 a1 a2 x y z = trilinear g a0 a1 a2 (max a0.lo (min x a0.hi)) (max a1.lo (min y a1.hi))
      (max a2.lo (min z a2.hi)) := by
  have e : ∀ (a : Axis F) (x : F), a.lo < a.hi → max a.lo (min x a.hi) = clip x a.lo a.hi := by
    intro a x h
    unfold clip
    rw [max_comm, max_min_distrib_right, max_eq_left (le_of_lt h)]
  rw [e a0 x ha0, e a1 y ha1, e a2 z ha2, trilinear_eq, trilinear_eq, axisLerp_clip _ _ x _ h0 ha0]
  congr 1
  funext i
  rw [axisLerp_clip _ _ y _ h1 ha1]
  congr 1
  funext j
  exact axisLerp_clip _ _ z _ h2 ha2

/-- **C30 (shape).** A bilinear map is linear interpolation along the second axis followed by linear interpolation along
the first, in the sense of C28. -/
theorem C30_bilinear_is_iterated_linear (g : Grid2 F) (a0 a1 : Axis F) (x y : F) (h0 : 2 ≤ g.n0) (h1 : 2 ≤ g.n1)
    (ha0 : a0.lo < a0.hi) (ha1 : a1.lo < a1.hi) :
    ∃ rows : Nat → F,
      (∀ i, IsLinearInterp ((List.range g.n1).map (fun j : Nat => (node g.n1 a1 j, g.val i j))) y (rows i)) ∧
      IsLinearInterp ((List.range g.n0).map (fun i : Nat => (node g.n0 a0 i, rows i))) x (bilinear g a0 a1 x y) := by
  refine ⟨fun i => axisLerp g.n1 a1 y (fun j => g.val i j), fun i => axisLerp_linear _ _ _ _ h1 ha1, ?_⟩
  rw [bilinear_eq]
  exact axisLerp_linear _ _ _ _ h0 ha0

end

/-- Non-vacuity of C30. -/
example : bilinear ⟨3, 2, fun i j => if i = 1 ∧ j = 1 then 8 else 0⟩ ⟨0, 2⟩ ⟨0, 1⟩ (1 / 2) (3 / 4 : ℚ) = 3 ∧
    bilinear ⟨3, 2, fun i j => if i = 1 ∧ j = 1 then 8 else 0⟩ ⟨0, 2⟩ ⟨0, 1⟩ 1 (9 : ℚ) = 8 := by decide +kernel

/-- Non-vacuity of C30 in three dimensions: a map that is affine at its nodes, read between them, and outside. -/
example : trilinear ⟨3, 2, 2, fun i j k => 1 + 2 * (i : ℚ) + 3 * (j : ℚ) - (k : ℚ)⟩ ⟨0, 2⟩ ⟨0, 1⟩ ⟨0, 1⟩ (3 / 2) (1 / 3) (1 / 2) = 9 / 2 ∧
    trilinear ⟨3, 2, 2, fun i j k => 1 + 2 * (i : ℚ) + 3 * (j : ℚ) - (k : ℚ)⟩ ⟨0, 2⟩ ⟨0, 1⟩ ⟨0, 1⟩ 7 (-4) 1 = 4 := by decide +kernel

/-- Non-vacuity of C29 in three dimensions. -/
example : nn3d (F := ℚ) ⟨3, 2, 2, fun i j k => 100 * (i : ℚ) + 10 * (j : ℚ) + (k : ℚ)⟩ ⟨0, 2⟩ ⟨0, 1⟩ ⟨0, 1⟩ (3 / 4) 7 (1 / 4) = 110 := by
  decide +kernel

end

/-! ### C31 -/

/-- **C31.** The 2D inverse-distance map is an average, with positive weights, of the four entries at its corner indices
(clamped into the map). -/
theorem C31_idw_2d_is_average (g : Grid2 ℝ) (a0 a1 : Axis ℝ) (x y : ℝ) :
    IsAverage ((corners2 (idwIndex g.n0 a0 x, idwIndex g.n1 a1 y)).map
      (fun i => g.val (wrap g.n0 i.1) (wrap g.n1 i.2))) (idw2d g a0 a1 x y) := by
  unfold idw2d
  have := weighted_average ((corners2 (idwIndex g.n0 a0 x, idwIndex g.n1 a1 y)).map (fun i =>
    (g.val (wrap g.n0 i.1) (wrap g.n1 i.2),
     clip (√((refPos g.n0 a0 i.1 - x) ^ 2 + (refPos g.n1 a1 i.2 - y) ^ 2)) floatPosMin floatPosMax)))
     (by simp [corners2]) (by
      intro p hp
      obtain ⟨i, _, rfl⟩ := List.mem_map.1 hp
      exact clip_dist_pos _)
  rw [List.map_map] at this
  exact this

/-- **C31.** The 3D map is an average of the eight entries at its corner indices. -/
theorem C31_idw_3d_is_average (g : Grid3 ℝ) (a0 a1 a2 : Axis ℝ) (x y z : ℝ) :
    IsAverage ((corners3 (idwIndex g.n0 a0 x, idwIndex g.n1 a1 y, idwIndex g.n2 a2 z)).map
      (fun i => g.val (wrap g.n0 i.1) (wrap g.n1 i.2.1) (wrap g.n2 i.2.2))) (idw3d g a0 a1 a2 x y z) := by
  unfold idw3d
  have := weighted_average ((corners3 (idwIndex g.n0 a0 x, idwIndex g.n1 a1 y, idwIndex g.n2 a2 z)).map (fun i =>
    (g.val (wrap g.n0 i.1) (wrap g.n1 i.2.1) (wrap g.n2 i.2.2),
     clip (√((refPos g.n0 a0 i.1 - x) ^ 2 + (refPos g.n1 a1 i.2.1 - y) ^ 2 + (refPos g.n2 a2 i.2.2 - z) ^ 2))
       floatPosMin floatPosMax)))
     (by simp [corners3]) (by
      intro p hp
      obtain ⟨i, _, rfl⟩ := List.mem_map.1 hp
      exact clip_dist_pos _)
  rw [List.map_map] at this
  exact this

/-- The distance used by the maps: Euclidean, kept between the smallest and largest normal float32. -/
noncomputable def floatDist (s : ℝ) : ℝ := max floatPosMin (min (√s) floatPosMax)

theorem floatDist_eq (s : ℝ) : clip (√s) floatPosMin floatPosMax = floatDist s := by
  unfold clip floatDist
  rw [max_comm, max_min_distrib_left, max_eq_right floatPosMin_le]

/-- **C31.** The weights are inversely proportional to the distances from the corners. -/
theorem C31_idw_2d_weights (g : Grid2 ℝ) (a0 a1 : Axis ℝ) (x y : ℝ) :
    IsInverseDistance ((corners2 (idwIndex g.n0 a0 x, idwIndex g.n1 a1 y)).map (fun i =>
      (g.val (wrap g.n0 i.1) (wrap g.n1 i.2),
       floatDist ((nodeZ g.n0 a0 i.1 - x) ^ 2 + (nodeZ g.n1 a1 i.2 - y) ^ 2)))) (idw2d g a0 a1 x y) := by
  unfold idw2d
  simp only [floatDist_eq, nodeZ_eq]
  refine weighted_inverse _ (by simp [corners2]) ?_
  intro p hp
  obtain ⟨i, _, rfl⟩ := List.mem_map.1 hp
  exact lt_of_lt_of_le floatPosMin_pos (le_max_left _ _)

theorem C31_idw_3d_weights (g : Grid3 ℝ) (a0 a1 a2 : Axis ℝ) (x y z : ℝ) :
    IsInverseDistance ((corners3 (idwIndex g.n0 a0 x, idwIndex g.n1 a1 y, idwIndex g.n2 a2 z)).map (fun i =>
      (g.val (wrap g.n0 i.1) (wrap g.n1 i.2.1) (wrap g.n2 i.2.2),
       floatDist ((nodeZ g.n0 a0 i.1 - x) ^ 2 + (nodeZ g.n1 a1 i.2.1 - y) ^ 2 + (nodeZ g.n2 a2 i.2.2 - z) ^ 2))))
      (idw3d g a0 a1 a2 x y z) := by
  unfold idw3d
  simp only [floatDist_eq, nodeZ_eq]
  refine weighted_inverse _ (by simp [corners3]) ?_
  intro p hp
  obtain ⟨i, _, rfl⟩ := List.mem_map.1 hp
  exact lt_of_lt_of_le floatPosMin_pos (le_max_left _ _)

theorem idwIndex_node (n : Nat) (a : Axis ℝ) (i : Nat) (hn : 2 ≤ n) (ha : a.lo < a.hi) (hi : i < n) :
    idwIndex n a (node n a i) = i := by
  unfold idwIndex; rw [node_eq]
  rw [frac_node n a i hn ha]
  simp only [Int.floor_natCast]
  exact clip_of_mem _ _ _ (by omega) (by omega)

/-- **C31 (nodes).** At a node the 2D map is the entry there, up to `3 D tiny / b`: `D` bounds the differences between
entries, `b` is a lower bound of the bin sizes and `tiny = 2^-126`. -/
theorem C31_idw_2d_at_node (g : Grid2 ℝ) (a0 a1 : Axis ℝ) (i j : Nat) (D b : ℝ) (h0 : 2 ≤ g.n0) (h1 : 2 ≤ g.n1)
    (ha0 : a0.lo < a0.hi) (ha1 : a1.lo < a1.hi) (hi : i < g.n0) (hj : j < g.n1)
    (hD : ∀ i' j', i' < g.n0 → j' < g.n1 → |g.val i' j' - g.val i j| ≤ D)
    (hb : 0 < b) (hb0 : b ≤ spacing g.n0 a0) (hb1 : b ≤ spacing g.n1 a1) (hbM : b ≤ floatPosMax) :
    |idw2d g a0 a1 (node g.n0 a0 i) (node g.n1 a1 j) - g.val i j| ≤ 3 * D * floatPosMin / b := by
  rw [spacing_eq] at hb0 hb1
  have hD0 : 0 ≤ D := le_trans (abs_nonneg _) (hD i j hi hj)
  unfold idw2d
  rw [idwIndex_node _ _ _ h0 ha0 hi, idwIndex_node _ _ _ h1 ha1 hj]
  simp only [corners2, List.map_cons, List.map_nil]
  have hw0 : wrap g.n0 i = i := by rw [wrap_of_range _ _ (by omega) (by omega)]; simp
  have hw1 : wrap g.n1 j = j := by rw [wrap_of_range _ _ (by omega) (by omega)]; simp
  have e0 : ∀ (n : Nat) (a : Axis ℝ) (k : Nat), refPos n a (k : Int) - node n a k = 0 := by
    intro n a k; unfold refPos; rw [node_eq]; push_cast; ring
  have e1 : ∀ (n : Nat) (a : Axis ℝ) (k : Nat), refPos n a ((k : Int) + 1) - node n a k = binSize n a := by
    intro n a k; unfold refPos; rw [node_eq]; push_cast; ring
  rw [hw0, hw1]
  simp only [e0, e1]
  have hz : clip (√(0 ^ 2 + 0 ^ 2)) floatPosMin floatPosMax = floatPosMin := by
    simp only [ne_eq, OfNat.ofNat_ne_zero, not_false_eq_true, zero_pow, add_zero, Real.sqrt_zero]
    exact clip_low _ _ _ floatPosMin_pos.le floatPosMin_le
  rw [hz]
  have hge : ∀ s : ℝ, b ^ 2 ≤ s → b ≤ clip (√s) floatPosMin floatPosMax :=
    fun s hs => clip_dist_ge _ _ (Real.le_sqrt_of_sq_le hs) hbM
  have hsq0 : b ^ 2 ≤ binSize g.n0 a0 ^ 2 := pow_le_pow_left₀ hb.le hb0 2
  have hsq1 : b ^ 2 ≤ binSize g.n1 a1 ^ 2 := pow_le_pow_left₀ hb.le hb1 2
  have hp0 := sq_nonneg (binSize g.n0 a0)
  have hp1 := sq_nonneg (binSize g.n1 a1)
  refine le_trans (weighted_near _ _ _ floatPosMin_pos ?_) ?_
  · intro p hp
    simp only [List.mem_cons, List.not_mem_nil, or_false] at hp
    rcases hp with rfl | rfl | rfl <;> exact clip_dist_pos _
  · simp only [List.map_cons, List.map_nil, List.sum_cons, List.sum_nil, add_zero]
    have t : ∀ (v s : ℝ), |v| ≤ D → b ^ 2 ≤ s → |v| / clip (√s) floatPosMin floatPosMax ≤ D / b :=
      fun v s hv hs => div_le_div₀ hD0 hv hb (hge s hs)
    have t1 := t _ (binSize g.n0 a0 ^ 2 + 0 ^ 2) (hD (wrap g.n0 ((i : Int) + 1)) j (wrap_lt _ _ (by omega)) hj)
      (by nlinarith)
    have t2 := t _ (0 ^ 2 + binSize g.n1 a1 ^ 2) (hD i (wrap g.n1 ((j : Int) + 1)) hi (wrap_lt _ _ (by omega)))
      (by nlinarith)
    have t3 := t _ (binSize g.n0 a0 ^ 2 + binSize g.n1 a1 ^ 2) (hD (wrap g.n0 ((i : Int) + 1))
      (wrap g.n1 ((j : Int) + 1)) (wrap_lt _ _ (by omega)) (wrap_lt _ _ (by omega))) (by nlinarith)
    have hm := floatPosMin_pos
    have e : 3 * D * floatPosMin / b = floatPosMin * (D / b + (D / b + D / b)) := by ring
    rw [e]
    refine mul_le_mul_of_nonneg_left ?_ hm.le
    linarith

/-- **C31.** Constant maps are reproduced. -/
theorem C31_constant_maps (g : Grid2 ℝ) (g' : Grid3 ℝ) (a0 a1 a2 : Axis ℝ) (x y z c : ℝ) (h : ∀ i j, g.val i j = c)
    (h' : ∀ i j k, g'.val i j k = c) : idw2d g a0 a1 x y = c ∧ idw3d g' a0 a1 a2 x y z = c := by
  constructor
  · obtain ⟨d, _, h1, h2⟩ := C31_idw_2d_weights g a0 a1 x y
    rw [h2]
    simp only [List.map_map, Function.comp_def, h] at h1 ⊢
    simp only [corners2, List.map_cons, List.map_nil, List.sum_cons, List.sum_nil] at h1 ⊢
    linear_combination c * h1
  · obtain ⟨d, _, h1, h2⟩ := C31_idw_3d_weights g' a0 a1 a2 x y z
    rw [h2]
    simp only [List.map_map, Function.comp_def, h'] at h1 ⊢
    simp only [corners3, List.map_cons, List.map_nil, List.sum_cons, List.sum_nil] at h1 ⊢
    linear_combination c * h1

/-- **C31.** The corner indices are the four (eight) distinct combinations of the cell index and its successor. -/
theorem C31_corners (i j k : Int) :
    (corners2 (i, j)).Nodup ∧ (∀ a b, (a, b) ∈ corners2 (i, j) ↔ (a = i ∨ a = i + 1) ∧ (b = j ∨ b = j + 1)) ∧
    (corners3 (i, j, k)).Nodup ∧
    ∀ a b c, (a, b, c) ∈ corners3 (i, j, k) ↔
      (a = i ∨ a = i + 1) ∧ (b = j ∨ b = j + 1) ∧ (c = k ∨ c = k + 1) := by
  refine ⟨?_, ?_, ?_, ?_⟩
  · simp [corners2]
  · intro a b
    simp only [corners2, List.mem_cons, Prod.mk.injEq, List.not_mem_nil, or_false]
    tauto
  · simp [corners3]
  · intro a b c
    simp only [corners3, List.mem_cons, Prod.mk.injEq, List.not_mem_nil, or_false]
    tauto

/-- **C31.** The cell index is the cell of the position: inside the box, the position lies between its node and the
next. -/
theorem C31_cell_contains_position (n : Nat) (a : Axis ℝ) (x : ℝ) (hn : 2 ≤ n) (ha : a.lo < a.hi) (h : a.has x) :
    0 ≤ idwIndex n a x ∧ idwIndex n a x ≤ n - 1 ∧
    nodeZ n a (idwIndex n a x) ≤ x ∧ x < nodeZ n a (idwIndex n a x + 1) := by
  rw [nodeZ_eq, nodeZ_eq]
  have hb := binSize_pos n a hn ha
  have hm := binSize_mul n a hn
  have hf0 : 0 ≤ frac n a x := div_nonneg (by linarith [h.1]) (le_of_lt hb)
  have hf1 : frac n a x ≤ (n : ℝ) - 1 := by
    unfold frac; rw [div_le_iff₀ hb, mul_comm, hm]; linarith [h.2]
  have hx : x = a.lo + binSize n a * frac n a x := by unfold frac; field_simp; ring
  have hidx : idwIndex n a x = ⌊frac n a x⌋ := by
    unfold idwIndex
    apply clip_of_mem
    · exact Int.floor_nonneg.2 hf0
    · rw [Int.floor_le_iff]; push_cast; linarith
  have r := clip_mem ⌊frac n a x⌋ 0 ((n : Int) - 1) (by omega)
  refine ⟨r.1, r.2, ?_, ?_⟩
  · unfold refPos; rw [hidx]
    conv_rhs => rw [hx]
    have := Int.floor_le (frac n a x)
    nlinarith
  · unfold refPos; rw [hidx]
    conv_lhs => rw [hx]
    have := Int.lt_floor_add_one (frac n a x)
    push_cast
    nlinarith

/-- **C31.** Inverse-distance maps stay between bounds of the map entries, inside and outside the box. -/
theorem C31_idw_bounds (g : Grid2 ℝ) (a0 a1 : Axis ℝ) (x y m M : ℝ) (h0 : 0 < g.n0) (h1 : 0 < g.n1)
    (hv : ∀ i j, i < g.n0 → j < g.n1 → m ≤ g.val i j ∧ g.val i j ≤ M) :
    m ≤ idw2d g a0 a1 x y ∧ idw2d g a0 a1 x y ≤ M := by
  refine (C31_idw_2d_is_average g a0 a1 x y).bounds m M ?_
  intro v hvm
  obtain ⟨i, _, rfl⟩ := List.mem_map.1 hvm
  exact hv _ _ (wrap_lt _ _ h0) (wrap_lt _ _ h1)

theorem C31_idw_bounds_3d (g : Grid3 ℝ) (a0 a1 a2 : Axis ℝ) (x y z m M : ℝ) (h0 : 0 < g.n0) (h1 : 0 < g.n1)
    (h2 : 0 < g.n2) (hv : ∀ i j k, i < g.n0 → j < g.n1 → k < g.n2 → m ≤ g.val i j k ∧ g.val i j k ≤ M) :
    m ≤ idw3d g a0 a1 a2 x y z ∧ idw3d g a0 a1 a2 x y z ≤ M := by
  refine (C31_idw_3d_is_average g a0 a1 a2 x y z).bounds m M ?_
  intro v hvm
  obtain ⟨i, _, rfl⟩ := List.mem_map.1 hvm
  exact hv _ _ _ (wrap_lt _ _ h0) (wrap_lt _ _ h1) (wrap_lt _ _ h2)

/-- **C31.** The k-nearest-neighbour map is an average of the values of `k` points such that no other point is nearer
than any of them; it raises exactly when there are fewer than `k` points. -/
theorem C31_knn (pos : List ℝ) (ref : List (List ℝ × ℝ)) (k : Nat) (hk : 0 < k) :
    (ref.length < k → knn pos ref k = .error .valueError) ∧
    (k ≤ ref.length → ∃ (sel rest : List (List ℝ × ℝ)) (y : ℝ), (sel ++ rest).Perm ref ∧ sel.length = k ∧
      (∀ a ∈ sel, ∀ b ∈ rest, sqDist pos a.1 ≤ sqDist pos b.1) ∧
      knn pos ref k = .ok y ∧ IsAverage (sel.map Prod.snd) y ∧
      IsInverseDistance (sel.map (fun q => (q.2, max (√(sqDist pos q.1)) (1 / 1000000)))) y) := by
  classical
  have hd : ∀ q, sqDist pos q = dist2 pos q := fun q => by simp [sqDist, dist2, sq]
  simp only [hd]
  constructor
  · intro h; unfold knn; rw [if_pos h]
  · intro h
    set le : (List ℝ × ℝ) → (List ℝ × ℝ) → Bool := fun a b => decide (dist2 pos a.1 ≤ dist2 pos b.1) with hle
    have hperm := List.mergeSort_perm ref le
    have hsorted : (ref.mergeSort le).Pairwise (fun a b => le a b = true) := by
      apply List.pairwise_mergeSort
      · intro a b c; simp only [hle, decide_eq_true_eq]; exact le_trans
      · intro a b; simp only [hle, Bool.or_eq_true, decide_eq_true_eq]; exact le_total _ _
    have htop : topK pos ref k = (ref.mergeSort le).take k := by
      unfold topK; congr
    have hlen : (topK pos ref k).length = k := by
      rw [htop, List.length_take, hperm.length_eq]; omega
    refine ⟨topK pos ref k, (ref.mergeSort le).drop k,
      (((topK pos ref k).map (fun q => (q.2, 1 / max (√(dist2 pos q.1)) (1 / 1000000)))).map
        (fun p => p.1 * p.2)).sum / (((topK pos ref k).map
        (fun q => (q.2, 1 / max (√(dist2 pos q.1)) (1 / 1000000)))).map Prod.snd).sum, ?_, hlen, ?_, ?_, ?_, ?_⟩
    · rw [htop, List.take_append_drop]; exact hperm
    · intro a ha b hb
      rw [htop] at ha
      have hs' := hsorted
      rw [← List.take_append_drop k (ref.mergeSort le), List.pairwise_append] at hs'
      have := hs'.2.2 a ha b hb
      simpa [hle] using this
    · unfold knn; rw [if_neg (by omega)]
    · have := average_of_weights ((topK pos ref k).map (fun q => (q.2, 1 / max (√(dist2 pos q.1)) (1 / 1000000))))
        (by intro h0; have := congrArg List.length h0; simp [hlen] at this; omega)
        (by
          intro p hp
          obtain ⟨q, _, rfl⟩ := List.mem_map.1 hp
          exact one_div_pos.2 (lt_of_lt_of_le (by norm_num) (le_max_right _ _)))
      rw [List.map_map] at this
      exact this
    · have := weighted_inverse ((topK pos ref k).map (fun q => (q.2, max (√(dist2 pos q.1)) (1 / 1000000))))
        (by intro h0; have := congrArg List.length h0; simp [hlen] at this; omega)
        (by
          intro p hp
          obtain ⟨q, _, rfl⟩ := List.mem_map.1 hp
          exact lt_of_lt_of_le (by norm_num) (le_max_right _ _))
      unfold weighted at this
      simp only [List.map_map, Function.comp_def, mul_one_div] at this ⊢
      exact this

/-- Non-vacuity of C31: an average of four corners of a cell. -/
example : IsAverage [(1 : ℚ), 2, 3, 4] (5 / 2) := ⟨[1/4, 1/4, 1/4, 1/4], rfl, by simp, by norm_num, by norm_num⟩

/-- Non-vacuity of C31: a map of four entries, whose value between them lies between the smallest and the largest, whose value at a
node is the entry up to a tiny number, and whose cells contain the positions in them. -/
example : (0 ≤ idw2d ⟨2, 2, fun i j => (i : ℝ) + j⟩ ⟨0, 1⟩ ⟨0, 1⟩ (1 / 3) (1 / 4) ∧
      idw2d ⟨2, 2, fun i j => (i : ℝ) + j⟩ ⟨0, 1⟩ ⟨0, 1⟩ (1 / 3) (1 / 4) ≤ 2) ∧
    |idw2d ⟨2, 2, fun i j => (i : ℝ) + j⟩ ⟨0, 1⟩ ⟨0, 1⟩ (node 2 ⟨0, 1⟩ 1) (node 2 ⟨0, 1⟩ 0) - 1| ≤ 3 * 1 * floatPosMin / 1 ∧
    (0 ≤ idwIndex 2 (⟨0, 1⟩ : Axis ℝ) (1 / 3) ∧ nodeZ 2 (⟨0, 1⟩ : Axis ℝ) (idwIndex 2 (⟨0, 1⟩ : Axis ℝ) (1 / 3)) ≤ 1 / 3) := by
  have small : ∀ i j : ℕ, i < 2 → j < 2 → (i : ℝ) ≤ 1 ∧ (j : ℝ) ≤ 1 := by
    intro i j hi hj
    exact ⟨by exact_mod_cast Nat.lt_succ_iff.1 hi, by exact_mod_cast Nat.lt_succ_iff.1 hj⟩
  refine ⟨C31_idw_bounds _ _ _ _ _ 0 2 (by simp) (by simp) fun i j hi hj => ⟨by positivity, ?_⟩, ?_, ?_⟩
  · have := small i j hi hj
    simp only
    linarith
  · have := C31_idw_2d_at_node ⟨2, 2, fun i j => (i : ℝ) + j⟩ ⟨0, 1⟩ ⟨0, 1⟩ 1 0 1 1 le_rfl le_rfl (by norm_num) (by norm_num) (by norm_num)
      (by norm_num) (fun i j hi hj => by
        have := small i j hi hj
        have h0 : (0 : ℝ) ≤ i := by positivity
        have h1 : (0 : ℝ) ≤ j := by positivity
        simp only [Nat.cast_one, Nat.cast_zero]
        rw [abs_le]
        constructor <;> linarith) one_pos (by norm_num [spacing]) (by norm_num [spacing]) (by norm_num [floatPosMax])
    simpa using this
  · have := C31_cell_contains_position 2 ⟨0, 1⟩ (1 / 3) le_rfl (by norm_num) (by norm_num [Axis.has])
    exact ⟨this.1, this.2.2.1⟩

/-- Non-vacuity of C31: two of three neighbours are averaged, the one far away is not. -/
example : ∃ y, knn [0] [([1], 10), ([2], 20), ([9], 99)] 2 = .ok y ∧ 10 ≤ y ∧ y ≤ 20 := by
  obtain ⟨sel, rest, y, hp, hl, hd, hy, ha, _⟩ := (C31_knn [0] [([1], 10), ([2], 20), ([9], 99)] 2 (by norm_num)).2 (by simp)
  refine ⟨y, hy, ha.bounds 10 20 ?_⟩
  obtain ⟨r, rfl⟩ : ∃ r, rest = [r] := List.length_eq_one_iff.1 (by have := hp.length_eq; simp [hl] at this; omega)
  have mem : ∀ q, q ∈ sel ∨ q = r ↔ q = ([1], 10) ∨ q = ([2], 20) ∨ q = (([9], 99) : List ℝ × ℝ) := fun q => by
    simpa using hp.mem_iff (a := q)
  have last : r = ([9], 99) := by
    rcases (mem ([9], 99)).2 (by simp) with h | h
    · have h1 := hd _ h r (by simp)
      rcases (mem r).1 (.inr rfl) with rfl | rfl | rfl
      · norm_num [sqDist] at h1
      · norm_num [sqDist] at h1
      · rfl
    · exact h.symm
  subst last
  have hs : sel.Perm [([1], 10), ([2], 20)] :=
    (List.perm_append_right_iff [(([9], 99) : List ℝ × ℝ)]).1 (by simpa using hp)
  intro v hv
  obtain ⟨q, hq, rfl⟩ := List.mem_map.1 hv
  have := hs.mem_iff.1 hq
  simp only [List.mem_cons, List.not_mem_nil, or_false] at this
  rcases this with rfl | rfl <;> norm_num

/-! ### C63 -/

/-- **C63.** At a grid node the float32 average overflows as soon as the entry there is at least four: the distance is
replaced by the smallest normal float, and dividing by it exceeds the largest one. -/
theorem C63_node_overflow (v1 v2 v3 v4 d2 d3 d4 : ℝ) (hv : 4 ≤ v1) (hb : ∀ v ∈ [v2, v3, v4], |v| ≤ 2 ^ 64)
    (hd : ∀ d ∈ [d2, d3, d4], 1 / 2 ^ 32 ≤ d) :
    weighted32 [(v1, floatPosMin), (v2, d2), (v3, d3), (v4, d4)] = .pinf := by
  have hd2 : 1 / 2 ^ 32 ≤ d2 := hd d2 (by simp)
  have hd3 : 1 / 2 ^ 32 ≤ d3 := hd d3 (by simp)
  have hd4 : 1 / 2 ^ 32 ≤ d4 := hd d4 (by simp)
  have p2 : 0 < d2 := lt_of_lt_of_le (by norm_num) hd2
  have p3 : 0 < d3 := lt_of_lt_of_le (by norm_num) hd3
  have p4 : 0 < d4 := lt_of_lt_of_le (by norm_num) hd4
  have hinv : ∀ d : ℝ, 1 / 2 ^ 32 ≤ d → 0 < 1 / d ∧ 1 / d ≤ 2 ^ 32 := by
    intro d hd
    have hp : 0 < d := lt_of_lt_of_le (by norm_num) hd
    refine ⟨one_div_pos.2 hp, ?_⟩
    rw [div_le_iff₀ hp]
    rw [div_le_iff₀ (by norm_num)] at hd
    linarith
  have hfin : ∀ v d : ℝ, |v| ≤ 2 ^ 64 → 1 / 2 ^ 32 ≤ d → f32 (.fin v / .fin d) = .fin (v / d) := by
    intro v d hv hd
    have hp : 0 < d := lt_of_lt_of_le (by norm_num) hd
    rw [XF.fin_div_fin_of_ne _ (ne_of_gt hp)]
    obtain ⟨i0, i1⟩ := hinv d hd
    have hbound : |v / d| ≤ 2 ^ 96 := by
      rw [div_eq_mul_one_div, abs_mul, abs_of_pos i0]
      calc |v| * (1 / d) ≤ 2 ^ 64 * 2 ^ 32 := mul_le_mul hv i1 (le_of_lt i0) (by norm_num)
        _ = 2 ^ 96 := by norm_num
    obtain ⟨b1, b2⟩ := abs_le.1 hbound
    have c1 : ¬ ((2 : ℝ) ^ 128 ≤ v / d) := by
      intro h; have : (2 : ℝ) ^ 96 < 2 ^ 128 := by norm_num
      linarith
    have c2 : ¬ (v / d ≤ -2 ^ 128) := by
      intro h; have : (2 : ℝ) ^ 96 < 2 ^ 128 := by norm_num
      linarith
    simp only [f32, if_neg c1, if_neg c2]
  have hone : ∀ d : ℝ, 1 / 2 ^ 32 ≤ d → f32 (.fin 1 / .fin d) = .fin (1 / d) :=
    fun d hd => hfin 1 d (by norm_num) hd
  have hmin : f32 (.fin v1 / .fin floatPosMin) = .pinf := by
    rw [XF.fin_div_fin_of_ne _ (ne_of_gt floatPosMin_pos)]
    have : (2 : ℝ) ^ 128 ≤ v1 / floatPosMin := by
      unfold floatPosMin
      rw [div_div_eq_mul_div, div_one]
      calc (2 : ℝ) ^ 128 = 4 * 2 ^ 126 := by norm_num
        _ ≤ v1 * 2 ^ 126 := by nlinarith [show (0 : ℝ) < 2 ^ 126 by positivity]
    simp only [f32, if_pos this]
  have hmin1 : f32 (.fin 1 / .fin floatPosMin) = .fin (2 ^ 126) := by
    rw [XF.fin_div_fin_of_ne _ (ne_of_gt floatPosMin_pos)]
    have e : (1 : ℝ) / floatPosMin = 2 ^ 126 := by unfold floatPosMin; rw [one_div_one_div]
    rw [e]
    simp only [f32]
    rw [if_neg (by norm_num), if_neg (by norm_num)]
  have hv2 := hb v2 (by simp)
  have hv3 := hb v3 (by simp)
  have hv4 := hb v4 (by simp)
  obtain ⟨e2, f2⟩ := hinv d2 hd2
  obtain ⟨e3, f3⟩ := hinv d3 hd3
  obtain ⟨e4, f4⟩ := hinv d4 hd4
  have hsmall : ∀ s : ℝ, 0 ≤ s → s ≤ 2 ^ 127 → f32 (.fin s) = .fin s := by
    intro s h0 h1
    have c1 : ¬ ((2 : ℝ) ^ 128 ≤ s) := by
      intro h; have : (2 : ℝ) ^ 127 < 2 ^ 128 := by norm_num
      linarith
    have c2 : ¬ (s ≤ -2 ^ 128) := by
      intro h; have : (0 : ℝ) < 2 ^ 128 := by norm_num
      linarith
    simp only [f32, if_neg c1, if_neg c2]
  have n1 : (2 : ℝ) ^ 126 + 2 ^ 32 + 2 ^ 32 + 2 ^ 32 ≤ 2 ^ 127 := by norm_num
  have n0 : (0 : ℝ) < 2 ^ 126 := by norm_num
  unfold weighted32
  simp only [List.map_cons, List.map_nil, List.foldl_cons, List.foldl_nil, hmin, hmin1, hfin v2 d2 hv2 hd2,
    hfin v3 d3 hv3 hd3, hfin v4 d4 hv4 hd4, hone d2 hd2, hone d3 hd3, hone d4 hd4]
  have hz : ((.fin 0 : XF) + .pinf) = .pinf := by simp
  have hden : ((.fin 0 : XF) + .fin (2 ^ 126)) = .fin (2 ^ 126) := by simp
  rw [hz, hden]
  have hp : f32 .pinf = .pinf := rfl
  have hpf : ∀ s : ℝ, (XF.pinf + .fin s) = .pinf := by intro s; simp
  rw [hp, hpf, hp, hpf, hp, hpf, hp]
  rw [hsmall _ (by linarith) (by linarith)]
  rw [show (XF.fin (2 ^ 126) + .fin (1 / d2)) = .fin (2 ^ 126 + 1 / d2) by simp,
    hsmall _ (by linarith) (by linarith),
    show (XF.fin (2 ^ 126 + 1 / d2) + .fin (1 / d3)) = .fin (2 ^ 126 + 1 / d2 + 1 / d3) by simp,
    hsmall _ (by linarith) (by linarith),
    show (XF.fin (2 ^ 126 + 1 / d2 + 1 / d3) + .fin (1 / d4)) = .fin (2 ^ 126 + 1 / d2 + 1 / d3 + 1 / d4) by simp,
    hsmall _ (by linarith) (by linarith)]
  have hdiv : ∀ s : ℝ, 0 < s → XF.pinf / .fin s = .pinf := by
    intro s hs; rw [XF.pinf_div_fin, if_neg (ne_of_gt hs)]; unfold XF.infSign; rw [if_pos hs]
  rw [hdiv _ (by linarith), hp]

/-- **C63 (negation).** So the 2D float32 map is infinite at every node whose entry is at least four, for maps of ordinary
size and spacing. -/
theorem C63_infinite_at_nodes (g : Grid2 ℝ) (a0 a1 : Axis ℝ) (i j : Nat) (h0 : 2 ≤ g.n0) (h1 : 2 ≤ g.n1)
    (ha0 : a0.lo < a0.hi) (ha1 : a1.lo < a1.hi) (hi : i < g.n0) (hj : j < g.n1)
    (hv : 4 ≤ g.val i j) (hV : ∀ i' j', i' < g.n0 → j' < g.n1 → |g.val i' j'| ≤ 2 ^ 64)
    (hb0 : 1 / 2 ^ 32 ≤ spacing g.n0 a0) (hb1 : 1 / 2 ^ 32 ≤ spacing g.n1 a1) :
    idw2d32 g a0 a1 (node g.n0 a0 i) (node g.n1 a1 j) = .pinf := by
  rw [spacing_eq] at hb0 hb1
  unfold idw2d32
  rw [idwIndex_node _ _ _ h0 ha0 hi, idwIndex_node _ _ _ h1 ha1 hj]
  simp only [corners2, List.map_cons, List.map_nil]
  have hw0 : wrap g.n0 i = i := by rw [wrap_of_range _ _ (by omega) (by omega)]; simp
  have hw1 : wrap g.n1 j = j := by rw [wrap_of_range _ _ (by omega) (by omega)]; simp
  have e0 : ∀ (n : Nat) (a : Axis ℝ) (k : Nat), refPos n a (k : Int) - node n a k = 0 := by
    intro n a k; unfold refPos; rw [node_eq]; push_cast; ring
  have e1 : ∀ (n : Nat) (a : Axis ℝ) (k : Nat), refPos n a ((k : Int) + 1) - node n a k = binSize n a := by
    intro n a k; unfold refPos; rw [node_eq]; push_cast; ring
  rw [hw0, hw1]
  simp only [e0, e1]
  have hz : clip (√(0 ^ 2 + 0 ^ 2)) floatPosMin floatPosMax = floatPosMin := by
    simp only [ne_eq, OfNat.ofNat_ne_zero, not_false_eq_true, zero_pow, add_zero, Real.sqrt_zero]
    exact clip_low _ _ _ floatPosMin_pos.le floatPosMin_le
  rw [hz]
  have hbM : (1 : ℝ) / 2 ^ 32 ≤ floatPosMax := by unfold floatPosMax; norm_num
  have hge : ∀ s : ℝ, (1 / 2 ^ 32) ^ 2 ≤ s → 1 / 2 ^ 32 ≤ clip (√s) floatPosMin floatPosMax :=
    fun s hs => clip_dist_ge _ _ (Real.le_sqrt_of_sq_le hs) hbM
  have hsq0 : ((1 : ℝ) / 2 ^ 32) ^ 2 ≤ binSize g.n0 a0 ^ 2 := pow_le_pow_left₀ (by positivity) hb0 2
  have hsq1 : ((1 : ℝ) / 2 ^ 32) ^ 2 ≤ binSize g.n1 a1 ^ 2 := pow_le_pow_left₀ (by positivity) hb1 2
  have hp0 := sq_nonneg (binSize g.n0 a0)
  have hp1 := sq_nonneg (binSize g.n1 a1)
  refine C63_node_overflow _ _ _ _ _ _ _ hv ?_ ?_
  · intro v hv
    simp only [List.mem_cons, List.not_mem_nil, or_false] at hv
    rcases hv with rfl | rfl | rfl
    · exact hV _ _ (wrap_lt _ _ (by omega)) hj
    · exact hV _ _ hi (wrap_lt _ _ (by omega))
    · exact hV _ _ (wrap_lt _ _ (by omega)) (wrap_lt _ _ (by omega))
  · intro d hd
    simp only [List.mem_cons, List.not_mem_nil, or_false] at hd
    rcases hd with rfl | rfl | rfl
    · exact hge _ (by linarith [sq_nonneg (0 : ℝ)])
    · exact hge _ (by linarith [sq_nonneg (0 : ℝ)])
    · exact hge _ (by linarith)

theorem f32_small (s : ℝ) (h : |s| < 2 ^ 128) : f32 (.fin s) = .fin s := by
  obtain ⟨h1, h2⟩ := abs_lt.1 h
  have c1 : ¬ ((2 : ℝ) ^ 128 ≤ s) := not_le.2 h2
  have c2 : ¬ (s ≤ -2 ^ 128) := not_le.2 h1
  simp only [f32, if_neg c1, if_neg c2]

/-- The part of C63 that holds: for entries at most two in size, and at most one corner nearer than `2^-32`, the average
is finite. -/
theorem C63_small_entries_partial (v1 v2 v3 v4 d1 d2 d3 d4 : ℝ) (hv : ∀ v ∈ [v1, v2, v3, v4], |v| ≤ 2)
    (hd1 : floatPosMin ≤ d1) (hd : ∀ d ∈ [d2, d3, d4], 1 / 2 ^ 32 ≤ d) :
    ∃ y, weighted32 [(v1, d1), (v2, d2), (v3, d3), (v4, d4)] = .fin y := by
  have hpos1 : 0 < d1 := lt_of_lt_of_le floatPosMin_pos hd1
  have hpos : ∀ d : ℝ, 1 / 2 ^ 32 ≤ d → 0 < d := fun d h => lt_of_lt_of_le (by norm_num) h
  have i1 : 1 / d1 ≤ 2 ^ 126 := by
    rw [div_le_iff₀ hpos1]
    unfold floatPosMin at hd1
    rw [div_le_iff₀ (by norm_num)] at hd1
    linarith
  have i2 : ∀ d : ℝ, 1 / 2 ^ 32 ≤ d → 1 / d ≤ 2 ^ 32 := by
    intro d h
    rw [div_le_iff₀ (hpos d h)]
    rw [div_le_iff₀ (by norm_num)] at h
    linarith
  have q : ∀ v d K : ℝ, |v| ≤ 2 → 0 < d → 1 / d ≤ K → |v / d| ≤ 2 * K := by
    intro v d K hv hd hK
    rw [div_eq_mul_one_div, abs_mul, abs_of_pos (one_div_pos.2 hd)]
    exact mul_le_mul hv hK (one_div_pos.2 hd).le (by norm_num)
  have m2 := hd d2 (by simp); have m3 := hd d3 (by simp); have m4 := hd d4 (by simp)
  have a1 := abs_le.1 (q v1 d1 _ (hv v1 (by simp)) hpos1 i1)
  have a2 := abs_le.1 (q v2 d2 _ (hv v2 (by simp)) (hpos _ m2) (i2 _ m2))
  have a3 := abs_le.1 (q v3 d3 _ (hv v3 (by simp)) (hpos _ m3) (i2 _ m3))
  have a4 := abs_le.1 (q v4 d4 _ (hv v4 (by simp)) (hpos _ m4) (i2 _ m4))
  have j2 := i2 d2 m2; have j3 := i2 d3 m3; have j4 := i2 d4 m4
  have o1 := one_div_pos.2 hpos1
  have o2 := one_div_pos.2 (hpos d2 m2)
  have o3 := one_div_pos.2 (hpos d3 m3)
  have o4 := one_div_pos.2 (hpos d4 m4)
  have hn : (2 : ℝ) * 2 ^ 126 + 2 * 2 ^ 32 + 2 * 2 ^ 32 + 2 * 2 ^ 32 < 2 ^ 128 := by norm_num
  have hn1 : (0 : ℝ) < 2 ^ 126 := by norm_num
  have hn2 : (0 : ℝ) < 2 ^ 32 := by norm_num
  have F : ∀ s : ℝ, -(2 ^ 128) < s → s < 2 ^ 128 → f32 (.fin s) = .fin s := fun s h1 h2 => f32_small s (abs_lt.2 ⟨h1, h2⟩)
  -- the four-term average is bounded by the entries
  have hfin : ∃ y, |y| ≤ 2 ∧ (v1 / d1 + v2 / d2 + v3 / d3 + v4 / d4) / (1 / d1 + 1 / d2 + 1 / d3 + 1 / d4) = y := by
    refine ⟨_, ?_, rfl⟩
    have hS : 0 < 1 / d1 + 1 / d2 + 1 / d3 + 1 / d4 := by linarith
    have b1 := abs_le.1 (q v1 d1 _ (hv v1 (by simp)) hpos1 le_rfl)
    have b2 := abs_le.1 (q v2 d2 _ (hv v2 (by simp)) (hpos _ m2) le_rfl)
    have b3 := abs_le.1 (q v3 d3 _ (hv v3 (by simp)) (hpos _ m3) le_rfl)
    have b4 := abs_le.1 (q v4 d4 _ (hv v4 (by simp)) (hpos _ m4) le_rfl)
    rw [abs_le]
    constructor
    · rw [le_div_iff₀ hS]; linarith
    · rw [div_le_iff₀ hS]; linarith
  obtain ⟨y, hy, he⟩ := hfin
  refine ⟨y, ?_⟩
  unfold weighted32
  simp only [List.map_cons, List.map_nil, List.foldl_cons, List.foldl_nil]
  rw [XF.fin_div_fin_of_ne _ hpos1.ne', XF.fin_div_fin_of_ne _ (hpos _ m2).ne', XF.fin_div_fin_of_ne _ (hpos _ m3).ne',
    XF.fin_div_fin_of_ne _ (hpos _ m4).ne', XF.fin_div_fin_of_ne _ hpos1.ne', XF.fin_div_fin_of_ne _ (hpos _ m2).ne',
    XF.fin_div_fin_of_ne _ (hpos _ m3).ne', XF.fin_div_fin_of_ne _ (hpos _ m4).ne']
  rw [F (v1 / d1) (by linarith) (by linarith), F (v2 / d2) (by linarith) (by linarith),
    F (v3 / d3) (by linarith) (by linarith), F (v4 / d4) (by linarith) (by linarith),
    F (1 / d1) (by linarith) (by linarith), F (1 / d2) (by linarith) (by linarith),
    F (1 / d3) (by linarith) (by linarith), F (1 / d4) (by linarith) (by linarith)]
  simp only [XF.fin_add_fin, zero_add]
  rw [F (v1 / d1) (by linarith) (by linarith), F (1 / d1) (by linarith) (by linarith)]
  simp only [XF.fin_add_fin]
  rw [F (v1 / d1 + v2 / d2) (by linarith) (by linarith), F (1 / d1 + 1 / d2) (by linarith) (by linarith)]
  simp only [XF.fin_add_fin]
  rw [F (v1 / d1 + v2 / d2 + v3 / d3) (by linarith) (by linarith),
    F (1 / d1 + 1 / d2 + 1 / d3) (by linarith) (by linarith)]
  simp only [XF.fin_add_fin]
  rw [F (v1 / d1 + v2 / d2 + v3 / d3 + v4 / d4) (by linarith) (by linarith),
    F (1 / d1 + 1 / d2 + 1 / d3 + 1 / d4) (by linarith) (by linarith)]
  rw [XF.fin_div_fin_of_ne _ (by linarith), he]
  exact f32_small y (lt_of_le_of_lt hy (by norm_num))

/-- Non-vacuity of C63: a map with the entry five at a node, and four entries of at most two. -/
example : idw2d32 ⟨2, 2, fun i j => 5 + (i : ℝ) + j⟩ ⟨0, 1⟩ ⟨0, 1⟩ (node 2 ⟨0, 1⟩ 0) (node 2 ⟨0, 1⟩ 1) = .pinf ∧
    ∃ y, weighted32 [(1, 1 / 2), (2, 1), (0, 1), (-1, 2)] = .fin y := by
  refine ⟨C63_infinite_at_nodes ⟨2, 2, fun i j => 5 + (i : ℝ) + j⟩ ⟨0, 1⟩ ⟨0, 1⟩ 0 1 le_rfl le_rfl (by norm_num) (by norm_num) (by norm_num)
    (by norm_num) (by norm_num) (fun i j hi hj => ?_) (by norm_num [spacing]) (by norm_num [spacing]),
    C63_small_entries_partial _ _ _ _ _ _ _ _ (by simp) (by norm_num [floatPosMin]) (by norm_num)⟩
  have h0 : (i : ℝ) ≤ 1 := by exact_mod_cast Nat.lt_succ_iff.1 hi
  have h1 : (j : ℝ) ≤ 1 := by exact_mod_cast Nat.lt_succ_iff.1 hj
  simp only
  rw [abs_of_nonneg (by positivity)]
  linarith [show (7 : ℝ) ≤ 2 ^ 64 by norm_num]

/-! ### C32 -/

/-- **C32.** Building a point map on a logarithmic axis raises exactly when a coordinate is not positive; on a linear axis
it never does so. -/
theorem C32_point_coordinates_checked (method : String) (isLog : Bool) (coords map : List ℝ)
    (hm : (pointMethod method).isSome) :
    (∃ f, buildPoint method isLog coords map = .ok f) ↔ (isLog = true → ∀ a ∈ coords, 0 < a) := by
  unfold buildPoint
  obtain ⟨g, hg⟩ := Option.isSome_iff_exists.1 hm
  rw [hg]
  unfold validatePoint
  cases isLog with
  | false => simp
  | true =>
    simp only [Bool.true_and, decide_eq_true_eq, forall_const]
    by_cases h : ∃ a ∈ coords, a ≤ 0
    · rw [if_pos h]
      obtain ⟨a, ha, h0⟩ := h
      constructor
      · rintro ⟨f, hf⟩; cases hf
      · intro h; exact absurd (h a ha) (not_lt.2 h0)
    · rw [if_neg h]
      constructor
      · intro _ a ha; by_contra hn; exact h ⟨a, ha, not_lt.1 hn⟩
      · intro _; exact ⟨_, rfl⟩

/-- **C32.** An unknown method raises. -/
theorem C32_unknown_method_raises (method : String) (isLog : Bool) (coords map : List ℝ)
    (hm : method ∉ ["IDW", "NN", "LERP"]) : buildPoint method isLog coords map = .error .valueError := by
  have : pointMethod method = none := by
    unfold pointMethod
    simp only [List.mem_cons, List.not_mem_nil, or_false, not_or] at hm
    split
    · exact absurd rfl hm.1
    · exact absurd rfl hm.2.1
    · exact absurd rfl hm.2.2
    · rfl
  unfold buildPoint; rw [this]

/-- **C32.** For a regular map only the edges of logarithmic axes must be positive. -/
theorem C32_regbin_edges_checked (isLog : List Bool) (axes : List (Axis ℝ)) (hlen : isLog.length = axes.length) :
    validateRegbin isLog axes = .ok () ↔
      ∀ (i : Nat) (a : Axis ℝ), isLog[i]? = some true → axes[i]? = some a → 0 < a.lo ∧ 0 < a.hi := by
  unfold validateRegbin
  by_cases h : ∃ p ∈ isLog.zip axes, p.1 = true ∧ (p.2.lo ≤ 0 ∨ p.2.hi ≤ 0)
  · simp only [h, decide_true, if_true]
    constructor
    · intro h'; cases h'
    · intro h'
      obtain ⟨p, hp, h1, h2⟩ := h
      obtain ⟨i, hi⟩ := List.getElem?_of_mem hp
      rw [List.getElem?_zip_eq_some] at hi
      have := h' i p.2 (by rw [hi.1, h1]) hi.2
      rcases h2 with h2 | h2 <;> linarith
  · simp only [h, decide_false, Bool.false_eq_true, if_false, true_iff]
    intro i a hi ha
    by_contra hn
    apply h
    refine ⟨(true, a), ?_, rfl, ?_⟩
    · have : (isLog.zip axes)[i]? = some (true, a) := by rw [List.getElem?_zip_eq_some]; exact ⟨hi, ha⟩
      exact List.mem_of_getElem? this
    · by_contra hc
      simp only [not_or, not_le] at hc
      exact hn hc

/-- **C32.** Whatever the position, the logarithm taken is that of a positive number, which is the position itself when
it is a positive normal float; on a linear axis the position is unchanged. -/
theorem C32_logarithm_of_positive (x : ℝ) :
    (∃ y, 0 < y ∧ preprocess true x = Real.logb 10 y ∧ (floatPosMin ≤ x → x ≤ floatPosMax → y = x)) ∧
    preprocess false x = x := by
  refine ⟨⟨clip x floatPosMin floatPosMax, clip_dist_pos x, ?_, ?_⟩, ?_⟩
  · simp [preprocess]
  · intro h1 h2; exact clip_of_mem _ _ _ h1 h2
  · simp [preprocess]

/-- The part of C32 about stored values that holds: a linear point map returns the stored value at a stored coordinate. -/
theorem C32_stored_value_partial (coords map : List ℝ) (hlen : coords.length = map.length)
    (hs : coords.Pairwise (· < ·)) (k : Nat) (r v : ℝ) (hr : coords[k]? = some r) (hv : map[k]? = some v) :
    ∃ f, buildPoint "IDW" false coords map = .ok f ∧ f r = v := by
  have e : ∀ l : List ℝ, l.map (preprocess false) = l := by
    intro l
    have : preprocess false = id := by funext x; simp [preprocess]
    rw [this, List.map_id]
  refine ⟨_, rfl, ?_⟩
  rw [e, e]
  have : preprocess false r = r := by simp [preprocess]
  rw [this]
  exact C28_exact_at_reference coords map hlen hs k r v hr hv

/-- **C29 (through the map).** A linear point map with method NN returns the value stored at the nearest coordinate. -/
theorem C29_nn_point_map (coords map : List ℝ) (hlen : coords.length = map.length) (hne : coords ≠ []) :
    ∃ f, buildPoint "NN" false coords map = .ok f ∧ ∀ x, ∃ (i : Nat) (r v : ℝ), coords[i]? = some r ∧
      map[i]? = some v ∧ f x = v ∧ ∀ r' ∈ coords, |x - r| ≤ |x - r'| := by
  have e : ∀ l : List ℝ, l.map (preprocess false) = l := by
    intro l
    have : preprocess false = id := by funext x; simp [preprocess]
    rw [this, List.map_id]
  refine ⟨_, rfl, ?_⟩
  intro x
  rw [e, e]
  have : preprocess false x = x := by simp [preprocess]
  rw [this]
  obtain ⟨i, r, v, h1, h2, h3, h4, _⟩ := C29_point_map coords map hlen hne x
  exact ⟨i, r, v, h1, h2, h3, h4⟩

/-- **C28 (through the map).** Linear point maps with methods IDW and LERP both interpolate the table linearly. -/
theorem C28_idw_and_lerp_point_maps (coords map : List ℝ) (hlen : coords.length = map.length)
    (hs : coords.Pairwise (· < ·)) (h2 : 2 ≤ coords.length) :
    ∃ f g, buildPoint "IDW" false coords map = .ok f ∧ buildPoint "LERP" false coords map = .ok g ∧
      ∀ x, IsLinearInterp (coords.zip map) x (f x) ∧ g x = f x := by
  have e : ∀ l : List ℝ, l.map (preprocess false) = l := by
    intro l
    have : preprocess false = id := by funext x; simp [preprocess]
    rw [this, List.map_id]
  refine ⟨_, _, rfl, rfl, ?_⟩
  intro x
  rw [e, e]
  have : preprocess false x = x := by simp [preprocess]
  rw [this]
  exact ⟨(C28_idw_is_linear_interpolation coords map hlen (by intro h; simp [h] at h2) hs x _).1 rfl,
    (C28_idw_equals_lerp coords map hlen h2 hs x).symm⟩

/-- A logarithmic point map returns the base-ten logarithm of the stored value. -/
theorem C32_log_point_returns_logarithm (coords map : List ℝ) (hlen : coords.length = map.length)
    (hs : coords.Pairwise (· < ·)) (hc : ∀ a ∈ coords, floatPosMin ≤ a ∧ a ≤ floatPosMax)
    (k : Nat) (r v : ℝ) (hr : coords[k]? = some r) (hv : map[k]? = some v)
    (hvr : floatPosMin ≤ v ∧ v ≤ floatPosMax) :
    ∃ f, buildPoint "IDW" true coords map = .ok f ∧ f r = Real.logb 10 v := by
  have hpos : ∀ a ∈ coords, 0 < a := fun a ha => lt_of_lt_of_le floatPosMin_pos (hc a ha).1
  obtain ⟨f, hf⟩ := (C32_point_coordinates_checked "IDW" true coords map (by simp [pointMethod])).2 (fun _ => hpos)
  refine ⟨f, hf, ?_⟩
  unfold buildPoint at hf
  simp only [pointMethod] at hf
  split at hf
  · cases hf
  · simp only [Except.ok.injEq] at hf
    subst hf
    have hpre : ∀ a, floatPosMin ≤ a ∧ a ≤ floatPosMax → preprocess true a = Real.logb 10 a := by
      intro a ha; simp [preprocess, clip_of_mem _ _ _ ha.1 ha.2]
    refine C28_exact_at_reference _ _ (by simpa using hlen) ?_ k _ _ (by rw [List.getElem?_map, hr]; rfl) ?_
    · rw [List.pairwise_map]
      refine List.Pairwise.imp_of_mem ?_ hs
      intro a b ha hb hab
      rw [hpre a (hc a ha), hpre b (hc b hb)]
      exact Real.logb_lt_logb (by norm_num) (hpos a ha) hab
    · rw [List.getElem?_map, hv]; simp [hpre v hvr]

/-- So the stored value is not returned: the negation of the remaining part of C32. -/
theorem C32_log_point_does_not_return_stored_value :
    ∃ f, buildPoint "IDW" true [1, 10] [100, 1000] = .ok f ∧ f 1 ≠ 100 := by
  have b1 : floatPosMin ≤ 1 := by unfold floatPosMin; norm_num
  have b2 : (1000 : ℝ) ≤ floatPosMax := by unfold floatPosMax; norm_num
  obtain ⟨f, hf, h1⟩ := C32_log_point_returns_logarithm [1, 10] [100, 1000] rfl (by norm_num)
    (by
      intro a ha
      simp only [List.mem_cons, List.not_mem_nil, or_false] at ha
      rcases ha with rfl | rfl
      · exact ⟨b1, by linarith⟩
      · exact ⟨by linarith, by linarith⟩) 0 1 100 rfl rfl ⟨by linarith, by linarith⟩
  refine ⟨f, hf, ?_⟩
  rw [h1]
  have : Real.logb 10 100 = 2 := by
    rw [show (100 : ℝ) = 10 ^ (2 : ℝ) by norm_num]
    exact Real.logb_rpow (by norm_num) (by norm_num)
  rw [this]; norm_num

/-- Non-vacuity of C28, C29 and C32: maps of three points, with all three methods, and what is refused. -/
example : (∃ f, buildPoint "IDW" false [0, 1, 3] [2, 4, 0] = .ok f ∧ f 1 = 4) ∧
    (∃ f, buildPoint "NN" false [0, 1, 3] [2, 4, 0] = .ok f) ∧
    (∃ f g, buildPoint "IDW" false [0, 1, 3] [2, 4, 0] = .ok f ∧ buildPoint "LERP" false [0, 1, 3] [2, 4, 0] = .ok g ∧ ∀ x, g x = f x) ∧
    (¬ ∃ f, buildPoint "LERP" true [0, 1, 3] [2, 4, 0] = .ok f) ∧
    buildPoint "SPLINE" false [0, 1, 3] [2, 4, 0] = .error .valueError ∧
    validateRegbin [false, true] [⟨-1, 1⟩, ⟨1, 10⟩] = .ok () ∧ validateRegbin [true] [⟨-1, 1⟩] ≠ .ok () := by
  refine ⟨C32_stored_value_partial [0, 1, 3] [2, 4, 0] rfl (by norm_num) 1 1 4 rfl rfl, ?_, ?_, ?_, C32_unknown_method_raises _ _ _ _ (by simp), ?_, ?_⟩
  · obtain ⟨f, h, _⟩ := C29_nn_point_map [0, 1, 3] [2, 4, 0] rfl (by simp)
    exact ⟨f, h⟩
  · obtain ⟨f, g, h1, h2, h3⟩ := C28_idw_and_lerp_point_maps [0, 1, 3] [2, 4, 0] rfl (by norm_num) (by norm_num)
    exact ⟨f, g, h1, h2, fun x => (h3 x).2⟩
  · rw [C32_point_coordinates_checked "LERP" true _ _ rfl]
    simp
  · rw [C32_regbin_edges_checked _ _ rfl]
    intro i a hi ha
    match i, hi, ha with
    | 1, _, ha => cases ha; norm_num
  · rw [Ne, C32_regbin_edges_checked _ _ rfl]
    intro h
    have := h 0 ⟨-1, 1⟩ rfl rfl
    norm_num at this

/-! ### C33 -/

section
variable {F : Type} [Field F] [LinearOrder F] [IsStrictOrderedRing F]

/-- **C33.** For increasing x and a non-negative pdf of positive integral the cdf is non-decreasing, lies between zero and
one and ends at one. -/
theorem C33_cdf (xy : List (F × F)) (hx : (xy.map Prod.fst).Pairwise (· ≤ ·)) (hy : ∀ p ∈ xy, 0 ≤ p.2) (norm : F)
    (hn : integrate xy = .ok norm) (hpos : 0 < norm) :
    ∃ xm cdf, pdfToCdf xy = .ok (xm, cdf) ∧ xm.length = cdf.length ∧ cdf.length + 1 = xy.length ∧
      cdf.Pairwise (· ≤ ·) ∧ (∀ c ∈ cdf, 0 ≤ c ∧ c ≤ 1) ∧ cdf.getLast? = some 1 := by
  have hseg := segments_nonneg xy hx hy
  obtain ⟨hs1, hs2⟩ := cumsum_sorted 0 (segments xy) hseg
  have hlast : (cumsum 0 (segments xy)).getLast? = some norm := by
    unfold integrate cumulativeIntegrate at hn
    simp only at hn
    split at hn
    · rename_i s hs; cases hn; exact hs
    · cases hn
  have hlen : (segments xy).length = xy.length - 1 := segments_length xy
  have hne : (segments xy).length ≠ 0 := by
    intro h
    rw [List.length_eq_zero_iff] at h
    rw [h] at hlast; simp [cumsum] at hlast
  refine ⟨midpoints xy, (cumsum 0 (segments xy)).map (· / norm), ?_, ?_, ?_, ?_, ?_, ?_⟩
  · unfold pdfToCdf; rw [hn]; rfl
  · rw [List.length_map, cumsum_length, hlen, midpoints_length]
  · rw [List.length_map, cumsum_length]; omega
  · rw [List.pairwise_map]
    exact hs1.imp (fun h => div_le_div_of_nonneg_right h (le_of_lt hpos))
  · intro c hc
    obtain ⟨d, hd, rfl⟩ := List.mem_map.1 hc
    refine ⟨div_nonneg (hs2 d hd) (le_of_lt hpos), ?_⟩
    rw [div_le_one hpos]
    obtain ⟨k, hk⟩ := List.getElem?_of_mem hd
    rw [List.getLast?_eq_getElem?] at hlast
    obtain ⟨hk1, hk2⟩ := List.getElem?_eq_some_iff.1 hk
    obtain ⟨hl1, hl2⟩ := List.getElem?_eq_some_iff.1 hlast
    rcases Nat.lt_or_ge k ((cumsum 0 (segments xy)).length - 1) with h | h
    · have := List.pairwise_iff_getElem.1 hs1 k _ hk1 hl1 h
      rwa [hk2, hl2] at this
    · have : k = (cumsum 0 (segments xy)).length - 1 := by omega
      subst this
      rw [← hk2, hl2]
  · rw [List.getLast?_map, hlast]; simp [ne_of_gt hpos]

/-- **C33 (trapezoids).** For samples of an affine function the cumulative integral up to each point is exact. -/
theorem C33_exact_for_affine (b c : F) (xy : List (F × F)) (h : ∀ p ∈ xy, p.2 = b + c * p.1) (p q : F × F) (k : Nat)
    (hp : xy[0]? = some p) (hq : xy[k + 1]? = some q) :
    (cumulativeIntegrate xy).2[k]? = some ((b * q.1 + c * q.1 ^ 2 / 2) - (b * p.1 + c * p.1 ^ 2 / 2)) := by
  have hk := (List.getElem?_eq_some_iff.1 hq).1
  unfold cumulativeIntegrate
  simp only
  rw [cumsum_get 0 _ k (by rw [segments_length]; omega), segments_affine b c xy h p q (k + 1) hp hq]
  congr 1; ring

/-- The cdf value of entry `k` is the integral up to `x[k+1]`, but it is paired with the midpoint of the segment, which
lies strictly below.  For a flat pdf the map from cdf to x is therefore half a segment too low everywhere. -/
theorem C64_quantiles_too_low (xy : List (F × F)) (k : Nat) (p q : F × F) (hp : xy[k]? = some p)
    (hq : xy[k + 1]? = some q) (hpq : p.1 < q.1) :
    (cumulativeIntegrate xy).1[k]? = some ((p.1 + q.1) / 2) ∧ (p.1 + q.1) / 2 < q.1 ∧
    (cumulativeIntegrate xy).2[k]? = some ((segments xy).take (k + 1)).sum := by
  have hk := (List.getElem?_eq_some_iff.1 hq).1
  refine ⟨?_, by linarith, ?_⟩
  · unfold cumulativeIntegrate
    rw [midpoints_get xy k p q hp hq]; congr 1; ring
  · unfold cumulativeIntegrate
    simp only
    rw [cumsum_get 0 _ k (by rw [segments_length]; omega), zero_add]

end

/-- The median of the uniform pdf on [0, 1], tabulated at three points, comes out as 1/4. -/
theorem C64_uniform_median_is_wrong :
    pdfToCdf [(0, 1), (1 / 2, 1), (1, (1 : ℚ))] = .ok ([1 / 4, 3 / 4], [1 / 2, 1]) ∧
    curve [1 / 2, 1] [1 / 4, 3 / 4] (1 / 2 : ℚ) = 1 / 4 := by decide +kernel

/-- Non-vacuity of C33. -/
example : pdfToCdf [(0, 0), (1, 2), (3, (2 : ℚ))] = .ok ([1 / 2, 2], [1 / 5, 1]) := by decide +kernel

end Verif.Interp
