/-
C120: binning in single precision.
-/
import Verif.Model.SingleBins
import Verif.Lemmas.Round
import Verif.Props.Hist

namespace Verif.Single
open Verif Hist

/-- Rounded, the coordinate is on none of the edges. -/
def OffEdges (edges : List ℝ) (x : Option ℝ) : Prop := ∀ r, x = some r → ∀ b ∈ edges, rnd r ≠ rnd b

theorem rnd_lt_iff {a x : ℝ} (h : rnd x ≠ rnd a) : rnd a < rnd x ↔ a < x := by
  constructor
  · intro hlt
    by_contra hc
    exact absurd (rnd_mono (not_lt.1 hc)) (not_le.2 hlt)
  · intro hlt
    exact lt_of_le_of_ne (rnd_mono hlt.le) (Ne.symm h)

theorem rnd_le_iff {a x : ℝ} (h : rnd x ≠ rnd a) : rnd a ≤ rnd x ↔ a ≤ x := by
  constructor
  · intro hle
    exact ((rnd_lt_iff h).1 (lt_of_le_of_ne hle (Ne.symm h))).le
  · exact rnd_mono

theorem searchLeft_rnd (bins : List ℝ) (x : Option ℝ) (h : OffEdges bins x) : searchLeft (bins.map rnd) (x.map rnd) = searchLeft bins x := by
  cases x with
  | none => simp [searchLeft]
  | some r =>
    simp only [searchLeft, Option.map_some, List.countP_map]
    apply List.countP_congr
    intro b hb
    simpa using rnd_lt_iff (h r rfl b hb)

theorem searchRight_rnd (bins : List ℝ) (x : Option ℝ) (h : OffEdges bins x) : searchRight (bins.map rnd) (x.map rnd) = searchRight bins x := by
  cases x with
  | none => simp [searchRight]
  | some r =>
    simp only [searchRight, Option.map_some, List.countP_map]
    apply List.countP_congr
    intro b hb
    simpa using rnd_le_iff (h r rfl b hb)

theorem meshIndex_rnd (bins : List ℝ) (x : Option ℝ) (h : OffEdges bins x) : meshIndex (bins.map rnd) (x.map rnd) = meshIndex bins x := by
  unfold meshIndex
  rw [searchRight_rnd bins x h]
  have h1 : ¬ (x.isSome ∧ x = bins.getLast?) := by
    rintro ⟨hs, he⟩
    obtain ⟨r, rfl⟩ := Option.isSome_iff_exists.1 hs
    exact h r rfl r (List.mem_of_getLast? he.symm) rfl
  have h2 : ¬ ((x.map rnd).isSome ∧ x.map rnd = (bins.map rnd).getLast?) := by
    rintro ⟨hs, he⟩
    rw [Option.isSome_map] at hs
    obtain ⟨r, rfl⟩ := Option.isSome_iff_exists.1 hs
    rw [List.getLast?_map, Option.map_some] at he
    obtain ⟨b, hb, hbr⟩ := Option.map_eq_some_iff.1 he.symm
    exact h r rfl b (List.mem_of_getLast? hb) hbr.symm
  rw [if_neg h1, if_neg h2]

theorem gatherRow_map (rows : List (List ℝ)) (i : Int) : gatherRow (rows.map (List.map rnd)) i = (gatherRow rows i).map rnd := by
  unfold gatherRow
  simp only [List.length_map, List.getElem?_map]
  generalize rows[(_ : ℕ)]? = o
  cases o <;> simp

theorem gatherRow_mem (rows : List (List ℝ)) (i : Int) : gatherRow rows i = [] ∨ gatherRow rows i ∈ rows := by
  unfold gatherRow
  simp only
  cases h : rows[(_ : ℕ)]? with
  | none => left; rfl
  | some r => right; exact List.mem_of_getElem? h

section
variable {W : Type*} [Add W] [Zero W]

/-- Away from the edges nothing is rounded away: the histograms are those of the exact numbers. -/
theorem C120_off_edges_partial (bins : List ℝ) (sw : List (Option ℝ × W)) (h : ∀ e ∈ sw, OffEdges bins e.1)
    (bx : List ℝ) (by' : List (List ℝ)) (m2 : Nat) (ex ey : List ℝ) (sw2 : List ((Option ℝ × Option ℝ) × W))
    (h2 : ∀ e ∈ sw2, OffEdges bx e.1.1 ∧ ∀ row ∈ by', OffEdges row e.1.2)
    (h3 : ∀ e ∈ sw2, OffEdges ex e.1.1 ∧ OffEdges ey e.1.2) :
    hist1d32 bins sw = hist1d bins sw ∧ mesh1d32 bins sw = mesh1d bins sw ∧
    hist2d32 bx by' m2 sw2 = hist2d bx by' m2 sw2 ∧ mesh2d32 ex ey sw2 = mesh2d ex ey sw2 := by
  refine ⟨?_, ?_, ?_, ?_⟩
  · simp only [hist1d32, hist1d, List.foldl_map, List.length_map]
    congr 1
    apply List.foldl_ext
    intro a e he
    rw [searchLeft_rnd _ _ (h e he)]
  · simp only [mesh1d32, mesh1d, List.foldl_map, List.length_map]
    congr 1
    apply List.foldl_ext
    intro a e he
    rw [meshIndex_rnd _ _ (h e he)]
  · simp only [hist2d32, hist2d, List.foldl_map, List.length_map]
    congr 2
    apply List.foldl_ext
    intro a e he
    have : index2d (bx.map rnd) (by'.map (List.map rnd)) (e.1.1.map rnd, e.1.2.map rnd) = index2d bx by' e.1 := by
      simp only [index2d]
      rw [searchLeft_rnd _ _ (h2 e he).1, gatherRow_map, searchLeft_rnd]
      rcases gatherRow_mem by' ((searchLeft bx e.1.1 : Int) - 1) with hr | hr
      · rw [hr]; intro r _ b hb; cases hb
      · exact (h2 e he).2 _ hr
    rw [this]
  · simp only [mesh2d32, mesh2d, List.foldl_map, List.length_map]
    congr 2
    apply List.foldl_ext
    intro a e he
    rw [meshIndex_rnd _ _ (h3 e he).1, meshIndex_rnd _ _ (h3 e he).2]

end

/-- An event in a bin stays in it, or is rounded to its lower edge; then it is in the bin below, and in none if that was the lowest. -/
theorem C120_neighbour (bins : List ℝ) (hs : (bins.map rnd).Pairwise (· < ·)) (i : Nat) (hi : i + 1 < bins.length) (x : ℝ)
    (hx : InBin bins[i] bins[i + 1] (some x)) :
    InBin (rnd bins[i]) (rnd bins[i + 1]) (some (rnd x)) ∨
    (rnd x = rnd bins[i] ∧ (∀ j (hj : j + 1 < bins.length), InBin (rnd bins[j]) (rnd bins[j + 1]) (some (rnd x)) ↔ j + 1 = i)) := by
  obtain ⟨r, hr, h1, h2⟩ := hx
  cases hr
  rcases lt_or_eq_of_le (rnd_mono h1.le) with hlt | heq
  · exact .inl ⟨_, rfl, hlt, rnd_mono h2⟩
  · refine .inr ⟨heq.symm, fun j hj => ?_⟩
    have key : ∀ a b (ha : a < bins.length) (hb : b < bins.length), rnd bins[a] < rnd bins[b] ↔ a < b := by
      intro a b ha hb
      have g : ∀ a b (ha : a < bins.length) (hb : b < bins.length), a < b → rnd bins[a] < rnd bins[b] := by
        intro a b ha hb hab
        have := List.pairwise_iff_getElem.1 hs a b (by simpa) (by simpa) hab
        simpa using this
      constructor
      · intro hlt
        by_contra hc
        rcases Nat.lt_or_eq_of_le (not_lt.1 hc) with h | h
        · exact absurd (g b a hb ha h) (not_lt.2 hlt.le)
        · subst h; exact absurd hlt (lt_irrefl _)
      · exact g a b ha hb
    rw [← heq]
    constructor
    · rintro ⟨r, hr, a, b⟩
      cases hr
      have a' := (key j i (by omega) (by omega)).1 a
      have b' : ¬ j + 1 < i := fun hc => absurd ((key (j + 1) i hj (by omega)).2 hc) (not_lt.2 b)
      omega
    · rintro rfl
      exact ⟨_, rfl, (key j (j + 1) (by omega) hj).2 (by omega), le_rfl⟩

section totals
open Classical
variable {W : Type*} [AddCommMonoid W]

theorem weightOf_map {S T : Type*} (f : S → T) (p : T → Prop) (q : S → Prop) [DecidablePred p] [DecidablePred q] (sw : List (S × W))
    (h : ∀ e ∈ sw, p (f e.1) ↔ q e.1) : weightOf p (sw.map fun e => (f e.1, e.2)) = weightOf q sw := by
  induction sw with
  | nil => rfl
  | cons e sw ih =>
    rw [List.map_cons, weightOf_cons, weightOf_cons, ih fun e he => h e (by simp [he])]
    have := h e (by simp)
    by_cases hq : q e.1
    · rw [if_pos hq, if_pos (this.2 hq)]
    · rw [if_neg hq, if_neg (fun hp => hq (this.1 hp))]

theorem pairwise_rnd (l : List ℝ) (h : l.Pairwise (· ≤ ·)) : (l.map rnd).Pairwise (· ≤ ·) := by
  rw [List.pairwise_map]
  exact h.imp fun h => rnd_mono h

/-- Of events inside an ascending irregular binning exactly those are lost that are rounded to the lowest edge. -/
theorem C120_lost_events (lo hi : ℝ) (mid : List ℝ) (hs : (lo :: mid ++ [hi]).Pairwise (· ≤ ·)) (sw : List (Option ℝ × W))
    (hin : ∀ e ∈ sw, InBin lo hi e.1) :
    (hist1d32 (lo :: mid ++ [hi]) sw).sum = weightOf (fun x => x.map rnd ≠ some (rnd lo)) sw := by
  unfold hist1d32
  have e : (lo :: mid ++ [hi]).map rnd = rnd lo :: mid.map rnd ++ [rnd hi] := by simp
  have hp := pairwise_rnd _ hs
  rw [e] at hp ⊢
  rw [C08_hist1d_total _ _ _ hp]
  apply weightOf_map (Option.map rnd)
  intro e he
  obtain ⟨r, hr, h1, h2⟩ := hin e he
  rw [hr]
  simp only [Option.map_some, InBin, Option.some.injEq, exists_eq_left', ne_eq]
  constructor
  · rintro ⟨h, _⟩ heq
    exact absurd heq h.ne'
  · intro hne
    exact ⟨lt_of_le_of_ne (rnd_mono h1.le) (Ne.symm hne), rnd_mono h2⟩

/-- On a grid no event inside the range is lost. -/
theorem C120_grid_keeps (lo hi : ℝ) (mid : List ℝ) (hs : (lo :: mid ++ [hi]).Pairwise (· ≤ ·)) (sw : List (Option ℝ × W))
    (hin : ∀ e ∈ sw, ∃ r, e.1 = some r ∧ lo ≤ r ∧ r ≤ hi) :
    (mesh1d32 (lo :: mid ++ [hi]) sw).sum = (sw.map Prod.snd).sum := by
  unfold mesh1d32
  have e : (lo :: mid ++ [hi]).map rnd = rnd lo :: mid.map rnd ++ [rnd hi] := by simp
  have hp := pairwise_rnd _ hs
  rw [e] at hp ⊢
  rw [C09_mesh1d_total _ _ _ hp]
  rw [weightOf_map (Option.map rnd) _ (fun _ => True)]
  · simp [weightOf]
  · intro e he
    obtain ⟨r, hr, h1, h2⟩ := hin e he
    rw [hr]
    simpa using ⟨rnd_mono h1, rnd_mono h2⟩

end totals

theorem rnd_two_above : rnd (2 + 1 / 2 ^ 30) = 2 := by
  have hlog : Int.log 2 |(2 + 1 / 2 ^ 30 : ℝ)| = 1 := by
    rw [abs_of_pos (by norm_num)]
    apply le_antisymm
    · have : Int.log 2 (2 + 1 / 2 ^ 30 : ℝ) < 2 := (Int.lt_zpow_iff_log_lt (by norm_num) (by norm_num)).1 (by norm_num)
      omega
    · exact (Int.zpow_le_iff_le_log (by norm_num) (by norm_num)).1 (by norm_num)
  have hu : ulp (2 + 1 / 2 ^ 30) = 2 ^ (-22 : ℤ) := by unfold ulp; rw [hlog]; norm_num
  have hq : (2 + 1 / 2 ^ 30 : ℝ) / 2 ^ (-22 : ℤ) = (2 ^ 23 : ℤ) + 1 / 2 ^ 8 := by norm_num
  have hf : ⌊((2 ^ 23 : ℤ) + 1 / 2 ^ 8 : ℝ)⌋ = 2 ^ 23 := by
    rw [Int.floor_eq_iff]
    constructor <;> norm_num
  unfold rnd
  rw [hu, hq]
  unfold halfEven
  rw [hf, if_pos (by norm_num)]
  norm_num

/-- Not every selected event is counted: one just above the lower clip is lost, and one just above an inner edge is in the bin below. -/
theorem C120_just_above_an_edge :
    ∃ x : ℝ, 2 < x ∧ x < 100 ∧ hist1d32 [2, 100] [(some x, (1 : ℕ))] = [0] ∧ hist1d [2, 100] [(some x, (1 : ℕ))] = [1] ∧
      hist1d32 [0, 2, 100] [(some x, (1 : ℕ))] = [1, 0] ∧ hist1d [0, 2, 100] [(some x, (1 : ℕ))] = [0, 1] := by
  have h2 : rnd 2 = 2 := by simpa using rnd_nat 2 (by norm_num)
  have h100 : rnd 100 = 100 := by simpa using rnd_nat 100 (by norm_num)
  refine ⟨2 + 1 / 2 ^ 30, by norm_num, by norm_num, ?_, ?_, ?_, ?_⟩
  · simp only [hist1d32, List.map_cons, List.map_nil, Option.map_some, rnd_two_above, h2, h100]
    simp [hist1d, searchLeft, scatterAdd, inner, List.countP_cons]
    norm_num [List.modify]
  · simp [hist1d, searchLeft, scatterAdd, inner, List.countP_cons]
    norm_num [List.modify]
  · simp only [hist1d32, List.map_cons, List.map_nil, Option.map_some, rnd_two_above, h2, h100, rnd_zero]
    simp [hist1d, searchLeft, scatterAdd, inner, List.countP_cons]
    norm_num [List.modify]
  · simp [hist1d, searchLeft, scatterAdd, inner, List.countP_cons]
    norm_num [List.modify]

-- an event at 50 is not rounded to one of these edges
example : OffEdges [2, 100] (some 50) := by
  have h2 : rnd 2 = 2 := by simpa using rnd_nat 2 (by norm_num)
  have h50 : rnd 50 = 50 := by simpa using rnd_nat 50 (by norm_num)
  have h100 : rnd 100 = 100 := by simpa using rnd_nat 100 (by norm_num)
  intro r hr b hb
  cases hr
  simp only [List.mem_cons, List.not_mem_nil, or_false] at hb
  rcases hb with rfl | rfl
  · rw [h50, h2]; norm_num
  · rw [h50, h100]; norm_num

end Verif.Single
