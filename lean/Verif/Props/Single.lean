/-
C91: histograms in single precision.
-/
import Verif.Lemmas.Single
import Verif.Spec.Single
import Verif.Props.Hist
import Mathlib.Topology.Algebra.Order.Field
import Mathlib.Analysis.SpecificLimits.Basic

namespace Verif.Single
open Verif Verif.Hist

variable {K : Type*} [LinearOrder K]

section entries
open Classical
variable {W : Type*} [Add W] [Zero W]

theorem entry1 (bins : List K) (hs : bins.Pairwise (· ≤ ·)) (sw : List (Option K × W)) (i : Nat) (hi : i + 1 < bins.length) :
    (hist1d bins sw)[i]? = some (added (InBin bins[i] bins[i + 1]) sw) := by
  rw [hist1d_eq']
  have h1 : i < bins.length - 1 := by omega
  simp only [List.getElem?_map, List.getElem?_range h1, Option.map_some, Option.some.injEq]
  exact added_congr _ (fun e _ => searchLeft_eq_iff bins hs e.1 i hi)

theorem entry2 (bx : List K) (by' : List (List K)) (m2 : Nat) (hx : bx.Pairwise (· ≤ ·)) (hrows : by'.length + 1 = bx.length)
    (hy : ∀ row ∈ by', row.length = m2 ∧ row.Pairwise (· ≤ ·)) (sw : List ((Option K × Option K) × W))
    (i j : Nat) (hi : i + 1 < bx.length) (row : List K) (hrow : by'[i]? = some row) (hj : j + 1 < row.length) :
    ∃ r, (hist2d bx by' m2 sw)[i]? = some r ∧
      r[j]? = some (added (fun s => InBin bx[i] bx[i + 1] s.1 ∧ InBin row[j] row[j + 1] s.2) sw) := by
  rw [hist2d_eq']
  obtain ⟨hlen, hsort⟩ := hy row (List.mem_of_getElem? hrow)
  have h1 : i < bx.length - 1 := by omega
  have h2 : j < m2 - 1 := by omega
  refine ⟨_, by rw [List.getElem?_map, List.getElem?_range h1]; rfl, ?_⟩
  rw [List.getElem?_map, List.getElem?_range h2]
  simp only [Option.map_some, Option.some.injEq]
  apply added_congr
  rintro ⟨⟨x, y⟩, w⟩ _
  simp only [index2d]
  have hxi := searchLeft_eq_iff bx hx x i hi
  have hg := gatherRow_mid by' i row hrow
  constructor
  · rintro ⟨ha, hb⟩
    refine ⟨hxi.1 ha, ?_⟩
    rw [ha, hg] at hb
    exact (searchLeft_eq_iff row hsort y j hj).1 hb
  · rintro ⟨ha, hb⟩
    have ha' := hxi.2 ha
    refine ⟨ha', ?_⟩
    rw [ha', hg]
    exact (searchLeft_eq_iff row hsort y j hj).2 hb

theorem entryMesh1 (edges : List K) (hs : edges.Pairwise (· ≤ ·)) (sw : List (Option K × W)) (i : Nat) (hi : i + 1 < edges.length) :
    (mesh1d edges sw)[i]? = some (added (InMeshBin edges[i] edges[i + 1] (decide (i + 2 = edges.length))) sw) := by
  rw [mesh1d_eq']
  have h1 : i < edges.length - 1 := by omega
  simp only [List.getElem?_map, List.getElem?_range h1, Option.map_some, Option.some.injEq]
  exact added_congr _ (fun e _ => meshIndex_eq_iff edges hs e.1 i hi)

theorem entryMesh2 (ex ey : List K) (hx : ex.Pairwise (· ≤ ·)) (hy : ey.Pairwise (· ≤ ·)) (sw : List ((Option K × Option K) × W))
    (i j : Nat) (hi : i + 1 < ex.length) (hj : j + 1 < ey.length) :
    ∃ r, (mesh2d ex ey sw)[i]? = some r ∧
      r[j]? = some (added (fun s => InMeshBin ex[i] ex[i + 1] (decide (i + 2 = ex.length)) s.1 ∧
          InMeshBin ey[j] ey[j + 1] (decide (j + 2 = ey.length)) s.2) sw) := by
  rw [mesh2d_eq']
  have h1 : i < ex.length - 1 := by omega
  have h2 : j < ey.length - 1 := by omega
  refine ⟨_, by rw [List.getElem?_map, List.getElem?_range h1]; rfl, ?_⟩
  rw [List.getElem?_map, List.getElem?_range h2]
  simp only [Option.map_some, Option.some.injEq]
  apply added_congr
  intro e _
  rw [meshIndex_eq_iff ex hx e.1.1 i hi, meshIndex_eq_iff ey hy e.1.2 j hj]

end entries

theorem added_count {S : Type*} (p : S → Prop) [DecidablePred p] (events : List S) :
    added p (events.map (fun e => (e, (⟨1⟩ : F32)))) = ⟨((min (count p events) (2 ^ 24) : ℕ) : ℝ)⟩ := by
  ext
  rw [added_ones]
  unfold count
  congr!

/-- **C91 (counts).** In single precision a bin of events with weight one contains their number, but never more than 2^24: in one
and two dimensions, for irregular bins and mesh grids, in whatever order the events come. -/
theorem C91_counts (bins : List K) (hs : bins.Pairwise (· ≤ ·)) (events : List (Option K)) (bx : List K) (by' : List (List K)) (m2 : Nat)
    (hx : bx.Pairwise (· ≤ ·)) (hrows : by'.length + 1 = bx.length) (hy : ∀ row ∈ by', row.length = m2 ∧ row.Pairwise (· ≤ ·))
    (ey : List K) (hey : ey.Pairwise (· ≤ ·)) (events2 : List (Option K × Option K)) :
    (∀ (i : Nat) (hi : i + 1 < bins.length), (hist1d bins (events.map (fun e => (e, (⟨1⟩ : F32)))))[i]? =
      some ⟨((min (count (InBin bins[i] bins[i + 1]) events) (2 ^ 24) : ℕ) : ℝ)⟩) ∧
    (∀ (i j : Nat) (hi : i + 1 < bx.length) (row : List K) (_ : by'[i]? = some row) (hj : j + 1 < row.length),
      ∃ r, (hist2d bx by' m2 (events2.map (fun e => (e, (⟨1⟩ : F32)))))[i]? = some r ∧ r[j]? =
        some ⟨((min (count (fun s => InBin bx[i] bx[i + 1] s.1 ∧ InBin row[j] row[j + 1] s.2) events2) (2 ^ 24) : ℕ) : ℝ)⟩) ∧
    (∀ (i : Nat) (hi : i + 1 < bins.length), (mesh1d bins (events.map (fun e => (e, (⟨1⟩ : F32)))))[i]? =
      some ⟨((min (count (InMeshBin bins[i] bins[i + 1] (decide (i + 2 = bins.length))) events) (2 ^ 24) : ℕ) : ℝ)⟩) ∧
    (∀ (i j : Nat) (hi : i + 1 < bx.length) (hj : j + 1 < ey.length),
      ∃ r, (mesh2d bx ey (events2.map (fun e => (e, (⟨1⟩ : F32)))))[i]? = some r ∧ r[j]? =
        some ⟨((min (count (fun s => InMeshBin bx[i] bx[i + 1] (decide (i + 2 = bx.length)) s.1 ∧
          InMeshBin ey[j] ey[j + 1] (decide (j + 2 = ey.length)) s.2) events2) (2 ^ 24) : ℕ) : ℝ)⟩) := by
  refine ⟨fun i hi => ?_, fun i j hi row hrow hj => ?_, fun i hi => ?_, fun i j hi hj => ?_⟩
  · rw [entry1 bins hs _ i hi, added_count]
  · obtain ⟨r, h1, h2⟩ := entry2 bx by' m2 hx hrows hy (events2.map (fun e => (e, (⟨1⟩ : F32)))) i j hi row hrow hj
    exact ⟨r, h1, by rw [h2, added_count]⟩
  · rw [entryMesh1 bins hs _ i hi, added_count]
  · obtain ⟨r, h1, h2⟩ := entryMesh2 bx ey hx hey (events2.map (fun e => (e, (⟨1⟩ : F32)))) i j hi hj
    exact ⟨r, h1, by rw [h2, added_count]⟩

theorem added_exact {S : Type*} (p : S → Prop) [DecidablePred p] (events : List S) (h : events.length ≤ 2 ^ 24) :
    (added p (events.map (fun e => (e, (⟨1⟩ : F32))))).val = weightOf p (events.map (fun e => (e, (1 : ℝ)))) := by
  rw [added_ones, min_eq_left ((List.countP_le_length).trans h)]
  clear h
  induction events with
  | nil => simp [weightOf_nil]
  | cons e l ih =>
    rw [List.map_cons, weightOf_cons, ← ih]
    by_cases hp : p e
    · rw [List.countP_cons_of_pos (by simpa using hp), if_pos hp]; push_cast; ring
    · rw [List.countP_cons_of_neg (by simpa using hp), if_neg hp]; simp

/-- **C91 (exact, partial).** With at most 2^24 events the single-precision histogram of events with weight one is exactly the
histogram without rounding, for any bins.  What is missing for the full statement is false: `C91_events_lost`. -/
theorem C91_exact_partial (bins : List K) (events : List (Option K)) (h : events.length ≤ 2 ^ 24) (bx : List K) (by' : List (List K))
    (m2 : Nat) (ey : List K) (events2 : List (Option K × Option K)) (h2 : events2.length ≤ 2 ^ 24) :
    (hist1d bins (events.map (fun e => (e, (⟨1⟩ : F32))))).map F32.val = hist1d bins (events.map (fun e => (e, (1 : ℝ)))) ∧
    (hist2d bx by' m2 (events2.map (fun e => (e, (⟨1⟩ : F32))))).map (List.map F32.val) =
      hist2d bx by' m2 (events2.map (fun e => (e, (1 : ℝ)))) ∧
    (mesh1d bins (events.map (fun e => (e, (⟨1⟩ : F32))))).map F32.val = mesh1d bins (events.map (fun e => (e, (1 : ℝ)))) ∧
    (mesh2d bx ey (events2.map (fun e => (e, (⟨1⟩ : F32))))).map (List.map F32.val) =
      mesh2d bx ey (events2.map (fun e => (e, (1 : ℝ)))) := by
  refine ⟨?_, ?_, ?_, ?_⟩
  · rw [hist1d_eq', hist1d_eq, List.map_map]
    exact List.map_congr_left (fun i _ => added_exact _ events h)
  · rw [hist2d_eq', hist2d_eq, List.map_map]
    apply List.map_congr_left
    intro i _
    simp only [Function.comp_def, List.map_map]
    exact List.map_congr_left (fun j _ => added_exact _ events2 h2)
  · rw [mesh1d_eq', mesh1d_eq, List.map_map]
    exact List.map_congr_left (fun i _ => added_exact _ events h)
  · rw [mesh2d_eq', mesh2d_eq, List.map_map]
    apply List.map_congr_left
    intro i _
    simp only [Function.comp_def, List.map_map]
    exact List.map_congr_left (fun j _ => added_exact _ events2 h2)

/-- **C91 (negation: events are lost).** However many events beyond 2^24 fall in a bin, it contains 2^24. -/
theorem C91_events_lost (n : ℕ) (lo hi x : K) (hl : lo < x) (hh : x ≤ hi) :
    hist1d [lo, hi] (List.replicate (2 ^ 24 + n) (some x, (⟨1⟩ : F32))) = [⟨2 ^ 24⟩] := by
  have h := (C91_counts [lo, hi] (by simpa using (hl.trans_le hh).le) (List.replicate (2 ^ 24 + n) (some x)) [lo] [] 0 (by simp) rfl
    (by simp) [] List.Pairwise.nil []).1 0 (by simp)
  rw [List.map_replicate] at h
  have hc : count (InBin lo hi) (List.replicate (2 ^ 24 + n) (some x)) = 2 ^ 24 + n := by
    unfold count
    rw [List.countP_replicate, if_pos]
    simpa using ⟨x, rfl, hl, hh⟩
  have hlen : (hist1d [lo, hi] (List.replicate (2 ^ 24 + n) (some x, (⟨1⟩ : F32)))).length = 1 := by
    rw [hist1d_eq']; simp
  obtain ⟨e, he⟩ := List.length_eq_one_iff.1 hlen
  rw [he] at h ⊢
  simp only [List.getElem?_cons_zero, Option.some.injEq] at h
  rw [h]
  congr 2
  show (((min (count (InBin lo hi) (List.replicate (2 ^ 24 + n) (some x))) (2 ^ 24) : ℕ)) : ℝ) = 2 ^ 24
  rw [hc, min_eq_right (by omega), Nat.cast_pow]
  rfl

/-- **C91 (negation: large batches).** For any sequence of events the fraction of them counted in a bin goes to zero as more and more
of them are simulated, whatever the probability of the bin. -/
theorem C91_fraction_vanishes (bins : List K) (hs : bins.Pairwise (· ≤ ·)) (event : ℕ → Option K) (i : Nat) (hi : i + 1 < bins.length) :
    ∃ entry : ℕ → F32, (∀ n, (hist1d bins ((List.range n).map (fun k => (event k, (⟨1⟩ : F32)))))[i]? = some (entry n)) ∧
      Filter.Tendsto (fun n => (entry n).val / n) Filter.atTop (nhds 0) := by
  have h := fun n => (C91_counts bins hs ((List.range n).map event) [bins[i]] [] 0 (by simp) rfl (by simp) []
    List.Pairwise.nil []).1 i hi
  refine ⟨_, fun n => by rw [← h n, List.map_map]; rfl, ?_⟩
  refine squeeze_zero (fun n => ?_) (fun n => ?_) (tendsto_const_div_atTop_nhds_zero_nat ((2 : ℝ) ^ 24))
  · positivity
  · apply div_le_div_of_nonneg_right _ (by positivity)
    have := min_le_right (count (InBin bins[i] bins[i + 1]) ((List.range n).map event)) (2 ^ 24)
    show ((min (count (InBin bins[i] bins[i + 1]) ((List.range n).map event)) (2 ^ 24) : ℕ) : ℝ) ≤ 2 ^ 24
    exact_mod_cast this

theorem added_total {S : Type*} (p : S → Prop) [DecidablePred p] (sw : List (S × F32)) (h : ∀ e ∈ sw, 0 ≤ e.2.val) :
    (1 - 1 / 2 ^ 24) ^ count p (sw.map Prod.fst) * total p (sw.map (fun e => (e.1, e.2.val))) ≤ (added p sw).val ∧
    (added p sw).val ≤ (1 + 1 / 2 ^ 24) ^ count p (sw.map Prod.fst) * total p (sw.map (fun e => (e.1, e.2.val))) := by
  have hb := foldl_bounds ((sw.filter (fun e => decide (p e.1))).map Prod.snd) 0 le_rfl (by
    intro w hw
    obtain ⟨e, he, rfl⟩ := List.mem_map.1 hw
    exact h e (List.mem_filter.1 he).1)
  have hc : count p (sw.map Prod.fst) = ((sw.filter (fun e => decide (p e.1))).map Prod.snd).length := by
    unfold count
    rw [List.length_map, List.countP_map, List.countP_eq_length_filter]
    congr 2
    funext e
    simp
  have ht : total p (sw.map (fun e => (e.1, e.2.val))) = (((sw.filter (fun e => decide (p e.1))).map Prod.snd).map F32.val).sum := by
    unfold total
    rw [List.filter_map, List.map_map, List.map_map]
    congr 2
    apply List.filter_congr
    intro e _
    simp
  rw [hc, ht]
  rw [val_zero, zero_add] at hb
  exact hb

/-- **C91 (weights).** With weights that are not negative the content of a bin with `m` events differs from the exact total of their
weights by at most the factor (1 ± 2^-24)^m: in one and two dimensions, for irregular bins and mesh grids. -/
theorem C91_weights (bins : List K) (hs : bins.Pairwise (· ≤ ·)) (sw : List (Option K × F32)) (hw : ∀ e ∈ sw, 0 ≤ e.2.val)
    (bx : List K) (by' : List (List K)) (m2 : Nat) (hx : bx.Pairwise (· ≤ ·)) (hrows : by'.length + 1 = bx.length)
    (hy : ∀ row ∈ by', row.length = m2 ∧ row.Pairwise (· ≤ ·)) (ey : List K) (hey : ey.Pairwise (· ≤ ·))
    (sw2 : List ((Option K × Option K) × F32)) (hw2 : ∀ e ∈ sw2, 0 ≤ e.2.val) :
    (∀ (i : Nat) (hi : i + 1 < bins.length), ∃ c, (hist1d bins sw)[i]? = some c ∧
      (1 - 1 / 2 ^ 24) ^ count (InBin bins[i] bins[i + 1]) (sw.map Prod.fst) *
        total (InBin bins[i] bins[i + 1]) (sw.map (fun e => (e.1, e.2.val))) ≤ c.val ∧
      c.val ≤ (1 + 1 / 2 ^ 24) ^ count (InBin bins[i] bins[i + 1]) (sw.map Prod.fst) *
        total (InBin bins[i] bins[i + 1]) (sw.map (fun e => (e.1, e.2.val)))) ∧
    (∀ (i j : Nat) (hi : i + 1 < bx.length) (row : List K) (_ : by'[i]? = some row) (hj : j + 1 < row.length)
      (p : Option K × Option K → Prop) (_ : p = fun s => InBin bx[i] bx[i + 1] s.1 ∧ InBin row[j] row[j + 1] s.2),
      ∃ r c, (hist2d bx by' m2 sw2)[i]? = some r ∧ r[j]? = some c ∧
        (1 - 1 / 2 ^ 24) ^ count p (sw2.map Prod.fst) * total p (sw2.map (fun e => (e.1, e.2.val))) ≤ c.val ∧
        c.val ≤ (1 + 1 / 2 ^ 24) ^ count p (sw2.map Prod.fst) * total p (sw2.map (fun e => (e.1, e.2.val)))) ∧
    (∀ (i : Nat) (hi : i + 1 < bins.length) (p : Option K → Prop)
      (_ : p = InMeshBin bins[i] bins[i + 1] (decide (i + 2 = bins.length))), ∃ c, (mesh1d bins sw)[i]? = some c ∧
      (1 - 1 / 2 ^ 24) ^ count p (sw.map Prod.fst) * total p (sw.map (fun e => (e.1, e.2.val))) ≤ c.val ∧
      c.val ≤ (1 + 1 / 2 ^ 24) ^ count p (sw.map Prod.fst) * total p (sw.map (fun e => (e.1, e.2.val)))) ∧
    (∀ (i j : Nat) (hi : i + 1 < bx.length) (hj : j + 1 < ey.length) (p : Option K × Option K → Prop)
      (_ : p = fun s => InMeshBin bx[i] bx[i + 1] (decide (i + 2 = bx.length)) s.1 ∧
        InMeshBin ey[j] ey[j + 1] (decide (j + 2 = ey.length)) s.2),
      ∃ r c, (mesh2d bx ey sw2)[i]? = some r ∧ r[j]? = some c ∧
        (1 - 1 / 2 ^ 24) ^ count p (sw2.map Prod.fst) * total p (sw2.map (fun e => (e.1, e.2.val))) ≤ c.val ∧
        c.val ≤ (1 + 1 / 2 ^ 24) ^ count p (sw2.map Prod.fst) * total p (sw2.map (fun e => (e.1, e.2.val)))) := by
  classical
  refine ⟨fun i hi => ?_, fun i j hi row hrow hj p hp => ?_, fun i hi p hp => ?_, fun i j hi hj p hp => ?_⟩
  · exact ⟨_, entry1 bins hs sw i hi, added_total _ sw hw⟩
  · obtain ⟨r, h1, h2⟩ := entry2 bx by' m2 hx hrows hy sw2 i j hi row hrow hj
    subst hp
    exact ⟨r, _, h1, h2, added_total _ sw2 hw2⟩
  · subst hp
    exact ⟨_, entryMesh1 bins hs sw i hi, added_total _ sw hw⟩
  · obtain ⟨r, h1, h2⟩ := entryMesh2 bx ey hx hey sw2 i j hi hj
    subst hp
    exact ⟨r, _, h1, h2, added_total _ sw2 hw2⟩

/-- **C91 (order of the events).** With weights the histogram depends on the order of the events: one event of weight 2^24 and two
events of weight one. -/
theorem C91_order_matters :
    hist1d [(0 : ℕ), 1] [(some 1, (⟨2 ^ 24⟩ : F32)), (some 1, ⟨1⟩), (some 1, ⟨1⟩)] = [⟨2 ^ 24⟩] ∧
    hist1d [(0 : ℕ), 1] [(some 1, (⟨1⟩ : F32)), (some 1, ⟨1⟩), (some 1, ⟨2 ^ 24⟩)] = [⟨2 ^ 24 + 2⟩] := by
  have h24 : rnd ((2 : ℝ) ^ 24) = 2 ^ 24 := by
    have := rnd_nat (2 ^ 24) le_rfl
    rw [Nat.cast_pow] at this
    exact this
  have h1 : rnd 1 = 1 := by simpa using rnd_nat 1 (by norm_num)
  have h2 : rnd 2 = 2 := by simpa using rnd_nat 2 (by norm_num)
  have h3 : rnd ((2 : ℝ) ^ 24 + 2) = 2 ^ 24 + 2 := by
    have hlog : Int.log 2 |(2 : ℝ) ^ 24 + 2| = 24 := by
      rw [abs_of_pos (by positivity)]
      have e : ((2 : ℝ) ^ 24 + 2) = ((2 ^ 24 + 2 : ℕ) : ℝ) := by push_cast; norm_num
      rw [e, Int.log_natCast]
      have : Nat.log 2 (2 ^ 24 + 2) = 24 := by
        rw [Nat.log_eq_iff (by norm_num)]; norm_num
      rw [this]; rfl
    have hu : ulp ((2 : ℝ) ^ 24 + 2) = 2 := by
      unfold ulp; rw [hlog]; norm_num
    unfold rnd
    rw [hu]
    have e : ((2 : ℝ) ^ 24 + 2) / 2 = ((2 ^ 23 + 1 : ℤ) : ℝ) := by push_cast; norm_num
    rw [e, halfEven_int]
    push_cast; norm_num
  have hsl : searchLeft [(0 : ℕ), 1] (some 1) = 1 := by decide
  constructor
  · show inner _ = _
    simp only [List.foldl_cons, List.foldl_nil, hsl]
    show [(((0 : F32) + ⟨2 ^ 24⟩) + ⟨1⟩) + ⟨1⟩] = _
    congr 1
    ext
    simp only [val_add, val_zero, zero_add, h24, rnd_stuck]
  · show inner _ = _
    simp only [List.foldl_cons, List.foldl_nil, hsl]
    show [(((0 : F32) + ⟨1⟩) + ⟨1⟩) + ⟨2 ^ 24⟩] = _
    congr 1
    ext
    simp only [val_add, val_zero, zero_add, h1]
    rw [show (1 : ℝ) + 1 = 2 by norm_num, h2, add_comm, h3]

/-- Non-vacuity: two ordinary bins with three events. -/
example : (hist1d [(0 : ℕ), 2, 5] ([some 1, some 2, some 3].map (fun e => (e, (⟨1⟩ : F32))))).map F32.val = [2, 1] := by
  rw [(C91_exact_partial [(0 : ℕ), 2, 5] [some 1, some 2, some 3] (by norm_num) [] [] 0 [] [] (by norm_num)).1]
  rw [hist1d_eq]
  norm_num [weightOf, searchLeft, List.range_succ]

end Verif.Single
