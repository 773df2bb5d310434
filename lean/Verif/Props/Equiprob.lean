/-
C113: equiprobable bins are those found by the library for the events inside the clip; clipping the edges moves no event.
-/
import Verif.Spec.Equiprob
import Verif.Props.Likelihood

namespace Verif.Equiprob
open Verif

section
variable {F : Type} [LinearOrder F]

theorem inClip_iff (c : Ext F × Ext F) (v : Option F) : inClip c v = true ↔ Inside c v := by
  cases v <;> simp [inClip, Inside]

/-- Clipping an edge does not change on which side of it a value inside the clip lies. -/
theorem clip_lt (a lo hi v : Ext F) (h1 : lo < v) (h2 : v < hi) : Interp.clip a lo hi < v ↔ a < v := by
  unfold Interp.clip
  rw [min_lt_iff, max_lt_iff]
  constructor
  · rintro (h | h)
    · exact h.1
    · exact absurd h (not_lt_of_gt h2)
  · exact fun h => .inl ⟨h, h1⟩

theorem between_clip (e : List (Ext F)) (c : Ext F × Ext F) (j : Nat) (v : Option F) (h : Inside c v) :
    Between (e.map (fun a => Interp.clip a c.1 c.2)) j v ↔ Between e j v := by
  obtain ⟨x, rfl, h1, h2⟩ := h
  have hlt := fun a => clip_lt a c.1 c.2 (fin x) h1 h2
  have hle : ∀ a, fin x ≤ Interp.clip a c.1 c.2 ↔ fin x ≤ a := fun a => by
    rw [← not_lt, ← not_lt, hlt a]
  unfold Between
  simp only [List.getElem?_map, Option.map_eq_some_iff, Option.some.injEq]
  constructor
  · rintro ⟨_, _, y, ⟨a, ha, rfl⟩, ⟨b, hb, rfl⟩, rfl, k1, k2⟩
    exact ⟨a, b, _, ha, hb, rfl, (hlt a).1 k1, (hle b).1 k2⟩
  · rintro ⟨a, b, y, ha, hb, rfl, k1, k2⟩
    exact ⟨_, _, _, ⟨a, ha, rfl⟩, ⟨b, hb, rfl⟩, rfl, (hlt a).2 k1, (hle b).2 k2⟩

/-- **C113 (one dimension).** The library is given the values inside the clip and nothing else, and as many edges are returned
as it finds, all within the clip.  Each of these values lies between the same edges after clipping as before, so that every
bin holds as many of them. -/
theorem C113_one_dimension (lib : List (Option F) → Nat → List (Ext F)) (data : List (Option F)) (n : Nat) (c : Ext F × Ext F) :
    ∃ used, (∀ v, v ∈ used ↔ v ∈ data ∧ Inside c v) ∧ used.Sublist data ∧
      (∀ v, Inside c v → used.count v = data.count v) ∧
      (bins1 lib data n c).length = (lib used n).length ∧
      (c.1 ≤ c.2 → ∀ e ∈ bins1 lib data n c, c.1 ≤ e ∧ e ≤ c.2) ∧
      (∀ v ∈ used, ∀ j, Between (bins1 lib data n c) j v ↔ Between (lib used n) j v) ∧
      ∀ j, countBetween (bins1 lib data n c) used j = countBetween (lib used n) used j := by
  refine ⟨data.filter (inClip c), ?_, List.filter_sublist, ?_, by simp [bins1], ?_, ?_, ?_⟩
  · intro v; rw [List.mem_filter, inClip_iff]
  · intro v hv
    rw [List.count_filter ((inClip_iff c v).2 hv)]
  · intro hc e he
    obtain ⟨a, _, rfl⟩ := List.mem_map.1 he
    exact ⟨le_min (le_max_right _ _) hc, min_le_right _ _⟩
  · intro v hv j
    exact between_clip _ c j v ((inClip_iff c v).1 (List.mem_filter.1 hv).2)
  · intro j
    refine List.countP_congr fun v hv => ?_
    simp only [decide_eq_true_eq]
    exact between_clip _ c j v ((inClip_iff c v).1 (List.mem_filter.1 hv).2)

/-- **C113 (two dimensions).** The same for events with two values. -/
theorem C113_two_dimensions (lib : List (Option F × Option F) → Nat × Nat → List (Ext F) × List (List (Ext F)))
    (data : List (Option F × Option F)) (n : Nat × Nat) (cx cy : Ext F × Ext F) :
    ∃ used, (∀ v, v ∈ used ↔ v ∈ data ∧ Inside cx v.1 ∧ Inside cy v.2) ∧ used.Sublist data ∧
      (∀ v, Inside cx v.1 → Inside cy v.2 → used.count v = data.count v) ∧
      (bins2 lib data n cx cy).1.length = (lib used n).1.length ∧
      (bins2 lib data n cx cy).2.map List.length = (lib used n).2.map List.length ∧
      (cx.1 ≤ cx.2 → ∀ e ∈ (bins2 lib data n cx cy).1, cx.1 ≤ e ∧ e ≤ cx.2) ∧
      (cy.1 ≤ cy.2 → ∀ r ∈ (bins2 lib data n cx cy).2, ∀ e ∈ r, cy.1 ≤ e ∧ e ≤ cy.2) ∧
      ∀ i j, countBetween2 (bins2 lib data n cx cy) used i j = countBetween2 (lib used n) used i j := by
  have hf : ∀ v : Option F × Option F, (inClip cx v.1 && inClip cy v.2) = true ↔ Inside cx v.1 ∧ Inside cy v.2 := by
    intro v; rw [Bool.and_eq_true, inClip_iff, inClip_iff]
  refine ⟨data.filter (fun v => inClip cx v.1 && inClip cy v.2), ?_, List.filter_sublist, ?_, by simp [bins2], ?_, ?_, ?_, ?_⟩
  · intro v; rw [List.mem_filter, hf]
  · intro v h1 h2
    exact List.count_filter (p := fun v : Option F × Option F => inClip cx v.1 && inClip cy v.2) ((hf v).2 ⟨h1, h2⟩)
  · simp [bins2, Function.comp_def]
  · intro hc e he
    obtain ⟨a, _, rfl⟩ := List.mem_map.1 he
    exact ⟨le_min (le_max_right _ _) hc, min_le_right _ _⟩
  · intro hc r hr e he
    obtain ⟨r', _, rfl⟩ := List.mem_map.1 hr
    obtain ⟨a, _, rfl⟩ := List.mem_map.1 he
    exact ⟨le_min (le_max_right _ _) hc, min_le_right _ _⟩
  · intro i j
    refine List.countP_congr fun v hv => ?_
    simp only [decide_eq_true_eq]
    obtain ⟨h1, h2⟩ := (hf v).1 (List.mem_filter.1 hv).2
    refine and_congr (between_clip _ cx i v.1 h1) ?_
    simp only [bins2, List.getElem?_map, Option.map_eq_some_iff]
    constructor
    · rintro ⟨_, ⟨r, hr, rfl⟩, hb⟩
      exact ⟨r, hr, (between_clip r cy j v.2 h2).1 hb⟩
    · rintro ⟨r, hr, hb⟩
      exact ⟨_, ⟨r, hr, rfl⟩, (between_clip r cy j v.2 h2).2 hb⟩

/-- **C113 (no clip).** Without a clip the edges of the library are returned as they are. -/
theorem C113_no_clip (lib : List (Option F) → Nat → List (Ext F)) (data : List (Option F)) (n : Nat) :
    bins1 lib data n = lib (data.filter Option.isSome) n := by
  unfold bins1 noClip
  have : inClip ((⊥, ⊤) : Ext F × Ext F) = Option.isSome := by
    funext v
    cases v with
    | none => rfl
    | some v => simp only [inClip, fin, WithBot.bot_lt_coe, Option.isSome_some, decide_true, Bool.true_and]; exact decide_eq_true (WithBot.coe_lt_coe.2 (WithTop.coe_lt_top v))
  rw [this]
  simp [Interp.clip]

end

section
variable {F : Type} [Field F] [LinearOrder F] [IsStrictOrderedRing F]

theorem fin_lt (a b : F) : fin a < fin b ↔ a < b := by simp [fin]

theorem fin_le (a b : F) : fin a ≤ fin b ↔ a ≤ b := by simp [fin]

theorem fin_clip (a lo hi : F) : fin (Interp.clip a lo hi) = Interp.clip (fin a) (fin lo) (fin hi) := by
  unfold Interp.clip
  have hm : Monotone (fin : F → Ext F) := fun a b h => (fin_le a b).2 h
  rw [hm.map_min, hm.map_max]

/-- The edges a likelihood makes are those of the function. -/
theorem clipEdges_eq (c : F × F) (hc : c.1 ≤ c.2) (inner : List F) :
    (Llh.clipEdges c inner).map fin = (unbounded inner).map (fun e => Interp.clip e (fin c.1) (fin c.2)) := by
  have h1 : Interp.clip (⊥ : Ext F) (fin c.1) (fin c.2) = fin c.1 := by
    simp [Interp.clip, (fin_le c.1 c.2).2 hc]
  have h2 : Interp.clip (⊤ : Ext F) (fin c.1) (fin c.2) = fin c.2 := by simp [Interp.clip]
  simp [Llh.clipEdges, unbounded, h1, h2, fin_clip]

theorem inUpper_iff (e : List F) (j : Nat) (r : List (Option F)) (k : Nat) :
    Llh.InUpper e j r k ↔ Between (e.map fin) j (Llh.entry r k) := by
  unfold Llh.InUpper Between Llh.entry
  simp only [List.getElem?_map, Option.map_eq_some_iff]
  constructor
  · rintro ⟨lo, hi, v, h1, h2, h3, h4, h5⟩
    exact ⟨_, _, v, ⟨lo, h1, rfl⟩, ⟨hi, h2, rfl⟩, by rw [h3]; rfl, (fin_lt _ _).2 h4, (fin_le _ _).2 h5⟩
  · rintro ⟨_, _, v, ⟨lo, h1, rfl⟩, ⟨hi, h2, rfl⟩, h3, h4, h5⟩
    refine ⟨lo, hi, v, h1, h2, ?_, (fin_lt _ _).1 h4, (fin_le _ _).1 h5⟩
    cases hr : r[k]? with
    | none => rw [hr] at h3; cases h3
    | some o => rw [hr] at h3; exact congrArg some h3

theorem inside_fin (c : F × F) (r : List (Option F)) (k : Nat) (h : Llh.inside c (Llh.entry r k) = true) :
    Inside (fin c.1, fin c.2) (Llh.entry r k) := by
  cases hr : Llh.entry r k with
  | none => rw [hr] at h; cases h
  | some v =>
    rw [hr] at h
    simp only [Llh.inside, Bool.and_eq_true, decide_eq_true_eq] at h
    exact ⟨v, rfl, (fin_lt _ _).2 h.1, (fin_lt _ _).2 h.2⟩

open Classical in
/-- **C113 (likelihood in one dimension).** The data histogram of a likelihood with equiprobable bins holds in each bin the kept
events that lie between the edges the library found; in particular, if the library divides the kept events into equal parts,
so does the data histogram. -/
theorem C113_likelihood_1d (eq : Llh.Equi F) (cfg : Llh.Config F) (load : List String → Res (List (List (Option F))))
    (b : Llh.Built F) (h : Llh.init eq cfg load = .ok b) (c : F × F) (n : Nat) (h1 : b.binsOn.length = 1)
    (ht : cfg.binsType = "equiprob") (hn : cfg.bins = .int n ∨ cfg.bins = .list [.int n]) (hc : cfg.clip = some c)
    (hcc : c.1 ≤ c.2) (hsorted : ∀ d n, (eq.inner1 d n).Pairwise (· ≤ ·)) :
    let lib := eq.inner1 b.data n
    b.bins = .irreg1 (Llh.clipEdges c lib) ∧
    (∀ j ≤ lib.length, Llh.at? b.dataHist 0 j = some ((countBetween (unbounded lib) (column b.data) j : ℕ) : F)) ∧
    ∀ k, (∀ j ≤ lib.length, countBetween (unbounded lib) (column b.data) j = k) →
      ∀ j ≤ lib.length, Llh.at? b.dataHist 0 j = some (k : F) := by
  intro lib
  obtain ⟨specs, rows, hnorm, hlen, _, hsel, hset⟩ := Llh.init_spec eq cfg load b h
  have hsp : specs = [.int n] := by
    rcases hn with hn | hn <;> rw [hn] at hnorm <;> cases ho : cfg.binsOn <;> rw [ho] at hnorm <;>
      simp [Llh.normalise] at hnorm <;> exact hnorm.2.symm
  subst hsp
  have hbins : b.bins = .irreg1 (Llh.clipEdges c lib) := by
    rw [h1] at hset
    simp only [Llh.setBinning, ht, hc, Llh.need, bind, Except.bind, pure, Except.pure] at hset
    simp at hset
    exact hset.1.symm
  have hdata : ∀ r ∈ b.data, Llh.inside c (Llh.entry r 0) = true := by
    intro r hr
    rcases Llh.select_spec _ _ _ _ hsel with ⟨_, c', hc', hd⟩ | ⟨h2, _⟩
    · rw [hc] at hc'; cases hc'
      rw [hd] at hr
      exact (List.mem_filter.1 hr).2
    · omega
  have hent : ∀ j ≤ lib.length, Llh.at? b.dataHist 0 j = some ((countBetween (unbounded lib) (column b.data) j : ℕ) : F) := by
    intro j hj
    rw [Llh.C34_bin_contents eq cfg load b h ?_ 0 j ?_]
    · rw [hbins]
      simp only [countBetween, column, List.countP_map]
      congr 2
      refine List.countP_congr fun r hr => ?_
      simp only [Function.comp, decide_eq_true_eq]
      change Llh.InUpper _ _ _ _ ↔ _
      rw [inUpper_iff, clipEdges_eq c hcc]
      exact between_clip _ (fin c.1, fin c.2) j _ (inside_fin c r 0 (hdata r hr))
    · rw [hbins]
      obtain ⟨_, _, hp⟩ := Llh.clipEdges_spans c lib hcc (hsorted _ _)
      exact hp
    · rw [hbins]
      exact ⟨rfl, by simp [Llh.clipEdges]; omega⟩
  refine ⟨hbins, hent, fun k hk j hj => ?_⟩
  rw [hent j hj, hk j hj]

open Classical in
/-- **C113 (likelihood in two dimensions).** The same for two quantities. -/
theorem C113_likelihood_2d (eq : Llh.Equi F) (cfg : Llh.Config F) (load : List String → Res (List (List (Option F))))
    (b : Llh.Built F) (h : Llh.init eq cfg load = .ok b) (cx cy : F × F) (n m : Nat)
    (ht : cfg.binsType = "equiprob") (hn : cfg.bins = .list [.int n, .int m]) (hx : cfg.xClip = some cx)
    (hy : cfg.yClip = some cy) (hcx : cx.1 ≤ cx.2) (hcy : cy.1 ≤ cy.2)
    (hsorted : ∀ d n m, (eq.inner2 d n m).1.Pairwise (· ≤ ·) ∧ ∀ r ∈ (eq.inner2 d n m).2, r.Pairwise (· ≤ ·))
    (hcount : ∀ d n m, (eq.inner2 d n m).2.length = (eq.inner2 d n m).1.length + 1 ∧
      ∃ k, ∀ r ∈ (eq.inner2 d n m).2, r.length = k) :
    let lib := eq.inner2 b.data n m
    let edges := (unbounded lib.1, lib.2.map unbounded)
    b.bins = .irreg2 (Llh.clipEdges cx lib.1) (lib.2.map (Llh.clipEdges cy)) ∧
    (∀ i j r, lib.2[i]? = some r → j ≤ r.length →
      Llh.at? b.dataHist i j = some ((countBetween2 edges (columns b.data) i j : ℕ) : F)) ∧
    ∀ k, (∀ i j r, lib.2[i]? = some r → j ≤ r.length → countBetween2 edges (columns b.data) i j = k) →
      ∀ i j r, lib.2[i]? = some r → j ≤ r.length → Llh.at? b.dataHist i j = some (k : F) := by
  intro lib edges
  obtain ⟨specs, rows, hnorm, hlen, _, hsel, hset⟩ := Llh.init_spec eq cfg load b h
  have hsp : specs = [.int n, .int m] := by
    rw [hn] at hnorm; cases ho : cfg.binsOn <;> rw [ho] at hnorm <;>
      simp [Llh.normalise] at hnorm <;> exact hnorm.2.symm
  subst hsp
  have h2 : b.binsOn.length = 2 := hlen
  have hbins : b.bins = .irreg2 (Llh.clipEdges cx lib.1) (lib.2.map (Llh.clipEdges cy)) := by
    rw [h2] at hset
    simp only [Llh.setBinning, ht, hx, hy, Llh.need, bind, Except.bind, pure, Except.pure] at hset
    simp at hset
    exact hset.1.symm
  have hdata : ∀ r ∈ b.data, Llh.inside cx (Llh.entry r 0) = true ∧ Llh.inside cy (Llh.entry r 1) = true := by
    intro r hr
    rcases Llh.select_spec _ _ _ _ hsel with ⟨h1, _⟩ | ⟨_, cx', cy', hx', hy', hd⟩
    · omega
    · rw [hx] at hx'; rw [hy] at hy'; cases hx'; cases hy'
      rw [hd] at hr
      simpa using (List.mem_filter.1 hr).2
  obtain ⟨hc1, q, hq⟩ := hcount b.data n m
  have hent : ∀ i j r, lib.2[i]? = some r → j ≤ r.length →
      Llh.at? b.dataHist i j = some ((countBetween2 edges (columns b.data) i j : ℕ) : F) := by
    intro i j r hr hj
    rw [Llh.C34_bin_contents eq cfg load b h ?_ i j ?_]
    · rw [hbins]
      simp only [countBetween2, columns, List.countP_map]
      congr 2
      refine List.countP_congr fun row hrow => ?_
      simp only [Function.comp, decide_eq_true_eq, edges]
      change (Llh.InUpper _ _ _ _ ∧ ∃ r, _ ∧ Llh.InUpper r _ _ _) ↔ _
      obtain ⟨d1, d2⟩ := hdata row hrow
      refine and_congr ?_ ?_
      · rw [inUpper_iff, clipEdges_eq cx hcx]
        exact between_clip _ (fin cx.1, fin cx.2) i _ (inside_fin cx row 0 d1)
      · simp only [List.getElem?_map, hr, Option.map_some, Option.some.injEq, exists_eq_left']
        rw [inUpper_iff, clipEdges_eq cy hcy]
        exact between_clip _ (fin cy.1, fin cy.2) j _ (inside_fin cy row 1 d2)
    · rw [hbins]
      obtain ⟨_, _, hp⟩ := Llh.clipEdges_spans cx lib.1 hcx (hsorted _ _ _).1
      refine ⟨hp, by simp only [List.length_map, lib, Llh.clipEdges, List.length_append, List.length_cons, List.length_nil]; omega, q + 2, ?_⟩
      intro row hrow
      obtain ⟨r', hr', rfl⟩ := List.mem_map.1 hrow
      obtain ⟨_, _, hp'⟩ := Llh.clipEdges_spans cy r' hcy ((hsorted _ _ _).2 r' hr')
      exact ⟨by simp [Llh.clipEdges, hq r' hr'], hp'⟩
    · rw [hbins]
      have hi : i < lib.2.length := (List.getElem?_eq_some_iff.1 hr).1
      refine ⟨by simp only [List.length_map, lib, Llh.clipEdges, List.length_append, List.length_cons, List.length_nil] at hi ⊢; omega, _, by rw [List.getElem?_map, hr]; rfl, ?_⟩
      simp [Llh.clipEdges]; omega
  refine ⟨hbins, hent, fun k hk i j r hr hj => ?_⟩
  rw [hent i j r hr hj, hk i j r hr hj]

end

/-! ### A concrete case: four events of six inside the clip, divided at 3 -/

def exLib : Llh.Equi ℚ := ⟨fun _ _ => [3], fun _ _ _ => ([3], [[20], [60]])⟩

example : ∃ b, Llh.init exLib { binsType := "equiprob", binsOn := .str "cs1", bins := .int 2, clip := some (0, 10) }
      (fun _ => .ok [[some 1], [some 2], [some 5], [some 8], [some 20], [none]]) = .ok b ∧
    b.bins = .irreg1 [0, 3, 10] ∧ Llh.at? b.dataHist 0 0 = some 2 ∧ Llh.at? b.dataHist 0 1 = some 2 := by
  have e1 : ([[some 1], [some 2], [some 5], [some 8], [some 20], [none]] : List (List (Option ℚ))).filter
      (fun r => Llh.inside (0, 10) (Llh.entry r 0)) = [[some 1], [some 2], [some 5], [some 8]] := by decide +kernel
  refine ⟨⟨["cs1"], [[some 1], [some 2], [some 5], [some 8]], .irreg1 [0, 3, 10], [[2, 2]]⟩, ?_, rfl, rfl, rfl⟩
  · simp only [Llh.init, Llh.normalise, Llh.sanityCheck, Llh.select, Llh.need, Llh.setBinning, bind, Except.bind, pure,
      Except.pure, List.length_cons, List.length_nil]
    rw [e1]
    have : Llh.clipEdges (0, 10) (exLib.inner1 [[some 1], [some 2], [some 5], [some 8]] 2) = [0, 3, 10] := by
      decide +kernel
    have e2 : Llh.makeDataHist (.irreg1 [0, 3, 10]) ([[some 1], [some 2], [some 5], [some 8]] : List (List (Option ℚ))) =
        [[2, 2]] := by decide +kernel
    simp [this, e2]

example : bins1 (fun _ _ => [⊥, fin 3, ⊤]) [some (1 : ℚ), some 5, some 20, none] 2 (fin 0, fin 10) = [fin 0, fin 3, fin 10] := by
  decide +kernel

example : bins2 (fun _ _ => ([⊥, fin 3, ⊤], [[⊥, fin 20, ⊤], [⊥, fin 60, ⊤]])) [(some (1 : ℚ), some 5), (some 20, none)] (2, 2)
    (fin 0, fin 10) (fin 0, fin 50) = ([fin 0, fin 3, fin 10], [[fin 0, fin 20, fin 50], [fin 0, fin 50, fin 50]]) := by
  decide +kernel

/-- The hypotheses on the library in the theorems about likelihoods are met. -/
example : (∀ d n, (exLib.inner1 d n).Pairwise (· ≤ ·)) ∧
    (∀ d n m, (exLib.inner2 d n m).1.Pairwise (· ≤ ·) ∧ ∀ r ∈ (exLib.inner2 d n m).2, r.Pairwise (· ≤ ·)) ∧
    ∀ d n m, (exLib.inner2 d n m).2.length = (exLib.inner2 d n m).1.length + 1 ∧
      ∃ k, ∀ r ∈ (exLib.inner2 d n m).2, r.length = k := by
  refine ⟨by simp [exLib], by simp [exLib], fun _ _ _ => ⟨rfl, 1, by simp [exLib]⟩⟩

end Verif.Equiprob
