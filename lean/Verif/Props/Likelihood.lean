/-
Properties C34-C39: likelihoods.
-/
import Verif.Lemmas.Likelihood
import Verif.Props.CompHist

namespace Verif.Llh
open Verif

section
variable {F : Type} [Field F] [LinearOrder F]

/-! ### C34: data selection and binning -/

/-- **C34 (selection).** A likelihood over one observable keeps exactly the events strictly inside `clip`, in file order and
with their multiplicity. -/
theorem C34_data_selected_1d (eq : Equi F) (cfg : Config F) (load : List String → Res (List (List (Option F))))
    (b : Built F) (h : init eq cfg load = .ok b) (h1 : b.binsOn.length = 1) :
    ∃ c rows, cfg.clip = some c ∧ load b.binsOn = .ok rows ∧ b.data.Sublist rows ∧
      (∀ r ∈ b.data, StrictlyBetween c r 0) ∧
      ∀ r, StrictlyBetween c r 0 → ∀ n, (List.replicate n r).Sublist b.data ↔ (List.replicate n r).Sublist rows := by
  obtain ⟨specs, rows, _, _, hl, hs, _⟩ := init_spec eq cfg load b h
  rcases select_spec _ _ _ _ hs with ⟨_, c, hc, hd⟩ | ⟨h2, _⟩
  · refine ⟨c, rows, hc, hl, ?_, ?_, ?_⟩
    · rw [hd]; exact List.filter_sublist
    · intro r hr; rw [hd] at hr
      exact (inside_iff c r 0).1 (List.mem_filter.1 hr).2
    · intro r hr n
      constructor
      · intro hsub; exact hsub.trans (hd ▸ List.filter_sublist)
      · intro hsub
        have := hsub.filter (fun r => inside c (entry r 0))
        rw [hd]
        rwa [List.filter_replicate, if_pos ((inside_iff c r 0).2 hr)] at this
  · omega

/-- **C34 (selection).** A likelihood over two observables keeps exactly the events strictly inside `x_clip` and `y_clip`. -/
theorem C34_data_selected_2d (eq : Equi F) (cfg : Config F) (load : List String → Res (List (List (Option F))))
    (b : Built F) (h : init eq cfg load = .ok b) (h1 : b.binsOn.length ≠ 1) :
    ∃ cx cy rows, cfg.xClip = some cx ∧ cfg.yClip = some cy ∧ load b.binsOn = .ok rows ∧ b.data.Sublist rows ∧
      (∀ r ∈ b.data, StrictlyBetween cx r 0 ∧ StrictlyBetween cy r 1) ∧
      ∀ r, StrictlyBetween cx r 0 → StrictlyBetween cy r 1 →
        ∀ n, (List.replicate n r).Sublist b.data ↔ (List.replicate n r).Sublist rows := by
  obtain ⟨specs, rows, _, _, hl, hs, _⟩ := init_spec eq cfg load b h
  rcases select_spec _ _ _ _ hs with ⟨h2, _⟩ | ⟨_, cx, cy, hx, hy, hd⟩
  · exact absurd h2 h1
  · have key : ∀ r, (inside cx (entry r 0) && inside cy (entry r 1)) = true ↔
        StrictlyBetween cx r 0 ∧ StrictlyBetween cy r 1 := by
      intro r; rw [Bool.and_eq_true, inside_iff, inside_iff]
    refine ⟨cx, cy, rows, hx, hy, hl, ?_, ?_, ?_⟩
    · rw [hd]; exact List.filter_sublist
    · intro r hr; rw [hd] at hr
      exact (key r).1 (List.mem_filter.1 hr).2
    · intro r hr hr' n
      constructor
      · intro hsub; exact hsub.trans (hd ▸ List.filter_sublist)
      · intro hsub
        have := hsub.filter (fun r => inside cx (entry r 0) && inside cy (entry r 1))
        rw [hd]
        rwa [List.filter_replicate, if_pos ((key r).2 ⟨hr, hr'⟩)] at this

/-- **C34 (counting).** The data histogram is that of the kept events, and when the outer edges are the clip bounds its
total is their number. -/
theorem C34_every_kept_event_counted (eq : Equi F) (cfg : Config F)
    (load : List String → Res (List (List (Option F)))) (b : Built F) (h : init eq cfg load = .ok b)
    (ho : OuterEdges cfg b.bins) :
    Comp.total b.dataHist = (b.data.length : F) ∧
    ∀ r ∈ b.data, Comp.total (makeDataHist b.bins [r]) = (1 : F) := by
  obtain ⟨specs, rows, _, hlen, hl, hs, hb⟩ := init_spec eq cfg load b h
  obtain ⟨hh, hdim⟩ := setBinning_hist eq _ cfg specs b.data b.bins b.dataHist hb
  have g1 : b.bins.dims = 1 → ∀ c, cfg.clip = some c → ∀ r ∈ b.data, StrictlyBetween c r 0 := by
    intro hd c hc r hr
    rcases select_spec _ _ _ _ hs with ⟨_, c', hc', hdat⟩ | ⟨h2, _⟩
    · rw [hc] at hc'; cases hc'
      rw [hdat] at hr
      exact (inside_iff c r 0).1 (List.mem_filter.1 hr).2
    · omega
  have g2 : b.bins.dims = 2 → ∀ cx cy, cfg.xClip = some cx → cfg.yClip = some cy → ∀ r ∈ b.data,
      StrictlyBetween cx r 0 ∧ StrictlyBetween cy r 1 := by
    intro hd cx cy hx hy r hr
    rcases select_spec _ _ _ _ hs with ⟨h2, _⟩ | ⟨_, cx', cy', hx', hy', hdat⟩
    · omega
    · rw [hx] at hx'; rw [hy] at hy'; cases hx'; cases hy'
      rw [hdat] at hr
      have := (List.mem_filter.1 hr).2
      rw [Bool.and_eq_true, inside_iff, inside_iff] at this
      exact this
  constructor
  · rw [hh]; exact makeDataHist_total cfg b.bins b.data ho g1 g2
  · intro r hr
    rw [makeDataHist_total cfg b.bins [r] ho
      (fun hd c hc r' hr' => g1 hd c hc r' (by rw [List.mem_singleton.1 hr']; exact hr))
      (fun hd cx cy hx hy r' hr' => g2 hd cx cy hx hy r' (by rw [List.mem_singleton.1 hr']; exact hr))]
    simp

open Classical in
/-- **C34 (bins).** For ascending edges the entry of the data histogram in each bin is the number of kept events in that bin. -/
theorem C34_bin_contents (eq : Equi F) (cfg : Config F) (load : List String → Res (List (List (Option F)))) (b : Built F)
    (h : init eq cfg load = .ok b) (ha : Ascending b.bins) (i j : Nat) (hij : IsBin b.bins i j) :
    at? b.dataHist i j = some ((b.data.countP (fun r => decide (EventIn b.bins i j r)) : ℕ) : F) := by
  obtain ⟨specs, rows, _, hlen, hl, hs, hb⟩ := init_spec eq cfg load b h
  obtain ⟨hh, hdim⟩ := setBinning_hist eq _ cfg specs b.data b.bins b.dataHist hb
  rw [hh]
  exact makeDataHist_at b.bins b.data ha i j hij

/-- Non-vacuity of C34 (bins): two events in the first bin, one on the edge between the bins, one in the last bin. -/
example (eq : Equi ℚ) :
    ∃ b, init eq { binsType := "irreg", binsOn := .str "cs1", bins := .list [.edges [0, 2, 9]], clip := some (0, 10) }
        (fun _ => .ok [[some 1], [some 2], [some 5], [some 20], [none]]) = .ok b ∧ Ascending b.bins ∧ IsBin b.bins 0 1 ∧
      b.dataHist = [[2, 1]] := by
  refine ⟨⟨["cs1"], [[some 1], [some 2], [some 5]], .irreg1 [0, 2, 9], [[2, 1]]⟩, ?_, ?_, ?_, rfl⟩
  · have e1 : ([[some 1], [some 2], [some 5], [some 20], [none]] : List (List (Option ℚ))).filter
        (fun r => inside (0, 10) (entry r 0)) = [[some 1], [some 2], [some 5]] := by decide +kernel
    have e2 : makeDataHist (.irreg1 [0, 2, 9]) ([[some 1], [some 2], [some 5]] : List (List (Option ℚ))) = [[2, 1]] := by
      decide +kernel
    simp only [init, normalise, sanityCheck, select, need, setBinning, bind, Except.bind, pure, Except.pure,
      List.length_cons, List.length_nil]
    rw [e1]
    simp; exact e2
  · simp only [Ascending, List.pairwise_cons]
    norm_num
  · simp [IsBin]

variable [IsStrictOrderedRing F]

/-- **C34 (bins by number).** With numbers of bins the outer edges are the clip bounds. -/
theorem C34_meshgrid_int_1d (eq : Equi F) (cfg : Config F) (load : List String → Res (List (List (Option F))))
    (b : Built F) (h : init eq cfg load = .ok b) (s : String) (n : Nat) (hn : 1 ≤ n) (c : F × F)
    (ht : cfg.binsType = "meshgrid") (hon : cfg.binsOn = .str s) (hb : cfg.bins = .int n) (hc : cfg.clip = some c)
    (hcc : c.1 ≤ c.2) : OuterEdges cfg b.bins := by
  obtain ⟨specs, rows, hnorm, _, _, _, hset⟩ := init_spec eq cfg load b h
  rw [hon, hb] at hnorm
  simp only [normalise, Except.ok.injEq, Prod.mk.injEq] at hnorm
  obtain ⟨hl, rfl⟩ := hnorm
  rw [← hl] at hset
  simp only [setBinning, List.length_cons, List.length_nil, ht, hc, need, bind, Except.bind, resolveMesh, pure,
    Except.pure] at hset
  simp at hset
  rw [← hset.1]
  exact ⟨c, hc, linspace_spans c.1 c.2 n hn hcc⟩

theorem C34_meshgrid_int_2d (eq : Equi F) (cfg : Config F) (load : List String → Res (List (List (Option F))))
    (b : Built F) (h : init eq cfg load = .ok b) (l : List String) (n m : Nat) (hn : 1 ≤ n) (hm : 1 ≤ m)
    (cx cy : F × F) (ht : cfg.binsType = "meshgrid") (hon : cfg.binsOn = .list l)
    (hb : cfg.bins = .list [.int n, .int m]) (hx : cfg.xClip = some cx) (hy : cfg.yClip = some cy)
    (hcx : cx.1 ≤ cx.2) (hcy : cy.1 ≤ cy.2) : OuterEdges cfg b.bins := by
  obtain ⟨specs, rows, hnorm, hlen, _, _, hset⟩ := init_spec eq cfg load b h
  rw [hon, hb] at hnorm
  simp only [normalise, Except.ok.injEq, Prod.mk.injEq] at hnorm
  obtain ⟨_, rfl⟩ := hnorm
  rw [hlen] at hset
  simp only [setBinning, List.length_cons, List.length_nil, ht, hx, hy, need, bind, Except.bind, resolveMesh, pure,
    Except.pure] at hset
  simp at hset
  rw [← hset.1]
  exact ⟨cx, cy, hx, hy, linspace_spans cx.1 cx.2 n hn hcx, linspace_spans cy.1 cy.2 m hm hcy⟩

/-- **C34 (equiprobable bins).** Clipped equiprobable edges run from clip bound to clip bound. -/
theorem C34_equiprob_1d (eq : Equi F) (cfg : Config F) (load : List String → Res (List (List (Option F))))
    (b : Built F) (h : init eq cfg load = .ok b) (c : F × F) (h1 : b.binsOn.length = 1)
    (ht : cfg.binsType = "equiprob") (hc : cfg.clip = some c) (hcc : c.1 ≤ c.2)
    (hsorted : ∀ d n, (eq.inner1 d n).Pairwise (· ≤ ·)) : OuterEdges cfg b.bins := by
  obtain ⟨specs, rows, hnorm, hlen, _, _, hset⟩ := init_spec eq cfg load b h
  obtain ⟨sp, rfl⟩ : ∃ sp, specs = [sp] := List.length_eq_one_iff.1 (by omega)
  rw [h1] at hset
  cases sp with
  | int n =>
    simp only [setBinning, ht, hc, need, bind, Except.bind, pure, Except.pure] at hset
    simp at hset
    rw [← hset.1]
    exact ⟨c, hc, clipEdges_spans c _ hcc (hsorted _ _)⟩
  | edges e => simp [setBinning, ht] at hset
  | rows r => simp [setBinning, ht] at hset

theorem C34_equiprob_2d (eq : Equi F) (cfg : Config F) (load : List String → Res (List (List (Option F))))
    (b : Built F) (h : init eq cfg load = .ok b) (cx cy : F × F) (h1 : b.binsOn.length = 2)
    (ht : cfg.binsType = "equiprob") (hx : cfg.xClip = some cx) (hy : cfg.yClip = some cy) (hcx : cx.1 ≤ cx.2)
    (hcy : cy.1 ≤ cy.2)
    (hsorted : ∀ d n m, (eq.inner2 d n m).1.Pairwise (· ≤ ·) ∧ ∀ r ∈ (eq.inner2 d n m).2, r.Pairwise (· ≤ ·))
    (hcount : ∀ d n m, (eq.inner2 d n m).2.length = (eq.inner2 d n m).1.length + 1 ∧
      ∃ k, ∀ r ∈ (eq.inner2 d n m).2, r.length = k) : OuterEdges cfg b.bins := by
  obtain ⟨specs, rows, hnorm, hlen, _, _, hset⟩ := init_spec eq cfg load b h
  obtain ⟨sp, sq, rfl⟩ : ∃ sp sq, specs = [sp, sq] := List.length_eq_two.1 (by omega)
  rw [h1] at hset
  cases sp with
  | int n =>
    cases sq with
    | int m =>
      simp only [setBinning, ht, hx, hy, need, bind, Except.bind, pure, Except.pure] at hset
      simp at hset
      rw [← hset.1]
      obtain ⟨hc1, k, hk⟩ := hcount b.data n m
      refine ⟨cx, cy, hx, hy, clipEdges_spans cx _ hcx (hsorted _ _ _).1, ?_, ⟨k + 2, ?_⟩, ?_⟩
      · simp [clipEdges, hc1]
      · intro row hr
        obtain ⟨r, hr', rfl⟩ := List.mem_map.1 hr
        simp [clipEdges, hk r hr']
      · intro row hr
        obtain ⟨r, hr', rfl⟩ := List.mem_map.1 hr
        exact clipEdges_spans cy _ hcy ((hsorted _ _ _).2 r hr')
    | edges e => simp [setBinning, ht] at hset
    | rows r => simp [setBinning, ht] at hset
  | edges e => cases sq <;> simp [setBinning, ht] at hset
  | rows r => cases sq <;> simp [setBinning, ht] at hset

end

/-- Explicit edges narrower than the clip drop kept events silently: two kept, one counted. -/
theorem C34_narrow_edges_drop_events (eq : Equi ℚ) :
    ∃ b, init eq { binsType := "irreg", binsOn := .str "cs1", bins := .list [.edges [0, 2]], clip := some (0, 10) }
        (fun _ => .ok [[some 1], [some 5], [some 20], [none]]) = .ok b ∧
      b.data = [[some 1], [some 5]] ∧ b.dataHist = [[1]] := by
  refine ⟨⟨["cs1"], [[some 1], [some 5]], .irreg1 [0, 2], [[1]]⟩, ?_, rfl, rfl⟩
  have e1 : ([[some 1], [some 5], [some 20], [none]] : List (List (Option ℚ))).filter
      (fun r => inside (0, 10) (entry r 0)) = [[some 1], [some 5]] := by decide +kernel
  have e2 : makeDataHist (.irreg1 [0, 2]) ([[some 1], [some 5]] : List (List (Option ℚ))) = [[1]] := by
    decide +kernel
  simp only [init, normalise, sanityCheck, select, need, setBinning, bind, Except.bind, pure, Except.pure,
    List.length_cons, List.length_nil]
  rw [e1]
  simp; exact e2

section
variable {F : Type} [Field F] [LinearOrder F]

/-- **C34 (errors).** Configurations that do not describe a one- or two-dimensional binning raise. -/
theorem C34_errors (eq : Equi F) (cfg : Config F) (load : List String → Res (List (List (Option F)))) :
    (cfg.binsOn = .other → init eq cfg load = .error .valueError) ∧
    (∀ l n, cfg.binsOn = .list l → cfg.bins = .int n → init eq cfg load = .error .assertionError) ∧
    (∀ l b, cfg.binsOn = .list l → cfg.bins = .list b → l.length ≠ b.length →
      init eq cfg load = .error .runtimeError) ∧
    (∀ b, init eq cfg load = .ok b →
      cfg.binsType = "meshgrid" ∨ cfg.binsType = "equiprob" ∨ cfg.binsType = "irreg") ∧
    (∀ b, init eq cfg load = .ok b → b.binsOn.length = 1 ∨ b.binsOn.length = 2) := by
  refine ⟨?_, ?_, ?_, ?_, ?_⟩
  · intro h; simp [init, h, normalise, bind, Except.bind]
  · intro l n h1 h2; simp [init, h1, h2, normalise, bind, Except.bind]
  · intro l b h1 h2 h3
    simp [init, h1, h2, normalise, bind, Except.bind, sanityCheck, h3]
  · intro b h
    obtain ⟨specs, rows, _, _, _, _, hset⟩ := init_spec eq cfg load b h
    unfold setBinning at hset
    by_cases h1 : cfg.binsType = "meshgrid"
    · exact .inl h1
    by_cases h2 : cfg.binsType = "equiprob"
    · exact .inr (.inl h2)
    by_cases h3 : cfg.binsType = "irreg"
    · exact .inr (.inr h3)
    rw [if_neg h1, if_neg h2, if_neg h3] at hset
    split at hset <;> cases hset
  · intro b h
    obtain ⟨specs, rows, _, _, _, _, hset⟩ := init_spec eq cfg load b h
    unfold setBinning at hset
    by_contra hc
    rw [if_pos (by omega)] at hset
    cases hset

end

/-- **C34 (irregular bins).** Two-dimensional irregular bins are accepted exactly when there is one list of y edges for each x
bin and all these lists have the same length; otherwise ValueError. -/
theorem C34_irregular_2d {F : Type} [Field F] [LinearOrder F] (eq : Equi F) (cfg : Config F)
    (load : List String → Res (List (List (Option F)))) (a b : String) (x : List F) (y : List (List F)) (cx cy : F × F)
    (rows : List (List (Option F))) (ht : cfg.binsType = "irreg") (hon : cfg.binsOn = .list [a, b])
    (hb : cfg.bins = .list [.edges x, .rows y]) (hx : cfg.xClip = some cx) (hy : cfg.yClip = some cy)
    (hl : load [a, b] = .ok rows) :
    ((∃ r, init eq cfg load = .ok r ∧ r.bins = .irreg2 x y) ↔
      x.length = y.length + 1 ∧ ∀ r ∈ y, ∀ r' ∈ y, r.length = r'.length) ∧
    (¬ (x.length = y.length + 1 ∧ ∀ r ∈ y, ∀ r' ∈ y, r.length = r'.length) → init eq cfg load = .error .valueError) := by
  have hiff : (validateIrreg2 x y = .ok () ↔ x.length = y.length + 1 ∧ ∀ r ∈ y, ∀ r' ∈ y, r.length = r'.length) ∧
      (validateIrreg2 x y = .ok () ∨ validateIrreg2 x y = .error .valueError) := by
    unfold validateIrreg2
    by_cases h : x.length ≠ y.length + 1
    · rw [if_pos h]; simp [h]
    · rw [if_neg h]
      simp only [not_not] at h
      cases y with
      | nil => simp [h]
      | cons r y =>
        simp only
        by_cases hall : ((r :: y).all (fun b => b.length = r.length)) = true
        · rw [if_pos hall]
          simp only [List.all_eq_true, decide_eq_true_eq] at hall
          exact ⟨by simp only [true_iff]; exact ⟨h, fun p hp q hq => (hall p hp).trans (hall q hq).symm⟩, .inl rfl⟩
        · rw [if_neg hall]
          refine ⟨⟨fun e => (by cases e), fun e => absurd ?_ hall⟩, .inr rfl⟩
          simp only [List.all_eq_true, decide_eq_true_eq]
          exact fun p hp => e.2 p hp r (by simp)
  have hinit : init eq cfg load = (validateIrreg2 x y).map (fun _ =>
      { binsOn := [a, b]
        data := rows.filter (fun r => inside cx (entry r 0) && inside cy (entry r 1))
        bins := .irreg2 x y
        dataHist := makeDataHist (.irreg2 x y) (rows.filter (fun r => inside cx (entry r 0) && inside cy (entry r 1))) }) := by
    simp only [init, normalise, sanityCheck, select, need, setBinning, bind, Except.bind, pure, Except.pure, hon, hb, ht, hx, hy, hl,
      List.length_cons, List.length_nil]
    cases hv : validateIrreg2 x y <;> simp [Except.map, hv]
  rw [hinit]
  rcases hiff.2 with h | h
  · rw [h]
    refine ⟨⟨fun _ => hiff.1.1 h, fun _ => ⟨_, rfl, rfl⟩⟩, fun hn => absurd (hiff.1.1 h) hn⟩
  · rw [h]
    refine ⟨⟨fun ⟨r, hr, _⟩ => by simp [Except.map] at hr, fun hc => by rw [hiff.1.2 hc] at h; cases h⟩, fun _ => rfl⟩

/-- Non-vacuity of C34 (irregular bins): two x bins with two y bins each. -/
example : ([0, 1, 2] : List ℚ).length = ([[0, 1, 2], [0, 2, 4]] : List (List ℚ)).length + 1 ∧
    ∀ r ∈ ([[0, 1, 2], [0, 2, 4]] : List (List ℚ)), ∀ r' ∈ ([[0, 1, 2], [0, 2, 4]] : List (List ℚ)), r.length = r'.length := by
  decide

/-- Non-vacuity of C34: bins by number, a NaN and events on the clip bounds dropped. -/
example (eq : Equi ℚ) :
    ∃ b, init eq { binsType := "meshgrid", binsOn := .str "cs1", bins := .int 2, clip := some (0, 10) }
        (fun _ => .ok [[some 1], [some 0], [some 7], [some 10], [none]]) = .ok b ∧
      b.data = [[some 1], [some 7]] ∧ b.dataHist = [[1, 1]] := by
  refine ⟨⟨["cs1"], [[some 1], [some 7]], .mesh1 (Interp.linspace 0 10 (2 + 1)), [[1, 1]]⟩, ?_, rfl, rfl⟩
  have e1 : ([[some 1], [some 0], [some 7], [some 10], [none]] : List (List (Option ℚ))).filter
      (fun r => inside (0, 10) (entry r 0)) = [[some 1], [some 7]] := by decide +kernel
  have e2 : makeDataHist (.mesh1 (Interp.linspace 0 10 (2 + 1)))
      ([[some 1], [some 7]] : List (List (Option ℚ))) = [[1, 1]] := by
    decide +kernel
  simp only [init, normalise, sanityCheck, select, need, setBinning, bind, Except.bind, pure, Except.pure,
    List.length_cons, List.length_nil, resolveMesh]
  rw [e1]
  simp; exact e2

/-! ### C35: registration -/

section
variable {K V : Type}

/-- **C35 (guard).** A name already used raises ValueError and changes nothing, whatever the component. -/
theorem C35_duplicate_raises (al : PyDict String String) (s : State K V) (name : String) (build : Res (LComp K V))
    (h : name ∈ s.components.keys) : register al s name build = (s, .error .valueError) := by
  unfold register
  rw [if_pos ((PyDict.has_iff _ _).2 h)]

/-- **C35 (atomic).** A registration that raises, for whatever reason, changes nothing; one that returns leaves the earlier
components alone and puts the new one last. -/
theorem C35_atomic (al : PyDict String String) (s s' : State K V) (name : String) (build : Res (LComp K V))
    (r : Res Unit) (h : register al s name build = (s', r)) :
    (∀ e, r = .error e → s' = s) ∧
    (r = .ok () → ∃ c, build = .ok c ∧ s'.components = s.components ++ [(name, c)]) := by
  constructor
  · rintro e rfl; exact register_error h
  · rintro rfl
    obtain ⟨c, hc, _, rfl⟩ := register_ok h
    exact ⟨c, hc, rfl⟩

/-- **C35 (errors pass through).** A component that cannot be built raises its own error. -/
theorem C35_build_error (al : PyDict String String) (s : State K V) (name : String) (e : PyErr)
    (h : name ∉ s.components.keys) : register al s name (.error e) = (s, .error e) := by
  unfold register
  rw [if_neg (fun hk => h ((PyDict.has_iff _ _).1 hk))]

/-- A sequence of registrations, errors caught by the caller. -/
def registerAll (al : PyDict String String) (regs : List (String × Res (LComp K V))) : State K V :=
  regs.foldl (fun s r => (register al s r.1 r.2).1) {}

/-- **C35 (histories).** After any sequence of registrations each name holds the first component successfully built under it. -/
theorem C35_components_after (al : PyDict String String) (regs : List (String × Res (LComp K V))) (n : String)
    (c : LComp K V) : (registerAll al regs).components.get? n = some c ↔
      ∃ pre post, regs = pre ++ (n, .ok c) :: post ∧ ∀ r ∈ pre, r.1 = n → ∃ e, r.2 = .error e := by
  induction regs using List.reverseRecOn generalizing c with
  | nil => simp [registerAll]
  | append_singleton regs r ih =>
    have hstep : registerAll al (regs ++ [r]) = (register al (registerAll al regs) r.1 r.2).1 := by
      simp [registerAll]
    obtain ⟨m, b⟩ := r
    rw [hstep]
    have hsplit : (∃ pre post, regs ++ [(m, b)] = pre ++ (n, .ok c) :: post ∧
          ∀ r ∈ pre, r.1 = n → ∃ e, r.2 = .error e) ↔
        (∃ pre post, regs = pre ++ (n, .ok c) :: post ∧ ∀ r ∈ pre, r.1 = n → ∃ e, r.2 = .error e) ∨
        (m = n ∧ b = .ok c ∧ ∀ r ∈ regs, r.1 = n → ∃ e, r.2 = .error e) := by
      constructor
      · rintro ⟨pre, post, h1, h2⟩
        rcases List.eq_nil_or_concat post with rfl | ⟨post', x, rfl⟩
        · obtain ⟨h3, h4⟩ := List.append_inj' h1 rfl
          simp only [List.cons.injEq, Prod.mk.injEq, and_true] at h4
          exact .inr ⟨h4.1, h4.2, by rw [h3]; exact h2⟩
        · left
          have h1' : regs ++ [(m, b)] = (pre ++ (n, .ok c) :: post') ++ [x] := by rw [h1]; simp
          obtain ⟨h3, _⟩ := List.append_inj' h1' rfl
          exact ⟨pre, post', h3, h2⟩
      · rintro (⟨pre, post, rfl, h2⟩ | ⟨rfl, rfl, h2⟩)
        · exact ⟨pre, post ++ [(m, b)], by simp, h2⟩
        · exact ⟨regs, [], rfl, h2⟩
    rw [hsplit]
    have hnone : (registerAll al regs).components.get? n = none ↔ ∀ r ∈ regs, r.1 = n → ∃ e, r.2 = .error e := by
      constructor
      · intro hg
        by_contra hc
        push Not at hc
        -- take the first success
        have : ∃ pre post c', regs = pre ++ (n, .ok c') :: post ∧ ∀ r ∈ pre, r.1 = n → ∃ e, r.2 = .error e := by
          clear ih hstep hsplit hg
          induction regs with
          | nil => obtain ⟨r, hr, _⟩ := hc; cases hr
          | cons x xs ihx =>
            by_cases hx : x.1 = n ∧ ∃ c', x.2 = .ok c'
            · obtain ⟨hx1, c', hx2⟩ := hx
              refine ⟨[], xs, c', ?_, by simp⟩
              rw [← hx1, ← hx2]; rfl
            · have hc' : ∃ r ∈ xs, r.1 = n ∧ ∀ e, r.2 ≠ .error e := by
                obtain ⟨r, hr, h1, h2⟩ := hc
                rcases List.mem_cons.1 hr with rfl | hr
                · exfalso; apply hx; refine ⟨h1, ?_⟩
                  cases hr2 : r.2 with
                  | ok c' => exact ⟨c', rfl⟩
                  | error e => exact absurd hr2 (h2 e)
                · exact ⟨r, hr, h1, h2⟩
              obtain ⟨pre, post, c', h1, h2⟩ := ihx hc'
              refine ⟨x :: pre, post, c', by rw [h1]; rfl, ?_⟩
              intro r hr hrn
              rcases List.mem_cons.1 hr with rfl | hr
              · cases hr2 : r.2 with
                | ok c'' => exact absurd ⟨hrn, c'', hr2⟩ hx
                | error e => exact ⟨e, rfl⟩
              · exact h2 r hr hrn
        obtain ⟨pre, post, c', h1, h2⟩ := this
        have := (ih c').2 ⟨pre, post, h1, h2⟩
        rw [hg] at this; cases this
      · intro h
        cases hg : (registerAll al regs).components.get? n with
        | none => rfl
        | some c' =>
          obtain ⟨pre, post, h1, _⟩ := (ih c').1 hg
          obtain ⟨e, he⟩ := h (n, .ok c') (by rw [h1]; simp) rfl
          cases he
    rw [← ih c, ← hnone]
    generalize registerAll al regs = s
    unfold register
    by_cases hk : s.components.has m = true
    · rw [if_pos hk]
      simp only
      constructor
      · exact Or.inl
      · rintro (h | ⟨rfl, _, h⟩)
        · exact h
        · have := (PyDict.has_iff _ _).1 hk
          rw [PyDict.get?_eq_none_iff] at h; exact absurd this h
    · rw [if_neg hk]
      cases b with
      | error e => simp
      | ok c' =>
        have hkm : s.components.get? m = none := by
          rw [PyDict.get?_eq_none_iff]; exact fun h => hk ((PyDict.has_iff _ _).2 h)
        simp only [PyDict.get?_set]
        by_cases hmn : m = n
        · subst hmn
          rw [if_pos rfl, hkm]
          simp
        · rw [if_neg hmn]; simp [hmn]

/-- **C35 (needed parameters).** After any sequence of registrations the needed parameters are those of the registered
components, each under the name the caller has to give. -/
theorem C35_needed_parameters (al : PyDict String String) (hal : PlainAliases al)
    (regs : List (String × Res (LComp K V))) (x : String) :
    x ∈ (registerAll al regs).needed ↔
      ∃ n c p, (n, c) ∈ (registerAll al regs).components ∧ p ∈ c.needed ∧ x = callerName al p := by
  induction regs using List.reverseRecOn generalizing x with
  | nil => simp [registerAll]
  | append_singleton regs r ih =>
    have hstep : registerAll al (regs ++ [r]) = (register al (registerAll al regs) r.1 r.2).1 := by
      simp [registerAll]
    rw [hstep]
    cases hr : register al (registerAll al regs) r.1 r.2 with
    | mk s' res =>
    cases res with
    | error e => rw [register_error hr]; exact ih x
    | ok u =>
      obtain ⟨c, hc, hn, rfl⟩ := register_ok hr
      simp only
      rw [mem_foldl_aliasNeeded al hal]
      constructor
      · rintro ⟨p, hp, rfl⟩
        rcases List.mem_append.1 hp with hp | hp
        · obtain ⟨n, c', q, h1, h2, rfl⟩ := (ih p).1 hp
          exact ⟨n, c', q, List.mem_append_left _ h1, h2, callerName_idem al hal q⟩
        · exact ⟨r.1, c, p, by simp, (List.mem_filter.1 hp).1, rfl⟩
      · rintro ⟨n, c', p, h1, h2, rfl⟩
        rcases List.mem_append.1 h1 with h1 | h1
        · exact ⟨callerName al p, List.mem_append_left _ ((ih _).2 ⟨n, c', p, h1, h2, rfl⟩),
            (callerName_idem al hal p).symm⟩
        · simp only [List.mem_singleton, Prod.mk.injEq] at h1
          obtain ⟨_, rfl⟩ := h1
          refine ⟨p, ?_, rfl⟩
          by_cases hp : p ∈ (registerAll al regs).needed
          · exact List.mem_append_left _ hp
          · exact List.mem_append_right _ (List.mem_filter.2 ⟨h2, by simpa using hp⟩)

/-- **C35.** What a registered component contributes are the parameters it declares, whether it simulates or reads a fixed
histogram. -/
theorem C35_declared_parameters (n : String) (ps : List String) (x : String) (h w : K → Int → PyDict String V → Res (K × Grid V))
    (h' w' : PyDict String V → Res (Grid V)) :
    (x ∈ (registerAll [] [(n, .ok (.sim ps h w : LComp K V))]).needed ↔ x ∈ ps) ∧
    (x ∈ (registerAll [] [(n, .ok (.fixed ps h' w' : LComp K V))]).needed ↔ x ∈ ps) ∧
    (x ∈ (registerAll [] [(n, .ok (.other ps : LComp K V))]).needed ↔ x ∈ ps) := by
  refine ⟨?_, ?_, ?_⟩ <;>
    simp [registerAll, register, PyDict.has, PyDict.get?, LComp.needed]

/-- A parameter aliased to itself is lost from the needed parameters. -/
theorem C35_self_alias_loses_parameter :
    (registerAll [("w", "w")] [("er", .ok (.other ["w", "g1"] : LComp K V))]).needed = ["g1"] := by
  simp [registerAll, register, PyDict.has, PyDict.get?, aliasNeeded, LComp.needed]

/-- Non-vacuity of C35: two components sharing a parameter, an alias, a name used twice and a failed construction. -/
example : PlainAliases [("g1_a", "g1")] ∧
    (registerAll [("g1_a", "g1")] [("er", .ok (.other ["w", "g1"] : LComp K V)), ("er", .ok (.other ["z"])),
      ("nr", .error .keyError), ("nr", .ok (.other ["g1", "nr_rate"]))]).needed = ["w", "g1_a", "nr_rate"] := by
  refine ⟨⟨?_, ?_, ?_⟩, ?_⟩
  · simp [PyDict.keys]
  · simp [PyDict.keys]
  · simp
  · simp [registerAll, register, PyDict.has, PyDict.get?, PyDict.set, aliasNeeded, LComp.needed]

/-! ### C36: aliases -/

/-- **C36.** If the caller gives every needed parameter, then after alias replacement each component finds every parameter it
needs, with the value given under its alias.  Aliases are plain, and no component needs a parameter called like an alias. -/
theorem C36_aliases_supply_parameters (al : PyDict String String) (hal : PlainAliases al)
    (regs : List (String × Res (LComp K V))) (d : PyDict String V)
    (hgiven : ∀ x ∈ (registerAll al regs).needed, x ∈ d.keys)
    (n : String) (c : LComp K V) (p : String) (hc : (n, c) ∈ (registerAll al regs).components) (hp : p ∈ c.needed)
    (hname : p ∉ al.keys) :
    ∃ v, d.get? (callerName al p) = some v ∧ (replaceAlias al d).get? p = some v := by
  have h1 := hgiven _ ((C35_needed_parameters al hal regs (callerName al p)).2 ⟨n, c, p, hc, hp, rfl⟩)
  obtain ⟨v, hv⟩ := (PyDict.mem_keys_iff_exists _ _).1 h1
  refine ⟨v, hv, ?_⟩
  rw [replaceAlias_get al hal, if_neg hname, hv]

/-- **C36 (idempotent).** The decorator may be applied again without effect. -/
theorem C36_replacement_twice (al : PyDict String String) (hal : PlainAliases al) (d : PyDict String V) :
    replaceAlias al (replaceAlias al d) = replaceAlias al d := replaceAlias_idem al hal d

/-- **C36 (alias names).** No alias name reaches the components, and a target whose alias the caller does not give keeps the
caller's value. -/
theorem C36_alias_names_removed (al : PyDict String String) (hal : PlainAliases al) (d : PyDict String V) :
    (∀ k ∈ al.keys, k ∉ (replaceAlias al d).keys) ∧
    ∀ k v, (k, v) ∈ al → k ∉ d.keys → (replaceAlias al d).get? v = d.get? v := by
  constructor
  · intro k hk
    rw [PyDict.mem_keys_iff, replaceAlias_get al hal, if_pos hk]
    simp
  · intro k v hkv hk
    have hv : v ∉ al.keys := fun h => hal.disjoint v h (List.mem_map.2 ⟨_, hkv, rfl⟩)
    have hc : callerName al v = k := by
      unfold callerName
      cases hf : al.find? (fun kv => kv.2 = v) with
      | none =>
        rw [List.find?_eq_none] at hf
        exact absurd (by simp) (hf _ hkv)
      | some kv =>
        have h1 := List.mem_of_find?_eq_some hf
        have h2 : kv.2 = v := by simpa using List.find?_some hf
        have h3 : kv = (k, v) := List.inj_on_of_nodup_map hal.targets h1 hkv h2
        rw [h3]
    have hn : d.get? k = none := by
      rw [PyDict.mem_keys_iff] at hk
      simpa using hk
    rw [replaceAlias_get al hal, if_neg hv, hc, hn]

/-- Non-vacuity of C36 (alias names): one alias given, one not, whose target keeps the caller's value. -/
example : replaceAlias [("g1_a", "g1"), ("w_a", "w")] [("g1_a", 3), ("w", 4)] = [("w", 4), ("g1", 3)] := by decide

/-- **C36 (other parameters).** Parameters that are neither alias names nor targets keep their values. -/
theorem C36_other_parameters_kept (al : PyDict String String) (hal : PlainAliases al) (d : PyDict String V) (q : String)
    (h1 : q ∉ al.keys) (h2 : q ∉ al.map Prod.snd) : (replaceAlias al d).get? q = d.get? q := by
  rw [replaceAlias_get al hal, if_neg h1, callerName_of_not_target al q h2]
  cases d.get? q <;> rfl

end

/-- With chained aliases the second application moves values again: the first gives `y` the value of `x`, the second gives it
to `z`, and the value the caller gave for `z` is lost. -/
theorem C36_chained_aliases_go_wrong :
    replaceAlias [("y", "z"), ("x", "y")] [("x", 1), ("y", 2)] = [("z", 2), ("y", 1)] ∧
    replaceAlias [("y", "z"), ("x", "y")] (replaceAlias [("y", "z"), ("x", "y")] [("x", 1), ("y", 2)]) = [("z", 1)] := by
  decide

/-- A component that needs a parameter called like an alias does not find it, although the caller gave it. -/
theorem C36_alias_name_as_parameter_is_lost :
    ∃ s : State Unit Nat, s = registerAll [("a", "b")] [("er", .ok (.other ["a", "b"]))] ∧
      s.needed = ["a"] ∧ (replaceAlias [("a", "b")] [("a", 1)]).get? "a" = none := by
  refine ⟨_, rfl, ?_, by decide⟩
  simp [registerAll, register, PyDict.has, PyDict.get?, aliasNeeded, LComp.needed]

/-- Non-vacuity of C36. -/
example : replaceAlias [("g1_a", "g1"), ("w_a", "w")] [("g1_a", 3), ("w_a", 4), ("g1", 5), ("q", 6)]
    = [("g1", 3), ("q", 6), ("w", 4)] := by decide

/-! ### C37: the model histogram -/

section
variable {K V W : Type} [AddCommMonoid V]

/-- **C37 (sum).** The model histogram exists exactly when all components run one after the other, the key passing through the
simulated ones in registration order, and all histograms have the shape of the data; it is then their bin-wise sum. -/
theorem C37_model_hist (al : PyDict String String) (data : Grid W) (s : State K V) (key k' : K) (batch : Int)
    (p : PyDict String V) (h : Grid V) :
    simulateModelHist al data s key batch p = .ok (k', h) ↔
      ∃ hs, Runs batch (replaceAlias al p) s.components key hs k' ∧
        (∀ g ∈ hs, g.map List.length = data.map List.length) ∧ h.map List.length = data.map List.length ∧
        ∀ i j, (at? data i j).isSome → at? h i j = some (hs.map (fun g => (at? g i j).getD 0)).sum := by
  unfold simulateModelHist
  rw [modelLoop_iff]
  constructor
  · rintro ⟨hs, h1, h2, rfl⟩
    obtain ⟨a, _, b⟩ := sumFrom_spec hs (zeros data) h2
    rw [shape_zeros] at a
    refine ⟨hs, h1, by simpa [shape_zeros] using h2, a, ?_⟩
    intro i j hij
    rw [b i j 0 (at?_zeros data i j hij), zero_add]
  · rintro ⟨hs, h1, h2, h3, h4⟩
    have h2' : ∀ g ∈ hs, g.map List.length = (zeros data : Grid V).map List.length := by rwa [shape_zeros]
    obtain ⟨a, _, b⟩ := sumFrom_spec hs (zeros data) h2'
    rw [shape_zeros] at a
    refine ⟨hs, h1, h2', ?_⟩
    have hlen : h.length = (sumFrom (zeros data) hs).length := by
      have := congrArg List.length (h3.trans a.symm)
      simpa using this
    apply List.ext_getElem hlen
    intro i hi hi'
    have hl : (h[i]).length = ((sumFrom (zeros data) hs)[i]).length := by
      have := congrArg (fun l => l[i]?) (h3.trans a.symm)
      simpa [hi, hi'] using this
    apply List.ext_getElem hl
    intro j hj hj'
    have hs1 : (at? h i j).isSome := by simp [at?, hi, hj]
    have hd : (at? data i j).isSome := by
      rw [at?_isSome_iff, ← h3, ← at?_isSome_iff]; exact hs1
    have e1 := h4 i j hd
    have e2 := b i j 0 (at?_zeros data i j hd)
    rw [zero_add] at e2
    rw [← e1] at e2
    simp only [at?, List.getElem?_eq_getElem hi, List.getElem?_eq_getElem hi', Option.bind_some,
      List.getElem?_eq_getElem hj, List.getElem?_eq_getElem hj', Option.some.injEq] at e2
    exact e2.symm

/-- **C37 (total).** The total of the model histogram is the sum of the totals of the component histograms. -/
theorem C37_total (al : PyDict String String) (data : Grid W) (s : State K V) (key k' : K) (batch : Int)
    (p : PyDict String V) (h : Grid V) (hm : simulateModelHist al data s key batch p = .ok (k', h)) :
    ∃ hs, Runs batch (replaceAlias al p) s.components key hs k' ∧ gridSum h = (hs.map gridSum).sum := by
  unfold simulateModelHist at hm
  obtain ⟨hs, h1, h2, rfl⟩ := (modelLoop_iff _ _ _ _ _ _ _).1 hm
  obtain ⟨_, b, _⟩ := sumFrom_spec hs (zeros data) h2
  exact ⟨hs, h1, by rw [b, gridSum_zeros, zero_add]⟩

/-- **C37 (one run).** The histograms and the final key are determined: there is at most one way the components can run. -/
theorem C37_runs_unique (batch : Int) (p : PyDict String V) (cs : List (String × LComp K V)) (key : K)
    (hs hs' : List (Grid V)) (k k' : K) (h : Runs batch p cs key hs k) (h' : Runs batch p cs key hs' k') :
    hs = hs' ∧ k = k' := by
  induction h generalizing hs' with
  | nil k => cases h'; exact ⟨rfl, rfl⟩
  | sim e _ ih =>
    cases h' with
    | sim e' r' =>
      rw [e] at e'; cases e'
      obtain ⟨rfl, rfl⟩ := ih _ r'
      exact ⟨rfl, rfl⟩
  | fixed e _ ih =>
    cases h' with
    | fixed e' r' =>
      rw [e] at e'; cases e'
      obtain ⟨rfl, rfl⟩ := ih _ r'
      exact ⟨rfl, rfl⟩

/-- **C37 (other components).** A component that is neither simulated nor fixed makes the histogram raise TypeError once the
ones before it have run. -/
theorem C37_other_component_raises (al : PyDict String String) (data : Grid W) (pre post : PyDict String (LComp K V))
    (n : String) (nd needed : List String) (key k' : K) (batch : Int) (p : PyDict String V) (hs : List (Grid V))
    (h1 : Runs batch (replaceAlias al p) pre key hs k') (h2 : ∀ g ∈ hs, g.map List.length = data.map List.length) :
    simulateModelHist al data ⟨pre ++ (n, .other nd) :: post, needed⟩ key batch p = .error .typeError := by
  unfold simulateModelHist
  simp only
  have h2' : ∀ g ∈ hs, g.map List.length = (zeros data : Grid V).map List.length := by rwa [shape_zeros]
  generalize (zeros data : Grid V) = acc at h2'
  clear h2
  induction h1 generalizing acc with
  | nil k => rfl
  | sim e _ ih =>
    rename_i g _ _ _ _
    have hsh := (h2' g (by simp)).symm
    simp only [List.cons_append, modelLoop, bind, Except.bind, e, addGrid, if_pos hsh]
    refine ih _ ?_
    intro g' hg'
    rw [shape_add _ _ hsh]; exact h2' g' (by simp [hg'])
  | fixed e _ ih =>
    rename_i g _ _ _
    have hsh := (h2' g (by simp)).symm
    simp only [List.cons_append, modelLoop, bind, Except.bind, e, addGrid, if_pos hsh]
    refine ih _ ?_
    intro g' hg'
    rw [shape_add _ _ hsh]; exact h2' g' (by simp [hg'])

/-- **C37 (weighted data).** Weighted data exist exactly when there is a component, all run, and all give the same number of
columns; each column is then the concatenation over the components in registration order. -/
theorem C37_weighted_data {V : Type} (al : PyDict String String) (s : State K V) (key k' : K) (batch : Int)
    (p : PyDict String V) (out : Grid V) :
    simulateWeighted al s key batch p = .ok (k', out) ↔
      ∃ gs, RunsW batch (replaceAlias al p) s.components key gs k' ∧ gs ≠ [] ∧
        (∀ g ∈ gs, g.length = out.length) ∧
        ∀ r, r < out.length → out[r]? = some (gs.flatMap (fun g => (g[r]?).getD [])) := by
  unfold simulateWeighted
  simp only [bind, Except.bind]
  constructor
  · intro hh
    split at hh
    · cases hh
    rename_i r hr
    obtain ⟨gs, h1, h2⟩ := (weightedLoop_iff _ _ _ _ _ r.1 r.2).1 hr
    rw [List.nil_append] at h2
    split at hh
    · cases hh
    rename_i h hst
    cases hh
    rw [h2] at hst
    cases gs with
    | nil => cases hst
    | cons g gs =>
      simp only [hstack] at hst
      split at hst
      · rename_i hall
        cases hst
        have hall' : ∀ x ∈ gs, x.length = g.length := by simpa using hall
        obtain ⟨h3, h4⟩ := hstack_rows gs g hall'
        refine ⟨g :: gs, h1, by simp, ?_, ?_⟩
        · intro x hx
          rw [h3]
          rcases List.mem_cons.1 hx with rfl | hx
          · rfl
          · exact hall' x hx
        · intro r hr
          rw [h3] at hr
          rw [h4 r g[r] (List.getElem?_eq_getElem hr)]
          simp [hr]
      · cases hst
  · rintro ⟨gs, h1, h2, h3, h4⟩
    have hr : weightedLoop batch (replaceAlias al p) s.components key [] = .ok (k', gs) :=
      (weightedLoop_iff _ _ _ _ _ _ _).2 ⟨gs, h1, by simp⟩
    rw [hr]
    cases gs with
    | nil => exact absurd rfl h2
    | cons g gs =>
      have hg := h3 g (by simp)
      have hall' : ∀ x ∈ gs, x.length = g.length := by intro x hx; rw [hg]; exact h3 x (by simp [hx])
      have hall : gs.all (fun h => h.length = g.length) = true := by simpa using hall'
      simp only [hstack, hall, if_true, pure, Except.pure]
      obtain ⟨h5, h6⟩ := hstack_rows gs g hall'
      congr 2
      apply List.ext_getElem (by rw [h5, hg])
      intro r hr hr'
      have e1 := h4 r hr'
      have e2 := h6 r g[r] (List.getElem?_eq_getElem (by rw [hg]; exact hr'))
      rw [List.getElem?_eq_getElem hr] at e2
      rw [List.getElem?_eq_getElem hr'] at e1
      have hrg : r < g.length := by rw [hg]; exact hr'
      simp only [List.flatMap_cons, List.getElem?_eq_getElem hrg, Option.getD_some, Option.some.injEq] at e1
      rw [Option.some.injEq] at e2
      rw [e1, e2]

end

/-- A simulated component, which adds one to the key, and a fixed one. -/
def exTwo : PyDict String (LComp ℕ ℕ) :=
  [("er", .sim [] (fun k b _ => .ok (k + 1, [[k, b.toNat]])) (fun k b _ => .ok (k + 1, [[k], [b.toNat]]))),
    ("ac", .fixed [] (fun p => .ok [[1, (p.get? "ac_rate").getD 0]]) (fun _ => .ok [[8, 9], [1, 1]]))]

/-- Non-vacuity of C37: the model histogram of the two components, their weighted data, one of another shape than the data, and a
component of another class. -/
example : simulateModelHist [] [[0, 0]] ⟨exTwo, []⟩ 5 3 [("ac_rate", 4)] = .ok (6, [[6, 7]]) ∧
    simulateWeighted [] ⟨exTwo, []⟩ 5 3 [("ac_rate", 4)] = .ok (6, [[5, 8, 9], [3, 1, 1]]) ∧
    (∀ r, simulateModelHist [] [[0]] ⟨exTwo, []⟩ 5 3 [("ac_rate", 4)] ≠ .ok r) ∧
    simulateModelHist [] [[0, 0]] ⟨exTwo ++ [("x", .other [])], []⟩ 5 3 [("ac_rate", 4)] = .error .typeError := by
  refine ⟨rfl, rfl, ?_, rfl⟩
  intro r h
  cases h

section
variable {K F : Type} [Field F] [LinearOrder F] [IsStrictOrderedRing F]

/-- **C37 (rates).** When every component is simulated and normalised `on_pdf` with a non-empty histogram, the model histogram
sums to the sum of the component rates. -/
theorem C37_total_is_sum_of_rates {W : Type} (al : PyDict String String) (data : Grid W) (ds : List (String × SimDesc K F))
    (needed : List String) (key k' : K) (batch : Int) (p : PyDict String F) (h : Grid F)
    (hn : ∀ d ∈ ds, d.2.cfg.normType = "on_pdf")
    (hne : ∀ d ∈ ds, ∀ k r mc eff h0, d.2.run k batch (replaceAlias al p) = .ok r →
      Comp.splitEff 1 d.2.forceNoEff r.2 = .ok (mc, eff) → Comp.implementBinning d.2.cfg mc eff = .ok h0 →
      Comp.total h0 ≠ 0)
    (hm : simulateModelHist al data ⟨ds.map (fun d => (d.1, d.2.comp)), needed⟩ key batch p = .ok (k', h)) :
    gridSum h = (ds.map (fun d => ((replaceAlias al p).get? d.2.rateName).getD 0)).sum := by
  obtain ⟨hs, hr, htot⟩ := C37_total al data _ key k' batch p h hm
  rw [htot]
  clear hm htot h
  simp only at hr
  generalize replaceAlias al p = q at *
  induction ds generalizing key hs with
  | nil => cases hr; simp
  | cons d ds ih =>
    obtain ⟨n, d⟩ := d
    simp only [List.map_cons, SimDesc.comp] at hr
    cases hr with
    | sim e hr =>
      rename_i g k1 gs
      rw [List.map_cons, List.sum_cons, List.map_cons, List.sum_cons,
        ih k1 (fun d' hd' => hn d' (by simp [hd'])) gs (fun d' hd' => hne d' (by simp [hd'])) hr]
      congr 1
      simp only [bind, Except.bind] at e
      split at e
      · cases e
      rename_i r hrun
      unfold PyDict.getItem at e
      split at e
      · cases e
      rename_i rate hrate
      split at hrate
      · rename_i rate' hget
        cases hrate
        rw [hget, Option.getD_some]
        split at e
        · cases e
        rename_i hh hsim
        cases e
        have hsim' := hsim
        unfold Comp.simulateHist at hsim'
        simp only [bind, Except.bind] at hsim'
        split at hsim'
        · cases hsim'
        rename_i me hme
        split at hsim'
        · cases hsim'
        rename_i hdims
        split at hsim'
        · cases hsim'
        rename_i h0 hb
        obtain ⟨h2, e2, t2, _⟩ := Comp.C17_on_pdf_total_is_rate d.cfg d.forceNoEff r.2 me.1 h0 me.2 rate (batch : F)
          (hn (n, d) (by simp)) hme (not_not.1 hdims) hb (hne (n, d) (by simp) key r me.1 me.2 h0 hrun hme hb)
        rw [hsim] at e2
        cases e2
        exact t2
      · cases hrate

end
/-! ### C38: the binned log likelihood -/

theorem poisson_fin (ds ms : List ℝ) (h : ∀ m ∈ ms, 0 < m) :
    XF.sum (List.zipWith (fun d m => .fin d * XF.log m + -m) ds (ms.map XF.fin)) = .fin (poissonValue ds ms) := by
  have : List.zipWith (fun d m => XF.fin d * XF.log m + -m) ds (ms.map XF.fin) =
      (List.zipWith (fun d m => d * Real.log m - m) ds ms).map XF.fin := by
    induction ms generalizing ds with
    | nil => cases ds <;> rfl
    | cons m ms ih =>
      cases ds with
      | nil => rfl
      | cons d ds =>
        simp only [List.map_cons, List.zipWith_cons_cons]
        rw [ih ds (fun m' hm' => h m' (by simp [hm'])), XF.log_fin_pos (h m (by simp))]
        simp [sub_eq_add_neg]
  rw [this, XF.sum_map_fin]; rfl

/-- **C38 (value).** If every bin of the model is finite and positive the result is the Poisson log likelihood. -/
theorem C38_value (data : Grid ℝ) (h : Grid XF) (ms : List ℝ) (hm : h.flatten = ms.map XF.fin) (hp : ∀ m ∈ ms, 0 < m) :
    llhOf data h = .ok (.fin (poissonValue data.flatten ms)) := by
  have hv : poisson data h = .fin (poissonValue data.flatten ms) := by
    unfold poisson; rw [hm]; exact poisson_fin _ _ hp
  have h1 : anyNonPositive h = false := by
    simp only [anyNonPositive, hm, List.any_eq_false, List.mem_map, forall_exists_index, and_imp,
      decide_eq_true_eq]
    rintro x m hm' rfl
    simpa using hp m hm'
  have h2 : anyNotFinite h = false := by
    simp only [anyNotFinite, hm, List.any_eq_false, List.mem_map, forall_exists_index, and_imp,
      decide_eq_true_eq]
    rintro x m hm' rfl
    simp
  unfold llhOf
  rw [h1, h2, hv]
  simp

/-- **C38 (otherwise).** If some bin is NaN, infinite, zero or negative the result is minus infinity. -/
theorem C38_minus_infinity (data : Grid ℝ) (h : Grid XF) (x : XF) (hx : x ∈ h.flatten)
    (hbad : ¬ ∃ m : ℝ, 0 < m ∧ x = .fin m) : llhOf data h = .ok .ninf := by
  unfold llhOf
  by_cases h1 : anyNonPositive h = true
  · rw [if_pos h1]
  · rw [if_neg h1]
    have h2 : anyNotFinite h = true := by
      simp only [anyNotFinite, List.any_eq_true, decide_eq_true_eq]
      refine ⟨x, hx, ?_⟩
      intro hf
      obtain ⟨m, rfl⟩ := (XF.isFinite_iff x).1 hf
      apply h1
      simp only [anyNonPositive, List.any_eq_true, decide_eq_true_eq]
      refine ⟨_, hx, ?_⟩
      simp only [XF.fin_le_fin]
      by_contra hc
      exact hbad ⟨m, not_le.1 hc, rfl⟩
    rw [if_pos h2]

theorem all_positive_or (l : List XF) : (∃ ms : List ℝ, l = ms.map XF.fin ∧ ∀ m ∈ ms, 0 < m) ∨
    ∃ x ∈ l, ¬ ∃ m : ℝ, 0 < m ∧ x = .fin m := by
  by_cases h : ∃ x ∈ l, ¬ ∃ m : ℝ, 0 < m ∧ x = .fin m
  · exact .inr h
  · left
    push Not at h
    induction l with
    | nil => exact ⟨[], rfl, by simp⟩
    | cons x l ih =>
      obtain ⟨ms, rfl, h2⟩ := ih (fun y hy => h y (by simp [hy]))
      obtain ⟨m, hm, rfl⟩ := h x (by simp)
      refine ⟨m :: ms, rfl, ?_⟩
      intro m' hm'
      rcases List.mem_cons.1 hm' with rfl | hm'
      · exact hm
      · exact h2 m' hm'

/-- **C38 (never NaN).** For all histograms the result is a finite number or minus infinity, and ValueError is never raised. -/
theorem C38_never_nan (data : Grid ℝ) (h : Grid XF) : ∃ v, llhOf data h = .ok v ∧ (v.isFinite ∨ v = .ninf) := by
  rcases all_positive_or h.flatten with ⟨ms, h1, h2⟩ | ⟨x, hx, hbad⟩
  · exact ⟨_, C38_value data h ms h1 h2, .inl (by simp)⟩
  · exact ⟨_, C38_minus_infinity data h x hx hbad, .inr rfl⟩

/-- **C38 (of a likelihood).** The log likelihood exists exactly when the model histogram does, with the same key, and is
finite exactly when all its bins are finite and positive. -/
theorem C38_log_likelihood {K : Type} (al : PyDict String String) (hal : PlainAliases al) (data : Grid ℝ) (s : State K XF)
    (key k' : K) (batch : Int) (p : PyDict String XF) (v : XF) :
    getLogLikelihood al data s key batch p = .ok (k', v) ↔
      ∃ h, simulateModelHist al data s key batch p = .ok (k', h) ∧
        ((∃ ms : List ℝ, h.flatten = ms.map XF.fin ∧ (∀ m ∈ ms, 0 < m) ∧ v = .fin (poissonValue data.flatten ms)) ∨
         ((∃ x ∈ h.flatten, ¬ ∃ m : ℝ, 0 < m ∧ x = .fin m) ∧ v = .ninf)) := by
  have hsame : simulateModelHist al data s key batch (replaceAlias al p) = simulateModelHist al data s key batch p := by
    unfold simulateModelHist; rw [replaceAlias_idem al hal]
  unfold getLogLikelihood
  rw [hsame]
  cases hr : simulateModelHist al data s key batch p with
  | error e => simp [bind, Except.bind]
  | ok r =>
    obtain ⟨k1, h⟩ := r
    simp only [bind, Except.bind]
    rcases all_positive_or h.flatten with ⟨ms, h1, h2⟩ | ⟨x, hx, hbad⟩
    · rw [C38_value data h ms h1 h2]
      simp only [pure, Except.pure, Except.ok.injEq, Prod.mk.injEq]
      constructor
      · rintro ⟨rfl, rfl⟩
        exact ⟨h, ⟨rfl, rfl⟩, .inl ⟨ms, h1, h2, rfl⟩⟩
      · rintro ⟨h', ⟨rfl, rfl⟩, ⟨ms', e1, _, rfl⟩ | ⟨⟨x, hx, hb⟩, _⟩⟩
        · rw [h1] at e1
          have : ms = ms' := List.map_injective_iff.2 (fun a b hab => by simpa using hab) e1
          exact ⟨rfl, by rw [this]⟩
        · rw [h1] at hx
          obtain ⟨m, hm, rfl⟩ := List.mem_map.1 hx
          exact absurd ⟨m, h2 m hm, rfl⟩ hb
    · rw [C38_minus_infinity data h x hx hbad]
      simp only [pure, Except.pure, Except.ok.injEq, Prod.mk.injEq]
      constructor
      · rintro ⟨rfl, rfl⟩
        exact ⟨h, ⟨rfl, rfl⟩, .inr ⟨⟨x, hx, hbad⟩, rfl⟩⟩
      · rintro ⟨h', ⟨rfl, rfl⟩, ⟨ms', e1, h2, rfl⟩ | ⟨_, rfl⟩⟩
        · rw [e1] at hx
          obtain ⟨m, hm, rfl⟩ := List.mem_map.1 hx
          exact absurd ⟨m, h2 m hm, rfl⟩ hbad
        · exact ⟨rfl, rfl⟩

/-- **C38 (Poisson).** For counts the value is the logarithm of the Poisson probability up to a constant of the data. -/
theorem C38_is_poisson (ns : List ℕ) (ms : List ℝ) (hl : ns.length = ms.length) (hp : ∀ m ∈ ms, 0 < m) :
    poissonValue (ns.map (fun n : ℕ => (n : ℝ))) ms =
      Real.log (poissonProb ns ms) + (ns.map (fun n : ℕ => Real.log (n.factorial : ℝ))).sum := by
  induction ns generalizing ms with
  | nil => simp [poissonValue, poissonProb]
  | cons n ns ih =>
    cases ms with
    | nil => simp at hl
    | cons m ms =>
      have hm := hp m (by simp)
      have ih' := ih ms (by simpa using hl) (fun m' hm' => hp m' (by simp [hm']))
      have hpos : ∀ (ns : List ℕ) (ms : List ℝ), (∀ m ∈ ms, 0 < m) → 0 < poissonProb ns ms := by
        intro ns
        induction ns with
        | nil => intro ms _; simp [poissonProb]
        | cons n ns ih =>
          intro ms hms
          cases ms with
          | nil => simp [poissonProb]
          | cons m ms =>
            have := ih ms (fun m' hm' => hms m' (by simp [hm']))
            have h1 := hms m (by simp)
            have h2 : (0 : ℝ) < n.factorial := Nat.cast_pos.2 (Nat.factorial_pos n)
            simp only [poissonProb, List.zipWith_cons_cons, List.prod_cons] at this ⊢
            positivity
      have h1 := hpos ns ms (fun m' hm' => hp m' (by simp [hm']))
      have h2 : (0 : ℝ) < n.factorial := Nat.cast_pos.2 (Nat.factorial_pos n)
      unfold poissonValue poissonProb at *
      simp only [List.map_cons, List.zipWith_cons_cons, List.sum_cons, List.prod_cons]
      rw [ih', Real.log_mul (by positivity) (ne_of_gt h1), Real.log_div (by positivity) (ne_of_gt h2),
        Real.log_mul (by positivity) (by positivity), Real.log_exp, Real.log_pow]
      ring

theorem poisson_term_le (d m : ℝ) (hd : 0 ≤ d) (hm : 0 < m) :
    d * Real.log m - m ≤ d * Real.log d - d ∧ (d * Real.log m - m = d * Real.log d - d ↔ m = d) := by
  rcases eq_or_lt_of_le hd with rfl | hd
  · simp only [zero_mul, zero_sub, sub_zero]
    exact ⟨by linarith, ⟨fun h => by linarith, fun h => by linarith⟩⟩
  · have hq : 0 < m / d := div_pos hm hd
    have hlog : Real.log (m / d) = Real.log m - Real.log d := Real.log_div (ne_of_gt hm) (ne_of_gt hd)
    have hdiv : d * (m / d - 1) = m - d := by field_simp
    have h1 := Real.log_le_sub_one_of_pos hq
    constructor
    · have := mul_le_mul_of_nonneg_left h1 (le_of_lt hd)
      rw [hdiv, hlog] at this; linarith
    · constructor
      · intro he
        by_contra hne
        have h2 := Real.log_lt_sub_one_of_pos hq (by
          intro h; apply hne; field_simp at h; exact h)
        have := mul_lt_mul_of_pos_left h2 hd
        rw [hdiv, hlog] at this; linarith
      · rintro rfl; rfl

/-- **C38 (maximum).** Among all models the value is largest exactly where the model equals the data. -/
theorem C38_maximal_at_data (ds ms : List ℝ) (hl : ds.length = ms.length) (hd : ∀ d ∈ ds, 0 ≤ d) (hm : ∀ m ∈ ms, 0 < m) :
    poissonValue ds ms ≤ poissonValue ds ds ∧ (poissonValue ds ms = poissonValue ds ds ↔ ms = ds) := by
  induction ds generalizing ms with
  | nil =>
    have : ms = [] := List.eq_nil_of_length_eq_zero (by simpa using hl.symm)
    subst this; simp
  | cons d ds ih =>
    cases ms with
    | nil => simp at hl
    | cons m ms =>
      obtain ⟨h1, h2⟩ := poisson_term_le d m (hd d (by simp)) (hm m (by simp))
      obtain ⟨h3, h4⟩ := ih ms (by simpa using hl) (fun x hx => hd x (by simp [hx])) (fun x hx => hm x (by simp [hx]))
      unfold poissonValue at *
      simp only [List.zipWith_cons_cons, List.sum_cons, List.cons.injEq]
      refine ⟨by linarith, ?_⟩
      rw [← h2, ← h4]
      constructor
      · intro he; exact ⟨by linarith, by linarith⟩
      · rintro ⟨e1, e2⟩; linarith

theorem poissonValue_scale (ds ss : List ℝ) (hl : ds.length = ss.length) (hs : ∀ x ∈ ss, 0 < x) (t : ℝ) (ht : 0 < t) :
    poissonValue ds (ss.map (t * ·)) =
      ds.sum * Real.log t - t * ss.sum + (List.zipWith (fun d x => d * Real.log x) ds ss).sum := by
  induction ds generalizing ss with
  | nil =>
    have : ss = [] := List.eq_nil_of_length_eq_zero (by simpa using hl.symm)
    subst this; simp [poissonValue]
  | cons d ds ih =>
    cases ss with
    | nil => simp at hl
    | cons x ss =>
      have h1 := ih ss (by simpa using hl) (fun y hy => hs y (by simp [hy]))
      unfold poissonValue at *
      simp only [List.map_cons, List.zipWith_cons_cons, List.sum_cons]
      rw [h1, Real.log_mul (ne_of_gt ht) (ne_of_gt (hs x (by simp)))]
      ring

/-- **C38 (fixed shape).** Scaling a model of fixed shape, the value is largest exactly where the model total is the data total. -/
theorem C38_fixed_shape_maximal_at_total (ds ss : List ℝ) (hl : ds.length = ss.length) (hs : ∀ x ∈ ss, 0 < x)
    (hD : 0 < ds.sum) (t t0 : ℝ) (ht : 0 < t) (ht0 : (ss.map (t0 * ·)).sum = ds.sum) :
    poissonValue ds (ss.map (t * ·)) ≤ poissonValue ds (ss.map (t0 * ·)) ∧
    (poissonValue ds (ss.map (t * ·)) = poissonValue ds (ss.map (t0 * ·)) ↔ (ss.map (t * ·)).sum = ds.sum) := by
  have hsum : ∀ u : ℝ, (ss.map (u * ·)).sum = u * ss.sum := by intro u; rw [List.sum_map_mul_left, List.map_id']
  have hne : ss ≠ [] := by
    rintro rfl
    have : ds = [] := List.eq_nil_of_length_eq_zero (by simpa using hl)
    rw [this] at hD; simp at hD
  have hS : 0 < ss.sum := List.sum_pos ss hs hne
  rw [hsum] at ht0
  have ht0p : 0 < t0 := by
    by_contra h
    have : t0 * ss.sum ≤ 0 := mul_nonpos_of_nonpos_of_nonneg (not_lt.1 h) (le_of_lt hS)
    linarith
  rw [poissonValue_scale ds ss hl hs t ht, poissonValue_scale ds ss hl hs t0 ht0p, hsum]
  obtain ⟨h1, h2⟩ := poisson_term_le ds.sum (t * ss.sum) (le_of_lt hD) (mul_pos ht hS)
  rw [Real.log_mul (ne_of_gt ht) (ne_of_gt hS)] at h1 h2
  have hlog : Real.log ds.sum = Real.log t0 + Real.log ss.sum := by
    rw [← ht0, Real.log_mul (ne_of_gt ht0p) (ne_of_gt hS)]
  rw [hlog] at h1 h2
  rw [ht0]
  constructor
  · linarith
  · rw [← h2]
    constructor
    · intro h; linarith
    · intro h; linarith

/-- Non-vacuity of C38: a NaN bin, a zero bin, and a good histogram. -/
example : llhOf [[1, 2]] [[.nan, .fin 1]] = .ok .ninf ∧ llhOf [[1, 2]] [[.fin 0, .fin 1]] = .ok .ninf ∧
    llhOf [[1, 2]] [[.fin 1, .fin 1]] = .ok (.fin (-2)) := by
  refine ⟨C38_minus_infinity _ _ .nan (by simp) (by simp), C38_minus_infinity _ _ (.fin 0) (by simp) (by simp), ?_⟩
  rw [C38_value [[1, 2]] [[.fin 1, .fin 1]] [1, 1] rfl (by simp)]
  simp [poissonValue]; norm_num

/-- Non-vacuity of C38 (Poisson, maximum, fixed shape): counts one and two, and a model twice too high. -/
example : poissonValue [1, 2] [2, 4] = Real.log (poissonProb [1, 2] [2, 4]) + (Real.log 1 + Real.log 2) ∧
    poissonValue [1, 2] [2, 4] < poissonValue [1, 2] [1, 2] := by
  constructor
  · have := C38_is_poisson [1, 2] [2, 4] rfl (by norm_num)
    simpa [Nat.factorial] using this
  · have h := C38_fixed_shape_maximal_at_total [1, 2] [1, 2] rfl (by norm_num) (by norm_num) 2 1 (by norm_num) (by norm_num)
    have e : ([1, 2] : List ℝ).map ((2 : ℝ) * ·) = [2, 4] := by norm_num
    have e' : ([1, 2] : List ℝ).map ((1 : ℝ) * ·) = [1, 2] := by norm_num
    rw [e, e'] at h
    refine lt_of_le_of_ne h.1 fun he => ?_
    have := h.2.1 he
    norm_num at this

/-! ### C39: literature likelihoods -/

section
variable {K : Type}

/-- **C39 (one component).** The first registration is accepted, any later one raises and changes nothing. -/
theorem C39_one_component (s s' : LitState K) (name : String)
    (build : Res (K → Int → PyDict String XF → Res (K × Grid XF))) (r : Res Unit)
    (h : litRegister s name build = (s', r)) :
    (s.components ≠ [] → s' = s ∧ r = .error .assertionError) ∧
    (s.components = [] → (∀ e, build = .error e → s' = s ∧ r = .error e) ∧
      ∀ c, build = .ok c → s'.components = [(name, c)] ∧ s'.only = some name ∧ r = .ok ()) := by
  constructor
  · intro hne
    unfold litRegister at h
    rw [if_pos (by simpa using hne)] at h
    cases h; exact ⟨rfl, rfl⟩
  · intro he
    unfold litRegister at h
    rw [if_neg (by simp [he])] at h
    constructor
    · rintro e rfl; cases h; exact ⟨rfl, rfl⟩
    · rintro c rfl; cases h
      simp [he, PyDict.set, PyDict.keys]

/-- **C39 (density).** At finite points the logarithm of the two-half-normal density is used. -/
theorem C39_two_half_logpdf (x mu sp sn : ℝ) (hsp : 0 < sp) (hsn : 0 < sn) :
    twoHalfLogpdf (.fin x) (.fin mu) (.fin sp) (.fin sn) = .fin (Real.log (twoHalfDensity mu sp sn x)) := by
  have h2pi : (0 : ℝ) < √(2 * Real.pi) := Real.sqrt_pos.2 (by positivity)
  have hnorm : XF.fin 2 / (.fin sp + .fin sn) / .fin (√(2 * Real.pi)) = .fin (2 / (sp + sn) / √(2 * Real.pi)) := by
    rw [XF.fin_add_fin, XF.fin_div_fin_of_ne _ (by positivity), XF.fin_div_fin_of_ne _ (ne_of_gt h2pi)]
  have hl : XF.log (.fin (2 / (sp + sn) / √(2 * Real.pi))) = .fin (Real.log (2 / (sp + sn) / √(2 * Real.pi))) :=
    XF.log_fin_pos (by positivity)
  have hp2 : sp * sp ≠ 0 := by positivity
  have hn2 : sn * sn ≠ 0 := by positivity
  have hp0 : sp ≠ 0 := ne_of_gt hsp
  have hn0 : sn ≠ 0 := ne_of_gt hsn
  have hc : (0 : ℝ) < 2 / ((sp + sn) * √(2 * Real.pi)) := by positivity
  have hcc : 2 / (sp + sn) / √(2 * Real.pi) = 2 / ((sp + sn) * √(2 * Real.pi)) := by rw [div_div]
  unfold twoHalfLogpdf twoHalfDensity
  simp only [hnorm, hl]
  simp only [XF.neg_fin, XF.fin_add_fin, XF.fin_mul_fin, XF.fin_div_fin_of_ne _ hp2,
    XF.fin_div_fin_of_ne _ hn2, XF.fin_div_fin_of_ne _ (two_ne_zero), XF.fin_lt_fin]
  rw [Real.log_mul (ne_of_gt hc) (Real.exp_ne_zero _), Real.log_exp, hcc]
  by_cases h : x < mu
  · simp only [h, if_true, XF.fin_add_fin, XF.fin.injEq]
    field_simp; ring
  · simp only [h, if_false, XF.fin_add_fin, XF.fin.injEq]
    field_simp; ring

/-- **C39 (normal density).** At finite points the normal shape uses the logarithm of the normal density; a scale that is not
positive gives NaN. -/
theorem C39_norm_logpdf (x loc scale : ℝ) :
    (0 < scale → normLogpdf (.fin x) loc scale =
      .fin (Real.log (1 / (scale * √(2 * Real.pi)) * Real.exp (-(x - loc) ^ 2 / (2 * scale ^ 2))))) ∧
    (scale ≤ 0 → normLogpdf (.fin x) loc scale = .nan) := by
  refine ⟨fun h => ?_, fun h => by unfold normLogpdf; rw [if_neg (not_lt.2 h)]⟩
  have h2pi : (0 : ℝ) < √(2 * Real.pi) := Real.sqrt_pos.2 (by positivity)
  have hne : scale ≠ 0 := ne_of_gt h
  unfold normLogpdf
  rw [if_pos h]
  simp only [XF.neg_fin, XF.fin_add_fin, XF.fin_mul_fin, XF.fin_div_fin_of_ne _ hne, XF.fin_div_fin_of_ne _ (two_ne_zero),
    XF.fin.injEq]
  rw [Real.log_mul (by positivity) (Real.exp_ne_zero _), Real.log_exp, one_div, Real.log_inv, Real.log_mul hne (ne_of_gt h2pi)]
  field_simp
  ring

theorem twoHalf_not_pinf (x : XF) (mu sp sn : ℝ) (hsp : 0 < sp) (hsn : 0 < sn) :
    twoHalfLogpdf x (.fin mu) (.fin sp) (.fin sn) ≠ .pinf := by
  have h2pi : (0 : ℝ) < √(2 * Real.pi) := Real.sqrt_pos.2 (by positivity)
  have hnorm : XF.fin 2 / (.fin sp + .fin sn) / .fin (√(2 * Real.pi)) = .fin (2 / (sp + sn) / √(2 * Real.pi)) := by
    rw [XF.fin_add_fin, XF.fin_div_fin_of_ne _ (by positivity), XF.fin_div_fin_of_ne _ (ne_of_gt h2pi)]
  have hl : XF.log (.fin (2 / (sp + sn) / √(2 * Real.pi))) = .fin (Real.log (2 / (sp + sn) / √(2 * Real.pi))) :=
    XF.log_fin_pos (by positivity)
  have hp2 : sp * sp ≠ 0 := by positivity
  have hn2 : sn * sn ≠ 0 := by positivity
  have ip : XF.infSign (-(sp * sp)) = .ninf := by
    have : (0 : ℝ) < sp * sp := by positivity
    unfold XF.infSign; rw [if_neg (by linarith), if_pos (by linarith)]
  have im : XF.infSign (-(sn * sn)) = .ninf := by
    have : (0 : ℝ) < sn * sn := by positivity
    unfold XF.infSign; rw [if_neg (by linarith), if_pos (by linarith)]
  have i2 : XF.infSign (-2) = .ninf := by
    unfold XF.infSign; rw [if_neg (by norm_num), if_pos (by norm_num)]
  have m1 : XF.pinf * XF.pinf = XF.pinf := rfl
  have m2 : XF.ninf * XF.ninf = XF.pinf := rfl
  have tp : XF.ninf / XF.fin (sp * sp) / XF.fin 2 = .ninf := by
    rw [XF.ninf_div_fin, if_neg hp2, ip, XF.ninf_div_fin, if_neg two_ne_zero, i2]
  have tn : XF.ninf / XF.fin (sn * sn) / XF.fin 2 = .ninf := by
    rw [XF.ninf_div_fin, if_neg hn2, im, XF.ninf_div_fin, if_neg two_ne_zero, i2]
  cases x with
  | nan => unfold twoHalfLogpdf; simp
  | fin x => rw [C39_two_half_logpdf x mu sp sn hsp hsn]; simp
  | pinf =>
    unfold twoHalfLogpdf
    simp only [hnorm, hl, XF.neg_fin, XF.pinf_add_fin, m1, XF.neg_pinf, XF.fin_mul_fin, tp, tn, ite_self,
      XF.ninf_add_fin]
    simp
  | ninf =>
    unfold twoHalfLogpdf
    simp only [hnorm, hl, XF.neg_fin, XF.ninf_add_fin, m2, XF.neg_pinf, XF.fin_mul_fin, tp, tn, ite_self]
    simp

theorem norm_not_pinf (x : XF) (loc scale : ℝ) : normLogpdf x loc scale ≠ .pinf := by
  unfold normLogpdf
  by_cases h : 0 < scale
  · rw [if_pos h]
    have hne : scale ≠ 0 := ne_of_gt h
    have is : XF.infSign scale = .pinf := by unfold XF.infSign; rw [if_pos h]
    have ins : XF.infSign (-scale) = .ninf := by
      unfold XF.infSign; rw [if_neg (by linarith), if_pos (by linarith)]
    have i2 : XF.infSign (-2) = .ninf := by
      unfold XF.infSign; rw [if_neg (by norm_num), if_pos (by norm_num)]
    have m1 : XF.pinf * XF.pinf = XF.pinf := rfl
    have m2 : XF.ninf * XF.ninf = XF.pinf := rfl
    cases x with
    | nan => simp
    | fin x => simp [hne]
    | pinf => simp [hne, is, m1, i2]
    | ninf => simp [hne, ins, m2, i2]
  · rw [if_neg h]; simp

theorem interp1d_cases (xs ys : List ℝ) (x : XF) :
    interp1d xs ys x = .nan ∨ ∃ v, interp1d xs ys x = .fin v := by
  unfold interp1d
  cases x with
  | fin r =>
    simp only
    split
    · split
      · exact .inr ⟨_, rfl⟩
      · exact .inl rfl
    · exact .inl rfl
  | _ => exact .inl rfl

theorem interp1d_outside (xs ys : List ℝ) (x : XF) (h : OutsideBand xs x) : interp1d xs ys x = .nan := by
  unfold interp1d
  cases x with
  | fin r =>
    simp only
    split
    · rename_i a b ha hb
      rw [if_neg]
      rintro ⟨h1, h2⟩
      rcases h a b r ha hb rfl with h | h <;> linarith
    · rfl
  | _ => rfl

theorem band_not_pinf (xs ys up lo : List ℝ) (x y : XF) (hs : bandAssert xs up lo [x] = true) :
    bandLogpdf xs ys up lo x y ≠ .pinf := by
  simp only [bandAssert, List.all_cons, List.all_nil, Bool.and_true, Bool.and_eq_true, decide_eq_true_eq] at hs
  unfold bandLogpdf
  simp only
  rcases interp1d_cases xs ys x with h1 | ⟨mu, h1⟩
  · rw [h1]; simp
  · have hsp : ∃ a : ℝ, 0 < a ∧ (if (interp1d xs up x).isNaN then XF.fin 1 else interp1d xs up x) = .fin a := by
      rcases interp1d_cases xs up x with h2 | ⟨a, h2⟩
      · exact ⟨1, one_pos, by rw [h2]; simp⟩
      · rw [h2] at hs ⊢; simp at hs ⊢; exact hs.1
    have hsn : ∃ a : ℝ, 0 < a ∧ (if (interp1d xs lo x).isNaN then XF.fin 1 else interp1d xs lo x) = .fin a := by
      rcases interp1d_cases xs lo x with h2 | ⟨a, h2⟩
      · exact ⟨1, one_pos, by rw [h2]; simp⟩
      · rw [h2] at hs ⊢; simp at hs ⊢; exact hs.2
    obtain ⟨sp, hsp, e1⟩ := hsp
    obtain ⟨sn, hsn, e2⟩ := hsn
    rw [e1, e2, h1]
    simp only [XF.not_isNaN_fin, if_false]
    exact twoHalf_not_pinf y mu sp sn hsp hsn

theorem mem_zipWith {α β γ : Type} (f : α → β → γ) (a : List α) (b : List β) (z : γ) (h : z ∈ List.zipWith f a b) :
    ∃ x ∈ a, ∃ y ∈ b, z = f x y := by
  induction a generalizing b with
  | nil => simp at h
  | cons x a ih =>
    cases b with
    | nil => simp at h
    | cons y b =>
      rcases List.mem_cons.1 (by simpa using h) with rfl | h
      · exact ⟨x, by simp, y, by simp, rfl⟩
      · obtain ⟨x', hx', y', hy', e⟩ := ih b h
        exact ⟨x', by simp [hx'], y', by simp [hy'], e⟩

/-! Arrays combined by numpy. -/

theorem common_same {lens : List Nat} {n : Nat} (h : ∀ k ∈ lens, k = n) (hne : lens ≠ []) : common lens = .ok n := by
  have key : ∀ r : List Nat, lens.filter (· ≠ 1) = r → r.headD 1 = n → common lens = .ok n := by
    intro r hr hn
    unfold common
    simp only [hr, hn]
    rw [if_pos]
    rw [List.all_eq_true]
    intro k hk
    have : k ∈ lens.filter (· ≠ 1) := by rw [hr]; exact hk
    simp [h k (List.mem_filter.1 this).1]
  by_cases h1 : n = 1
  · refine key [] ?_ h1.symm
    rw [List.filter_eq_nil_iff]
    intro k hk
    simp [h k hk, h1]
  · refine key lens ?_ ?_
    · rw [List.filter_eq_self]
      intro k hk
      simp [h k hk, h1]
    · cases lens with
      | nil => exact absurd rfl hne
      | cons a l => exact h a (by simp)

theorem common_pos {lens : List Nat} {n : Nat} (h : common lens = .ok n) (hp : ∀ k ∈ lens, 0 < k) : 0 < n := by
  unfold common at h
  simp only at h
  split at h
  · cases h
    cases hr : lens.filter (· ≠ 1) with
    | nil => simp
    | cons a r =>
      have : a ∈ lens.filter (· ≠ 1) := by rw [hr]; simp
      simpa using hp a (List.mem_filter.1 this).1
  · cases h

theorem spread_same {α : Type} {l : List α} {n : Nat} (h : l.length = n) : spread n l = l := by
  unfold spread
  split
  · subst h; rfl
  · rfl

theorem mem_spread {α : Type} {l : List α} {n : Nat} {a : α} (h : a ∈ spread n l) : a ∈ l := by
  unfold spread at h
  split at h
  · rw [List.mem_singleton]
    exact List.eq_of_mem_replicate h
  · exact h

theorem spread_getElem? {α : Type} {l : List α} {n i : Nat} {a : α} (h : l[i]? = some a) (hn : 0 < n) :
    (spread n l)[i]? = some a := by
  unfold spread
  split
  · rename_i b
    cases i with
    | zero =>
      simp only [List.getElem?_cons_zero, Option.some.injEq] at h
      subst h
      simp [hn]
    | succ i => simp at h
  · exact h

theorem map_ok {α β : Type} {r : Res α} {f : α → β} {b : β} (h : r.map f = .ok b) : ∃ a, r = .ok a ∧ b = f a := by
  cases r with
  | error e => cases h
  | ok a => cases h; exact ⟨a, rfl, rfl⟩

theorem logpdf_not_pinf (shape : Shape) (e y l : List XF) (h : logpdf shape e y = .ok l) : ∀ v ∈ l, v ≠ .pinf := by
  intro v hv
  cases shape with
  | twohalfnorm mu sp sn =>
    simp only [logpdf] at h
    split at h
    · rename_i hpos
      obtain ⟨n, -, rfl⟩ := map_ok h
      obtain ⟨x, _, a, ha, rfl⟩ := mem_zipWith _ _ _ _ hv
      have h1 := (List.of_mem_zip ha).2
      have h2 := List.of_mem_zip h1
      exact twoHalf_not_pinf _ _ _ _ (hpos.1 _ (mem_spread h2.1)) (hpos.2 _ (mem_spread h2.2))
    · cases h
  | norm loc scale =>
    simp only [logpdf] at h
    obtain ⟨n, -, rfl⟩ := map_ok h
    obtain ⟨x, _, a, _, rfl⟩ := mem_zipWith _ _ _ _ hv
    exact norm_not_pinf _ _ _
  | band xs ys up lo =>
    simp only [logpdf] at h
    split at h
    · rename_i hb
      obtain ⟨n, -, rfl⟩ := map_ok h
      obtain ⟨x, hx, y', _, rfl⟩ := mem_zipWith _ _ _ _ hv
      replace hx := mem_spread hx
      apply band_not_pinf
      unfold bandAssert at hb ⊢
      rw [List.all_eq_true] at hb
      simp only [List.all_cons, List.all_nil, Bool.and_true]
      exact hb x hx
    · cases h

theorem mul_goodEff (l e : XF) (hl : l ≠ .pinf) (he : GoodEff e) : l * e ≠ .pinf := by
  rcases he with rfl | ⟨a, ha, rfl⟩
  · simp
  · cases l with
    | nan => simp
    | fin x => simp
    | pinf => exact absurd rfl hl
    | ninf =>
      rw [XF.ninf_mul_fin]
      unfold XF.infSign
      rw [if_neg (by linarith)]
      split <;> simp

theorem sum_not_pinf (l : List XF) (h : ∀ v ∈ l, v ≠ .pinf) : XF.sum l ≠ .pinf := by
  induction l with
  | nil => simp
  | cons v l ih =>
    rw [XF.sum_cons]
    have h1 := h v (by simp)
    have h2 := ih (fun w hw => h w (by simp [hw]))
    generalize XF.sum l = s at h2
    cases v <;> cases s <;> simp_all

theorem sum_not_finite (l : List XF) (v : XF) (hv : v ∈ l) (h : ¬ v.isFinite) : ¬ (XF.sum l).isFinite := by
  induction l with
  | nil => cases hv
  | cons w l ih =>
    rw [XF.sum_cons]
    rcases List.mem_cons.1 hv with rfl | hv
    · generalize XF.sum l = s
      cases v <;> cases s <;> simp_all
    · have := ih hv
      generalize XF.sum l = s at this
      cases w <;> cases s <;> simp_all

theorem simulateYields_ok {al : PyDict String String} {s : LitState K} {key k' : K} {batch : Int} {p : PyDict String XF}
    {g : Grid XF} (h : simulateYields al s key batch p = .ok (k', g)) :
    ∃ n c, s.components = [(n, c)] ∧ c key batch (replaceAlias al p) = .ok (k', g) := by
  unfold simulateYields at h
  simp only at h
  split at h
  · cases h
  rename_i hlen
  obtain ⟨nc, hnc⟩ := List.length_eq_one_iff.1 (not_not.1 hlen)
  obtain ⟨n, c⟩ := nc
  split at h
  · cases h
  rename_i m hm
  simp only [bind, Except.bind, hnc, PyDict.getItem, PyDict.get?_cons, PyDict.get?_nil] at h
  split at h
  · cases h
  rename_i c' hc'
  by_cases hnm : n = m
  · rw [if_pos hnm] at hc'
    cases hc'
    exact ⟨n, c, hnc, h⟩
  · rw [if_neg hnm] at hc'; cases hc'

/-- What a literature likelihood computes. -/
theorem litLogLikelihood_ok {al : PyDict String String} (hal : PlainAliases al) {shape : Shape} {s : LitState K}
    {key k' : K} {batch : Int} {p : PyDict String XF} {v : XF}
    (h : litLogLikelihood al shape s key batch p = .ok (k', v)) :
    ∃ n c e y f l m, s.components = [(n, c)] ∧ c key 1 (replaceAlias al p) = .ok (k', [e, y, f]) ∧
      logpdf shape e y = .ok l ∧ common [l.length, f.length] = .ok m ∧
      ((XF.sum (List.zipWith (· * ·) (spread m l) (spread m f))).isNaN ∧ v = .ninf ∨
       ¬ (XF.sum (List.zipWith (· * ·) (spread m l) (spread m f))).isNaN ∧
        v = XF.sum (List.zipWith (· * ·) (spread m l) (spread m f))) := by
  unfold litLogLikelihood at h
  simp only [bind, Except.bind] at h
  split at h
  · cases h
  rename_i r hr
  obtain ⟨k1, g⟩ := r
  obtain ⟨n, c, h1, h2⟩ := simulateYields_ok hr
  rw [replaceAlias_idem al hal] at h2
  simp only at h
  split at h
  · rename_i e y f
    split at h
    · cases h
    rename_i l hl
    split at h
    · cases h
    rename_i m hm
    simp only [pure, Except.pure, Except.ok.injEq, Prod.mk.injEq] at h
    obtain ⟨rfl, rfl⟩ := h
    refine ⟨n, c, e, y, f, l, m, h1, h2, hl, hm, ?_⟩
    by_cases hn : (XF.sum (List.zipWith (· * ·) (spread m l) (spread m f))).isNaN
    · exact .inl ⟨hn, by rw [if_pos hn]⟩
    · exact .inr ⟨hn, by rw [if_neg hn]⟩
  · cases h

/-- **C39 (never NaN).** With efficiencies that are NaN or not negative the result is finite or minus infinity, for every shape
and whatever energies and yields come out. -/
theorem C39_finite_or_minus_infinity (al : PyDict String String) (hal : PlainAliases al) (shape : Shape) (s : LitState K)
    (key k' : K) (batch : Int) (p : PyDict String XF) (v : XF)
    (heff : ∀ n c k e y f, (n, c) ∈ s.components → c key 1 (replaceAlias al p) = .ok (k, [e, y, f]) → ∀ x ∈ f, GoodEff x)
    (h : litLogLikelihood al shape s key batch p = .ok (k', v)) : v.isFinite ∨ v = .ninf := by
  obtain ⟨n, c, e, y, f, l, m, h1, h2, h3, -, h4⟩ := litLogLikelihood_ok hal h
  rcases h4 with ⟨_, rfl⟩ | ⟨hn, rfl⟩
  · exact .inr rfl
  · have hnp := sum_not_pinf (List.zipWith (· * ·) (spread m l) (spread m f)) (by
      intro z hz
      obtain ⟨a, ha, b, hb, rfl⟩ := mem_zipWith _ _ _ _ hz
      exact mul_goodEff a b (logpdf_not_pinf shape e y l h3 a (mem_spread ha))
        (heff n c k' e y f (by rw [h1]; simp) h2 b (mem_spread hb)))
    generalize XF.sum (List.zipWith (· * ·) (spread m l) (spread m f)) = w at *
    cases w with
    | nan => exact absurd trivial hn
    | fin x => exact .inl trivial
    | pinf => exact absurd rfl hnp
    | ninf => exact .inr rfl

/-- **C39 (outside the band).** A simulated energy outside the measured band gives minus infinity, even at zero efficiency. -/
theorem C39_outside_band (al : PyDict String String) (hal : PlainAliases al) (xs ys up lo : List ℝ) (s : LitState K)
    (key k' : K) (batch : Int) (p : PyDict String XF) (v : XF) (n : String)
    (c : K → Int → PyDict String XF → Res (K × Grid XF)) (e y f : List XF) (i : Nat) (x yi fi : XF)
    (hc : s.components = [(n, c)]) (hrun : c key 1 (replaceAlias al p) = .ok (k', [e, y, f]))
    (hx : e[i]? = some x) (hy : y[i]? = some yi) (hf : f[i]? = some fi) (hout : OutsideBand xs x)
    (heff : ∀ x ∈ f, GoodEff x) (h : litLogLikelihood al (.band xs ys up lo) s key batch p = .ok (k', v)) :
    v = .ninf := by
  obtain ⟨n', c', e', y', f', l, m, h1, h2, h3, hm, h4⟩ := litLogLikelihood_ok hal h
  rw [hc] at h1
  simp only [List.cons.injEq, Prod.mk.injEq, and_true] at h1
  obtain ⟨rfl, rfl⟩ := h1
  rw [hrun] at h2
  cases h2
  rcases h4 with ⟨_, rfl⟩ | ⟨hn, rfl⟩
  · rfl
  · have hnp := sum_not_pinf (List.zipWith (· * ·) (spread m l) (spread m f)) (by
      intro z hz
      obtain ⟨a, ha, b, hb, rfl⟩ := mem_zipWith _ _ _ _ hz
      exact mul_goodEff a b (logpdf_not_pinf _ e y l h3 a (mem_spread ha)) (heff b (mem_spread hb)))
    have hli : l[i]? = some .ninf := by
      simp only [logpdf] at h3
      split at h3
      · obtain ⟨n0, hn0, rfl⟩ := map_ok h3
        have hpos := common_pos hn0 (by
          simp only [List.mem_cons, List.not_mem_nil, or_false, forall_eq_or_imp, forall_eq]
          exact ⟨(List.getElem?_eq_some_iff.1 hx).1.pos, (List.getElem?_eq_some_iff.1 hy).1.pos⟩)
        rw [List.getElem?_zipWith, spread_getElem? hx hpos, spread_getElem? hy hpos]
        simp [bandLogpdf, interp1d_outside xs ys x hout]
      · cases h3
    have hpos := common_pos hm (by
      simp only [List.mem_cons, List.not_mem_nil, or_false, forall_eq_or_imp, forall_eq]
      exact ⟨(List.getElem?_eq_some_iff.1 hli).1.pos, (List.getElem?_eq_some_iff.1 hf).1.pos⟩)
    have hterm : (XF.ninf * fi) ∈ List.zipWith (· * ·) (spread m l) (spread m f) := by
      apply List.mem_of_getElem? (i := i)
      rw [List.getElem?_zipWith, spread_getElem? hli hpos, spread_getElem? hf hpos]
    have hnf := sum_not_finite _ _ hterm (by
      rcases heff fi (List.mem_of_getElem? hf) with rfl | ⟨a, _, rfl⟩
      · simp
      · rw [XF.ninf_mul_fin]; unfold XF.infSign
        split
        · simp
        · split <;> simp)
    generalize XF.sum (List.zipWith (· * ·) (spread m l) (spread m f)) = w at *
    cases w with
    | nan => exact absurd trivial hn
    | fin x => exact absurd trivial hnf
    | pinf => exact absurd rfl hnp
    | ninf => rfl

/-- **C39 (one event).** Whatever batch size is asked, the component is run once with batch size one, on the parameters with
aliases replaced; the batch size does not affect the result. -/
theorem C39_one_event_simulated (al : PyDict String String) (hal : PlainAliases al) (shape : Shape) (s : LitState K)
    (key k' : K) (batch batch' : Int) (p : PyDict String XF) (v : XF)
    (h : litLogLikelihood al shape s key batch p = .ok (k', v)) :
    litLogLikelihood al shape s key batch' p = .ok (k', v) ∧
    ∃ n c g, s.components = [(n, c)] ∧ c key 1 (replaceAlias al p) = .ok (k', g) := by
  refine ⟨h, ?_⟩
  obtain ⟨n, c, e, y, f, l, m, h1, h2, _⟩ := litLogLikelihood_ok hal h
  exact ⟨n, c, _, h1, h2⟩

/-- With finite log densities and efficiencies the value is their weighted sum. -/
theorem lit_weighted_sum (al : PyDict String String) (hal : PlainAliases al) (shape : Shape) (s : LitState K) (key k' : K)
    (batch : Int) (p : PyDict String XF) (v : XF) (n : String) (c : K → Int → PyDict String XF → Res (K × Grid XF))
    (e y f : List XF) (ls : List (ℝ × ℝ)) (hc : s.components = [(n, c)])
    (hrun : c key 1 (replaceAlias al p) = .ok (k', [e, y, f])) (hf : f = ls.map (fun q => .fin q.1))
    (hl : ∀ l, logpdf shape e y = .ok l → l = ls.map (fun q => .fin q.2))
    (h : litLogLikelihood al shape s key batch p = .ok (k', v)) : v = .fin (ls.map (fun q => q.1 * q.2)).sum := by
  obtain ⟨n', c', e', y', f', l, m, h1, h2, h3, hm, h4⟩ := litLogLikelihood_ok hal h
  rw [hc] at h1
  simp only [List.cons.injEq, Prod.mk.injEq, and_true] at h1
  obtain ⟨rfl, rfl⟩ := h1
  rw [hrun] at h2
  cases h2
  have hlen : common [l.length, f.length] = .ok ls.length :=
    common_same (by simp [hl l h3, hf]) (by simp)
  rw [hlen] at hm
  cases hm
  rw [spread_same (by simp [hl l h3]), spread_same (by simp [hf])] at h4
  have hz : List.zipWith (· * ·) l f = (ls.map (fun q => q.1 * q.2)).map XF.fin := by
    rw [hl l h3, hf]
    clear * -
    induction ls with
    | nil => rfl
    | cons q ls ih => simp only [List.map_cons, List.zipWith_cons_cons, ih, XF.fin_mul_fin, mul_comm]
  rw [hz, XF.sum_map_fin] at h4
  rcases h4 with ⟨h4, _⟩ | ⟨_, h4⟩
  · simp at h4
  · exact h4

/-- **C39 (values, two-half-normal).** For any number of measured points, each with its own centre, widths, simulated yield and
efficiency, the value is the sum of the efficiency times the log density. -/
theorem C39_values_twohalfnorm (al : PyDict String String) (hal : PlainAliases al) (s : LitState K) (key k' : K) (batch : Int)
    (p : PyDict String XF) (v : XF) (n : String) (c : K → Int → PyDict String XF → Res (K × Grid XF)) (e : List XF)
    (pts : List (ℝ × ℝ × ℝ × ℝ × ℝ)) (hc : s.components = [(n, c)])
    (hrun : c key 1 (replaceAlias al p) = .ok (k', [e, pts.map (fun q => .fin q.2.2.2.1), pts.map (fun q => .fin q.2.2.2.2)]))
    (h : litLogLikelihood al (.twohalfnorm (pts.map (fun q => q.1)) (pts.map (fun q => q.2.1)) (pts.map (fun q => q.2.2.1)))
      s key batch p = .ok (k', v)) :
    v = .fin (pts.map (fun q => q.2.2.2.2 * Real.log (twoHalfDensity q.1 q.2.1 q.2.2.1 q.2.2.2.1))).sum := by
  have := lit_weighted_sum al hal _ s key k' batch p v n c _ _ _
    (pts.map (fun q => (q.2.2.2.2, Real.log (twoHalfDensity q.1 q.2.1 q.2.2.1 q.2.2.2.1)))) hc hrun (by simp) (by
      intro l hl
      simp only [logpdf] at hl
      split at hl
      · rename_i hpos
        rw [common_same (n := pts.length) (by simp) (by simp)] at hl
        cases hl
        beta_reduce
        rw [spread_same (by simp), spread_same (by simp), spread_same (by simp), spread_same (by simp)]
        clear * - hpos
        obtain ⟨hp, hn⟩ := hpos
        induction pts with
        | nil => rfl
        | cons q pts ih =>
          simp only [List.map_cons, List.mem_cons, forall_eq_or_imp] at hp hn
          simp only [List.map_cons, List.zip_cons_cons, List.zipWith_cons_cons]
          rw [ih hp.2 hn.2, C39_two_half_logpdf _ _ _ _ hp.1 hn.1]
      · cases hl) h
  rw [this, List.map_map]; rfl

/-- **C39 (values, normal).** The same for normal errors. -/
theorem C39_values_norm (al : PyDict String String) (hal : PlainAliases al) (s : LitState K) (key k' : K) (batch : Int)
    (p : PyDict String XF) (v : XF) (n : String) (c : K → Int → PyDict String XF → Res (K × Grid XF)) (e : List XF)
    (pts : List (ℝ × ℝ × ℝ × ℝ)) (hpos : ∀ q ∈ pts, 0 < q.2.1) (hc : s.components = [(n, c)])
    (hrun : c key 1 (replaceAlias al p) = .ok (k', [e, pts.map (fun q => .fin q.2.2.1), pts.map (fun q => .fin q.2.2.2)]))
    (h : litLogLikelihood al (.norm (pts.map (fun q => q.1)) (pts.map (fun q => q.2.1))) s key batch p = .ok (k', v)) :
    v = .fin (pts.map (fun q => q.2.2.2 *
      Real.log (1 / (q.2.1 * √(2 * Real.pi)) * Real.exp (-(q.2.2.1 - q.1) ^ 2 / (2 * q.2.1 ^ 2))))).sum := by
  have := lit_weighted_sum al hal _ s key k' batch p v n c _ _ _
    (pts.map (fun q => (q.2.2.2, Real.log (1 / (q.2.1 * √(2 * Real.pi)) * Real.exp (-(q.2.2.1 - q.1) ^ 2 / (2 * q.2.1 ^ 2))))))
    hc hrun (by simp) (by
      intro l hl
      simp only [logpdf] at hl
      rw [common_same (n := pts.length) (by simp) (by simp)] at hl
      cases hl
      beta_reduce
      rw [spread_same (by simp), spread_same (by simp), spread_same (by simp)]
      clear * - hpos
      induction pts with
      | nil => rfl
      | cons q pts ih =>
        simp only [List.mem_cons, forall_eq_or_imp] at hpos
        simp only [List.map_cons, List.zip_cons_cons, List.zipWith_cons_cons]
        rw [ih hpos.2, (C39_norm_logpdf _ _ _).1 hpos.1]) h
  rw [this, List.map_map]; rfl

/-- **C39 (values, band).** For simulated energies within the measured band, centre and widths are interpolated linearly at the
simulated energy, and the value is the sum of the efficiency times the log density of the yield there. -/
theorem C39_values_band (al : PyDict String String) (hal : PlainAliases al) (s : LitState K) (key k' : K) (batch : Int)
    (p : PyDict String XF) (v : XF) (n : String) (c : K → Int → PyDict String XF → Res (K × Grid XF))
    (xs ys up lo : List ℝ) (h2 : 2 ≤ xs.length) (hxs : xs.Pairwise (· < ·)) (hys : xs.length = ys.length)
    (hup : xs.length = up.length) (hlo : xs.length = lo.length) (a b : ℝ) (ha : xs.head? = some a) (hb : xs.getLast? = some b)
    (pts : List (ℝ × ℝ × ℝ)) (hin : ∀ q ∈ pts, a ≤ q.1 ∧ q.1 ≤ b) (hc : s.components = [(n, c)])
    (hrun : c key 1 (replaceAlias al p) = .ok (k', [pts.map (fun q => .fin q.1), pts.map (fun q => .fin q.2.1),
      pts.map (fun q => .fin q.2.2)]))
    (h : litLogLikelihood al (.band xs ys up lo) s key batch p = .ok (k', v)) :
    ∃ mu sp sn : ℝ → ℝ, (∀ x, Interp.IsLinearInterp (xs.zip ys) x (mu x) ∧ Interp.IsLinearInterp (xs.zip up) x (sp x) ∧
        Interp.IsLinearInterp (xs.zip lo) x (sn x)) ∧
      v = .fin (pts.map (fun q => q.2.2 * Real.log (twoHalfDensity (mu q.1) (sp q.1) (sn q.1) q.2.1))).sum := by
  refine ⟨Interp.linear1d xs ys, Interp.linear1d xs up, Interp.linear1d xs lo, fun x =>
    ⟨Interp.linear1d_spec xs ys hys h2 hxs x, Interp.linear1d_spec xs up hup h2 hxs x, Interp.linear1d_spec xs lo hlo h2 hxs x⟩, ?_⟩
  have hi : ∀ zs : List ℝ, ∀ q ∈ pts, interp1d xs zs (.fin q.1) = .fin (Interp.linear1d xs zs q.1) := by
    intro zs q hq
    simp only [interp1d, ha, hb]
    rw [if_pos (hin q hq)]
  have := lit_weighted_sum al hal _ s key k' batch p v n c _ _ _
    (pts.map (fun q => (q.2.2, Real.log (twoHalfDensity (Interp.linear1d xs ys q.1) (Interp.linear1d xs up q.1)
      (Interp.linear1d xs lo q.1) q.2.1)))) hc hrun (by simp) (by
      intro l hl
      simp only [logpdf] at hl
      split at hl
      · rename_i has
        rw [common_same (n := pts.length) (by simp) (by simp)] at hl
        cases hl
        beta_reduce
        rw [spread_same (by simp), spread_same (by simp)]
        clear * - hi has
        induction pts with
        | nil => rfl
        | cons q pts ih =>
          simp only [bandAssert, List.map_cons, List.all_cons, Bool.and_eq_true, decide_eq_true_eq] at has ih
          simp only [List.map_cons, List.zipWith_cons_cons]
          rw [ih (fun zs q hq => hi zs q (by simp [hq])) has.2]
          have h0 := has.1
          simp only [hi up q (by simp), hi lo q (by simp), XF.not_isNaN_fin, if_false, XF.fin_lt_fin] at h0
          unfold bandLogpdf
          simp only [hi ys q (by simp), hi up q (by simp), hi lo q (by simp), XF.not_isNaN_fin, if_false]
          rw [C39_two_half_logpdf _ _ _ _ h0.1 h0.2]
      · cases hl) h
  rw [this, List.map_map]; rfl

/-- Non-vacuity of the last theorems: two measured points with normal errors. -/
example : ∃ (s : LitState Unit) (v : XF), s.components.map Prod.fst = ["er"] ∧
    litLogLikelihood [] (.norm ([(1, 1, 0, 1), (2, 3, 1, 1)].map (fun q : ℝ × ℝ × ℝ × ℝ => q.1))
      ([(1, 1, 0, 1), (2, 3, 1, 1)].map (fun q : ℝ × ℝ × ℝ × ℝ => q.2.1))) s () 7 [] = .ok ((), v) ∧ v.isFinite := by
  have hrun : litLogLikelihood [] (.norm ([(1, 1, 0, 1), (2, 3, 1, 1)].map (fun q : ℝ × ℝ × ℝ × ℝ => q.1))
      ([(1, 1, 0, 1), (2, 3, 1, 1)].map (fun q : ℝ × ℝ × ℝ × ℝ => q.2.1)))
      ⟨[("er", fun k _ _ => .ok (k, [[.fin 1, .fin 2], [.fin 0, .fin 1], [.fin 1, .fin 1]]))], some "er"⟩ () 7 [] = .ok ((), _) := rfl
  refine ⟨_, _, rfl, hrun, ?_⟩
  have := C39_values_norm [] ⟨by simp [PyDict.keys], by simp [PyDict.keys], by simp⟩ _ () () 7 [] _ "er" _ [.fin 1, .fin 2] [(1, 1, 0, 1), (2, 3, 1, 1)]
    (by simp) rfl rfl hrun
  rw [this]; trivial

/-- **C39 (value).** With finite yields and efficiencies the value is the efficiency-weighted sum of log densities. -/
theorem C39_value (al : PyDict String String) (hal : PlainAliases al) (s : LitState K) (key k' : K) (batch : Int)
    (p : PyDict String XF) (v : XF) (n : String) (c : K → Int → PyDict String XF → Res (K × Grid XF))
    (mu sp sn y f e : ℝ) (hsp : 0 < sp) (hsn : 0 < sn) (hc : s.components = [(n, c)])
    (hrun : c key 1 (replaceAlias al p) = .ok (k', [[.fin e], [.fin y], [.fin f]]))
    (h : litLogLikelihood al (.twohalfnorm [mu] [sp] [sn]) s key batch p = .ok (k', v)) :
    v = .fin (f * Real.log (twoHalfDensity mu sp sn y)) := by
  obtain ⟨n', c', e', y', f', l, m, h1, h2, h3, hm, h4⟩ := litLogLikelihood_ok hal h
  rw [hc] at h1
  simp only [List.cons.injEq, Prod.mk.injEq, and_true] at h1
  obtain ⟨rfl, rfl⟩ := h1
  rw [hrun] at h2
  cases h2
  have hn1 : common [([XF.fin y] : List XF).length, [mu].length, [sp].length, [sn].length] = .ok 1 :=
    common_same (by simp) (by simp)
  simp only [logpdf, hn1, Except.map, spread, List.replicate_one, List.mem_singleton, forall_eq, hsp, hsn, and_self, if_true, List.zip_cons_cons, List.zip_nil_left,
    List.zipWith_cons_cons, List.zipWith_nil_left, Except.ok.injEq, C39_two_half_logpdf y mu sp sn hsp hsn] at h3
  subst h3
  rw [common_same (n := 1) (by simp) (by simp)] at hm
  cases hm
  simp only [spread, List.replicate_one] at h4
  have : XF.sum (List.zipWith (· * ·) [XF.fin (Real.log (twoHalfDensity mu sp sn y))] [XF.fin f]) =
      .fin (f * Real.log (twoHalfDensity mu sp sn y)) := by
    simp [XF.sum_cons, mul_comm]
  rw [this] at h4
  rcases h4 with ⟨h4, _⟩ | ⟨_, h4⟩
  · simp at h4
  · exact h4

/-- **C39 (no component).** Without a component the log likelihood raises. -/
theorem C39_no_component_raises (al : PyDict String String) (shape : Shape) (s : LitState K) (key : K) (batch : Int)
    (p : PyDict String XF) (h : s.components = []) :
    litLogLikelihood al shape s key batch p = .error .assertionError := by
  unfold litLogLikelihood simulateYields
  rw [h]
  rfl

end

/-- Non-vacuity of C39: an energy outside the band at zero efficiency, and a finite value. -/
example (al : PyDict String String) (hal : PlainAliases al) :
    ∃ s : LitState Unit, ∃ v, litRegister {} "er" (.ok (fun k _ _ => .ok (k, [[.fin 9], [.fin 1], [.fin 0]]))) = (s, .ok ()) ∧
      litLogLikelihood al (.band [1, 2] [1, 1] [1, 1] [1, 1]) s () 7 [] = .ok ((), v) ∧ v = .ninf := by
  have hout : OutsideBand [1, 2] (.fin 9) := by
    intro a b r ha hb hr
    simp only [List.head?_cons, Option.some.injEq, List.getLast?_cons_cons, List.getLast?_singleton, XF.fin.injEq] at ha hb hr
    subst ha hb hr; right; norm_num
  have hl : logpdf (.band [1, 2] [1, 1] [1, 1] [1, 1]) [.fin 9] [.fin 1] = .ok [.ninf] := by
    have h1 : common [1, 1] = .ok 1 := common_same (by simp) (by simp)
    simp [logpdf, bandAssert, bandLogpdf, interp1d_outside _ _ _ hout, h1, Except.map, spread]
  refine ⟨_, .ninf, rfl, ?_, rfl⟩
  simp only [litLogLikelihood, simulateYields, PyDict.set, PyDict.keys, PyDict.getItem, PyDict.get?, bind, Except.bind,
    pure, Except.pure, List.length_cons, List.length_nil, List.map_cons, List.map_nil, List.head?_cons]
  have h1 : common [1, 1] = .ok 1 := common_same (by simp) (by simp)
  simp [hl, XF.sum_cons, XF.infSign, h1, spread]

/-- A negative efficiency would give plus infinity outside the band. -/
theorem C39_negative_efficiency_gives_plus_infinity :
    ∃ s : LitState Unit, ∃ v, s.components.length = 1 ∧
      litLogLikelihood [] (.band [1, 2] [1, 1] [1, 1] [1, 1]) s () 1 [] = .ok ((), v) ∧ v = .pinf := by
  have hout : OutsideBand [1, 2] (.fin 9) := by
    intro a b r ha hb hr
    simp only [List.head?_cons, Option.some.injEq, List.getLast?_cons_cons, List.getLast?_singleton, XF.fin.injEq] at ha hb hr
    subst ha hb hr; right; norm_num
  have hl : logpdf (.band [1, 2] [1, 1] [1, 1] [1, 1]) [.fin 9] [.fin 1] = .ok [.ninf] := by
    have h1 : common [1, 1] = .ok 1 := common_same (by simp) (by simp)
    simp [logpdf, bandAssert, bandLogpdf, interp1d_outside _ _ _ hout, h1, Except.map, spread]
  refine ⟨⟨[("er", fun k _ _ => .ok (k, [[.fin 9], [.fin 1], [.fin (-1)]]))], some "er"⟩, .pinf, rfl, ?_, rfl⟩
  simp only [litLogLikelihood, simulateYields, PyDict.getItem, PyDict.get?, bind, Except.bind,
    pure, Except.pure, List.length_cons, List.length_nil]
  have h1 : common [1, 1] = .ok 1 := common_same (by simp) (by simp)
  simp [hl, XF.sum_cons, XF.infSign, h1, spread]

end Verif.Llh
