/-
C89: the burn-in plot shows the values of the walkers at the iterations they belong to.
-/
import Verif.Lemmas.BurnIn
import Mathlib.Data.Finset.Card
import Mathlib.Data.Finset.Filter
import Mathlib.Tactic.IntervalCases

namespace Verif.Plot
open Verif

/-- An iteration that is left: it is one of the thinned ones after the discarded ones, and every walker had a finite posterior. -/
def IsLeft (discard thin : Nat) (post : List (List XF)) (n : Nat) : Prop :=
  (∃ k, n = discard + thin - 1 + k * thin) ∧ ∃ row, post[n]? = some row ∧ ∀ x ∈ row, x.isFinite

theorem isLeft_iff (discard thin : Nat) (post : List (List XF)) (k : Nat) :
    IsLeft discard thin post (discard + thin - 1 + k * thin) ↔
      discard + thin - 1 + k * thin < post.length ∧ rowFinite (post.getD (discard + thin - 1 + k * thin) []) = true := by
  constructor
  · rintro ⟨_, row, h1, h2⟩
    refine ⟨(List.getElem?_eq_some_iff.1 h1).1, ?_⟩
    simp only [List.getD, h1, Option.getD_some, rowFinite, List.all_eq_true, decide_eq_true_eq]
    exact h2
  · rintro ⟨h1, h2⟩
    refine ⟨⟨k, rfl⟩, _, List.getElem?_eq_getElem h1, ?_⟩
    simpa [List.getD, List.getElem?_eq_getElem h1, rowFinite] using h2

theorem length_filter_range (g : Nat → Bool) (k : Nat) :
    ((List.range k).filter g).length = ((Finset.range k).filter (fun m => g m = true)).card := by
  induction k with
  | zero => rfl
  | succ k ih =>
    rw [List.range_succ, List.filter_append, List.length_append, ih, Finset.range_add_one, Finset.filter_insert]
    by_cases h : g k = true
    · simp [h]
    · simp [h]

/-- The positions of the iterations that are left, in order. -/
theorem left_positions (discard thin : Nat) (ht : thin ≠ 0) (post : List (List XF)) :
    let idx := (positions discard thin post.length).filter (fun n => rowFinite (post.getD n []))
    idx.Pairwise (· < ·) ∧ (∀ n, n ∈ idx ↔ IsLeft discard thin post n) ∧
    ∀ i n, idx[i]? = some n → ∃ k, n = discard + thin - 1 + k * thin ∧ i = ((List.range k).filter
      (fun k => decide (discard + thin - 1 + k * thin < post.length) && rowFinite (post.getD (discard + thin - 1 + k * thin) []))).length := by
  refine ⟨(positions_sorted discard thin post.length ht).filter _, fun n => ?_, fun i n h => ?_⟩
  · rw [List.mem_filter, mem_positions _ _ _ _ ht]
    constructor
    · rintro ⟨⟨h1, k, rfl⟩, h2⟩
      exact (isLeft_iff _ _ _ k).2 ⟨h1, h2⟩
    · intro h
      obtain ⟨k, rfl⟩ := h.1
      obtain ⟨h1, h2⟩ := (isLeft_iff _ _ _ k).1 h
      exact ⟨⟨h1, k, rfl⟩, h2⟩
  · unfold positions at h
    rw [List.filter_map, List.filter_filter, List.getElem?_map] at h
    cases hk : (List.filter (fun a => ((fun n => rowFinite (post.getD n [])) ∘ fun k => discard + thin - 1 + k * thin) a &&
        decide (discard + thin - 1 + a * thin < post.length)) (List.range post.length))[i]? with
    | none => rw [hk] at h; cases h
    | some k =>
      rw [hk] at h
      cases h
      obtain ⟨_, _, h3⟩ := filter_range_rank _ _ _ _ hk
      refine ⟨k, rfl, h3.trans ?_⟩
      congr 2
      funext a
      simp only [Function.comp, Bool.and_comm]

/-- **C89 (lines).** Every line shows, in order, the values of its walker at exactly the iterations that are left, for the
parameters, the log posterior and the log prior alike; the `i`-th point is at `discard + i * thin`, within the limits of the
panel.  The point for iteration `n` stands too far left by `thin - 1`, and by another `thin` for each thinned iteration before it
that was dropped. -/
theorem C89_lines {P B : Type} (discard thin walkers : Nat) (value : B → ℝ) (chain : List (List P)) (post : List (List XF))
    (prior : List (List B)) (ht : thin ≠ 0) (hc : List.Forall₂ (fun a b => a.length = b.length) post chain)
    (hb : List.Forall₂ (fun a b => a.length = b.length) post prior) (r : Chains P B)
    (hr : readChain discard thin chain post prior = .ok r) (b : BurnIn P B) (h : plotBurnIn discard thin walkers value r = .ok b) :
    ∃ idx : List Nat, idx.Pairwise (· < ·) ∧ (∀ n, n ∈ idx ↔ IsLeft discard thin post n) ∧
      (∀ j < walkers,
        b.chain[j]? = some (idx.mapIdx (fun i n => (i * thin + discard, chain[n]?.bind (·[j]?)))) ∧
        b.posterior[j]? = some (idx.mapIdx (fun i n => (i * thin + discard, post[n]?.bind (·[j]?)))) ∧
        b.prior[j]? = some (idx.mapIdx (fun i n => (i * thin + discard, prior[n]?.bind (·[j]?))))) ∧
      b.xlim = (discard, idx.length * thin + discard) ∧
      ∀ i n, idx[i]? = some n → ∃ k, n = discard + thin - 1 + k * thin ∧ ∀ dropped : Finset Nat,
        (∀ m, m ∈ dropped ↔ m < k ∧ ¬ IsLeft discard thin post (discard + thin - 1 + m * thin)) →
        n = (i * thin + discard) + (thin - 1) + dropped.card * thin := by
  obtain ⟨r1, r2, r3⟩ := readChain_rows discard thin ht chain post prior hc hb r hr
  obtain ⟨p1, p2, p3⟩ := left_positions discard thin ht post
  unfold plotBurnIn at h
  simp only [bind, Except.bind, pure, Except.pure] at h
  split at h
  · cases h
  split at h
  · cases h
  cases h
  refine ⟨_, p1, p2, fun j hj => ?_, ?_, fun i n hin => ?_⟩
  · have line : ∀ {α : Type} (rows : List (List α)), (burnLine discard thin (((positions discard thin post.length).filter
        (fun n => rowFinite (post.getD n []))).map (fun n => rows.getD n [])) j) =
        ((positions discard thin post.length).filter (fun n => rowFinite (post.getD n []))).mapIdx
          (fun i n => (i * thin + discard, rows[n]?.bind (·[j]?))) := by
      intro α rows
      unfold burnLine
      refine List.ext_getElem? fun i => ?_
      simp only [List.getElem?_mapIdx, List.getElem?_map, Option.map_map]
      congr 1
      funext n
      simp only [Function.comp, Prod.mk.injEq, true_and, List.getD]
      cases rows[n]? <;> simp
    simp only [List.getElem?_map, List.getElem?_range hj, Option.map_some, r1, r2, r3, line]
    exact ⟨trivial, trivial, trivial⟩
  · simp only [burnLimits, r1, List.length_map]
  · obtain ⟨k, hk, hi⟩ := p3 i n hin
    refine ⟨k, hk, fun dropped hd => ?_⟩
    have hcard : dropped.card + i = k := by
      have h1 : dropped = (Finset.range k).filter (fun m => ¬ (decide (discard + thin - 1 + m * thin < post.length) &&
          rowFinite (post.getD (discard + thin - 1 + m * thin) [])) = true) := by
        ext m
        rw [hd, isLeft_iff]
        simp only [Finset.mem_filter, Finset.mem_range, Bool.and_eq_true, decide_eq_true_eq]
      have h2 : i = ((Finset.range k).filter (fun m => (decide (discard + thin - 1 + m * thin < post.length) &&
          rowFinite (post.getD (discard + thin - 1 + m * thin) [])) = true)).card := by
        rw [hi, length_filter_range]
      rw [h1, h2, add_comm, Finset.card_filter_add_card_filter_not, Finset.card_range]
    rw [hk, ← hcard, Nat.add_mul]
    omega

/-- **C89 (part).** Without thinning, and if no walker had a posterior that is not finite, the line of a walker shows the value at
each iteration at its number.  Missing: thinned chains and chains with dropped iterations. -/
theorem C89_labels_partial {P B : Type} (discard walkers : Nat) (value : B → ℝ) (chain : List (List P)) (post : List (List XF))
    (prior : List (List B)) (hc : List.Forall₂ (fun a b => a.length = b.length) post chain)
    (hb : List.Forall₂ (fun a b => a.length = b.length) post prior) (hfin : ∀ n row, discard ≤ n → post[n]? = some row → ∀ x ∈ row, x.isFinite)
    (r : Chains P B) (hr : readChain discard 1 chain post prior = .ok r) (b : BurnIn P B)
    (h : plotBurnIn discard 1 walkers value r = .ok b) (j : Nat) (hj : j < walkers) :
    ∃ line, b.chain[j]? = some line ∧ ∀ x v, (x, v) ∈ line ↔ discard ≤ x ∧ x < chain.length ∧ v = chain[x]?.bind (·[j]?) := by
  obtain ⟨idx, _, h2, h3, _, h5⟩ := C89_lines discard 1 walkers value chain post prior (by simp) hc hb r hr b h
  refine ⟨_, (h3 j hj).1, fun x v => ?_⟩
  have hleft : ∀ n, IsLeft discard 1 post n ↔ discard ≤ n ∧ n < post.length := by
    intro n
    constructor
    · rintro ⟨⟨k, rfl⟩, row, hrow, _⟩
      exact ⟨by omega, (List.getElem?_eq_some_iff.1 hrow).1⟩
    · rintro ⟨h1, h2⟩
      exact ⟨⟨n - discard, by omega⟩, _, List.getElem?_eq_getElem h2, hfin n _ h1 (List.getElem?_eq_getElem h2)⟩
  have hlab : ∀ i n, idx[i]? = some n → n = i + discard := by
    intro i n hin
    obtain ⟨k, hk, hd⟩ := h5 i n hin
    have hn := (hleft n).1 ((h2 n).1 (List.mem_of_getElem? hin))
    have := hd ∅ (by
      intro m
      simp only [Finset.notMem_empty, false_iff, not_and, not_not]
      intro hm
      rw [hleft]
      omega)
    simp at this
    omega
  simp only [List.mem_mapIdx, Prod.mk.injEq]
  rw [← hc.length_eq]
  constructor
  · rintro ⟨i, hi, h1, rfl⟩
    have := hlab i idx[i] (List.getElem?_eq_getElem hi)
    have hm := (hleft idx[i]).1 ((h2 _).1 (List.getElem_mem hi))
    rw [this] at hm ⊢
    have hx : x = i + discard := by omega
    subst hx
    exact ⟨hm.1, hm.2, rfl⟩
  · rintro ⟨h1, h4, rfl⟩
    obtain ⟨i, hi, hget⟩ := List.getElem_of_mem ((h2 x).2 ((hleft x).2 ⟨h1, h4⟩))
    have := hlab i x (by rw [List.getElem?_eq_getElem hi, hget])
    exact ⟨i, hi, by omega, by rw [hget]⟩

/-- **C89 (refused).** If in every iteration that is read some walker has a posterior that is not finite, there is no burn-in plot. -/
theorem C89_no_iteration_left {P B : Type} (discard thin walkers : Nat) (value : B → ℝ) (chain : List (List P)) (post : List (List XF))
    (prior : List (List B)) (ht : thin ≠ 0) (hc : List.Forall₂ (fun a b => a.length = b.length) post chain)
    (hb : List.Forall₂ (fun a b => a.length = b.length) post prior) (r : Chains P B)
    (hr : readChain discard thin chain post prior = .ok r) (hno : ∀ n, ¬ IsLeft discard thin post n) :
    plotBurnIn discard thin walkers value r = .error .valueError := by
  obtain ⟨_, r2, _⟩ := readChain_rows discard thin ht chain post prior hc hb r hr
  obtain ⟨_, p2, _⟩ := left_positions discard thin ht post
  have : (positions discard thin post.length).filter (fun n => rowFinite (post.getD n [])) = [] :=
    List.eq_nil_iff_forall_not_mem.2 (fun n hn => hno n ((p2 n).1 hn))
  rw [this] at r2
  unfold plotBurnIn
  rw [r2]
  rfl

/-- **C89 (limits).** The panel of the log posterior ends at the best posterior among the iterations that are left. -/
theorem C89_posterior_limits {P B : Type} (discard thin walkers : Nat) (value : B → ℝ) (r : Chains P B) (b : BurnIn P B)
    (h : plotBurnIn discard thin walkers value r = .ok b) :
    (∃ row ∈ r.posterior, ∃ x ∈ row, finVal x = b.posteriorLim.2) ∧ (∀ row ∈ r.posterior, ∀ x ∈ row, finVal x ≤ b.posteriorLim.2) ∧
      b.posteriorLim.1 = b.posteriorLim.2 - 100 := by
  unfold plotBurnIn maxOf at h
  simp only [bind, Except.bind, pure, Except.pure] at h
  cases hm : argmax (r.posterior.flatten.map finVal) with
  | none => rw [hm] at h; cases h
  | some i =>
    have hne : r.posterior.flatten.map finVal ≠ [] := by
      intro h0
      rw [(argmax_none _).2 h0] at hm
      cases hm
    obtain ⟨i', h1, h2, h3, _⟩ := argmax_spec _ hne
    rw [hm] at h1
    cases h1
    rw [hm] at h
    simp only at h
    split at h
    · cases h
    · cases h
      refine ⟨?_, fun row hrow x hx => ?_, rfl⟩
      · have := List.getElem_mem h2
        rw [List.mem_map] at this
        obtain ⟨x, hx, hxe⟩ := this
        obtain ⟨row, hrow, hxr⟩ := List.mem_flatten.1 hx
        refine ⟨row, hrow, x, hxr, ?_⟩
        simp only [hxe, List.getD, List.getElem?_eq_getElem h2, Option.getD_some]
      · obtain ⟨k, hk, hget⟩ := List.getElem_of_mem (List.mem_map.2 ⟨x, List.mem_flatten.2 ⟨row, hrow, hx⟩, rfl⟩ :
          finVal x ∈ r.posterior.flatten.map finVal)
        have := h3 k hk
        simp only [List.getD, List.getElem?_eq_getElem hk, Option.getD_some, hget] at this
        exact this

/-- **C89 (violated).** Thinned by 2 the value at iteration 1 is drawn at 0, and the one at iteration 3 at 2; unthinned, with an
infinite posterior in the first iteration, the value at iteration 1 is drawn at 0. -/
theorem C89_shifted :
    (∃ r b, readChain 0 2 [["a"], ["b"], ["c"], ["d"]] [[.fin 1], [.fin 2], [.fin 3], [.fin 4]] [[()], [()], [()], [()]] = .ok r ∧
      plotBurnIn 0 2 1 (fun _ => 0) r = .ok b ∧ b.chain = [[(0, some "b"), (2, some "d")]]) ∧
    ∃ r b, readChain 0 1 [["a"], ["b"], ["c"]] [[.ninf], [.fin 2], [.fin 3]] [[()], [()], [()]] = .ok r ∧
      plotBurnIn 0 1 1 (fun _ => 0) r = .ok b ∧ b.chain = [[(0, some "b"), (1, some "c")]] := by
  have hv : ∀ x : ℝ, valFinite (XF.fin x) = true := fun x => rfl
  have hr : ∀ x : ℝ, rowFinite [XF.fin x] = true := fun x => rfl
  have hn : valFinite XF.ninf = false := rfl
  have hrn : rowFinite [XF.ninf] = false := rfl
  constructor
  · refine ⟨⟨[["b"], ["d"]], [[.fin 2], [.fin 4]], [[()], [()]], ["b", "d"], [.fin 2, .fin 4], [(), ()], "d"⟩,
      ⟨[[(0, some "b"), (2, some "d")]], [[(0, some (.fin 2)), (2, some (.fin 4))]], [[(0, some ()), (2, some ())]], (0, 4),
        (4 - 100, 4), (0 - 100, 0)⟩, ?_, ?_, rfl⟩
    · have h1 : ∀ {α : Type} (x y z w : α), thinned 0 2 [x, y, z, w] = .ok [y, w] := by
        intro α x y z w; simp [thinned, List.range_succ]
      rw [readChain_eq 0 2 _ _ _ _ _ _ (h1 ["a"] ["b"] ["c"] ["d"]) (h1 [XF.fin 1] [XF.fin 2] [XF.fin 3] [XF.fin 4])
        (h1 [()] [()] [()] [()]) rfl rfl rfl rfl]
      have h3 : argmax [2, 4] = some 1 := by norm_num [argmax]
      simp [List.filter_cons, hv, finVal, h3, hr]
    · have h3 : argmax [2, 4] = some 1 := by norm_num [argmax]
      have h4 : argmax [0, 0] = some 0 := by norm_num [argmax]
      simp [plotBurnIn, maxOf, finVal, h3, h4, burnLine, burnLimits, bind, Except.bind, pure, Except.pure]
  · refine ⟨⟨[["b"], ["c"]], [[.fin 2], [.fin 3]], [[()], [()]], ["b", "c"], [.fin 2, .fin 3], [(), ()], "c"⟩,
      ⟨[[(0, some "b"), (1, some "c")]], [[(0, some (.fin 2)), (1, some (.fin 3))]], [[(0, some ()), (1, some ())]], (0, 2),
        (3 - 100, 3), (0 - 100, 0)⟩, ?_, ?_, rfl⟩
    · have h1 : ∀ {α : Type} (x y z : α), thinned 0 1 [x, y, z] = .ok [x, y, z] := by
        intro α x y z; simp [thinned, List.range_succ]
      rw [readChain_eq 0 1 _ _ _ _ _ _ (h1 ["a"] ["b"] ["c"]) (h1 [XF.ninf] [XF.fin 2] [XF.fin 3])
        (h1 [()] [()] [()]) rfl rfl rfl rfl]
      have h3 : argmax [2, 3] = some 1 := by norm_num [argmax]
      simp [List.filter_cons, hv, hn, finVal, h3, hr, hrn]
    · have h3 : argmax [2, 3] = some 1 := by norm_num [argmax]
      have h4 : argmax [0, 0] = some 0 := by norm_num [argmax]
      simp [plotBurnIn, maxOf, finVal, h3, h4, burnLine, burnLimits, bind, Except.bind, pure, Except.pure]

/-- Non-vacuity of `C89_labels_partial`: two walkers, the first iteration discarded. -/
example (r : Chains String Unit) (hr : readChain 1 1 [["a", "b"], ["c", "d"], ["e", "f"]]
      [[.ninf, .fin 1], [.fin 2, .fin 3], [.fin 4, .fin 5]] [[(), ()], [(), ()], [(), ()]] = .ok r) (b : BurnIn String Unit)
    (h : plotBurnIn 1 1 2 (fun _ => 0) r = .ok b) : ∃ line, b.chain[1]? = some line ∧ (2, some "f") ∈ line := by
  obtain ⟨line, h1, h2⟩ := C89_labels_partial 1 2 (fun _ => 0) [["a", "b"], ["c", "d"], ["e", "f"]]
    [[.ninf, .fin 1], [.fin 2, .fin 3], [.fin 4, .fin 5]] [[(), ()], [(), ()], [(), ()]]
    (.cons rfl (.cons rfl (.cons rfl .nil))) (.cons rfl (.cons rfl (.cons rfl .nil))) (by
      intro n row hn hrow x hx
      have : n < 3 := (List.getElem?_eq_some_iff.1 hrow).1
      interval_cases n
      · cases hrow
        simp only [List.mem_cons, List.not_mem_nil, or_false] at hx
        rcases hx with rfl | rfl <;> trivial
      · cases hrow
        simp only [List.mem_cons, List.not_mem_nil, or_false] at hx
        rcases hx with rfl | rfl <;> trivial) r hr b h 1 (by norm_num)
  exact ⟨line, h1, (h2 2 (some "f")).2 ⟨by norm_num, by norm_num, rfl⟩⟩

end Verif.Plot
