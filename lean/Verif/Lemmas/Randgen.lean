/-
Helper lemmas about the samplers: keys that are not above or below each other, the invariant of a program, honesty of the log
of used keys, and the loop of the generalized Poisson sampler.
-/
import Mathlib.Tactic.Linarith
import Mathlib.Tactic.Ring
import Mathlib.Algebra.BigOperators.Intervals
import Verif.Spec.Randgen

namespace Verif.Randgen
open Verif

/-! ### Keys -/

/-- Neither key was derived from the other. -/
def Apart (a b : Key) : Prop := ¬ a <:+ b ∧ ¬ b <:+ a

theorem Apart.symm {a b : Key} (h : Apart a b) : Apart b a := ⟨h.2, h.1⟩

theorem Apart.ne {a b : Key} (h : Apart a b) : a ≠ b := fun e => h.1 (e ▸ List.suffix_refl a)

theorem suffix_child (k : Key) (n i : Nat) : k <:+ k.child n i := List.suffix_cons _ _

theorem Apart.of_suffix {u k k' : Key} (h : Apart u k) (hk : k <:+ k') : Apart u k' := by
  constructor
  · intro hu
    rcases List.suffix_or_suffix_of_suffix hu hk with h1 | h1
    · exact h.1 h1
    · exact h.2 h1
  · intro hu
    exact h.2 (hk.trans hu)

theorem apart_siblings (k : Key) {n i n' j : Nat} (h : (n, i) ≠ (n', j)) : Apart (k.child n i) (k.child n' j) := by
  have aux : ∀ {n i n' j : Nat}, (n, i) ≠ (n', j) → ¬ k.child n i <:+ k.child n' j := by
    intro n i n' j h hs
    have := hs.eq_of_length (by simp [Key.child])
    simp only [Key.child, List.cons.injEq, and_true] at this
    exact h this
  exact ⟨aux h, aux (Ne.symm h)⟩

/-- The invariant of a program: no key used twice, and the key held is not above or below a used one. -/
structure Inv (s : St) : Prop where
  nodup : s.used.Nodup
  apart : ∀ u ∈ s.used, Apart u s.key

/-- A step that derives the next key and a list of new seeds from the key held. -/
theorem Inv.step {s s' : St} (h : Inv s) (new : List Key) (hused : s'.used = new ++ s.used) (hkey : s.key <:+ s'.key)
    (hnd : new.Nodup) (hsuf : ∀ x ∈ new, s.key <:+ x) (hap : ∀ x ∈ new, Apart x s'.key) : Inv s' := by
  refine ⟨?_, ?_⟩
  · rw [hused, List.nodup_append]
    refine ⟨hnd, h.nodup, ?_⟩
    intro a ha b hb he
    subst he
    exact (h.apart a hb).2 (hsuf a ha)
  · intro u hu
    rw [hused, List.mem_append] at hu
    rcases hu with hu | hu
    · exact hap u hu
    · exact (h.apart u hu).of_suffix hkey

/-- One split and one array drawn from the seed. -/
theorem Inv.single {s : St} (h : Inv s) : Inv ⟨s.key.child 2 0, s.key.child 2 1 :: s.used⟩ :=
  h.step [s.key.child 2 1] rfl (suffix_child _ _ _) (by simp)
    (by simp only [List.mem_singleton, forall_eq]; exact suffix_child _ _ _)
    (by simp only [List.mem_singleton, forall_eq]; exact apart_siblings _ (by decide))

variable {m : Nat}

theorem gpLoop_inv (r : Rng m) (eta : Fin m → ℝ) (fuel : Nat) (o p : Fin m → Nat) (s : St) (h : Inv s) :
    Inv (gpLoop r eta fuel o p s).2 := by
  induction fuel generalizing o p s with
  | zero => exact h
  | succ f ih =>
    unfold gpLoop
    split
    · exact ih _ _ _ h.single
    · exact h

theorem call_inv (r : Rng m) (c : Call m) (s : St) (hc : c.isTwoHalfNorm = false) (h : Inv s) : Inv (c.run r s).2 := by
  cases c with
  | uniform a b => exact h.single
  | poisson l => exact h.single
  | gamma a b => exact h.single
  | normal a b => exact h.single
  | truncateNormal a b c d => exact h.single
  | skewnormal a b c => exact h.single.single
  | bernoulli p => exact h.single
  | binomialHybrid rnd t p n =>
    refine h.step [s.key.child 3 2, s.key.child 3 1] rfl (suffix_child _ 3 0) ?_ ?_ ?_
    · simp [Key.child]
    · intro x hx
      simp only [List.mem_cons, List.not_mem_nil, or_false] at hx
      rcases hx with rfl | rfl <;> exact suffix_child _ _ _
    · intro x hx
      simp only [List.mem_cons, List.not_mem_nil, or_false] at hx
      rcases hx with rfl | rfl <;> exact apart_siblings _ (by decide)
  | binomialJax p n => exact h.single
  | binomialFallback rnd a p n =>
    refine h.step (((List.finRange m).map (fun i : Fin m => (s.key.child 2 1).child m i)).reverse) rfl (suffix_child _ 2 0)
      ?_ ?_ ?_
    · rw [List.nodup_reverse]
      refine (List.nodup_finRange m).map ?_
      intro i j hij
      simp only [Key.child, List.cons.injEq, Prod.mk.injEq, true_and, and_true] at hij
      exact Fin.ext hij
    · intro x hx
      simp only [List.mem_reverse, List.mem_map] at hx
      obtain ⟨i, -, rfl⟩ := hx
      exact (suffix_child _ _ _).trans (suffix_child _ _ _)
    · intro x hx
      simp only [List.mem_reverse, List.mem_map] at hx
      obtain ⟨i, -, rfl⟩ := hx
      exact (Apart.of_suffix (apart_siblings s.key (n := 2) (i := 0) (n' := 2) (j := 1) (by decide))
        (suffix_child _ _ _)).symm
  | negativeBinomial p n => exact h.single.single
  | generalizedPoisson f l e => exact gpLoop_inv r e f _ _ _ h.single
  | twohalfnorm a b c => cases hc

theorem prog_inv (r : ∀ m, Rng m) (p : Prog) (hp : p.Avoids) (s : St) (h : Inv s) : Inv (p.run r s) := by
  induction hp generalizing s with
  | done => exact h
  | call c next hc _ ih => exact ih _ _ (call_inv (r _) c s hc h)

/-! ### The log of used keys -/

theorem gpLoop_used (r : Rng m) (eta : Fin m → ℝ) (fuel : Nat) (o p : Fin m → Nat) (s : St) :
    ∀ k ∈ s.used, k ∈ (gpLoop r eta fuel o p s).2.used := by
  induction fuel generalizing o p s with
  | zero => exact fun k hk => hk
  | succ f ih =>
    intro k hk
    unfold gpLoop
    split
    · exact ih _ _ _ k (List.mem_cons_of_mem _ hk)
    · exact hk

theorem poisson_agree (r r' : Rng m) (lam : Fin m → ℝ) (s : St) (h : Agree r r' (s.key.child 2 1)) :
    poisson r lam s = poisson r' lam s := by
  simp only [poisson, split2, draw, h.poisson]

theorem gpLoop_agree (r r' : Rng m) (eta : Fin m → ℝ) (fuel : Nat) (o p : Fin m → Nat) (s : St)
    (h : ∀ k ∈ (gpLoop r eta fuel o p s).2.used, Agree r r' k) :
    gpLoop r eta fuel o p s = gpLoop r' eta fuel o p s := by
  induction fuel generalizing o p s with
  | zero => rfl
  | succ f ih =>
    unfold gpLoop at h ⊢
    by_cases hc : ∃ i, 0 < o i
    · rw [if_pos hc] at h
      rw [if_pos hc, if_pos hc]
      have h1 : Agree r r' (s.key.child 2 1) :=
        h _ (gpLoop_used r eta f _ _ _ _ (by simp [poisson, split2, draw]))
      have h2 := poisson_agree r r' (fun i => eta i * (o i : ℝ)) s h1
      rw [← h2]
      exact ih _ _ _ h
    · rw [if_neg hc, if_neg hc]

theorem call_agree (r r' : Rng m) (c : Call m) (s : St) (h : ∀ k ∈ (c.run r s).2.used, Agree r r' k) :
    c.run r s = c.run r' s := by
  cases c with
  | uniform a b =>
    have h1 := h (s.key.child 2 1) (by simp [Call.run, ofReal, uniform, split2, draw])
    simp only [Call.run, uniform, split2, draw, h1.uniform]
  | poisson l =>
    have h1 := h (s.key.child 2 1) (by simp [Call.run, ofNat, poisson, split2, draw])
    simp only [Call.run, poisson, split2, draw, h1.poisson]
  | gamma a b =>
    have h1 := h (s.key.child 2 1) (by simp [Call.run, ofReal, gamma, split2, draw])
    simp only [Call.run, gamma, split2, draw, h1.gamma]
  | normal a b =>
    have h1 := h (s.key.child 2 1) (by simp [Call.run, ofReal, normal, split2, draw])
    simp only [Call.run, normal, split2, draw, h1.normal]
  | truncateNormal a b c d =>
    have h1 := h (s.key.child 2 1) (by simp [Call.run, ofReal, truncateNormal, normal, split2, draw])
    simp only [Call.run, truncateNormal, normal, split2, draw, h1.normal]
  | skewnormal a b c =>
    have h1 := h (s.key.child 2 1) (by simp [Call.run, ofReal, skewnormal, split2, draw])
    have h2 := h ((s.key.child 2 0).child 2 1) (by simp [Call.run, ofReal, skewnormal, split2, draw])
    simp only [Call.run, skewnormal, split2, draw, h1.normal, h2.normal]
  | bernoulli p =>
    have h1 := h (s.key.child 2 1) (by simp [Call.run, ofNat, bernoulli, split2, draw])
    simp only [Call.run, bernoulli, split2, draw, h1.bernoulli]
  | binomialHybrid rnd t p n =>
    have h1 := h (s.key.child 3 1) (by simp [Call.run, ofInt, binomialHybrid, split3, draw])
    have h2 := h (s.key.child 3 2) (by simp [Call.run, ofInt, binomialHybrid, split3, draw])
    simp only [Call.run, binomialHybrid, split3, draw, h1.normal, h2.trials]
  | binomialJax p n =>
    have h1 := h (s.key.child 2 1) (by simp [Call.run, ofInt, binomialJax, split2, draw])
    simp only [Call.run, binomialJax, split2, draw, h1.binomial]
  | binomialFallback rnd a p n =>
    have h1 : ∀ i : Fin m, Agree r r' ((s.key.child 2 1).child m i) := by
      intro i
      apply h
      simp only [Call.run, ofInt, binomialFallback, split2, List.mem_append, List.mem_reverse, List.mem_map]
      exact Or.inl ⟨i, List.mem_finRange i, rfl⟩
    simp only [Call.run, binomialFallback, split2, dispatch, (h1 _).normal1, (h1 _).numpyro]
  | negativeBinomial p n =>
    have h1 := h (s.key.child 2 1) (by simp [Call.run, ofNat, negativeBinomial, gamma, poisson, split2, draw])
    have h2 := h ((s.key.child 2 0).child 2 1) (by simp [Call.run, ofNat, negativeBinomial, gamma, poisson, split2, draw])
    simp only [Call.run, negativeBinomial, gamma, poisson, split2, draw, h1.gamma, h2.poisson]
  | generalizedPoisson f l e =>
    have h1 : Agree r r' (s.key.child 2 1) := by
      apply h
      exact gpLoop_used r e f _ _ _ _ (by simp [poisson, split2, draw])
    have h2 := poisson_agree r r' (fun i => l i * (1 - e i)) s h1
    have h3 : generalizedPoisson f r l e s = generalizedPoisson f r' l e s := by
      unfold generalizedPoisson
      rw [← h2]
      exact gpLoop_agree r r' e f _ _ _ h
    simp only [Call.run, h3]
  | twohalfnorm a b c =>
    have h1 := h (s.key.child 2 1) (by simp [Call.run, ofReal, twohalfnorm, split2, draw])
    simp only [Call.run, twohalfnorm, split2, draw, h1.uniform, h1.normal]

/-! ### The generalized Poisson loop -/

/-- The seed of the `j`-th Poisson call from a key on. -/
def seedAt (k : Key) : Nat → Key
  | 0 => k.child 2 1
  | j + 1 => seedAt (k.child 2 0) j

/-- Generations from a given one on. -/
noncomputable def gens (r : Rng m) (eta : Fin m → ℝ) (o : Fin m → Nat) (ks : Nat → Key) : Nat → Fin m → Nat
  | 0 => o
  | j + 1 => r.poisson (ks j) (fun i => eta i * (gens r eta o ks j i : ℝ))

theorem gens_shift (r : Rng m) (eta : Fin m → ℝ) (o : Fin m → Nat) (ks : Nat → Key) (j : Nat) :
    gens r eta o ks (j + 1) = gens r eta (gens r eta o ks 1) (fun i => ks (i + 1)) j := by
  induction j with
  | zero => rfl
  | succ j ih =>
    change r.poisson (ks (j + 1)) _ = r.poisson (ks (j + 1)) _
    rw [ih]

theorem gpLoop_some (r : Rng m) (eta : Fin m → ℝ) (fuel : Nat) (o p : Fin m → Nat) (s : St) (v : Fin m → Nat)
    (h : (gpLoop r eta fuel o p s).1 = some v) :
    ∃ K, (∀ i, gens r eta o (seedAt s.key) K i = 0) ∧ (∀ j < K, ∃ i, 0 < gens r eta o (seedAt s.key) j i) ∧
      ∀ i, v i = p i + ∑ j ∈ Finset.range K, gens r eta o (seedAt s.key) (j + 1) i := by
  induction fuel generalizing o p s with
  | zero => cases h
  | succ f ih =>
    unfold gpLoop at h
    by_cases hc : ∃ i, 0 < o i
    · rw [if_pos hc] at h
      obtain ⟨K, h1, h2, h3⟩ := ih _ _ _ h
      have hs : ∀ j, gens r eta (poisson r (fun i => eta i * (o i : ℝ)) s).1
          (seedAt (poisson r (fun i => eta i * (o i : ℝ)) s).2.key) j = gens r eta o (seedAt s.key) (j + 1) := by
        intro j
        rw [gens_shift]
        rfl
      refine ⟨K + 1, ?_, ?_, ?_⟩
      · intro i
        rw [← hs]
        exact h1 i
      · intro j hj
        cases j with
        | zero => exact hc
        | succ j =>
          obtain ⟨i, hi⟩ := h2 j (by omega)
          exact ⟨i, by rw [← hs]; exact hi⟩
      · intro i
        have h4 : v i = p i + gens r eta o (seedAt s.key) (0 + 1) i +
            ∑ j ∈ Finset.range K, gens r eta o (seedAt s.key) (j + 1 + 1) i := by
          rw [h3 i]
          congr 1
          exact Finset.sum_congr rfl (fun j _ => congrFun (hs (j + 1)) i)
        rw [h4, Finset.sum_range_succ']
        omega
    · rw [if_neg hc] at h
      simp only [Option.some.injEq] at h
      refine ⟨0, ?_, ?_, ?_⟩
      · intro i
        by_contra hn
        exact hc ⟨i, Nat.pos_of_ne_zero hn⟩
      · intro j hj
        omega
      · intro i
        simp [h]

theorem gpLoop_ends (r : Rng m) (eta : Fin m → ℝ) (fuel : Nat) (o p : Fin m → Nat) (s : St)
    (h : ∀ i, gens r eta o (seedAt s.key) fuel i = 0) : ∃ v, (gpLoop r eta (fuel + 1) o p s).1 = some v := by
  induction fuel generalizing o p s with
  | zero =>
    unfold gpLoop
    rw [if_neg]
    · exact ⟨_, rfl⟩
    · rintro ⟨i, hi⟩
      have := h i
      simp only [gens] at this
      omega
  | succ f ih =>
    unfold gpLoop
    by_cases hc : ∃ i, 0 < o i
    · rw [if_pos hc]
      apply ih
      intro i
      have := h i
      rw [gens_shift] at this
      exact this
    · rw [if_neg hc]
      exact ⟨_, rfl⟩

theorem generation_eq (r : Rng m) (lam eta : Fin m → ℝ) (k : Key) (j : Nat) :
    generation r lam eta (seedAt k) j =
      gens r eta (r.poisson (k.child 2 1) (fun i => lam i * (1 - eta i))) (seedAt (k.child 2 0)) j := by
  induction j with
  | zero => rfl
  | succ j ih =>
    change r.poisson (seedAt k (j + 1)) _ = r.poisson (seedAt (k.child 2 0) j) _
    rw [ih]
    rfl

/-! ### The Bernoulli path -/

theorem filter_length_eq_card (t n : Nat) (p : ℝ) (u : Nat → ℝ) (hn : n ≤ t) :
    ((List.range t).filter (fun j : Nat => decide (u j < p) && decide ((j : ℤ) < (n : ℤ)))).length
      = ((Finset.range n).filter (fun j => u j < p)).card := by
  classical
  have h1 : ((List.range t).filter (fun j : Nat => decide (u j < p) && decide ((j : ℤ) < (n : ℤ)))).toFinset
      = (Finset.range n).filter (fun j => u j < p) := by
    ext j
    simp only [List.toFinset_filter, List.mem_toFinset, Finset.mem_filter, List.mem_range, Bool.and_eq_true,
      decide_eq_true_eq, Finset.mem_range, Nat.cast_lt]
    constructor
    · rintro ⟨h1, h2, h3⟩
      exact ⟨h3, h2⟩
    · rintro ⟨h1, h2⟩
      exact ⟨by omega, h2, h1⟩
  rw [← h1, List.toFinset_card_of_nodup]
  exact List.nodup_range.filter _

theorem hybrid_eq (rnd : ℝ → ℤ) (t : Nat) (p : ℝ) (n : ℤ) (z : ℝ) (u : Nat → ℝ) :
    hybrid rnd t p n z u = if n ≤ 0 then 0 else if 1 ≤ p then n else if p ≤ 0 then 0 else
      if n ≤ t then bernoulliPath t p n u else cfPath rnd p n z := rfl

theorem hybrid_range (rnd : ℝ → ℤ) (threshold : Nat) (p : ℝ) (n : ℤ) (z : ℝ) (u : Nat → ℝ) :
    0 ≤ hybrid rnd threshold p n z u ∧ hybrid rnd threshold p n z u ≤ max n 0 := by
  rw [hybrid_eq]
  by_cases hn : n ≤ 0
  · rw [if_pos hn]
    omega
  · rw [if_neg hn]
    by_cases h1 : 1 ≤ p
    · rw [if_pos h1]
      omega
    · rw [if_neg h1]
      by_cases h0 : p ≤ 0
      · rw [if_pos h0]
        omega
      · rw [if_neg h0]
        by_cases ht : n ≤ threshold
        · rw [if_pos ht]
          obtain ⟨k, hk⟩ := Int.eq_ofNat_of_zero_le (show 0 ≤ n by omega)
          unfold bernoulliPath
          rw [hk] at ht ⊢
          rw [filter_length_eq_card threshold k (p) u (by exact_mod_cast ht)]
          have := Finset.card_filter_le (Finset.range k) (fun j => u j < p)
          rw [Finset.card_range] at this
          omega
        · rw [if_neg ht]
          unfold cfPath
          split <;> simp only <;> omega

theorem hybrid_small (rnd : ℝ → ℤ) (t n : Nat) (p z : ℝ) (u : Nat → ℝ) (hn : n ≤ t) (h0 : 0 < p) (h1 : p < 1) :
    hybrid rnd t p n z u = (((Finset.range n).filter (fun j => u j < p)).card : ℤ) := by
  unfold hybrid
  by_cases hz : n = 0
  · subst hz
    simp
  · have h2 : ((n : ℤ)) ≤ (t : ℤ) := by exact_mod_cast hn
    have h3 : ¬ ((n : ℤ) ≤ 0) := by omega
    simp only [if_pos h2, if_neg (not_le.2 h0), if_neg (not_le.2 h1), if_neg h3]
    unfold bernoulliPath
    rw [filter_length_eq_card t n p u hn]

end Verif.Randgen
