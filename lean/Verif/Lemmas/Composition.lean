/-
Lemmas for C110.
-/
import Verif.Spec.Composition
import Verif.Lemmas.Likelihood
import Verif.Props.Context

namespace Verif.Llh
open Verif

section
variable {K V : Type}

theorem addGrid_iff [Add V] (h g h' : Grid V) : addGrid h g = .ok h' ↔ IsSum h g h' := by
  have hzip : ∀ (a b : Grid V), a.map List.length = b.map List.length →
      (List.zipWith (List.zipWith (· + ·)) a b).map List.length = a.map List.length := by
    intro a
    induction a with
    | nil => intro b _; rfl
    | cons r rs ih =>
      intro b hb
      cases b with
      | nil => simp at hb
      | cons s ss =>
        simp only [List.map_cons, List.cons.injEq] at hb
        simp only [List.zipWith_cons_cons, List.map_cons, List.length_zipWith, ih ss hb.2, hb.1, Nat.min_self]
  have hat : ∀ (a b : Grid V) i j x y, at? a i j = some x → at? b i j = some y →
      at? (List.zipWith (List.zipWith (· + ·)) a b) i j = some (x + y) := by
    intro a b i j x y hx hy
    unfold at? at *
    cases ha : a[i]? with
    | none => simp [ha] at hx
    | some r =>
      cases hb : b[i]? with
      | none => simp [hb] at hy
      | some s =>
        rw [ha] at hx
        rw [hb] at hy
        simp only [Option.bind_some] at hx hy
        rw [List.getElem?_zipWith, ha, hb]
        simp only [Option.bind_some]
        rw [List.getElem?_zipWith, hx, hy]
  have hext : ∀ (a b : Grid V), a.map List.length = b.map List.length →
      (∀ i j x, at? a i j = some x → at? b i j = some x) → a = b := by
    intro a b hs he
    apply List.ext_getElem?
    intro i
    cases ha : a[i]? with
    | none =>
      have : (a.map List.length)[i]? = (b.map List.length)[i]? := by rw [hs]
      simp only [List.getElem?_map, ha, Option.map_none] at this
      cases hb : b[i]? with
      | none => rfl
      | some s => simp [hb] at this
    | some r =>
      have : (a.map List.length)[i]? = (b.map List.length)[i]? := by rw [hs]
      simp only [List.getElem?_map, ha, Option.map_some] at this
      cases hb : b[i]? with
      | none => simp [hb] at this
      | some s =>
        simp only [hb, Option.map_some, Option.some.injEq] at this
        congr 1
        apply List.ext_getElem?
        intro j
        cases hr : r[j]? with
        | none =>
          rw [List.getElem?_eq_none_iff] at hr
          symm
          rw [List.getElem?_eq_none_iff]
          omega
        | some x =>
          have := he i j x (by simp [at?, ha, hr])
          simp only [at?, hb, Option.bind_some] at this
          exact this.symm
  unfold addGrid IsSum
  constructor
  · intro hh
    split at hh
    · rename_i hs
      cases hh
      exact ⟨hs.symm, hzip _ _ hs, hat h g⟩
    · cases hh
  · rintro ⟨h1, h2, h3⟩
    rw [if_pos h1.symm]
    congr 1
    apply hext
    · rw [hzip _ _ h1.symm, h2]
    · intro i j x hx
      unfold at? at hx
      cases ha : h[i]? with
      | none => simp [List.getElem?_zipWith, ha] at hx
      | some r =>
        cases hb : g[i]? with
        | none => simp [List.getElem?_zipWith, ha, hb] at hx
        | some s =>
          rw [List.getElem?_zipWith, ha, hb] at hx
          simp only [Option.bind_some] at hx
          rw [List.getElem?_zipWith] at hx
          cases hr : r[j]? with
          | none => simp [hr] at hx
          | some u =>
            cases hs : s[j]? with
            | none => simp [hr, hs] at hx
            | some w =>
              rw [hr, hs] at hx
              cases hx
              exact h3 i j u w (by simp [at?, ha, hr]) (by simp [at?, hb, hs])

theorem modelLoop_append [Add V] (batch : Int) (p : PyDict String V) (cs ds : List (String × LComp K V)) (key : K)
    (acc : Grid V) :
    modelLoop batch p (cs ++ ds) key acc =
      (modelLoop batch p cs key acc).bind (fun r => modelLoop batch p ds r.1 r.2) := by
  induction cs generalizing key acc with
  | nil => rfl
  | cons c cs ih =>
    obtain ⟨n, c⟩ := c
    cases c with
    | sim nd hist w =>
      simp only [List.cons_append, modelLoop, bind, Except.bind]
      cases hist key batch p with
      | error e => rfl
      | ok r =>
        simp only
        cases addGrid acc r.2 with
        | error e => rfl
        | ok a => simp only; exact ih _ _
    | fixed nd hist w =>
      simp only [List.cons_append, modelLoop, bind, Except.bind]
      cases hist p with
      | error e => rfl
      | ok r =>
        simp only
        cases addGrid acc r with
        | error e => rfl
        | ok a => simp only; exact ih _ _
    | other nd => rfl

theorem zipWith_right_comm {α : Type} (f : α → α → α) (hf : ∀ a b c, f (f a b) c = f (f a c) b) (l m n : List α) :
    List.zipWith f (List.zipWith f l m) n = List.zipWith f (List.zipWith f l n) m := by
  induction l generalizing m n with
  | nil => simp
  | cons a l ih =>
    cases m with
    | nil => simp
    | cons b m =>
      cases n with
      | nil => simp
      | cons c n => simp [hf, ih]

theorem addGrid_comm [AddCommMonoid V] (a g x : Grid V) (hg : a.map List.length = g.map List.length) :
    (addGrid a g).bind (fun a' => addGrid a' x) = (addGrid a x).bind (fun a' => addGrid a' g) := by
  have hshape : ∀ b : Grid V, a.map List.length = b.map List.length → ∀ a', addGrid a b = .ok a' →
      a'.map List.length = a.map List.length := fun b _ a' h => ((addGrid_iff _ _ _).1 h).2.1
  have e1 : addGrid a g = .ok (List.zipWith (List.zipWith (· + ·)) a g) := if_pos hg
  have s1 := hshape g hg _ e1
  by_cases hx : a.map List.length = x.map List.length
  · have e2 : addGrid a x = .ok (List.zipWith (List.zipWith (· + ·)) a x) := if_pos hx
    have s2 := hshape x hx _ e2
    rw [e1, e2]
    simp only [Except.bind]
    unfold addGrid
    rw [if_pos (s1.trans hx), if_pos (s2.trans hg), zipWith_right_comm]
    intro a b c
    exact zipWith_right_comm _ (fun a b c => add_right_comm a b c) a b c
  · rw [e1]
    have : addGrid a x = .error .valueError := if_neg hx
    rw [this]
    simp only [Except.bind]
    unfold addGrid
    rw [if_neg (by rw [s1]; exact hx)]

theorem modelLoop_acc [AddCommMonoid V] (batch : Int) (p : PyDict String V) (cs : List (String × LComp K V)) (key : K)
    (a g a' : Grid V) (h : addGrid a g = .ok a') :
    modelLoop batch p cs key a' =
      (modelLoop batch p cs key a).bind (fun r => (addGrid r.2 g).bind (fun h => .ok (r.1, h))) := by
  have hg : a.map List.length = g.map List.length := ((addGrid_iff _ _ _).1 h).1.symm
  induction cs generalizing key a a' with
  | nil =>
    simp only [modelLoop, Except.bind, h]
  | cons c cs ih =>
    obtain ⟨n, c⟩ := c
    have step : ∀ x : Grid V, ∀ k : K,
        (addGrid a' x).bind (fun b => modelLoop batch p cs k b) =
        ((addGrid a x).bind (fun b => modelLoop batch p cs k b)).bind
          (fun r => (addGrid r.2 g).bind (fun h => .ok (r.1, h))) := by
      intro x k
      have hc := addGrid_comm a g x hg
      rw [h] at hc
      simp only [Except.bind] at hc
      cases hx : addGrid a x with
      | error e =>
        rw [hx] at hc
        rw [hc]
        rfl
      | ok b =>
        rw [hx] at hc
        simp only at hc
        have sb := ((addGrid_iff _ _ _).1 hx).2.1
        cases hb : addGrid b g with
        | error e =>
          unfold addGrid at hb
          rw [if_pos (sb.trans hg)] at hb
          cases hb
        | ok b' =>
          rw [hb] at hc
          rw [hc]
          exact ih k b b' hb (sb.trans hg)
    cases c with
    | sim nd hist w =>
      simp only [modelLoop, bind]
      cases hist key batch p with
      | error e => rfl
      | ok r => exact step r.2 r.1
    | fixed nd hist w =>
      simp only [modelLoop, bind]
      cases hist p with
      | error e => rfl
      | ok r => exact step r key
    | other nd => rfl

theorem weightedLoop_key [Field V] [LinearOrder V] (batch : Int) (p : PyDict String V) (cs : List (String × LComp K V))
    (hs : ∀ c ∈ cs, Shipped c.2) (key k k' : K) (acc h : Grid V) (wacc ws : List (Grid V))
    (hm : modelLoop batch p cs key acc = .ok (k, h)) (hw : weightedLoop batch p cs key wacc = .ok (k', ws)) : k = k' := by
  induction cs generalizing key acc wacc with
  | nil =>
    cases hm
    cases hw
    rfl
  | cons c cs ih =>
    obtain ⟨n, c⟩ := c
    have hs' : ∀ c ∈ cs, Shipped c.2 := fun c hc => hs c (by simp [hc])
    rcases hs (n, c) List.mem_cons_self with ⟨d, rfl⟩ | ⟨f, r, rfl⟩
    · simp only [SimDesc.comp, modelLoop, weightedLoop, bind, Except.bind] at hm hw
      cases hr : d.run key batch p with
      | error e => rw [hr] at hm; cases hm
      | ok r =>
        rw [hr] at hm hw
        simp only at hm hw
        cases hq : p.getItem d.rateName with
        | error e => rw [hq] at hm; cases hm
        | ok q =>
          rw [hq] at hm hw
          simp only at hm hw
          split at hm
          · cases hm
          rename_i r1 h1
          split at h1
          · cases h1
          cases h1
          split at hm
          · cases hm
          split at hw
          · cases hw
          rename_i r2 h2
          split at h2
          · cases h2
          split at h2
          · cases h2
          cases h2
          exact ih hs' _ _ _ hm hw
    · simp only [fixedComp, modelLoop, weightedLoop, bind, Except.bind] at hm hw
      split at hm
      · cases hm
      split at hm
      · cases hm
      split at hw
      · cases hw
      exact ih hs' _ _ _ hm hw

theorem modelLoop_fixed [Add V] (batch : Int) (p : PyDict String V) (cs : List (String × LComp K V))
    (hf : ∀ c ∈ cs, ∃ nd hist w, c.2 = LComp.fixed nd hist w) (key k : K) (acc h : Grid V)
    (hm : modelLoop batch p cs key acc = .ok (k, h)) : ∀ key', modelLoop batch p cs key' acc = .ok (key', h) := by
  induction cs generalizing acc with
  | nil => cases hm; exact fun _ => rfl
  | cons c cs ih =>
    obtain ⟨n, c⟩ := c
    obtain ⟨nd, hist, w, rfl⟩ := hf (n, c) List.mem_cons_self
    intro key'
    simp only [modelLoop, bind, Except.bind] at hm ⊢
    cases hh : hist p with
    | error e => rw [hh] at hm; cases hm
    | ok g =>
      rw [hh] at hm
      simp only at hm ⊢
      cases ha : addGrid acc g with
      | error e => rw [ha] at hm; cases hm
      | ok a =>
        rw [ha] at hm
        exact ih (fun c hc => hf c (by simp [hc])) a hm key'

end
end Verif.Llh

namespace Verif.Ctx
open Verif

section
variable {K : Type}

theorem evalsTo_of_evals {batch : Int} {p : PyDict String XF} {ls : List (String × Obj K)} {key : K} {vs : List XF}
    (h : Evals batch p ls key vs) : ∃ k, EvalsTo batch p ls key vs k := by
  induction h with
  | nil k => exact ⟨k, .nil k⟩
  | cons h1 _ ih => exact ⟨_, .cons h1 ih.choose_spec⟩

theorem evals_of_evalsTo {batch : Int} {p : PyDict String XF} {ls : List (String × Obj K)} {key k : K} {vs : List XF}
    (h : EvalsTo batch p ls key vs k) : Evals batch p ls key vs := by
  induction h with
  | nil k => exact .nil k
  | cons h1 _ ih => exact .cons h1 ih

theorem givesLogL_unique {o : Obj K} {key k k' : K} {batch : Int} {p : PyDict String XF} {v v' : XF}
    (h : GivesLogL o key batch p k v) (h' : GivesLogL o key batch p k' v') : k = k' ∧ v = v' := by
  have a := logL_iff.2 h
  have b := logL_iff.2 h'
  rw [a] at b
  cases b
  exact ⟨rfl, rfl⟩

theorem evalsTo_unique {batch : Int} {p : PyDict String XF} {ls : List (String × Obj K)} {key k k' : K} {vs vs' : List XF}
    (h : EvalsTo batch p ls key vs k) (h' : EvalsTo batch p ls key vs' k') : vs = vs' ∧ k = k' := by
  induction h generalizing vs' with
  | nil k => cases h'; exact ⟨rfl, rfl⟩
  | cons h1 _ ih =>
    cases h' with
    | cons h1' h2' =>
      obtain ⟨rfl, rfl⟩ := givesLogL_unique h1 h1'
      obtain ⟨rfl, rfl⟩ := ih h2'
      exact ⟨rfl, rfl⟩

theorem evalsTo_append {batch : Int} {p : PyDict String XF} {ls ms : List (String × Obj K)} {key k : K} {vs : List XF} :
    EvalsTo batch p (ls ++ ms) key vs k ↔
      ∃ us ws k', EvalsTo batch p ls key us k' ∧ EvalsTo batch p ms k' ws k ∧ vs = us ++ ws := by
  induction ls generalizing key vs with
  | nil =>
    constructor
    · intro h
      exact ⟨[], vs, key, .nil _, h, rfl⟩
    · rintro ⟨us, ws, k', h1, h2, rfl⟩
      cases h1
      exact h2
  | cons c ls ih =>
    constructor
    · intro h
      cases h with
      | cons h1 h2 =>
        obtain ⟨us, ws, k', a, b, rfl⟩ := ih.1 h2
        exact ⟨_ :: us, ws, k', .cons h1 a, b, rfl⟩
    · rintro ⟨us, ws, k', h1, h2, rfl⟩
      cases h1 with
      | cons a b => exact .cons a (ih.2 ⟨_, _, _, b, h2, rfl⟩)

theorem xsum_map_add {ι : Type} (l : List ι) (f g : ι → XF) :
    XF.sum (l.map (fun i => f i + g i)) = XF.sum (l.map f) + XF.sum (l.map g) := by
  induction l with
  | nil => simp [XF.sum, XF.fin_zero_add]
  | cons a l ih =>
    simp only [List.map_cons, XF.sum_cons, ih]
    rw [XF.add_assoc', XF.add_assoc', ← XF.add_assoc' (g a), XF.add_comm' (g a), XF.add_assoc']

/-- Values added in every evaluation add their mean to the posterior. -/
theorem posterior_add (sig : Parameter.Solver) (order : List String) (keys : Nat → K) (c c' : Ctx K)
    (hpm : c'.pm = c.pm) (params : Parameter.Keys) (batch repeats : Int) (pm : Parameter.PM) (lp v : ℝ)
    (hset : Parameter.setParameter c.pm params .none = (pm, .ok ()))
    (hlp : Parameter.logPriorOver sig pm order = .ok (.fin lp))
    (hv : (logPosterior sig order keys c params batch repeats).2 = .ok (.fin v, .fin lp))
    (vals vals' : Nat → List XF) (w : Nat → ℝ)
    (h : ∀ i < evaluations repeats, Evals batch pm.vals c.likelihoods (keys i) (vals i))
    (h' : ∀ i < evaluations repeats, Evals batch pm.vals c'.likelihoods (keys i) (vals' i))
    (hw : ∀ i < evaluations repeats, XF.sum (vals' i) = XF.sum (vals i) + .fin (w i)) :
    (logPosterior sig order keys c' params batch repeats).2 =
      .ok (.fin (v + ((List.range (evaluations repeats)).map w).sum / evaluations repeats), .fin lp) := by
  have hpos : 0 < evaluations repeats := by unfold evaluations; omega
  have hne : ((evaluations repeats : ℕ) : ℝ) ≠ 0 := by positivity
  unfold logPosterior at hv ⊢
  rw [hpm]
  simp only [hset, hlp, bind, Except.bind, pure, Except.pure, XF.isFinite_fin, not_true_eq_false, if_false] at hv ⊢
  rw [repeated_of_evals (c := { c with pm := pm }) h] at hv
  rw [repeated_of_evals (c := { c' with pm := pm }) h']
  simp only [Except.ok.injEq, Prod.mk.injEq, and_true] at hv ⊢
  have e : XF.sum ((List.range (evaluations repeats)).map (fun i => XF.sum (vals' i) + XF.fin lp)) =
      XF.sum ((List.range (evaluations repeats)).map (fun i => XF.sum (vals i) + XF.fin lp)) +
        .fin (((List.range (evaluations repeats)).map w).sum) := by
    have : (List.range (evaluations repeats)).map (fun i => XF.sum (vals' i) + XF.fin lp) =
        (List.range (evaluations repeats)).map (fun i => (XF.sum (vals i) + XF.fin lp) + XF.fin (w i)) := by
      apply List.map_congr_left
      intro i hi
      rw [hw i (List.mem_range.1 hi), XF.add_assoc', XF.add_assoc', XF.add_comm' (.fin (w i))]
    rw [this, xsum_map_add]
    congr 1
    rw [← XF.sum_map_fin, List.map_map]
    rfl
  rw [e]
  generalize XF.sum ((List.range (evaluations repeats)).map (fun i => XF.sum (vals i) + XF.fin lp)) = A at hv ⊢
  cases A with
  | fin a =>
    rw [XF.fin_div_fin_of_ne _ hne] at hv
    rw [XF.fin_add_fin, XF.fin_div_fin_of_ne _ hne]
    cases hv
    congr 1
    ring
  | nan => simp at hv
  | pinf =>
    simp only [XF.infSign, XF.pinf_div_fin, XF.ninf_div_fin] at hv
    split_ifs at hv
  | ninf =>
    simp only [XF.infSign, XF.pinf_div_fin, XF.ninf_div_fin] at hv
    split_ifs at hv

end
end Verif.Ctx
