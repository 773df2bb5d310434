/-
Property theorems for likelihoods that share no fitted parameters (C157).
-/
import Verif.Lemmas.Blocks
import Verif.Props.Unread

namespace Verif.Walk
open Verif Parameter
open scoped ENNReal

section
variable {K : Type} {d : Nat}

/-- **C157 (exchange).** If every likelihood reads only fitted parameters of one block or only of the other, exchanging the parameters
of one block between two positions leaves the product of the posterior densities as it is, for all keys. -/
theorem C157_exchange (config : Config) (hc : config.keys.Nodup) (o : Settings) (c : Ctx.Ctx K) (hr : Reachable config c.pm)
    (hd : (parameterFit c.pm).length = d) (ho : o.order.Perm (parameterFit c.pm)) (S : Fin d → Bool) (hb : Blocks config c S)
    (x y : Fin d → ℝ) (keys : Nat → K) :
    density o c (mix S x y, keys) * density o c (mix S y x, keys) = density o c (x, keys) * density o c (y, keys) := by
  have ho' : ∀ k ∈ o.order, k ∈ parameterFit c.pm := fun k hk => ho.mem_iff.1 hk
  by_cases h : density o c (x, keys) ≠ 0 ∧ density o c (y, keys) ≠ 0
  · exact density_mix_of_pos hc hr hd ho' hb h.1 h.2
  · by_cases h' : density o c (mix S x y, keys) ≠ 0 ∧ density o c (mix S y x, keys) ≠ 0
    · have := density_mix_of_pos hc hr hd ho' hb h'.1 h'.2
      rw [mix_mix, mix_mix] at this
      exact this.symm
    · have z : ∀ a b : ℝ≥0∞, ¬ (a ≠ 0 ∧ b ≠ 0) → a * b = 0 := by
        intro a b hab
        by_cases ha : a = 0
        · simp [ha]
        · have hb : b = 0 := by by_contra hb; exact hab ⟨ha, hb⟩
          simp [hb]
      rw [z _ _ h, z _ _ h']

/-- **C157 (factors).** For given keys the posterior density is a product of one factor for each block, each of which depends on the
parameters of its block only: what the data say about one block does not depend on the other. -/
theorem C157_factors (config : Config) (hc : config.keys.Nodup) (o : Settings) (c : Ctx.Ctx K) (hr : Reachable config c.pm)
    (hd : (parameterFit c.pm).length = d) (ho : o.order.Perm (parameterFit c.pm)) (S : Fin d → Bool) (hb : Blocks config c S)
    (keys : Nat → K) :
    ∃ f g : (Fin d → ℝ) → ℝ≥0∞, (∀ x y, (∀ j, S j = true → x j = y j) → f x = f y) ∧ (∀ x y, (∀ j, S j = false → x j = y j) → g x = g y) ∧
      ∀ x, density o c (x, keys) = f x * g x := by
  by_cases h : ∃ y, density o c ((y : Fin d → ℝ), keys) ≠ 0
  · obtain ⟨y, hy⟩ := h
    have htop : density o c (y, keys) ≠ ⊤ := by
      obtain ⟨_, _, _, _, e⟩ := density_pos hc hr hy
      rw [e]
      exact ENNReal.ofReal_ne_top
    refine ⟨fun x => density o c (mix S x y, keys), fun x => density o c (mix S y x, keys) / density o c (y, keys), ?_, ?_, ?_⟩
    · intro x x' hx
      have : mix S x y = mix S x' y := by
        funext j
        unfold mix
        split
        · rename_i hj; exact hx j hj
        · rfl
      simp only [this]
    · intro x x' hx
      have : mix S y x = mix S y x' := by
        funext j
        unfold mix
        split
        · rfl
        · rename_i hj; exact hx j (by simpa using hj)
      simp only [this]
    · intro x
      have := C157_exchange config hc o c hr hd ho S hb x y keys
      rw [← mul_div_assoc, this, ENNReal.mul_div_cancel_right hy htop]
  · have h' : ∀ y : Fin d → ℝ, density o c (y, keys) = 0 := fun y => by_contra fun hy => h ⟨y, hy⟩
    exact ⟨fun _ => 0, fun _ => 0, fun _ _ _ => rfl, fun _ _ _ => rfl, fun x => by simp [h' x]⟩

end

/-! ### A concrete case: two counts, each with its own parameter -/

/-- The likelihood of the example of C115 for the parameter `h`, by an alias, beside the one for `g`. -/
noncomputable def otherObj : Ctx.Obj Bool :=
  .binned [("h", "g")] [[2]] ⟨[("er", .sim ["g"] (fun k _ p => do let v ← p.getItem "g"; return (k, [[if k then v else v * .fin (1 / 2)]]))
    (fun k _ _ => .ok (k, [])))], ["h"]⟩

noncomputable def bothConfig : Config :=
  [("g", ⟨.free, some (1, 10), some (2, 1)⟩), ("h", ⟨.norm 5 1, some (1, 10), some (5, 1)⟩)]

noncomputable def bothCtx : Ctx.Ctx Bool where
  parConfig := bothConfig
  pm := ⟨bothConfig, [], ["g", "h"], [("g", .fin 5), ("h", .fin 5)]⟩
  needed := ["g", "h"]
  likelihoods := [("a", exObj), ("b", otherObj)]

theorem bothReachable : Reachable bothConfig bothCtx.pm := by
  refine ⟨fun _ => none, fun _ => 5, [], ?_⟩
  have h : clip 5 1 10 = 5 := by norm_num [clip]
  have h1 : ¬ ((1 : ℝ) < 0) := by norm_num
  simp [run, mk, mkRaw, samplePrior, sampleLoop, samplePriorOne, clipRange, bothCtx, bothConfig, Prior.isFixed,
    PyDict.keys, PyDict.get?, PyDict.set, drawInit, drawNormal, bind, Except.bind, h1, h]

theorem bothFit : parameterFit bothCtx.pm = ["g", "h"] := by
  simp only [parameterFit, bothCtx]
  exact List.mergeSort_of_pairwise (by decide +kernel)

/-- The key of a likelihood of this form comes back as it was. -/
theorem keysAlike (al : PyDict String String) (data : Llh.Grid ℝ) (nd : List String) : (Ctx.Obj.binned al data
    ⟨[("er", .sim ["g"] (fun (k : Bool) _ p => do let v ← p.getItem "g"; return (k, [[if k then v else v * .fin (1 / 2)]]))
      (fun k _ _ => .ok (k, [])))], nd⟩).KeysAlike := by
  have alike : ∀ key batch p k v, (Ctx.Obj.binned al data
      ⟨[("er", .sim ["g"] (fun (k : Bool) _ p => do let v ← p.getItem "g"; return (k, [[if k then v else v * .fin (1 / 2)]]))
        (fun k _ _ => .ok (k, [])))], nd⟩).logL key batch p = .ok (k, v) → k = key := by
    intro key batch p k v h
    simp only [Ctx.Obj.logL, Llh.getLogLikelihood, Llh.simulateModelHist, Llh.modelLoop, bind, Except.bind, pure, Except.pure] at h
    cases hg : (Llh.replaceAlias al (Llh.replaceAlias al p)).getItem "g" with
    | error e => simp [hg] at h
    | ok z =>
      simp only [hg] at h
      cases ha : Llh.addGrid (Llh.zeros data) [[if key = true then z else z * XF.fin (1 / 2)]] with
      | error e => simp only [ha] at h; cases h
      | ok t =>
        simp only [ha] at h
        cases hl : Llh.llhOf data t with
        | error e => simp only [hl] at h; cases h
        | ok u => simp only [hl, Except.ok.injEq, Prod.mk.injEq] at h; exact h.1.symm
  intro key batch p q k k' v v' h h'
  exact (alike key batch p k v h).trans (alike key batch q k' v' h').symm

theorem bothBlocks : Blocks bothConfig bothCtx (fun j : Fin 2 => decide (j = 0)) := by
  intro m o h
  simp only [bothCtx, List.mem_cons, List.not_mem_nil, or_false, Prod.mk.injEq] at h
  rcases h with ⟨_, rfl⟩ | ⟨_, rfl⟩
  · refine ⟨keysAlike _ _ _, true, ["g"], ⟨⟨by simp [PyDict.keys], by simp [PyDict.keys], by simp⟩,
      ⟨by simp [PyDict.keys], by simp [PyDict.keys], by simp⟩, rfl, rfl, ?_⟩, by simp [bothConfig, PyDict.keys], ?_⟩
    · intro m' c hc
      simp only [List.mem_singleton, Prod.mk.injEq] at hc
      rw [hc.2]
      refine ⟨fun key batch p q hpq => by simp only [PyDict.getItem, hpq "g" (by simp)], fun r hr => ?_⟩
      simp only [Llh.LComp.needed, List.mem_singleton] at hr
      subst hr
      exact ⟨by simp [PyDict.keys], by simp [PyDict.keys], by simp [Llh.callerName], by simp [Llh.callerName]⟩
    · intro j k hj hk
      rw [bothFit] at hj
      simp only [List.mem_singleton] at hk
      subst hk
      match j, hj with
      | 0, _ => rfl
      | 1, hj => simp at hj
  · refine ⟨keysAlike _ _ _, false, ["h"], ⟨⟨by simp [PyDict.keys], by simp [PyDict.keys], by simp⟩,
      ⟨by simp [PyDict.keys], by simp [PyDict.keys], by simp⟩, rfl, rfl, ?_⟩, by simp [bothConfig, PyDict.keys], ?_⟩
    · intro m' c hc
      simp only [List.mem_singleton, Prod.mk.injEq] at hc
      rw [hc.2]
      refine ⟨fun key batch p q hpq => by simp only [PyDict.getItem, hpq "g" (by simp)], fun r hr => ?_⟩
      simp only [Llh.LComp.needed, List.mem_singleton] at hr
      subst hr
      exact ⟨by simp [PyDict.keys], by simp [PyDict.keys], by simp [Llh.callerName], by simp [Llh.callerName]⟩
    · intro j k hj hk
      rw [bothFit] at hj
      simp only [List.mem_singleton] at hk
      subst hk
      match j, hj with
      | 0, hj => simp at hj
      | 1, _ => rfl

/-- Non-vacuity of C157: three events with `g` expected and two with `h` expected, the second likelihood reading `h` by an alias. -/
example (a b a' b' : ℝ) (keys : Nat → Bool) : density ⟨fun _ => none, ["h", "g"], 1, 2, 2⟩ bothCtx (![a, b'], keys)
      * density ⟨fun _ => none, ["h", "g"], 1, 2, 2⟩ bothCtx (![a', b], keys)
    = density ⟨fun _ => none, ["h", "g"], 1, 2, 2⟩ bothCtx (![a, b], keys) * density ⟨fun _ => none, ["h", "g"], 1, 2, 2⟩ bothCtx (![a', b'], keys) := by
  have h := C157_exchange bothConfig (by simp [bothConfig, PyDict.keys]) ⟨fun _ => none, ["h", "g"], 1, 2, 2⟩ bothCtx bothReachable
    (by rw [bothFit]; rfl) (by rw [bothFit]; exact List.Perm.swap _ _ _) _ bothBlocks ![a, b] ![a', b'] keys
  have e1 : mix (fun j : Fin 2 => decide (j = 0)) ![a, b] ![a', b'] = ![a, b'] := by
    funext j; fin_cases j <;> simp [mix]
  have e2 : mix (fun j : Fin 2 => decide (j = 0)) ![a', b'] ![a, b] = ![a', b] := by
    funext j; fin_cases j <;> simp [mix]
  rwa [e1, e2] at h

end Verif.Walk
