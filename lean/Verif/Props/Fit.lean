/-
Property theorems C43 (posterior parameters) and C61 (crash points) about fitting and its backend (context.py).
-/
import Verif.Lemmas.Fit
import Verif.Props.Parameter

namespace Verif.Fit
open Verif Parameter

/-! ### C43: posterior parameters -/

section
variable {I : Type}

/-- **C43 (first query, part of the property).** While nothing is cached, the maximum posterior estimate is a sample with the
largest posterior of the current chain, its values assigned to the fitted parameters in order and the other parameters
untouched. -/
theorem C43_uncached_query_partial (med : List (List XF) → List XF) (w : World I) (hs : w.ctx.sampler = true)
    (h1 : w.ctx.logp = none) (h2 : w.ctx.chain = none) (hnd : (parameterFit w.ctx.pm).Nodup)
    (hg : GoodChain w.ctx.pm (iterations w)) :
    ∃ s p, IsBest (iterations w) s ∧ (getPost med w .mpe).2 = .ok p ∧ FromSample w.ctx.pm s p := by
  have hne : (iterations w).isEmpty = false := by
    cases hit : iterations w with
    | nil => exact absurd (by rw [hit]; rfl) hg.nonempty
    | cons a l => rfl
  obtain ⟨i, m, ha, hm, hmax⟩ := argmax_spec ((iterations w).flatten.map Sample.logp)
    (by
      intro hn
      obtain ⟨s, hs, he⟩ := List.mem_map.1 hn
      exact hg.noNaN s hs he)
    (by simpa using hg.nonempty)
  rw [List.getElem?_map] at hm
  cases hsi : (iterations w).flatten[i]? with
  | none => rw [hsi] at hm; cases hm
  | some s =>
    rw [hsi] at hm
    simp only [Option.map_some, Option.some.injEq] at hm
    have hmem : s ∈ (iterations w).flatten := List.mem_of_getElem? hsi
    refine ⟨s, _, ⟨hmem, ?_⟩, ?_, fromSample_update w.ctx.pm hnd s (hg.width s hmem)⟩
    · intro t ht
      rw [hm]
      exact hmax _ (List.mem_map.2 ⟨t, ht, rfl⟩)
    · unfold getPost
      rw [if_neg (by simp [hs, hne])]
      simp only [cache, h1, h2, Option.getD_none, Option.getD_some, choose]
      rw [ha]
      simp only [bind, Except.bind]
      rw [List.getElem?_map, hsi]
      rfl

/-- **C43 (random sample, part of the property).** While nothing is cached, a random query gives a sample of the current chain
for every drawn index inside it, and every sample of the chain can be drawn. -/
theorem C43_random_query_partial (med : List (List XF) → List XF) (w : World I) (hs : w.ctx.sampler = true)
    (h1 : w.ctx.logp = none) (h2 : w.ctx.chain = none) (hnd : (parameterFit w.ctx.pm).Nodup)
    (hg : GoodChain w.ctx.pm (iterations w)) (i : Nat) (s : Sample) (hi : (iterations w).flatten[i]? = some s) :
    ∃ p, (getPost med w (.random i)).2 = .ok p ∧ FromSample w.ctx.pm s p := by
  have hne : (iterations w).isEmpty = false := by
    cases hit : iterations w with
    | nil => exact absurd (by rw [hit]; rfl) hg.nonempty
    | cons a l => rfl
  refine ⟨_, ?_, fromSample_update w.ctx.pm hnd s (hg.width s (List.mem_of_getElem? hi))⟩
  unfold getPost
  rw [if_neg (by simp [hs, hne])]
  simp only [cache, h1, h2, Option.getD_none, Option.getD_some, choose]
  rw [List.getElem?_map, hi]
  rfl

/-- **C43 (nothing to query).** Before any fit, a query raises and caches nothing; an unknown kind of estimate is a
ValueError. -/
theorem C43_errors (med : List (List XF) → List XF) (w : World I) :
    (w.ctx.logp = none → w.ctx.sampler = false → ∀ which, getPost med w which = (w, .error .attributeError)) ∧
    (w.ctx.sampler = true → iterations w ≠ [] → (getPost med w .other).2 = .error .valueError) := by
  constructor
  · intro h1 h2 which
    unfold getPost
    rw [if_pos (by simp [h1, h2])]
  · intro h1 h2
    unfold getPost
    rw [if_neg (by simp [h1, h2])]
    rfl

/-- **C43 (first fit, part of the property).** A first fit with a file stores the parameters of a sample with the largest
posterior of the chain in the file, and a query afterwards returns the same. -/
theorem C43_first_fit_partial (med : List (List XF) → List XF) (w : World I) (hh : w.ctx.h5 = true)
    (h1 : w.ctx.logp = none) (h2 : w.ctx.chain = none) (nwalkers batch : Int) (steps : List (List Sample)) (pm : PM)
    (hnd : (parameterFit pm).Nodup) (hg : GoodChain pm steps) :
    ∃ s p, IsBest steps s ∧ FromSample pm s p ∧ (fitting med w nwalkers batch steps pm).2 = .ok () ∧
      iterations (fitting med w nwalkers batch steps pm).1 = steps ∧
      ((fitting med w nwalkers batch steps pm).1.file.bind (fun f => f.attrs.get? "post_parameters")) = some (.params p) ∧
      (getPost med (fitting med w nwalkers batch steps pm).1 .mpe).2 = .ok p := by
  have happ : ∀ (f : File I), applyAll (some f) (steps.map Write.append) = some { f with chain := f.chain ++ steps } := by
    have : ∀ (st : List (List Sample)) (f : File I),
        applyAll (some f) (st.map Write.append) = some { f with chain := f.chain ++ st } := by
      intro st
      induction st with
      | nil => intro f; simp [applyAll]
      | cons a st ih =>
        intro f
        have := ih { f with chain := f.chain ++ [a] }
        simp only [applyAll, List.map_cons, List.foldl_cons, apply, Option.getD_some] at this ⊢
        rw [this]
        simp
    exact this steps
  let w1 : World I := ⟨{ w.ctx with sampler := true, pm := pm },
    applyAll w.file (.reset nwalkers :: steps.map .append)⟩
  have hfile : w1.file = some { attrs := [("nwalkers", .int nwalkers)], chain := steps } := by
    simp only [w1, applyAll, List.foldl_cons, apply]
    have := happ { attrs := [("nwalkers", .int nwalkers)], chain := [] }
    simpa [applyAll] using this
  let w2 : World I := { w1 with file := applyAll w1.file metaBefore }
  have hit2 : iterations w2 = steps := by
    simp only [iterations, w2, w1, hh, if_true]
    have := hfile
    simp only [w1] at this
    rw [this]
    simp [applyAll, metaBefore, apply]
  obtain ⟨s, p, hbest, hpost, hfrom⟩ := C43_uncached_query_partial med w2 rfl h1 h2 hnd (by rw [hit2]; exact hg)
  rw [hit2] at hbest
  have hfit : fitting med w nwalkers batch steps pm =
      (⟨(getPost med w2 .mpe).1.ctx, applyAll (getPost med w2 .mpe).1.file
          (.attr "post_parameters" (.params p) :: metaAfter w.ctx.instruct (parameterFit pm) batch)⟩, .ok ()) := by
    have h := dumpMeta_ok med w1 batch hh _ p (Prod.ext rfl hpost)
    rw [← h]
    unfold fitting
    rw [if_pos hh]
  have hne : (iterations w2).isEmpty = false := by
    rw [hit2]
    cases steps with
    | nil => exact absurd rfl hg.nonempty
    | cons a l => rfl
  have hgp : (getPost med w2 .mpe).1 = cache w2 := by
    unfold getPost
    rw [if_neg (by simp [hne, w2, w1])]
  refine ⟨s, p, hbest, hfrom, by rw [hfit], ?_, ?_, ?_⟩
  · rw [hfit, hgp]
    simp only [iterations, cache, w2, w1, hh, if_true]
    have := hfile
    simp only [w1] at this
    rw [this]
    simp [applyAll, metaBefore, metaAfter, apply]
  · rw [hfit, hgp]
    simp only [cache, w2, w1]
    have := hfile
    simp only [w1] at this
    rw [this]
    simp [applyAll, metaBefore, metaAfter, apply, PyDict.set, PyDict.get?]
  · rw [hfit, hgp]
    unfold getPost
    rw [if_neg (by simp [cache])]
    have hpost' := hpost
    unfold getPost at hpost'
    rw [if_neg (by simp [hne, w2, w1])] at hpost'
    simp only [cache, Option.getD_some] at hpost' ⊢
    exact hpost'

/-- **C43 fails.** Once a query has been answered, or a fit has stored its metadata, no further fit or continuation changes the
samples queries choose from: whatever is run afterwards, a query answers from the old chain. -/
theorem C43_stale_after_query (med : List (List XF) → List XF) (w : World I) (L : List XF) (C : List (List XF))
    (h1 : w.ctx.logp = some L) (h2 : w.ctx.chain = some C) (ops : List Op) (which : Which) :
    ∃ pm, (ops.foldl (step med) w).ctx.pm = pm ∧
      (getPost med (ops.foldl (step med) w) which).2 = (do
        let v ← choose med L C which
        return pm.vals.update ((parameterFit pm).zip v)) := by
  have hstep : ∀ (w : World I) (op : Op), w.ctx.logp = some L → w.ctx.chain = some C →
      (step med w op).ctx.logp = some L ∧ (step med w op).ctx.chain = some C := by
    intro w op h1 h2
    cases op with
    | fitting n b s pm =>
      simp only [step, fitting]
      split
      · rw [dumpMeta_cached med _ b L C (by exact h1) (by exact h2)]; exact ⟨h1, h2⟩
      · rw [dumpMeta_cached med _ b L C (by exact h1) (by exact h2)]; exact ⟨h1, h2⟩
    | continueFitting b s pm =>
      simp only [step, continueFitting]
      split
      · exact ⟨h1, h2⟩
      · split
        · rw [dumpMeta_cached med _ b L C (by exact h1) (by exact h2)]; exact ⟨h1, h2⟩
        · exact ⟨h1, h2⟩
    | continueFrom b s pm =>
      simp only [step, continueFrom]
      split
      · rw [dumpMeta_cached med _ b L C (by exact h1) (by exact h2)]; exact ⟨h1, h2⟩
      · rw [dumpMeta_cached med _ b L C (by exact h1) (by exact h2)]; exact ⟨h1, h2⟩
    | getPost which =>
      simp only [step]
      rw [(getPost_cached med w which L C h1 h2).1]
      exact ⟨h1, h2⟩
  have hall : (ops.foldl (step med) w).ctx.logp = some L ∧ (ops.foldl (step med) w).ctx.chain = some C := by
    induction ops generalizing w with
    | nil => exact ⟨h1, h2⟩
    | cons op ops ih =>
      rw [List.foldl_cons]
      exact ih _ (hstep w op h1 h2).1 (hstep w op h1 h2).2
  exact ⟨_, rfl, (getPost_cached med _ which L C hall.1 hall.2).2⟩

/-- **C43 (continuing another context).** A context without a backend file then holds the new iterations only, and returns; with a
file the new iterations follow those already in the file, also when the call raises. -/
theorem C43_continue_from (med : List (List XF) → List XF) (w : World I) (batch : Int) (steps : List (List Sample)) (pm : PM) :
    (w.ctx.h5 = false → (continueFrom med w batch steps pm).2 = .ok () ∧ (continueFrom med w batch steps pm).1.file = w.file ∧
      iterations (continueFrom med w batch steps pm).1 = steps) ∧
    (w.ctx.h5 = true → (continueFrom med w batch steps pm).1.ctx.h5 = true ∧
      iterations (continueFrom med w batch steps pm).1 = iterations w ++ steps) := by
  constructor
  · intro h
    simp [continueFrom, h, dumpMeta, iterations]
  · intro h
    have hap : ∀ (f : Option (File I)), ((applyAll f (steps.map Write.append)).getD {}).chain = (f.getD {}).chain ++ steps := by
      intro f
      cases steps with
      | nil => simp [applyAll]
      | cons x xs =>
        have := applyAll_appends (x :: xs) (f.getD {})
        have h2 : applyAll f ((x :: xs).map Write.append) = applyAll (some (f.getD {})) ((x :: xs).map Write.append) := by
          simp [applyAll, apply]
        rw [h2, this]
        rfl
    have hm : ∀ (post : PyDict String XF) (i : I) (names : List String) (b : Int) (k : Nat) (f : Option (File I)),
        ((applyAll f ((metaWrites post i names b).take k)).getD {}).chain = (f.getD {}).chain := by
      intro post i names b k f
      have hat : ∀ (ws : List (Write I)) (f : Option (File I)), (∀ x ∈ ws, ∃ n v, x = Write.attr n v) →
          ((applyAll f ws).getD {}).chain = (f.getD {}).chain := by
        intro ws
        induction ws with
        | nil => intro f _; rfl
        | cons x xs ih =>
          intro f hx
          obtain ⟨n, v, rfl⟩ := hx x (by simp)
          have := ih (apply f (.attr n v)) (fun y hy => hx y (by simp [hy]))
          simp only [applyAll, List.foldl_cons] at this ⊢
          rw [this]
          rfl
      apply hat
      intro x hx
      have hx := List.mem_of_mem_take hx
      simp only [metaWrites, metaBefore, metaAfter, List.mem_append, List.mem_cons, List.not_mem_nil, or_false] at hx
      rcases hx with (rfl | rfl) | rfl | rfl | rfl | rfl | rfl | rfl | rfl | rfl <;> exact ⟨_, _, rfl⟩
    have hh5 : ∀ (w : World I) (b : Int), (dumpMeta med w b).1.ctx.h5 = w.ctx.h5 := by
      intro w b
      unfold dumpMeta
      split
      · rfl
      · cases hg : getPost med { w with file := applyAll w.file metaBefore } .mpe with
        | mk w2 res =>
          have : w2.ctx.h5 = w.ctx.h5 := by
            have hx : (getPost med { w with file := applyAll w.file metaBefore } .mpe).1.ctx.h5 = w.ctx.h5 := by
              unfold getPost
              split
              · rfl
              · rfl
            rw [hg] at hx; exact hx
          cases res <;> simp only [hg] <;> exact this
    unfold continueFrom
    rw [if_pos h]
    obtain ⟨post, k, h1, _⟩ := dumpMeta_writes med
      ⟨{ w.ctx with sampler := true, pm := pm }, applyAll w.file (steps.map .append)⟩ batch h
    have hf := hh5 ⟨{ w.ctx with sampler := true, pm := pm }, applyAll w.file (steps.map .append)⟩ batch
    refine ⟨hf.trans h, ?_⟩
    unfold iterations
    rw [if_pos (hf.trans h), if_pos h, h1, hm, hap]

/-- One free parameter. -/
noncomputable def exPM (x : ℝ) : PM := ⟨[("g", ⟨.free, some (0, 10), some (2, 1)⟩)], [], ["g"], [("g", .fin x)]⟩

/-- The context of the example after its first fit. -/
noncomputable def exFitted (x : ℝ) : Ctx Unit :=
  { instruct := (), h5 := true, pm := exPM x, sampler := true, mem := [], logp := some [.fin (-5)], chain := some [[.fin 1]] }

theorem exPM_fit (x : ℝ) : parameterFit (exPM x) = ["g"] := by simp [parameterFit, exPM]

/-- **C43 fails (stored metadata).** A fit finds a sample with log posterior -5; its continuation finds one with -1.  The file
then holds both samples, but the stored parameters, and the ones a query returns, are those of the first. -/
theorem C43_continuation_keeps_old_estimate (med : List (List XF) → List XF) :
    let w0 : World Unit := ⟨{ instruct := (), h5 := true, pm := exPM 5 }, none⟩
    let w1 := (fitting med w0 1 1 [[⟨[.fin 1], .fin (-5)⟩]] (exPM 1)).1
    let w2 := (continueFitting med w1 1 [[⟨[.fin 2], .fin (-1)⟩]] (exPM 2)).1
    (continueFitting med w1 1 [[⟨[.fin 2], .fin (-1)⟩]] (exPM 2)).2 = .ok () ∧
    IsBest (iterations w2) ⟨[.fin 2], .fin (-1)⟩ ∧
    (w2.file.bind (fun f => f.attrs.get? "post_parameters")) = some (.params [("g", .fin 1)]) ∧
    (getPost med w2 .mpe).2 = .ok [("g", .fin 1)] := by
  intro w0 w1 w2
  have hw1 : w1 = ⟨exFitted 1, applyAll none (fitWrites 1 [[⟨[.fin 1], .fin (-5)⟩]] [("g", .fin 1)] () ["g"] 1)⟩ := by
    simp only [w1, w0, fitting, dumpMeta, getPost, cache, iterations, applyAll, metaBefore, metaAfter, fitWrites, apply, choose,
      argmax, argmaxFrom, exPM_fit]
    simp [apply, bind, Except.bind, pure, Except.pure, exPM, PyDict.update, PyDict.set, exFitted, argmaxFrom, parameterFit]
  have hres : continueFitting med w1 1 [[⟨[.fin 2], .fin (-1)⟩]] (exPM 2) =
      (⟨exFitted 2,
      applyAll w1.file (continueWrites [[⟨[.fin 2], .fin (-1)⟩]] [("g", .fin 1)] () ["g"] 1)⟩, .ok ()) := by
    rw [hw1]
    simp only [exFitted, continueFitting, dumpMeta, getPost, cache, iterations, applyAll, metaBefore, metaAfter, fitWrites,
      continueWrites, apply, choose, argmax, argmaxFrom, exPM_fit]
    simp [apply, bind, Except.bind, pure, Except.pure, exPM, PyDict.update, PyDict.set, exFitted, argmaxFrom, parameterFit]
  have hw2 : w2 = _ := congrArg Prod.fst hres
  refine ⟨by rw [hres], ?_, ?_, ?_⟩
  · rw [hw2, hw1]
    constructor
    · simp [exFitted, iterations, applyAll, fitWrites, continueWrites, metaBefore, metaAfter, apply]
    · simp [exFitted, iterations, applyAll, fitWrites, continueWrites, metaBefore, metaAfter, apply]
      try norm_num
  · rw [hw2, hw1]
    simp [applyAll, fitWrites, continueWrites, metaBefore, metaAfter, apply, PyDict.set, PyDict.get?]
  · rw [hw2]
    have := (getPost_cached med (⟨exFitted 2,
      applyAll w1.file (continueWrites [[⟨[.fin 2], .fin (-1)⟩]] [("g", .fin 1)] () ["g"] 1)⟩ : World Unit)
      .mpe [.fin (-5)] [[.fin 1]] rfl rfl).2
    rw [this]
    simp [choose, argmax, argmaxFrom, bind, Except.bind, pure, Except.pure, exPM_fit, exFitted]
    simp [exPM, PyDict.update, PyDict.set]

/-- Non-vacuity of the first-fit theorem. -/
example : GoodChain (exPM 1) [[⟨[.fin 1], .fin (-5)⟩, ⟨[.fin 3], .ninf⟩], [⟨[.fin 2], .fin (-1)⟩, ⟨[.fin 4], .fin (-1)⟩]] := by
  refine ⟨by simp, ?_, ?_⟩
  · intro s hs; simp at hs; rcases hs with rfl | rfl | rfl | rfl <;> simp
  · intro s hs; simp at hs; rw [exPM_fit]; rcases hs with rfl | rfl | rfl | rfl <;> simp

/-- Non-vacuity of `C43_continue_from`: a context in memory that had one iteration, and a file with one. -/
example (med : List (List XF) → List XF) (pm : PM) :
    let one : List Sample := [⟨[.fin 1], .fin (-5)⟩]
    let two : List Sample := [⟨[.fin 2], .fin (-1)⟩]
    iterations (continueFrom med ⟨{ instruct := "a", h5 := false, pm := pm, mem := [one] }, none⟩ 100 [two] pm).1 = [two] ∧
    iterations (continueFrom med ⟨{ instruct := "a", h5 := true, pm := pm }, some { chain := [one] }⟩ 100 [two] pm).1 = [one, two] := by
  intro one two
  exact ⟨((C43_continue_from med _ 100 [two] pm).1 rfl).2.2, ((C43_continue_from med _ 100 [two] pm).2 rfl).2⟩

end

/-! ### C61: crash points -/

section
variable {I : Type}

/-- **C61 (what a fit writes).** What a fit leaves in the file, also when it raises, is the effect of a first part of the
writes `fitWrites`, and of all of them when it returns. -/
theorem C61_fit_writes (med : List (List XF) → List XF) (w : World I) (hh : w.ctx.h5 = true) (nwalkers batch : Int)
    (steps : List (List Sample)) (pm : PM) :
    ∃ post k, (fitting med w nwalkers batch steps pm).1.file = applyAll w.file
        ((fitWrites nwalkers steps post w.ctx.instruct (parameterFit pm) batch).take k) ∧
      ((fitting med w nwalkers batch steps pm).2 = .ok () →
        (fitWrites nwalkers steps post w.ctx.instruct (parameterFit pm) batch).length ≤ k) := by
  unfold fitting
  rw [if_pos hh]
  obtain ⟨post, k, h1, h2⟩ := dumpMeta_writes med
    ⟨{ w.ctx with sampler := true, pm := pm }, applyAll w.file (.reset nwalkers :: steps.map .append)⟩ batch hh
  refine ⟨post, (1 + steps.length) + k, ?_, ?_⟩
  · rw [h1, ← applyAll_append]
    congr 1
    have : fitWrites nwalkers steps post w.ctx.instruct (parameterFit pm) batch =
        (.reset nwalkers :: steps.map .append) ++ metaWrites post w.ctx.instruct (parameterFit pm) batch := by
      simp [fitWrites, metaWrites]
    rw [this, take_add_append _ _ _ k (by simp; omega)]
  · intro h
    have := h2 h
    simp [fitWrites, metaBefore, metaAfter]
    omega

/-- **C61 (what a continuation writes).** -/
theorem C61_continuation_writes (med : List (List XF) → List XF) (w : World I) (hh : w.ctx.h5 = true)
    (hs : w.ctx.sampler = true) (hi : iterations w ≠ []) (batch : Int) (steps : List (List Sample)) (pm : PM) :
    ∃ post k, (continueFitting med w batch steps pm).1.file = applyAll w.file
        ((continueWrites steps post w.ctx.instruct (parameterFit pm) batch).take k) ∧
      ((continueFitting med w batch steps pm).2 = .ok () →
        (continueWrites steps post w.ctx.instruct (parameterFit pm) batch).length ≤ k) := by
  unfold continueFitting
  rw [if_neg (by simp [hs, hi]), if_pos hh]
  obtain ⟨post, k, h1, h2⟩ := dumpMeta_writes med
    ⟨{ w.ctx with pm := pm }, applyAll w.file (steps.map .append)⟩ batch hh
  refine ⟨post, steps.length + k, ?_, ?_⟩
  · rw [h1, ← applyAll_append]
    congr 1
    have : continueWrites steps post w.ctx.instruct (parameterFit pm) batch =
        steps.map .append ++ metaWrites post w.ctx.instruct (parameterFit pm) batch := by
      simp [continueWrites, metaWrites]
    rw [this, take_add_append _ _ _ k (by simp)]
  · intro h
    have := h2 h
    simp [continueWrites, metaBefore, metaAfter]
    omega

/-- **C61 (order).** Stop a first fit after any number of its writes: the attributes in the file are the first ones of a fixed list,
so the presence of any of them shows that all earlier ones are there. -/
theorem C61_attributes_in_order (nwalkers batch : Int) (steps : List (List Sample)) (post : PyDict String XF) (i : I)
    (names : List String) (k : Nat) (f : File I)
    (h : applyAll none ((fitWrites nwalkers steps post i names batch).take k) = some f) :
    f.attrs.keys = ["nwalkers", "metadata", "par_config", "post_parameters", "parameter_fit", "instruct", "config", "_cached_configs",
      "batch_size", "acceptance_fraction", "autocorr_time"].take (1 + (k - (1 + steps.length))) := by
  cases k with
  | zero => simp [applyAll] at h
  | succ k =>
    have hw : fitWrites nwalkers steps post i names batch =
        .reset nwalkers :: (steps.map .append ++ metaWrites post i names batch) := by
      simp [fitWrites, metaWrites]
    rw [hw, List.take_succ_cons] at h
    simp only [applyAll, List.foldl_cons, apply] at h
    change applyAll (some { attrs := [("nwalkers", .int nwalkers)], chain := [] })
      ((steps.map Write.append ++ metaWrites post i names batch).take k) = some f at h
    rcases Nat.lt_or_ge k steps.length with hk | hk
    · have ht : (steps.map Write.append ++ metaWrites post i names batch).take k =
          (steps.take k).map Write.append := by
        rw [List.take_append_of_le_length (by simpa using hk.le), List.map_take]
      rw [ht, applyAll_appends, Option.some.injEq] at h
      subst h
      have : k + 1 - (1 + steps.length) = 0 := by omega
      rw [this]
      rfl
    · obtain ⟨j, rfl⟩ := Nat.exists_eq_add_of_le hk
      rw [take_add_append _ _ _ j (by simp), applyAll_append, applyAll_appends] at h
      have : steps.length + j + 1 - (1 + steps.length) = j := by omega
      rw [this]
      have hj : j = 0 ∨ j = 1 ∨ j = 2 ∨ j = 3 ∨ j = 4 ∨ j = 5 ∨ j = 6 ∨ j = 7 ∨ j = 8 ∨ j = 9 ∨ 10 ≤ j := by omega
      rcases hj with rfl | rfl | rfl | rfl | rfl | rfl | rfl | rfl | rfl | rfl | hj <;> try
        (simp only [metaWrites, metaBefore, metaAfter, List.cons_append, List.nil_append, List.take_succ_cons, List.take_zero, applyAll,
          List.foldl_cons, List.foldl_nil, apply, Option.getD_some, Option.some.injEq] at h
         subst h
         rfl)
      rw [List.take_of_length_le (by rw [metaWrites_length]; exact hj)] at h
      rw [List.take_of_length_le (by simp; omega)]
      simp only [metaWrites, metaBefore, metaAfter, List.cons_append, List.nil_append, applyAll,
          List.foldl_cons, List.foldl_nil, apply, Option.getD_some, Option.some.injEq] at h
      subst h
      rfl

/-- Non-vacuity: a fit of one iteration stopped after its posterior parameters. -/
example : ∃ f, applyAll none ((fitWrites (I := Unit) 4 [[]] [("g", .fin 1)] () ["g"] 1).take 5) = some f ∧
    f.attrs.keys = ["nwalkers", "metadata", "par_config", "post_parameters"] := ⟨_, rfl, rfl⟩

/-- **C61 (a fit that crashes, part of the property).** Stop a fit after any number of its writes, over any earlier file.
Before the first write the file is as it was; afterwards reading it back raises KeyError or gives the instruction, number of
walkers and batch size of this fit, and then all its iterations and its posterior parameters are there. -/
theorem C61_crashed_fit_partial (f0 : Option (File I)) (m : FitMeta I) (steps : List (List Sample)) (post : PyDict String XF)
    (names : List String) (k : Nat) :
    let g := applyAll f0 ((fitWrites m.nwalkers steps post m.instruct names m.batch).take k)
    (k = 0 ∧ g = f0) ∨ fromBackend g = .error .keyError ∨
      (fromBackend g = .ok m.answer ∧ ∃ h, g = some h ∧ h.chain = steps ∧
        h.attrs.get? "post_parameters" = some (.params post)) := by
  intro g
  cases k with
  | zero => exact .inl ⟨rfl, by simp [g, applyAll]⟩
  | succ k =>
    right
    have hw : fitWrites m.nwalkers steps post m.instruct names m.batch =
        .reset m.nwalkers :: (steps.map .append ++ metaWrites post m.instruct names m.batch) := by
      simp [fitWrites, metaWrites]
    have hg : g = applyAll (some { attrs := [("nwalkers", .int m.nwalkers)], chain := [] })
        ((steps.map Write.append ++ metaWrites post m.instruct names m.batch).take k) := by
      simp only [g, hw, List.take_succ_cons, applyAll, List.foldl_cons, apply]
    rcases Nat.lt_or_ge k steps.length with hk | hk
    · have ht : (steps.map Write.append ++ metaWrites post m.instruct names m.batch).take k =
          (steps.take k).map Write.append := by
        rw [List.take_append_of_le_length (by simpa using hk.le), List.map_take]
      rw [ht, applyAll_appends] at hg
      left
      rw [hg]
      simp [fromBackend, PyDict.getItem, PyDict.get?, bind, Except.bind]
    · have ht : (steps.map Write.append ++ metaWrites post m.instruct names m.batch).take k =
          steps.map Write.append ++ (metaWrites post m.instruct names m.batch).take (k - steps.length) := by
        rw [List.take_append, List.take_of_length_le (by simpa using hk), List.length_map]
      rw [ht, applyAll_append, applyAll_appends] at hg
      obtain ⟨h, h1, h2, h3, h4, h5, h6⟩ := fromBackend_meta
        { attrs := [("nwalkers", .int m.nwalkers)], chain := [] ++ steps } post m.instruct names m.batch (k - steps.length)
      rw [h1] at hg
      simp only [PyDict.get?, if_true] at h3 h4 h5 h6
      rw [hg]
      by_cases h8 : 8 ≤ k - steps.length
      · right
        rw [if_pos h8] at h5
        rw [if_pos (by omega)] at h4 h6
        refine ⟨?_, h, rfl, by rw [h2]; rfl, h6⟩
        simp [fromBackend, PyDict.getItem, h3, h4, h5, bind, Except.bind, pure, Except.pure, FitMeta.answer]
      · left
        rw [if_neg h8] at h5
        by_cases h5' : 5 ≤ k - steps.length
        · rw [if_pos h5'] at h4
          simp [fromBackend, PyDict.getItem, h3, h4, h5, bind, Except.bind]
        · rw [if_neg h5'] at h4
          simp [fromBackend, PyDict.getItem, h4, bind, Except.bind]

/-- **C61 (histories of fits, part of the property).** After any sequence of fits into one file, each complete or stopped
anywhere, reading the file back gives the metadata of the last fit that wrote anything, or raises. -/
theorem C61_history_of_fits_partial (runs : List (Run I)) (a : Attr I × Attr I × Attr I)
    (h : fromBackend (applyAll none (runs.flatMap Run.writes)) = .ok a) :
    ∃ pre r post, runs = pre ++ r :: post ∧ 0 < r.done ∧ (∀ s ∈ post, s.done = 0) ∧ a = r.info.answer := by
  induction runs using List.reverseRecOn with
  | nil => cases h
  | append_singleton runs r ih =>
    rw [List.flatMap_append, applyAll_append] at h
    simp only [List.flatMap_cons, List.flatMap_nil, List.append_nil] at h
    rcases C61_crashed_fit_partial (applyAll none (runs.flatMap Run.writes)) r.info r.steps r.post r.names r.done with
      ⟨h0, h1⟩ | h1 | ⟨h1, _⟩
    · have h' : fromBackend (applyAll none (runs.flatMap Run.writes)) = .ok a := by
        rw [← h1]; exact h
      obtain ⟨pre, q, post, e1, e2, e3, e4⟩ := ih h'
      refine ⟨pre, q, post ++ [r], by rw [e1]; simp, e2, ?_, e4⟩
      intro s hs
      rcases List.mem_append.1 hs with hs | hs
      · exact e3 s hs
      · rw [List.mem_singleton.1 hs]; exact h0
    · have h' := h1.symm.trans h
      cases h'
    · by_cases h0 : r.done = 0
      · have h' : fromBackend (applyAll none (runs.flatMap Run.writes)) = .ok a := by
          simp only [Run.writes, h0, List.take_zero] at h
          simpa [applyAll] using h
        obtain ⟨pre, q, post, e1, e2, e3, e4⟩ := ih h'
        refine ⟨pre, q, post ++ [r], by rw [e1]; simp, e2, ?_, e4⟩
        intro s hs
        rcases List.mem_append.1 hs with hs | hs
        · exact e3 s hs
        · rw [List.mem_singleton.1 hs]; exact h0
      · have h' := h1.symm.trans h
        cases h'
        exact ⟨runs, r, [], rfl, by omega, by simp, rfl⟩

/-- **C61 (continuation, part of the property).** Continue a fit whose file reads back as `m0`, with an instruction and a batch
size of which at least one is unchanged; stop after any number of writes.  The file reads back as before or as after. -/
theorem C61_crashed_continuation_partial (f0 : File I) (m0 m : FitMeta I) (hw : m.nwalkers = m0.nwalkers)
    (h0 : fromBackend (some f0) = .ok m0.answer) (hsame : m.instruct = m0.instruct ∨ m.batch = m0.batch)
    (steps : List (List Sample)) (post : PyDict String XF) (names : List String) (k : Nat) :
    let g := applyAll (some f0) ((continueWrites steps post m.instruct names m.batch).take k)
    fromBackend g = .ok m0.answer ∨ fromBackend g = .ok m.answer := by
  intro g
  have hattrs : f0.attrs.get? "instruct" = some (.instruct m0.instruct) ∧
      f0.attrs.get? "nwalkers" = some (.int m0.nwalkers) ∧ f0.attrs.get? "batch_size" = some (.int m0.batch) := by
    simp only [fromBackend, PyDict.getItem, bind, Except.bind, pure, Except.pure, FitMeta.answer] at h0
    cases h1 : f0.attrs.get? "instruct" with
    | none => simp [h1] at h0
    | some a =>
      cases h2 : f0.attrs.get? "nwalkers" with
      | none => simp [h1, h2] at h0
      | some b =>
        cases h3 : f0.attrs.get? "batch_size" with
        | none => simp [h1, h2, h3] at h0
        | some c => simpa [h1, h2, h3] using h0
  obtain ⟨a1, a2, a3⟩ := hattrs
  have hwr : continueWrites steps post m.instruct names m.batch =
      steps.map .append ++ metaWrites post m.instruct names m.batch := by
    simp [continueWrites, metaWrites]
  rcases Nat.lt_or_ge k steps.length with hk | hk
  · have ht : (continueWrites steps post m.instruct names m.batch).take k = (steps.take k).map Write.append := by
      rw [hwr, List.take_append_of_le_length (by simpa using hk.le), List.map_take]
    left
    simp only [g]
    rw [ht, applyAll_appends]
    simp [fromBackend, PyDict.getItem, a1, a2, a3, bind, Except.bind, pure, Except.pure, FitMeta.answer]
  · have ht : (continueWrites steps post m.instruct names m.batch).take k =
        steps.map Write.append ++ (metaWrites post m.instruct names m.batch).take (k - steps.length) := by
      rw [hwr, List.take_append, List.take_of_length_le (by simpa using hk), List.length_map]
    simp only [g]
    rw [ht, applyAll_append, applyAll_appends]
    obtain ⟨h, h1, h2, h3, h4, h5, h6⟩ := fromBackend_meta
      { f0 with chain := f0.chain ++ steps } post m.instruct names m.batch (k - steps.length)
    rw [h1]
    simp only [a1, a2, a3] at h3 h4 h5
    have hread : fromBackend (some h) = .ok
        (.instruct (if 5 ≤ k - steps.length then m.instruct else m0.instruct), .int m0.nwalkers,
          .int (if 8 ≤ k - steps.length then m.batch else m0.batch)) := by
      simp only [fromBackend, PyDict.getItem, h3, h4, h5, ← apply_ite some, ← apply_ite Attr.instruct, ← apply_ite Attr.int]
      rfl
    rw [hread]
    simp only [FitMeta.answer, hw]
    by_cases h8 : 8 ≤ k - steps.length
    · right; rw [if_pos h8, if_pos (by omega)]
    · by_cases h5 : 5 ≤ k - steps.length
      · rw [if_neg h8, if_pos h5]
        rcases hsame with hs | hs
        · left; rw [hs]
        · right; rw [hs]
      · left; rw [if_neg h8, if_neg h5]

/-- **C61 fails.** A continuation with another instruction and another batch size, stopped between the two writes, leaves a file
that reads back without error as the new instruction with the old batch size: neither fit. -/
theorem C61_continuation_half_read (i0 i : I) (hi : i ≠ i0) (b0 b : Int) (hb : b ≠ b0) (n : Int)
    (s0 s : List (List Sample)) (post0 post : PyDict String XF) (names : List String) :
    ∃ k, let f0 := applyAll none (fitWrites n s0 post0 i0 names b0)
      let g := applyAll f0 ((continueWrites s post i names b).take k)
      fromBackend f0 = .ok (FitMeta.answer ⟨i0, n, b0⟩) ∧ fromBackend g = .ok (FitMeta.answer ⟨i, n, b0⟩) ∧
      FitMeta.answer ⟨i, n, b0⟩ ≠ FitMeta.answer ⟨i0, n, b0⟩ ∧ FitMeta.answer ⟨i, n, b0⟩ ≠ FitMeta.answer ⟨i, n, b⟩ := by
  refine ⟨s.length + 6, ?_⟩
  have hfull : ∃ h, applyAll none (fitWrites n s0 post0 i0 names b0) = some h ∧
      h.attrs.get? "nwalkers" = some (.int n) ∧ h.attrs.get? "instruct" = some (.instruct i0) ∧
      h.attrs.get? "batch_size" = some (.int b0) := by
    have hw : fitWrites n s0 post0 i0 names b0 =
        .reset n :: (s0.map .append ++ metaWrites post0 i0 names b0) := by
      simp [fitWrites, metaWrites]
    obtain ⟨h, h1, h2, h3, h4, h5, h6⟩ := fromBackend_meta
      { attrs := [("nwalkers", .int n)], chain := [] ++ s0 } post0 i0 names b0 10
    rw [List.take_of_length_le (by rw [metaWrites_length])] at h1
    refine ⟨h, ?_, ?_, ?_, ?_⟩
    · rw [hw, ← h1]
      have := applyAll_appends s0 ({ attrs := [("nwalkers", .int n)], chain := [] } : File I)
      rw [← this, ← applyAll_append]
      rfl
    · rw [h3]; rfl
    · rw [h4]; rfl
    · rw [h5]; rfl
  obtain ⟨h, h1, h2, h3, h4⟩ := hfull
  simp only [h1]
  have hwr : (continueWrites s post i names b).take (s.length + 6) =
      s.map .append ++ (metaWrites post i names b).take 6 := by
    have : continueWrites s post i names b = s.map .append ++ metaWrites post i names b := by
      simp [continueWrites, metaWrites]
    rw [this, List.take_append, List.take_of_length_le (by simp), List.length_map, Nat.add_sub_cancel_left]
  rw [hwr, applyAll_append, applyAll_appends]
  obtain ⟨g, g1, g2, g3, g4, g5, g6⟩ := fromBackend_meta { h with chain := h.chain ++ s } post i names b 6
  rw [g1]
  simp only [h2, h3, h4] at g3 g4 g5
  refine ⟨?_, ?_, ?_, ?_⟩
  · simp [fromBackend, PyDict.getItem, h2, h3, h4, bind, Except.bind, pure, Except.pure, FitMeta.answer]
  · simp [fromBackend, PyDict.getItem, g3, g4, g5, bind, Except.bind, pure, Except.pure, FitMeta.answer]
  · simp [FitMeta.answer, hi]
  · simp [FitMeta.answer, Ne.symm hb]

/-- A whole fit reads back as itself; stopped one write before the batch size it is rejected. -/
example : fromBackend (applyAll none (fitWrites 4 [[]] [] "a" ["g"] 100)) = .ok (.instruct "a", .int 4, .int 100) := by
  simp [fitWrites, metaBefore, metaAfter, applyAll, apply, fromBackend, PyDict.getItem, PyDict.get?, PyDict.set, bind,
    Except.bind, pure, Except.pure]

example : fromBackend (applyAll none ((fitWrites 4 [[]] [] "a" ["g"] 100).take 9)) = .error .keyError := by
  simp [fitWrites, metaBefore, metaAfter, applyAll, apply, fromBackend, PyDict.getItem, PyDict.get?, PyDict.set, bind,
    Except.bind]

end
end Verif.Fit
