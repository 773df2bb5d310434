/-
Property theorems for giving parameters other names (C155).
-/
import Verif.Lemmas.Renaming
import Verif.Lemmas.Fixing
import Verif.Props.Unread

namespace Verif.Ctx
open Verif Parameter

section
variable {K : Type}

/-- **C155 (likelihood).** A likelihood has the same value, and uses the same random numbers, when its parameters are given under other
names and the aliases are those of the new names. -/
theorem C155_likelihood (ρ : String → String) (names : List String) (o o' : Obj K) (ho : Obj.Renamed ρ names o o') (p q : PyDict String XF)
    (hpq : ∀ k ∈ names, q.get? (ρ k) = p.get? k) (hin : ∀ k ∈ names, ∃ v, p.get? k = some v) (key : K) (batch : Int) :
    o'.logL key batch q = o.logL key batch p := renamed_logL ho hpq hin key batch

/-- **C155 (fitted).** The fitted parameters are those that were fitted before, under their new names. -/
theorem C155_fitted {ρ : String → String} {config config' : Config} {c c' : Ctx K} (h : Renaming ρ config config' c c')
    (hc : config.keys.Nodup) : (parameterFit c'.pm).Perm ((parameterFit c.pm).map ρ) := by
  have hmem : ∀ k ∈ parameterFit c.pm, k ∈ config.keys := by
    intro k hk
    obtain ⟨s, hs, _⟩ := (mem_parameterFit h.reach.inv hc k).1 hk
    exact (PyDict.mem_keys_iff_exists _ _).2 ⟨s, hs⟩
  have hk' : config'.keys = config.keys.map ρ := by rw [h.settings, renameKeys_keys]
  have hc' : config'.keys.Nodup := by
    rw [hk']
    exact List.Nodup.map_on (fun a ha b hb => h.inj a ha b hb) hc
  have hget : ∀ k ∈ config.keys, config'.get? (ρ k) = config.get? k := by
    intro k hk
    rw [h.settings]
    exact renameKeys_get h.inj config (fun _ hk => hk) hk
  rw [List.perm_ext_iff_of_nodup (parameterFit_nodup h.reach'.inv hc')
    (List.Nodup.map_on (fun a ha b hb => h.inj a (hmem a ha) b (hmem b hb)) (parameterFit_nodup h.reach.inv hc))]
  intro x
  rw [mem_parameterFit h.reach'.inv hc', List.mem_map]
  constructor
  · rintro ⟨s, hs, hp⟩
    have : x ∈ config'.keys := (PyDict.mem_keys_iff_exists _ _).2 ⟨s, hs⟩
    rw [hk', List.mem_map] at this
    obtain ⟨k, hk, rfl⟩ := this
    exact ⟨k, (mem_parameterFit h.reach.inv hc k).2 ⟨s, by rw [← hget k hk]; exact hs, hp⟩, rfl⟩
  · rintro ⟨k, hk, rfl⟩
    obtain ⟨s, hs, hp⟩ := (mem_parameterFit h.reach.inv hc k).1 hk
    exact ⟨s, by rw [hget k (hmem k hk)]; exact hs, hp⟩

/-- **C155 (posterior).** At the same values under the new names the log posterior and the log prior are the same, for the same keys
and whatever the orders in which the prior walks its sets, wherever the log prior is finite. -/
theorem C155_posterior {ρ : String → String} {config config' : Config} {c c' : Ctx K} (h : Renaming ρ config config' c c')
    (sig : Solver) (order order' : List String) (ho : order'.Perm (order.map ρ)) (hin : ∀ k ∈ order, k ∈ config.keys)
    (d : PyDict String XF) (hd : ∀ k ∈ d.keys, k ∈ config.keys) (keys : Nat → K) (batch repeats : Int) (w : XF) (lp : ℝ) :
    (logPosterior sig order' keys c' (.dict (renameKeys ρ d)) batch repeats).2 = .ok (w, .fin lp) ↔
      (logPosterior sig order keys c (.dict d) batch repeats).2 = .ok (w, .fin lp) := by
  classical
  have hk' : config'.keys = config.keys.map ρ := by rw [h.settings, renameKeys_keys]
  have hget : ∀ k ∈ config.keys, config'.get? (ρ k) = config.get? k := by
    intro k hk
    rw [h.settings]
    exact renameKeys_get h.inj config (fun _ hk => hk) hk
  have hset : setParameter c.pm (.dict d) .none = ({ c.pm with vals := c.pm.vals.update d }, .ok ()) := by
    refine (C03_set_parameter_atomic c.pm _ _).1 d rfl fun a ha => ?_
    rw [h.reach.inv.keys]
    exact hd _ (List.mem_map_of_mem ha)
  have hset' : setParameter c'.pm (.dict (renameKeys ρ d)) .none = ({ c'.pm with vals := c'.pm.vals.update (renameKeys ρ d) }, .ok ()) := by
    refine (C03_set_parameter_atomic c'.pm _ _).1 (renameKeys ρ d) rfl fun a ha => ?_
    rw [h.reach'.inv.keys, hk']
    obtain ⟨e, he, rfl⟩ := List.mem_map.1 ha
    exact List.mem_map_of_mem (hd _ (List.mem_map_of_mem he))
  have hvals : ∀ k ∈ config.keys, (c'.pm.vals.update (renameKeys ρ d)).get? (ρ k) = (c.pm.vals.update d).get? k := by
    intro k hk
    rw [PyDict.get?_update, PyDict.get?_update, h.vals k hk]
    congr 1
    have := renameKeys_get h.inj d.reverse (fun j hj => hd j (by simpa [PyDict.keys] using hj)) hk
    rw [← this]
    simp [renameKeys]
  have hgiven : ∀ k ∈ config.keys, ∃ v, (c.pm.vals.update d).get? k = some v := by
    intro k hk
    rw [← PyDict.mem_keys_iff_exists, PyDict.mem_keys_update, h.reach.inv.keys]
    exact Or.inl hk
  have hterm : ∀ k ∈ config.keys, termOf sig { c'.pm with vals := c'.pm.vals.update (renameKeys ρ d) } (ρ k)
      = termOf sig { c.pm with vals := c.pm.vals.update d } k := by
    intro k hk
    simp only [termOf, PyDict.getItem, hvals k hk, h.reach'.inv.cfg, h.reach.inv.cfg, hget k hk]
  have hprior : ∀ a : ℝ, logPriorOver sig { c'.pm with vals := c'.pm.vals.update (renameKeys ρ d) } order' = .ok (.fin a) ↔
      logPriorOver sig { c.pm with vals := c.pm.vals.update d } order = .ok (.fin a) := by
    intro a
    constructor
    · intro hl
      obtain ⟨g, hg, rfl⟩ := logPriorOver_finite hl
      rw [(ho.map g).sum_eq, List.map_map]
      exact logPriorOver_of_terms _ fun k hk => by
        rw [← hterm k (hin k hk)]
        exact hg _ (ho.mem_iff.2 (List.mem_map_of_mem hk))
    · intro hl
      obtain ⟨g, hg, rfl⟩ := logPriorOver_finite hl
      have hex : ∀ x ∈ order', ∃ v, termOf sig { c'.pm with vals := c'.pm.vals.update (renameKeys ρ d) } x = .ok (.fin v) := by
        intro x hx
        obtain ⟨k, hk, rfl⟩ := List.mem_map.1 (ho.mem_iff.1 hx)
        exact ⟨_, (hterm k (hin k hk)).trans (hg k hk)⟩
      choose! g' hg' using hex
      rw [logPriorOver_of_terms g' hg', (ho.map g').sum_eq, List.map_map]
      congr 3
      refine List.map_congr_left fun k hk => ?_
      have := hg' (ρ k) (ho.mem_iff.2 (List.mem_map_of_mem hk))
      rw [hterm k (hin k hk), hg k hk] at this
      simpa using this.symm
  have hrep : ∀ l : XF, repeated { c' with pm := { c'.pm with vals := c'.pm.vals.update (renameKeys ρ d) } } batch repeats keys l
      = repeated { c with pm := { c.pm with vals := c.pm.vals.update d } } batch repeats keys l := by
    intro l
    simp only [repeated, once, renamed_loop h.likelihoods hvals hgiven]
  have hone : ∀ (ord : List String) (e : Ctx K) (pm : PM), (do
      let l ← logPriorOver sig pm ord
      if ¬ l.isFinite then return (XF.ninf, l)
      else
        let v ← repeated e batch repeats keys l
        return (v, l) : Res (XF × XF)) = .ok (w, .fin lp) ↔
      logPriorOver sig pm ord = .ok (.fin lp) ∧ repeated e batch repeats keys (.fin lp) = .ok w := by
    intro ord e pm
    cases hl : logPriorOver sig pm ord with
    | error x => simp [bind, Except.bind]
    | ok z =>
      cases z with
      | fin a =>
        simp only [bind, Except.bind, XF.isFinite_fin, not_true_eq_false, if_false, pure, Except.pure]
        constructor
        · intro hx
          split at hx
          · cases hx
          · rename_i v hv
            simp only [Except.ok.injEq, Prod.mk.injEq, XF.fin.injEq] at hx
            obtain ⟨rfl, rfl⟩ := hx
            exact ⟨rfl, hv⟩
        · rintro ⟨h1, h2⟩
          simp only [Except.ok.injEq, XF.fin.injEq] at h1
          subst h1
          rw [h2]
      | _ => simp [bind, Except.bind, pure, Except.pure]
  unfold logPosterior
  simp only [hset, hset']
  rw [hone, hone, hprior, hrep]

end
end Verif.Ctx

namespace Verif.Walk
open Verif Parameter

/-! ### A concrete case: the two parameters of the example of C144 under other names -/

/-- `g` is called `z`, and `h` is called `g`. -/
def exNames (k : String) : String := if k = "g" then "z" else if k = "h" then "g" else k

noncomputable def renamedObj : Ctx.Obj Bool :=
  .binned [("z", "g")] [[3]] ⟨[("er", .sim ["g"] (fun k _ p => do let v ← p.getItem "g"; return (k, [[if k then v else v * .fin (1 / 2)]]))
    (fun k _ _ => .ok (k, [])))], ["z"]⟩

noncomputable def renamedConfig : Config :=
  [("z", ⟨.free, some (1, 10), some (2, 1)⟩), ("g", ⟨.norm 0 1, some (-3, 3), some (0, 1)⟩)]

noncomputable def renamedCtx : Ctx.Ctx Bool where
  parConfig := renamedConfig
  pm := ⟨renamedConfig, [], ["z", "g"], [("z", .fin 5), ("g", .fin 1)]⟩
  needed := ["z"]
  likelihoods := [("a", renamedObj)]

theorem renamedReachable : Reachable renamedConfig renamedCtx.pm := by
  refine ⟨fun _ => none, fun n => if n = "z" then 5 else 1, [], ?_⟩
  have h : clip 5 1 10 = 5 := by norm_num [clip]
  have h' : clip 1 (-3) 3 = 1 := by norm_num [clip]
  have h1 : ¬ ((1 : ℝ) < 0) := by norm_num
  simp [run, mk, mkRaw, samplePrior, sampleLoop, samplePriorOne, clipRange, renamedCtx, renamedConfig, Prior.isFixed,
    PyDict.keys, PyDict.get?, PyDict.set, drawInit, drawNormal, bind, Except.bind, h1, h, h']

theorem exRenaming : Ctx.Renaming exNames twoConfig renamedConfig twoCtx renamedCtx where
  inj := by
    intro a ha b hb
    simp only [twoConfig, PyDict.keys, List.map_cons, List.map_nil, List.mem_cons, List.not_mem_nil, or_false] at ha hb
    rcases ha with rfl | rfl <;> rcases hb with rfl | rfl <;> simp [exNames]
  reach := twoReachable
  reach' := renamedReachable
  settings := by simp [renamedConfig, twoConfig, Ctx.renameKeys, exNames]
  vals := by
    intro k hk
    simp only [twoConfig, PyDict.keys, List.map_cons, List.map_nil, List.mem_cons, List.not_mem_nil, or_false] at hk
    rcases hk with rfl | rfl <;> simp [exNames, renamedCtx, twoCtx, PyDict.get?]
  likelihoods := by
    refine .cons ⟨⟨by simp [PyDict.keys], by simp [PyDict.keys], by simp⟩, ⟨by simp [PyDict.keys], by simp [PyDict.keys], by simp⟩, rfl, rfl, ?_⟩ .nil
    intro m' c hc
    simp only [List.mem_singleton, Prod.mk.injEq] at hc
    rw [hc.2]
    refine ⟨?_, ?_⟩
    · intro key batch p q hpq
      simp only [PyDict.getItem, hpq "g" (by simp)]
    · intro r hr
      simp only [Llh.LComp.needed, List.mem_singleton] at hr
      subst hr
      exact ⟨by simp [PyDict.keys], by simp [PyDict.keys], by simp [Llh.callerName, twoConfig, PyDict.keys], by simp [Llh.callerName, exNames]⟩

/-- Non-vacuity of C155: the first parameter of the example is renamed by an alias, and its old name is given to the second one, so
that also the order of the fitted names changes; the log posteriors agree. -/
example (keys : Nat → Bool) (w : XF) (lp : ℝ) :
    parameterFit renamedCtx.pm = ["g", "z"] ∧
    ((Ctx.logPosterior twoSettings.sig ["z", "g"] keys renamedCtx (.dict [("z", .fin 4), ("g", .fin 2)]) 1 2).2 = .ok (w, .fin lp) ↔
      (Ctx.logPosterior twoSettings.sig ["h", "g"] keys twoCtx (.dict [("g", .fin 4), ("h", .fin 2)]) 1 2).2 = .ok (w, .fin lp)) := by
  constructor
  · have h := Ctx.C155_fitted exRenaming (by simp [twoConfig, PyDict.keys])
    rw [twoFit] at h
    have h2 : (["g", "h"].map exNames).Perm ["g", "z"] := by decide +kernel
    exact (h.trans h2).eq_of_pairwise (le := (· ≤ ·)) (fun a b _ _ => le_antisymm) (parameterFit_sorted _) (by decide +kernel)
  · have := Ctx.C155_posterior exRenaming twoSettings.sig ["h", "g"] ["z", "g"] (by simpa [exNames] using List.Perm.swap _ _ _)
      (by simp [twoConfig, PyDict.keys]) [("g", .fin 4), ("h", .fin 2)] (by simp [twoConfig, PyDict.keys]) keys 1 2 w lp
    simpa [Ctx.renameKeys, exNames] using this

end Verif.Walk
