/-
Property theorems C75 about collecting and saving the plots of maps (plot.py).
-/
import Verif.Lemmas.MapSave

namespace Verif.Plot
open Verif

/-- **C75**: the maps collected from the configurations in use are exactly the different ones: a key is present exactly
if some map configuration has it, it holds the first such configuration and the names of exactly the configurations
sharing the file or files, each once. -/
theorem C75_collects_each_map_once (cfgs : List MapCfg) :
    (collectMaps cfgs).keys.Nodup ∧
    (∀ k, k ∈ (collectMaps cfgs).keys ↔ ∃ c ∈ cfgs, c.key = some k) ∧
    ∀ k c0 names, (collectMaps cfgs).get? k = some (c0, names) →
      cfgs.find? (fun c => c.key = some k) = some c0 ∧ names.Nodup ∧
        ∀ n, n ∈ names ↔ ∃ c ∈ cfgs, c.key = some k ∧ c.name = n := by
  have h := collected cfgs
  refine ⟨h.1, ?_, ?_⟩
  · intro k
    have hk := h.2 k
    rw [PyDict.mem_keys_iff]
    cases hg : (collectMaps cfgs).get? k with
    | none =>
      rw [hg] at hk
      simp only [Option.isSome_none, Bool.false_eq_true, false_iff, not_exists, not_and]
      exact hk
    | some v =>
      rw [hg] at hk
      obtain ⟨c0, names⟩ := v
      simp only [Option.isSome_some, true_iff]
      have := List.find?_some hk.1
      exact ⟨c0, List.mem_of_find?_eq_some hk.1, by simpa using this⟩
  · intro k c0 names hg
    have hk := h.2 k
    rw [hg] at hk
    exact hk

/-- Two configurations sharing a file are one map with two names. -/
example : collectMaps [.map "a" "f.json", .other "x", .sigma "s" "m" "l" "u", .map "b" "f.json"]
    = [(["f.json"], (.map "a" "f.json", ["a", "b"])), (["m", "l", "u"], (.sigma "s" "m" "l" "u", ["s"]))] := by
  decide +kernel

/-- **C75** (partial): if no map gives more than one figure, base names are distinct and the formats are distinct and
without dots, then saving leaves one file per figure and format, each holding its own figure.  Missing: maps with
several figures and maps with equal base names, where the claim is false. -/
theorem C75_one_file_per_figure_partial (stem : String → String) (fmt : List String) (items : List (MapCfg × Nat))
    (hfmt : fmt.Nodup) (hdot : ∀ f ∈ fmt, '.' ∉ f.toList)
    (hone : ∀ it ∈ items, (figures it.1 it.2).length ≤ 1)
    (hstem : (items.map (fun it => stem it.1.saveFile)).Nodup) :
    saveAll stem fmt items = expectedFiles stem fmt items ∧
    ∀ it ∈ items, ∀ fig ∈ figures it.1 it.2, ∀ f ∈ fmt,
      (saveAll stem fmt items).get? (stem it.1.saveFile ++ "." ++ f) = some fig := by
  have hnd := expected_nodup stem fmt items hfmt hdot hone hstem
  have heq : saveAll stem fmt items = expectedFiles stem fmt items := by
    rw [saveAll_eq, PyDict.ofList_of_nodup _ hnd]
  refine ⟨heq, ?_⟩
  intro it hit fig hfig f hf
  rw [heq]
  refine PyDict.get?_of_mem _ hnd ?_
  simp only [expectedFiles, List.mem_flatMap, List.mem_map]
  exact ⟨it, hit, fig, hfig, f, hf, rfl⟩

example : saveAll id ["png", "pdf"] [(.map "a" "s1_lce", 2), (.sigma "b" "eff" "lo" "up", 1)]
    = [("s1_lce.png", "a"), ("s1_lce.pdf", "a"), ("eff.png", "b"), ("eff.pdf", "b")] := by
  decide +kernel

/-- **C75** is violated by every two-dimensional map with uncertainties: three figures are drawn, and for each format a
single file remains, holding the last of them. -/
theorem C75_sigma_map_keeps_upper_only (stem : String → String) (fmt : List String) (hfmt : fmt.Nodup)
    (hdot : ∀ f ∈ fmt, '.' ∉ f.toList) (name m l u : String) :
    (figures (.sigma name m l u) 2).length = 3 ∧
    (saveAll stem fmt [(.sigma name m l u, 2)]).length = fmt.length ∧
    ∀ path fig, (saveAll stem fmt [(.sigma name m l u, 2)]).get? path = some fig → fig = name ++ " (upper)" := by
  have hsave : saveAll stem fmt [(.sigma name m l u, 2)] = fmt.map (fun f => (stem m ++ "." ++ f, name ++ " (upper)")) := by
    have hstep : ∀ (fig fig' : String), (PyDict.update (fmt.map (fun f => (stem m ++ "." ++ f, fig)))
        (fmt.map (fun f => (stem m ++ "." ++ f, fig')))) = fmt.map (fun f => (stem m ++ "." ++ f, fig')) := by
      intro fig fig'
      have hnd : ∀ fig : String, ((fmt.map (fun f => (stem m ++ "." ++ f, fig))).map Prod.fst).Nodup := by
        intro fig
        rw [List.map_map]
        refine List.Nodup.map_on ?_ hfmt
        intro f hf g hg he
        exact (file_injective _ _ _ _ (hdot f hf) (hdot g hg) he).2
      have hkeys : PyDict.keys (PyDict.update (fmt.map (fun f => (stem m ++ "." ++ f, fig)))
          (fmt.map (fun f => (stem m ++ "." ++ f, fig')))) = (fmt.map (fun f => stem m ++ "." ++ f)) := by
        rw [PyDict.keys_update_of_subset]
        · simp [PyDict.keys]
        · simp [PyDict.keys]
      refine PyDict.ext_keys _ _ (PyDict.nodup_update _ _ (hnd fig)) ?_ ?_
      · rw [hkeys]; simp [PyDict.keys]
      · intro k hk
        rw [hkeys] at hk
        obtain ⟨f, hf, rfl⟩ := List.mem_map.1 hk
        rw [PyDict.get?_update_nodup _ _ (hnd fig') (List.mem_map.2 ⟨f, hf, rfl⟩)]
        exact (PyDict.get?_of_mem _ (hnd fig') (List.mem_map.2 ⟨f, hf, rfl⟩)).symm
    have hfirst : PyDict.update [] (fmt.map (fun f => (stem m ++ "." ++ f, name ++ " (lower)")))
        = fmt.map (fun f => (stem m ++ "." ++ f, name ++ " (lower)")) := by
      refine PyDict.ofList_of_nodup _ ?_
      rw [List.map_map]
      refine List.Nodup.map_on ?_ hfmt
      intro f hf g hg he
      exact (file_injective _ _ _ _ (hdot f hf) (hdot g hg) he).2
    rw [saveAll_eq]
    have hexp : expectedFiles stem fmt [(.sigma name m l u, 2)]
        = fmt.map (fun f => (stem m ++ "." ++ f, name ++ " (lower)"))
          ++ (fmt.map (fun f => (stem m ++ "." ++ f, name ++ " (median)"))
          ++ fmt.map (fun f => (stem m ++ "." ++ f, name ++ " (upper)"))) := by
      simp [expectedFiles, figures, MapCfg.saveFile]
    rw [hexp, PyDict.ofList, PyDict.update_append, hfirst, PyDict.update_append, hstep, hstep]
  refine ⟨by simp [figures], by rw [hsave]; simp, ?_⟩
  intro path fig h
  rw [hsave] at h
  have := PyDict.mem_of_get? _ h
  obtain ⟨f, _, he⟩ := List.mem_map.1 this
  cases he
  rfl

example : saveAll id ["png"] [(.sigma "eff" "med" "lo" "up", 2)] = [("med.png", "eff (upper)")] := by decide +kernel

/-- **C75** is violated by two maps whose files have the same base name: of the earlier one no file remains. -/
theorem C75_same_base_name_overwrites (stem : String → String) (fmt : String) (n n' f f' : String)
    (h : stem f = stem f') :
    saveAll stem [fmt] [(.map n f, 1), (.map n' f', 1)] = [(stem f' ++ "." ++ fmt, n')] := by
  simp [saveAll, figures, MapCfg.saveFile, h, PyDict.set]

/-- **C75**: so it is not true that every figure drawn can be found on disk. -/
theorem C75_negation : ¬ ∀ (items : List (MapCfg × Nat)) (it : MapCfg × Nat), it ∈ items →
    ∀ fig ∈ figures it.1 it.2, ∃ path, (saveAll id ["png"] items).get? path = some fig := by
  intro h
  obtain ⟨path, hp⟩ := h [(.sigma "eff" "med" "lo" "up", 2)] (.sigma "eff" "med" "lo" "up", 2) (by simp) "eff (lower)" (by decide +kernel)
  have := (C75_sigma_map_keeps_upper_only id ["png"] (by simp) (by decide +kernel) "eff" "med" "lo" "up").2.2 path _ hp
  exact absurd this (by decide +kernel)

end Verif.Plot
