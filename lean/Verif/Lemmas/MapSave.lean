/- Helper lemmas about collecting maps and saving figures. -/
import Verif.Spec.MapSave
import Mathlib.Tactic.Linarith
import Mathlib.Data.List.Nodup

namespace Verif.Plot
open Verif

theorem saveAll_eq (stem : String → String) (fmt : List String) (items : List (MapCfg × Nat)) :
    saveAll stem fmt items = PyDict.ofList (expectedFiles stem fmt items) := by
  unfold saveAll PyDict.ofList expectedFiles
  have h1 : ∀ (s fig : String) (acc : PyDict String String),
      fmt.foldl (fun acc f => acc.set (s ++ "." ++ f) fig) acc
        = acc.update (fmt.map (fun f => (s ++ "." ++ f, fig))) := by
    intro s fig acc
    simp only [PyDict.update, List.foldl_map]
  have h2 : ∀ (s : String) (figs : List String) (acc : PyDict String String),
      figs.foldl (fun acc fig => fmt.foldl (fun acc f => acc.set (s ++ "." ++ f) fig) acc) acc
        = acc.update (figs.flatMap (fun fig => fmt.map (fun f => (s ++ "." ++ f, fig)))) := by
    intro s figs
    induction figs with
    | nil => intro acc; rfl
    | cons fig figs ih =>
      intro acc
      rw [List.foldl_cons, h1, ih, List.flatMap_cons, PyDict.update_append]
  generalize ([] : PyDict String String) = acc
  induction items generalizing acc with
  | nil => rfl
  | cons it items ih =>
    rw [List.foldl_cons, h2, ih, List.flatMap_cons, PyDict.update_append]

/-- A format without a dot and the stem before it are determined by the file name. -/
theorem file_injective (a b c d : String) (hc : '.' ∉ c.toList) (hd : '.' ∉ d.toList)
    (h : a ++ "." ++ c = b ++ "." ++ d) : a = b ∧ c = d := by
  have h' : a.toList ++ '.' :: c.toList = b.toList ++ '.' :: d.toList := by
    have := congrArg String.toList h
    simpa using this
  have hr := congrArg List.reverse h'
  simp only [List.reverse_append, List.reverse_cons, List.append_assoc, List.singleton_append] at hr
  have gen : ∀ (x y u v : List Char), '.' ∉ x → '.' ∉ y → x ++ '.' :: u = y ++ '.' :: v → x = y ∧ u = v := by
    intro x
    induction x with
    | nil =>
      intro y u v _ hy he
      cases y with
      | nil => simpa using he
      | cons z y => simp at he; exact absurd (List.mem_cons.2 (Or.inl he.1)) hy
    | cons z x ih =>
      intro y u v hx hy he
      cases y with
      | nil => simp at he; exact absurd (List.mem_cons.2 (Or.inl he.1.symm)) hx
      | cons w y =>
        simp only [List.cons_append, List.cons.injEq] at he
        obtain ⟨h1, h2⟩ := ih y u v (fun hh => hx (by simp [hh])) (fun hh => hy (by simp [hh])) he.2
        exact ⟨by rw [he.1, h1], h2⟩
  obtain ⟨h1, h2⟩ := gen _ _ _ _ (by simpa using hc) (by simpa using hd) hr
  exact ⟨String.toList_inj.1 (List.reverse_inj.1 h2), String.toList_inj.1 (List.reverse_inj.1 h1)⟩

theorem expected_nodup (stem : String → String) (fmt : List String) (items : List (MapCfg × Nat))
    (hfmt : fmt.Nodup) (hdot : ∀ f ∈ fmt, '.' ∉ f.toList)
    (hone : ∀ it ∈ items, (figures it.1 it.2).length ≤ 1)
    (hstem : (items.map (fun it => stem it.1.saveFile)).Nodup) :
    ((expectedFiles stem fmt items).map Prod.fst).Nodup := by
  have hpath : ∀ (items : List (MapCfg × Nat)) p, p ∈ (expectedFiles stem fmt items).map Prod.fst →
      ∃ it ∈ items, ∃ f ∈ fmt, p = stem it.1.saveFile ++ "." ++ f := by
    intro items p hp
    simp only [expectedFiles, List.mem_map, List.mem_flatMap] at hp
    obtain ⟨⟨p', g⟩, ⟨it, hit, fig, _, f, hf, he⟩, rfl⟩ := hp
    cases he
    exact ⟨it, hit, f, hf, rfl⟩
  induction items with
  | nil => simp [expectedFiles]
  | cons it items ih =>
    rw [List.map_cons, List.nodup_cons] at hstem
    have ih' := ih (fun it h => hone it (by simp [h])) hstem.2
    have hsplit : expectedFiles stem fmt (it :: items) = (figures it.1 it.2).flatMap (fun fig =>
        fmt.map (fun f => (stem it.1.saveFile ++ "." ++ f, fig))) ++ expectedFiles stem fmt items := by
      simp [expectedFiles]
    rw [hsplit, List.map_append, List.nodup_append]
    refine ⟨?_, ih', ?_⟩
    · have h1 := hone it (by simp)
      match hfig : figures it.1 it.2, h1 with
      | [], _ => simp
      | [fig], _ =>
        simp only [List.flatMap_cons, List.flatMap_nil, List.append_nil, List.map_map]
        refine List.Nodup.map_on ?_ hfmt
        intro f hf g hg he
        exact (file_injective _ _ _ _ (hdot f hf) (hdot g hg) he).2
      | a :: b :: l, h => simp at h
    · intro p hp q hq hpq
      subst hpq
      simp only [List.mem_map, List.mem_flatMap] at hp
      obtain ⟨⟨p', g⟩, ⟨fig, _, f, hf, he⟩, rfl⟩ := hp
      cases he
      obtain ⟨it', hit', f', hf', he⟩ := hpath items _ hq
      have := (file_injective _ _ _ _ (hdot f hf) (hdot f' hf') he).1
      exact hstem.1 (this ▸ List.mem_map.2 ⟨it', hit', rfl⟩)

/-! ### Collecting -/

/-- One step of the collecting loop. -/
def collectStep (acc : PyDict (List String) (MapCfg × List String)) (c : MapCfg) :
    PyDict (List String) (MapCfg × List String) :=
  match c.key with
  | none => acc
  | some k => match acc.get? k with
    | none => acc.set k (c, [c.name])
    | some (c0, names) => acc.set k (c0, if c.name ∈ names then names else names ++ [c.name])

theorem collectMaps_eq (cfgs : List MapCfg) : collectMaps cfgs = cfgs.foldl collectStep [] := rfl

theorem collectStep_nodup (acc : PyDict (List String) (MapCfg × List String)) (c : MapCfg) (h : acc.keys.Nodup) :
    (collectStep acc c).keys.Nodup := by
  unfold collectStep
  split
  · exact h
  · split <;> exact PyDict.nodup_set _ _ _ h

/-- What the dictionary holds after some configurations: under each key the first configuration with that key, and
the names of exactly the configurations with it. -/
def Collected (cfgs : List MapCfg) (acc : PyDict (List String) (MapCfg × List String)) : Prop :=
  acc.keys.Nodup ∧ ∀ k, match acc.get? k with
    | none => ∀ c ∈ cfgs, c.key ≠ some k
    | some (c0, names) => cfgs.find? (fun c => c.key = some k) = some c0 ∧ names.Nodup ∧
        ∀ n, n ∈ names ↔ ∃ c ∈ cfgs, c.key = some k ∧ c.name = n

theorem collected_step (cfgs : List MapCfg) (acc : PyDict (List String) (MapCfg × List String)) (c : MapCfg)
    (h : Collected cfgs acc) : Collected (cfgs ++ [c]) (collectStep acc c) := by
  refine ⟨collectStep_nodup _ _ h.1, ?_⟩
  intro k
  have hk := h.2 k
  cases hc : c.key with
  | none =>
    have : collectStep acc c = acc := by simp [collectStep, hc]
    rw [this]
    cases hg : acc.get? k with
    | none =>
      rw [hg] at hk
      intro c' hc'
      rcases List.mem_append.1 hc' with h1 | h1
      · exact hk c' h1
      · simp at h1; subst h1; rw [hc]; simp
    | some v =>
      rw [hg] at hk
      obtain ⟨c0, names⟩ := v
      refine ⟨by rw [List.find?_append, hk.1]; rfl, hk.2.1, ?_⟩
      intro n
      rw [hk.2.2]
      constructor
      · rintro ⟨c', h1, h2⟩; exact ⟨c', by simp [h1], h2⟩
      · rintro ⟨c', h1, h2, h3⟩
        rcases List.mem_append.1 h1 with h1 | h1
        · exact ⟨c', h1, h2, h3⟩
        · simp at h1; subst h1; rw [hc] at h2; cases h2
  | some k' =>
    by_cases hkk : k' = k
    · subst hkk
      cases hg : acc.get? k' with
      | none =>
        rw [hg] at hk
        have : collectStep acc c = acc.set k' (c, [c.name]) := by simp [collectStep, hc, hg]
        rw [this, PyDict.get?_set_self]
        refine ⟨?_, by simp, ?_⟩
        · rw [List.find?_append, List.find?_eq_none.2 (by intro x hx; simpa using hk x hx)]
          simp [hc]
        · intro n
          simp only [List.mem_singleton]
          constructor
          · rintro rfl; exact ⟨c, by simp, hc, rfl⟩
          · rintro ⟨c', h1, h2, h3⟩
            rcases List.mem_append.1 h1 with h1 | h1
            · exact absurd h2 (hk c' h1)
            · simp at h1; subst h1; exact h3.symm
      | some v =>
        obtain ⟨c0, names⟩ := v
        rw [hg] at hk
        have : collectStep acc c = acc.set k' (c0, if c.name ∈ names then names else names ++ [c.name]) := by
          simp [collectStep, hc, hg]
        rw [this, PyDict.get?_set_self]
        refine ⟨by rw [List.find?_append, hk.1]; rfl, ?_, ?_⟩
        · split
          · exact hk.2.1
          · rename_i hnot
            rw [List.nodup_append]
            refine ⟨hk.2.1, by simp, ?_⟩
            intro a ha b hb hab
            simp at hb
            subst hb hab
            exact hnot ha
        · intro n
          have hin : n ∈ (if c.name ∈ names then names else names ++ [c.name]) ↔ n ∈ names ∨ n = c.name := by
            split
            · constructor
              · exact Or.inl
              · rintro (h | rfl) <;> assumption
            · simp
          rw [hin, hk.2.2]
          constructor
          · rintro (⟨c', h1, h2⟩ | rfl)
            · exact ⟨c', by simp [h1], h2⟩
            · exact ⟨c, by simp, hc, rfl⟩
          · rintro ⟨c', h1, h2, h3⟩
            rcases List.mem_append.1 h1 with h1 | h1
            · exact Or.inl ⟨c', h1, h2, h3⟩
            · simp at h1; subst h1; exact Or.inr h3.symm
    · have hget : (collectStep acc c).get? k = acc.get? k := by
        simp only [collectStep, hc]
        split <;> exact PyDict.get?_set_ne _ _ hkk
      have hne : c.key ≠ some k := by rw [hc]; simpa using hkk
      rw [hget]
      cases hg : acc.get? k with
      | none =>
        rw [hg] at hk
        intro c' hc'
        rcases List.mem_append.1 hc' with h1 | h1
        · exact hk c' h1
        · simp at h1; subst h1; exact hne
      | some v =>
        rw [hg] at hk
        obtain ⟨c0, names⟩ := v
        refine ⟨by rw [List.find?_append, hk.1]; rfl, hk.2.1, ?_⟩
        intro n
        rw [hk.2.2]
        constructor
        · rintro ⟨c', h1, h2⟩; exact ⟨c', by simp [h1], h2⟩
        · rintro ⟨c', h1, h2, h3⟩
          rcases List.mem_append.1 h1 with h1 | h1
          · exact ⟨c', h1, h2, h3⟩
          · simp at h1; subst h1; exact absurd h2 hne

theorem collected (cfgs : List MapCfg) : Collected cfgs (collectMaps cfgs) := by
  rw [collectMaps_eq]
  have gen : ∀ (l done : List MapCfg) acc, Collected done acc → Collected (done ++ l) (l.foldl collectStep acc) := by
    intro l
    induction l with
    | nil => intro done acc h; simpa using h
    | cons c l ih =>
      intro done acc h
      rw [List.foldl_cons]
      have := ih (done ++ [c]) _ (collected_step done acc c h)
      simpa using this
  simpa using gen cfgs [] [] ⟨by simp [PyDict.keys], fun k => by simp⟩

end Verif.Plot
