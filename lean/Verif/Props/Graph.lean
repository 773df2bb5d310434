/-
C86: the graphs of dependencies a user draws show the dependencies the simulation has.
-/
import Verif.Lemmas.Graph
import Verif.Props.Component

namespace Verif.Graph
open Verif Comp

/-- **C86 (data).** If the graph of the data is drawn: its nodes are the data needed, and the batch size if something
needed takes it; the arrows from a name go to the inputs of its provider, one for each; there are no other arrows; nothing needed
depends on itself. -/
theorem C86_data_graph (reg : Registry) (fuel : Nat) (names : List String) (st : St String) (h : depsTree reg fuel names {} = .ok st) :
    (∀ n, n ∈ st.nodes ↔ Reach reg "batch_size" names n ∨ (n = "batch_size" ∧ ("batch_size" ∈ names ∨
      ∃ d p, Reach reg "batch_size" names d ∧ reg.get? d = some p ∧ "batch_size" ∈ p.dependsOn))) ∧
    (∀ d p, Reach reg "batch_size" names d → reg.get? d = some p → edgesFrom st.edges d = p.dependsOn.map (fun e => (d, e))) ∧
    (∀ x ∈ st.edges, Reach reg "batch_size" names x.1) ∧
    ∀ d, Reach reg "batch_size" names d → ¬ Relation.TransGen (DirectDep reg "batch_size") d d := by
  obtain ⟨new, D⟩ := depsTree_drawn fuel names {} st (topo_nil _) (by simp) h
  have hs : st.seen = new := by simpa using D.seen
  have hiff : ∀ d, d ∈ new ↔ Reach reg B names d :=
    fun d => ⟨fun hd => (D.reach d hd).1, fun hd => hs ▸ seen_of_reach D.topo D.roots hd⟩
  refine ⟨fun n => ?_, fun d p hd hp => ?_, fun x hx => ?_, fun d hd => ?_⟩
  · rw [D.nodes n, hiff]
    have : (∃ d ∈ new, B ∈ inputs reg d) ↔ ∃ d p, Reach reg B names d ∧ reg.get? d = some p ∧ B ∈ p.dependsOn := by
      constructor
      · rintro ⟨d, hd, hb⟩
        obtain ⟨hr, p, hp⟩ := D.reach d hd
        exact ⟨d, p, hr, hp, by rwa [inputs_eq hp] at hb⟩
      · rintro ⟨d, p, hr, hp, hb⟩
        exact ⟨d, (hiff d).2 hr, by rwa [inputs_eq hp]⟩
    rw [this]
    simp
  · rw [D.edges d, if_pos ((hiff d).2 hd), inputs_eq hp]
    simp [edgesFrom]
  · by_contra hn
    have := D.edges x.1
    rw [if_neg (fun h' => hn ((hiff _).1 h'))] at this
    have hx' : x ∈ edgesFrom st.edges x.1 := by simp [edgesFrom, hx]
    rw [this] at hx'
    simp [edgesFrom] at hx'
  · exact topo_acyclic D.topo (hs ▸ (hiff d).2 hd)

/-- **C86 (when drawn).** Whenever the dependencies of a component resolve, both graphs can be drawn, with no deeper recursion; and if
the graph of the data can be drawn, the dependencies resolve. -/
theorem C86_drawable (reg : Registry) (names : List String) :
    (∀ fuel w, (∃ deps, deduceDeps reg "batch_size" fuel names [] = .ok deps) →
      (∃ st, depsTree reg fuel names {} = .ok st) ∧ ∃ st, pluginsTree reg fuel w names {} = .ok st) ∧
    ((∃ fuel st, depsTree reg fuel names {} = .ok st) ↔ ∃ fuel deps, deduceDeps reg "batch_size" fuel names [] = .ok deps) := by
  have h1 : ∀ fuel w, (∃ deps, deduceDeps reg "batch_size" fuel names [] = .ok deps) →
      (∃ st, depsTree reg fuel names {} = .ok st) ∧ ∃ st, pluginsTree reg fuel w names {} = .ok st := by
    intro fuel w hd
    obtain ⟨a, b, c⟩ := (C12_success_iff reg "batch_size" fuel names).1 hd
    exact ⟨depsTree_ok fuel names {} a b c, pluginsTree_ok fuel w names {} a b c⟩
  refine ⟨h1, ?_, fun ⟨fuel, hd⟩ => ⟨fuel, (h1 fuel false hd).1⟩⟩
  rintro ⟨fuel, st, h⟩
  obtain ⟨new, D⟩ := depsTree_drawn fuel names {} st (topo_nil _) (by simp) h
  refine ⟨st.seen.length + 2, (C12_success_iff reg "batch_size" _ names).2 ⟨by omega, fun d hd => ?_, fun n hn k hk => ?_⟩⟩
  · have : d ∈ st.seen := seen_of_reach D.topo D.roots hd
    rw [D.seen] at this
    exact (D.reach d (by simpa using this)).2
  · have hnB : n ≠ B := by
      cases hk with
      | zero h => exact h
      | step h _ => exact h.1
    have hns : n ∈ st.seen := (D.roots n hn).resolve_left hnB
    have := path_le D.topo hns hk
    have := List.idxOf_lt_length_of_mem hns
    omega

/-- **C86 (plugins).** If the plugins needed have different names and their graph is drawn, the dependencies resolve, and the
graph has one node for each plugin of the worksheet; from each there is one arrow for each input other than the batch size, to the
plugin providing it; there are no other arrows.  Unless data names are asked for, the labels are the names of the plugins. -/
theorem C86_plugin_graph (reg : Registry) (fuel : Nat) (w : Bool) (names : List String) (st : St (String × String))
    (hname : DistinctNames reg "batch_size" names) (h : pluginsTree reg fuel w names {} = .ok st) :
    (∃ fuel' deps, deduceDeps reg "batch_size" fuel' names [] = .ok deps) ∧
    ∀ fuel' deps, deduceDeps reg "batch_size" fuel' names [] = .ok deps →
      (st.nodes.map Prod.fst).Perm ((worksheet deps).map Plugin.name) ∧
      (∀ p ∈ worksheet deps, (edgesFrom st.edges p.name).map some =
        (p.dependsOn.filter (fun e => e ≠ "batch_size")).map (fun e => (reg.get? e).map (fun q => (p.name, q.name)))) ∧
      (∀ x ∈ st.edges, ∃ p ∈ worksheet deps, x.1 = p.name) ∧
      (w = false → ∀ n ∈ st.nodes, n.2 = n.1) := by
  obtain ⟨new, D⟩ := pluginsTree_drawn (R0 := names) hname fuel w names {} st (fun _ h => h) (topo_nil _) h
  have hs : st.seen = new.map Plugin.name := by simpa using D.seen
  have hprov : ∀ d, Reach reg B names d → ∃ p, reg.get? d = some p ∧ p.name ∈ st.seen := by
    intro d hd
    induction hd with
    | root h1 h2 => exact D.roots _ h1 h2
    | @dep y r e hy hp he hne ih =>
      obtain ⟨r', hr', hrs⟩ := ih
      rw [hp] at hr'; cases hr'
      rw [hs] at hrs
      obtain ⟨r', hr', hrn⟩ := List.mem_map.1 hrs
      obtain ⟨x, hx, hxr⟩ := D.reach r' hr'
      have := hname x y r' r hx hy hxr hp hrn
      subst this
      obtain ⟨q, hq⟩ := D.prov r' hr' e he hne
      exact ⟨q, hq, (topo_idx D.topo (hs ▸ hrs) ⟨y, r', e, q, hy, hp, rfl, he, hne, hq, rfl⟩).1⟩
  refine ⟨⟨st.seen.length + 2, (C12_success_iff reg "batch_size" _ names).2 ⟨by omega, fun d hd => ?_, fun n hn k hk => ?_⟩⟩, ?_⟩
  · obtain ⟨p, hp, -⟩ := hprov d hd
    exact ⟨p, hp⟩
  · have hnB : n ≠ B := by
      cases hk with
      | zero h => exact h
      | step h _ => exact h.1
    have hr : Reach reg B names n := .root hn hnB
    obtain ⟨p, hp, hk'⟩ := ppath_le D.topo (fun _ h => h) hprov hr hk
    obtain ⟨p', hp', hps⟩ := hprov n hr
    rw [hp] at hp'; cases hp'
    have := List.idxOf_lt_length_of_mem hps
    omega
  intro fuel' deps hdeps
  obtain ⟨w1, w2, w3, -⟩ := C10_topological_order reg "batch_size" fuel' names deps hdeps hname
  have hmem : ∀ p, p ∈ worksheet deps ↔ p ∈ new := by
    intro p
    rw [w3 p]
    constructor
    · rintro ⟨d, hd, hp⟩
      obtain ⟨p', hp', hps⟩ := hprov d hd
      rw [hp] at hp'; cases hp'
      rw [hs] at hps
      obtain ⟨q, hq, hqn⟩ := List.mem_map.1 hps
      obtain ⟨x, hx, hxq⟩ := D.reach q hq
      have := hname x d q p hx hd hxq hp hqn
      exact this ▸ hq
    · exact D.reach p
  have hperm : (worksheet deps).Perm new := (List.perm_ext_iff_of_nodup w1 (List.Nodup.of_map _ D.nodup)).2 hmem
  have hnodes : (st.nodes.map Prod.fst).Perm (new.map Plugin.name) := by simpa using D.nodes
  refine ⟨hnodes.trans (hperm.map _).symm, fun p hp => ?_, fun x hx => ?_, fun hw n hn => ?_⟩
  · have hpn := (hmem p).1 hp
    have hfil : new.filter (fun q => q.name = p.name) = [p] := by
      have hnd := D.nodup
      obtain ⟨pre, post, rfl, -⟩ := List.eq_append_cons_of_mem hpn
      rw [List.map_append, List.map_cons] at hnd
      have hnd' := List.nodup_append.1 hnd
      have h1 : pre.filter (fun q => q.name = p.name) = [] := by
        rw [List.filter_eq_nil_iff]
        intro q hq hqn
        exact hnd'.2.2 q.name (List.mem_map_of_mem hq) p.name (by simp) (by simpa using hqn)
      have h2 : post.filter (fun q => q.name = p.name) = [] := by
        rw [List.filter_eq_nil_iff]
        intro q hq hqn
        exact (List.nodup_cons.1 hnd'.2.1).1 (List.mem_map.2 ⟨q, hq, by simpa using hqn⟩)
      rw [List.filter_append, h1, List.filter_cons_of_pos (by simp), h2]
      rfl
    rw [D.edges, hfil]
    have hl : ∀ l : List String, (∀ e ∈ l, e ∈ p.dependsOn) → (outEdges reg p l).map some =
        (l.filter (fun e => e ≠ "batch_size")).map (fun e => (reg.get? e).map (fun q => (p.name, q.name))) := by
      intro l
      induction l with
      | nil => intro _; rfl
      | cons e l ih =>
        intro hsub
        have ih := ih (fun x hx => hsub x (by simp [hx]))
        by_cases he : e = "batch_size"
        · subst he
          simpa [outEdges] using ih
        · obtain ⟨q, hq⟩ := D.prov p hpn e (hsub e (by simp)) he
          simp only [outEdges, List.flatMap_cons, he, if_false, hq] at ih ⊢
          rw [List.filter_cons_of_pos (by simpa using he)]
          simp [hq, ih]
    have := hl p.dependsOn (fun _ h => h)
    simpa [edgesFrom] using this
  · by_contra hn
    have hfil : new.filter (fun q => q.name = x.1) = [] := by
      rw [List.filter_eq_nil_iff]
      intro q hq hqn
      exact hn ⟨q, (hmem q).2 hq, (by simpa using hqn : q.name = x.1).symm⟩
    have := D.edges x.1
    rw [hfil] at this
    have hx' : x ∈ edgesFrom st.edges x.1 := by simp [edgesFrom, hx]
    rw [this] at hx'
    simp [edgesFrom] at hx'
  · subst hw
    rcases D.labels n hn with h' | ⟨p, -, h1, h2⟩
    · cases h'
    · rcases h2 with h2 | ⟨h2, -⟩
      · rw [h1, h2]
      · rw [h1, h2]; simp [label]

/-- **C86 (labels, partial).** Asked for data names, a graph of plugins has for each node the name of the plugin or the full label of a
requested plugin.  Missing: the full label for every plugin; see `C86_labels_lost`. -/
theorem C86_labels_partial (reg : Registry) (fuel : Nat) (names : List String) (st : St (String × String))
    (hname : DistinctNames reg "batch_size" names) (h : pluginsTree reg fuel true names {} = .ok st) :
    ∀ n ∈ st.nodes, ∃ p d, Reach reg "batch_size" names d ∧ reg.get? d = some p ∧ n.1 = p.name ∧
      (n.2 = p.name ∨ (n.2 = p.name ++ "\n" ++ ", ".intercalate p.dependsOn ++ "\n" ++ ", ".intercalate p.provides ∧
        ∃ d ∈ names, reg.get? d = some p)) := by
  obtain ⟨new, D⟩ := pluginsTree_drawn (R0 := names) hname fuel true names {} st (fun _ h => h) (topo_nil _) h
  intro n hn
  rcases D.labels n hn with h' | ⟨p, hp, h1, h2⟩
  · cases h'
  · obtain ⟨d, hd, hpd⟩ := D.reach p hp
    exact ⟨p, d, hd, hpd, h1, h2⟩

/-- **C86 (not drawn).** If a name needed has no provider, or needs itself, the graph of the data is not drawn, whatever the
recursion depth. -/
theorem C86_not_drawn (reg : Registry) (names : List String) (d : String) (hd : Reach reg "batch_size" names d)
    (hbad : reg.get? d = none ∨ Relation.TransGen (DirectDep reg "batch_size") d d) (fuel : Nat) :
    ∀ st, depsTree reg fuel names {} ≠ .ok st := by
  intro st h
  rcases hbad with hb | hb
  · obtain ⟨new, D⟩ := depsTree_drawn fuel names {} st (topo_nil _) (by simp) h
    have : d ∈ st.seen := seen_of_reach D.topo D.roots hd
    rw [D.seen] at this
    obtain ⟨-, p, hp⟩ := D.reach d (by simpa using this)
    rw [hb] at hp; cases hp
  · exact (C86_data_graph reg fuel names st h).2.2.2 d hd hb

/-- The same for the graph of the plugins, if they have different names. -/
theorem C86_plugins_not_drawn (reg : Registry) (names : List String) (d : String) (hname : DistinctNames reg "batch_size" names)
    (hd : Reach reg "batch_size" names d)
    (hbad : reg.get? d = none ∨ Relation.TransGen (DirectDep reg "batch_size") d d) (fuel : Nat) (w : Bool) :
    ∀ st, pluginsTree reg fuel w names {} ≠ .ok st := by
  intro st h
  obtain ⟨st', h'⟩ := (C86_drawable reg names).2.2 (C86_plugin_graph reg fuel w names st hname h).1
  obtain ⟨st'', h''⟩ := h'
  exact C86_not_drawn reg names d hd hbad st' st'' h''

/-- **C86 (violated).** Asked for data names, the graph shows them only at the plugins it starts from: the option is not handed to
the recursive calls. -/
theorem C86_labels_lost : ∃ st, pluginsTree exReg 10 true ["c"] {} = .ok st ∧
    st.nodes = [("C", "C\na, b\nc"), ("A", "A"), ("B", "B")] := by
  exact ⟨_, rfl, by decide +kernel⟩

/-- **C86 (violated).** Of two plugins with the same name, needed both, the graph shows one. -/
theorem C86_same_name : ∃ reg st st', depsTree reg 10 ["a", "b"] {} = .ok st ∧ pluginsTree reg 10 false ["a", "b"] {} = .ok st' ∧
    st.nodes = ["a", "batch_size", "b", "batch_size"] ∧ st'.nodes = [("P", "P")] ∧
    reg = [("a", ⟨"P", ["a"], ["batch_size"], [], []⟩), ("b", ⟨"P", ["b"], ["batch_size"], [], []⟩)] := by
  exact ⟨_, _, _, rfl, rfl, by decide +kernel, by decide +kernel, rfl⟩

/-- The diamond of `Props/Component`: both graphs are drawn. -/
example : ∃ st, depsTree exReg 10 ["c", "eff"] {} = .ok st ∧
    st.edges = [("c", "a"), ("a", "batch_size"), ("b", "a"), ("c", "b"), ("eff", "batch_size")] :=
  ⟨_, rfl, by decide +kernel⟩

example : DistinctNames exReg "batch_size" ["c", "eff"] ∧ ∃ st, pluginsTree exReg 10 false ["c", "eff"] {} = .ok st ∧
    st.edges = [("C", "A"), ("B", "A"), ("C", "B")] ∧ st.nodes.map Prod.fst = ["C", "A", "B", "E"] :=
  ⟨exReg_distinct _, _, rfl, by decide +kernel, by decide +kernel⟩

/-- A missing provider and a cycle. -/
example : (depsTree [("a", (⟨"A", ["a"], ["b"], [], []⟩ : Plugin))] 10 ["a"] {}).toOption.isNone ∧
    (depsTree [("a", (⟨"A", ["a"], ["b"], [], []⟩ : Plugin)), ("b", ⟨"B", ["b"], ["a"], [], []⟩)] 10 ["a"] {}).toOption.isNone ∧
    (pluginsTree [("a", (⟨"A", ["a"], ["b"], [], []⟩ : Plugin)), ("b", ⟨"B", ["b"], ["a"], [], []⟩)] 10 true ["a"] {}).toOption.isNone := by
  decide +kernel

end Verif.Graph
