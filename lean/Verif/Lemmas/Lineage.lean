/-
Lemmas about canonical forms: they determine the entries of dictionaries and do not depend on their order.
-/
import Verif.Spec.Lineage

namespace Verif.Lineage
open Verif

section
variable {α : Type}

instance : Std.Total (fun a b : String × α => a.1 ≤ b.1) := ⟨fun a b => le_total a.1 b.1⟩
instance : IsTrans (String × α) (fun a b => a.1 ≤ b.1) := ⟨fun _ _ _ => le_trans⟩

theorem byKey_perm (d : List (String × α)) : (byKey d).Perm d := List.perm_insertionSort _ d

theorem byKey_congr {d d' : List (String × α)} (hn : (d.map Prod.fst).Nodup) (h : d.Perm d') : byKey d = byKey d' := by
  have hp : (byKey d).Perm (byKey d') := (byKey_perm d).trans (h.trans (byKey_perm d').symm)
  refine List.Perm.eq_of_pairwise ?_ (List.pairwise_insertionSort _ d) (List.pairwise_insertionSort _ d') hp
  intro a b ha hb hab hba
  have ha' : a ∈ d := (byKey_perm d).mem_iff.1 ha
  have hb' : b ∈ d := h.mem_iff.2 ((byKey_perm d').mem_iff.1 hb)
  exact (List.inj_on_of_nodup_map hn) ha' hb' (le_antisymm hab hba)

theorem get?_perm {d d' : List (String × α)} (hn : (d.map Prod.fst).Nodup) (h : d.Perm d') (k : String) :
    PyDict.get? d k = PyDict.get? d' k := by
  have hn' : (d'.map Prod.fst).Nodup := (h.map Prod.fst).nodup_iff.1 hn
  cases h1 : PyDict.get? d k with
  | some v => exact (PyDict.get?_of_mem d' hn' (h.mem_iff.1 (PyDict.mem_of_get? d h1))).symm
  | none =>
    cases h2 : PyDict.get? d' k with
    | none => rfl
    | some v =>
      have := PyDict.get?_of_mem d hn (h.mem_iff.2 (PyDict.mem_of_get? d' h2))
      rw [h1] at this
      exact absurd this (by simp)

end

theorem canonList_eq (l : List Val) : canonList l = l.map canon := by
  induction l with
  | nil => rfl
  | cons v l ih => simp [canonList, ih]

theorem canonItems_eq (d : List (String × Val)) : canonItems d = d.map (fun e => (e.1, canon e.2)) := by
  induction d with
  | nil => rfl
  | cons e l ih => obtain ⟨k, v⟩ := e; simp [canonItems, ih]

theorem sortedItems_eq (d : List (String × Val)) : sortedItems d = d.map (fun e => (e.1, sorted e.2)) := by
  induction d with
  | nil => rfl
  | cons e l ih => obtain ⟨k, v⟩ := e; simp [sortedItems, ih]

theorem keys_map_snd {α β : Type} (d : List (String × α)) (f : α → β) : (d.map (fun e => (e.1, f e.2))).map Prod.fst = d.map Prod.fst := by
  simp [List.map_map, Function.comp_def]

theorem get?_map_snd {α β : Type} (d : List (String × α)) (f : α → β) (k : String) :
    PyDict.get? (d.map (fun e => (e.1, f e.2))) k = (PyDict.get? d k).map f := by
  induction d with
  | nil => rfl
  | cons e l ih =>
    obtain ⟨a, v⟩ := e
    simp only [List.map_cons, PyDict.get?_cons, ih]
    split <;> rfl

theorem canon_dict_inj {d d' : List (String × Val)} (h : canon (.dict d) = canon (.dict d')) :
    byKey (canonItems d) = byKey (canonItems d') := by
  simp only [canon, Val.seq.injEq] at h
  refine List.map_injective_iff.2 ?_ h
  intro a b hab
  simp only [Val.seq.injEq, List.cons.injEq, Val.str.injEq, and_true] at hab
  exact Prod.ext hab.1 hab.2

/-- Equal canonical forms of dictionaries: the same keys with values of equal canonical form. -/
theorem canon_dict_get {d d' : List (String × Val)} (hn : (d.map Prod.fst).Nodup) (h : canon (.dict d) = canon (.dict d'))
    (k : String) : (PyDict.get? d k).map canon = (PyDict.get? d' k).map canon := by
  have hp : (canonItems d).Perm (canonItems d') := by
    have := canon_dict_inj h
    exact (byKey_perm _).symm.trans (this ▸ byKey_perm _)
  rw [canonItems_eq, canonItems_eq] at hp
  rw [← get?_map_snd, ← get?_map_snd]
  exact get?_perm (by rw [keys_map_snd]; exact hn) hp k

theorem canon_dict_keys {d d' : List (String × Val)} (h : canon (.dict d) = canon (.dict d')) (k : String) :
    k ∈ d.map Prod.fst ↔ k ∈ d'.map Prod.fst := by
  have hp : (canonItems d).Perm (canonItems d') := by
    have := canon_dict_inj h
    exact (byKey_perm _).symm.trans (this ▸ byKey_perm _)
  rw [canonItems_eq, canonItems_eq] at hp
  have := (hp.map Prod.fst).mem_iff (a := k)
  rwa [keys_map_snd, keys_map_snd] at this

theorem canon_dict_perm {d d' : List (String × Val)} (hn : (d.map Prod.fst).Nodup) (h : d.Perm d') :
    canon (.dict d) = canon (.dict d') := by
  simp only [canon]
  rw [canonItems_eq, canonItems_eq, byKey_congr (by rw [keys_map_snd]; exact hn) (h.map _)]

theorem sorted_dict_perm {d d' : List (String × Val)} (hn : (d.map Prod.fst).Nodup) (h : d.Perm d') :
    sorted (.dict d) = sorted (.dict d') := by
  simp only [sorted]
  rw [sortedItems_eq, sortedItems_eq, byKey_congr (by rw [keys_map_snd]; exact hn) (h.map _)]

mutual
theorem canon_plain : ∀ v, Plain v → canon v = v
  | .null, _ => rfl
  | .num _, _ => rfl
  | .str _, _ => rfl
  | .seq l, h => by
    simp only [Plain] at h
    simp only [canon, canonList_plain l h]
  | .array _, h => by simp [Plain] at h
  | .dict _, h => by simp [Plain] at h
theorem canonList_plain : ∀ l, PlainList l → canonList l = l
  | [], _ => rfl
  | v :: l, h => by
    simp only [PlainList] at h
    simp only [canonList, canon_plain v h.1, canonList_plain l h.2]
end

theorem canon_names (l : List String) : canon (names l) = names l := by
  simp only [names, canon, canonList_eq, List.map_map]
  congr 1

theorem names_inj {l l' : List String} (h : names l = names l') : l = l' := by
  simp only [names, Val.seq.injEq] at h
  exact List.map_injective_iff.2 (fun a b hab => by simpa using hab) h

theorem canon_seq_nums (l : List ℚ) : canon (.seq (l.map .num)) = .seq (l.map .num) := by
  simp only [canon, canonList_eq, List.map_map]
  congr 1

section
variable {C : Type}

theorem mapLineage_ok {e : Env C} {m : BuiltMap C} (hf : e.read m.path = some m.content) {v : Val} (h : mapLineage e m = .ok v) :
    v = .dict [("llh_name", .null), ("method", .str m.method), ("file_path", .str (e.base m.path)),
      ("sha256", .str (e.sha m.content))] := by
  simp only [mapLineage, Env.checksum, hf, bind, Except.bind, pure, Except.pure, Except.ok.injEq] at h
  exact h.symm

theorem map_ident {e e' : Env C} (hs : e.sha = e'.sha) (hi : Function.Injective e.sha) {m m' : BuiltMap C}
    (hf : e.read m.path = some m.content) (hf' : e'.read m'.path = some m'.content) {v v' : Val}
    (h : mapLineage e m = .ok v) (h' : mapLineage e' m' = .ok v') (hc : canon v = canon v') : SameMap m m' := by
  rw [mapLineage_ok hf h, mapLineage_ok hf' h'] at hc
  have g := canon_dict_get (by simp) hc
  refine ⟨?_, hi ?_⟩
  · have := g "method"
    simpa [PyDict.get?, canon] using this
  · have := g "sha256"
    rw [hs]
    simpa [PyDict.get?, canon, hs] using this

theorem map_keys {e : Env C} {m : BuiltMap C} {v : Val} (h : mapLineage e m = .ok v) :
    ∃ d, v = .dict d ∧ d.map Prod.fst = ["llh_name", "method", "file_path", "sha256"] := by
  simp only [mapLineage, bind, Except.bind, pure, Except.pure] at h
  split at h
  · exact absurd h (by simp)
  · simp only [Except.ok.injEq] at h
    exact ⟨_, h.symm, rfl⟩

/-- The kind of a configuration and the keys of its lineage. -/
theorem conf_keys {e : Env C} {c : Conf C} {v : Val} (h : confLineage e c = .ok v) :
    ∃ d, v = .dict d ∧ d.map Prod.fst = match c with
      | .constant _ => ["llh_name", "value"]
      | .set _ => ["llh_name", "value"]
      | .map _ => ["llh_name", "method", "file_path", "sha256"]
      | .sigma .. => ["llh_name", "method", "median", "lower", "upper"] := by
  cases c with
  | constant v => simp only [confLineage, Except.ok.injEq] at h; exact ⟨_, h.symm, rfl⟩
  | set v => simp only [confLineage, Except.ok.injEq] at h; exact ⟨_, h.symm, rfl⟩
  | map m => exact map_keys h
  | sigma n me m l u s =>
    simp only [confLineage, bind, Except.bind, pure, Except.pure] at h
    split at h
    · exact absurd h (by simp)
    · split at h
      · exact absurd h (by simp)
      · split at h
        · exact absurd h (by simp)
        · simp only [Except.ok.injEq] at h
          exact ⟨_, h.symm, rfl⟩

theorem sigma_ok {e : Env C} {n me : String} {m l u : BuiltMap C} {s : Option String} {v : Val}
    (h : confLineage e (.sigma n me m l u s) = .ok v) : ∃ a b c, mapLineage e m = .ok a ∧ mapLineage e l = .ok b ∧
      mapLineage e u = .ok c ∧ v = .dict [("llh_name", .str n), ("method", .str me), ("median", a), ("lower", b), ("upper", c)] := by
  simp only [confLineage, bind, Except.bind, pure, Except.pure] at h
  split at h
  · exact absurd h (by simp)
  · rename_i a ha
    split at h
    · exact absurd h (by simp)
    · rename_i b hb
      split at h
      · exact absurd h (by simp)
      · rename_i c hc
        simp only [Except.ok.injEq] at h
        exact ⟨a, b, c, ha, hb, hc, h.symm⟩

theorem set_not_constant (v : Val) (hv : Plain v) (hs : ∀ l, v = .seq l → ∀ x ∈ l, Scalar x) (w : List (String × List ℚ))
    (hw : w ≠ []) (h : canon v = canon (.dict (w.map (fun p => (p.1, .array p.2))))) : False := by
  rw [canon_plain v hv] at h
  simp only [canon] at h
  have hlen : (byKey (canonItems (w.map (fun p => (p.1, Val.array p.2))))) ≠ [] := by
    intro h0
    have := (byKey_perm (canonItems (w.map (fun p => (p.1, Val.array p.2))))).length_eq
    rw [h0, canonItems_eq] at this
    simp at this
    exact hw (List.length_eq_zero_iff.1 this.symm)
  obtain ⟨a, r, hr⟩ := List.exists_cons_of_ne_nil hlen
  rw [hr] at h
  have := hs _ h (.seq [.str a.1, a.2]) (by simp)
  simp [Scalar] at this

theorem keys_ne {d d' : List (String × Val)} (h : canon (.dict d) = canon (.dict d')) (k : String)
    (h1 : k ∈ d.map Prod.fst) (h2 : k ∉ d'.map Prod.fst) : False := h2 ((canon_dict_keys h k).1 h1)

theorem conf_ident {e e' : Env C} (hs : e.sha = e'.sha) (hi : Function.Injective e.sha) {c c' : Conf C}
    (ho : ConfOk c) (ho' : ConfOk c') (hf : ∀ m ∈ c.maps, e.read m.path = some m.content)
    (hf' : ∀ m ∈ c'.maps, e'.read m.path = some m.content) {v v' : Val}
    (h : confLineage e c = .ok v) (h' : confLineage e' c' = .ok v') (hc : canon v = canon v') : SameConf c c' := by
  obtain ⟨d, rfl, hd⟩ := conf_keys h
  obtain ⟨d', rfl, hd'⟩ := conf_keys h'
  cases c with
  | constant w =>
    cases c' with
    | constant w' =>
      simp only [confLineage, Except.ok.injEq] at h h'
      rw [← h, ← h'] at hc
      have := canon_dict_get (by simp) hc "value"
      simp [PyDict.get?] at this
      rw [canon_plain w ho.1, canon_plain w' ho'.1] at this
      exact this
    | set w' =>
      simp only [confLineage, Except.ok.injEq] at h h'
      rw [← h, ← h'] at hc
      have := canon_dict_get (by simp) hc "value"
      simp [PyDict.get?] at this
      exact (set_not_constant w ho.1 ho.2 w' ho'.1 this).elim
    | map m' => exact (keys_ne hc "value" (by rw [hd]; simp) (by rw [hd']; simp)).elim
    | sigma => exact (keys_ne hc "value" (by rw [hd]; simp) (by rw [hd']; simp)).elim
  | set w =>
    cases c' with
    | constant w' =>
      simp only [confLineage, Except.ok.injEq] at h h'
      rw [← h, ← h'] at hc
      have := canon_dict_get (by simp) hc "value"
      simp [PyDict.get?] at this
      exact (set_not_constant w' ho'.1 ho'.2 w ho.1 this.symm).elim
    | set w' =>
      simp only [confLineage, Except.ok.injEq] at h h'
      rw [← h, ← h'] at hc
      have := canon_dict_get (by simp) hc "value"
      simp [PyDict.get?] at this
      intro k
      have g := canon_dict_get (by simpa [List.map_map, Function.comp_def] using ho.2) this k
      rw [get?_map_snd, get?_map_snd] at g
      cases h1 : PyDict.get? w k with
      | none =>
        cases h2 : PyDict.get? w' k with
        | none => rfl
        | some b => rw [h1, h2] at g; simp at g
      | some a =>
        cases h2 : PyDict.get? w' k with
        | none => rw [h1, h2] at g; simp at g
        | some b =>
          rw [h1, h2] at g
          simp only [Option.map_some, canon, Option.some.injEq, Val.seq.injEq] at g
          have : a = b := List.map_injective_iff.2 (fun x y hxy => by simpa using hxy) g
          rw [this]
    | map m' => exact (keys_ne hc "value" (by rw [hd]; simp) (by rw [hd']; simp)).elim
    | sigma => exact (keys_ne hc "value" (by rw [hd]; simp) (by rw [hd']; simp)).elim
  | map m =>
    cases c' with
    | constant w' => exact (keys_ne hc "sha256" (by rw [hd]; simp) (by rw [hd']; simp)).elim
    | set w' => exact (keys_ne hc "sha256" (by rw [hd]; simp) (by rw [hd']; simp)).elim
    | map m' => exact map_ident hs hi (hf m (by simp [Conf.maps])) (hf' m' (by simp [Conf.maps])) h h' hc
    | sigma => exact (keys_ne hc "sha256" (by rw [hd]; simp) (by rw [hd']; simp)).elim
  | sigma n me m l u s =>
    cases c' with
    | constant w' => exact (keys_ne hc "median" (by rw [hd]; simp) (by rw [hd']; simp)).elim
    | set w' => exact (keys_ne hc "median" (by rw [hd]; simp) (by rw [hd']; simp)).elim
    | map m' => exact (keys_ne hc "median" (by rw [hd]; simp) (by rw [hd']; simp)).elim
    | sigma n' me' m' l' u' s' =>
      obtain ⟨a, b, g, e1, e2, e3, e4⟩ := sigma_ok h
      obtain ⟨a', b', g', f1, f2, f3, f4⟩ := sigma_ok h'
      rw [e4, f4] at hc
      have hg := canon_dict_get (by simp) hc
      have q0 := hg "llh_name"
      have q1 := hg "median"
      have q2 := hg "lower"
      have q3 := hg "upper"
      simp [PyDict.get?, canon] at q0 q1 q2 q3
      exact ⟨q0, map_ident hs hi (hf m (by simp [Conf.maps])) (hf' m' (by simp [Conf.maps])) e1 f1 q1,
        map_ident hs hi (hf l (by simp [Conf.maps])) (hf' l' (by simp [Conf.maps])) e2 f2 q2,
        map_ident hs hi (hf u (by simp [Conf.maps])) (hf' u' (by simp [Conf.maps])) e3 f3 q3⟩

theorem confsLineage_spec {e : Env C} : ∀ {l : List (String × Conf C)} {vs}, confsLineage e l = .ok vs →
    vs.map Prod.fst = l.map Prod.fst ∧
    ∀ k, (PyDict.get? l k = none ∧ PyDict.get? vs k = none) ∨
      ∃ c v, PyDict.get? l k = some c ∧ confLineage e c = .ok v ∧ PyDict.get? vs k = some v := by
  intro l
  induction l with
  | nil => intro vs h; cases h; simp [PyDict.get?]
  | cons x l ih =>
    obtain ⟨k0, c0⟩ := x
    intro vs h
    simp only [confsLineage, bind, Except.bind, pure, Except.pure] at h
    split at h
    · exact absurd h (by simp)
    · rename_i v hv
      split at h
      · exact absurd h (by simp)
      · rename_i ws hws
        cases h
        obtain ⟨i1, i2⟩ := ih hws
        refine ⟨by simp [i1], fun k => ?_⟩
        simp only [PyDict.get?_cons]
        by_cases hk : k0 = k
        · simp only [hk, if_true]
          exact .inr ⟨c0, v, rfl, hv, rfl⟩
        · simp only [hk, if_false]
          exact i2 k

theorem inst_ok {e : Env C} {p : Inst C} {v : Val} (h : instLineage e p = .ok v) : ∃ cs, confsLineage e p.configs = .ok cs ∧
    v = .dict [("depends_on", names p.dependsOn), ("provides", names p.provides), ("parameters", names p.parameters),
      ("takes_config", .dict cs)] := by
  simp only [instLineage, bind, Except.bind, pure, Except.pure] at h
  split at h
  · exact absurd h (by simp)
  · rename_i cs hcs
    cases h
    exact ⟨cs, hcs, rfl⟩

theorem inst_ident {e e' : Env C} (hs : e.sha = e'.sha) (hi : Function.Injective e.sha) {p p' : Inst C}
    (ho : InstOk e p) (ho' : InstOk e' p') {v v' : Val} (h : instLineage e p = .ok v) (h' : instLineage e' p' = .ok v')
    (hc : canon v = canon v') : SameInst p p' := by
  obtain ⟨cs, h1, rfl⟩ := inst_ok h
  obtain ⟨cs', h1', rfl⟩ := inst_ok h'
  have hg := canon_dict_get (by simp) hc
  have q0 := hg "depends_on"
  have q1 := hg "provides"
  have q2 := hg "parameters"
  have q3 := hg "takes_config"
  simp only [PyDict.get?] at q0 q1 q2 q3
  simp only [String.reduceEq, if_true, if_false, Option.map_some, canon_names, Option.some.injEq] at q0 q1 q2 q3
  obtain ⟨a1, a2⟩ := confsLineage_spec h1
  obtain ⟨b1, b2⟩ := confsLineage_spec h1'
  refine ⟨names_inj q0, names_inj q1, names_inj q2, fun k => ?_⟩
  have g := canon_dict_get (by rw [a1]; exact ho.once) q3 k
  rcases a2 k with ⟨x1, x2⟩ | ⟨c, w, x1, x2, x3⟩
  · rcases b2 k with ⟨y1, y2⟩ | ⟨c', w', y1, y2, y3⟩
    · exact .inl ⟨x1, y1⟩
    · rw [x2, y3] at g; simp at g
  · rcases b2 k with ⟨y1, y2⟩ | ⟨c', w', y1, y2, y3⟩
    · rw [x3, y2] at g; simp at g
    · rw [x3, y3] at g
      simp only [Option.map_some, Option.some.injEq] at g
      have m1 := PyDict.mem_of_get? _ x1
      have m2 := PyDict.mem_of_get? _ y1
      exact .inr ⟨c, c', x1, y1, conf_ident hs hi (ho.confs k c m1) (ho'.confs k c' m2) (ho.files k c m1)
        (ho'.files k c' m2) x2 y2 g⟩

theorem instancesLineage_spec {e : Env C} {cached : PyDict String (Inst C)} : ∀ {l : List String} {vs},
    instancesLineage e cached l = .ok vs → vs.map Prod.fst = l ∧
    ∀ n ∈ l, ∃ p v, cached.get? n = some p ∧ instLineage e p = .ok v ∧ PyDict.get? vs n = some v := by
  intro l
  induction l with
  | nil => intro vs h; cases h; simp
  | cons n l ih =>
    intro vs h
    simp only [instancesLineage, bind, Except.bind, pure, Except.pure, PyDict.getItem] at h
    cases hp : cached.get? n with
    | none => rw [hp] at h; exact absurd h (by simp)
    | some p =>
      rw [hp] at h
      simp only at h
      split at h
      · exact absurd h (by simp)
      · rename_i v hv
        split at h
        · exact absurd h (by simp)
        · rename_i ws hws
          cases h
          obtain ⟨i1, i2⟩ := ih hws
          refine ⟨by simp [i1], ?_⟩
          intro k hk
          simp only [PyDict.get?_cons]
          by_cases hkn : n = k
          · subst hkn
            simp only [if_true]
            exact ⟨p, v, hp, hv, rfl⟩
          · simp only [hkn, if_false]
            exact i2 k ((List.mem_cons.1 hk).resolve_left fun h => hkn h.symm)

theorem edgesLists_ok : ∀ {b : List Edges} {vs}, edgesLists b = .ok vs → vs = b.map (fun x => .seq (x.vals.map .num)) := by
  intro b
  induction b with
  | nil => intro vs h; cases h; rfl
  | cons x b ih =>
    intro vs h
    cases x with
    | list l => simp [edgesLists] at h
    | array l =>
      simp only [edgesLists, bind, Except.bind, pure, Except.pure] at h
      split at h
      · exact absurd h (by simp)
      · rename_i ws hws
        cases h
        rw [ih hws]
        rfl

/-- Bins as a value. -/
def binsPlain : Option (List Edges) → Val
  | none => .null
  | some b => .seq (b.map (fun x => .seq (x.vals.map .num)))

theorem binsVal_ok {b : Option (List Edges)} {v : Val} (h : binsVal b = .ok v) : v = binsPlain b := by
  cases b with
  | none => cases h; rfl
  | some b =>
    simp only [binsVal, bind, Except.bind, pure, Except.pure] at h
    split at h
    · exact absurd h (by simp)
    · rename_i vs hvs
      cases h
      rw [edgesLists_ok hvs]
      rfl

theorem binsPlain_inj {b b' : Option (List Edges)} (h : canon (binsPlain b) = canon (binsPlain b')) :
    b.map (List.map Edges.vals) = b'.map (List.map Edges.vals) := by
  have hcan : ∀ b : List Edges, canon (.seq (b.map (fun x => .seq (x.vals.map .num)))) = .seq (b.map (fun x => .seq (x.vals.map .num))) := by
    intro b
    simp only [canon, canonList_eq, List.map_map]
    congr 1
    apply List.map_congr_left
    intro x _
    exact canon_seq_nums _
  cases b with
  | none =>
    cases b' with
    | none => rfl
    | some b' => rw [binsPlain, binsPlain, hcan] at h; simp [canon] at h
  | some b =>
    cases b' with
    | none => rw [binsPlain, binsPlain, hcan] at h; simp [canon] at h
    | some b' =>
      rw [binsPlain, binsPlain, hcan, hcan] at h
      simp only [Val.seq.injEq] at h
      simp only [Option.map_some, Option.some.injEq]
      have hinj : Function.Injective (fun l : List ℚ => Val.seq (l.map .num)) := by
        intro x y hxy
        simp only [Val.seq.injEq] at hxy
        exact List.map_injective_iff.2 (fun a b hab => by simpa using hab) hxy
      refine List.map_injective_iff.2 hinj ?_
      simpa [List.map_map, Function.comp_def] using h

theorem typeVal_inj {t t' : Option String} (h : canon (typeVal t) = canon (typeVal t')) : t = t' := by
  cases t <;> cases t' <;> simp [typeVal, canon] at h ⊢
  exact h

/-- The entries of the bins in the lineage. -/
def binsItems : Option (Option (List Edges) × Option String) → List (String × Val)
  | none => []
  | some (b, t) => [("bins", binsPlain b), ("bins_type", typeVal t)]

theorem sim_ok {e : Env C} {cached : PyDict String (Inst C)} {c : Sim} {v : Val} (h : simLineage e cached c = .ok v) :
    ∃ code is, c.code = some code ∧ instancesLineage e cached c.instances = .ok is ∧
      v = .dict ([("rate_name", .str c.rateName), ("norm_type", .str c.normType), ("code", .str code), ("instances", .dict is)] ++
        binsItems c.bins) := by
  simp only [simLineage, bind, Except.bind] at h
  cases hb : binsDict c.bins with
  | error er => rw [hb] at h; simp at h
  | ok b =>
    rw [hb] at h
    simp only at h
    have hbi : b = binsItems c.bins := by
      cases hcb : c.bins with
      | none => rw [hcb] at hb; cases hb; rfl
      | some bt =>
        obtain ⟨bs, t⟩ := bt
        rw [hcb] at hb
        simp only [binsDict, bind, Except.bind, pure, Except.pure] at hb
        cases hv : binsVal bs with
        | error er => rw [hv] at hb; simp at hb
        | ok w =>
          rw [hv] at hb
          cases hb
          rw [binsVal_ok hv]
          rfl
    cases hc : c.code with
    | none => rw [hc] at h; simp at h
    | some code =>
      rw [hc] at h
      simp only at h
      cases his : instancesLineage e cached c.instances with
      | error er => rw [his] at h; simp at h
      | ok is =>
        rw [his] at h
        cases h
        exact ⟨code, is, rfl, rfl, by rw [hbi]⟩

theorem sim_ident {e e' : Env C} (hs : e.sha = e'.sha) (hi : Function.Injective e.sha) {cached cached' : PyDict String (Inst C)}
    {c c' : Sim} (ho : SimOk e cached c) (ho' : SimOk e' cached' c') {v v' : Val} (h : simLineage e cached c = .ok v)
    (h' : simLineage e' cached' c' = .ok v') (hc : canon v = canon v') : SameSim cached cached' c c' := by
  obtain ⟨code, is, a1, a2, rfl⟩ := sim_ok h
  obtain ⟨code', is', b1, b2, rfl⟩ := sim_ok h'
  have hn : (([("rate_name", .str c.rateName), ("norm_type", .str c.normType), ("code", .str code), ("instances", .dict is)] ++
        binsItems c.bins : List (String × Val)).map Prod.fst).Nodup := by
    cases hb : c.bins with
    | none => simp [binsItems]
    | some bt => simp [binsItems]
  have hg := canon_dict_get hn hc
  have q0 := hg "rate_name"
  have q1 := hg "norm_type"
  have q2 := hg "code"
  have q3 := hg "instances"
  simp only [List.cons_append, PyDict.get?] at q0 q1 q2 q3
  simp only [String.reduceEq, if_true, if_false, Option.map_some, Option.some.injEq] at q0 q1 q2 q3
  simp only [canon, Val.str.injEq] at q0 q1 q2
  obtain ⟨i1, i2⟩ := instancesLineage_spec a2
  obtain ⟨j1, j2⟩ := instancesLineage_spec b2
  have hnames : ∀ n, n ∈ c.instances ↔ n ∈ c'.instances := by
    intro n
    have := canon_dict_keys q3 n
    rwa [i1, j1] at this
  refine ⟨q0, q1, by rw [a1, b1, q2], ?_, hnames, ?_⟩
  · have g1 := hg "bins"
    have g2 := hg "bins_type"
    simp only [List.cons_append, List.nil_append, PyDict.get?] at g1 g2
    simp only [String.reduceEq, if_false] at g1 g2
    cases hb : c.bins with
    | none =>
      cases hb' : c'.bins with
      | none => rfl
      | some bt' => rw [hb, hb'] at g1; simp [binsItems, PyDict.get?] at g1
    | some bt =>
      cases hb' : c'.bins with
      | none => rw [hb, hb'] at g1; simp [binsItems, PyDict.get?] at g1
      | some bt' =>
        rw [hb, hb'] at g1 g2
        simp only [binsItems, PyDict.get?, String.reduceEq, if_true, if_false, Option.map_some, Option.some.injEq] at g1 g2
        simp only [Option.map_some, Option.some.injEq, Prod.mk.injEq]
        exact ⟨binsPlain_inj g1, typeVal_inj g2⟩
  · intro n hn
    obtain ⟨p, w, x1, x2, x3⟩ := i2 n hn
    obtain ⟨p', w', y1, y2, y3⟩ := j2 n ((hnames n).1 hn)
    have g := canon_dict_get (by rw [i1]; exact ho.once) q3 n
    rw [x3, y3] at g
    simp only [Option.map_some, Option.some.injEq] at g
    exact ⟨p, p', x1, y1, inst_ident hs hi (ho.insts n hn p x1) (ho'.insts n ((hnames n).1 hn) p' y1) x2 y2 g⟩

theorem checksum_ok {e : Env C} {p s : String} (h : e.checksum p = .ok s) : ∃ c, e.read p = some c ∧ s = e.sha c := by
  unfold Env.checksum at h
  split at h
  · rename_i c hc
    cases h
    exact ⟨c, hc, rfl⟩
  · exact absurd h (by simp)

theorem fixed_ok {e : Env C} {c : Fixed} {v : Val} (h : fixedLineage e c = .ok v) : ∃ b t x, c.bins = some (b, t) ∧
    e.read c.file = some x ∧ v = .dict [("rate_name", .str c.rateName), ("norm_type", .str c.normType), ("bins", binsPlain b),
      ("bins_type", typeVal t), ("file_path", .str (e.base c.file)), ("sha256", .str (e.sha x))] := by
  unfold fixedLineage at h
  cases hb : c.bins with
  | none => rw [hb] at h; simp at h
  | some bt =>
    obtain ⟨b, t⟩ := bt
    rw [hb] at h
    simp only [bind, Except.bind, pure, Except.pure] at h
    cases hv : binsVal b with
    | error er => rw [hv] at h; simp at h
    | ok w =>
      rw [hv] at h
      simp only at h
      cases hs : e.checksum c.file with
      | error er => rw [hs] at h; simp at h
      | ok s =>
        rw [hs] at h
        obtain ⟨x, hx, rfl⟩ := checksum_ok hs
        cases h
        exact ⟨b, t, x, rfl, hx, by rw [binsVal_ok hv]⟩

theorem fixed_ident {e e' : Env C} (hs : e.sha = e'.sha) (hi : Function.Injective e.sha) {c c' : Fixed} {v v' : Val}
    (h : fixedLineage e c = .ok v) (h' : fixedLineage e' c' = .ok v') (hc : canon v = canon v') : SameFixed e e' c c' := by
  obtain ⟨b, t, x, a1, a2, rfl⟩ := fixed_ok h
  obtain ⟨b', t', x', b1, b2, rfl⟩ := fixed_ok h'
  have hg := canon_dict_get (by simp) hc
  have q0 := hg "rate_name"
  have q1 := hg "norm_type"
  have q2 := hg "bins"
  have q3 := hg "bins_type"
  have q4 := hg "sha256"
  simp only [PyDict.get?, String.reduceEq, if_true, if_false, Option.map_some, Option.some.injEq] at q0 q1 q2 q3 q4
  simp only [canon, Val.str.injEq] at q0 q1 q4
  refine ⟨q0, q1, ?_, ?_⟩
  · rw [a1, b1]
    simp only [Option.map_some, Option.some.injEq, Prod.mk.injEq]
    exact ⟨binsPlain_inj q2, typeVal_inj q3⟩
  · rw [a2, b2, hi (q4.trans (by rw [hs]))]

theorem comp_ident {e e' : Env C} (hs : e.sha = e'.sha) (hi : Function.Injective e.sha) {cached cached' : PyDict String (Inst C)}
    {c c' : Comp} (ho : CompOk e cached c) (ho' : CompOk e' cached' c') {v v' : Val} (h : compLineage e cached c = .ok v)
    (h' : compLineage e' cached' c' = .ok v') (hc : canon v = canon v') : SameComp e e' cached cached' c c' := by
  cases c with
  | sim c =>
    cases c' with
    | sim c' => exact sim_ident hs hi ho ho' h h' hc
    | fixed c' =>
      obtain ⟨code, is, _, _, rfl⟩ := sim_ok h
      obtain ⟨b, t, x, _, _, rfl⟩ := fixed_ok h'
      exact (keys_ne hc "code" (by simp) (by simp)).elim
  | fixed c =>
    cases c' with
    | sim c' =>
      obtain ⟨code, is, _, _, rfl⟩ := sim_ok h'
      obtain ⟨b, t, x, _, _, rfl⟩ := fixed_ok h
      exact (keys_ne hc.symm "code" (by simp) (by simp)).elim
    | fixed c' => exact fixed_ident hs hi h h' hc

theorem compsLineage_spec {e : Env C} {cached : PyDict String (Inst C)} : ∀ {l : List (String × Comp)} {vs},
    compsLineage e cached l = .ok vs → vs.map Prod.fst = l.map Prod.fst ∧
    ∀ k, (PyDict.get? l k = none ∧ PyDict.get? vs k = none) ∨
      ∃ c v, PyDict.get? l k = some c ∧ compLineage e cached c = .ok v ∧ PyDict.get? vs k = some v := by
  intro l
  induction l with
  | nil => intro vs h; cases h; simp [PyDict.get?]
  | cons x l ih =>
    obtain ⟨k0, c0⟩ := x
    intro vs h
    simp only [compsLineage, bind, Except.bind, pure, Except.pure] at h
    split at h
    · exact absurd h (by simp)
    · rename_i v hv
      split at h
      · exact absurd h (by simp)
      · rename_i ws hws
        cases h
        obtain ⟨i1, i2⟩ := ih hws
        refine ⟨by simp [i1], fun k => ?_⟩
        simp only [PyDict.get?_cons]
        by_cases hk : k0 = k
        · simp only [hk, if_true]
          exact .inr ⟨c0, v, rfl, hv, rfl⟩
        · simp only [hk, if_false]
          exact i2 k

theorem comps_ident {e e' : Env C} (hs : e.sha = e'.sha) (hi : Function.Injective e.sha) {cached cached' : PyDict String (Inst C)}
    {l l' : List (String × Comp)} (hn : (l.map Prod.fst).Nodup) (ho : ∀ k c, (k, c) ∈ l → CompOk e cached c)
    (ho' : ∀ k c, (k, c) ∈ l' → CompOk e' cached' c) {vs vs'} (h : compsLineage e cached l = .ok vs)
    (h' : compsLineage e' cached' l' = .ok vs') (hg : ∀ k, (PyDict.get? vs k).map canon = (PyDict.get? vs' k).map canon) (k : String) :
    (PyDict.get? l k = none ∧ PyDict.get? l' k = none) ∨
    ∃ c c', PyDict.get? l k = some c ∧ PyDict.get? l' k = some c' ∧ SameComp e e' cached cached' c c' := by
  have g := hg k
  obtain ⟨_, a2⟩ := compsLineage_spec h
  obtain ⟨_, b2⟩ := compsLineage_spec h'
  rcases a2 k with ⟨x1, x2⟩ | ⟨c, w, x1, x2, x3⟩
  · rcases b2 k with ⟨y1, y2⟩ | ⟨c', w', y1, y2, y3⟩
    · exact .inl ⟨x1, y1⟩
    · rw [x2, y3] at g; simp at g
  · rcases b2 k with ⟨y1, y2⟩ | ⟨c', w', y1, y2, y3⟩
    · rw [x3, y2] at g; simp at g
    · rw [x3, y3] at g
      simp only [Option.map_some, Option.some.injEq] at g
      exact .inr ⟨c, c', x1, y1, comp_ident hs hi (ho k c (PyDict.mem_of_get? _ x1)) (ho' k c' (PyDict.mem_of_get? _ y1)) x2 y2 g⟩

theorem settings_ident {d d' : List (String × Val)} (hn : (d.map Prod.fst).Nodup) (h : canon (.dict d) = canon (.dict d'))
    (k : String) : (PyDict.get? d k = none ↔ PyDict.get? d' k = none) ∧
    ∀ v v', PyDict.get? d k = some v → PyDict.get? d' k = some v' → Plain v → Plain v' → v = v' := by
  have g := canon_dict_get hn h k
  constructor
  · cases h1 : PyDict.get? d k <;> cases h2 : PyDict.get? d' k <;> rw [h1, h2] at g <;> simp at g ⊢
  · intro v v' h1 h2 p p'
    rw [h1, h2] at g
    simpa [canon_plain v p, canon_plain v' p'] using g

theorem llh_ident {e e' : Env C} (hs : e.sha = e'.sha) (hi : Function.Injective e.sha) {digest : Val → String}
    (hd : Function.Injective digest) {cached cached' : PyDict String (Inst C)} {l l' : Llh} {d d' : List (String × Val)}
    (hl : l.config = .dict d) (hl' : l'.config = .dict d') (hn : (d.map Prod.fst).Nodup)
    (hk : (l.components.map Prod.fst).Nodup) (ho : ∀ k c, (k, c) ∈ l.components → CompOk e cached c)
    (ho' : ∀ k c, (k, c) ∈ l'.components → CompOk e' cached' c) {v v' : Val}
    (h : llhLineage e digest cached l = .ok v) (h' : llhLineage e' digest cached' l' = .ok v') (hc : canon v = canon v') :
    SameLlh e e' cached cached' l l' d d' := by
  have lit : ∀ {e : Env C} {cached} {l : Llh} {v}, l.file = none → llhLineage e digest cached l = .ok v →
      ∃ cs, compsLineage e cached l.components = .ok cs ∧
        v = .dict [("config", l.config), ("components", .dict (cs.map (fun p => (p.1, .str (hash digest p.2)))))] := by
    intro e cached l v hf h
    unfold llhLineage at h
    rw [hf] at h
    simp only [bind, Except.bind, pure, Except.pure] at h
    split at h
    · exact absurd h (by simp)
    · rename_i cs hcs
      cases h
      exact ⟨cs, hcs, rfl⟩
  have ord : ∀ {e : Env C} {cached} {l : Llh} {v f}, l.file = some f → llhLineage e digest cached l = .ok v →
      ∃ x cs, e.read f = some x ∧ compsLineage e cached l.components = .ok cs ∧
        v = .dict [("config", l.config), ("file_path", .str (e.base f)), ("sha256", .str (e.sha x)), ("components", .dict cs)] := by
    intro e cached l v f hf h
    unfold llhLineage at h
    rw [hf] at h
    simp only [bind, Except.bind, pure, Except.pure] at h
    split at h
    · exact absurd h (by simp)
    · rename_i s hs
      split at h
      · exact absurd h (by simp)
      · rename_i cs hcs
        obtain ⟨x, hx, rfl⟩ := checksum_ok hs
        cases h
        exact ⟨x, cs, hx, hcs, rfl⟩
  cases hf : l.file with
  | none =>
    obtain ⟨cs, a1, rfl⟩ := lit hf h
    cases hf' : l'.file with
    | some f' =>
      obtain ⟨x, cs', _, _, rfl⟩ := ord hf' h'
      exact (keys_ne hc.symm "sha256" (by simp) (by simp)).elim
    | none =>
      obtain ⟨cs', b1, rfl⟩ := lit hf' h'
      have hg := canon_dict_get (by simp) hc
      have q0 := hg "config"
      have q1 := hg "components"
      simp only [PyDict.get?, String.reduceEq, if_true, if_false, Option.map_some, Option.some.injEq] at q0 q1
      rw [hl, hl'] at q0
      refine ⟨settings_ident hn q0, by rw [hf, hf']; rfl, ?_⟩
      refine comps_ident hs hi hk ho ho' a1 b1 fun k => ?_
      have g := canon_dict_get (by
        rw [keys_map_snd cs (fun x => Val.str (hash digest x)), (compsLineage_spec a1).1]; exact hk) q1 k
      rw [get?_map_snd cs (fun p => Val.str (hash digest p)), get?_map_snd cs' (fun p => Val.str (hash digest p))] at g
      cases h1 : PyDict.get? cs k <;> cases h2 : PyDict.get? cs' k <;> rw [h1, h2] at g <;> simp [canon, hash] at g ⊢
      exact hd g
  | some f =>
    obtain ⟨x, cs, a0, a1, rfl⟩ := ord hf h
    cases hf' : l'.file with
    | none =>
      obtain ⟨cs', _, rfl⟩ := lit hf' h'
      exact (keys_ne hc "sha256" (by simp) (by simp)).elim
    | some f' =>
      obtain ⟨x', cs', b0, b1, rfl⟩ := ord hf' h'
      have hg := canon_dict_get (by simp) hc
      have q0 := hg "config"
      have q1 := hg "components"
      have q2 := hg "sha256"
      simp only [PyDict.get?, String.reduceEq, if_true, if_false, Option.map_some, Option.some.injEq] at q0 q1 q2
      rw [hl, hl'] at q0
      simp only [canon, Val.str.injEq] at q2
      refine ⟨settings_ident hn q0, ?_, ?_⟩
      · rw [hf, hf']
        simp only [Option.map_some, a0, b0]
        rw [hi (q2.trans (by rw [hs]))]
      · exact comps_ident hs hi hk ho ho' a1 b1 fun k => canon_dict_get (by
          rw [(compsLineage_spec a1).1]; exact hk) q1 k

/-! ### Order of the instances -/

theorem instances_perm {e : Env C} {cached : PyDict String (Inst C)} {l l' : List String} (h : l.Perm l') :
    ∀ {vs}, instancesLineage e cached l = .ok vs → ∃ vs', instancesLineage e cached l' = .ok vs' ∧ vs.Perm vs' := by
  have step : ∀ {n : String} {l : List String} {vs}, instancesLineage e cached (n :: l) = .ok vs ↔
      ∃ p v ws, cached.get? n = some p ∧ instLineage e p = .ok v ∧ instancesLineage e cached l = .ok ws ∧ vs = (n, v) :: ws := by
    intro n l vs
    simp only [instancesLineage, bind, Except.bind, pure, Except.pure, PyDict.getItem]
    constructor
    · intro h
      cases hp : cached.get? n with
      | none => rw [hp] at h; simp at h
      | some p =>
        rw [hp] at h
        simp only at h
        cases hv : instLineage e p with
        | error er => rw [hv] at h; simp at h
        | ok v =>
          rw [hv] at h
          simp only at h
          cases hw : instancesLineage e cached l with
          | error er => rw [hw] at h; simp at h
          | ok ws =>
            rw [hw] at h
            cases h
            exact ⟨p, v, ws, rfl, hv, rfl, rfl⟩
    · rintro ⟨p, v, ws, h1, h2, h3, rfl⟩
      simp only [h1, h2, h3]
  induction h with
  | nil => intro vs h; exact ⟨vs, h, .refl _⟩
  | cons n _ ih =>
    intro vs h
    obtain ⟨p, v, ws, h1, h2, h3, rfl⟩ := step.1 h
    obtain ⟨ws', i1, i2⟩ := ih h3
    exact ⟨_, step.2 ⟨p, v, ws', h1, h2, i1, rfl⟩, i2.cons _⟩
  | swap n m l =>
    intro vs h
    obtain ⟨p, v, ws, h1, h2, h3, rfl⟩ := step.1 h
    obtain ⟨p', v', ws', g1, g2, g3, rfl⟩ := step.1 h3
    exact ⟨_, step.2 ⟨p', v', _, g1, g2, step.2 ⟨p, v, ws', h1, h2, g3, rfl⟩, rfl⟩, .swap _ _ _⟩
  | trans _ _ ih1 ih2 =>
    intro vs h
    obtain ⟨vs', a1, a2⟩ := ih1 h
    obtain ⟨vs'', b1, b2⟩ := ih2 a1
    exact ⟨vs'', b1, a2.trans b2⟩

/-! ### Writing -/

theorem writableItems_iff (d : List (String × Val)) : writableItems d = true ↔ ∀ e ∈ d, writable e.2 = true := by
  induction d with
  | nil => simp [writableItems]
  | cons e l ih => obtain ⟨k, v⟩ := e; simp [writableItems, ih]

theorem writableList_iff (l : List Val) : writableList l = true ↔ ∀ v ∈ l, writable v = true := by
  induction l with
  | nil => simp [writableList]
  | cons v l ih => simp [writableList, ih]

mutual
theorem plain_writable : ∀ v, Plain v → writable v = true
  | .null, _ => rfl
  | .num _, _ => rfl
  | .str _, _ => rfl
  | .seq l, h => by
    simp only [Plain] at h
    simp only [writable, plainList_writable l h]
  | .array _, h => by simp [Plain] at h
  | .dict _, h => by simp [Plain] at h
theorem plainList_writable : ∀ l, PlainList l → writableList l = true
  | [], _ => rfl
  | v :: l, h => by
    simp only [PlainList] at h
    simp only [writableList, plain_writable v h.1, plainList_writable l h.2, Bool.and_self]
end

theorem names_writable (l : List String) : writable (names l) = true := by
  simp only [names, writable, writableList_iff, List.mem_map]
  rintro v ⟨s, _, rfl⟩
  rfl

theorem binsPlain_writable (b : Option (List Edges)) : writable (binsPlain b) = true := by
  cases b with
  | none => rfl
  | some b =>
    simp only [binsPlain, writable, writableList_iff, List.mem_map]
    rintro v ⟨s, _, rfl⟩
    simp only [writable, writableList_iff, List.mem_map]
    rintro v ⟨s, _, rfl⟩
    rfl

theorem typeVal_writable (t : Option String) : writable (typeVal t) = true := by cases t <;> rfl

theorem map_writable {e : Env C} {m : BuiltMap C} {v : Val} (h : mapLineage e m = .ok v) : writable v = true := by
  simp only [mapLineage, bind, Except.bind, pure, Except.pure] at h
  split at h
  · exact absurd h (by simp)
  · cases h; rfl

/-- A set of constants. -/
def Conf.IsSet : Conf C → Prop
  | .set _ => True
  | _ => False

theorem conf_writable {e : Env C} {c : Conf C} (ho : ConfOk c) {v : Val} (h : confLineage e c = .ok v) :
    (¬ c.IsSet → writable v = true) ∧ (c.IsSet → writable v = false) := by
  cases c with
  | constant w =>
    cases h
    refine ⟨fun _ => ?_, fun h => h.elim⟩
    simp only [writable, writableItems, plain_writable w ho.1, Bool.and_self]
  | set w =>
    cases h
    refine ⟨fun h => absurd trivial h, fun _ => ?_⟩
    have : writable (.dict (w.map (fun p => (p.1, Val.array p.2)))) = false := by
      rw [Bool.eq_false_iff]
      intro hw
      simp only [writable, writableItems_iff] at hw
      obtain ⟨x, r, hr⟩ := List.exists_cons_of_ne_nil ho.1
      have := hw (x.1, .array x.2) (by rw [hr]; simp)
      simp [writable] at this
    rw [writable, writableItems, writableItems, writableItems, this]
    rfl
  | map m => exact ⟨fun _ => map_writable h, fun h => h.elim⟩
  | sigma n me m l u s =>
    obtain ⟨a, b, g, e1, e2, e3, rfl⟩ := sigma_ok h
    refine ⟨fun _ => ?_, fun h => h.elim⟩
    simp only [writable, writableItems, map_writable e1, map_writable e2, map_writable e3, Bool.and_self]

theorem inst_writable {e : Env C} {p : Inst C} (ho : InstOk e p) {v : Val} (h : instLineage e p = .ok v) :
    writable v = true ↔ ∀ k c, (k, c) ∈ p.configs → ¬ c.IsSet := by
  obtain ⟨cs, h1, rfl⟩ := inst_ok h
  obtain ⟨a1, a2⟩ := confsLineage_spec h1
  have hw : writable (Val.dict [("depends_on", names p.dependsOn), ("provides", names p.provides),
      ("parameters", names p.parameters), ("takes_config", .dict cs)]) = true ↔ ∀ x ∈ cs, writable x.2 = true := by
    simp only [writable, writableItems, names_writable, Bool.true_and, Bool.and_true]
    exact writableItems_iff cs
  rw [hw]
  have hnd : (cs.map Prod.fst).Nodup := by rw [a1]; exact ho.once
  constructor
  · intro hall k c hm hset
    have hg := PyDict.get?_of_mem p.configs ho.once hm
    rcases a2 k with ⟨x1, _⟩ | ⟨c', w, x1, x2, x3⟩
    · rw [hg] at x1; simp at x1
    · rw [hg] at x1
      cases x1
      have := hall (k, w) (PyDict.mem_of_get? cs x3)
      rw [(conf_writable (ho.confs k c hm) x2).2 hset] at this
      simp at this
  · rintro hall ⟨k, w⟩ hx
    have hg := PyDict.get?_of_mem cs hnd hx
    rcases a2 k with ⟨_, x2⟩ | ⟨c', w', x1, x2, x3⟩
    · rw [hg] at x2; simp at x2
    · rw [hg] at x3
      cases x3
      have hm := PyDict.mem_of_get? _ x1
      exact (conf_writable (ho.confs k c' hm) x2).1 (hall k c' hm)

theorem sim_writable {e : Env C} {cached : PyDict String (Inst C)} {c : Sim} (ho : SimOk e cached c) {v : Val}
    (h : simLineage e cached c = .ok v) : writable v = true ↔
      ∀ n ∈ c.instances, ∀ p, cached.get? n = some p → ∀ k x, (k, x) ∈ p.configs → ¬ x.IsSet := by
  obtain ⟨code, is, a1, a2, rfl⟩ := sim_ok h
  obtain ⟨i1, i2⟩ := instancesLineage_spec a2
  have hb : ∀ x ∈ binsItems c.bins, writable x.2 = true := by
    cases hcb : c.bins with
    | none => simp [binsItems]
    | some bt =>
      obtain ⟨b, t⟩ := bt
      simp [binsItems, binsPlain_writable, typeVal_writable]
  have hw : writable (Val.dict ([("rate_name", .str c.rateName), ("norm_type", .str c.normType), ("code", .str code),
      ("instances", .dict is)] ++ binsItems c.bins)) = true ↔ ∀ x ∈ is, writable x.2 = true := by
    have : writable (Val.dict is) = true ↔ ∀ x ∈ is, writable x.2 = true := by simp only [writable]; exact writableItems_iff is
    rw [← this]
    simp only [writable.eq_6, writableItems_iff, List.mem_append, List.mem_cons, List.not_mem_nil, or_false]
    constructor
    · intro hall x hx
      have := hall ("instances", .dict is) (by simp)
      simp only [writable.eq_6, writableItems_iff] at this
      exact this x hx
    · rintro hall x ((rfl | rfl | rfl | rfl) | hx)
      · rfl
      · rfl
      · rfl
      · simp only [writable.eq_6, writableItems_iff]; exact hall
      · exact hb x hx
  rw [hw]
  have hnd : (is.map Prod.fst).Nodup := by rw [i1]; exact ho.once
  constructor
  · intro hall n hn p hp
    obtain ⟨p', w, x1, x2, x3⟩ := i2 n hn
    rw [hp] at x1
    cases x1
    exact (inst_writable (ho.insts n hn p hp) x2).1 (hall (n, w) (PyDict.mem_of_get? is x3))
  · rintro hall ⟨n, w⟩ hx
    have hn : n ∈ c.instances := by rw [← i1]; exact List.mem_map.2 ⟨_, hx, rfl⟩
    obtain ⟨p', w', x1, x2, x3⟩ := i2 n hn
    rw [PyDict.get?_of_mem is hnd hx] at x3
    cases x3
    exact (inst_writable (ho.insts n hn p' x1) x2).2 (hall n hn p' x1)

theorem settingItems_iff (d : List (String × Val)) : SettingItems d ↔ ∀ x ∈ d, Setting x.2 := by
  induction d with
  | nil => simp [SettingItems]
  | cons x l ih => obtain ⟨k, v⟩ := x; simp [SettingItems, ih]

theorem canon_scalars {l : List Val} (h : ∀ x ∈ l, Scalar x) : canonList l = l := by
  induction l with
  | nil => rfl
  | cons v l ih =>
    have hv : canon v = v := by
      have := h v (by simp)
      cases v <;> simp_all [Scalar, canon]
    simp only [canonList, hv, ih (fun x hx => h x (by simp [hx]))]

theorem scalars_not_dict {l : List Val} (hl : l ≠ []) (h : ∀ x ∈ l, Scalar x) (d : List (String × Val))
    (hc : canon (.seq l) = canon (.dict d)) : False := by
  simp only [canon, canon_scalars h, Val.seq.injEq] at hc
  obtain ⟨a, r, rfl⟩ := List.exists_cons_of_ne_nil hl
  have ha := h a (by simp)
  cases hb : byKey (canonItems d) with
  | nil => rw [hb] at hc; simp at hc
  | cons x y =>
    rw [hb] at hc
    simp only [List.map_cons, List.cons.injEq] at hc
    rw [hc.1] at ha
    simp [Scalar] at ha

/-- Settings of equal canonical form are the same. -/
theorem setting_ident : ∀ (v v' : Val), Setting v → Setting v' → canon v = canon v' → SameVal v v'
  | .null, v', _, _, hc => by cases v' <;> simp [canon] at hc; exact .same _
  | .num q, v', _, _, hc => by cases v' <;> simp [canon] at hc; subst hc; exact .same _
  | .str q, v', _, _, hc => by cases v' <;> simp [canon] at hc; subst hc; exact .same _
  | .array _, _, h, _, _ => by simp [Setting] at h
  | .seq l, v', h, h', hc => by
    simp only [Setting] at h
    cases v' with
    | seq l' =>
      simp only [Setting] at h'
      simp only [canon, canon_scalars h.2, canon_scalars h'.2, Val.seq.injEq] at hc
      subst hc
      exact .same _
    | dict d => exact (scalars_not_dict h.1 h.2 d hc).elim
    | null => simp [canon] at hc
    | num _ => simp [canon] at hc
    | str _ => simp [canon] at hc
    | array _ => simp [Setting] at h'
  | .dict d, v', h, h', hc => by
    simp only [Setting] at h
    cases v' with
    | seq l' =>
      simp only [Setting] at h'
      exact (scalars_not_dict h'.1 h'.2 d hc.symm).elim
    | dict d' =>
      simp only [Setting, settingItems_iff] at h'
      have hh := (settingItems_iff d).1 h.2
      refine .dict (fun k => ?_) (fun k w w' h1 h2 => ?_)
      · have g := canon_dict_get h.1 hc k
        cases h1 : PyDict.get? d k <;> cases h2 : PyDict.get? d' k <;> rw [h1, h2] at g <;> simp at g ⊢
      · have g := canon_dict_get h.1 hc k
        rw [h1, h2] at g
        have hm := PyDict.mem_of_get? d h1
        have := List.sizeOf_lt_of_mem hm
        exact setting_ident w w' (hh _ hm) (h'.2 _ (PyDict.mem_of_get? d' h2)) (by simpa using g)
    | null => simp [canon] at hc
    | num _ => simp [canon] at hc
    | str _ => simp [canon] at hc
    | array _ => simp [Setting] at h'
termination_by v => sizeOf v
decreasing_by
  simp only [Val.dict.sizeOf_spec]
  have : sizeOf (k, w) = 1 + sizeOf k + sizeOf w := rfl
  omega

theorem llhsLineage_spec {e : Env C} {digest : Val → String} {cached : PyDict String (PyDict String (Inst C))} :
    ∀ {l : List (String × Llh)} {vs}, llhsLineage e digest cached l = .ok vs → vs.map Prod.fst = l.map Prod.fst ∧
    ∀ k, (PyDict.get? l k = none ∧ PyDict.get? vs k = none) ∨
      ∃ c v, PyDict.get? l k = some c ∧ llhLineage e digest ((cached.get? k).getD []) c = .ok v ∧ PyDict.get? vs k = some v := by
  intro l
  induction l with
  | nil => intro vs h; cases h; simp [PyDict.get?]
  | cons x l ih =>
    obtain ⟨k0, c0⟩ := x
    intro vs h
    simp only [llhsLineage, bind, Except.bind, pure, Except.pure] at h
    split at h
    · exact absurd h (by simp)
    · rename_i v hv
      split at h
      · exact absurd h (by simp)
      · rename_i ws hws
        cases h
        obtain ⟨i1, i2⟩ := ih hws
        refine ⟨by simp [i1], fun k => ?_⟩
        simp only [PyDict.get?_cons]
        by_cases hk : k0 = k
        · subst hk
          simp only [if_true]
          exact .inr ⟨c0, v, rfl, hv, rfl⟩
        · simp only [hk, if_false]
          exact i2 k

theorem context_ident {e e' : Env C} (hs : e.sha = e'.sha) (hi : Function.Injective e.sha) {digest : Val → String}
    (hd : Function.Injective digest) {cached cached' : PyDict String (PyDict String (Inst C))} {instruct instruct' : PyDict String Val}
    {par par' : Val} {llhs llhs' : List (String × Llh)} {cfg cfg' : String → List (String × Val)}
    (hk : instruct.keys.Nodup) (hp : Setting par) (hp' : Setting par')
    (hn : (llhs.map Prod.fst).Nodup) (ho : ∀ k l, (k, l) ∈ llhs → LlhOk e ((cached.get? k).getD []) l (cfg k))
    (ho' : ∀ k l, (k, l) ∈ llhs' → LlhOk e' ((cached'.get? k).getD []) l (cfg' k)) {v v' : Val}
    (h : contextLineage e digest cached instruct par llhs = .ok v)
    (h' : contextLineage e' digest cached' instruct' par' llhs' = .ok v') (hc : canon v = canon v') :
    SameContext e e' cached cached' instruct instruct' par par' llhs llhs' cfg cfg' := by
  simp only [contextLineage, bind, Except.bind, pure, Except.pure] at h h'
  split at h
  · exact absurd h (by simp)
  rename_i ls hls
  split at h'
  · exact absurd h' (by simp)
  rename_i ls' hls'
  cases h
  cases h'
  have g := canon_dict_get (PyDict.nodup_update instruct _ hk) hc
  obtain ⟨a1, a2⟩ := llhsLineage_spec hls
  obtain ⟨b1, b2⟩ := llhsLineage_spec hls'
  refine ⟨fun k k1 k2 => ?_, ?_, fun k => ?_⟩
  · have gk := g k
    rw [PyDict.get?_update_not_mem _ _ _ (by simp [k1, k2]), PyDict.get?_update_not_mem _ _ _ (by simp [k1, k2])] at gk
    constructor
    · cases h1 : PyDict.get? instruct k <;> cases h2 : PyDict.get? instruct' k <;> rw [h1, h2] at gk <;> simp at gk ⊢
    · intro w w' h1 h2 p p'
      rw [h1, h2] at gk
      exact setting_ident w w' p p' (by simpa using gk)
  · have gk := g "par_config"
    rw [PyDict.get?_update_nodup instruct [("par_config", par), ("likelihoods", Val.dict ls)] (by simp) (v := par) (by simp),
      PyDict.get?_update_nodup instruct' [("par_config", par'), ("likelihoods", Val.dict ls')] (by simp) (v := par') (by simp)] at gk
    exact setting_ident par par' hp hp' (by simpa using gk)
  · have gk := g "likelihoods"
    rw [PyDict.get?_update_nodup instruct [("par_config", par), ("likelihoods", Val.dict ls)] (by simp) (v := .dict ls) (by simp),
      PyDict.get?_update_nodup instruct' [("par_config", par'), ("likelihoods", Val.dict ls')] (by simp) (v := .dict ls') (by simp)] at gk
    have gl := canon_dict_get (by rw [a1]; exact hn) (Option.some.inj gk) k
    rcases a2 k with ⟨x1, x2⟩ | ⟨c, w, x1, x2, x3⟩
    · rcases b2 k with ⟨y1, y2⟩ | ⟨c', w', y1, y2, y3⟩
      · exact .inl ⟨x1, y1⟩
      · rw [x2, y3] at gl; simp at gl
    · rcases b2 k with ⟨y1, y2⟩ | ⟨c', w', y1, y2, y3⟩
      · rw [x3, y2] at gl; simp at gl
      · rw [x3, y3] at gl
        have o := ho k c (PyDict.mem_of_get? _ x1)
        have o' := ho' k c' (PyDict.mem_of_get? _ y1)
        exact .inr ⟨c, c', x1, y1, llh_ident hs hi hd o.config o'.config o.keys o.names o.comps o'.comps x2 y2 (by simpa using gl)⟩

end
end Verif.Lineage
