/- Helper lemmas about the configuration cache (not claims). -/
import Verif.Spec.Config

namespace Verif.Conf
open Verif

/-- `d'` keeps every plain value of `d` and every entry of its per-likelihood dictionaries. -/
def Ext (d d' : PyDict String CVal) : Prop := ∀ k,
  (∀ a, d.get? k = some (.atom a) → d'.get? k = some (.atom a)) ∧
  (∀ m, d.get? k = some (.dict m) →
    ∃ m', d'.get? k = some (.dict m') ∧ ∀ l a, m.get? l = some a → m'.get? l = some a)

theorem Ext.refl (d : PyDict String CVal) : Ext d d := fun _ => ⟨fun _ h => h, fun m h => ⟨m, h, fun _ _ h => h⟩⟩

theorem Ext.trans {a b c : PyDict String CVal} (h1 : Ext a b) (h2 : Ext b c) : Ext a c := by
  intro k
  refine ⟨fun x hx => (h2 k).1 x ((h1 k).1 x hx), fun m hm => ?_⟩
  obtain ⟨m', hm', hle⟩ := (h1 k).2 m hm
  obtain ⟨m'', hm'', hle'⟩ := (h2 k).2 m' hm'
  exact ⟨m'', hm'', fun l a hl => hle' l a (hle l a hl)⟩

theorem Ext.set_new {d : PyDict String CVal} {k : String} (v : CVal) (h : d.get? k = none) :
    Ext d (d.set k v) := by
  intro k2
  by_cases hk : k = k2
  · subst hk; rw [h]; exact ⟨by simp, by simp⟩
  · rw [PyDict.get?_set_ne _ _ hk]; exact Ext.refl d k2

@[simp] theorem record_data (c : Cache) (k : String) : (c.record k).data = c.data := rfl
@[simp] theorem get_data (c : Cache) (k : String) : (c.get k).1.data = c.data := rfl
@[simp] theorem set_data (c : Cache) (k : String) (v : CVal) : (c.set k v).data = c.data.set k v := rfl
@[simp] theorem put_data (c : Cache) (k : String) (v : CVal) : (c.put k v).data = c.data.set k v := rfl

theorem getFilePath_data (fs : FS) (s : String) (c : Cache) : (getFilePath fs s c).1.data = c.data := by
  unfold getFilePath
  split
  · rfl
  · split
    · have h := get_data c "url_base"
      generalize c.get "url_base" = g at h
      obtain ⟨c1, r⟩ := g
      simp only at h
      split
      · rename_i heq
        cases heq
        split
        · split <;> exact h
        · exact h
      · rename_i heq; cases heq; exact h
      · rename_i heq; cases heq; exact h
    · rfl

theorem transformed_data (fs : FS) (u : Bool) (a : Atom) (c : Cache) :
    (transformed fs u a c).1.data = c.data := by
  unfold transformed
  split
  · cases a with
    | str s =>
      simp only
      have h := getFilePath_data fs s c
      revert h
      rcases getFilePath fs s c with ⟨c', r⟩
      intro h
      cases r <;> exact h
    | _ => rfl
  · rfl

theorem has_false_iff (d : PyDict String CVal) (k : String) : d.has k = false ↔ d.get? k = none := by
  unfold PyDict.has; cases d.get? k <;> simp

theorem resolve_eq (fs : FS) (u : Bool) (cf : Conf) (llh : Option String) (c : Cache) :
    resolve fs u cf llh c =
      match c.data.get? cf.name with
      | some v => (c.record cf.name, pick v llh)
      | none =>
        match getDefault cf.default with
        | .error e => (c, .error e)
        | .ok a =>
          match transformed fs u a c with
          | (c, .error e) => (c, .error e)
          | (c, .ok a) => (c.set cf.name (.atom a), .ok a) := by
  unfold resolve
  cases h : c.data.get? cf.name with
  | none => simp [PyDict.has, h]; rfl
  | some v => simp [PyDict.has, h, Cache.get, PyDict.getItem]

theorem resolve_ext (fs : FS) (u : Bool) (cf : Conf) (llh : Option String) (c : Cache) :
    Ext c.data (resolve fs u cf llh c).1.data := by
  rw [resolve_eq]
  cases h : c.data.get? cf.name with
  | some v => exact Ext.refl _
  | none =>
    simp only
    cases hd : getDefault cf.default with
    | error e => exact Ext.refl _
    | ok a =>
      simp only
      have ht := transformed_data fs u a c
      rcases hx : transformed fs u a c with ⟨c', r⟩
      rw [hx] at ht
      simp only at ht
      cases r with
      | error e => simp only; rw [ht]; exact Ext.refl _
      | ok a' =>
        simp only [set_data]; rw [ht]; exact Ext.set_new _ h

theorem buildMap_ext (fs : FS) (cf : Conf) (llh : Option String) (c : Cache) :
    Ext c.data (buildMap fs cf llh c).1.data := by
  unfold buildMap
  have hr := resolve_ext fs true cf llh c
  generalize resolve fs true cf llh c = g at *
  obtain ⟨c1, r⟩ := g
  simp only at hr
  cases r with
  | error e => exact hr
  | ok a =>
    cases a with
    | str p =>
      simp only
      have hf := getFilePath_data fs p c1
      generalize getFilePath fs p c1 = g at *
      obtain ⟨c2, r2⟩ := g
      simp only at hf
      cases r2 with
      | error e => simp only; rw [hf]; exact hr
      | ok p' => simp only; split <;> (simp only; rw [hf]; exact hr)
    | _ => exact hr

theorem getConfigs_eq (cf : Conf) (attr arg : Option String) (c : Cache) :
    getConfigs cf attr arg c =
      match c.data.get? cf.name with
      | some v => (c.record cf.name, pick v (arg.or attr))
      | none =>
        match getDefault cf.default with
        | .error e => (c, .error e)
        | .ok a => (c.set cf.name (.atom a), .ok a) := by
  unfold getConfigs
  cases h : c.data.get? cf.name with
  | some v => cases arg <;> simp [PyDict.has, h, Cache.get, PyDict.getItem]
  | none =>
    simp only [PyDict.has, h, Option.isSome_none, Bool.false_eq_true, if_false]
    cases getDefault cf.default with
    | error e => rfl
    | ok a => rfl

theorem getConfigs_ext (cf : Conf) (attr arg : Option String) (c : Cache) :
    Ext c.data (getConfigs cf attr arg c).1.data := by
  rw [getConfigs_eq]
  cases h : c.data.get? cf.name with
  | some v => exact Ext.refl _
  | none =>
    simp only
    cases getDefault cf.default with
    | error e => exact Ext.refl _
    | ok a => exact Ext.set_new _ h

theorem requiredParameter_cache (cf : Conf) (attr arg : Option String) (c : Cache) :
    (requiredParameter cf attr arg c).1 = (getConfigs cf attr arg c).1 := by
  unfold requiredParameter
  generalize getConfigs cf attr arg c = g at *
  obtain ⟨c1, r⟩ := g
  cases r with
  | error e => rfl
  | ok a => cases a <;> rfl

theorem requiredParameter_ext (cf : Conf) (attr arg : Option String) (c : Cache) :
    Ext c.data (requiredParameter cf attr arg c).1.data := by
  rw [requiredParameter_cache]; exact getConfigs_ext _ _ _ _

theorem Ext.set_entry {d : PyDict String CVal} {k l : String} {m : PyDict String Atom} {v : Atom}
    (h : d.get? k = some (.dict m)) (hv : (m.get? l).getD v = v) :
    Ext d (d.set k (.dict (m.set l v))) := by
  intro k2
  by_cases hk : k = k2
  · subst hk
    rw [h]
    refine ⟨by simp, ?_⟩
    intro m0 hm0
    simp only [Option.some.injEq, CVal.dict.injEq] at hm0
    subst hm0
    refine ⟨m.set l v, by simp, ?_⟩
    intro l2 a ha
    rw [PyDict.get?_set]
    split
    · rename_i hl; subst hl; rw [ha] at hv; simp at hv; rw [hv]
    · exact ha
  · rw [PyDict.get?_set_ne _ _ hk]; exact Ext.refl d k2

/-- The three outcomes of `_update_sigma_cache` on the stored data. -/
theorem updateSigmaCache_spec (n : String) (v : Atom) (l : String) (c : Cache) :
    (∃ a, c.data.get? n = some (.atom a) ∧ updateSigmaCache n v l c = (c.record n, .ok ())) ∨
    (∃ m, c.data.get? n = some (.dict m) ∧ (m.get? l).getD v ≠ v ∧
      updateSigmaCache n v l c = (c.record n, .error .valueError)) ∨
    (∃ m, (c.data.get? n).getD (.dict []) = .dict m ∧ (m.get? l).getD v = v ∧
      (updateSigmaCache n v l c).2 = .ok () ∧
      ∀ k, (updateSigmaCache n v l c).1.data.get? k =
        if n = k then some (.dict (m.set l v)) else c.data.get? k) := by
  unfold updateSigmaCache
  cases h : c.data.get? n with
  | none =>
    right; right
    refine ⟨[], rfl, rfl, ?_, ?_⟩
    · simp [PyDict.has, h, Cache.get, PyDict.getItem]
    · intro k
      simp only [PyDict.has, h, Option.isSome_none, Bool.false_eq_true, if_false, Cache.get,
        PyDict.getItem, set_data, PyDict.get?_set_self, PyDict.get?_nil, Option.getD_none, ne_eq,
        not_true, record_data]
      by_cases hk : n = k
      · subst hk; simp
      · rw [PyDict.get?_set_ne _ _ hk, PyDict.get?_set_ne _ _ hk, if_neg hk]
  | some w =>
    cases w with
    | atom a => left; exact ⟨a, rfl, by simp [PyDict.has, h, Cache.get, PyDict.getItem]⟩
    | dict m =>
      right
      by_cases hv : (m.get? l).getD v = v
      · right
        refine ⟨m, rfl, hv, ?_, ?_⟩
        · simp [PyDict.has, h, Cache.get, PyDict.getItem, hv]
        · intro k
          simp only [PyDict.has, h, Option.isSome_some, if_true, Cache.get, PyDict.getItem, hv,
            ne_eq, not_true, if_false, record_data, PyDict.get?_set]
      · left
        exact ⟨m, rfl, hv, by simp [PyDict.has, h, Cache.get, PyDict.getItem, hv]⟩

theorem updateSigmaCache_ext (n : String) (v : Atom) (l : String) (c : Cache) :
    Ext c.data (updateSigmaCache n v l c).1.data := by
  rcases updateSigmaCache_spec n v l c with ⟨a, h1, h2⟩ | ⟨m, h1, h2, h3⟩ | ⟨m, h1, h2, h3, h4⟩
  · rw [h2]; exact Ext.refl _
  · rw [h3]; exact Ext.refl _
  · intro k
    rw [h4 k]
    by_cases hk : n = k
    · subst hk
      rw [if_pos rfl]
      cases hg : c.data.get? n with
      | none => exact ⟨by simp, by simp⟩
      | some w =>
        rw [hg] at h1
        simp only [Option.getD_some] at h1
        subst h1
        refine ⟨by simp, ?_⟩
        intro m0 hm0
        simp only [Option.some.injEq, CVal.dict.injEq] at hm0
        subst hm0
        refine ⟨_, rfl, ?_⟩
        intro l2 a ha
        rw [PyDict.get?_set]
        split
        · rename_i hl; subst hl; rw [ha] at h2; simp at h2; rw [h2]
        · exact ha
    · rw [if_neg hk]; exact Ext.refl _ k

theorem sigmaLoop_ext (cf : Conf) (configs dflt : Atom) (llh : Option String) (is : List (String × Nat))
    (c : Cache) : Ext c.data (sigmaLoop cf configs dflt llh is c).1.data := by
  induction is generalizing c with
  | nil => exact Ext.refl _
  | cons x is ih =>
    obtain ⟨sg, i⟩ := x
    unfold sigmaLoop
    cases sigmaValue dflt i with
    | error e => exact Ext.refl _
    | ok d =>
      simp only
      have key : ∀ st : Cache × Res Unit, Ext c.data st.1.data →
          Ext c.data (match st with
            | (c, .error e) => ((c, .error e) : Cache × Res (List Conf))
            | (c, .ok ()) =>
              match sigmaLoop cf configs dflt llh is c with
              | (c, .error e) => (c, .error e)
              | (c, .ok subs) => (c, .ok (⟨subName cf.name sg, some d⟩ :: subs))).1.data := by
        rintro ⟨c1, r⟩ hst
        cases r with
        | error e => exact hst
        | ok u =>
          simp only
          have := ih c1
          generalize sigmaLoop cf configs dflt llh is c1 = g at *
          obtain ⟨c2, r2⟩ := g
          cases r2 <;> exact hst.trans this
      apply key
      cases llh with
      | none => exact Ext.refl _
      | some l =>
        simp only
        cases sigmaValue configs i with
        | error e => exact Ext.refl _
        | ok v => exact updateSigmaCache_ext _ _ _ _

theorem buildMaps_ext (fs : FS) (llh : Option String) (subs : List Conf) (c : Cache) :
    Ext c.data (buildMaps fs llh subs c).1.data := by
  induction subs generalizing c with
  | nil => exact Ext.refl _
  | cons s r ih =>
    unfold buildMaps
    have h1 := buildMap_ext fs s llh c
    generalize buildMap fs s llh c = g at *
    obtain ⟨c1, r1⟩ := g
    cases r1 with
    | error e => exact h1
    | ok p =>
      simp only
      have h2 := ih c1
      generalize buildMaps fs llh r c1 = g at *
      obtain ⟨c2, r2⟩ := g
      cases r2 <;> exact h1.trans h2

theorem sigmaBuild_ext (fs : FS) (cf : Conf) (llh : Option String) (c : Cache) :
    Ext c.data (sigmaBuild fs cf llh c).1.data := by
  unfold sigmaBuild
  have h1 := getConfigs_ext cf llh none c
  generalize getConfigs cf llh none c = g at *
  obtain ⟨c1, r1⟩ := g
  cases r1 with
  | error e => exact h1
  | ok configs =>
    simp only
    cases getDefault cf.default with
    | error e => exact h1
    | ok dflt =>
      simp only
      split
      · exact h1
      · have h2 := sigmaLoop_ext cf configs dflt llh [("median", 0), ("lower", 1), ("upper", 2)] c1
        generalize sigmaLoop cf configs dflt llh [("median", 0), ("lower", 1), ("upper", 2)] c1 = g at *
        obtain ⟨c2, r2⟩ := g
        cases r2 with
        | error e => exact h1.trans h2
        | ok subs =>
          simp only
          have h3 := buildMaps_ext fs llh subs c2
          generalize buildMaps fs llh subs c2 = g at *
          obtain ⟨c3, r3⟩ := g
          cases r3 with
          | error e => exact (h1.trans h2).trans h3
          | ok files =>
            simp only
            have h4 := requiredParameter_ext cf llh none c3
            generalize requiredParameter cf llh none c3 = g at *
            obtain ⟨c4, r4⟩ := g
            cases r4 <;> exact ((h1.trans h2).trans h3).trans h4

theorem ReadOp.run_ext (fs : FS) (o : ReadOp) (c : Cache) : Ext c.data (o.run fs c).data := by
  cases o with
  | resolve u cf l => exact resolve_ext _ _ _ _ _
  | buildMap cf l => exact buildMap_ext _ _ _ _
  | sigmaBuild cf l => exact sigmaBuild_ext _ _ _ _
  | required cf a b => exact requiredParameter_ext _ _ _ _
  | filePath s =>
    show Ext c.data (getFilePath fs s c).1.data
    rw [getFilePath_data]; exact Ext.refl _

theorem runReads_ext (fs : FS) (ops : List ReadOp) (c : Cache) : Ext c.data (runReads fs ops c).data := by
  unfold runReads
  induction ops generalizing c with
  | nil => exact Ext.refl _
  | cons o ops ih => exact (o.run_ext fs c).trans (ih _)

theorem pick_eq (v : CVal) (llh : Option String) :
    pick v llh = match (match v with | .atom a => some a | .dict d => llh.bind d.get?) with
      | some a => .ok a
      | none => .error .valueError := by
  cases v with
  | atom a => rfl
  | dict d => rfl

theorem valueFor_ext {c c' : Cache} (h : Ext c.data c'.data) {name : String} {llh : Option String} {a : Atom}
    (hv : valueFor c name llh = some a) : valueFor c' name llh = some a := by
  unfold valueFor at hv ⊢
  cases hg : c.data.get? name with
  | none => rw [hg] at hv; cases hv
  | some v =>
    rw [hg] at hv
    cases v with
    | atom b =>
      simp only at hv
      rw [(h name).1 b hg]
      exact hv
    | dict m =>
      simp only at hv
      obtain ⟨m', h1, h2⟩ := (h name).2 m hg
      rw [h1]
      cases llh with
      | none => cases hv
      | some l => exact h2 l a hv

theorem getFilePath_url (fs : FS) (s : String) (c c' : Cache)
    (h : c.data.get? "url_base" = c'.data.get? "url_base") : (getFilePath fs s c).2 = (getFilePath fs s c').2 := by
  unfold getFilePath Cache.get PyDict.has PyDict.getItem
  rw [h]
  cases c'.data.get? "url_base" with
  | none => simp only; split <;> rfl
  | some v =>
    simp only [Option.isSome_some, if_true]
    split
    · rfl
    · cases v with
      | dict d => rfl
      | atom a =>
        cases a with
        | str u => simp only; split <;> [split <;> rfl; rfl]
        | _ => rfl

theorem innerLoop_ok (fs : FS) (ub : Option CVal) (e : List (String × Atom)) (d0 : PyDict String Atom) (c : Cache)
    (hub : c.data.get? "url_base" = ub)
    (hn : (e.map Prod.fst).Nodup) (hd : ∀ k ∈ e.map Prod.fst, d0.get? k = none)
    (d' : PyDict String Atom) (h : (innerLoop fs e d0 c).2 = .ok d') :
    ∀ k, (k ∉ e.map Prod.fst → d'.get? k = d0.get? k) ∧
      (∀ b, (k, b) ∈ e → (∀ n, b ≠ .other n) → ∃ a, d'.get? k = some a ∧ StoredAtom fs ub b a) ∧
      (∀ n, (k, Atom.other n) ∈ e → d'.get? k = none) := by
  induction e generalizing d0 c with
  | nil =>
    intro k
    simp only [innerLoop, Except.ok.injEq] at h
    subst h
    simp
  | cons x e ih =>
    obtain ⟨k0, a0⟩ := x
    simp only [List.map_cons, List.nodup_cons] at hn
    have hk0 : d0.get? k0 = none := hd k0 (by simp)
    have stepOk : ∀ (a : Atom) (c1 : Cache), c1.data.get? "url_base" = ub → StoredAtom fs ub a0 a → (∀ n, a0 ≠ .other n) →
        (innerLoop fs e (d0.set k0 a) c1).2 = .ok d' →
        ∀ k, (k ∉ (k0 :: e.map Prod.fst) → d'.get? k = d0.get? k) ∧
          (∀ b, (k, b) ∈ (k0, a0) :: e → (∀ n, b ≠ .other n) →
            ∃ a, d'.get? k = some a ∧ StoredAtom fs ub b a) ∧
          (∀ n, (k, Atom.other n) ∈ (k0, a0) :: e → d'.get? k = none) := by
      intro a c1 hub1 hst hno hrun k
      have hd1 : ∀ k ∈ e.map Prod.fst, (d0.set k0 a).get? k = none := by
        intro k hk
        have hne : k0 ≠ k := by rintro rfl; exact hn.1 hk
        rw [PyDict.get?_set_ne _ _ hne]; exact hd k (by simp only [List.map_cons, List.mem_cons]; exact .inr hk)
      obtain ⟨h1, h2, h3⟩ := ih (d0.set k0 a) c1 hub1 hn.2 hd1 hrun k
      refine ⟨?_, ?_, ?_⟩
      · intro hk
        simp only [List.mem_cons, not_or] at hk
        rw [h1 hk.2, PyDict.get?_set_ne _ _ (Ne.symm hk.1)]
      · intro b hb hnb
        rcases List.mem_cons.1 hb with hb | hb
        · cases hb
          exact ⟨a, by rw [h1 hn.1]; simp, hst⟩
        · exact h2 b hb hnb
      · intro n hb
        rcases List.mem_cons.1 hb with hb | hb
        · cases hb; exact absurd rfl (hno n)
        · exact h3 n hb
    cases a0 with
    | num q => exact stepOk _ c hub (.num q) (by simp) h
    | list l => exact stepOk _ c hub (.list l) (by simp) h
    | str s =>
      simp only [innerLoop] at h
      have hs : ∀ p, (getFilePath fs s c).2 = .ok p → StoredAtom fs ub (.str s) (.str p) :=
        fun p hp => .str s p (fun c' hc' => by rw [getFilePath_url fs s c' c (by rw [hc', hub])]; exact hp)
      have hdata := getFilePath_data fs s c
      generalize getFilePath fs s c = g at h hs hdata
      obtain ⟨c1, r⟩ := g
      cases r with
      | error e => cases h
      | ok p => exact stepOk _ c1 (by rw [← hub]; exact congrArg (fun d => PyDict.get? d _) hdata) (hs p rfl) (by simp) h
    | other n0 =>
      simp only [innerLoop] at h
      intro k
      obtain ⟨h1, h2, h3⟩ := ih d0 c hub hn.2
        (fun k hk => hd k (by simp only [List.map_cons, List.mem_cons]; exact .inr hk)) h k
      refine ⟨?_, ?_, ?_⟩
      · intro hk
        simp only [List.map_cons, List.mem_cons, not_or] at hk
        exact h1 hk.2
      · intro b hb hnb
        rcases List.mem_cons.1 hb with hb | hb
        · cases hb; exact absurd rfl (hnb n0)
        · exact h2 b hb hnb
      · intro n hb
        rcases List.mem_cons.1 hb with hb | hb
        · cases hb; rw [h1 hn.1]; exact hk0
        · exact h3 n hb

theorem innerLoop_stored (fs : FS) (ub : Option CVal) (d : PyDict String Atom) (c : Cache)
    (hub : c.data.get? "url_base" = ub) (hn : d.keys.Nodup)
    (d' : PyDict String Atom) (h : (innerLoop fs d [] c).2 = .ok d') : Stored fs ub (.dict d) (.dict d') := by
  have hk := innerLoop_ok fs ub d [] c hub hn (by simp) d' h
  refine ⟨?_, ?_, ?_⟩
  · intro l a ha
    cases hg : d.get? l with
    | none =>
      have := (hk l).1 ((PyDict.get?_eq_none_iff _ _).1 hg)
      rw [ha] at this; cases this
    | some b =>
      refine ⟨b, rfl, ?_⟩
      have hmem := PyDict.mem_of_get? _ hg
      by_cases ho : ∃ n, b = .other n
      · obtain ⟨n, rfl⟩ := ho
        have := (hk l).2.2 n hmem
        rw [ha] at this; cases this
      · obtain ⟨a', h1, h2⟩ := (hk l).2.1 b hmem (fun n hn => ho ⟨n, hn⟩)
        rw [ha] at h1; cases h1; exact h2
  · intro l b hb hno
    obtain ⟨a, h1, _⟩ := (hk l).2.1 b (PyDict.mem_of_get? _ hb) hno
    exact ⟨a, h1⟩
  · intro l n hb
    exact (hk l).2.2 n (PyDict.mem_of_get? _ hb)

theorem setGlobal_ok (fs : FS) (ub : Option CVal) (e : List (String × CVal)) (c : Cache)
    (hub : c.data.get? "url_base" = ub) (hnub : "url_base" ∉ e.map Prod.fst) (hn : (e.map Prod.fst).Nodup)
    (hdn : ∀ k d, (k, CVal.dict d) ∈ e → d.keys.Nodup) (h : (setGlobal fs e c).2 = .ok ()) :
    ∀ k, (k ∉ e.map Prod.fst → (setGlobal fs e c).1.data.get? k = c.data.get? k) ∧
      ∀ v, (k, v) ∈ e → ∃ w, (setGlobal fs e c).1.data.get? k = some w ∧ Stored fs ub v w := by
  induction e generalizing c with
  | nil => intro k; simp [setGlobal]
  | cons x e ih =>
    obtain ⟨k0, v0⟩ := x
    simp only [List.map_cons, List.nodup_cons] at hn
    simp only [List.map_cons, List.mem_cons, not_or] at hnub
    have hdn' : ∀ k d, (k, CVal.dict d) ∈ e → d.keys.Nodup := fun k d hd => hdn k d (by simp [hd])
    have step : ∀ (w : CVal) (c1 : Cache), c1.data = c.data → Stored fs ub v0 w → (setGlobal fs e (c1.put k0 w)).2 = .ok () →
        ∀ k, (k ∉ (k0 :: e.map Prod.fst) → (setGlobal fs e (c1.put k0 w)).1.data.get? k = c.data.get? k) ∧
          ∀ v, (k, v) ∈ (k0, v0) :: e →
            ∃ w', (setGlobal fs e (c1.put k0 w)).1.data.get? k = some w' ∧ Stored fs ub v w' := by
      intro w c1 hc1 hst hrun k
      obtain ⟨h1, h2⟩ := ih (c1.put k0 w)
        (by rw [put_data, PyDict.get?_set_ne _ _ (Ne.symm hnub.1), hc1]; exact hub) hnub.2 hn.2 hdn' hrun k
      refine ⟨?_, ?_⟩
      · intro hk
        simp only [List.mem_cons, not_or] at hk
        rw [h1 hk.2, put_data, PyDict.get?_set_ne _ _ (Ne.symm hk.1), hc1]
      · intro v hv
        rcases List.mem_cons.1 hv with hv | hv
        · cases hv
          exact ⟨w, by rw [h1 hn.1, put_data]; simp, hst⟩
        · exact h2 v hv
    cases v0 with
    | atom a0 =>
      cases a0 with
      | num q => exact step _ c rfl (.num q) h
      | list l => exact step _ c rfl (.list l) h
      | other n => simp [setGlobal] at h
      | str s =>
        simp only [setGlobal] at h ⊢
        have hs : ∀ p, (getFilePath fs s c).2 = .ok p → Stored fs ub (.atom (.str s)) (.atom (.str p)) :=
          fun p hp => .str s p (fun c' hc' => by rw [getFilePath_url fs s c' c (by rw [hc', hub])]; exact hp)
        have hdata := getFilePath_data fs s c
        generalize getFilePath fs s c = g at h hs hdata
        obtain ⟨c1, r⟩ := g
        cases r with
        | error e => cases h
        | ok p => exact step _ c1 hdata (hs p rfl) h
    | dict d =>
      simp only [setGlobal] at h ⊢
      have hs : ∀ d', (innerLoop fs d [] c).2 = .ok d' → Stored fs ub (.dict d) (.dict d') :=
        fun d' hd' => innerLoop_stored fs ub d c hub (hdn k0 d (by simp)) d' hd'
      have hdata : (innerLoop fs d [] c).1.data = c.data := by
        have gen : ∀ (e : List (String × Atom)) d0 c0, (innerLoop fs e d0 c0).1.data = c0.data := by
          intro e
          induction e with
          | nil => intro d0 c0; rfl
          | cons x e ihe =>
            intro d0 c0
            obtain ⟨k1, a1⟩ := x
            cases a1 with
            | num q => exact ihe _ _
            | list l => exact ihe _ _
            | other n => exact ihe _ _
            | str s =>
              simp only [innerLoop]
              have hf := getFilePath_data fs s c0
              generalize getFilePath fs s c0 = g at hf
              obtain ⟨c1, r⟩ := g
              cases r with
              | error e => exact hf
              | ok p => simp only; rw [ihe]; exact hf
        exact gen _ _ _
      generalize innerLoop fs d [] c = g at h hs hdata
      obtain ⟨c1, r⟩ := g
      cases r with
      | error e => cases h
      | ok d' => exact step _ c1 hdata (hs d' rfl) h

theorem requiredParameter_ok_iff (cf : Conf) (attr arg : Option String) (c : Cache) (p : Option Item) :
    (requiredParameter cf attr arg c).2 = .ok p ↔
      ∃ a, (getConfigs cf attr arg c).2 = .ok a ∧ namedParameter cf.name a = p := by
  unfold requiredParameter
  generalize getConfigs cf attr arg c = g
  obtain ⟨c1, r⟩ := g
  cases r with
  | error e => simp
  | ok a =>
    cases a with
    | list l =>
      simp only [Except.ok.injEq, exists_eq_left']
      have : (if l.length = 4 then l.getLast? else some (.str (cf.name ++ "_sigma")))
          = namedParameter cf.name (.list l) := by
        match l with
        | [] => rfl
        | [_] => rfl
        | [_, _] => rfl
        | [_, _, _] => rfl
        | [_, _, _, _] => rfl
        | _ :: _ :: _ :: _ :: _ :: l =>
          have : (5 : Nat) ≤ l.length + 5 := by omega
          simp [namedParameter]
      rw [this]
    | num q => simp [namedParameter]
    | str s => simp [namedParameter]
    | other n => simp [namedParameter]

theorem getConfigs_valueFor (cf : Conf) (attr arg : Option String) (c : Cache) (a : Atom)
    (h : (getConfigs cf attr arg c).2 = .ok a) :
    valueFor (getConfigs cf attr arg c).1 cf.name (arg.or attr) = some a := by
  rw [getConfigs_eq] at h ⊢
  cases hg : c.data.get? cf.name with
  | some v =>
    rw [hg] at h
    simp only [pick_eq] at h
    simp only [valueFor, record_data, hg]
    cases v with
    | atom b => simp only at h ⊢; cases h; rfl
    | dict m =>
      simp only at h ⊢
      cases hb : (arg.or attr).bind m.get? with
      | none => rw [hb] at h; cases h
      | some b => rw [hb] at h; cases h; rfl
  | none =>
    rw [hg] at h
    simp only at h ⊢
    cases hd : getDefault cf.default with
    | error e => rw [hd] at h; cases h
    | ok b => rw [hd] at h; simp only at h ⊢; cases h; simp [valueFor]

theorem getConfigs_of_valueFor (cf : Conf) (attr arg : Option String) (c : Cache) (a : Atom)
    (h : valueFor c cf.name (arg.or attr) = some a) : (getConfigs cf attr arg c).2 = .ok a := by
  rw [getConfigs_eq]
  unfold valueFor at h
  cases hg : c.data.get? cf.name with
  | none => rw [hg] at h; cases h
  | some v =>
    rw [hg] at h
    simp only [pick_eq]
    cases v with
    | atom b => simp only at h ⊢; cases h; rfl
    | dict m => simp only at h ⊢; rw [h]


/-! ### Isolation between likelihoods -/

/-- The entries of all names for likelihoods other than `l`, outside the name `x`, agree. -/
def Iso (l x : String) (c c' : Cache) : Prop :=
  ∀ n, n ≠ x → ∀ l2, l2 ≠ some l → valueFor c' n l2 = valueFor c n l2

theorem Iso.refl (l x : String) (c : Cache) : Iso l x c c := fun _ _ _ _ => rfl

theorem Iso.trans {l x : String} {a b c : Cache} (h1 : Iso l x a b) (h2 : Iso l x b c) : Iso l x a c :=
  fun n hn l2 hl => (h2 n hn l2 hl).trans (h1 n hn l2 hl)

theorem Iso.of_data {l x : String} {c c' : Cache} (h : c'.data = c.data) : Iso l x c c' := by
  intro n _ l2 _
  unfold valueFor; rw [h]

theorem getConfigs_iso (l : String) (cf : Conf) (attr arg : Option String) (c : Cache) :
    Iso l cf.name c (getConfigs cf attr arg c).1 := by
  rw [getConfigs_eq]
  cases h : c.data.get? cf.name with
  | some v => exact Iso.of_data rfl
  | none =>
    simp only
    cases getDefault cf.default with
    | error e => exact Iso.refl _ _ _
    | ok a =>
      intro n hn l2 _
      unfold valueFor
      simp only [set_data]
      rw [PyDict.get?_set_ne _ _ (Ne.symm hn)]

theorem updateSigmaCache_iso (x n : String) (v : Atom) (l : String) (c : Cache) :
    Iso l x c (updateSigmaCache n v l c).1 := by
  rcases updateSigmaCache_spec n v l c with ⟨a, h1, h2⟩ | ⟨m, h1, h2, h3⟩ | ⟨m, h1, h2, h3, h4⟩
  · rw [h2]; exact Iso.of_data rfl
  · rw [h3]; exact Iso.of_data rfl
  · intro k _ l2 hl2
    unfold valueFor
    rw [h4 k]
    by_cases hk : n = k
    · subst hk
      rw [if_pos rfl]
      cases hg : c.data.get? n with
      | none =>
        rw [hg] at h1
        simp only [Option.getD_none, CVal.dict.injEq] at h1
        subst h1
        cases l2 with
        | none => rfl
        | some l2 =>
          have : l ≠ l2 := fun h => hl2 (by rw [h])
          simp [PyDict.set, PyDict.get?_cons, this]
      | some w =>
        rw [hg] at h1
        simp only [Option.getD_some] at h1
        subst h1
        cases l2 with
        | none => rfl
        | some l2 =>
          have : l ≠ l2 := fun h => hl2 (by rw [h])
          simp [PyDict.get?_set_ne _ _ this]
    · rw [if_neg hk]

/-- After `_update_sigma_cache` the name is cached, and nothing becomes a plain value. -/
theorem updateSigmaCache_keys (n : String) (v : Atom) (l : String) (c : Cache) :
    n ∈ (updateSigmaCache n v l c).1.data.keys ∧
    (∀ k ∈ c.data.keys, k ∈ (updateSigmaCache n v l c).1.data.keys) ∧
    ∀ k a, (updateSigmaCache n v l c).1.data.get? k = some (.atom a) → c.data.get? k = some (.atom a) := by
  simp only [PyDict.mem_keys_iff_exists]
  rcases updateSigmaCache_spec n v l c with ⟨a, h1, h2⟩ | ⟨m, h1, h2, h3⟩ | ⟨m, h1, h2, h3, h4⟩
  · rw [h2]; exact ⟨⟨_, h1⟩, fun _ h => h, fun _ _ h => h⟩
  · rw [h3]; exact ⟨⟨_, h1⟩, fun _ h => h, fun _ _ h => h⟩
  · refine ⟨⟨_, by rw [h4 n, if_pos rfl]⟩, ?_, ?_⟩
    · intro k hk
      rw [h4 k]
      split
      · exact ⟨_, rfl⟩
      · exact hk
    · intro k a hk
      rw [h4 k] at hk
      split at hk
      · cases hk
      · exact hk

theorem updateSigmaCache_value (n : String) (v : Atom) (l : String) (c : Cache)
    (hna : ∀ a, c.data.get? n ≠ some (.atom a)) (h : (updateSigmaCache n v l c).2 = .ok ()) :
    valueFor (updateSigmaCache n v l c).1 n (some l) = some v := by
  rcases updateSigmaCache_spec n v l c with ⟨a, h1, h2⟩ | ⟨m, h1, h2, h3⟩ | ⟨m, h1, h2, h3, h4⟩
  · exact absurd h1 (hna a)
  · rw [h3] at h; cases h
  · unfold valueFor
    rw [h4 n, if_pos rfl]
    simp

theorem forall₂_mem_right {α β : Type} {R : α → β → Prop} {as : List α} {bs : List β} (h : List.Forall₂ R as bs)
    (b : β) (hb : b ∈ bs) : ∃ a, R a b := by
  induction h with
  | nil => simp at hb
  | cons hx _ ih =>
    rcases List.mem_cons.1 hb with rfl | hb
    · exact ⟨_, hx⟩
    · exact ih hb

/-- The loop creating the three maps for a likelihood. -/
theorem sigmaLoop_spec (cf : Conf) (configs dflt : Atom) (l : String) (is : List (String × Nat)) (c : Cache) :
    Iso l cf.name c (sigmaLoop cf configs dflt (some l) is c).1 ∧
    (∀ k a, (sigmaLoop cf configs dflt (some l) is c).1.data.get? k = some (.atom a) →
      c.data.get? k = some (.atom a)) ∧
    (∀ k ∈ c.data.keys, k ∈ (sigmaLoop cf configs dflt (some l) is c).1.data.keys) ∧
    ∀ subs, (sigmaLoop cf configs dflt (some l) is c).2 = .ok subs →
      List.Forall₂ (fun x (sub : Conf) => sub.name = subName cf.name x.1 ∧
        sub.name ∈ (sigmaLoop cf configs dflt (some l) is c).1.data.keys ∧
        ((∀ a, c.data.get? sub.name ≠ some (.atom a)) → ∃ v, sigmaValue configs x.2 = .ok v ∧
          valueFor (sigmaLoop cf configs dflt (some l) is c).1 sub.name (some l) = some v)) is subs := by
  induction is generalizing c with
  | nil =>
    refine ⟨Iso.refl _ _ _, fun _ _ h => h, fun _ h => h, ?_⟩
    intro subs h
    simp only [sigmaLoop, Except.ok.injEq] at h
    subst h; exact .nil
  | cons x is ih =>
    obtain ⟨sg, i⟩ := x
    unfold sigmaLoop
    cases sigmaValue dflt i with
    | error e => exact ⟨Iso.refl _ _ _, fun _ _ h => h, fun _ h => h, by simp⟩
    | ok d =>
      simp only
      cases hv : sigmaValue configs i with
      | error e => exact ⟨Iso.refl _ _ _, fun _ _ h => h, fun _ h => h, by simp⟩
      | ok v =>
        simp only
        have h1 := updateSigmaCache_iso cf.name (subName cf.name sg) v l c
        obtain ⟨h2, h3, h4⟩ := updateSigmaCache_keys (subName cf.name sg) v l c
        have h5 := updateSigmaCache_value (subName cf.name sg) v l c
        generalize updateSigmaCache (subName cf.name sg) v l c = g at *
        obtain ⟨c1, r⟩ := g
        cases r with
        | error e => exact ⟨h1, h4, h3, by simp⟩
        | ok u =>
          simp only
          obtain ⟨i1, i2, i3, i4⟩ := ih c1
          have hext := sigmaLoop_ext cf configs dflt (some l) is c1
          generalize sigmaLoop cf configs dflt (some l) is c1 = g2 at *
          obtain ⟨c2, r2⟩ := g2
          cases r2 with
          | error e => exact ⟨h1.trans i1, fun k a h => h4 k a (i2 k a h), fun k h => i3 k (h3 k h), by simp⟩
          | ok subs0 =>
            refine ⟨h1.trans i1, fun k a h => h4 k a (i2 k a h), fun k h => i3 k (h3 k h), ?_⟩
            intro subs hs
            simp only [Except.ok.injEq] at hs
            subst hs
            refine .cons ⟨rfl, i3 _ h2, ?_⟩ ?_
            · intro hna
              exact ⟨v, hv, valueFor_ext hext (h5 hna rfl)⟩
            · refine (i4 subs0 rfl).imp ?_
              rintro y sub ⟨a1, a2, a3⟩
              exact ⟨a1, a2, fun hna => a3 (fun a ha => hna a (h4 _ a ha))⟩

theorem buildMap_cached (fs : FS) (cf : Conf) (llh : Option String) (c : Cache) (h : cf.name ∈ c.data.keys) :
    (buildMap fs cf llh c).1.data = c.data ∧
    ∀ p, (buildMap fs cf llh c).2 = .ok p → valueFor c cf.name llh = some (.str p) := by
  obtain ⟨v, hv⟩ := (PyDict.mem_keys_iff_exists _ _).1 h
  unfold buildMap
  rw [resolve_eq, hv]
  simp only [pick_eq, valueFor, hv]
  cases hq : (match v with | .atom a => some a | .dict d => llh.bind d.get?) with
  | none => exact ⟨rfl, by simp⟩
  | some a =>
    cases a with
    | str p =>
      simp only
      have hd := getFilePath_data fs p (c.record cf.name)
      generalize getFilePath fs p (c.record cf.name) = g at hd
      obtain ⟨c1, r⟩ := g
      cases r with
      | error e => exact ⟨hd, by simp⟩
      | ok p' =>
        simp only
        split
        · refine ⟨hd, ?_⟩
          intro p0 hp0
          simp only [Except.ok.injEq] at hp0
          subst hp0
          cases v <;> simpa using hq
        · exact ⟨hd, by simp⟩
    | _ => exact ⟨rfl, by simp⟩

theorem buildMaps_cached (fs : FS) (llh : Option String) (subs : List Conf) (c : Cache)
    (h : ∀ s ∈ subs, s.name ∈ c.data.keys) :
    (buildMaps fs llh subs c).1.data = c.data ∧
    ∀ ps, (buildMaps fs llh subs c).2 = .ok ps →
      List.Forall₂ (fun (s : Conf) p => valueFor c s.name llh = some (.str p)) subs ps := by
  induction subs generalizing c with
  | nil => refine ⟨rfl, ?_⟩; intro ps hp; simp only [buildMaps, Except.ok.injEq] at hp; subst hp; exact .nil
  | cons s r ih =>
    unfold buildMaps
    obtain ⟨h1, h2⟩ := buildMap_cached fs s llh c (h s (by simp))
    generalize buildMap fs s llh c = g at h1 h2
    obtain ⟨c1, r1⟩ := g
    simp only at h1
    cases r1 with
    | error e => exact ⟨h1, by simp⟩
    | ok p =>
      simp only
      obtain ⟨h3, h4⟩ := ih c1 (fun s hs => by rw [h1]; exact h s (by simp [hs]))
      generalize buildMaps fs llh r c1 = g2 at h3 h4
      obtain ⟨c2, r2⟩ := g2
      simp only at h3
      cases r2 with
      | error e => exact ⟨h3.trans h1, by simp⟩
      | ok ps0 =>
        refine ⟨h3.trans h1, ?_⟩
        intro ps hps
        simp only [Except.ok.injEq] at hps
        subst hps
        refine .cons (h2 p rfl) ((h4 ps0 rfl).imp ?_)
        intro s p hsp
        unfold valueFor at hsp ⊢
        rw [h1] at hsp; exact hsp

theorem subName_ne (n s : String) : subName n s ≠ n := by
  intro h
  have := congrArg (fun x => x.toList.length) h
  simp [subName] at this

theorem resolve_valueFor (fs : FS) (u : Bool) (cf : Conf) (llh : Option String) (c : Cache) (a : Atom)
    (h : (resolve fs u cf llh c).2 = .ok a) : valueFor (resolve fs u cf llh c).1 cf.name llh = some a := by
  rw [resolve_eq] at h ⊢
  cases hg : c.data.get? cf.name with
  | some v =>
    rw [hg] at h
    simp only [pick_eq] at h
    simp only [valueFor, record_data, hg]
    cases v with
    | atom b => simp only at h ⊢; cases h; rfl
    | dict m =>
      simp only at h ⊢
      cases hb : llh.bind m.get? with
      | none => rw [hb] at h; cases h
      | some b => rw [hb] at h; cases h; rfl
  | none =>
    rw [hg] at h
    simp only at h ⊢
    cases hd : getDefault cf.default with
    | error e => rw [hd] at h; cases h
    | ok b =>
      rw [hd] at h
      simp only at h ⊢
      generalize transformed fs u b c = g at h ⊢
      obtain ⟨c1, r⟩ := g
      cases r with
      | error e => cases h
      | ok b' => simp only at h ⊢; cases h; simp [valueFor]

theorem getConfigs_own (cf : Conf) (attr arg : Option String) (c : Cache) (v : CVal)
    (h : c.data.get? cf.name = some v) : (getConfigs cf attr arg c).1.data = c.data := by
  rw [getConfigs_eq, h]; rfl

theorem updateSigmaCache_other (n : String) (v : Atom) (l : String) (c : Cache) (k : String) (h : n ≠ k) :
    (updateSigmaCache n v l c).1.data.get? k = c.data.get? k := by
  rcases updateSigmaCache_spec n v l c with ⟨a, h1, h2⟩ | ⟨m, h1, h2, h3⟩ | ⟨m, h1, h2, h3, h4⟩
  · rw [h2]; rfl
  · rw [h3]; rfl
  · rw [h4 k, if_neg h]

theorem sigmaLoop_own (cf : Conf) (configs dflt : Atom) (l : String) (is : List (String × Nat)) (c : Cache) :
    (sigmaLoop cf configs dflt (some l) is c).1.data.get? cf.name = c.data.get? cf.name := by
  induction is generalizing c with
  | nil => rfl
  | cons x is ih =>
    obtain ⟨sg, i⟩ := x
    unfold sigmaLoop
    cases sigmaValue dflt i with
    | error e => rfl
    | ok d =>
      simp only
      cases sigmaValue configs i with
      | error e => rfl
      | ok v =>
        simp only
        have h1 := updateSigmaCache_other (subName cf.name sg) v l c cf.name (subName_ne _ _)
        generalize updateSigmaCache (subName cf.name sg) v l c = g at *
        obtain ⟨c1, r⟩ := g
        cases r with
        | error e => exact h1
        | ok u =>
          simp only
          have h2 := ih c1
          generalize sigmaLoop cf configs dflt (some l) is c1 = g2 at *
          obtain ⟨c2, r2⟩ := g2
          cases r2 <;> exact h2.trans h1

/-- A build does not change the cached value of the map's own name. -/
theorem sigmaBuild_own (fs : FS) (cf : Conf) (l : String) (c : Cache) (v : CVal) (h : c.data.get? cf.name = some v) :
    (sigmaBuild fs cf (some l) c).1.data.get? cf.name = some v := by
  unfold sigmaBuild
  have h1 := getConfigs_own cf (some l) none c v h
  generalize getConfigs cf (some l) none c = g at *
  obtain ⟨c1, r1⟩ := g
  simp only at h1
  rw [← h1] at h
  cases r1 with
  | error e => exact h
  | ok configs =>
    simp only
    cases getDefault cf.default with
    | error e => exact h
    | ok dflt =>
      simp only
      split
      · exact h
      · have h2 := sigmaLoop_own cf configs dflt l [("median", 0), ("lower", 1), ("upper", 2)] c1
        obtain ⟨i1, i2, i3, i4⟩ := sigmaLoop_spec cf configs dflt l [("median", 0), ("lower", 1), ("upper", 2)] c1
        generalize sigmaLoop cf configs dflt (some l) [("median", 0), ("lower", 1), ("upper", 2)] c1 = g2 at *
        obtain ⟨c2, r2⟩ := g2
        simp only at h2
        rw [h] at h2
        cases r2 with
        | error e => exact h2
        | ok subs =>
          simp only
          have hk : ∀ s ∈ subs, s.name ∈ c2.data.keys := fun s hs =>
            (forall₂_mem_right (i4 subs rfl) s hs).choose_spec.2.1
          have hb := (buildMaps_cached fs (some l) subs c2 hk).1
          generalize buildMaps fs (some l) subs c2 = g3 at *
          obtain ⟨c3, r3⟩ := g3
          simp only at hb
          rw [← hb] at h2
          cases r3 with
          | error e => exact h2
          | ok files =>
            simp only
            have h4 : (requiredParameter cf (some l) none c3).1.data = c3.data := by
              rw [requiredParameter_cache]; exact getConfigs_own cf (some l) none c3 v h2
            generalize requiredParameter cf (some l) none c3 = g4 at *
            obtain ⟨c4, r4⟩ := g4
            simp only at h4
            rw [← h4] at h2
            cases r4 <;> exact h2

end Verif.Conf
