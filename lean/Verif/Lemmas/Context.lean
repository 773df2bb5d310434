/- Helper lemmas about the model of `context.py` (not claims). -/
import Verif.Spec.Context
import Verif.Lemmas.Likelihood
import Verif.Base.MapM

namespace Verif.Ctx
open Verif Parameter

section
variable {S : Type}

/-- What one likelihood's copies do. -/
theorem copyLoop_ok {c : List (String × String)} {st st' : CopyState S} (h : copyLoop c st = .ok st') :
    st'.rates = st.rates ∧ st'.sources = st.sources ++ c.map Prod.snd ∧
    (∀ x, x ∈ st'.needed ↔ x ∈ st.needed ∨ x ∈ c.map Prod.fst) ∧
    (∀ n, n ∉ c.map Prod.fst → st'.parConfig.get? n = st.parConfig.get? n) ∧
    (∀ n, (st.parConfig.get? n).isSome → (st'.parConfig.get? n).isSome) ∧
    (∀ k ∈ c.map Prod.fst, (st'.parConfig.get? k).isSome) := by
  induction c generalizing st with
  | nil =>
    simp only [copyLoop, Except.ok.injEq] at h
    subst h
    simp
  | cons kv c ih =>
    obtain ⟨k, v⟩ := kv
    unfold copyLoop at h
    cases hv : st.parConfig.get? v with
    | none => simp [hv] at h
    | some s =>
      simp only [hv] at h
      obtain ⟨h1, h2, h3, h4, h5, h6⟩ := ih h
      refine ⟨h1, by rw [h2]; simp, ?_, ?_, ?_, ?_⟩
      · intro x
        rw [h3]
        simp only [List.map_cons, List.mem_cons]
        split
        · rename_i hk
          constructor
          · rintro (h | h)
            · exact .inl h
            · exact .inr (.inr h)
          · rintro (h | rfl | h)
            · exact .inl h
            · exact .inl hk
            · exact .inr h
        · simp only [List.mem_append, List.mem_singleton]
          tauto
      · intro n hn
        simp only [List.map_cons, List.mem_cons, not_or] at hn
        rw [h4 n hn.2, PyDict.get?_set_ne _ _ (Ne.symm hn.1)]
      · intro n hn
        apply h5
        simp only
        rw [PyDict.get?_set]
        split
        · rfl
        · exact hn
      · intro n hn
        simp only [List.map_cons, List.mem_cons] at hn
        rcases hn with rfl | hn
        · apply h5
          simp only
          rw [PyDict.get?_set_self]; rfl
        · exact h6 n hn

theorem copies_cons (l : CopyInstr) (ls : List CopyInstr) (k v : String) :
    Copies (l :: ls) k v ↔ (∃ c, l.copy = some c ∧ (k, v) ∈ c) ∨ Copies ls k v := by
  simp [Copies]

/-- What all likelihoods' copies do. -/
theorem copyLoop_error {c : List (String × String)} {st : CopyState S} {e : PyErr} (h : copyLoop c st = .error e) :
    e = .keyError := by
  induction c generalizing st with
  | nil => cases h
  | cons kv c ih =>
    unfold copyLoop at h
    split at h
    · cases h; rfl
    · exact ih h

theorem likelihoodLoop_missing {ls : List CopyInstr} {st : CopyState S} (h : ∃ l ∈ ls, l.copy = none) :
    likelihoodLoop ls st = .error .keyError := by
  induction ls generalizing st with
  | nil => simp at h
  | cons l ls ih =>
    unfold likelihoodLoop
    cases hc : l.copy with
    | none => rfl
    | some c =>
      have h' : ∃ l ∈ ls, l.copy = none := by
        obtain ⟨l', hl, hn⟩ := h
        rcases List.mem_cons.1 hl with rfl | hl
        · rw [hc] at hn; cases hn
        · exact ⟨l', hl, hn⟩
      cases hcl : copyLoop c st with
      | error e => simp only [hcl, bind, Except.bind, copyLoop_error hcl]
      | ok st' => simp only [hcl, bind, Except.bind, ih h']

theorem likelihoodLoop_ok {ls : List CopyInstr} {st st' : CopyState S} (h : likelihoodLoop ls st = .ok st') :
    (∀ n, n ∈ st'.rates ↔ n ∈ st.rates ∨ IsRate ls n) ∧ (∀ n, n ∈ st'.sources ↔ n ∈ st.sources ∨ IsSource ls n) ∧
    (∀ x, x ∈ st'.needed ↔ x ∈ st.needed ∨ IsTarget ls x) ∧
    (∀ n, ¬ IsTarget ls n → st'.parConfig.get? n = st.parConfig.get? n) ∧
    (∀ n, (st.parConfig.get? n).isSome → (st'.parConfig.get? n).isSome) ∧
    (∀ k, IsTarget ls k → (st'.parConfig.get? k).isSome) := by
  induction ls generalizing st with
  | nil =>
    simp only [likelihoodLoop, Except.ok.injEq] at h
    subst h
    simp [IsRate, IsSource, IsTarget, Copies]
  | cons l ls ih =>
    unfold likelihoodLoop at h
    cases hc : l.copy with
    | none => simp [hc] at h
    | some c =>
      simp only [hc] at h
      cases hl : copyLoop c st with
      | error e => rw [hl] at h; cases h
      | ok s1 =>
        rw [hl] at h
        obtain ⟨g1, g2, g3, g4, g5, g6⟩ := copyLoop_ok hl
        obtain ⟨h1, h2, h3, h4, h5, h6⟩ := ih h
        simp only at h1 h2 h3 h4 h5
        have hT : ∀ n, IsTarget (l :: ls) n ↔ n ∈ c.map Prod.fst ∨ IsTarget ls n := by
          intro n
          simp only [IsTarget, copies_cons, hc, Option.some.injEq, exists_eq_left', exists_or, List.mem_map,
            Prod.exists, exists_and_right, exists_eq_right]
        have hS : ∀ n, IsSource (l :: ls) n ↔ n ∈ c.map Prod.snd ∨ IsSource ls n := by
          intro n
          simp only [IsSource, copies_cons, hc, Option.some.injEq, exists_eq_left', exists_or, List.mem_map,
            Prod.exists, exists_eq_right]
        refine ⟨?_, ?_, ?_, ?_, ?_, ?_⟩
        · intro n
          rw [h1, g1]
          have : IsRate (l :: ls) n ↔ n ∈ l.comps.map (fun k => k ++ "_rate") ∨ IsRate ls n := by
            simp [IsRate, eq_comm]
          rw [this, List.mem_append, or_assoc]
        · intro n; rw [h2, g2, hS, List.mem_append, or_assoc]
        · intro n; rw [h3, g3, hT, or_assoc]
        · intro n hn
          rw [hT, not_or] at hn
          rw [h4 n hn.2, g4 n hn.1]
        · intro n hn; exact h5 n (g5 n hn)
        · intro k hk
          rcases (hT k).1 hk with hk | hk
          · exact h5 k (g6 k hk)
          · exact h6 k hk

theorem get?_foldl_dropStep (rates ps : List String) (pc : PyDict String S) (n : String) :
    (ps.foldl (dropStep rates) pc).get? n = if n ∈ ps ∧ n ∉ rates then none else pc.get? n := by
  induction ps generalizing pc with
  | nil => simp
  | cons p ps ih =>
    rw [List.foldl_cons, ih]
    have hd : (dropStep rates pc p).get? n = if n = p ∧ n ∉ rates then none else pc.get? n := by
      unfold dropStep
      split
      · rename_i hp
        rw [PyDict.get?_del]
        by_cases hnp : n = p
        · subst hnp; simp [hp.1]
        · simp [hnp, Ne.symm hnp]
      · rename_i hp
        by_cases hnp : n = p
        · subst hnp
          by_cases hr : n ∈ rates
          · simp [hr]
          · have : pc.get? n = none := by
              by_contra hne
              apply hp
              refine ⟨hr, ?_⟩
              unfold PyDict.has
              cases hg : pc.get? n with
              | none => exact absurd hg hne
              | some _ => rfl
            simp [this]
        · simp [hnp]
    rw [hd]
    by_cases h1 : n ∈ rates
    · simp [h1]
    · by_cases h2 : n ∈ ps
      · simp [h1, h2]
      · by_cases h3 : n = p
        · subst h3; simp [h1, h2]
        · simp [h2, h3]

/-- With copies of configured parameters that are not themselves made by copying, one likelihood's copies succeed. -/
theorem copyLoop_plain {c : List (String × String)} {st : CopyState S}
    (hs : ∀ k v, (k, v) ∈ c → (st.parConfig.get? v).isSome) (hd : ∀ k v, (k, v) ∈ c → v ∉ c.map Prod.fst)
    (hu : ∀ k v v', (k, v) ∈ c → (k, v') ∈ c → v = v') :
    ∃ st', copyLoop c st = .ok st' ∧ ∀ k v, (k, v) ∈ c → st'.parConfig.get? k = st.parConfig.get? v := by
  induction c generalizing st with
  | nil => exact ⟨st, rfl, by simp⟩
  | cons kv c ih =>
    obtain ⟨k, v⟩ := kv
    obtain ⟨s, hv⟩ := Option.isSome_iff_exists.1 (hs k v (by simp))
    unfold copyLoop
    simp only [hv]
    have hkv : ∀ k' v', (k', v') ∈ (k, v) :: c → v' ≠ k := by
      intro k' v' hm he
      exact hd k' v' hm (by simp [he])
    obtain ⟨st', h1, h2⟩ := ih (st := { st with
          parConfig := st.parConfig.set k s
          sources := st.sources ++ [v]
          needed := if k ∈ st.needed then st.needed else st.needed ++ [k] })
      (by
        intro k' v' hm
        simp only
        rw [PyDict.get?_set_ne _ _ (Ne.symm (hkv k' v' (by simp [hm])))]
        exact hs k' v' (by simp [hm]))
      (by
        intro k' v' hm hc
        exact hd k' v' (by simp [hm]) (by simp only [List.map_cons, List.mem_cons]; exact .inr hc))
      (by intro k' a b ha hb; exact hu k' a b (by simp [ha]) (by simp [hb]))
    refine ⟨st', h1, ?_⟩
    intro k' v' hm
    by_cases hin : (k', v') ∈ c
    · rw [h2 k' v' hin]
      simp only
      rw [PyDict.get?_set_ne _ _ (Ne.symm (hkv k' v' hm))]
    · rcases List.mem_cons.1 hm with he | he
      · cases he
        have hnot : k ∉ c.map Prod.fst := by
          intro hk
          obtain ⟨⟨k2, v2⟩, hk2, rfl⟩ := List.mem_map.1 hk
          have := hu k2 v v2 (by simp) (by simp [hk2])
          subst this
          exact hin hk2
        rw [(copyLoop_ok h1).2.2.2.1 k hnot]
        simp only
        rw [PyDict.get?_set_self, hv]
      · exact absurd he hin

theorem likelihoodLoop_plain {ls : List CopyInstr} {st : CopyState S} (hp : PlainCopies ls)
    (hs : ∀ v, IsSource ls v → (st.parConfig.get? v).isSome) :
    ∃ st', likelihoodLoop ls st = .ok st' ∧
      ∀ k v, Copies ls k v → st'.parConfig.get? k = st.parConfig.get? v := by
  induction ls generalizing st with
  | nil => exact ⟨st, rfl, by simp [Copies]⟩
  | cons l ls ih =>
    obtain ⟨c, hc⟩ := Option.ne_none_iff_exists'.1 (hp.present l (by simp))
    have hcop : ∀ k v, (k, v) ∈ c → Copies (l :: ls) k v := fun k v h => (copies_cons ..).2 (.inl ⟨c, hc, h⟩)
    have hcop' : ∀ k v, Copies ls k v → Copies (l :: ls) k v := fun k v h => (copies_cons ..).2 (.inr h)
    have hsep : ∀ k v k' v', Copies (l :: ls) k v → Copies (l :: ls) k' v' → v ≠ k' := by
      rintro k v k' v' h1 h2 rfl
      exact hp.separate v ⟨v', h2⟩ ⟨k, h1⟩
    obtain ⟨s1, g1, g2⟩ := copyLoop_plain (c := c) (st := st) (fun k v h => hs v ⟨k, hcop k v h⟩)
      (by
        intro k v h hm
        obtain ⟨⟨k2, v2⟩, hk2, he⟩ := List.mem_map.1 hm
        exact hsep k v k2 v2 (hcop _ _ h) (hcop _ _ hk2) he.symm)
      (fun k v v' h1 h2 => hp.single k v v' (hcop _ _ h1) (hcop _ _ h2))
    have hkeep : ∀ k v, Copies (l :: ls) k v → s1.parConfig.get? v = st.parConfig.get? v := by
      intro k v h
      apply (copyLoop_ok g1).2.2.2.1
      intro hm
      obtain ⟨⟨k2, v2⟩, hk2, he⟩ := List.mem_map.1 hm
      exact hsep k v k2 v2 h (hcop _ _ hk2) he.symm
    obtain ⟨st', h1, h2⟩ := ih (st := { s1 with rates := s1.rates ++ l.comps.map (fun k => k ++ "_rate") })
      ⟨fun l' hl' => hp.present l' (by simp [hl']),
       fun n ⟨v, hv⟩ ⟨k, hk⟩ => hp.separate n ⟨v, hcop' _ _ hv⟩ ⟨k, hcop' _ _ hk⟩,
       fun k v v' h1 h2 => hp.single k v v' (hcop' _ _ h1) (hcop' _ _ h2)⟩
      (by
        rintro v ⟨k, hk⟩
        simp only
        rw [hkeep k v (hcop' _ _ hk)]
        exact hs v ⟨k, hcop' _ _ hk⟩)
    refine ⟨st', ?_, ?_⟩
    · unfold likelihoodLoop
      simp only [hc, g1]
      exact h1
    · intro k v h
      by_cases hls : ∃ v', Copies ls k v'
      · obtain ⟨v', hv'⟩ := hls
        have := hp.single k v v' h (hcop' _ _ hv')
        subst this
        rw [h2 k v hv']
        exact hkeep k v h
      · have hl : (k, v) ∈ c := by
          rcases (copies_cons ..).1 h with ⟨c', hc', hm⟩ | h'
          · rw [hc] at hc'; cases hc'; exact hm
          · exact absurd ⟨v, h'⟩ hls
        rw [(likelihoodLoop_ok h1).2.2.2.1 k hls]
        simp only
        exact g2 k v hl

end

section
variable {K : Type}

/-! ### Registration -/

theorem mem_setUnion (a b : List String) (x : String) : x ∈ setUnion a b ↔ x ∈ a ∨ x ∈ b := by
  simp only [setUnion, List.mem_append, List.mem_filter, decide_not, Bool.not_eq_eq_eq_not, Bool.not_true,
    decide_eq_false_iff_not]
  tauto

theorem litRegister_res {st st' : Llh.LitState K} {name : String}
    {b : Res (K → Int → PyDict String XF → Res (K × Llh.Grid XF))}
    (h : Llh.litRegister st name b = (st', .ok ())) : ∃ c, b = .ok c := by
  unfold Llh.litRegister at h
  split at h
  · cases h
  · split at h
    · cases h
    · exact ⟨_, rfl⟩

/-- A component registered in a likelihood adds the names the caller gives for its parameters. -/
theorem Obj.register_ok {o o' : Obj K} {name : String} {b : Res (CompBuild K)} (hal : Llh.PlainAliases o.aliases)
    (h : o.register name b = (o', .ok ())) :
    ∃ cb, b = .ok cb ∧ o'.aliases = o.aliases ∧
      ∀ x, x ∈ o'.needed ↔ ∃ p, (p ∈ o.needed ∨ p ∈ cb.comp.needed) ∧ x = Llh.callerName o.aliases p := by
  have hmem : ∀ (al : PyDict String String) (needed cn : List String), Llh.PlainAliases al → ∀ x,
      x ∈ al.foldl Llh.aliasNeeded (needed ++ cn.filter (fun x => x ∉ needed)) ↔
        ∃ p, (p ∈ needed ∨ p ∈ cn) ∧ x = Llh.callerName al p := by
    intro al needed cn hal x
    rw [Llh.mem_foldl_aliasNeeded al hal]
    have : ∀ p, p ∈ needed ++ cn.filter (fun x => x ∉ needed) ↔ p ∈ needed ∨ p ∈ cn := by
      intro p
      simp only [List.mem_append, List.mem_filter, decide_not, Bool.not_eq_eq_eq_not, Bool.not_true,
        decide_eq_false_iff_not]
      tauto
    simp only [this]
  cases o with
  | binned al data st =>
    simp only [Obj.register] at h
    obtain ⟨h1, h2⟩ := Prod.mk.inj h
    subst h1
    obtain ⟨c, hc, _, hst⟩ := Llh.register_ok (Prod.ext rfl h2 :
      Llh.register al st name (b.map CompBuild.comp) = ((Llh.register al st name (b.map CompBuild.comp)).1, .ok ()))
    cases b with
    | error e => cases hc
    | ok cb =>
      simp only [Except.map, Except.ok.injEq] at hc
      subst hc
      refine ⟨cb, rfl, rfl, ?_⟩
      intro x
      simp only [Obj.needed, Obj.aliases]
      rw [hst]
      exact hmem al _ _ hal x
  | lit al shape needed st =>
    simp only [Obj.register] at h
    cases hr : Llh.litRegister st name (b.map CompBuild.simulate) with
    | mk st' res =>
      rw [hr] at h
      cases b with
      | error e =>
        cases res with
        | error e' => cases h
        | ok u => obtain ⟨c, hc⟩ := litRegister_res hr; cases hc
      | ok cb =>
        cases res with
        | error e' => cases h
        | ok u =>
          simp only [Prod.mk.injEq, and_true] at h
          subst h
          refine ⟨cb, rfl, rfl, ?_⟩
          intro x
          simp only [Obj.needed, Obj.aliases]
          exact hmem al _ _ hal x

/-- A name the caller gives for a parameter of one of these components. -/
def From (al : PyDict String String) (comps : List (String × Res (CompBuild K))) (x : String) : Prop :=
  ∃ cn b q, (cn, .ok b) ∈ comps ∧ q ∈ b.comp.needed ∧ x = Llh.callerName al q

theorem from_append (al : PyDict String String) (c d : List (String × Res (CompBuild K))) (x : String) :
    From al (c ++ d) x ↔ From al c x ∨ From al d x := by
  unfold From
  constructor
  · rintro ⟨cn, b, q, h1, h2, h3⟩
    rcases List.mem_append.1 h1 with h1 | h1
    · exact .inl ⟨cn, b, q, h1, h2, h3⟩
    · exact .inr ⟨cn, b, q, h1, h2, h3⟩
  · rintro (⟨cn, b, q, h1, h2, h3⟩ | ⟨cn, b, q, h1, h2, h3⟩)
    · exact ⟨cn, b, q, by simp [h1], h2, h3⟩
    · exact ⟨cn, b, q, by simp [h1], h2, h3⟩

theorem registerComps_ok {lname : String} {comps done : List (String × Res (CompBuild K))} {c c' : Ctx K} {o : Obj K}
    (hal : Llh.PlainAliases o.aliases) (ho : c.likelihoods.get? lname = some o)
    (hdone : ∀ x, x ∈ o.needed ↔ From o.aliases done x) (hsub : ∀ x ∈ o.needed, x ∈ c.needed)
    (h : registerComps lname comps c = (c', .ok ())) :
    c'.pm = c.pm ∧ c'.parConfig = c.parConfig ∧ c'.likelihoods.keys = c.likelihoods.keys ∧
      (∀ x, x ∈ c'.needed ↔ x ∈ c.needed ∨ From o.aliases comps x) := by
  induction comps generalizing c done o with
  | nil =>
    simp only [registerComps, Prod.mk.injEq, and_true] at h
    subst h
    simp [From]
  | cons nb comps ih =>
    obtain ⟨n, b⟩ := nb
    unfold registerComps at h
    simp only [registerComponent, ho] at h
    cases hr : o.register n b with
    | mk o' res =>
      rw [hr] at h
      cases res with
      | error e => cases h
      | ok u =>
        obtain ⟨cb, rfl, hal', hneed⟩ := Obj.register_ok hal hr
        simp only at h
        have hone : ∀ x, From o.aliases [(n, Except.ok cb)] x ↔
            ∃ q ∈ cb.comp.needed, x = Llh.callerName o.aliases q := by
          intro x
          simp [From]
        have hneed' : ∀ x, x ∈ o'.needed ↔ From o'.aliases (done ++ [(n, Except.ok cb)]) x := by
          intro x
          rw [hneed, hal', from_append, hone]
          constructor
          · rintro ⟨p, hp | hp, rfl⟩
            · obtain ⟨cn, b, q, h1, h2, rfl⟩ := (hdone p).1 hp
              rw [Llh.callerName_idem _ hal]
              exact .inl ⟨cn, b, q, h1, h2, rfl⟩
            · exact .inr ⟨p, hp, rfl⟩
          · rintro (⟨cn, b, q, h1, h2, rfl⟩ | ⟨q, h2, rfl⟩)
            · exact ⟨_, .inl ((hdone _).2 ⟨cn, b, q, h1, h2, rfl⟩), (Llh.callerName_idem _ hal q).symm⟩
            · exact ⟨q, .inr h2, rfl⟩
        obtain ⟨i1, i2, i3, i4⟩ := ih (o := o') (done := done ++ [(n, Except.ok cb)]) (by rw [hal']; exact hal)
          (by simp only; rw [PyDict.get?_set_self]) hneed'
          (by intro x hx; simp only; rw [mem_setUnion]; exact .inr hx) h
        refine ⟨i1, i2, ?_, ?_⟩
        · rw [i3]
          exact PyDict.keys_set_of_mem _ _ (by rw [PyDict.mem_keys_iff, ho]; rfl)
        · intro x
          rw [i4 x]
          simp only
          rw [mem_setUnion, hal']
          have hsplit : From o.aliases ((n, Except.ok cb) :: comps) x ↔
              From o.aliases [(n, Except.ok cb)] x ∨ From o.aliases comps x := by
            rw [← from_append]; rfl
          rw [hsplit]
          constructor
          · rintro ((h | h) | h)
            · exact .inl h
            · rw [hneed', hal', from_append] at h
              rcases h with h | h
              · exact .inl (hsub x ((hdone x).2 h))
              · exact .inr (.inl h)
            · exact .inr (.inr h)
          · rintro (h | h | h)
            · exact .inl (.inl h)
            · refine .inl (.inr ?_)
              rw [hneed', hal', from_append]
              exact .inr h
            · exact .inr h

theorem fresh_facts {o : Obj K} (h : Fresh o) : Llh.PlainAliases o.aliases ∧ o.needed = [] := by
  cases o with
  | binned al data st => exact ⟨h.1, h.2.2⟩
  | lit al shape n st => exact ⟨h.1, h.2.2⟩

theorem registerAll_ok {ls : List (String × LInstr K)} {c c' : Ctx K}
    (hf : ∀ n l o, (n, l) ∈ ls → l.make = .ok o → Fresh o) (h : registerAll ls c = (c', .ok ())) :
    c'.pm = c.pm ∧ c'.parConfig = c.parConfig ∧ c'.likelihoods.keys = c.likelihoods.keys ++ PyDict.keys ls ∧
      (∀ x, x ∈ c'.needed ↔ x ∈ c.needed ∨ NeededByComponent ls x) := by
  induction ls generalizing c with
  | nil =>
    simp only [registerAll, Prod.mk.injEq, and_true] at h
    subst h
    simp [NeededByComponent, PyDict.keys]
  | cons nl ls ih =>
    obtain ⟨n, l⟩ := nl
    unfold registerAll at h
    unfold registerLikelihood at h
    by_cases hhas : c.likelihoods.has n = true
    · simp [hhas] at h
    · simp only [hhas] at h
      cases hm : l.make with
      | error e => simp [hm] at h
      | ok o =>
        simp only [hm] at h
        cases hr : registerComps n l.comps { c with likelihoods := c.likelihoods.set n o } with
        | mk c2 res =>
          simp only [if_false, Bool.false_eq_true] at h
          rw [hr] at h
          cases res with
          | error e => cases h
          | ok u =>
            simp only at h
            have hfo := fresh_facts (hf n l o (by simp) hm)
            obtain ⟨g1, g2, g3, g4⟩ := registerComps_ok (o := o) (done := []) hfo.1
              (by simp only; rw [PyDict.get?_set_self])
              (by intro x; rw [hfo.2]; simp [From]) (by rw [hfo.2]; simp) hr
            obtain ⟨i1, i2, i3, i4⟩ := ih (fun n' l' o' h1 h2 => hf n' l' o' (by simp [h1]) h2) h
            have hn : n ∉ c.likelihoods.keys := fun hk => hhas ((PyDict.has_iff _ _).2 hk)
            refine ⟨by rw [i1, g1], by rw [i2, g2], ?_, ?_⟩
            · rw [i3, g3]
              simp only
              rw [Llh.set_of_not_mem _ _ _ hn]
              simp [PyDict.keys]
            · intro x
              rw [i4, g4, or_assoc]
              apply or_congr Iff.rfl
              constructor
              · rintro (⟨cn, b, q, h1, h2, h3⟩ | ⟨n', l', o', cn, b, q, h0, hmk, h1, h2, h3⟩)
                · exact ⟨n, l, o, cn, b, q, by simp, hm, h1, h2, h3⟩
                · exact ⟨n', l', o', cn, b, q, by simp [h0], hmk, h1, h2, h3⟩
              · rintro ⟨n', l', o', cn, b, q, h0, hmk, h1, h2, h3⟩
                rcases List.mem_cons.1 h0 with he | h0
                · cases he
                  rw [hm] at hmk
                  cases hmk
                  exact .inl ⟨cn, b, q, h1, h2, h3⟩
                · exact .inr ⟨n', l', o', cn, b, q, h0, hmk, h1, h2, h3⟩

theorem Obj.register_built {o o' : Obj K} {name : String} {b : Res (CompBuild K)} (h : o.register name b = (o', .ok ())) :
    ∃ cb, b = .ok cb := by
  cases b with
  | ok cb => exact ⟨cb, rfl⟩
  | error e =>
    exfalso
    unfold Obj.register at h
    cases o with
    | binned al data st =>
      simp only [Except.map, Llh.register, Prod.mk.injEq] at h
      split at h <;> simp_all
    | lit al shape needed st =>
      simp only [Except.map, Llh.litRegister] at h
      split at h <;> simp_all

theorem registerComps_built {lname : String} {comps : List (String × Res (CompBuild K))} {c c' : Ctx K}
    (h : registerComps lname comps c = (c', .ok ())) : ∀ m b, (m, b) ∈ comps → ∃ cb, b = .ok cb := by
  induction comps generalizing c with
  | nil => simp
  | cons nb comps ih =>
    obtain ⟨n, b⟩ := nb
    unfold registerComps registerComponent at h
    cases ho : c.likelihoods.get? lname with
    | none => simp [ho] at h
    | some o =>
      rcases hr : o.register n b with ⟨o', e | u⟩
      · simp [ho, hr] at h
      · simp only [ho, hr] at h
        intro m b' hm
        rcases List.mem_cons.1 hm with hm | hm
        · cases hm
          exact Obj.register_built hr
        · exact ih h m b' hm

theorem registerAll_built {ls : List (String × LInstr K)} {c c' : Ctx K} (h : registerAll ls c = (c', .ok ())) :
    ∀ n l, (n, l) ∈ ls → (∃ o, l.make = .ok o) ∧ ∀ m b, (m, b) ∈ l.comps → ∃ cb, b = .ok cb := by
  induction ls generalizing c with
  | nil => simp
  | cons nl ls ih =>
    obtain ⟨n, l⟩ := nl
    unfold registerAll at h
    rcases h1 : registerLikelihood c n l.make with ⟨c1, e | u⟩
    · simp [h1] at h
    · simp only [h1] at h
      rcases h2 : registerComps n l.comps c1 with ⟨c2, e | u⟩
      · simp [h2] at h
      · simp only [h2] at h
        intro n' l' hm
        rcases List.mem_cons.1 hm with hm | hm
        · cases hm
          refine ⟨?_, registerComps_built h2⟩
          unfold registerLikelihood at h1
          cases hmk : l.make with
          | ok o => exact ⟨o, rfl⟩
          | error e => rw [hmk] at h1; split at h1 <;> simp at h1
        · exact ih h n' l' hm

theorem mk_ok {sig : Solver} {draw : String → ℝ} {pc : Config} {ls : PyDict String (LInstr K)} {c : Ctx K}
    (h : mk sig draw pc ls = .ok c) :
    ∃ pc' needed pm, updateParameterConfig (copyInstr ls) pc = .ok (pc', needed) ∧
      Parameter.mk sig draw pc' = (pm, .ok ()) ∧
      registerAll ls { parConfig := pc', pm := pm, needed := needed } = (c, .ok ()) := by
  unfold mk at h
  change (updateParameterConfig (copyInstr ls) pc >>= _) = _ at h
  cases hu : updateParameterConfig (copyInstr ls) pc with
  | error e => rw [hu] at h; cases h
  | ok r =>
    rw [hu] at h
    simp only [bind, Except.bind] at h
    cases hp : Parameter.mk sig draw r.1 with
    | mk pm res =>
      rw [hp] at h
      cases res with
      | error e => cases h
      | ok u =>
        simp only at h
        cases ha : registerAll ls { parConfig := r.1, pm := pm, needed := r.2 } with
        | mk c2 res =>
          rw [ha] at h
          cases res with
          | error e => cases h
          | ok u =>
            simp only [pure, Except.pure, Except.ok.injEq] at h
            subst h
            exact ⟨r.1, r.2, pm, rfl, hp, ha⟩

/-! ### Posterior -/

theorem logL_iff {o : Obj K} {k k' : K} {batch : Int} {p : PyDict String XF} {v : XF} :
    o.logL k batch p = .ok (k', v) ↔ GivesLogL o k batch p k' v := by
  cases o <;> exact Iff.rfl

theorem onceLoop_of_evals {batch : Int} {p : PyDict String XF} {ls : List (String × Obj K)} {key : K} {vs : List XF}
    (h : Evals batch p ls key vs) (acc : XF) : onceLoop batch p ls key acc = .ok (acc + XF.sum vs) := by
  induction h generalizing acc with
  | nil k => simp [onceLoop]
  | cons h1 h2 ih =>
    unfold onceLoop
    rw [logL_iff.2 h1]
    simp only [bind, Except.bind]
    rw [ih, XF.sum_cons, XF.add_assoc']

theorem evals_of_onceLoop {batch : Int} {p : PyDict String XF} {ls : List (String × Obj K)} {key : K} {acc v : XF}
    (h : onceLoop batch p ls key acc = .ok v) : ∃ vs, Evals batch p ls key vs ∧ v = acc + XF.sum vs := by
  induction ls generalizing key acc with
  | nil =>
    simp only [onceLoop, Except.ok.injEq] at h
    exact ⟨[], .nil _, by simp [h]⟩
  | cons no ls ih =>
    obtain ⟨n, o⟩ := no
    unfold onceLoop at h
    cases ho : o.logL key batch p with
    | error e => rw [ho] at h; cases h
    | ok kv =>
      rw [ho] at h
      obtain ⟨vs, h1, h2⟩ := ih h
      exact ⟨kv.2 :: vs, .cons (logL_iff.1 ho) h1, by rw [h2, XF.sum_cons, XF.add_assoc']⟩

theorem once_of_evals {c : Ctx K} {batch : Int} {key : K} {vs : List XF}
    (h : Evals batch c.pm.vals c.likelihoods key vs) (lp : XF) : once c batch key lp = .ok (XF.sum vs + lp) := by
  unfold once
  rw [onceLoop_of_evals h]
  simp [bind, Except.bind, pure, Except.pure, XF.fin_zero_add]

theorem evals_of_once {c : Ctx K} {batch : Int} {key : K} {lp v : XF} (h : once c batch key lp = .ok v) :
    ∃ vs, Evals batch c.pm.vals c.likelihoods key vs ∧ v = XF.sum vs + lp := by
  unfold once at h
  cases ho : onceLoop batch c.pm.vals c.likelihoods key (.fin 0) with
  | error e => rw [ho] at h; cases h
  | ok s =>
    rw [ho] at h
    obtain ⟨vs, h1, h2⟩ := evals_of_onceLoop ho
    simp only [bind, Except.bind, pure, Except.pure, Except.ok.injEq] at h
    exact ⟨vs, h1, by rw [← h, h2, XF.fin_zero_add]⟩

theorem div_one' (x : XF) : x / .fin 1 = x := by
  cases x <;> simp [XF.infSign]

end
end Verif.Ctx
