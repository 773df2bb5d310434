/-
Property theorems C95: calling a method that replaces aliases.
-/
import Verif.Model.Wrapper
import Verif.Props.Likelihood

namespace Verif.Wrap
open Verif

variable {A V W R : Type}

/-- `b` binds the arguments of a call to the parameters: positional ones in order, the others by keyword or from the default;
no keyword is left over or given twice. -/
structure IsBinding (sig : List (String × Option A)) (args : List A) (kw b : PyDict String A) : Prop where
  few : args.length ≤ sig.length
  known : ∀ n ∈ kw.keys, n ∈ (sig.drop args.length).map Prod.fst
  length : b.length = sig.length
  value : ∀ (i : Nat) (n : String) (d : Option A), sig[i]? = some (n, d) → ∃ v, b[i]? = some (n, v) ∧
    (i < args.length → args[i]? = some v) ∧ (args.length ≤ i → kw.get? n = some v ∨ (n ∉ kw.keys ∧ d = some v))

theorem bind_nil (n : String) (d : Option A) (ps : List (String × Option A)) (kw acc : PyDict String A) :
    bind ((n, d) :: ps) [] kw acc = match kw.get? n with
    | some v => bind ps [] (kw.del n) (acc ++ [(n, v)])
    | none => match d with
      | some v => bind ps [] kw (acc ++ [(n, v)])
      | none => .error .typeError := by
  cases hg : kw.get? n <;> cases d <;> simp [bind, hg]

theorem bind_acc (sig : List (String × Option A)) (hs : (sig.map Prod.fst).Nodup) (args : List A) (kw acc b : PyDict String A) :
    bind sig args kw acc = .ok b ↔ ∃ new, b = acc ++ new ∧ IsBinding sig args kw new := by
  induction sig generalizing args kw acc with
  | nil =>
    cases args with
    | nil =>
      rw [bind]
      by_cases h : kw = []
      · rw [if_pos h]
        constructor
        · intro e
          cases e
          exact ⟨[], by simp, ⟨by simp, by simp [h, PyDict.keys], rfl, by simp⟩⟩
        · rintro ⟨new, rfl, hb⟩
          rw [List.length_eq_zero_iff.1 hb.length, List.append_nil]
      · rw [if_neg h]
        constructor
        · intro e; cases e
        · rintro ⟨new, _, hb⟩
          cases kw with
          | nil => exact absurd rfl h
          | cons e kw => exact absurd (hb.known e.1 (by simp [PyDict.keys])) (by simp)
    | cons a as =>
      rw [bind]
      constructor
      · intro e; cases e
      · rintro ⟨new, _, hb⟩; have := hb.few; simp at this
  | cons p ps ih =>
    obtain ⟨n, d⟩ := p
    simp only [List.map_cons, List.nodup_cons] at hs
    obtain ⟨hn, hs⟩ := hs
    cases args with
    | cons a as =>
      rw [bind]
      by_cases hk : kw.has n
      · rw [if_pos hk]
        constructor
        · intro e; cases e
        · rintro ⟨new, _, hb⟩
          have h1 := hb.known n ((PyDict.has_iff _ _).1 hk)
          simp only [List.length_cons, List.drop_succ_cons] at h1
          exact absurd (List.mem_of_mem_drop (by rwa [List.map_drop] at h1)) hn
      · rw [if_neg hk, ih hs]
        constructor
        · rintro ⟨new, rfl, hb⟩
          refine ⟨(n, a) :: new, by simp, ⟨by simpa using hb.few, by simpa using hb.known, by simp [hb.length], ?_⟩⟩
          intro i m d' hi
          cases i with
          | zero =>
            simp only [List.getElem?_cons_zero, Option.some.injEq, Prod.mk.injEq] at hi
            exact ⟨a, by simp [hi.1], by simp, by simp⟩
          | succ i =>
            obtain ⟨v, h1, h2, h3⟩ := hb.value i m d' (by simpa using hi)
            exact ⟨v, by simpa using h1, fun h => by simpa using h2 (by simpa using h), fun h => h3 (by simpa using h)⟩
        · rintro ⟨new, rfl, hb⟩
          obtain ⟨v, h1, h2, _⟩ := hb.value 0 n d (by simp)
          have hv : v = a := by have := h2 (by simp); simpa using this.symm
          subst hv
          cases new with
          | nil => simp at h1
          | cons e new =>
            simp only [List.getElem?_cons_zero, Option.some.injEq] at h1
            subst h1
            refine ⟨new, by simp, ⟨by simpa using hb.few, by simpa using hb.known, by simpa using hb.length, ?_⟩⟩
            intro i m d' hi
            obtain ⟨w, q1, q2, q3⟩ := hb.value (i + 1) m d' (by simpa using hi)
            exact ⟨w, by simpa using q1, fun h => by simpa using q2 (by simpa using h), fun h => q3 (by simpa using h)⟩
    | nil =>
      rw [bind_nil]
      have hknown : ∀ kw' : PyDict String A, (∀ m, m ∈ kw'.keys ↔ m ∈ kw.keys ∧ m ≠ n) →
          ((∀ m ∈ kw'.keys, m ∈ ps.map Prod.fst) ↔ ∀ m ∈ kw.keys, m ∈ ((n, d) :: ps).map Prod.fst) := by
        intro kw' h
        constructor
        · intro h1 m hm
          by_cases e : m = n
          · simp [e]
          · simp only [List.map_cons, List.mem_cons]; exact .inr (h1 m ((h m).2 ⟨hm, e⟩))
        · intro h1 m hm
          obtain ⟨hm1, hm2⟩ := (h m).1 hm
          have := h1 m hm1
          simp only [List.map_cons, List.mem_cons] at this
          exact this.resolve_left hm2
      have step : ∀ (kw' : PyDict String A) (v : A), (∀ m, m ∈ kw'.keys ↔ m ∈ kw.keys ∧ m ≠ n) →
          (∀ m, m ≠ n → kw'.get? m = kw.get? m) → (kw.get? n = some v ∨ (n ∉ kw.keys ∧ d = some v)) →
          ((∃ new, b = acc ++ [(n, v)] ++ new ∧ IsBinding ps [] kw' new) ↔ ∃ new, b = acc ++ new ∧ IsBinding ((n, d) :: ps) [] kw new) := by
        intro kw' v hk hg hv
        constructor
        · rintro ⟨new, rfl, hb⟩
          refine ⟨(n, v) :: new, by simp, ⟨by simp, ?_, by simp [hb.length], ?_⟩⟩
          · have := (hknown kw' hk).1 (by simpa using hb.known)
            simpa using this
          · intro i m d' hi
            cases i with
            | zero =>
              simp only [List.getElem?_cons_zero, Option.some.injEq, Prod.mk.injEq] at hi
              obtain ⟨rfl, rfl⟩ := hi
              exact ⟨v, by simp, by simp, fun _ => hv⟩
            | succ i =>
              have hi' : ps[i]? = some (m, d') := by simpa using hi
              have hm : m ≠ n := by
                rintro rfl
                exact hn (List.mem_map.2 ⟨_, List.mem_of_getElem? hi', rfl⟩)
              obtain ⟨w, q1, _, q3⟩ := hb.value i m d' hi'
              refine ⟨w, by simpa using q1, by simp, fun _ => ?_⟩
              rcases q3 (by simp) with q | ⟨q, q'⟩
              · left; rwa [hg m hm] at q
              · right; exact ⟨fun h => q ((hk m).2 ⟨h, hm⟩), q'⟩
        · rintro ⟨new, rfl, hb⟩
          obtain ⟨w, h1, _, h3⟩ := hb.value 0 n d (by simp)
          have hw : w = v := by
            rcases h3 (by simp) with q | ⟨q, q'⟩ <;> rcases hv with r | ⟨r, r'⟩
            · rw [q] at r; exact Option.some.inj r
            · exact absurd ((PyDict.mem_keys_iff_exists _ _).2 ⟨w, q⟩) r
            · exact absurd ((PyDict.mem_keys_iff_exists _ _).2 ⟨v, r⟩) q
            · rw [q'] at r'; exact Option.some.inj r'
          subst hw
          cases new with
          | nil => simp at h1
          | cons e new =>
            simp only [List.getElem?_cons_zero, Option.some.injEq] at h1
            subst h1
            refine ⟨new, by simp, ⟨by simp, ?_, by simpa using hb.length, ?_⟩⟩
            · have := (hknown kw' hk).2 (by simpa using hb.known)
              simpa using this
            · intro i m d' hi
              have hm : m ≠ n := by
                rintro rfl
                exact hn (List.mem_map.2 ⟨_, List.mem_of_getElem? hi, rfl⟩)
              obtain ⟨x, q1, _, q3⟩ := hb.value (i + 1) m d' (by simpa using hi)
              refine ⟨x, by simpa using q1, by simp, fun _ => ?_⟩
              rcases q3 (by simp) with q | ⟨q, q'⟩
              · left; rwa [hg m hm]
              · right; exact ⟨fun h => q ((hk m).1 h).1, q'⟩
      cases hg : kw.get? n with
      | some v =>
        simp only
        rw [ih hs]
        apply step
        · intro m; rw [PyDict.keys_del]; simp
        · intro m hm; rw [PyDict.get?_del, if_neg (Ne.symm hm)]
        · exact .inl hg
      | none =>
        simp only
        have hnot : n ∉ kw.keys := (PyDict.get?_eq_none_iff _ _).1 hg
        cases d with
        | some v =>
          simp only
          rw [ih hs]
          apply step
          · intro m
            constructor
            · intro h; exact ⟨h, fun e => hnot (e ▸ h)⟩
            · exact fun h => h.1
          · intro m _; rfl
          · exact .inr ⟨hnot, rfl⟩
        | none =>
          simp only [reduceCtorEq, false_iff, not_exists, not_and]
          intro new _ hb
          obtain ⟨w, _, _, h3⟩ := hb.value 0 n none (by simp)
          rcases h3 (by simp) with q | ⟨_, q⟩
          · rw [hg] at q; cases q
          · cases q

/-- **C95 (binding).** Arguments are bound exactly when each parameter is given once, by position or by keyword, or has a default,
and nothing else is given; anything else is a TypeError. -/
theorem C95_binding (sig : List (String × Option A)) (hs : (sig.map Prod.fst).Nodup) (args : List A) (kw : PyDict String A) :
    (∀ b, bind sig args kw [] = .ok b ↔ IsBinding sig args kw b) ∧ (∀ e, bind sig args kw [] = .error e → e = .typeError) := by
  refine ⟨fun b => by rw [bind_acc sig hs]; simp, ?_⟩
  have : ∀ (sig : List (String × Option A)) (args : List A) (kw acc : PyDict String A) (e : PyErr),
      bind sig args kw acc = .error e → e = .typeError := by
    intro sig
    induction sig with
    | nil =>
      intro args kw acc e h
      cases args with
      | nil => rw [bind] at h; split at h <;> cases h; rfl
      | cons a as => rw [bind] at h; cases h; rfl
    | cons p ps ih =>
      intro args kw acc e h
      obtain ⟨n, d⟩ := p
      cases args with
      | cons a as =>
        rw [bind] at h
        split at h
        · cases h; rfl
        · exact ih _ _ _ _ h
      | nil =>
        rw [bind_nil] at h
        cases hg : kw.get? n with
        | some v => rw [hg] at h; exact ih _ _ _ _ h
        | none =>
          rw [hg] at h
          cases d with
          | some v => exact ih _ _ _ _ h
          | none => cases h; rfl
  exact this sig args kw []

/-- **C95.** A method that replaces aliases sees its arguments as they were given, only with the aliases of `parameters`
replaced; it is called if and only if the arguments bind. -/
theorem C95_call (sig : List (String × Option (Arg V W))) (hs : (sig.map Prod.fst).Nodup) (hp : "parameters" ∈ sig.map Prod.fst)
    (al : PyDict String String) (func : PyDict String (Arg V W) → Res R) (args : List (Arg V W)) (kw : PyDict String (Arg V W)) :
    (∀ b d, IsBinding sig args kw b → b.get? "parameters" = some (.dict d) →
      call sig al func args kw = func (b.set "parameters" (.dict (Llh.replaceAlias al d)))) ∧
    (∀ b v, IsBinding sig args kw b → b.get? "parameters" = some (.other v) → al ≠ [] → call sig al func args kw = .error .typeError) ∧
    (∀ b, IsBinding sig args kw b → "parameters" ∈ b.keys) ∧
    ((∀ b, ¬ IsBinding sig args kw b) → call sig al func args kw = .error .typeError) := by
  obtain ⟨h1, h2⟩ := C95_binding sig hs args kw
  refine ⟨?_, ?_, ?_, ?_⟩
  · intro b d hb hd
    unfold call
    rw [(h1 b).2 hb]
    simp [Bind.bind, Except.bind, hd, replaceArg]
  · intro b v hb hv hal
    unfold call
    rw [(h1 b).2 hb]
    simp [Bind.bind, Except.bind, hv, replaceArg, hal]
  · intro b hb
    obtain ⟨e, he, hn⟩ := List.mem_map.1 hp
    obtain ⟨i, hi⟩ := List.mem_iff_getElem?.1 he
    obtain ⟨v, hv, _⟩ := hb.value i e.1 e.2 hi
    rw [← hn]
    exact List.mem_map.2 ⟨_, List.mem_of_getElem? hv, rfl⟩
  · intro hb
    unfold call
    cases hx : bind sig args kw [] with
    | ok b => exact absurd ((h1 b).1 hx) (hb b)
    | error e => rw [h2 e hx]; rfl

/-- **C95 (ways of calling).** The three-argument methods give the same result for every way of passing the arguments, by position
or by keyword in any order. -/
theorem C95_same_by_position_and_keyword (al : PyDict String String) (func : PyDict String (Arg V W) → Res R) (k n p : Arg V W) :
    call sig3 al func [k, n, p] [] = call sig3 al func [k, n] [("parameters", p)] ∧
    call sig3 al func [k, n, p] [] = call sig3 al func [k] [("parameters", p), ("batch_size", n)] ∧
    call sig3 al func [k, n, p] [] = call sig3 al func [] [("parameters", p), ("key", k), ("batch_size", n)] ∧
    call sig3 al func [k, n, p] [("key", k)] = .error .typeError ∧ call sig3 al func [k, n] [] = .error .typeError ∧
    call sig3 al func [k, n, p] [("seed", k)] = .error .typeError ∧ call sig2 al func [k, n, p] [] = .error .typeError := by
  refine ⟨?_, ?_, ?_, ?_, ?_, ?_, ?_⟩ <;> simp [call, sig3, sig2, bind, PyDict.get?, PyDict.del, PyDict.has, Bind.bind, Except.bind]

/-- Non-vacuity of C95: an alias is replaced on the way. -/
example (k n : Arg Nat Nat) : call sig3 [("g1_a", "g1")] (fun b => .ok (b.get? "parameters")) [k, n] [("parameters", .dict [("g1_a", 3)])] =
    .ok (some (.dict [("g1", 3)])) := by
  simp [call, sig3, bind, PyDict.get?, PyDict.del, PyDict.has, Bind.bind, Except.bind, replaceArg, Llh.replaceAlias, Llh.aliasStep, PyDict.set]

/-- **C95 (no parameters).** A method without `parameters` among its parameters is never called: arguments that bind give a
ValueError. -/
theorem C95_without_parameters (sig : List (String × Option (Arg V W))) (hs : (sig.map Prod.fst).Nodup) (hp : "parameters" ∉ sig.map Prod.fst)
    (al : PyDict String String) (func : PyDict String (Arg V W) → Res R) (args : List (Arg V W)) (kw b : PyDict String (Arg V W))
    (hb : IsBinding sig args kw b) : call sig al func args kw = .error .valueError := by
  have hk : b.get? "parameters" = none := by
    rw [PyDict.get?_eq_none_iff]
    intro hm
    obtain ⟨e, he, hn⟩ := List.mem_map.1 hm
    obtain ⟨i, hi⟩ := List.mem_iff_getElem?.1 he
    have hlt : i < sig.length := by
      have := (List.getElem?_eq_some_iff.1 hi).1
      rw [hb.length] at this; exact this
    obtain ⟨v, hv, _⟩ := hb.value i sig[i].1 sig[i].2 (by simp)
    rw [hi] at hv
    have : e.1 = sig[i].1 := by simp only [Option.some.injEq] at hv; rw [hv]
    exact hp (List.mem_map.2 ⟨sig[i], List.getElem_mem _, by rw [← this]; exact hn⟩)
  unfold call
  rw [((C95_binding sig hs args kw).1 b).2 hb]
  simp [Bind.bind, Except.bind, hk]

/-- Non-vacuity of C95_without_parameters: a method of one argument. -/
example (k : Arg Nat Nat) : IsBinding [("key", none)] [k] [] [("key", k)] ∧
    call [("key", none)] [] (fun b => .ok b) [k] [] = .error .valueError := by
  have h : IsBinding [("key", (none : Option (Arg Nat Nat)))] [k] [] [("key", k)] := by
    rw [← (C95_binding [("key", none)] (by simp) [k] []).1]
    simp [bind, PyDict.has]
  exact ⟨h, C95_without_parameters _ (by simp) (by simp) _ _ _ _ _ h⟩

end Verif.Wrap
