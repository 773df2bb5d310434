import Verif.Model.Graph
import Verif.Spec.Graph
import Verif.Lemmas.Deps

namespace Verif.Graph
open Verif Comp

theorem inputs_eq {reg : Registry} {d : String} {p : Plugin} (h : reg.get? d = some p) : inputs reg d = p.dependsOn := by
  simp [inputs, h]

theorem edgesFrom_append (l m : List (String × String)) (d : String) : edgesFrom (l ++ m) d = edgesFrom l d ++ edgesFrom m d := by
  simp [edgesFrom]

theorem edgesFrom_one_self (d e : String) : edgesFrom [(d, e)] d = [(d, e)] := by simp [edgesFrom]

theorem edgesFrom_one_ne {x d : String} (h : d ≠ x) (e : String) : edgesFrom [(d, e)] x = [] := by simp [edgesFrom, h]

theorem edgesFrom_add_self (l : List (String × String)) (d e : String) : edgesFrom (l ++ [(d, e)]) d = edgesFrom l d ++ [(d, e)] := by
  rw [edgesFrom_append, edgesFrom_one_self]

theorem edgesFrom_add_ne (l : List (String × String)) {x d : String} (h : d ≠ x) (e : String) :
    edgesFrom (l ++ [(d, e)]) x = edgesFrom l x := by
  rw [edgesFrom_append, edgesFrom_one_ne h, List.append_nil]

/-- A list in which each element comes after what it needs. -/
def Topo (R : String → String → Prop) (l : List String) : Prop :=
  ∀ pre d post, l = pre ++ d :: post → ∀ e, R d e → e ∈ pre

theorem topo_nil (R : String → String → Prop) : Topo R [] := by
  intro pre d post h; simp at h

theorem topo_snoc {R : String → String → Prop} {l : List String} {d : String} (h : Topo R l) (hd : ∀ e, R d e → e ∈ l) :
    Topo R (l ++ [d]) := by
  intro pre x post hx e he
  rcases List.eq_nil_or_concat post with rfl | ⟨post', y, rfl⟩
  · have := List.append_inj' hx (by simp)
    obtain ⟨rfl, h2⟩ := this
    simp only [List.cons.injEq, and_true] at h2
    subst h2
    exact hd e he
  · have hx' : l ++ [d] = (pre ++ x :: post') ++ [y] := by rw [hx]; simp [List.concat_eq_append]
    have := List.append_inj' hx' (by simp)
    exact h pre x post' this.1 e he

theorem topo_idx {R : String → String → Prop} {l : List String} (h : Topo R l) {d e : String} (hd : d ∈ l) (hde : R d e) :
    e ∈ l ∧ l.idxOf e < l.idxOf d := by
  obtain ⟨pre, post, rfl, hpre⟩ := List.eq_append_cons_of_mem hd
  have he := h pre d post rfl e hde
  refine ⟨by simp [he], ?_⟩
  rw [List.idxOf_append_of_mem he, List.idxOf_append_of_notMem hpre]
  have := List.idxOf_lt_length_of_mem he
  omega

/-- Nothing in such a list needs itself. -/
theorem topo_acyclic {R : String → String → Prop} {l : List String} (h : Topo R l) {d : String} (hd : d ∈ l) :
    ¬ Relation.TransGen R d d := by
  intro hc
  have key : ∀ {e}, Relation.TransGen R d e → e ∈ l ∧ l.idxOf e < l.idxOf d := by
    intro e he
    induction he with
    | single h1 => exact topo_idx h hd h1
    | tail _ h2 ih => exact ⟨(topo_idx h ih.1 h2).1, Nat.lt_trans (topo_idx h ih.1 h2).2 ih.2⟩
  exact absurd (key hc).2 (Nat.lt_irrefl _)

/-! ### The graph of the data -/

section data
variable {reg : Registry}

abbrev B : String := "batch_size"

/-- What drawing `roots` adds to a graph: the names `new`. -/
structure Drawn (reg : Registry) (roots : List String) (st st' : St String) (new : List String) : Prop where
  seen : st'.seen = st.seen ++ new
  fresh : ∀ d ∈ new, d ∉ st.seen
  nodup : new.Nodup
  reach : ∀ d ∈ new, Reach reg B roots d ∧ ∃ p, reg.get? d = some p
  edges : ∀ d, edgesFrom st'.edges d = edgesFrom st.edges d ++ (if d ∈ new then (inputs reg d).map (fun e => (d, e)) else [])
  nodes : ∀ n, n ∈ st'.nodes ↔ n ∈ st.nodes ∨ n ∈ new ∨ (n = B ∧ (B ∈ roots ∨ ∃ d ∈ new, B ∈ inputs reg d))
  roots : ∀ n ∈ roots, n = B ∨ n ∈ st'.seen
  topo : Topo (DirectDep reg B) st'.seen

theorem Drawn.noB {roots : List String} {st st' : St String} {new : List String} (D : Drawn reg roots st st' new) (h : B ∉ st.seen) :
    B ∉ st'.seen := by
  rw [D.seen, List.mem_append]
  rintro (h' | h')
  · exact h h'
  · exact (D.reach _ h').1.ne rfl

/-- One name. -/
def visit (reg : Registry) (fuel : Nat) (st : St String) (d : String) : Res (St String) :=
  if d ∈ st.seen then .ok st
  else
    let st : St String := { st with nodes := st.nodes ++ [d] }
    if d = "batch_size" then .ok st
    else
      match reg.get? d with
      | none => .error .keyError
      | some p => do
        let st ← p.dependsOn.foldlM (fun st e => depsTree reg fuel p.dependsOn { st with edges := st.edges ++ [(d, e)] }) st
        return { st with seen := st.seen ++ [d] }

theorem depsTree_succ (fuel : Nat) (names : List String) (st : St String) :
    depsTree reg (fuel + 1) names st = names.foldlM (visit reg fuel) st := rfl

theorem transGen_of_reach {d e : String} {p : Plugin} (hne : d ≠ B) (hp : reg.get? d = some p) (h : Reach reg B p.dependsOn e) :
    Relation.TransGen (DirectDep reg B) d e := by
  induction h with
  | root h1 h2 => exact .single ⟨hne, h2, p, hp, h1⟩
  | dep hr hp' he hne' ih => exact .tail ih ⟨hr.ne, hne', _, hp', he⟩

/-- The loop over the inputs of `d`. -/
theorem loop_drawn {fuel : Nat} {d : String} {p : Plugin} (hne : d ≠ B) (hp : reg.get? d = some p)
    (ih : ∀ st st', Topo (DirectDep reg B) st.seen → B ∉ st.seen → depsTree reg fuel p.dependsOn st = .ok st' →
      ∃ new, Drawn reg p.dependsOn st st' new)
    (l : List String) (st st' : St String) (ht : Topo (DirectDep reg B) st.seen) (hB : B ∉ st.seen)
    (h : l.foldlM (fun st e => depsTree reg fuel p.dependsOn { st with edges := st.edges ++ [(d, e)] }) st = .ok st') :
    ∃ new, st'.seen = st.seen ++ new ∧ (∀ x ∈ new, x ∉ st.seen) ∧ new.Nodup ∧
      (∀ x ∈ new, Reach reg B p.dependsOn x ∧ ∃ q, reg.get? x = some q) ∧
      (∀ x, x ≠ d → edgesFrom st'.edges x = edgesFrom st.edges x ++ (if x ∈ new then (inputs reg x).map (fun e => (x, e)) else [])) ∧
      edgesFrom st'.edges d = edgesFrom st.edges d ++ l.map (fun e => (d, e)) ∧ d ∉ new ∧
      (∀ n, n ∈ st'.nodes ↔ n ∈ st.nodes ∨ n ∈ new ∨ (n = B ∧ ((l ≠ [] ∧ B ∈ p.dependsOn) ∨ ∃ x ∈ new, B ∈ inputs reg x))) ∧
      (l ≠ [] → ∀ n ∈ p.dependsOn, n = B ∨ n ∈ st'.seen) ∧ Topo (DirectDep reg B) st'.seen := by
  induction l generalizing st with
  | nil =>
    cases h
    exact ⟨[], by simp, by simp, by simp, by simp, by simp, by simp, by simp, by simp, by simp, ht⟩
  | cons e l ihl =>
    rw [List.foldlM_cons] at h
    simp only [bind, Except.bind] at h
    split at h
    · cases h
    rename_i st1 h1
    obtain ⟨n1, D⟩ := ih ({ st with edges := st.edges ++ [(d, e)] } : St String) st1 ht hB h1
    obtain ⟨n2, a1, a2, a3, a4, a5, a6, a7, a8, a9, a10⟩ := ihl st1 D.topo (D.noB hB) h
    have hd1 : d ∉ n1 := fun hd => topo_acyclic D.topo (by rw [D.seen]; simp [hd]) (transGen_of_reach hne hp (D.reach d hd).1)
    have hs1 : st1.seen = st.seen ++ n1 := D.seen
    have he1 : ∀ x, edgesFrom st1.edges x = edgesFrom (st.edges ++ [(d, e)]) x ++
      (if x ∈ n1 then (inputs reg x).map (fun e => (x, e)) else []) := D.edges
    have hn1 : ∀ n, n ∈ st1.nodes ↔ n ∈ st.nodes ∨ n ∈ n1 ∨ (n = B ∧ (B ∈ p.dependsOn ∨ ∃ d ∈ n1, B ∈ inputs reg d)) := D.nodes
    have hf1 : ∀ x ∈ n1, x ∉ st.seen := D.fresh
    have hdisj : ∀ x ∈ n2, x ∉ n1 := fun x hx hx1 => a2 x hx (by rw [hs1]; simp [hx1])
    refine ⟨n1 ++ n2, by rw [a1, hs1, List.append_assoc], ?_, ?_, ?_, ?_, ?_, by simp [hd1, a7], ?_, ?_, a10⟩
    · intro x hx
      rcases List.mem_append.1 hx with hx | hx
      · exact hf1 x hx
      · exact fun hh => a2 x hx (by rw [hs1]; simp [hh])
    · exact List.nodup_append.2 ⟨D.nodup, a3, fun x hx y hy hxy => hdisj y hy (hxy ▸ hx)⟩
    · intro x hx
      rcases List.mem_append.1 hx with hx | hx
      · exact D.reach x hx
      · exact a4 x hx
    · intro x hx
      rw [a5 x hx, he1, edgesFrom_add_ne _ (Ne.symm hx)]
      by_cases h1 : x ∈ n1
      · have h2 : x ∉ n2 := fun h2 => hdisj x h2 h1
        simp [h1, h2]
      · simp [h1]
    · rw [a6, he1, edgesFrom_add_self]; simp [hd1]
    · intro n
      rw [a8, hn1]
      simp only [ne_eq, reduceCtorEq, not_false_eq_true, true_and, List.mem_append]
      constructor
      · rintro ((h | h | ⟨h, h' | ⟨x, hx, hb⟩⟩) | h | ⟨h, ⟨_, h'⟩ | ⟨x, hx, hb⟩⟩)
        · exact .inl h
        · exact .inr (.inl (.inl h))
        · exact .inr (.inr ⟨h, .inl h'⟩)
        · exact .inr (.inr ⟨h, .inr ⟨x, .inl hx, hb⟩⟩)
        · exact .inr (.inl (.inr h))
        · exact .inr (.inr ⟨h, .inl h'⟩)
        · exact .inr (.inr ⟨h, .inr ⟨x, .inr hx, hb⟩⟩)
      · rintro (h | (h | h) | ⟨h, h' | ⟨x, hx | hx, hb⟩⟩)
        · exact .inl (.inl h)
        · exact .inl (.inr (.inl h))
        · exact .inr (.inl h)
        · exact .inl (.inr (.inr ⟨h, .inl h'⟩))
        · exact .inl (.inr (.inr ⟨h, .inr ⟨x, hx, hb⟩⟩))
        · exact .inr (.inr ⟨h, .inr ⟨x, hx, hb⟩⟩)
    · intro _ n hn
      rcases D.roots n hn with h | h
      · exact .inl h
      · exact .inr (by rw [a1]; simp [h])

theorem visit_drawn {fuel : Nat}
    (ih : ∀ names st st', Topo (DirectDep reg B) st.seen → B ∉ st.seen → depsTree reg fuel names st = .ok st' → ∃ new, Drawn reg names st st' new)
    (st st' : St String) (d : String) (ht : Topo (DirectDep reg B) st.seen) (hB : B ∉ st.seen) (h : visit reg fuel st d = .ok st') :
    ∃ new, Drawn reg [d] st st' new := by
  unfold visit at h
  split at h
  · rename_i hs
    cases h
    by_cases hb : d = B
    · exact absurd (hb ▸ hs) hB
    · exact ⟨[], by simp, by simp, by simp, by simp, by simp, by simp [Ne.symm hb], by simp [hs], ht⟩
  · rename_i hs
    simp only at h
    split at h
    · rename_i hb
      cases h
      exact ⟨[], by simp, by simp, by simp, by simp, by simp, by simp [hb], by simp [hb], ht⟩
    · rename_i hb
      split at h
      · cases h
      rename_i p hp
      simp only [bind, Except.bind, pure, Except.pure] at h
      split at h
      · cases h
      rename_i st1 h1
      cases h
      obtain ⟨new, a1, a2, a3, a4, a5, a6, a7, a8, a9, a10⟩ := loop_drawn hb hp (ih p.dependsOn) p.dependsOn
        ({ st with nodes := st.nodes ++ [d] } : St String) st1 ht hB h1
      have hdep : ∀ e, DirectDep reg B d e → e ∈ st1.seen := by
        rintro e ⟨_, he, q, hq, heq⟩
        rw [hp] at hq; cases hq
        rcases a9 (List.ne_nil_of_mem heq) e heq with h | h
        · exact absurd h he
        · exact h
      refine ⟨new ++ [d], by simp [a1], ?_, ?_, ?_, ?_, ?_, by simp, topo_snoc a10 hdep⟩
      · intro x hx
        rcases List.mem_append.1 hx with hx | hx
        · exact a2 x hx
        · rw [List.mem_singleton.1 hx]; exact hs
      · exact List.nodup_append.2 ⟨a3, by simp, fun x hx y hy hxy => a7 (by rw [List.mem_singleton.1 hy] at hxy; exact hxy ▸ hx)⟩
      · intro x hx
        rcases List.mem_append.1 hx with hx | hx
        · exact ⟨(a4 x hx).1.under (by simp) hb hp, (a4 x hx).2⟩
        · rw [List.mem_singleton.1 hx]; exact ⟨.root (by simp) hb, p, hp⟩
      · intro x
        by_cases hx : x = d
        · subst hx
          rw [show edgesFrom st1.edges x = _ from a6]
          simp [inputs_eq hp]
        · rw [show edgesFrom st1.edges x = _ from a5 x hx]
          simp [hx]
      · intro n
        have h8 := a8 n
        simp only [List.mem_append, List.mem_singleton] at h8 ⊢
        rw [h8]
        constructor
        · rintro ((h | h) | h | ⟨h, ⟨h1, h'⟩ | ⟨x, hx, hb'⟩⟩)
          · exact .inl h
          · exact .inr (.inl (.inr h))
          · exact .inr (.inl (.inl h))
          · exact .inr (.inr ⟨h, .inr ⟨d, .inr rfl, by rw [inputs_eq hp]; exact h'⟩⟩)
          · exact .inr (.inr ⟨h, .inr ⟨x, .inl hx, hb'⟩⟩)
        · rintro (h | (h | h) | ⟨h, h' | ⟨x, hx | rfl, hb'⟩⟩)
          · exact .inl (.inl h)
          · exact .inr (.inl h)
          · exact .inl (.inr h)
          · exact absurd h'.symm hb
          · exact .inr (.inr ⟨h, .inr ⟨x, hx, hb'⟩⟩)
          · rw [inputs_eq hp] at hb'
            exact .inr (.inr ⟨h, .inl ⟨List.ne_nil_of_mem hb', hb'⟩⟩)

theorem visits_drawn {fuel : Nat}
    (ih : ∀ names st st', Topo (DirectDep reg B) st.seen → B ∉ st.seen → depsTree reg fuel names st = .ok st' → ∃ new, Drawn reg names st st' new)
    (names : List String) (st st' : St String) (ht : Topo (DirectDep reg B) st.seen) (hB : B ∉ st.seen)
    (h : names.foldlM (visit reg fuel) st = .ok st') : ∃ new, Drawn reg names st st' new := by
  induction names generalizing st with
  | nil => cases h; exact ⟨[], by simp, by simp, by simp, by simp, by simp, by simp, by simp, ht⟩
  | cons d l ihl =>
    rw [List.foldlM_cons] at h
    simp only [bind, Except.bind] at h
    split at h
    · cases h
    rename_i st1 h1
    obtain ⟨n1, D1⟩ := visit_drawn ih st st1 d ht hB h1
    obtain ⟨n2, D2⟩ := ihl st1 D1.topo (D1.noB hB) h
    have hdisj : ∀ x ∈ n2, x ∉ n1 := fun x hx hx1 => D2.fresh x hx (by rw [D1.seen]; simp [hx1])
    refine ⟨n1 ++ n2, by rw [D2.seen, D1.seen, List.append_assoc], ?_, ?_, ?_, ?_, ?_, ?_, D2.topo⟩
    · intro x hx
      rcases List.mem_append.1 hx with hx | hx
      · exact D1.fresh x hx
      · exact fun hh => D2.fresh x hx (by rw [D1.seen]; simp [hh])
    · exact List.nodup_append.2 ⟨D1.nodup, D2.nodup, fun x hx y hy hxy => hdisj y hy (hxy ▸ hx)⟩
    · intro x hx
      rcases List.mem_append.1 hx with hx | hx
      · exact ⟨(D1.reach x hx).1.mono (by simp), (D1.reach x hx).2⟩
      · exact ⟨(D2.reach x hx).1.mono (by simp +contextual), (D2.reach x hx).2⟩
    · intro x
      rw [D2.edges, D1.edges]
      by_cases h1 : x ∈ n1
      · have h2 : x ∉ n2 := fun h2 => hdisj x h2 h1
        simp [h1, h2]
      · simp [h1]
    · intro n
      rw [D2.nodes, D1.nodes]
      simp only [List.mem_append, List.mem_cons, List.not_mem_nil, or_false]
      constructor
      · rintro ((h | h | ⟨h, h' | ⟨x, hx, hb⟩⟩) | h | ⟨h, h' | ⟨x, hx, hb⟩⟩)
        · exact .inl h
        · exact .inr (.inl (.inl h))
        · exact .inr (.inr ⟨h, .inl (.inl h')⟩)
        · exact .inr (.inr ⟨h, .inr ⟨x, .inl hx, hb⟩⟩)
        · exact .inr (.inl (.inr h))
        · exact .inr (.inr ⟨h, .inl (.inr h')⟩)
        · exact .inr (.inr ⟨h, .inr ⟨x, .inr hx, hb⟩⟩)
      · rintro (h | (h | h) | ⟨h, (h' | h') | ⟨x, hx | hx, hb⟩⟩)
        · exact .inl (.inl h)
        · exact .inl (.inr (.inl h))
        · exact .inr (.inl h)
        · exact .inl (.inr (.inr ⟨h, .inl h'⟩))
        · exact .inr (.inr ⟨h, .inl h'⟩)
        · exact .inl (.inr (.inr ⟨h, .inr ⟨x, hx, hb⟩⟩))
        · exact .inr (.inr ⟨h, .inr ⟨x, hx, hb⟩⟩)
    · intro n hn
      rcases List.mem_cons.1 hn with rfl | hn
      · rcases D1.roots n (by simp) with h | h
        · exact .inl h
        · exact .inr (by rw [D2.seen]; simp [h])
      · exact D2.roots n hn

theorem depsTree_drawn (fuel : Nat) (names : List String) (st st' : St String) (ht : Topo (DirectDep reg B) st.seen) (hB : B ∉ st.seen)
    (h : depsTree reg fuel names st = .ok st') : ∃ new, Drawn reg names st st' new := by
  induction fuel generalizing names st st' with
  | zero => cases h
  | succ fuel ih =>
    rw [depsTree_succ] at h
    exact visits_drawn (fun names st st' => ih names st st') names st st' ht hB h

/-- Everything needed was seen. -/
theorem seen_of_reach {roots l : List String} (ht : Topo (DirectDep reg B) l) (hr : ∀ n ∈ roots, n = B ∨ n ∈ l) {d : String}
    (h : Reach reg B roots d) : d ∈ l := by
  induction h with
  | root h1 h2 => exact (hr _ h1).resolve_left h2
  | dep hd hp he hne ih => exact (topo_idx ht ih ⟨hd.ne, hne, _, hp, he⟩).1

/-- Drawing succeeds if everything has a provider and the paths are short enough. -/
theorem depsTree_ok (fuel : Nat) (names : List String) (st : St String) (h0 : 0 < fuel)
    (hc : ∀ d, Reach reg B names d → ∃ p, reg.get? d = some p) (hpath : ∀ n ∈ names, ∀ k, Path reg B k n → k + 1 < fuel) :
    ∃ st', depsTree reg fuel names st = .ok st' := by
  induction fuel generalizing names st with
  | zero => omega
  | succ fuel ih =>
    rw [depsTree_succ]
    have hv : ∀ d ∈ names, ∀ st, ∃ st', visit reg fuel st d = .ok st' := by
      intro d hd st
      unfold visit
      split
      · exact ⟨_, rfl⟩
      · simp only
        split
        · exact ⟨_, rfl⟩
        · rename_i hb
          obtain ⟨p, hp⟩ := hc d (.root hd hb)
          rw [hp]
          have hl : ∀ (l : List String) (st : St String), ∃ st', l.foldlM (fun st e => depsTree reg fuel p.dependsOn
              { st with edges := st.edges ++ [(d, e)] }) st = .ok st' := by
            intro l
            induction l with
            | nil => intro st; exact ⟨st, rfl⟩
            | cons e l ihl =>
              intro st
              obtain ⟨st1, h1⟩ := ih p.dependsOn ({ st with edges := st.edges ++ [(d, e)] } : St String)
                (by have := hpath d hd 0 (.zero hb); omega) (fun x hx => hc x (hx.under hd hb hp))
                (fun n hn k hk => by
                  have hnb : n ≠ B := by cases hk with
                    | zero h => exact h
                    | step h _ => exact h.1
                  have := hpath d hd (k + 1) (.step ⟨hb, hnb, p, hp, hn⟩ hk)
                  omega)
              obtain ⟨st2, h2⟩ := ihl st1
              exact ⟨st2, by rw [List.foldlM_cons]; simp only [bind, Except.bind, h1]; exact h2⟩
          obtain ⟨st1, h1⟩ := hl p.dependsOn ({ st with nodes := st.nodes ++ [d] } : St String)
          exact ⟨{ st1 with seen := st1.seen ++ [d] }, by simp only [bind, Except.bind, h1, pure, Except.pure]⟩
    clear hc hpath
    induction names generalizing st with
    | nil => exact ⟨st, rfl⟩
    | cons d l ihl =>
      obtain ⟨st1, h1⟩ := hv d (by simp) st
      obtain ⟨st2, h2⟩ := ihl st1 (fun x hx => hv x (by simp [hx]))
      exact ⟨st2, by rw [List.foldlM_cons]; simp only [bind, Except.bind, h1]; exact h2⟩

/-- Paths are bounded by the position of their first name. -/
theorem path_le {l : List String} (ht : Topo (DirectDep reg B) l) {k : Nat} {d : String} (hd : d ∈ l) (h : Path reg B k d) :
    k ≤ l.idxOf d := by
  induction h with
  | zero _ => exact Nat.zero_le _
  | step h1 _ ih =>
    obtain ⟨he, hlt⟩ := topo_idx ht hd h1
    have := ih he
    omega

end data

/-! ### The graph of the plugins -/

section plugins
variable {reg : Registry} {R0 : List String}

/-- The edges of a plugin. -/
def outEdges (reg : Registry) (p : Plugin) (l : List String) : List (String × String) :=
  l.flatMap (fun e => if e = B then [] else match reg.get? e with
    | some q => [(p.name, q.name)]
    | none => [])

theorem edgesFrom_outEdges_self (p : Plugin) (l : List String) : edgesFrom (outEdges reg p l) p.name = outEdges reg p l := by
  rw [edgesFrom, List.filter_eq_self]
  intro a ha
  obtain ⟨e, -, he⟩ := List.mem_flatMap.1 ha
  split at he
  · cases he
  · split at he <;> simp_all

/-- A plugin needed for `R0` needs another. -/
def PDep (reg : Registry) (R0 : List String) (P Q : String) : Prop :=
  ∃ d p e q, Reach reg B R0 d ∧ reg.get? d = some p ∧ p.name = P ∧ e ∈ p.dependsOn ∧ e ≠ B ∧ reg.get? e = some q ∧ q.name = Q

/-- Plugins needed for `R0` are told apart by their names. -/
def Apart (reg : Registry) (R0 : List String) : Prop :=
  ∀ d d' p p', Reach reg B R0 d → Reach reg B R0 d' → reg.get? d = some p → reg.get? d' = some p' → p.name = p'.name → p = p'

/-- What drawing `roots` adds to a graph: the plugins `new`. -/
structure PDrawn (reg : Registry) (R0 roots : List String) (w : Bool) (st st' : St (String × String)) (new : List Plugin) : Prop where
  seen : st'.seen = st.seen ++ new.map Plugin.name
  fresh : ∀ p ∈ new, p.name ∉ st.seen
  nodup : (new.map Plugin.name).Nodup
  reach : ∀ p ∈ new, ∃ d, Reach reg B roots d ∧ reg.get? d = some p
  edges : ∀ P, edgesFrom st'.edges P =
    edgesFrom st.edges P ++ (new.filter (fun p => p.name = P)).flatMap (fun p => outEdges reg p p.dependsOn)
  nodes : (st'.nodes.map Prod.fst).Perm (st.nodes.map Prod.fst ++ new.map Plugin.name)
  labels : ∀ n ∈ st'.nodes, n ∈ st.nodes ∨ ∃ p ∈ new, n.1 = p.name ∧
    (n.2 = p.name ∨ (n.2 = label w p ∧ ∃ d ∈ roots, reg.get? d = some p))
  roots : ∀ n ∈ roots, n ≠ B → ∃ p, reg.get? n = some p ∧ p.name ∈ st'.seen
  topo : Topo (PDep reg R0) st'.seen
  prov : ∀ p ∈ new, ∀ e ∈ p.dependsOn, e ≠ B → ∃ q, reg.get? e = some q

/-- One name. -/
def pvisit (reg : Registry) (fuel : Nat) (w : Bool) (st : St (String × String)) (d : String) : Res (St (String × String)) :=
  if d = "batch_size" then .ok st
  else
    match reg.get? d with
    | none => .error .keyError
    | some p =>
      if p.name ∈ st.seen then .ok st
      else do
        let st : St (String × String) := { st with nodes := st.nodes ++ [(p.name, label w p)] }
        let st ← p.dependsOn.foldlM (fun st e =>
          if e = "batch_size" then .ok st
          else
            match reg.get? e with
            | none => .error .keyError
            | some q => pluginsTree reg fuel false p.dependsOn { st with edges := st.edges ++ [(p.name, q.name)] }) st
        return { st with seen := st.seen ++ [p.name] }

theorem pluginsTree_succ (fuel : Nat) (w : Bool) (names : List String) (st : St (String × String)) :
    pluginsTree reg (fuel + 1) w names st = names.foldlM (pvisit reg fuel w) st := rfl

theorem ptransGen_of_reach {d x : String} {p q : Plugin} (hd : Reach reg B R0 d) (hp : reg.get? d = some p)
    (h : Reach reg B p.dependsOn x) (hq : reg.get? x = some q) : Relation.TransGen (PDep reg R0) p.name q.name := by
  induction h generalizing q with
  | root h1 h2 => exact .single ⟨d, p, _, q, hd, hp, rfl, h1, h2, hq, rfl⟩
  | @dep y r e hr hp' he hne' ih =>
    have hy : Reach reg B R0 y := by
      clear ih
      have : ∀ {z}, Reach reg B p.dependsOn z → Reach reg B R0 z := by
        intro z hz
        induction hz with
        | root h1 h2 => exact .dep hd hp h1 h2
        | dep _ h2 h3 h4 ih => exact .dep ih h2 h3 h4
      exact this hr
    exact .tail (ih hp') ⟨y, r, e, q, hy, hp', rfl, he, hne', hq, rfl⟩

theorem reach_deps {d x : String} {p : Plugin} (hd : Reach reg B R0 d) (hp : reg.get? d = some p) (h : Reach reg B p.dependsOn x) :
    Reach reg B R0 x := by
  induction h with
  | root h1 h2 => exact .dep hd hp h1 h2
  | dep _ h2 h3 h4 ih => exact .dep ih h2 h3 h4

/-- The loop over the inputs of a plugin. -/
theorem ploop_drawn {fuel : Nat} {d : String} {p : Plugin} (ha : Apart reg R0) (hd : Reach reg B R0 d) (hp : reg.get? d = some p)
    (ih : ∀ st st', Topo (PDep reg R0) st.seen → pluginsTree reg fuel false p.dependsOn st = .ok st' →
      ∃ new, PDrawn reg R0 p.dependsOn false st st' new)
    (l : List String) (st st' : St (String × String)) (ht : Topo (PDep reg R0) st.seen)
    (h : l.foldlM (m := Except PyErr) (fun (st : St (String × String)) e =>
          if e = "batch_size" then Except.ok st
          else
            match reg.get? e with
            | none => Except.error PyErr.keyError
            | some q => pluginsTree reg fuel false p.dependsOn { st with edges := st.edges ++ [(p.name, q.name)] }) st = .ok st') :
    ∃ new : List Plugin, st'.seen = st.seen ++ new.map Plugin.name ∧ (∀ q ∈ new, q.name ∉ st.seen) ∧ (new.map Plugin.name).Nodup ∧
      (∀ q ∈ new, ∃ x, Reach reg B p.dependsOn x ∧ reg.get? x = some q) ∧
      (∀ P, P ≠ p.name → edgesFrom st'.edges P =
        edgesFrom st.edges P ++ (new.filter (fun q => q.name = P)).flatMap (fun q => outEdges reg q q.dependsOn)) ∧
      edgesFrom st'.edges p.name = edgesFrom st.edges p.name ++ outEdges reg p l ∧ p.name ∉ new.map Plugin.name ∧
      (st'.nodes.map Prod.fst).Perm (st.nodes.map Prod.fst ++ new.map Plugin.name) ∧
      (∀ n ∈ st'.nodes, n ∈ st.nodes ∨ ∃ q ∈ new, n.1 = q.name ∧ n.2 = q.name) ∧
      ((∃ e ∈ l, e ≠ B) → ∀ n ∈ p.dependsOn, n ≠ B → ∃ q, reg.get? n = some q ∧ q.name ∈ st'.seen) ∧
      Topo (PDep reg R0) st'.seen ∧ (∀ q ∈ new, ∀ e ∈ q.dependsOn, e ≠ B → ∃ r, reg.get? e = some r) := by
  induction l generalizing st with
  | nil =>
    cases h
    exact ⟨[], by simp, by simp, by simp, by simp, by simp, by simp [outEdges], by simp, by simp, fun n hn => .inl hn, by simp, ht, by simp⟩
  | cons e l ihl =>
    rw [List.foldlM_cons] at h
    simp only [bind, Except.bind] at h
    split at h
    · cases h
    rename_i st1 h1
    split at h1
    · rename_i he
      cases h1
      obtain ⟨n2, a1, a2, a3, a4, a5, a6, a7, a8, a9, a10, a11, a12⟩ := ihl st ht h
      refine ⟨n2, a1, a2, a3, a4, a5, ?_, a7, a8, a9, ?_, a11, a12⟩
      · rw [a6]; simp [outEdges, he]
      · rintro ⟨x, hx, hxB⟩
        rcases List.mem_cons.1 hx with rfl | hx
        · exact absurd he hxB
        · exact a10 ⟨x, hx, hxB⟩
    · rename_i he
      split at h1
      · cases h1
      rename_i q hq
      obtain ⟨n1, D⟩ := ih ({ st with edges := st.edges ++ [(p.name, q.name)] } : St (String × String)) st1 ht h1
      obtain ⟨n2, a1, a2, a3, a4, a5, a6, a7, a8, a9, a10, a11, a12⟩ := ihl st1 D.topo h
      have hp1 : p.name ∉ n1.map Plugin.name := by
        intro hm
        obtain ⟨p', hp', hn⟩ := List.mem_map.1 hm
        obtain ⟨x, hx, hpx⟩ := D.reach p' hp'
        have := ha x d p' p (reach_deps hd hp hx) hd hpx hp hn
        subst this
        exact topo_acyclic D.topo (by rw [D.seen]; exact List.mem_append.2 (.inr hm)) (ptransGen_of_reach hd hp hx hpx)
      have hs1 : st1.seen = st.seen ++ n1.map Plugin.name := D.seen
      have he1 : ∀ P, edgesFrom st1.edges P = edgesFrom (st.edges ++ [(p.name, q.name)]) P ++
        (n1.filter (fun p => p.name = P)).flatMap (fun p => outEdges reg p p.dependsOn) := D.edges
      have hn1 : (st1.nodes.map Prod.fst).Perm (st.nodes.map Prod.fst ++ n1.map Plugin.name) := D.nodes
      have hl1 : ∀ n ∈ st1.nodes, n ∈ st.nodes ∨ ∃ p' ∈ n1, n.1 = p'.name ∧
        (n.2 = p'.name ∨ (n.2 = label false p' ∧ ∃ d ∈ p.dependsOn, reg.get? d = some p')) := D.labels
      have hf1 : ∀ x ∈ n1, x.name ∉ st.seen := D.fresh
      refine ⟨n1 ++ n2, ?_, ?_, ?_, ?_, ?_, ?_, ?_, ?_, ?_, ?_, a11, fun x hx => (List.mem_append.1 hx).elim (D.prov x) (a12 x)⟩
      · rw [a1, hs1, List.map_append, List.append_assoc]
      · intro x hx
        rcases List.mem_append.1 hx with hx | hx
        · exact hf1 x hx
        · exact fun hh => a2 x hx (by rw [hs1]; exact List.mem_append.2 (.inl hh))
      · rw [List.map_append]
        refine List.nodup_append.2 ⟨D.nodup, a3, fun x hx y hy hxy => ?_⟩
        obtain ⟨r, hr, rfl⟩ := List.mem_map.1 hy
        exact a2 r hr (by rw [hs1]; exact List.mem_append.2 (.inr (hxy ▸ hx)))
      · intro x hx
        rcases List.mem_append.1 hx with hx | hx
        · exact D.reach x hx
        · exact a4 x hx
      · intro P hP
        rw [a5 P hP, he1, edgesFrom_add_ne _ (Ne.symm hP)]
        simp
      · rw [a6, he1, edgesFrom_add_self]
        have hnil : n1.filter (fun r => r.name = p.name) = [] := by
          rw [List.filter_eq_nil_iff]
          intro r hr hrn
          exact hp1 (List.mem_map.2 ⟨r, hr, by simpa using hrn⟩)
        rw [hnil]
        simp [outEdges, he, hq]
      · rw [List.map_append, List.mem_append]
        rintro (h' | h')
        · exact hp1 h'
        · exact a7 h'
      · refine a8.trans ((hn1.append_right _).trans ?_)
        rw [List.map_append, List.append_assoc]
      · intro n hn
        rcases a9 n hn with h' | ⟨r, hr, h1, h2⟩
        · rcases hl1 n h' with h'' | ⟨r, hr, h1, h2⟩
          · exact .inl h''
          · exact .inr ⟨r, by simp [hr], h1, by rcases h2 with h2 | ⟨h2, -⟩ <;> simpa [label] using h2⟩
        · exact .inr ⟨r, by simp [hr], h1, h2⟩
      · intro _ n hn hnB
        obtain ⟨r, hr, hrs⟩ := D.roots n hn hnB
        exact ⟨r, hr, by rw [a1]; exact List.mem_append.2 (.inl hrs)⟩

theorem pvisit_drawn {fuel : Nat} (ha : Apart reg R0)
    (ih : ∀ w names st st', (∀ x, Reach reg B names x → Reach reg B R0 x) → Topo (PDep reg R0) st.seen →
      pluginsTree reg fuel w names st = .ok st' → ∃ new, PDrawn reg R0 names w st st' new)
    (w : Bool) (st st' : St (String × String)) (d : String) (hsub : ∀ x, Reach reg B [d] x → Reach reg B R0 x)
    (ht : Topo (PDep reg R0) st.seen) (h : pvisit reg fuel w st d = .ok st') :
    ∃ new, PDrawn reg R0 [d] w st st' new := by
  unfold pvisit at h
  split at h
  · rename_i hb
    cases h
    exact ⟨[], by simp, by simp, by simp, by simp, by simp, by simp, fun n hn => .inl hn, by simp [hb], ht, by simp⟩
  rename_i hb
  split at h
  · cases h
  rename_i p hp
  split at h
  · rename_i hs
    cases h
    refine ⟨[], by simp, by simp, by simp, by simp, by simp, by simp, fun n hn => .inl hn, ?_, ht, by simp⟩
    intro n hn _
    rw [List.mem_singleton.1 hn]
    exact ⟨p, hp, hs⟩
  rename_i hs
  have hd : Reach reg B R0 d := hsub d (.root (by simp) hb)
  simp only [bind, Except.bind, pure, Except.pure] at h
  split at h
  · cases h
  rename_i st1 h1
  cases h
  obtain ⟨new, a1, a2, a3, a4, a5, a6, a7, a8, a9, a10, a11, a12⟩ := ploop_drawn ha hd hp
    (fun st st' => ih false p.dependsOn st st' (fun x hx => reach_deps hd hp hx)) p.dependsOn
    ({ st with nodes := st.nodes ++ [(p.name, label w p)] } : St (String × String)) st1 ht h1
  have hdep : ∀ Q, PDep reg R0 p.name Q → Q ∈ st1.seen := by
    rintro Q ⟨d', p', e, q, hd', hp', hn, he, heB, hq, rfl⟩
    have := ha d' d p' p hd' hd hp' hp hn
    subst this
    obtain ⟨q', hq', hqs⟩ := a10 ⟨e, he, heB⟩ e he heB
    rw [hq] at hq'; cases hq'
    exact hqs
  refine ⟨new ++ [p], by simp [a1], ?_, ?_, ?_, ?_, ?_, ?_, ?_, topo_snoc a11 hdep, fun x hx => (List.mem_append.1 hx).elim (a12 x) (fun hx => by
    rw [List.mem_singleton.1 hx]
    intro e he heB
    obtain ⟨q, hq, -⟩ := a10 ⟨e, he, heB⟩ e he heB
    exact ⟨q, hq⟩)⟩
  · intro x hx
    rcases List.mem_append.1 hx with hx | hx
    · exact a2 x hx
    · rw [List.mem_singleton.1 hx]; exact hs
  · rw [List.map_append]
    exact List.nodup_append.2 ⟨a3, by simp, fun x hx y hy hxy => a7 (by simp at hy; rw [← hy, ← hxy]; exact hx)⟩
  · intro x hx
    rcases List.mem_append.1 hx with hx | hx
    · obtain ⟨y, hy, hq⟩ := a4 x hx
      exact ⟨y, hy.under (by simp) hb hp, hq⟩
    · rw [List.mem_singleton.1 hx]; exact ⟨d, .root (by simp) hb, hp⟩
  · intro P
    by_cases hP : P = p.name
    · subst hP
      have hnil : new.filter (fun r => r.name = p.name) = [] := by
        rw [List.filter_eq_nil_iff]
        intro r hr hrn
        exact a7 (List.mem_map.2 ⟨r, hr, by simpa using hrn⟩)
      rw [show edgesFrom st1.edges p.name = _ from a6, List.filter_append, hnil]
      simp
    · rw [show edgesFrom st1.edges P = _ from a5 P hP, List.filter_append]
      simp [Ne.symm hP]
  · refine a8.trans ?_
    rw [List.map_append, List.map_append, List.append_assoc]
    exact List.Perm.append_left _ List.perm_append_comm
  · intro n hn
    rcases a9 n hn with h' | ⟨r, hr, h1, h2⟩
    · rcases List.mem_append.1 h' with h' | h'
      · exact .inl h'
      · rw [List.mem_singleton.1 h']
        exact .inr ⟨p, by simp, rfl, .inr ⟨rfl, d, by simp, hp⟩⟩
    · exact .inr ⟨r, by simp [hr], h1, .inl h2⟩
  · intro n hn _
    rw [List.mem_singleton.1 hn]
    exact ⟨p, hp, by simp⟩

theorem pvisits_drawn {fuel : Nat} (ha : Apart reg R0)
    (ih : ∀ w names st st', (∀ x, Reach reg B names x → Reach reg B R0 x) → Topo (PDep reg R0) st.seen →
      pluginsTree reg fuel w names st = .ok st' → ∃ new, PDrawn reg R0 names w st st' new)
    (w : Bool) (names : List String) (st st' : St (String × String)) (hsub : ∀ x, Reach reg B names x → Reach reg B R0 x)
    (ht : Topo (PDep reg R0) st.seen) (h : names.foldlM (pvisit reg fuel w) st = .ok st') :
    ∃ new, PDrawn reg R0 names w st st' new := by
  induction names generalizing st with
  | nil => cases h; exact ⟨[], by simp, by simp, by simp, by simp, by simp, by simp, fun n hn => .inl hn, by simp, ht, by simp⟩
  | cons d l ihl =>
    rw [List.foldlM_cons] at h
    simp only [bind, Except.bind] at h
    split at h
    · cases h
    rename_i st1 h1
    obtain ⟨n1, D1⟩ := pvisit_drawn ha ih w st st1 d (fun x hx => hsub x (hx.mono (by simp))) ht h1
    obtain ⟨n2, D2⟩ := ihl st1 (fun x hx => hsub x (hx.mono (by simp +contextual))) D1.topo h
    refine ⟨n1 ++ n2, ?_, ?_, ?_, ?_, ?_, ?_, ?_, ?_, D2.topo, fun x hx => (List.mem_append.1 hx).elim (D1.prov x) (D2.prov x)⟩
    · rw [D2.seen, D1.seen, List.map_append, List.append_assoc]
    · intro x hx
      rcases List.mem_append.1 hx with hx | hx
      · exact D1.fresh x hx
      · exact fun hh => D2.fresh x hx (by rw [D1.seen]; exact List.mem_append.2 (.inl hh))
    · rw [List.map_append]
      refine List.nodup_append.2 ⟨D1.nodup, D2.nodup, fun x hx y hy hxy => ?_⟩
      obtain ⟨r, hr, rfl⟩ := List.mem_map.1 hy
      exact D2.fresh r hr (by rw [D1.seen]; exact List.mem_append.2 (.inr (hxy ▸ hx)))
    · intro x hx
      rcases List.mem_append.1 hx with hx | hx
      · obtain ⟨y, hy, hq⟩ := D1.reach x hx
        exact ⟨y, hy.mono (by simp), hq⟩
      · obtain ⟨y, hy, hq⟩ := D2.reach x hx
        exact ⟨y, hy.mono (by simp +contextual), hq⟩
    · intro P
      rw [D2.edges, D1.edges, List.filter_append, List.flatMap_append, List.append_assoc]
    · refine D2.nodes.trans ((D1.nodes.append_right _).trans ?_)
      rw [List.map_append, List.append_assoc]
    · intro n hn
      rcases D2.labels n hn with h' | ⟨r, hr, h1, h2⟩
      · rcases D1.labels n h' with h'' | ⟨r, hr, h1, h2⟩
        · exact .inl h''
        · refine .inr ⟨r, by simp [hr], h1, h2.imp id (fun ⟨h3, x, hx, hq⟩ => ⟨h3, x, ?_, hq⟩)⟩
          rw [List.mem_singleton.1 hx]; simp
      · exact .inr ⟨r, by simp [hr], h1, h2.imp id (fun ⟨h3, x, hx, hq⟩ => ⟨h3, x, by simp [hx], hq⟩)⟩
    · intro n hn hB
      rcases List.mem_cons.1 hn with rfl | hn
      · obtain ⟨q, hq, hs⟩ := D1.roots n (by simp) hB
        exact ⟨q, hq, by rw [D2.seen]; exact List.mem_append.2 (.inl hs)⟩
      · exact D2.roots n hn hB

theorem pluginsTree_drawn (ha : Apart reg R0) (fuel : Nat) (w : Bool) (names : List String) (st st' : St (String × String))
    (hsub : ∀ x, Reach reg B names x → Reach reg B R0 x) (ht : Topo (PDep reg R0) st.seen)
    (h : pluginsTree reg fuel w names st = .ok st') : ∃ new, PDrawn reg R0 names w st st' new := by
  induction fuel generalizing w names st st' with
  | zero => cases h
  | succ fuel ih =>
    rw [pluginsTree_succ] at h
    exact pvisits_drawn ha (fun w names st st' => ih w names st st') w names st st' hsub ht h

/-- The plugin of everything needed was seen. -/
theorem pseen_of_reach {roots l : List String} (hsub : ∀ x, Reach reg B roots x → Reach reg B R0 x) (ha : Apart reg R0)
    (ht : Topo (PDep reg R0) l)
    (hr : ∀ n ∈ roots, n ≠ B → ∃ p, reg.get? n = some p ∧ p.name ∈ l) {d : String} (h : Reach reg B roots d) :
    ∀ p, reg.get? d = some p → p.name ∈ l := by
  induction h with
  | root h1 h2 =>
    intro p hp
    obtain ⟨q, hq, hs⟩ := hr _ h1 h2
    rw [hp] at hq; cases hq; exact hs
  | @dep y r e hd hp he hne ih =>
    intro q hq
    exact (topo_idx ht (ih _ hp) ⟨y, r, e, q, hsub _ hd, hp, rfl, he, hne, hq, rfl⟩).1

/-- Drawing succeeds if everything has a provider and the paths are short enough. -/
theorem pluginsTree_ok (fuel : Nat) (w : Bool) (names : List String) (st : St (String × String)) (h0 : 0 < fuel)
    (hc : ∀ d, Reach reg B names d → ∃ p, reg.get? d = some p) (hpath : ∀ n ∈ names, ∀ k, Path reg B k n → k + 1 < fuel) :
    ∃ st', pluginsTree reg fuel w names st = .ok st' := by
  induction fuel generalizing w names st with
  | zero => omega
  | succ fuel ih =>
    rw [pluginsTree_succ]
    have hv : ∀ d ∈ names, ∀ st, ∃ st', pvisit reg fuel w st d = .ok st' := by
      intro d hd st
      unfold pvisit
      split
      · exact ⟨_, rfl⟩
      rename_i hb
      obtain ⟨p, hp⟩ := hc d (.root hd hb)
      rw [hp]
      simp only
      split
      · exact ⟨_, rfl⟩
      have hl : ∀ (l : List String) (st : St (String × String)), (∀ e ∈ l, e ∈ p.dependsOn) →
          ∃ st', l.foldlM (m := Except PyErr) (fun (st : St (String × String)) e =>
            if e = "batch_size" then Except.ok st
            else
              match reg.get? e with
              | none => Except.error PyErr.keyError
              | some q => pluginsTree reg fuel false p.dependsOn { st with edges := st.edges ++ [(p.name, q.name)] }) st = .ok st' := by
        intro l
        induction l with
        | nil => intro st _; exact ⟨st, rfl⟩
        | cons e l ihl =>
          intro st hsub
          by_cases he : e = "batch_size"
          · obtain ⟨st2, h2⟩ := ihl st (fun x hx => hsub x (by simp [hx]))
            exact ⟨st2, by rw [List.foldlM_cons, if_pos he]; exact h2⟩
          · obtain ⟨q, hq⟩ := hc e (.dep (.root hd hb) hp (hsub e (by simp)) he)
            obtain ⟨st1, h1⟩ := ih false p.dependsOn ({ st with edges := st.edges ++ [(p.name, q.name)] } : St (String × String))
              (by have := hpath d hd 0 (.zero hb); omega) (fun x hx => hc x (hx.under hd hb hp))
              (fun n hn k hk => by
                have hnb : n ≠ B := by cases hk with
                  | zero h => exact h
                  | step h _ => exact h.1
                have := hpath d hd (k + 1) (.step ⟨hb, hnb, p, hp, hn⟩ hk)
                omega)
            obtain ⟨st2, h2⟩ := ihl st1 (fun x hx => hsub x (by simp [hx]))
            exact ⟨st2, by rw [List.foldlM_cons, if_neg he]; simp only [bind, Except.bind, hq, h1]; exact h2⟩
      obtain ⟨st1, h1⟩ := hl p.dependsOn ({ st with nodes := st.nodes ++ [(p.name, label w p)] } : St (String × String)) (fun _ h => h)
      exact ⟨{ st1 with seen := st1.seen ++ [p.name] }, by simp only [bind, Except.bind, h1, pure, Except.pure]⟩
    clear hc hpath
    induction names generalizing st with
    | nil => exact ⟨st, rfl⟩
    | cons d l ihl =>
      obtain ⟨st1, h1⟩ := hv d (by simp) st
      obtain ⟨st2, h2⟩ := ihl st1 (fun x hx => hv x (by simp [hx]))
      exact ⟨st2, by rw [List.foldlM_cons]; simp only [bind, Except.bind, h1]; exact h2⟩

/-- Paths between data are paths between plugins. -/
theorem ppath_le {roots l : List String} (ht : Topo (PDep reg R0) l) (hsub : ∀ x, Reach reg B roots x → Reach reg B R0 x)
    (hall : ∀ d, Reach reg B roots d → ∃ p, reg.get? d = some p ∧ p.name ∈ l)
    {k : Nat} {d : String} (hd : Reach reg B roots d) (h : Path reg B k d) :
    ∃ p, reg.get? d = some p ∧ k ≤ l.idxOf p.name := by
  induction h with
  | zero _ => obtain ⟨p, hp, -⟩ := hall _ hd; exact ⟨p, hp, Nat.zero_le _⟩
  | @step k d e h1 _ ih =>
    obtain ⟨-, heB, p, hp, he⟩ := h1
    have hre : Reach reg B roots e := .dep hd hp he heB
    obtain ⟨q, hq, hk⟩ := ih hre
    obtain ⟨p', hp', hpl⟩ := hall d hd
    rw [hp] at hp'; cases hp'
    have := (topo_idx ht hpl ⟨d, p, e, q, hsub d hd, hp, rfl, he, heB, hq, rfl⟩).2
    exact ⟨p, hp, by omega⟩

end plugins
end Verif.Graph
