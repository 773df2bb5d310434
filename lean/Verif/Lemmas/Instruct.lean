/-
Helper lemmas for C107.
-/
import Verif.Spec.Instruct
import Mathlib.Data.List.Forall2

namespace Verif.Instr
open Verif

theorem get?_keep (known : List String) (d : PyDict String Val) (k : String) (h : k ∈ known) : (keep known d).get? k = d.get? k := by
  induction d with
  | nil => rfl
  | cons e d ih =>
    obtain ⟨k', v⟩ := e
    by_cases hk : k' ∈ known
    · simp only [keep, List.filter_cons, hk, decide_true, if_true, PyDict.get?]
      split
      · rfl
      · exact ih
    · have hne : k' ≠ k := fun e => hk (e ▸ h)
      simp only [keep, List.filter_cons, hk, decide_false, Bool.false_eq_true, if_false, PyDict.get?, hne]
      exact ih

theorem get?_at' (k : String) (f : Val → Val) (d : PyDict String Val) (n : String) :
    (at' k f d).get? n = if n = k then (d.get? n).map f else d.get? n := by
  induction d with
  | nil => simp [at', PyDict.get?]
  | cons e d ih =>
    obtain ⟨k', v⟩ := e
    unfold at' at ih ⊢
    rw [List.map_cons]
    by_cases hk : k' = k
    · simp only [hk, if_true, PyDict.get?]
      by_cases hn : k = n
      · simp [hn]
      · rw [if_neg hn, if_neg hn, ih]
    · simp only [hk, if_false, PyDict.get?]
      by_cases hn : k' = n
      · rw [if_pos hn, if_pos hn, if_neg (by rw [← hn]; exact hk)]
      · rw [if_neg hn, if_neg hn, ih]

theorem get?_stripL (d : PyDict String Val) (k : String) (h : k ∈ likelihoodItems) (hk : k ≠ "components") :
    (at' "components" (inside stripComponent) (keep likelihoodItems d)).get? k = d.get? k := by
  rw [get?_at', if_neg hk, get?_keep _ _ _ h]

theorem get?_stripL_comp (d : PyDict String Val) :
    (at' "components" (inside stripComponent) (keep likelihoodItems d)).get? "components" = (d.get? "components").map (inside stripComponent) := by
  rw [get?_at', if_pos rfl, get?_keep _ _ _ (by decide)]

theorem getItem_congr (d e : PyDict String Val) (k : String) (h : d.get? k = e.get? k) : d.getItem k = e.getItem k := by
  unfold PyDict.getItem; rw [h]

theorem has_congr (d e : PyDict String Val) (k : String) (h : d.get? k = e.get? k) : d.has k = e.has k := by
  unfold PyDict.has; rw [h]

theorem readComponent_strip (E : Env) (v : Val) : readComponent E (stripComponent v) = readComponent E v := by
  cases v with
  | dict d =>
    simp only [stripComponent, readComponent, Val.item, Val.items, bind, Except.bind]
    rw [getItem_congr _ _ _ (get?_keep componentItems d "component_cls" (by decide)), get?_keep componentItems d "file_name" (by decide)]
  | _ => rfl

theorem compLoop_strip (E : Env) (llh : String) (cs : PyDict String Val) :
    compLoop E llh (cs.map (fun e => (e.1, stripComponent e.2))) = compLoop E llh cs := by
  induction cs with
  | nil => rfl
  | cons e cs ih =>
    obtain ⟨k, v⟩ := e
    rw [List.map_cons]
    simp only [compLoop, readComponent_strip, ih]

theorem registerLikelihood_strip (E : Env) (done : List String) (name : String) (v : Val) :
    registerLikelihood E done name (stripLikelihood v) = registerLikelihood E done name v := by
  cases v with
  | dict d =>
    have hg := fun k h1 h2 => get?_stripL d k h1 h2
    simp only [stripLikelihood, registerLikelihood, likelihoodClass, Val.items, readBinned, readLit, quiet, andThen]
    rw [has_congr _ d "name" (hg _ (by decide) (by decide)), has_congr _ d "self" (hg _ (by decide) (by decide)),
      hg "type" (by decide) (by decide), getItem_congr _ d "data_file_name" (hg _ (by decide) (by decide)),
      getItem_congr _ d "bins_type" (hg _ (by decide) (by decide)), getItem_congr _ d "bins_on" (hg _ (by decide) (by decide)),
      getItem_congr _ d "bins" (hg _ (by decide) (by decide)), getItem_congr _ d "logpdf_args" (hg _ (by decide) (by decide)),
      getItem_congr _ d "variable_type" (hg _ (by decide) (by decide)), hg "parameter_alias" (by decide) (by decide),
      hg "clip" (by decide) (by decide), hg "x_clip" (by decide) (by decide), hg "y_clip" (by decide) (by decide),
      hg "integer" (by decide) (by decide), hg "left" (by decide) (by decide)]
  | _ => rfl

theorem item_components_strip (v : Val) :
    ((stripLikelihood v).item "components" >>= Val.items) =
      (v.item "components" >>= Val.items).map (fun cs => cs.map (fun e => (e.1, stripComponent e.2))) := by
  cases v with
  | dict d =>
    simp only [stripLikelihood, Val.item, PyDict.getItem, get?_stripL_comp, bind, Except.bind]
    cases PyDict.get? d "components" with
    | none => rfl
    | some c =>
      cases c <;> rfl
  | _ => rfl

theorem item_copy_strip (v : Val) : (stripLikelihood v).item "copy_parameters" = v.item "copy_parameters" := by
  cases v with
  | dict d => exact getItem_congr _ _ _ (get?_stripL d "copy_parameters" (by decide) (by decide))
  | _ => rfl

theorem likelihoodLoop_strip (E : Env) (done : List String) (ls : PyDict String Val) :
    likelihoodLoop E done (ls.map (fun e => (e.1, stripLikelihood e.2))) = likelihoodLoop E done ls := by
  induction ls generalizing done with
  | nil => rfl
  | cons e ls ih =>
    obtain ⟨name, v⟩ := e
    rw [List.map_cons]
    simp only [likelihoodLoop, registerLikelihood_strip, item_components_strip, ih]
    cases (v.item "components" >>= Val.items) with
    | error x => rfl
    | ok cs =>
      simp only [Except.map, quiet, andThen, compLoop_strip]

theorem parLoop_strip (pc : PyDict String Val) (src rates : List String) (ls : PyDict String Val) :
    parLoop pc src rates (ls.map (fun e => (e.1, stripLikelihood e.2))) = parLoop pc src rates ls := by
  induction ls generalizing pc src rates with
  | nil => rfl
  | cons e ls ih =>
    obtain ⟨name, v⟩ := e
    rw [List.map_cons]
    have hc := item_components_strip v
    simp only [parLoop, item_copy_strip, ih]
    simp only [bind, Except.bind] at hc ⊢
    cases v.item "copy_parameters" with
    | error x => rfl
    | ok c =>
      simp only
      cases c.items with
      | error x => rfl
      | ok cs =>
        simp only
        cases copyLoop pc src cs with
        | error x => rfl
        | ok r =>
          simp only
          cases h1 : (stripLikelihood v).item "components" with
          | error x =>
            rw [h1] at hc
            cases h2 : v.item "components" with
            | error y => rw [h2] at hc; simpa [Except.map] using hc
            | ok y =>
              rw [h2] at hc
              simp only at hc ⊢
              cases h3 : y.items with
              | error z => rw [h3] at hc; simpa [Except.map] using hc
              | ok z => rw [h3] at hc; simp [Except.map] at hc
          | ok x =>
            rw [h1] at hc
            simp only at hc ⊢
            cases h2 : v.item "components" with
            | error y =>
              rw [h2] at hc
              simp only [Except.map] at hc ⊢
              rw [hc]
            | ok y =>
              rw [h2] at hc
              simp only at hc ⊢
              cases h3 : y.items with
              | error z => rw [h3] at hc; simp only [Except.map] at hc; rw [hc]
              | ok z =>
                rw [h3] at hc
                simp only [Except.map] at hc
                rw [hc]
                simp only [PyDict.keys, List.map_map]
                rfl

theorem items_inside (f : Val → Val) (v : Val) : (inside f v).items = v.items.map (fun d => d.map (fun e => (e.1, f e.2))) := by
  cases v <;> rfl

theorem updatePar_strip (pc : PyDict String Val) (v : Val) : updatePar pc (inside stripLikelihood v) = updatePar pc v := by
  cases v with
  | dict d =>
    simp only [inside, updatePar, Val.items, bind, Except.bind, parLoop_strip]
  | _ => rfl

theorem get?_strip (d : PyDict String Val) (k : String) (h : k ∈ topItems) (hk : k ≠ "likelihoods") : (strip d).get? k = d.get? k := by
  unfold strip
  rw [get?_at', if_neg hk, get?_keep _ _ _ h]

theorem get?_strip_llh (d : PyDict String Val) : (strip d).get? "likelihoods" = (d.get? "likelihoods").map (inside stripLikelihood) := by
  unfold strip
  rw [get?_at', if_pos rfl, get?_keep _ _ _ (by decide)]

theorem andThen_ok {α β : Type} (x : Act α) (f : α → Act β) (b : β) :
    (andThen x f).2 = .ok b ↔ ∃ a, x.2 = .ok a ∧ (f a).2 = .ok b := by
  obtain ⟨ev, r⟩ := x
  cases r <;> simp [andThen]

theorem andThen_events {α β : Type} (x : Act α) (f : α → Act β) (a : α) (h : x.2 = .ok a) : (andThen x f).1 = x.1 ++ (f a).1 := by
  obtain ⟨ev, r⟩ := x
  simp only at h
  subst h
  rfl

theorem andThen_error {α β : Type} (x : Act α) (f : α → Act β) (e : PyErr) (h : x.2 = .error e) : andThen x f = (x.1, .error e) := by
  obtain ⟨ev, r⟩ := x
  simp only at h
  subst h
  rfl

theorem andThen_prefix {α β : Type} (x : Act α) (f : α → Act β) : ∃ rest, (andThen x f).1 = x.1 ++ rest := by
  obtain ⟨ev, r⟩ := x
  cases r with
  | error e => exact ⟨[], by simp [andThen]⟩
  | ok a => exact ⟨_, rfl⟩

theorem items_ok (v : Val) (d : PyDict String Val) : v.items = .ok d ↔ v = .dict d := by
  cases v <;> simp [Val.items]

theorem getItem_ok (d : PyDict String Val) (k : String) (v : Val) : d.getItem k = .ok v ↔ d.get? k = some v := by
  unfold PyDict.getItem
  cases d.get? k <;> simp

theorem bind_ok {α β : Type} (x : Res α) (f : α → Res β) (b : β) : (x >>= f) = .ok b ↔ ∃ a, x = .ok a ∧ f a = .ok b := by
  cases x <;> simp [bind, Except.bind]

theorem readBinned_ok (d : PyDict String Val) (it : LItems) : readBinned d = .ok it ↔ ItemsOf d .likelihood it := by
  unfold readBinned
  simp only [bind_ok, getItem_ok, pure, Except.pure]
  constructor
  · rintro ⟨a, h1, b, h2, c, h3, e, h4, h5⟩
    cases h5
    exact .binned h1 h2 h3 h4 rfl rfl rfl rfl rfl rfl
  · rintro ⟨h1, h2, h3, h4, h5, h6, h7, h8, h9, h10⟩
    rename_i b
    exact ⟨_, h1, _, h2, _, h3, _, h4, by rw [← h5, ← h6, ← h7, ← h8, ← h9, ← h10]⟩

theorem readLit_ok (d : PyDict String Val) (it : LItems) : readLit d = .ok it ↔ ItemsOf d .lit it := by
  unfold readLit
  simp only [bind_ok, getItem_ok, pure, Except.pure]
  constructor
  · rintro ⟨a, h1, b, h2, c, h3, h5⟩
    cases h5
    exact .lit h1 h2 h3 rfl
  · rintro ⟨⟩
    rename_i l h1 h2 h3 h4
    exact ⟨_, h1, _, h2, _, h3, by rw [← h4]⟩

theorem readComponent_ok (E : Env) (v : Val) (it : CompItems) : readComponent E v = .ok it ↔ CompOf E v it := by
  constructor
  · intro h
    unfold readComponent at h
    simp only [bind, Except.bind, pure, Except.pure] at h
    cases v with
    | str s =>
      simp only at h
      split at h
      · cases h
      · rename_i x hx
        split at hx
        · cases hx; cases h; exact .name (by assumption)
        · cases hx
    | dict d =>
      simp only [Val.item, Val.items] at h
      cases hc : PyDict.getItem d "component_cls" with
      | error e => rw [hc] at h; cases h
      | ok c =>
        rw [hc] at h
        simp only at h
        split at h
        · cases h
        · rename_i x hx
          split at hx
          · rename_i s
            split at hx
            · cases hx; cases h
              exact .dict ((getItem_ok _ _ _).1 hc) (by assumption) rfl
            · cases hx
          · cases hx
    | _ => cases h
  · rintro (⟨h⟩ | ⟨h1, h2, rfl⟩)
    · simp [readComponent, h, bind, Except.bind, pure, Except.pure]
    · simp [readComponent, Val.item, Val.items, PyDict.getItem, h1, h2, bind, Except.bind, pure, Except.pure]

theorem compLoop_ok (E : Env) (llh : String) (cs : PyDict String Val) (evs : List Event) :
    compLoop E llh cs = (evs, .ok ()) ↔ CompsOf E llh cs evs := by
  unfold CompsOf
  induction cs generalizing evs with
  | nil =>
    simp only [compLoop, quiet, List.forall₂_nil_left_iff, Prod.mk.injEq, and_true]
    exact eq_comm
  | cons c cs ih =>
    obtain ⟨k, v⟩ := c
    rw [List.forall₂_cons_left_iff]
    simp only [compLoop]
    constructor
    · intro h
      cases hr : readComponent E v with
      | error e => rw [hr] at h; cases h
      | ok it =>
        rw [hr] at h
        simp only [quiet, andThen] at h
        cases hc : E.component llh k it with
        | error e => rw [hc] at h; cases h
        | ok u =>
          rw [hc] at h
          simp only [List.nil_append, Prod.mk.injEq] at h
          obtain ⟨h1, h2⟩ := h
          refine ⟨_, _, ⟨it, (readComponent_ok E v it).1 hr, hc, rfl⟩, (ih _).1 (Prod.ext rfl h2), ?_⟩
          rw [← h1]; rfl
    · rintro ⟨e, evs', ⟨it, h1, h2, rfl⟩, h3, rfl⟩
      rw [(readComponent_ok E v it).2 h1]
      have := (ih evs').2 h3
      simp [quiet, andThen, h2, this]

theorem registerLikelihood_ok (E : Env) (done : List String) (name : String) (v : Val) (evs : List Event) :
    registerLikelihood E done name v = (evs, .ok ()) ↔ name ∉ done ∧ ∃ d a it, v = .dict d ∧ "name" ∉ PyDict.keys d ∧ "self" ∉ PyDict.keys d ∧
      ClassOf E d a ∧ ItemsOf d a it ∧ E.likelihood name it = .ok () ∧ evs = [.likelihood name it] := by
  unfold registerLikelihood
  split
  · rename_i h
    simp [quiet, h]
  · rename_i hdone
    simp only [hdone, not_false_eq_true, true_and]
    cases v with
    | dict d =>
      have hcls : ∀ a, likelihoodClass E d = .ok a ↔ ClassOf E d a := by
        intro a
        unfold ClassOf likelihoodClass
        cases PyDict.get? d "type" with
        | none => simp [eq_comm]
        | some t =>
          cases t with
          | str t => cases h : E.apt t <;> simp [h]
          | _ => simp
      simp only [Val.items, quiet, andThen, List.nil_append]
      generalize likelihoodClass E d = r at hcls ⊢
      have hex : (∃ d' a it, Val.dict d = .dict d' ∧ "name" ∉ PyDict.keys d' ∧ "self" ∉ PyDict.keys d' ∧
          ClassOf E d' a ∧ ItemsOf d' a it ∧ E.likelihood name it = .ok () ∧ evs = [.likelihood name it]) ↔
          ∃ a it, "name" ∉ PyDict.keys d ∧ "self" ∉ PyDict.keys d ∧
          ClassOf E d a ∧ ItemsOf d a it ∧ E.likelihood name it = .ok () ∧ evs = [.likelihood name it] := by
        constructor
        · rintro ⟨d', a, it, h, rest⟩; cases h; exact ⟨a, it, rest⟩
        · rintro ⟨a, it, rest⟩; exact ⟨d, a, it, rfl, rest⟩
      rw [hex]
      cases r with
      | error e =>
        constructor
        · intro h; cases h
        · rintro ⟨a, it, _, _, hc, _⟩
          have := (hcls a).2 hc
          cases this
      | ok a =>
        have ha : ClassOf E d a := (hcls a).1 rfl
        have huniq : ∀ b, ClassOf E d b → b = a := by
          intro b hb
          have := (hcls b).2 hb
          cases this
          rfl
        simp only
        by_cases hns : (PyDict.has d "name" || PyDict.has d "self") = true
        · simp only [hns, if_true]
          constructor
          · intro h; cases h
          · rintro ⟨b, it, h1, h2, _⟩
            rw [Bool.or_eq_true, PyDict.has_iff, PyDict.has_iff] at hns
            exact absurd hns (by simp [h1, h2])
        · have hns' : "name" ∉ PyDict.keys d ∧ "self" ∉ PyDict.keys d := by
            rw [Bool.or_eq_true, PyDict.has_iff, PyDict.has_iff, not_or] at hns
            exact hns
          simp only [hns, Bool.false_eq_true, if_false, List.nil_append]
          have main : ∀ (r : Res LItems) , (∀ it, r = .ok it ↔ ItemsOf d a it) →
              ((match (([], r) : Act LItems) with
                | (ev, .error e) => (ev, .error e)
                | (ev, .ok x) => (ev ++ [Event.likelihood name x], E.likelihood name x) : Act Unit) = (evs, .ok ()) ↔
              ∃ b it, "name" ∉ PyDict.keys d ∧ "self" ∉ PyDict.keys d ∧ ClassOf E d b ∧ ItemsOf d b it ∧ E.likelihood name it = .ok () ∧
                evs = [.likelihood name it]) := by
            intro r hr
            cases r with
            | error e =>
              constructor
              · intro h; cases h
              · rintro ⟨b, it, _, _, hb, hi, _⟩
                cases huniq b hb
                have := (hr it).2 hi
                cases this
            | ok it =>
              simp only [List.nil_append, Prod.mk.injEq]
              constructor
              · rintro ⟨h1, h2⟩
                exact ⟨a, it, hns'.1, hns'.2, ha, (hr it).1 rfl, h2, h1.symm⟩
              · rintro ⟨b, it', _, _, hb, hi, h1, h2⟩
                cases huniq b hb
                have := (hr it').2 hi
                cases this
                exact ⟨h2.symm, h1⟩
          cases a with
          | likelihood =>
            have hm := main _ (readBinned_ok d)
            cases hb : readBinned d <;> (rw [hb] at hm; exact hm)
          | lit =>
            have hm := main _ (readLit_ok d)
            cases hb : readLit d <;> (rw [hb] at hm; exact hm)
          | other =>
            constructor
            · intro h; cases h
            · rintro ⟨b, it, _, _, hb, hi, _⟩
              cases huniq b hb
              cases hi
    | _ =>
      simp only [Val.items, quiet, andThen]
      constructor
      · intro h; cases h
      · rintro ⟨d, a, it, h, _⟩; cases h

theorem likelihoodLoop_ok (E : Env) (done : List String) (ls : PyDict String Val) (evs : List Event) :
    likelihoodLoop E done ls = (evs, .ok ()) ↔
      (∀ n ∈ ls.keys, n ∉ done) ∧ ls.keys.Nodup ∧ ∃ evss, List.Forall₂ (LikelihoodOf E) ls evss ∧ evs = evss.flatten := by
  induction ls generalizing done evs with
  | nil =>
    simp only [likelihoodLoop, quiet, List.forall₂_nil_left_iff, Prod.mk.injEq, and_true, PyDict.keys, List.map_nil]
    constructor
    · rintro rfl; exact ⟨by simp, by simp, [], rfl, rfl⟩
    · rintro ⟨_, _, _, rfl, rfl⟩; rfl
  | cons e ls ih =>
    obtain ⟨name, v⟩ := e
    simp only [likelihoodLoop]
    constructor
    · intro h
      cases hr : registerLikelihood E done name v with
      | mk ev r =>
        rw [hr] at h
        cases r with
        | error e => cases h
        | ok u =>
          obtain ⟨h1, d, a, it, rfl, h3, h4, h5, h6, h7, rfl⟩ := (registerLikelihood_ok E done name v ev).1 hr
          simp only [andThen, quiet] at h
          cases hc : (Val.item (.dict d) "components" >>= Val.items) with
          | error e => rw [hc] at h; cases h
          | ok cs =>
            rw [hc] at h
            simp only at h
            cases hcl : compLoop E name cs with
            | mk ev2 r2 =>
              rw [hcl] at h
              cases r2 with
              | error e => cases h
              | ok u =>
                simp only [List.nil_append, Prod.mk.injEq] at h
                obtain ⟨h8, h9⟩ := h
                obtain ⟨g1, g2, evss, g3, g4⟩ := (ih (done ++ [name]) (likelihoodLoop E (done ++ [name]) ls).1).1 (Prod.ext rfl h9)
                have hcs : PyDict.get? d "components" = some (.dict cs) := by
                  rw [bind_ok] at hc
                  obtain ⟨x, hx, hy⟩ := hc
                  rw [items_ok] at hy
                  subst hy
                  exact (getItem_ok _ _ _).1 hx
                refine ⟨?_, ?_, ([.likelihood name it] ++ ev2) :: evss, .cons ⟨d, a, it, cs, ev2, rfl, h3, h4, h5, h6, h7, hcs, (compLoop_ok _ _ _ _).1 hcl, rfl⟩ g3, ?_⟩
                · intro n hn
                  simp only [PyDict.keys, List.map_cons, List.mem_cons] at hn
                  rcases hn with rfl | hn
                  · exact h1
                  · intro hd; exact g1 n hn (List.mem_append_left _ hd)
                · simp only [PyDict.keys, List.map_cons, List.nodup_cons]
                  refine ⟨?_, g2⟩
                  intro hn
                  exact g1 name hn (by simp)
                · rw [← h8, g4]; simp
    · rintro ⟨h1, h2, evss, h3, rfl⟩
      rw [List.forall₂_cons_left_iff] at h3
      obtain ⟨ev, evss', ⟨d, a, it, cs, evc, hv, c1, c2, c3, c4, c5, c6, c7, rfl⟩, h4, rfl⟩ := h3
      simp only at hv
      subst hv
      simp only [PyDict.keys, List.map_cons, List.nodup_cons, List.mem_cons, forall_eq_or_imp] at h1 h2
      rw [(registerLikelihood_ok E done name _ [.likelihood name it]).2 ⟨h1.1, d, a, it, rfl, c1, c2, c3, c4, c5, rfl⟩]
      have hc : (Val.item (.dict d) "components" >>= Val.items) = .ok cs := by
        rw [bind_ok]
        exact ⟨.dict cs, (getItem_ok _ _ _).2 c6, rfl⟩
      have hl := (ih (done ++ [name]) evss'.flatten).2 ⟨by
        intro n hn hd
        rcases List.mem_append.1 hd with hd | hd
        · exact h1.2 n hn hd
        · rw [List.mem_singleton] at hd
          subst hd
          exact h2.1 hn, h2.2, evss', h4, rfl⟩
      simp only [andThen, quiet, hc, (compLoop_ok E name cs evc).2 c7, hl]
      simp

theorem andThen_eq_ok {α β : Type} (x : Act α) (f : α → Act β) (evs : List Event) (b : β) :
    andThen x f = (evs, .ok b) ↔ ∃ e1 a e2, x = (e1, .ok a) ∧ f a = (e2, .ok b) ∧ evs = e1 ++ e2 := by
  obtain ⟨ev, r⟩ := x
  cases r with
  | error e => simp [andThen]
  | ok a =>
    simp only [andThen, Prod.mk.injEq, Except.ok.injEq]
    constructor
    · rintro ⟨h1, h2⟩
      exact ⟨ev, a, (f a).1, ⟨rfl, rfl⟩, Prod.ext rfl h2, h1.symm⟩
    · rintro ⟨e1, a', e2, ⟨rfl, rfl⟩, h2, rfl⟩
      rw [h2]
      exact ⟨rfl, rfl⟩

theorem quiet_eq_ok {α : Type} (r : Res α) (evs : List Event) (a : α) : quiet r = (evs, .ok a) ↔ r = .ok a ∧ evs = [] := by
  unfold quiet
  rw [Prod.mk.injEq]
  constructor
  · rintro ⟨h1, h2⟩; exact ⟨h2, h1.symm⟩
  · rintro ⟨h1, h2⟩; exact ⟨h2.symm, h1⟩

theorem readOptions_ok (E : Env) (d cfg : PyDict String Val) (evs : List Event) :
    readOptions E d = (evs, .ok cfg) ↔ OptionsOf E d cfg evs := by
  have hc : ∀ c, ((d.get? "configs").getD (.dict [])).items = .ok c ↔ ((d.get? "configs" = none ∧ c = []) ∨ d.get? "configs" = some (.dict c)) := by
    intro c
    rw [items_ok]
    cases d.get? "configs" <;> simp [eq_comm]
  unfold readOptions OptionsOf
  simp only [andThen_eq_ok, quiet_eq_ok, hc]
  constructor
  · rintro ⟨e1, u, e2, h1, ⟨e3, c, e4, ⟨h2, rfl⟩, ⟨e5, v, e6, h3, ⟨h4, rfl⟩, rfl⟩, rfl⟩, rfl⟩
    cases h4
    rw [Prod.mk.injEq] at h3
    obtain ⟨rfl, h3⟩ := h3
    refine ⟨e1, ?_, h2, h3, by simp⟩
    cases hu : d.get? "url_base" with
    | none =>
      rw [hu] at h1
      exact Or.inl ⟨rfl, ((quiet_eq_ok _ _ _).1 h1).2⟩
    | some v =>
      rw [hu] at h1
      simp only [Prod.mk.injEq] at h1
      exact Or.inr ⟨v, rfl, h1.2, h1.1.symm⟩
  · rintro ⟨u, hu, h2, h3, rfl⟩
    refine ⟨u, (), [.options cfg], ?_, ⟨[], cfg, _, ⟨h2, rfl⟩, ⟨[.options cfg], (), [], by rw [h3], ⟨rfl, rfl⟩, rfl⟩, rfl⟩, rfl⟩
    rcases hu with ⟨hu, rfl⟩ | ⟨v, hu, hs, rfl⟩
    · rw [hu]; rfl
    · rw [hu]; simp only [hs]

theorem readPar_ok (E : Env) (d : PyDict String Val) (arg : Option (PyDict String Val)) (pc : PyDict String Val) (evs : List Event) :
    readPar E d arg = (evs, .ok pc) ↔ ParOf E d arg pc evs := by
  unfold readPar ParOf
  cases arg with
  | some a => simp [quiet_eq_ok]
  | none =>
    simp only [andThen_eq_ok, quiet_eq_ok, getItem_ok, items_ok, Prod.mk.injEq]
    constructor
    · rintro ⟨e1, p, e2, ⟨h1, rfl⟩, ⟨e3, v, e4, ⟨rfl, h2⟩, ⟨rfl, rfl⟩, rfl⟩, rfl⟩
      exact Or.inr ⟨trivial, p, h1, h2, rfl⟩
    · rintro (⟨h, _⟩ | ⟨_, p, h1, h2, rfl⟩)
      · cases h
      · exact ⟨[], p, [.file p], ⟨h1, rfl⟩, ⟨[.file p], _, [], ⟨rfl, h2⟩, ⟨rfl, rfl⟩, rfl⟩, rfl⟩

theorem get?_map (f : Val → Val) (d : PyDict String Val) (k : String) (hk : k ≠ "components") :
    (at' "components" (inside f) d).get? k = d.get? k := by
  rw [get?_at', if_neg hk]

theorem get?_map_comp (f : Val → Val) (d : PyDict String Val) :
    (at' "components" (inside f) d).get? "components" = (d.get? "components").map (inside f) := by
  rw [get?_at', if_pos rfl]

theorem compLoop_map (f : Val → Val) (E : Env) (hf : ∀ v, readComponent E (f v) = readComponent E v) (llh : String) (cs : PyDict String Val) :
    compLoop E llh (cs.map (fun e => (e.1, f e.2))) = compLoop E llh cs := by
  induction cs with
  | nil => rfl
  | cons e cs ih =>
    obtain ⟨k, v⟩ := e
    rw [List.map_cons]
    simp only [compLoop, hf, ih]

theorem registerLikelihood_map (f : Val → Val) (E : Env) (done : List String) (name : String) (v : Val) :
    registerLikelihood E done name (mapComps f v) = registerLikelihood E done name v := by
  cases v with
  | dict d =>
    have hg := fun k h => get?_map f d k h
    simp only [mapComps, registerLikelihood, likelihoodClass, Val.items, readBinned, readLit, quiet, andThen]
    rw [has_congr _ d "name" (hg _ (by decide)), has_congr _ d "self" (hg _ (by decide)),
      hg "type" (by decide), getItem_congr _ d "data_file_name" (hg _ (by decide)),
      getItem_congr _ d "bins_type" (hg _ (by decide)), getItem_congr _ d "bins_on" (hg _ (by decide)),
      getItem_congr _ d "bins" (hg _ (by decide)), getItem_congr _ d "logpdf_args" (hg _ (by decide)),
      getItem_congr _ d "variable_type" (hg _ (by decide)), hg "parameter_alias" (by decide),
      hg "clip" (by decide), hg "x_clip" (by decide), hg "y_clip" (by decide),
      hg "integer" (by decide), hg "left" (by decide)]
  | _ => rfl

theorem item_components_map (f : Val → Val) (v : Val) :
    ((mapComps f v).item "components" >>= Val.items) =
      (v.item "components" >>= Val.items).map (fun cs => cs.map (fun e => (e.1, f e.2))) := by
  cases v with
  | dict d =>
    simp only [mapComps, Val.item, PyDict.getItem, get?_map_comp, bind, Except.bind]
    cases PyDict.get? d "components" with
    | none => rfl
    | some c =>
      cases c <;> rfl
  | _ => rfl

theorem item_copy_map (f : Val → Val) (v : Val) : (mapComps f v).item "copy_parameters" = v.item "copy_parameters" := by
  cases v with
  | dict d => exact getItem_congr _ _ _ (get?_map f d "copy_parameters" (by decide))
  | _ => rfl

theorem likelihoodLoop_map (f : Val → Val) (E : Env) (hf : ∀ v, readComponent E (f v) = readComponent E v) (done : List String) (ls : PyDict String Val) :
    likelihoodLoop E done (ls.map (fun e => (e.1, mapComps f e.2))) = likelihoodLoop E done ls := by
  induction ls generalizing done with
  | nil => rfl
  | cons e ls ih =>
    obtain ⟨name, v⟩ := e
    rw [List.map_cons]
    simp only [likelihoodLoop, registerLikelihood_map, item_components_map, ih]
    cases (v.item "components" >>= Val.items) with
    | error x => rfl
    | ok cs =>
      simp only [Except.map, quiet, andThen, compLoop_map f E hf]

theorem parLoop_map (f : Val → Val) (pc : PyDict String Val) (src rates : List String) (ls : PyDict String Val) :
    parLoop pc src rates (ls.map (fun e => (e.1, mapComps f e.2))) = parLoop pc src rates ls := by
  induction ls generalizing pc src rates with
  | nil => rfl
  | cons e ls ih =>
    obtain ⟨name, v⟩ := e
    rw [List.map_cons]
    have hc := item_components_map f v
    simp only [parLoop, item_copy_map, ih]
    simp only [bind, Except.bind] at hc ⊢
    cases v.item "copy_parameters" with
    | error x => rfl
    | ok c =>
      simp only
      cases c.items with
      | error x => rfl
      | ok cs =>
        simp only
        cases copyLoop pc src cs with
        | error x => rfl
        | ok r =>
          simp only
          cases h1 : (mapComps f v).item "components" with
          | error x =>
            rw [h1] at hc
            cases h2 : v.item "components" with
            | error y => rw [h2] at hc; simpa [Except.map] using hc
            | ok y =>
              rw [h2] at hc
              simp only at hc ⊢
              cases h3 : y.items with
              | error z => rw [h3] at hc; simpa [Except.map] using hc
              | ok z => rw [h3] at hc; simp [Except.map] at hc
          | ok x =>
            rw [h1] at hc
            simp only at hc ⊢
            cases h2 : v.item "components" with
            | error y =>
              rw [h2] at hc
              simp only [Except.map] at hc ⊢
              rw [hc]
            | ok y =>
              rw [h2] at hc
              simp only at hc ⊢
              cases h3 : y.items with
              | error z => rw [h3] at hc; simp only [Except.map] at hc; rw [hc]
              | ok z =>
                rw [h3] at hc
                simp only [Except.map] at hc
                rw [hc]
                simp only [PyDict.keys, List.map_map]
                rfl

theorem updatePar_map (f : Val → Val) (pc : PyDict String Val) (v : Val) : updatePar pc (inside (mapComps f) v) = updatePar pc v := by
  cases v with
  | dict d =>
    simp only [inside, updatePar, Val.items, bind, Except.bind, parLoop_map]
  | _ => rfl

theorem readComponent_expand (E : Env) (v : Val) : readComponent E (expand v) = readComponent E v := by
  cases v with
  | str s =>
    simp only [expand, readComponent, Val.item, Val.items, PyDict.getItem, PyDict.get?, if_true, bind, Except.bind, pure, Except.pure]
    rfl
  | _ => rfl

theorem likelihoodLoop_append (E : Env) (done : List String) (pre rest : PyDict String Val) (evss : List (List Event))
    (h1 : ∀ n ∈ pre.keys, n ∉ done) (h2 : pre.keys.Nodup) (h3 : List.Forall₂ (LikelihoodOf E) pre evss) :
    likelihoodLoop E done (pre ++ rest) =
      (evss.flatten ++ (likelihoodLoop E (done ++ pre.keys) rest).1, (likelihoodLoop E (done ++ pre.keys) rest).2) := by
  induction pre generalizing done evss with
  | nil =>
    rw [List.forall₂_nil_left_iff] at h3
    subst h3
    simp [PyDict.keys]
  | cons e ls ih =>
    obtain ⟨name, v⟩ := e
    rw [List.forall₂_cons_left_iff] at h3
    obtain ⟨ev, evss', ⟨d, a, it, cs, evc, hv, c1, c2, c3, c4, c5, c6, c7, rfl⟩, h4, rfl⟩ := h3
    simp only at hv
    subst hv
    simp only [PyDict.keys, List.map_cons, List.nodup_cons, List.mem_cons, forall_eq_or_imp] at h1 h2
    have hr := (registerLikelihood_ok E done name _ [.likelihood name it]).2 ⟨h1.1, d, a, it, rfl, c1, c2, c3, c4, c5, rfl⟩
    have hc : (Val.item (.dict d) "components" >>= Val.items) = .ok cs := by
      rw [bind_ok]
      exact ⟨.dict cs, (getItem_ok _ _ _).2 c6, rfl⟩
    have hl := ih (done ++ [name]) evss' (by
      intro n hn hd
      rcases List.mem_append.1 hd with hd | hd
      · exact h1.2 n hn hd
      · rw [List.mem_singleton] at hd
        subst hd
        exact h2.1 hn) h2.2 h4
    rw [List.cons_append]
    simp only [likelihoodLoop, hr]
    simp only [andThen, quiet, hc, (compLoop_ok E name cs evc).2 c7, hl]
    simp [PyDict.keys]

theorem compLoop_append (E : Env) (llh : String) (pre rest : PyDict String Val) (evs : List Event) (h : CompsOf E llh pre evs) :
    compLoop E llh (pre ++ rest) = (evs ++ (compLoop E llh rest).1, (compLoop E llh rest).2) := by
  unfold CompsOf at h
  induction pre generalizing evs with
  | nil =>
    rw [List.forall₂_nil_left_iff] at h
    subst h
    simp
  | cons c cs ih =>
    obtain ⟨k, v⟩ := c
    rw [List.forall₂_cons_left_iff] at h
    obtain ⟨e, evs', ⟨it, h1, h2, rfl⟩, h3, rfl⟩ := h
    rw [List.cons_append]
    have := ih evs' h3
    simp [compLoop, (readComponent_ok E v it).2 h1, quiet, andThen, h2, this]

theorem get?_none (d : PyDict String Val) (k : String) (h : k ∉ d.keys) : d.get? k = none := by
  cases hg : d.get? k with
  | none => rfl
  | some v =>
    have : d.has k = true := by unfold PyDict.has; rw [hg]; rfl
    exact absurd ((PyDict.has_iff _ _).1 this) h

theorem likelihoodClass_ok (E : Env) (d : PyDict String Val) (a : Attr) : likelihoodClass E d = .ok a ↔ ClassOf E d a := by
  unfold ClassOf likelihoodClass
  cases PyDict.get? d "type" with
  | none => simp [eq_comm]
  | some t =>
    cases t with
    | str t => cases h : E.apt t <;> simp [h]
    | _ => simp

theorem registerLikelihood_refused (E : Env) (done : List String) (name : String) (d : PyDict String Val) (e : PyErr) (hn : name ∉ done)
    (h : Refused E d e) : registerLikelihood E done name (.dict d) = ([], .error e) := by
  unfold registerLikelihood
  rw [if_neg hn]
  simp only [Val.items, quiet, andThen, List.nil_append]
  have hself : ∀ {k}, k ∉ d.keys → d.has k = false := by
    intro k hk
    cases hb : d.has k with
    | false => rfl
    | true => exact absurd ((PyDict.has_iff _ _).1 hb) hk
  cases h with
  | unknownType h1 h2 => simp [likelihoodClass, h1, h2]
  | ownName h1 h2 => simp [(likelihoodClass_ok _ _ _).2 h1, (PyDict.has_iff _ _).2 h2]
  | notLikelihood h1 => simp [(likelihoodClass_ok _ _ _).2 h1]
  | binned h1 h2 h3 h4 =>
    obtain ⟨k, hk, hk'⟩ := h4
    have hg := get?_none d k hk'
    rw [(likelihoodClass_ok _ _ _).2 h1]
    simp only [hself h2, hself h3, Bool.or_false, Bool.false_eq_true, if_false]
    have : readBinned d = .error .keyError := by
      simp only [readBinned, PyDict.getItem, bind, Except.bind]
      simp only [List.mem_cons, List.not_mem_nil, or_false] at hk
      rcases hk with rfl | rfl | rfl | rfl <;>
        (cases h5 : d.get? "data_file_name" <;> cases h6 : d.get? "bins_type" <;> cases h7 : d.get? "bins_on" <;> cases h8 : d.get? "bins" <;>
          first | rfl | (rw [hg] at *; contradiction))
    rw [this]
    rfl
  | lit h1 h2 h3 h4 =>
    obtain ⟨k, hk, hk'⟩ := h4
    have hg := get?_none d k hk'
    rw [(likelihoodClass_ok _ _ _).2 h1]
    simp only [hself h2, hself h3, Bool.or_false, Bool.false_eq_true, if_false]
    have : readLit d = .error .keyError := by
      simp only [readLit, PyDict.getItem, bind, Except.bind]
      simp only [List.mem_cons, List.not_mem_nil, or_false] at hk
      rcases hk with rfl | rfl | rfl <;>
        (cases h5 : d.get? "bins_on" <;> cases h6 : d.get? "logpdf_args" <;> cases h7 : d.get? "variable_type" <;>
          first | rfl | (rw [hg] at *; contradiction))
    rw [this]
    rfl

theorem readComponent_refused (E : Env) (v : Val) (e : PyErr) (h : CompRefused E v e) : readComponent E v = .error e := by
  cases h with
  | name h => simp [readComponent, h, bind, Except.bind]
  | noClass h => simp [readComponent, Val.item, PyDict.getItem, get?_none _ _ h, bind, Except.bind]
  | unknown h1 h2 => simp [readComponent, Val.item, PyDict.getItem, h1, h2, bind, Except.bind]
  | null => rfl
  | list => rfl

theorem parLoop_append (pc : PyDict String Val) (src rates : List String) (pre rest : PyDict String Val) :
    parLoop pc src rates (pre ++ rest) = (parLoop pc src rates pre >>= fun x => parLoop x.1 x.2.1 x.2.2 rest) := by
  induction pre generalizing pc src rates with
  | nil => rfl
  | cons e ls ih =>
    obtain ⟨name, v⟩ := e
    rw [List.cons_append]
    simp only [parLoop, ih, bind, Except.bind]
    repeat' split
    all_goals first | rfl | simp_all

theorem copyLoop_ctx (cs : List (String × String)) : ∀ (st : Ctx.CopyState Val),
    copyLoop st.parConfig st.sources (cs.map (fun c => (c.1, .str c.2))) =
      (Ctx.copyLoop cs st).map (fun s => (s.parConfig, s.sources)) ∧ ∀ s, Ctx.copyLoop cs st = .ok s → s.rates = st.rates := by
  induction cs with
  | nil => intro st; exact ⟨rfl, by rintro s h; cases h; rfl⟩
  | cons c cs ih =>
    intro st
    simp only [List.map_cons, copyLoop, Ctx.copyLoop, lookup, PyDict.getItem]
    generalize hg : PyDict.get? st.parConfig c.2 = g
    cases g with
    | none => exact ⟨rfl, by rintro s h; cases h⟩
    | some x => exact ih ⟨st.parConfig.set c.1 x, if c.1 ∈ st.needed then st.needed else st.needed ++ [c.1], st.rates, st.sources ++ [c.2]⟩

theorem parLoop_ctx (ls : List (String × Val)) (is : List Ctx.CopyInstr) (h : List.Forall₂ CopiesOf ls is) : ∀ (st : Ctx.CopyState Val),
    parLoop st.parConfig st.sources st.rates ls =
      (Ctx.likelihoodLoop is st).map (fun s => (s.parConfig, s.sources, s.rates)) := by
  induction h with
  | nil => intro st; rfl
  | @cons e i ls is he _ ih =>
    intro st
    obtain ⟨d, cs, comps, h1, h2, h3, h4, h5⟩ := he
    obtain ⟨n, v⟩ := e
    subst h1
    obtain ⟨hc, hr⟩ := copyLoop_ctx cs st
    simp only [parLoop, Ctx.likelihoodLoop, Val.item, PyDict.getItem, h2, h3, h4, h5, Val.items, bind, Except.bind, hc]
    cases hx : Ctx.copyLoop cs st with
    | error e => rfl
    | ok s =>
      simp only [Except.map]
      rw [← hr s hx]
      exact ih { s with rates := s.rates ++ (PyDict.keys comps).map (fun k => k ++ "_rate") }

end Verif.Instr
