/-
Helper lemmas about the profiler: its loop is the loop of the generated code with every call repeated.
-/
import Verif.Model.Profiler
import Verif.Spec.Profiler
import Verif.Lemmas.Codegen
import Verif.Spec.Eval

namespace Verif.Comp
open Verif

section
variable {K V : Type}

/-- `n + 1` calls as a plugin function. -/
def repeatSem (sem : Plugin → K → List V → Res (K × List V)) : Nat → Plugin → K → List V → Res (K × List V)
  | 0, p, k, args => sem p k args
  | n + 1, p, k, args => match sem p k args with
    | .error e => .error e
    | .ok (k', _) => repeatSem sem n p k' args

theorem profileRuns_add (sem : Plugin → K → List V → Res (K × List V)) (p : Plugin) (args : List V)
    (m n : Nat) (s : K × Option (List V)) :
    (profileRuns sem p args m s).bind (profileRuns sem p args n) = profileRuns sem p args (m + n) s := by
  induction m generalizing s with
  | zero => simp [profileRuns, Except.bind]
  | succ m ih =>
    rw [Nat.succ_add]
    simp only [profileRuns]
    cases sem p s.1 args with
    | error e => rfl
    | ok r => exact ih _

theorem profileRuns_succ (sem : Plugin → K → List V → Res (K × List V)) (p : Plugin) (args : List V)
    (n : Nat) (k : K) (o : Option (List V)) :
    profileRuns sem p args (n + 1) (k, o) =
      (repeatSem sem n p k args).map (fun r => (r.1, some r.2)) := by
  induction n generalizing k o with
  | zero => simp only [profileRuns, repeatSem]; cases sem p k args <;> rfl
  | succ n ih =>
    rw [profileRuns, repeatSem]
    cases sem p k args with
    | error e => rfl
    | ok r => exact ih _ _

theorem collect_ok (ds : List String) (vs : List V) (acc : PyDict String V) (h : vs.length = ds.length) :
    collect ds (some vs) acc = .ok (acc.update (ds.zip vs)) := by
  induction ds generalizing vs acc with
  | nil => simp [collect]
  | cons d ds ih =>
    cases vs with
    | nil => simp at h
    | cons v vs =>
      simp only [collect, List.zip_cons_cons, PyDict.update_cons]
      exact ih vs _ (by simpa using h)

theorem repeatSem_called (sem : Plugin → K → List V → Res (K × List V)) (p : Plugin) (args : List V) (n : Nat)
    (k k' : K) (outs : List V) (h : repeatSem sem n p k args = .ok (k', outs)) :
    CalledTimes sem p args (n + 1) k k' outs := by
  induction n generalizing k with
  | zero => exact .once h
  | succ n ih =>
    rw [repeatSem] at h
    cases hs : sem p k args with
    | error e => rw [hs] at h; cases h
    | ok r => rw [hs] at h; exact .more hs (ih _ h)

theorem repeatSem_ok (sem : Plugin → K → List V → Res (K × List V)) (p : Plugin) (args : List V) (m : Nat)
    (hsem : ∀ k, ∃ k' outs, sem p k args = .ok (k', outs) ∧ outs.length = m) (n : Nat) (k : K) :
    ∃ k' outs, repeatSem sem n p k args = .ok (k', outs) ∧ outs.length = m := by
  induction n generalizing k with
  | zero => exact hsem k
  | succ n ih =>
    obtain ⟨k', outs, h1, _⟩ := hsem k
    rw [repeatSem, h1]
    exact ih k'

theorem evaluates_times (sem : Plugin → K → List V → Res (K × List V)) (n : Nat) (needed : String → Prop)
    (val : String → V) (ws : List Plugin) (k k' : K)
    (h : Evaluates (repeatSem sem n) needed val ws k k') :
    EvaluatesTimes sem (n + 1) needed val ws k k' := by
  induction h with
  | nil => exact .nil
  | cons h1 h2 _ ih => exact .cons (repeatSem_called _ _ _ _ _ _ _ h1) h2 ih

/-- The data store after a successful line of the generated code is that of the profiler. -/
theorem profileWork_eq (reg : Registry) (inst : PyDict String Plugin)
    (sem : Plugin → K → List V → Res (K × List V)) (warmup runs n : Nat) (hn : warmup + runs = n + 1)
    (p : Plugin) (hinst : inst.get? p.name = some p)
    (hfirst : ∀ d, p.provides.head? = some d → reg.get? d = some p)
    (hne : p.dependsOn ≠ [] ∧ p.provides ≠ []) (hnd : p.provides.Nodup)
    (key : K) (store : PyDict String V) (lines : List ProfileLine) (s' : K × PyDict String V)
    (h : runWork inst (repeatSem sem n) (Work.ofPlugin p) (key, store) = .ok s') :
    profileWork reg sem warmup runs (key, store, lines) (Work.ofPlugin p)
      = .ok (s'.1, s'.2, lines ++ [⟨p.name, p.provides, p.dependsOn⟩]) := by
  obtain ⟨h1, h2⟩ := hne
  unfold runWork at h
  simp only [Work.ofPlugin, hinst, bind, Except.bind] at h
  cases hargs : p.dependsOn.mapM (readVar store) with
  | error e => rw [hargs] at h; cases h
  | ok args =>
    rw [hargs] at h
    simp only at h
    have hargs' : p.dependsOn.mapM (readData store) = .ok args := by
      rw [mapM_ok_iff] at hargs ⊢
      refine hargs.imp ?_
      intro d v hv
      unfold readVar at hv
      unfold readData PyDict.getItem
      cases hg : store.get? d with
      | none => rw [hg] at hv; cases hv
      | some w => rw [hg] at hv; exact hv
    cases hs : repeatSem sem n p key args with
    | error e => rw [hs] at h; cases h
    | ok r =>
      obtain ⟨k', outs⟩ := r
      rw [hs] at h
      simp only at h
      change (if outs.length = p.provides.length then (Except.ok (k', store.update (p.provides.zip outs)) : Res _)
        else Except.error PyErr.valueError) = Except.ok s' at h
      by_cases hlen : outs.length = p.provides.length
      · rw [if_pos hlen] at h
        cases h
        have hruns : (profileRuns sem p args warmup (key, none)).bind (profileRuns sem p args runs)
            = .ok (k', some outs) := by
          rw [profileRuns_add, hn, profileRuns_succ, hs]; rfl
        have hplug : profilePlugin sem warmup runs p key store = .ok (k', p.provides.zip outs) := by
          unfold profilePlugin
          simp only [hargs', bind, Except.bind]
          cases hw : profileRuns sem p args warmup (key, none) with
          | error e => rw [hw] at hruns; cases hruns
          | ok s =>
            rw [hw] at hruns
            simp only [Except.bind] at hruns
            simp only [hruns]
            rw [collect_ok _ _ _ hlen]
            have : PyDict.update [] (p.provides.zip outs) = p.provides.zip outs := by
              apply PyDict.ofList_of_nodup
              rw [List.map_fst_zip (by omega)]; exact hnd
            rw [this]; rfl
        unfold profileWork
        simp only [Work.ofPlugin]
        cases hp : p.provides with
        | nil => exact absurd hp h2
        | cons d ds =>
          have hg : reg.getItem d = .ok p := by
            unfold PyDict.getItem
            rw [hfirst d (by rw [hp]; rfl)]
          simp only [bind, Except.bind, hg]
          rw [if_neg (by simp [h1, h2])]
          rw [hplug]
          simp [pure, Except.pure, hp]
      · rw [if_neg hlen] at h; cases h

theorem profile_fold (reg : Registry) (inst : PyDict String Plugin)
    (sem : Plugin → K → List V → Res (K × List V)) (warmup runs n : Nat) (hn : warmup + runs = n + 1)
    (ws : List Plugin) (hinst : ∀ p ∈ ws, inst.get? p.name = some p)
    (hfirst : ∀ p ∈ ws, ∀ d, p.provides.head? = some d → reg.get? d = some p)
    (hne : ∀ p ∈ ws, p.dependsOn ≠ [] ∧ p.provides ≠ []) (hnd : ∀ p ∈ ws, p.provides.Nodup)
    (key : K) (store : PyDict String V) (lines : List ProfileLine) (s' : K × PyDict String V)
    (h : runWorks inst (repeatSem sem n) (ws.map Work.ofPlugin) (key, store) = .ok s') :
    (ws.map Work.ofPlugin).foldlM (profileWork reg sem warmup runs) (key, store, lines)
      = .ok (s'.1, s'.2, lines ++ ws.map (fun p => ⟨p.name, p.provides, p.dependsOn⟩)) := by
  induction ws generalizing key store lines with
  | nil =>
    simp only [runWorks, List.map_nil, List.foldlM_nil] at h
    cases h; simp [pure, Except.pure]
  | cons p ws ih =>
    simp only [runWorks, List.map_cons, List.foldlM_cons] at h ⊢
    cases hr : runWork inst (repeatSem sem n) (Work.ofPlugin p) (key, store) with
    | error e => rw [hr] at h; cases h
    | ok s =>
      rw [hr] at h
      rw [profileWork_eq reg inst sem warmup runs n hn p (hinst p (by simp)) (hfirst p (by simp))
        (hne p (by simp)) (hnd p (by simp)) key store lines s hr]
      have := ih (fun q hq => hinst q (by simp [hq])) (fun q hq => hfirst q (by simp [hq]))
        (fun q hq => hne q (by simp [hq])) (fun q hq => hnd q (by simp [hq])) s.1 s.2
        (lines ++ [⟨p.name, p.provides, p.dependsOn⟩]) h
      simp only [bind, Except.bind]
      rw [this]; simp

end

theorem profileContext_eq {R : Type} (llhs : List (String × List (String × Option (Res R))))
    (hok : ∀ l ∈ llhs, ∀ c ∈ l.2, ∀ e, c.2 ≠ some (.error e)) :
    profileContext llhs = .ok (PyDict.ofList ((profiled llhs).map (fun x => (x.1.1 ++ "/" ++ x.1.2, x.2)))) := by
  have inner : ∀ (n : String) (cs : List (String × Option (Res R))) (acc : PyDict String R),
      (∀ c ∈ cs, ∀ e, c.2 ≠ some (.error e)) →
      cs.foldlM (fun acc c => match c.2 with
        | none => (.ok acc : Res _)
        | some (.error e) => .error e
        | some (.ok r) => .ok (acc.set (n ++ "/" ++ c.1) r)) acc
      = .ok (acc.update ((cs.filterMap (fun c => match c.2 with
          | some (.ok r) => some ((n, c.1), r)
          | _ => none)).map (fun x : (String × String) × R => (x.1.1 ++ "/" ++ x.1.2, x.2)))) := by
    intro n cs
    induction cs with
    | nil => intro acc _; rfl
    | cons c cs ih =>
      intro acc h
      obtain ⟨cn, o⟩ := c
      rw [List.foldlM_cons]
      match o with
      | none => exact ih acc (fun c hc => h c (by simp [hc]))
      | some (.error e) => exact absurd rfl (h (cn, some (.error e)) (by simp) e)
      | some (.ok r) => exact ih _ (fun c hc => h c (by simp [hc]))
  have outer : ∀ (ls : List (String × List (String × Option (Res R)))) (acc : PyDict String R),
      (∀ l ∈ ls, ∀ c ∈ l.2, ∀ e, c.2 ≠ some (.error e)) →
      ls.foldlM (fun acc l => l.2.foldlM (fun acc c => match c.2 with
        | none => (.ok acc : Res _)
        | some (.error e) => .error e
        | some (.ok r) => .ok (acc.set (l.1 ++ "/" ++ c.1) r)) acc) acc
      = .ok (acc.update ((profiled ls).map (fun x => (x.1.1 ++ "/" ++ x.1.2, x.2)))) := by
    intro ls
    induction ls with
    | nil => intro acc _; rfl
    | cons l ls ih =>
      intro acc h
      rw [List.foldlM_cons, inner l.1 l.2 acc (h l (by simp))]
      simp only [bind, Except.bind]
      rw [ih _ (fun l' hl => h l' (by simp [hl]))]
      congr 1
      rw [profiled, profiled, List.flatMap_cons, List.map_append, PyDict.update_append]
      rfl
  exact outer llhs [] hok

/-- A name without a slash is determined by the key `name/rest`, and so is the rest. -/
theorem key_injective (a b c d : String) (ha : '/' ∉ a.toList) (hb : '/' ∉ b.toList)
    (h : a ++ "/" ++ c = b ++ "/" ++ d) : a = b ∧ c = d := by
  have h' : a.toList ++ '/' :: c.toList = b.toList ++ '/' :: d.toList := by
    have := congrArg String.toList h
    simpa using this
  have gen : ∀ (x y u v : List Char), '/' ∉ x → '/' ∉ y → x ++ '/' :: u = y ++ '/' :: v → x = y ∧ u = v := by
    intro x
    induction x with
    | nil =>
      intro y u v _ hy he
      cases y with
      | nil => simpa using he
      | cons z y => simp at he; exact absurd (List.mem_cons.2 (Or.inl he.1)) hy
    | cons z x ih =>
      intro y u v hx hy he
      cases y with
      | nil => simp at he; exact absurd (List.mem_cons.2 (Or.inl he.1.symm)) hx
      | cons w y =>
        simp only [List.cons_append, List.cons.injEq] at he
        obtain ⟨h1, h2⟩ := ih y u v (fun hh => hx (by simp [hh])) (fun hh => hy (by simp [hh])) he.2
        exact ⟨by rw [he.1, h1], h2⟩
  obtain ⟨h1, h2⟩ := gen _ _ _ _ ha hb h'
  exact ⟨String.toList_inj.1 h1, String.toList_inj.1 h2⟩

end Verif.Comp
