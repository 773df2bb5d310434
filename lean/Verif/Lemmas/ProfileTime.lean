/-
Helper lemmas on the timings of the profiler.
-/
import Verif.Spec.ProfileTime
import Mathlib.Tactic.Linarith
import Mathlib.Tactic.Ring

namespace Verif.Prof
open Verif Verif.Comp

section
variable {K V O : Type}

theorem durations_succ (clock : Nat → ℝ) (r n : Nat) :
    durations clock r (n + 1) = (clock (r + 1) - clock r) * 1000 :: durations clock (r + 2) n := by
  unfold durations
  rw [List.range_succ_eq_map, List.map_cons, List.map_map]
  congr 1
  apply List.map_congr_left
  intro i _
  simp only [Function.comp_apply, Nat.succ_eq_add_one]
  congr 2 <;> congr 1 <;> ring

theorem warmup_reads (step : K → Res (K × O)) (n : Nat) (s t : Run K O) (h : warmupRuns step n s = .ok t) :
    t.reads = s.reads ∧ t.times = s.times := by
  induction n generalizing s with
  | zero => rw [warmupRuns] at h; cases h; exact ⟨rfl, rfl⟩
  | succ n ih =>
    rw [warmupRuns] at h
    cases hx : step s.key with
    | error e => rw [hx] at h; cases h
    | ok r => rw [hx] at h; exact ih { s with key := r.1, out := some r.2 } h

theorem timed_reads (clock : Nat → ℝ) (step : K → Res (K × O)) (n : Nat) (s t : Run K O) (h : timedRuns clock step n s = .ok t) :
    t.reads = s.reads + 2 * n ∧ t.times = s.times ++ durations clock s.reads n := by
  induction n generalizing s with
  | zero => rw [timedRuns] at h; cases h; exact ⟨rfl, by simp [durations]⟩
  | succ n ih =>
    rw [timedRuns] at h
    cases hx : step s.key with
    | error e => rw [hx] at h; cases h
    | ok r =>
      rw [hx] at h
      obtain ⟨h1, h2⟩ := ih _ h
      refine ⟨by rw [h1]; simp only; omega, ?_⟩
      rw [h2, durations_succ, List.append_assoc]
      rfl

/-- Key and outputs of the timed loop are those of the untimed one. -/
theorem warmup_erase (sem : Plugin → K → List V → Res (K × List V)) (p : Plugin) (args : List V) (n : Nat) (s : Run K (List V)) :
    (warmupRuns (fun k => sem p k args) n s).map (fun t => (t.key, t.out)) = profileRuns sem p args n (s.key, s.out) := by
  induction n generalizing s with
  | zero => rfl
  | succ n ih =>
    rw [warmupRuns, profileRuns]
    cases hx : sem p s.key args with
    | error e => rfl
    | ok r => exact ih _

theorem timed_erase (clock : Nat → ℝ) (sem : Plugin → K → List V → Res (K × List V)) (p : Plugin) (args : List V) (n : Nat)
    (s : Run K (List V)) :
    (timedRuns clock (fun k => sem p k args) n s).map (fun t => (t.key, t.out)) = profileRuns sem p args n (s.key, s.out) := by
  induction n generalizing s with
  | zero => rfl
  | succ n ih =>
    rw [timedRuns, profileRuns]
    cases hx : sem p s.key args with
    | error e => rfl
    | ok r => exact ih _

theorem plugin_erase (clock : Nat → ℝ) (sem : Plugin → K → List V → Res (K × List V)) (warmup runs : Nat) (p : Plugin) (key : K)
    (store : PyDict String V) (reads : Nat) :
    (profilePlugin clock sem warmup runs p key store reads).map (fun r => (r.1, r.2.1)) = Comp.profilePlugin sem warmup runs p key store := by
  unfold profilePlugin Comp.profilePlugin
  simp only [bind, Except.bind, pure, Except.pure]
  cases ha : p.dependsOn.mapM (readData store) with
  | error e => rfl
  | ok args =>
    simp only
    have h1 := warmup_erase sem p args warmup ⟨key, none, reads, []⟩
    rw [← h1]
    cases hw : warmupRuns (fun k => sem p k args) warmup ⟨key, none, reads, []⟩ with
    | error e => rfl
    | ok s =>
      simp only [Except.map]
      have h2 := timed_erase clock sem p args runs s
      rw [← h2]
      cases ht : timedRuns clock (fun k => sem p k args) runs s with
      | error e => rfl
      | ok t =>
        simp only [Except.map]
        cases collect p.provides t.out [] <;> rfl

theorem plugin_times (clock : Nat → ℝ) (sem : Plugin → K → List V → Res (K × List V)) (warmup runs : Nat) (p : Plugin) (key : K)
    (store : PyDict String V) (reads : Nat) (r : K × PyDict String V × (XF × XF) × Nat)
    (h : profilePlugin clock sem warmup runs p key store reads = .ok r) :
    r.2.2.2 = reads + 2 * runs ∧ r.2.2.1 = (npMean (durations clock reads runs), npStd (durations clock reads runs)) := by
  unfold profilePlugin at h
  simp only [bind, Except.bind, pure, Except.pure] at h
  cases ha : p.dependsOn.mapM (readData store) with
  | error e => rw [ha] at h; cases h
  | ok args =>
    rw [ha] at h
    simp only at h
    cases hw : warmupRuns (fun k => sem p k args) warmup ⟨key, none, reads, []⟩ with
    | error e => rw [hw] at h; cases h
    | ok s =>
      rw [hw] at h
      simp only at h
      cases ht : timedRuns clock (fun k => sem p k args) runs s with
      | error e => rw [ht] at h; cases h
      | ok t =>
        rw [ht] at h
        simp only at h
        cases hc : collect p.provides t.out [] with
        | error e => rw [hc] at h; cases h
        | ok out =>
          rw [hc] at h
          cases h
          obtain ⟨w1, w2⟩ := warmup_reads _ _ _ _ hw
          obtain ⟨t1, t2⟩ := timed_reads clock _ _ _ _ ht
          simp only at w1 w2
          rw [w1] at t1 t2
          rw [w2, List.nil_append] at t2
          exact ⟨t1, by simp only [t2]⟩

/-- What the lines report when the first of them was measured after `r` readings. -/
def LinesFrom (clock : Nat → ℝ) (runs : Nat) (r : Nat) (lines : List Line) : Prop :=
  ∀ (i : Nat) (l : Line), lines[i]? = some l → l.mean = npMean (durations clock (r + 2 * runs * i) runs) ∧
    l.std = npStd (durations clock (r + 2 * runs * i) runs)

theorem work_times (clock : Nat → ℝ) (reg : Registry) (sem : Plugin → K → List V → Res (K × List V)) (warmup runs : Nat)
    (ws : List Work) (s t : CompRun K V) (h : ws.foldlM (profileWork clock reg sem warmup runs) s = .ok t) :
    t.reads = s.reads + 2 * runs * ws.length ∧
    ∃ new, t.lines = s.lines ++ new ∧ new.map (fun l => l.line) = ws.map (fun w => (⟨w.name, w.provides, w.dependsOn⟩ : ProfileLine)) ∧
      LinesFrom clock runs s.reads new := by
  induction ws generalizing s with
  | nil => cases h; exact ⟨rfl, [], by simp, rfl, by intro i l hl; simp at hl⟩
  | cons w ws ih =>
    simp only [List.foldlM_cons, bind, Except.bind] at h
    cases hw : profileWork clock reg sem warmup runs s w with
    | error e => rw [hw] at h; cases h
    | ok s' =>
      rw [hw] at h
      obtain ⟨h1, new, h2, h3, h4⟩ := ih s' h
      have key : s'.reads = s.reads + 2 * runs ∧
          s'.lines = s.lines ++ [⟨⟨w.name, w.provides, w.dependsOn⟩, npMean (durations clock s.reads runs), npStd (durations clock s.reads runs)⟩] := by
        unfold profileWork at hw
        simp only [bind, Except.bind, pure, Except.pure] at hw
        cases hp : w.provides with
        | nil => rw [hp] at hw; cases hw
        | cons d ds =>
          rw [hp] at hw
          simp only at hw
          cases hr : reg.getItem d with
          | error e => rw [hr] at hw; cases hw
          | ok cls =>
            rw [hr] at hw
            simp only at hw
            split at hw
            · cases hw
            · cases hq : profilePlugin clock sem warmup runs cls s.key s.store s.reads with
              | error e => rw [hq] at hw; cases hw
              | ok r =>
                rw [hq] at hw
                cases hw
                obtain ⟨q1, q2⟩ := plugin_times clock sem warmup runs cls s.key s.store s.reads r hq
                exact ⟨q1, by rw [q2]⟩
      refine ⟨by rw [h1, key.1, List.length_cons]; ring, _, by rw [h2, key.2, List.append_assoc], by simp [h3], ?_⟩
      intro i l hl
      cases i with
      | zero => simp at hl; subst hl; simp
      | succ i =>
        simp only [List.cons_append, List.nil_append, List.getElem?_cons_succ] at hl
        have := h4 i l hl
        rw [key.1] at this
        rw [show s.reads + 2 * runs * (i + 1) = s.reads + 2 * runs + 2 * runs * i by ring]
        exact this

theorem sum_durations_le (clock : Nat → ℝ) (hm : Monotone clock) (r n : Nat) :
    (durations clock r n).sum ≤ (clock (r + 2 * n) - clock r) * 1000 := by
  induction n generalizing r with
  | zero => simp [durations]
  | succ n ih =>
    rw [durations_succ, List.sum_cons]
    have := ih (r + 2)
    have h1 : clock (r + 1) ≤ clock (r + 2) := hm (by omega)
    rw [show r + 2 + 2 * n = r + 2 * (n + 1) by ring] at this
    linarith

theorem durations_nonneg (clock : Nat → ℝ) (hm : Monotone clock) (r n : Nat) : ∀ t ∈ durations clock r n, 0 ≤ t := by
  intro t ht
  obtain ⟨i, _, rfl⟩ := List.mem_map.1 ht
  have : clock (r + 2 * i) ≤ clock (r + 2 * i + 1) := hm (by omega)
  exact mul_nonneg (by linarith) (by norm_num)

theorem durations_length (clock : Nat → ℝ) (r n : Nat) : (durations clock r n).length = n := by simp [durations]

theorem sum_fin (l : List ℝ) : XF.sum (l.map XF.fin) = .fin l.sum := by
  have h : ∀ (l : List ℝ) (a : ℝ), (l.map XF.fin).foldl (· + ·) (XF.fin a) = .fin (a + l.sum) := by
    intro l
    induction l with
    | nil => intro a; simp
    | cons b l ih => intro a; simp only [List.map_cons, List.foldl_cons, List.sum_cons, XF.fin_add_fin]; rw [ih]; congr 1; ring
  unfold XF.sum
  rw [h]; simp

theorem sum_append (a b : List XF) : XF.sum (a ++ b) = XF.sum a + XF.sum b := by
  have h : ∀ (b : List XF) (x : XF), b.foldl (· + ·) x = x + b.foldl (· + ·) (.fin 0) := by
    intro b
    induction b with
    | nil => intro x; simp
    | cons y b ih =>
      intro x
      rw [List.foldl_cons, List.foldl_cons, ih (x + y), ih (.fin 0 + y), XF.fin_zero_add, XF.add_assoc']
  unfold XF.sum
  rw [List.foldl_append, h]

/-- Both ways of profiling over the simulated components only. -/
def flatLoop {W R : Type} (one : Used → SimEntry K V W → Res (Used × R)) :
    List (SimEntry K V W) → Used × PyDict String R → Res (Used × PyDict String R)
  | [], s => .ok s
  | e :: es, s => match one s.1 e with
    | .error x => .error x
    | .ok (u, r) => flatLoop one es (u, s.2.set e.name r)

theorem flatLoop_append {W R : Type} (one : Used → SimEntry K V W → Res (Used × R)) (a b : List (SimEntry K V W))
    (s : Used × PyDict String R) : flatLoop one (a ++ b) s = (flatLoop one a s).bind (flatLoop one b) := by
  induction a generalizing s with
  | nil => rfl
  | cons e a ih =>
    rw [List.cons_append, flatLoop, flatLoop]
    cases one s.1 e with
    | error x => rfl
    | ok r => exact ih _

theorem llhLoop_flat {W R : Type} (one : PyDict String W → Used → PComp K V (PyDict String W) → Res (Used × Option R))
    (one' : Used → SimEntry K V W → Res (Used × R)) (h0 : ∀ p u, one p u .other = .ok (u, none))
    (h1 : ∀ p u n reg ws sem f, one p u (.sim reg ws sem f) = (one' u ⟨n, p, reg, ws, sem, f⟩).map (fun r => (r.1, some r.2)))
    (p : PyDict String W) (llhs : List (String × PLlh K V W)) (s : Used × PyDict String R) :
    llhLoop one p llhs s = flatLoop one' (sims p llhs) s := by
  have hc : ∀ (n : String) (al : PyDict String String) (cs : List (String × PComp K V (PyDict String W))) (s : Used × PyDict String R),
      compLoop (one (Llh.replaceAlias al p)) n cs s = flatLoop one' (simsOf p (n, ⟨al, cs⟩)) s := by
    intro n al cs
    induction cs with
    | nil => intro s; rfl
    | cons c cs ih =>
      intro s
      obtain ⟨m, c⟩ := c
      rw [compLoop]
      cases c with
      | other =>
        rw [h0]
        simp only
        rw [ih]
        rfl
      | sim reg ws sem f =>
        rw [h1 _ _ (n ++ "/" ++ m)]
        have he : simsOf p (n, (⟨al, (m, .sim reg ws sem f) :: cs⟩ : PLlh K V W)) =
            ⟨n ++ "/" ++ m, Llh.replaceAlias al p, reg, ws, sem, f⟩ :: simsOf p (n, ⟨al, cs⟩) := by
          simp [simsOf]
        rw [he, flatLoop]
        cases one' s.1 ⟨n ++ "/" ++ m, Llh.replaceAlias al p, reg, ws, sem, f⟩ with
        | error x => rfl
        | ok r => exact ih _
  induction llhs generalizing s with
  | nil => rfl
  | cons l llhs ih =>
    obtain ⟨n, l⟩ := l
    rw [llhLoop, hc]
    unfold sims
    rw [List.flatMap_cons, flatLoop_append]
    cases flatLoop one' (simsOf p (n, l)) s with
    | error x => rfl
    | ok s' => exact ih s'

theorem profileContext_flat (clock : Nat → ℝ) (keys : Nat → K) (draw : String → ℝ) (warmup runs : Nat) (batch : V)
    (llhs : List (String × PLlh K V XF)) (pm : Parameter.PM) (p : PyDict String XF) (u : Used) :
    (profileContext clock keys draw warmup runs batch llhs pm (some p) u).2 =
      flatLoop (fun u e => pluginsOne clock keys warmup runs batch e.params u e.reg e.worksheet e.sem) (sims p llhs) (u, []) :=
  llhLoop_flat (pluginsStep clock keys warmup runs batch) _ (fun _ _ => rfl) (fun _ _ _ _ _ _ _ => rfl) p llhs (u, [])

theorem profileFull_flat (clock : Nat → ℝ) (keys : Nat → K) (draw : String → ℝ) (warmup runs : Nat) (batch : V)
    (llhs : List (String × PLlh K V XF)) (pm : Parameter.PM) (p : PyDict String XF) (u : Used) :
    (profileFull clock keys draw warmup runs batch llhs pm (some p) u).2 =
      flatLoop (fun u e => fullOne clock keys warmup runs batch e.params u e.simulate) (sims p llhs) (u, []) :=
  llhLoop_flat (fullStep clock keys warmup runs batch) _ (fun _ _ => rfl) (fun _ _ _ _ _ _ _ => rfl) p llhs (u, [])

theorem flatLoop_keys {W R : Type} (one : Used → SimEntry K V W → Res (Used × R)) (es : List (SimEntry K V W))
    (s b : Used × PyDict String R) (h : flatLoop one es s = .ok b) :
    b.2.keys = es.foldl (fun ks e => if e.name ∈ ks then ks else ks ++ [e.name]) s.2.keys := by
  induction es generalizing s with
  | nil => cases h; rfl
  | cons e es ih =>
    rw [flatLoop] at h
    cases hx : one s.1 e with
    | error x => rw [hx] at h; cases h
    | ok r =>
      rw [hx] at h
      rw [ih _ h, List.foldl_cons, PyDict.keys_set]

theorem warmup_ok_iff (step : K → Res (K × O)) (n m : Nat) (s : Run K O) :
    (∃ t, warmupRuns step n s = .ok t ∧ CanRun step m t.key) ↔ CanRun step (n + m) s.key := by
  induction n generalizing s with
  | zero => simp [warmupRuns]
  | succ n ih =>
    rw [warmupRuns, show n + 1 + m = n + m + 1 by omega]
    constructor
    · rintro ⟨t, ht, hc⟩
      cases hx : step s.key with
      | error x => rw [hx] at ht; cases ht
      | ok r =>
        rw [hx] at ht
        exact .succ (o := r.2) hx ((ih { s with key := r.1, out := some r.2 }).1 ⟨t, ht, hc⟩)
    · intro h
      cases h with
      | succ hx hc =>
        rw [hx]
        exact (ih _).2 hc

theorem timed_ok_iff (clock : Nat → ℝ) (step : K → Res (K × O)) (n : Nat) (s : Run K O) :
    (∃ t, timedRuns clock step n s = .ok t) ↔ CanRun step n s.key := by
  induction n generalizing s with
  | zero => simp only [timedRuns]; exact ⟨fun _ => .zero, fun _ => ⟨s, rfl⟩⟩
  | succ n ih =>
    rw [timedRuns]
    constructor
    · rintro ⟨t, ht⟩
      cases hx : step s.key with
      | error x => rw [hx] at ht; cases ht
      | ok r =>
        rw [hx] at ht
        exact .succ (o := r.2) hx ((ih ⟨r.1, some r.2, s.reads + 2, _⟩).1 ⟨t, ht⟩)
    · intro h
      cases h with
      | succ hx hc =>
        rw [hx]
        exact (ih _).2 hc

theorem fullOne_ok_iff (clock : Nat → ℝ) (keys : Nat → K) (warmup runs : Nat) (batch : V) {P : Type} (p : P) (u : Used)
    (f : Option (P → K → V → Res (K × List V))) (r : Used × (XF × XF)) :
    fullOne clock keys warmup runs batch p u f = .ok r ↔
      (∃ g, f = some g ∧ CanRun (fun k => g p k batch) (warmup + runs) (keys u.keys)) ∧
      r = (⟨u.keys + 1, u.reads + 2 * runs⟩, (npMean (durations clock u.reads runs), npStd (durations clock u.reads runs))) := by
  cases f with
  | none => simp [fullOne]
  | some g =>
    simp only [fullOne, bind, Except.bind, pure, Except.pure, Option.some.injEq, exists_eq_left']
    have hw := warmup_ok_iff (fun k => g p k batch) warmup runs ⟨keys u.keys, none, u.reads, []⟩
    simp only at hw
    rw [← hw]
    cases h1 : warmupRuns (fun k => g p k batch) warmup ⟨keys u.keys, none, u.reads, []⟩ with
    | error e => simp
    | ok s =>
      simp only [Except.ok.injEq, exists_eq_left']
      rw [← timed_ok_iff clock]
      cases h2 : timedRuns clock (fun k => g p k batch) runs s with
      | error e => simp
      | ok t =>
        simp only [Except.ok.injEq, exists_eq', true_and]
        obtain ⟨w1, w2⟩ := warmup_reads _ _ _ _ h1
        obtain ⟨t1, t2⟩ := timed_reads clock _ _ _ _ h2
        simp only at w1 w2
        rw [w1] at t1 t2
        rw [w2, List.nil_append] at t2
        rw [t1, t2]
        exact eq_comm

end
end Verif.Prof
