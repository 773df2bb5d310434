/-
Lemmas about the binding of names by imports.
-/
import Verif.Model.Names
import Verif.Spec.Names

namespace Verif.Names
open Verif

theorem ns_bind (st : St) (m n : String) (o : Obj) (x : String) :
    (st.bind m n o).ns x = if m = x then { st.ns m with names := (st.ns m).names.set n o } else st.ns x := by
  unfold St.bind St.ns
  simp only [PyDict.get?_set]
  split <;> simp

theorem ns_setAll (st : St) (m : String) (a : Option (List String)) (x : String) :
    ({ st with mods := st.mods.set m { st.ns m with all := a } } : St).ns x =
      if m = x then { st.ns m with all := a } else st.ns x := by
  unfold St.ns
  simp only [PyDict.get?_set]
  split <;> simp

theorem ns_export (st : St) (m n x : String) :
    (st.export m n).ns x = if m = x then { st.ns m with all := (st.ns m).all.map (· ++ [n]) } else st.ns x :=
  ns_setAll st m _ x

/-! ### Invariants of loading -/

theorem keys_bind (st : St) (m n : String) (o : Obj) (h : m ∈ st.mods.keys) : (st.bind m n o).mods.keys = st.mods.keys :=
  PyDict.keys_set_of_mem _ _ h

theorem keys_setAll (st : St) (m : String) (a : Option (List String)) (h : m ∈ st.mods.keys) :
    ({ st with mods := st.mods.set m { st.ns m with all := a } } : St).mods.keys = st.mods.keys :=
  PyDict.keys_set_of_mem _ _ h

/-- What holds between statements: the modules are those that were run, each once and after its package, all are in the program, and every bound object
comes from a statement of the program. -/
structure WF (prog : Program) (st : St) : Prop where
  keys : st.mods.keys = st.ran
  nodup : st.ran.Nodup
  known : ∀ m ∈ st.ran, m ∈ prog.keys
  parents : ∀ pre m post md p, st.ran = pre ++ m :: post → prog.get? m = some md → md.parent = some p → p.1 ∈ pre
  origin : ∀ m n o, (st.ns m).names.get? n = some o → FromProgram prog o

/-- What a step from `st` to `st'` keeps: no module is forgotten, and no list `__all__` of the modules in `keep` changes. -/
structure Step (keep : String → Prop) (st st' : St) : Prop where
  ran : ∃ r, st'.ran = st.ran ++ r
  all : ∀ m, keep m → m ∈ st.ran → (st'.ns m).all = (st.ns m).all

theorem Step.refl (keep : String → Prop) (st : St) : Step keep st st := ⟨⟨[], by simp⟩, fun _ _ _ => rfl⟩

theorem Step.mem {keep : String → Prop} {a b : St} (h : Step keep a b) {m : String} (hm : m ∈ a.ran) : m ∈ b.ran := by
  obtain ⟨r, hr⟩ := h.ran
  rw [hr]; exact List.mem_append_left _ hm

theorem Step.trans {keep : String → Prop} {a b c : St} (h : Step keep a b) (h' : Step keep b c) : Step keep a c := by
  obtain ⟨r, hr⟩ := h.ran
  obtain ⟨r', hr'⟩ := h'.ran
  exact ⟨⟨r ++ r', by rw [hr', hr, List.append_assoc]⟩, fun m hk hm => (h'.all m hk (h.mem hm)).trans (h.all m hk hm)⟩

theorem Step.weaken {keep keep' : String → Prop} {a b : St} (h : Step keep a b) (hk : ∀ m, keep' m → keep m) : Step keep' a b :=
  ⟨h.ran, fun m hm hr => h.all m (hk m hm) hr⟩

theorem bind_wf {prog : Program} {st : St} (h : WF prog st) {m : String} (hm : m ∈ st.ran) (n : String) {o : Obj}
    (ho : FromProgram prog o) : WF prog (st.bind m n o) := by
  refine ⟨by rw [keys_bind _ _ _ _ (h.keys ▸ hm)]; exact h.keys, h.nodup, h.known, h.parents, ?_⟩
  intro x k o' hx
  rw [ns_bind] at hx
  split at hx
  · simp only [PyDict.get?_set] at hx
    split at hx
    · cases hx; exact ho
    · exact h.origin _ _ _ hx
  · exact h.origin _ _ _ hx

theorem bind_step (keep : String → Prop) (st : St) (m n : String) (o : Obj) : Step keep st (st.bind m n o) := by
  refine ⟨⟨[], by simp [St.bind]⟩, fun x _ _ => ?_⟩
  rw [ns_bind]
  split
  · rename_i h; rw [← h]
  · rfl

theorem setAll_wf {prog : Program} {st : St} (h : WF prog st) {m : String} (hm : m ∈ st.ran) (a : Option (List String)) :
    WF prog { st with mods := st.mods.set m { st.ns m with all := a } } := by
  refine ⟨by rw [keys_setAll _ _ _ (h.keys ▸ hm)]; exact h.keys, h.nodup, h.known, h.parents, ?_⟩
  intro x k o hx
  rw [ns_setAll] at hx
  split at hx <;> exact h.origin _ _ _ hx

theorem setAll_step (st : St) (m : String) (a : Option (List String)) :
    Step (· ≠ m) st { st with mods := st.mods.set m { st.ns m with all := a } } := by
  refine ⟨⟨[], by simp⟩, fun x hx _ => ?_⟩
  rw [ns_setAll, if_neg (Ne.symm hx)]

theorem bindAll_spec {prog : Program} {m : String} {src : PyDict String Obj}
    (hsrc : ∀ n o, src.get? n = some o → FromProgram prog o) (names : List String) (keep : String → Prop) (st st' : St)
    (hw : WF prog st) (hm : m ∈ st.ran) (h : bindAll m src names st = .ok st') : WF prog st' ∧ Step keep st st' := by
  induction names generalizing st with
  | nil => rw [bindAll] at h; cases h; exact ⟨hw, .refl _ _⟩
  | cons n ns ih =>
    rw [bindAll] at h
    cases hx : src.get? n with
    | none => rw [hx] at h; cases h
    | some o =>
      rw [hx] at h
      have hs := bind_step keep st m n o
      obtain ⟨h1, h2⟩ := ih _ (bind_wf hw hm n (hsrc n o hx)) (hs.mem hm) h
      exact ⟨h1, hs.trans h2⟩

/-- What is asked of a loader. -/
def GoodLoader (prog : Program) (ld : St → String → Res St) : Prop :=
  ∀ st x st', WF prog st → ld st x = .ok st' → WF prog st' ∧ Step (fun _ => True) st st' ∧ x ∈ st'.ran

theorem exec_spec {prog : Program} {bi : List String} {ld : St → String → Res St} (hld : GoodLoader prog ld) {m : String} {md : Mod}
    (hmd : prog.get? m = some md) {s : Stmt} (hs : s ∈ md.body) (st st' : St) (hw : WF prog st) (hm : m ∈ st.ran)
    (h : exec bi ld m st s = .ok st') : WF prog st' ∧ Step (· ≠ m) st st' := by
  have hprog : m ∈ prog.keys := (PyDict.mem_keys_iff_exists _ _).2 ⟨_, hmd⟩
  cases s with
  | define n ex =>
    rw [exec] at h
    have hd : FromProgram prog (.defined m n) := .inl ⟨md, ex, hmd, hs⟩
    cases ex with
    | true =>
      simp only [if_true, Except.ok.injEq] at h
      subst h
      have h1 := setAll_step st m ((st.ns m).all.map (· ++ [n]))
      exact ⟨bind_wf (setAll_wf hw hm _) hm n hd, h1.trans (bind_step _ _ _ _ _)⟩
    | false =>
      simp only [Bool.false_eq_true, if_false, Except.ok.injEq] at h
      subst h
      exact ⟨bind_wf hw hm n hd, bind_step _ _ _ _ _⟩
  | external n =>
    rw [exec, Except.ok.injEq] at h
    subst h
    exact ⟨bind_wf hw hm n ⟨m, md, hmd, hs⟩, bind_step _ _ _ _ _⟩
  | exporter own =>
    rw [exec, Except.ok.injEq] at h
    subst h
    have hd : ∀ n, n = "export" ∨ n = "__all__" → FromProgram prog (.defined m n) := fun n hn => .inr ⟨md, own, hmd, hs, hn⟩
    unfold St.exporter
    refine ⟨setAll_wf (bind_wf (bind_wf hw hm _ (hd _ (.inl rfl))) hm _ (hd _ (.inr rfl))) hm _, ?_⟩
    exact ((bind_step _ _ _ _ _).trans (bind_step _ _ _ _ _)).trans (setAll_step _ _ _)
  | importAs t a =>
    simp only [exec, bind, Except.bind] at h
    cases hx : ld st t with
    | error e => rw [hx] at h; cases h
    | ok s1 =>
      rw [hx] at h
      simp only [pure, Except.pure, Except.ok.injEq] at h
      subst h
      obtain ⟨h1, h2, h3⟩ := hld _ _ _ hw hx
      exact ⟨bind_wf h1 (h2.mem hm) a (h1.known t h3), (h2.weaken (fun _ _ => trivial)).trans (bind_step _ _ _ _ _)⟩
  | fromImport src n a sub =>
    simp only [exec, bind, Except.bind] at h
    cases hx : ld st src with
    | error e => rw [hx] at h; cases h
    | ok s1 =>
      rw [hx] at h
      obtain ⟨h1, h2, h3⟩ := hld _ _ _ hw hx
      simp only at h
      cases hn : (s1.ns src).names.get? n with
      | some o =>
        rw [hn] at h
        simp only [pure, Except.pure, Except.ok.injEq] at h
        subst h
        exact ⟨bind_wf h1 (h2.mem hm) a (h1.origin _ _ _ hn), (h2.weaken (fun _ _ => trivial)).trans (bind_step _ _ _ _ _)⟩
      | none =>
        rw [hn] at h
        cases sub with
        | none => cases h
        | some t =>
          simp only at h
          cases hy : ld s1 t with
          | error e => rw [hy] at h; cases h
          | ok s2 =>
            rw [hy] at h
            simp only [pure, Except.pure, Except.ok.injEq] at h
            subst h
            obtain ⟨k1, k2, k3⟩ := hld _ _ _ h1 hy
            exact ⟨bind_wf k1 (k2.mem (h2.mem hm)) a (k1.known t k3),
              ((h2.trans k2).weaken (fun _ _ => trivial)).trans (bind_step _ _ _ _ _)⟩
  | star src =>
    simp only [exec, bind, Except.bind] at h
    cases hx : ld st src with
    | error e => rw [hx] at h; cases h
    | ok s1 =>
      rw [hx] at h
      obtain ⟨h1, h2, h3⟩ := hld _ _ _ hw hx
      obtain ⟨k1, k2⟩ := bindAll_spec (fun n o => h1.origin src n o) _ (· ≠ m) _ _ h1 (h2.mem hm) h
      exact ⟨k1, (h2.weaken (fun _ _ => trivial)).trans k2⟩
  | use n attrs =>
    simp only [exec, bind, Except.bind] at h
    cases hx : lookup bi st m n attrs with
    | error e => rw [hx] at h; cases h
    | ok u =>
      rw [hx] at h
      simp only [pure, Except.pure, Except.ok.injEq] at h
      subst h
      exact ⟨hw, .refl _ _⟩

theorem body_spec {prog : Program} {bi : List String} {ld : St → String → Res St} (hld : GoodLoader prog ld) {m : String} {md : Mod}
    (hmd : prog.get? m = some md) (l : List Stmt) (hl : ∀ s ∈ l, s ∈ md.body) (st st' : St) (hw : WF prog st) (hm : m ∈ st.ran)
    (h : l.foldlM (exec bi ld m) st = .ok st') : WF prog st' ∧ Step (· ≠ m) st st' := by
  induction l generalizing st with
  | nil => simp only [List.foldlM_nil, pure, Except.pure, Except.ok.injEq] at h; subst h; exact ⟨hw, .refl _ _⟩
  | cons s l ih =>
    rw [List.foldlM_cons] at h
    simp only [bind, Except.bind] at h
    cases hx : exec bi ld m st s with
    | error e => rw [hx] at h; cases h
    | ok s1 =>
      rw [hx] at h
      obtain ⟨h1, h2⟩ := exec_spec hld hmd (hl s (by simp)) _ _ hw hm hx
      obtain ⟨k1, k2⟩ := ih (fun s hs => hl s (by simp [hs])) _ h1 (h2.mem hm) h
      exact ⟨k1, h2.trans k2⟩

theorem start_spec {prog : Program} {st : St} (hw : WF prog st) {m : String} (hm : m ∉ st.ran) (hp : m ∈ prog.keys)
    (hpr : ∀ md p, prog.get? m = some md → md.parent = some p → p.1 ∈ st.ran) :
    WF prog { mods := st.mods.set m {}, ran := st.ran ++ [m] } ∧
    Step (fun _ => True) st { mods := st.mods.set m {}, ran := st.ran ++ [m] } := by
  have hk : m ∉ st.mods.keys := by rw [hw.keys]; exact hm
  have hns : ∀ x, ({ mods := st.mods.set m {}, ran := st.ran ++ [m] } : St).ns x = if m = x then {} else st.ns x := by
    intro x
    unfold St.ns
    simp only [PyDict.get?_set]
    split <;> simp
  constructor
  · refine ⟨?_, ?_, ?_, ?_, ?_⟩
    · simp only [PyDict.keys_set, hw.keys, if_neg hm]
    · exact List.nodup_append.2 ⟨hw.nodup, by simp, by
        intro a ha b hb; simp at hb; subst hb; rintro rfl; exact hm ha⟩
    · intro x hx
      rcases List.mem_append.1 hx with hx | hx
      · exact hw.known x hx
      · simp at hx; subst hx; exact hp
    · intro pre x post md p hx hmd hpp
      rcases List.eq_nil_or_concat post with rfl | ⟨l, a, rfl⟩
      · obtain ⟨h1, h2⟩ := List.append_inj' (show st.ran ++ [m] = pre ++ [x] from hx) rfl
        cases h2
        rw [← h1]
        exact hpr md p hmd hpp
      · rw [List.concat_eq_append, ← List.cons_append, ← List.append_assoc] at hx
        obtain ⟨h1, _⟩ := List.append_inj' hx rfl
        exact hw.parents pre x l md p h1 hmd hpp
    · intro x n o hx
      rw [hns] at hx
      split at hx
      · simp at hx
      · exact hw.origin _ _ _ hx
  · refine ⟨⟨[m], rfl⟩, fun x _ hx => ?_⟩
    rw [hns, if_neg]
    rintro rfl; exact hm hx

theorem load_spec (prog : Program) (bi : List String) (fuel : Nat) : GoodLoader prog (load prog bi fuel) := by
  induction fuel with
  | zero => intro st x st' _ h; rw [load] at h; cases h
  | succ n ih =>
    intro st m st' hw h
    rw [load] at h
    by_cases hm : st.mods.has m
    · rw [if_pos hm] at h
      cases h
      exact ⟨hw, .refl _ _, by rw [← hw.keys]; exact (PyDict.has_iff _ _).1 hm⟩
    · rw [if_neg hm] at h
      cases hmd : prog.get? m with
      | none => rw [hmd] at h; cases h
      | some md =>
        rw [hmd] at h
        have hp : m ∈ prog.keys := (PyDict.mem_keys_iff_exists _ _).2 ⟨_, hmd⟩
        simp only [bind, Except.bind] at h
        -- the package
        have hpar : ∀ s1, loadParent (load prog bi n) md st = .ok s1 → WF prog s1 ∧ Step (fun _ => True) st s1 ∧
              ∀ p, md.parent = some p → p.1 ∈ s1.ran := by
          intro s1 hs1
          unfold loadParent at *
          cases hpp : md.parent with
          | none => rw [hpp] at hs1; cases hs1; exact ⟨hw, .refl _ _, by simp⟩
          | some p =>
            rw [hpp] at hs1
            obtain ⟨a, b, c⟩ := ih _ _ _ hw hs1
            exact ⟨a, b, by intro p' hp'; cases hp'; exact c⟩
        generalize loadParent (load prog bi n) md st = r at h hpar
        cases r with
        | error e => cases h
        | ok s1 =>
          obtain ⟨hw1, hs1, hpr⟩ := hpar s1 rfl
          simp only at h
          by_cases hm1 : s1.mods.has m
          · rw [if_pos hm1] at h
            simp only [pure, Except.pure, Except.ok.injEq] at h
            subst h
            exact ⟨hw1, hs1, by rw [← hw1.keys]; exact (PyDict.has_iff _ _).1 hm1⟩
          · rw [if_neg hm1] at h
            have hm1' : m ∉ s1.ran := by rw [← hw1.keys]; exact fun hc => hm1 ((PyDict.has_iff _ _).2 hc)
            obtain ⟨hw2, hs2⟩ := start_spec hw1 hm1' hp (by intro md' p h1 h2; rw [hmd] at h1; cases h1; exact hpr p h2)
            cases hb : md.body.foldlM (exec bi (load prog bi n) m) { mods := s1.mods.set m {}, ran := s1.ran ++ [m] } with
            | error e => rw [hb] at h; cases h
            | ok s3 =>
              rw [hb] at h
              obtain ⟨hw3, hs3⟩ := body_spec ih hmd md.body (fun _ hs => hs) _ _ hw2 (by simp) hb
              have hm3 : m ∈ s3.ran := hs3.mem (by simp)
              have hs : Step (fun _ => True) st s3 := by
                refine ⟨((hs1.trans hs2).weaken (keep' := (· ≠ m)) (fun _ _ => trivial) |>.trans hs3).ran, fun x _ hx => ?_⟩
                have hxm : x ≠ m := by rintro rfl; exact hm1' (hs1.mem hx)
                rw [hs3.all x hxm (hs2.mem (hs1.mem hx)), (hs1.trans hs2).all x trivial hx]
              cases hpp : md.parent with
              | none =>
                rw [hpp] at h
                simp only [pure, Except.pure, Except.ok.injEq] at h
                subst h
                exact ⟨hw3, hs, hm3⟩
              | some p =>
                rw [hpp] at h
                simp only [pure, Except.pure, Except.ok.injEq] at h
                subst h
                exact ⟨bind_wf hw3 (hs3.mem (hs2.mem (hpr p hpp))) _ hp, hs.trans (bind_step _ _ _ _ _), hm3⟩

theorem empty_wf (prog : Program) : WF prog {} :=
  ⟨rfl, by simp, by simp, by simp, by intro m n o h; simp [St.ns] at h⟩

/-! ### More fuel changes nothing -/

theorem exec_mono {bi : List String} {ld ld' : St → String → Res St} (hld : ∀ st x st', ld st x = .ok st' → ld' st x = .ok st')
    (m : String) (st st' : St) (s : Stmt) (h : exec bi ld m st s = .ok st') : exec bi ld' m st s = .ok st' := by
  cases s with
  | define n ex => exact h
  | external n => exact h
  | exporter own => exact h
  | importAs t a =>
    simp only [exec, bind, Except.bind] at h ⊢
    cases hx : ld st t with
    | error e => rw [hx] at h; cases h
    | ok s1 => rw [hx] at h; rw [hld _ _ _ hx]; exact h
  | fromImport src n a sub =>
    simp only [exec, bind, Except.bind] at h ⊢
    cases hx : ld st src with
    | error e => rw [hx] at h; cases h
    | ok s1 =>
      rw [hx] at h; rw [hld _ _ _ hx]
      simp only at h ⊢
      cases hn : (s1.ns src).names.get? n with
      | some o => rw [hn] at h; exact h
      | none =>
        rw [hn] at h
        cases sub with
        | none => exact h
        | some t =>
          simp only at h ⊢
          cases hy : ld s1 t with
          | error e => rw [hy] at h; cases h
          | ok s2 => rw [hy] at h; rw [hld _ _ _ hy]; exact h
  | star src =>
    simp only [exec, bind, Except.bind] at h ⊢
    cases hx : ld st src with
    | error e => rw [hx] at h; cases h
    | ok s1 => rw [hx] at h; rw [hld _ _ _ hx]; exact h
  | use n attrs => exact h

theorem body_mono {bi : List String} {ld ld' : St → String → Res St} (hld : ∀ st x st', ld st x = .ok st' → ld' st x = .ok st')
    (m : String) (l : List Stmt) (st st' : St) (h : l.foldlM (exec bi ld m) st = .ok st') : l.foldlM (exec bi ld' m) st = .ok st' := by
  induction l generalizing st with
  | nil => exact h
  | cons s l ih =>
    rw [List.foldlM_cons] at h ⊢
    simp only [bind, Except.bind] at h ⊢
    cases hx : exec bi ld m st s with
    | error e => rw [hx] at h; cases h
    | ok s1 => rw [hx] at h; rw [exec_mono hld m st s1 s hx]; exact ih _ h

theorem load_succ (prog : Program) (bi : List String) (fuel : Nat) :
    ∀ st x st', load prog bi fuel st x = .ok st' → load prog bi (fuel + 1) st x = .ok st' := by
  induction fuel with
  | zero => intro st x st' h; rw [load] at h; cases h
  | succ n ih =>
    intro st m st' h
    rw [load] at h ⊢
    by_cases hm : st.mods.has m
    · rw [if_pos hm] at h ⊢; exact h
    · rw [if_neg hm] at h ⊢
      cases hmd : prog.get? m with
      | none => rw [hmd] at h; cases h
      | some md =>
        rw [hmd] at h
        simp only [bind, Except.bind] at h ⊢
        have hpar : ∀ s1, loadParent (load prog bi n) md st = .ok s1 → loadParent (load prog bi (n + 1)) md st = .ok s1 := by
          intro s1 hs1
          unfold loadParent at *
          cases hpp : md.parent with
          | none => rw [hpp] at hs1; exact hs1
          | some p => rw [hpp] at hs1; exact ih _ _ _ hs1
        generalize loadParent (load prog bi n) md st = r at h hpar
        cases r with
        | error e => cases h
        | ok s1 =>
          rw [hpar s1 rfl]
          simp only at h ⊢
          by_cases hm1 : s1.mods.has m
          · rw [if_pos hm1] at h ⊢; exact h
          · rw [if_neg hm1] at h ⊢
            cases hb : md.body.foldlM (exec bi (load prog bi n) m) { mods := s1.mods.set m {}, ran := s1.ran ++ [m] } with
            | error e => rw [hb] at h; cases h
            | ok s3 =>
              rw [hb] at h
              rw [body_mono ih m _ _ _ hb]
              exact h

theorem load_mono (prog : Program) (bi : List String) {fuel fuel' : Nat} (hf : fuel ≤ fuel') {st : St} {x : String} {st' : St}
    (h : load prog bi fuel st x = .ok st') : load prog bi fuel' st x = .ok st' := by
  induction hf with
  | refl => exact h
  | step _ ih => exact load_succ _ _ _ _ _ _ ih

/-! ### The list `__all__` -/

/-- The effect of a statement on the list. -/
def allStep (a : Option (List String)) : Stmt → Option (List String)
  | .define n true => a.map (· ++ [n])
  | .exporter own => some (if own then ["exporter"] else [])
  | _ => a

theorem bindAll_all {m : String} {src : PyDict String Obj} (names : List String) (st st' : St)
    (h : bindAll m src names st = .ok st') (x : String) : (st'.ns x).all = (st.ns x).all := by
  induction names generalizing st with
  | nil => rw [bindAll] at h; cases h; rfl
  | cons n ns ih =>
    rw [bindAll] at h
    cases hx : src.get? n with
    | none => rw [hx] at h; cases h
    | some o =>
      rw [hx] at h
      rw [ih _ h, ns_bind]
      split
      · rename_i e; rw [e]
      · rfl

theorem bind_all (st : St) (m n : String) (o : Obj) (x : String) : ((st.bind m n o).ns x).all = (st.ns x).all := by
  rw [ns_bind]
  split
  · rename_i e; rw [e]
  · rfl

theorem exec_all {prog : Program} {bi : List String} {ld : St → String → Res St} (hld : GoodLoader prog ld) {m : String}
    {s : Stmt} (st st' : St) (hw : WF prog st) (hm : m ∈ st.ran)
    (h : exec bi ld m st s = .ok st') : (st'.ns m).all = allStep (st.ns m).all s := by
  cases s with
  | define n ex =>
    rw [exec] at h
    cases ex with
    | true =>
      simp only [if_true, Except.ok.injEq] at h
      subst h
      rw [bind_all, ns_export, if_pos rfl]; rfl
    | false =>
      simp only [Bool.false_eq_true, if_false, Except.ok.injEq] at h
      subst h
      rw [bind_all]; rfl
  | external n =>
    rw [exec, Except.ok.injEq] at h
    subst h
    rw [bind_all]; rfl
  | exporter own =>
    rw [exec, Except.ok.injEq] at h
    subst h
    unfold St.exporter
    rw [ns_setAll, if_pos rfl]; rfl
  | importAs t a =>
    simp only [exec, bind, Except.bind] at h
    cases hx : ld st t with
    | error e => rw [hx] at h; cases h
    | ok s1 =>
      rw [hx] at h
      simp only [pure, Except.pure, Except.ok.injEq] at h
      subst h
      rw [bind_all, (hld _ _ _ hw hx).2.1.all m trivial hm]; rfl
  | fromImport src n a sub =>
    simp only [exec, bind, Except.bind] at h
    cases hx : ld st src with
    | error e => rw [hx] at h; cases h
    | ok s1 =>
      rw [hx] at h
      obtain ⟨h1, h2, h3⟩ := hld _ _ _ hw hx
      simp only at h
      cases hn : (s1.ns src).names.get? n with
      | some o =>
        rw [hn] at h
        simp only [pure, Except.pure, Except.ok.injEq] at h
        subst h
        rw [bind_all, h2.all m trivial hm]; rfl
      | none =>
        rw [hn] at h
        cases sub with
        | none => cases h
        | some t =>
          simp only at h
          cases hy : ld s1 t with
          | error e => rw [hy] at h; cases h
          | ok s2 =>
            rw [hy] at h
            simp only [pure, Except.pure, Except.ok.injEq] at h
            subst h
            rw [bind_all, (h2.trans (hld _ _ _ h1 hy).2.1).all m trivial hm]; rfl
  | star src =>
    simp only [exec, bind, Except.bind] at h
    cases hx : ld st src with
    | error e => rw [hx] at h; cases h
    | ok s1 =>
      rw [hx] at h
      rw [bindAll_all _ _ _ h, (hld _ _ _ hw hx).2.1.all m trivial hm]; rfl
  | use n attrs =>
    simp only [exec, bind, Except.bind] at h
    cases hx : lookup bi st m n attrs with
    | error e => rw [hx] at h; cases h
    | ok u =>
      rw [hx] at h
      simp only [pure, Except.pure, Except.ok.injEq] at h
      subst h
      rfl

theorem body_all {prog : Program} {bi : List String} {ld : St → String → Res St} (hld : GoodLoader prog ld) {m : String} {md : Mod}
    (hmd : prog.get? m = some md) (l : List Stmt) (hl : ∀ s ∈ l, s ∈ md.body) (st st' : St) (hw : WF prog st) (hm : m ∈ st.ran)
    (h : l.foldlM (exec bi ld m) st = .ok st') : (st'.ns m).all = l.foldl allStep (st.ns m).all := by
  induction l generalizing st with
  | nil => simp only [List.foldlM_nil, pure, Except.pure, Except.ok.injEq] at h; subst h; rfl
  | cons s l ih =>
    rw [List.foldlM_cons] at h
    simp only [bind, Except.bind] at h
    cases hx : exec bi ld m st s with
    | error e => rw [hx] at h; cases h
    | ok s1 =>
      rw [hx] at h
      obtain ⟨h1, h2⟩ := exec_spec hld hmd (hl s (by simp)) _ _ hw hm hx
      rw [ih (fun s hs => hl s (by simp [hs])) _ h1 (h2.mem hm) h, exec_all hld _ _ hw hm hx]
      rfl

/-- Modules loaded on the way from `st` to `st'` have the list their statements give. -/
def NewAll (prog : Program) (st st' : St) : Prop :=
  ∀ x ∈ st'.ran, x ∉ st.ran → ∃ md, prog.get? x = some md ∧ (st'.ns x).all = md.body.foldl allStep none

theorem NewAll.refl (prog : Program) (st : St) : NewAll prog st st := fun _ h h' => absurd h h'

theorem NewAll.trans {prog : Program} {keep : String → Prop} {a b c : St} (h : NewAll prog a b) (hs : Step keep b c)
    (hk : ∀ x ∈ b.ran, x ∉ a.ran → keep x) (h' : NewAll prog b c) : NewAll prog a c := by
  intro x hx hn
  by_cases hb : x ∈ b.ran
  · obtain ⟨md, h1, h2⟩ := h x hb hn
    exact ⟨md, h1, by rw [hs.all x (hk x hb hn) hb, h2]⟩
  · exact h' x hx hb

theorem NewAll.bind (prog : Program) (st : St) (m n : String) (o : Obj) : NewAll prog st (st.bind m n o) :=
  fun _ h h' => absurd h h'

def NewLoader (prog : Program) (ld : St → String → Res St) : Prop :=
  ∀ st x st', WF prog st → ld st x = .ok st' → NewAll prog st st'

theorem bindAll_ran {m : String} {src : PyDict String Obj} (names : List String) (st st' : St)
    (h : bindAll m src names st = .ok st') : st'.ran = st.ran := by
  induction names generalizing st with
  | nil => rw [bindAll] at h; cases h; rfl
  | cons n ns ih =>
    rw [bindAll] at h
    cases hx : src.get? n with
    | none => rw [hx] at h; cases h
    | some o => rw [hx] at h; rw [ih _ h]; rfl

theorem exec_new {prog : Program} {bi : List String} {ld : St → String → Res St} (hld : GoodLoader prog ld) (hnew : NewLoader prog ld)
    {m : String} {s : Stmt} (st st' : St) (hw : WF prog st)
    (h : exec bi ld m st s = .ok st') : NewAll prog st st' := by
  cases s with
  | define n ex =>
    rw [exec] at h
    cases ex <;> (simp at h; subst h; exact fun _ h h' => absurd h h')
  | external n => rw [exec, Except.ok.injEq] at h; subst h; exact fun _ h h' => absurd h h'
  | exporter own => rw [exec, Except.ok.injEq] at h; subst h; exact fun _ h h' => absurd h h'
  | importAs t a =>
    simp only [exec, bind, Except.bind] at h
    cases hx : ld st t with
    | error e => rw [hx] at h; cases h
    | ok s1 =>
      rw [hx] at h
      simp only [pure, Except.pure, Except.ok.injEq] at h
      subst h
      exact (hnew _ _ _ hw hx).trans (bind_step (fun _ => True) _ _ _ _) (fun _ _ _ => trivial) (.bind _ _ _ _ _)
  | fromImport src n a sub =>
    simp only [exec, bind, Except.bind] at h
    cases hx : ld st src with
    | error e => rw [hx] at h; cases h
    | ok s1 =>
      rw [hx] at h
      obtain ⟨h1, h2, h3⟩ := hld _ _ _ hw hx
      simp only at h
      cases hn : (s1.ns src).names.get? n with
      | some o =>
        rw [hn] at h
        simp only [pure, Except.pure, Except.ok.injEq] at h
        subst h
        exact (hnew _ _ _ hw hx).trans (bind_step (fun _ => True) _ _ _ _) (fun _ _ _ => trivial) (.bind _ _ _ _ _)
      | none =>
        rw [hn] at h
        cases sub with
        | none => cases h
        | some t =>
          simp only at h
          cases hy : ld s1 t with
          | error e => rw [hy] at h; cases h
          | ok s2 =>
            rw [hy] at h
            simp only [pure, Except.pure, Except.ok.injEq] at h
            subst h
            have k := hld _ _ _ h1 hy
            exact ((hnew _ _ _ hw hx).trans k.2.1 (fun _ _ _ => trivial) (hnew _ _ _ h1 hy)).trans
              (bind_step (fun _ => True) _ _ _ _) (fun _ _ _ => trivial) (.bind _ _ _ _ _)
  | star src =>
    simp only [exec, bind, Except.bind] at h
    cases hx : ld st src with
    | error e => rw [hx] at h; cases h
    | ok s1 =>
      rw [hx] at h
      intro x hx1 hx2
      rw [bindAll_ran _ _ _ h] at hx1
      rw [bindAll_all _ _ _ h]
      exact hnew _ _ _ hw hx x hx1 hx2
  | use n attrs =>
    simp only [exec, bind, Except.bind] at h
    cases hx : lookup bi st m n attrs with
    | error e => rw [hx] at h; cases h
    | ok u =>
      rw [hx] at h
      simp only [pure, Except.pure, Except.ok.injEq] at h
      subst h
      exact .refl _ _

theorem body_new {prog : Program} {bi : List String} {ld : St → String → Res St} (hld : GoodLoader prog ld) (hnew : NewLoader prog ld)
    {m : String} {md : Mod} (hmd : prog.get? m = some md) (l : List Stmt) (hl : ∀ s ∈ l, s ∈ md.body) (st st' : St)
    (hw : WF prog st) (hm : m ∈ st.ran) (h : l.foldlM (exec bi ld m) st = .ok st') : NewAll prog st st' := by
  induction l generalizing st with
  | nil => simp only [List.foldlM_nil, pure, Except.pure, Except.ok.injEq] at h; subst h; exact .refl _ _
  | cons s l ih =>
    rw [List.foldlM_cons] at h
    simp only [bind, Except.bind] at h
    cases hx : exec bi ld m st s with
    | error e => rw [hx] at h; cases h
    | ok s1 =>
      rw [hx] at h
      obtain ⟨h1, h2⟩ := exec_spec hld hmd (hl s (by simp)) _ _ hw hm hx
      obtain ⟨_, k2⟩ := body_spec hld hmd l (fun s hs => hl s (by simp [hs])) _ _ h1 (h2.mem hm) h
      exact (exec_new hld hnew _ _ hw hx).trans k2 (fun x _ hn => by rintro rfl; exact hn hm)
        (ih (fun s hs => hl s (by simp [hs])) _ h1 (h2.mem hm) h)

theorem load_new (prog : Program) (bi : List String) (fuel : Nat) : NewLoader prog (load prog bi fuel) := by
  induction fuel with
  | zero => intro st x st' _ h; rw [load] at h; cases h
  | succ n ih =>
    intro st m st' hw h
    rw [load] at h
    by_cases hm : st.mods.has m
    · rw [if_pos hm] at h; cases h; exact .refl _ _
    · rw [if_neg hm] at h
      cases hmd : prog.get? m with
      | none => rw [hmd] at h; cases h
      | some md =>
        rw [hmd] at h
        have hp : m ∈ prog.keys := (PyDict.mem_keys_iff_exists _ _).2 ⟨_, hmd⟩
        simp only [bind, Except.bind] at h
        have hpar : ∀ s1, loadParent (load prog bi n) md st = .ok s1 →
            WF prog s1 ∧ Step (fun _ => True) st s1 ∧ NewAll prog st s1 ∧ ∀ p, md.parent = some p → p.1 ∈ s1.ran := by
          intro s1 hs1
          unfold loadParent at hs1
          cases hpp : md.parent with
          | none => rw [hpp] at hs1; cases hs1; exact ⟨hw, .refl _ _, .refl _ _, by simp⟩
          | some p =>
            rw [hpp] at hs1
            obtain ⟨a, b, c⟩ := load_spec prog bi n _ _ _ hw hs1
            exact ⟨a, b, ih _ _ _ hw hs1, by intro p' hp'; cases hp'; exact c⟩
        generalize loadParent (load prog bi n) md st = r at h hpar
        cases r with
        | error e => cases h
        | ok s1 =>
          obtain ⟨hw1, hs1, hn1, hpr⟩ := hpar s1 rfl
          simp only at h
          by_cases hm1 : s1.mods.has m
          · rw [if_pos hm1] at h
            simp only [pure, Except.pure, Except.ok.injEq] at h
            subst h
            exact hn1
          · rw [if_neg hm1] at h
            have hm1' : m ∉ s1.ran := by rw [← hw1.keys]; exact fun hc => hm1 ((PyDict.has_iff _ _).2 hc)
            obtain ⟨hw2, hs2⟩ := start_spec hw1 hm1' hp (by intro md' p h1 h2; rw [hmd] at h1; cases h1; exact hpr p h2)
            cases hb : md.body.foldlM (exec bi (load prog bi n) m) { mods := s1.mods.set m {}, ran := s1.ran ++ [m] } with
            | error e => rw [hb] at h; cases h
            | ok s3 =>
              rw [hb] at h
              have hld := load_spec prog bi n
              obtain ⟨hw3, hs3⟩ := body_spec hld hmd md.body (fun _ hs => hs) _ _ hw2 (by simp) hb
              have hn3 := body_new hld ih hmd md.body (fun _ hs => hs) _ _ hw2 (by simp) hb
              have ha3 := body_all hld hmd md.body (fun _ hs => hs) _ _ hw2 (by simp) hb
              have hnone : (({ mods := s1.mods.set m {}, ran := s1.ran ++ [m] } : St).ns m).all = none := by
                simp [St.ns, PyDict.get?_set]
              rw [hnone] at ha3
              have hnew : NewAll prog st s3 := by
                intro x hx hxn
                by_cases e : x = m
                · subst e; exact ⟨md, hmd, ha3⟩
                · by_cases hx1 : x ∈ s1.ran
                  · obtain ⟨md', q1, q2⟩ := hn1 x hx1 hxn
                    exact ⟨md', q1, by rw [hs3.all x e (hs2.mem hx1), hs2.all x trivial hx1, q2]⟩
                  · exact hn3 x hx (by simp [hx1, e])
              cases hpp : md.parent with
              | none =>
                rw [hpp] at h
                simp only [pure, Except.pure, Except.ok.injEq] at h
                subst h
                exact hnew
              | some p =>
                rw [hpp] at h
                simp only [pure, Except.pure, Except.ok.injEq] at h
                subst h
                exact hnew.trans (bind_step (fun _ => True) _ _ _ _) (fun _ _ _ => trivial) (.bind _ _ _ _ _)

theorem allStep_decorated (l : List Stmt) (h : ∀ own, Stmt.exporter own ∉ l) (a : List String) :
    l.foldl allStep (some a) = some (a ++ decorated l) := by
  induction l generalizing a with
  | nil => simp [decorated]
  | cons s l ih =>
    have hl : ∀ own, Stmt.exporter own ∉ l := fun own hc => h own (by simp [hc])
    rw [List.foldl_cons]
    cases s with
    | define n ex =>
      cases ex with
      | true => simp only [allStep, Option.map_some]; rw [ih hl]; simp [decorated]
      | false => simp only [allStep]; rw [ih hl]; simp [decorated]
    | exporter own => exact absurd (by simp) (h own)
    | external n => simp only [allStep]; rw [ih hl]; simp [decorated]
    | importAs t a => simp only [allStep]; rw [ih hl]; simp [decorated]
    | fromImport src n a sub => simp only [allStep]; rw [ih hl]; simp [decorated]
    | star src => simp only [allStep]; rw [ih hl]; simp [decorated]
    | use n attrs => simp only [allStep]; rw [ih hl]; simp [decorated]

theorem allStep_none (l : List Stmt) (h : ∀ own, Stmt.exporter own ∉ l) : l.foldl allStep none = none := by
  induction l with
  | nil => rfl
  | cons s l ih =>
    have hl : ∀ own, Stmt.exporter own ∉ l := fun own hc => h own (by simp [hc])
    rw [List.foldl_cons]
    cases s with
    | define n ex => cases ex <;> exact ih hl
    | exporter own => exact absurd (by simp) (h own)
    | _ => exact ih hl

/-! ### `from m import *` -/

theorem bindAll_names {m : String} {src : PyDict String Obj} (names : List String) (st st' : St)
    (h : bindAll m src names st = .ok st') :
    (∀ n ∈ names, (st'.ns m).names.get? n = src.get? n ∧ n ∈ src.keys) ∧
    (∀ n, n ∉ names → (st'.ns m).names.get? n = (st.ns m).names.get? n) ∧ (∀ x, x ≠ m → st'.ns x = st.ns x) := by
  induction names generalizing st with
  | nil => rw [bindAll] at h; cases h; simp
  | cons n ns ih =>
    rw [bindAll] at h
    cases hx : src.get? n with
    | none => rw [hx] at h; cases h
    | some o =>
      rw [hx] at h
      obtain ⟨h1, h2, h3⟩ := ih _ h
      have hself : ((st.bind m n o).ns m).names = (st.ns m).names.set n o := by rw [ns_bind, if_pos rfl]
      refine ⟨?_, ?_, ?_⟩
      · intro k hk
        by_cases hkn : k ∈ ns
        · exact h1 k hkn
        · rcases List.mem_cons.1 hk with rfl | hk
          · rw [h2 k hkn, hself, PyDict.get?_set_self, hx]
            exact ⟨rfl, (PyDict.mem_keys_iff_exists _ _).2 ⟨o, hx⟩⟩
          · exact absurd hk hkn
      · intro k hk
        simp only [List.mem_cons, not_or] at hk
        rw [h2 k hk.2, hself, PyDict.get?_set_ne _ _ (Ne.symm hk.1)]
      · intro x hxm
        rw [h3 x hxm, ns_bind, if_neg (Ne.symm hxm)]

theorem bindAll_error {m : String} {src : PyDict String Obj} (names : List String) (st : St) (n : String) (hn : n ∈ names)
    (hs : n ∉ src.keys) : bindAll m src names st = .error .attributeError := by
  induction names generalizing st with
  | nil => simp at hn
  | cons k ns ih =>
    rw [bindAll]
    cases hx : src.get? k with
    | none => rfl
    | some o =>
      rcases List.mem_cons.1 hn with rfl | hn
      · exact absurd ((PyDict.mem_keys_iff_exists _ _).2 ⟨o, hx⟩) hs
      · exact ih _ hn

end Verif.Names
