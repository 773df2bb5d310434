/- Helper lemmas about dependency resolution (not claims). -/
import Verif.Model.Registry
import Verif.Spec.Deps
import Mathlib.Data.List.Perm.Subperm

namespace Verif.Comp
open Verif

variable {reg : Registry} {nodep : String}

/-- Entries of a list of names, without accumulator. -/
def entriesOf (reg : Registry) (nodep : String) : List String → Res (List Entry)
  | [] => .ok []
  | n :: ns =>
    if n = nodep then entriesOf reg nodep ns
    else match reg.get? n with
      | none => .error .valueError
      | some p => do let r ← entriesOf reg nodep ns; return ⟨p, n⟩ :: r

theorem appendEntries_ok (names : List String) (acc r : List Entry) :
    appendEntries reg nodep names acc = .ok r ↔
      ∃ es, entriesOf reg nodep names = .ok es ∧ r = acc ++ es := by
  induction names generalizing acc with
  | nil =>
    simp only [appendEntries, entriesOf]
    constructor
    · intro h; cases h; exact ⟨[], rfl, by simp⟩
    · rintro ⟨es, h, rfl⟩; cases h; simp
  | cons n ns ih =>
    simp only [appendEntries, entriesOf]
    split
    · exact ih acc
    · cases hp : reg.get? n with
      | none =>
        constructor
        · intro h; cases h
        · rintro ⟨_, h, _⟩; cases h
      | some p =>
        simp only
        rw [ih]
        constructor
        · rintro ⟨es, h1, rfl⟩
          exact ⟨⟨p, n⟩ :: es, by rw [h1]; rfl, by simp⟩
        · rintro ⟨es, h1, rfl⟩
          cases he : entriesOf reg nodep ns with
          | error e => rw [he] at h1; cases h1
          | ok es' => rw [he] at h1; cases h1; exact ⟨es', rfl, by simp⟩

theorem entriesOf_ok_iff (names : List String) (es : List Entry)
    (h : entriesOf reg nodep names = .ok es) :
    (∀ n ∈ names, n ≠ nodep → ∃ p, reg.get? n = some p ∧ (⟨p, n⟩ : Entry) ∈ es) ∧
    (∀ e ∈ es, e.data ∈ names ∧ e.data ≠ nodep ∧ reg.get? e.data = some e.plugin) := by
  induction names generalizing es with
  | nil => cases h; simp
  | cons n ns ih =>
    simp only [entriesOf] at h
    split at h
    · rename_i hn
      obtain ⟨h1, h2⟩ := ih es h
      refine ⟨?_, ?_⟩
      · intro m hm hne
        rcases List.mem_cons.1 hm with rfl | hm
        · exact absurd hn hne
        · exact h1 m hm hne
      · intro e he
        obtain ⟨a, b, c⟩ := h2 e he
        exact ⟨List.mem_cons_of_mem _ a, b, c⟩
    · rename_i hn
      split at h
      · cases h
      · rename_i p hp
        cases he : entriesOf reg nodep ns with
        | error e => rw [he] at h; cases h
        | ok es' =>
          rw [he] at h
          cases h
          obtain ⟨h1, h2⟩ := ih es' he
          refine ⟨?_, ?_⟩
          · intro m hm hne
            rcases List.mem_cons.1 hm with rfl | hm
            · exact ⟨p, hp, by simp⟩
            · obtain ⟨q, hq, hq'⟩ := h1 m hm hne
              exact ⟨q, hq, List.mem_cons_of_mem _ hq'⟩
          · intro e hem
            rcases List.mem_cons.1 hem with rfl | hem
            · exact ⟨by simp, hn, hp⟩
            · obtain ⟨a, b, c⟩ := h2 e hem
              exact ⟨List.mem_cons_of_mem _ a, b, c⟩

theorem entriesOf_succeeds (names : List String)
    (h : ∀ n ∈ names, n ≠ nodep → ∃ p, reg.get? n = some p) :
    ∃ es, entriesOf reg nodep names = .ok es := by
  induction names with
  | nil => exact ⟨[], rfl⟩
  | cons n ns ih =>
    obtain ⟨es, hes⟩ := ih (fun m hm => h m (List.mem_cons_of_mem _ hm))
    simp only [entriesOf]
    split
    · exact ⟨es, hes⟩
    · rename_i hn
      obtain ⟨p, hp⟩ := h n (by simp) hn
      rw [hp, hes]
      exact ⟨_, rfl⟩

/-- What a successful resolution of `names` appended: the entries of the names, then one block per name. -/
inductive Blocks (reg : Registry) (nodep : String) (fuel : Nat) : List String → List Entry → Prop
  | nil : Blocks reg nodep fuel [] []
  | skip {ns r} : Blocks reg nodep fuel ns r → Blocks reg nodep fuel (nodep :: ns) r
  | cons {n ns p b r} : n ≠ nodep → reg.get? n = some p →
      (∀ acc, deduceDeps reg nodep fuel p.dependsOn acc = .ok (acc ++ b)) →
      Blocks reg nodep fuel ns r → Blocks reg nodep fuel (n :: ns) (b ++ r)

theorem deduce_ok (fuel : Nat) (names : List String) (acc r : List Entry)
    (h : deduceDeps reg nodep fuel names acc = .ok r) :
    ∃ f es bs, fuel = f + 1 ∧ entriesOf reg nodep names = .ok es ∧ Blocks reg nodep f names bs ∧
      r = acc ++ (es ++ bs) ∧ ∀ acc', deduceDeps reg nodep fuel names acc' = .ok (acc' ++ (es ++ bs)) := by
  induction fuel generalizing names acc r with
  | zero => cases h
  | succ f ih =>
    have loop : ∀ (ns : List String) (acc r : List Entry),
        ns.foldlM (fun acc n =>
          if n = nodep then .ok acc
          else match reg.get? n with
            | none => .error .keyError
            | some p => deduceDeps reg nodep f p.dependsOn acc) acc = (.ok r : Res (List Entry)) →
        ∃ bs, Blocks reg nodep f ns bs ∧ r = acc ++ bs := by
      intro ns
      induction ns with
      | nil => intro acc r h; cases h; exact ⟨[], .nil, by simp⟩
      | cons n ns ihn =>
        intro acc r h
        rw [List.foldlM_cons] at h
        by_cases hn : n = nodep
        · subst hn
          simp only [if_true] at h
          obtain ⟨bs, h1, h2⟩ := ihn acc r h
          exact ⟨bs, .skip h1, h2⟩
        · simp only [hn, if_false] at h
          cases hp : reg.get? n with
          | none => rw [hp] at h; cases h
          | some p =>
            rw [hp] at h
            simp only at h
            cases hd : deduceDeps reg nodep f p.dependsOn acc with
            | error e => rw [hd] at h; cases h
            | ok r1 =>
              rw [hd] at h
              obtain ⟨f', es1, bs1, hf, he1, hb1, hr1, hall⟩ := ih p.dependsOn acc r1 hd
              obtain ⟨bs, h1, h2⟩ := ihn r1 r h
              refine ⟨(es1 ++ bs1) ++ bs, .cons hn hp hall h1, ?_⟩
              rw [h2, hr1]; simp
    have loop' : ∀ (ns : List String) (bs : List Entry), Blocks reg nodep f ns bs →
        ∀ acc, ns.foldlM (fun acc n =>
          if n = nodep then .ok acc
          else match reg.get? n with
            | none => .error .keyError
            | some p => deduceDeps reg nodep f p.dependsOn acc) acc
          = (.ok (acc ++ bs) : Res (List Entry)) := by
      intro ns bs hb
      induction hb with
      | nil => intro acc; simp; rfl
      | skip _ ihb =>
        intro acc
        rw [List.foldlM_cons]
        simp only [if_true]
        exact ihb acc
      | cons hn hp hall _ ihb =>
        intro acc
        rw [List.foldlM_cons]
        simp only [hn, if_false, hp, hall]
        show List.foldlM _ _ _ = _
        rw [ihb]; simp
    unfold deduceDeps at h
    cases ha : appendEntries reg nodep names acc with
    | error e => rw [ha] at h; cases h
    | ok a1 =>
      rw [ha] at h
      obtain ⟨es, hes, rfl⟩ := (appendEntries_ok names acc a1).1 ha
      obtain ⟨bs, hb, rfl⟩ := loop names _ _ h
      refine ⟨f, es, bs, rfl, hes, hb, by simp, ?_⟩
      intro acc'
      unfold deduceDeps
      rw [(appendEntries_ok names acc' _).2 ⟨es, hes, rfl⟩]
      exact (loop' names bs hb _).trans (by simp)

/-- Every dependency of an entry occurs later in the list. -/
def DepsLater (nodep : String) (l : List Entry) : Prop :=
  ∀ pre x post, l = pre ++ x :: post → ∀ d ∈ x.plugin.dependsOn, d ≠ nodep → ∃ y ∈ post, y.data = d

theorem DepsLater.append {a b : List Entry} (ha : ∀ x ∈ a, ∀ d ∈ x.plugin.dependsOn, d ≠ nodep →
    ∃ y ∈ b, y.data = d) (hb : DepsLater nodep b) : DepsLater nodep (a ++ b) := by
  intro pre x post heq d hd hne
  rcases List.append_eq_append_iff.1 heq with ⟨c, h1, h2⟩ | ⟨c, h1, h2⟩
  · exact hb c x post h2 d hd hne
  · cases c with
    | nil =>
      simp only [List.nil_append] at h2
      exact hb [] x post h2.symm d hd hne
    | cons y c =>
      simp only [List.cons_append, List.cons.injEq] at h2
      obtain ⟨rfl, rfl⟩ := h2
      obtain ⟨z, hz, hz'⟩ := ha x (by rw [h1]; simp) d hd hne
      exact ⟨z, by simp [hz], hz'⟩

theorem DepsLater.append' {a b : List Entry} (ha : DepsLater nodep a) (hb : DepsLater nodep b) :
    DepsLater nodep (a ++ b) := by
  intro pre x post heq d hd hne
  rcases List.append_eq_append_iff.1 heq with ⟨c, h1, h2⟩ | ⟨c, h1, h2⟩
  · exact hb c x post h2 d hd hne
  · cases c with
    | nil =>
      simp only [List.nil_append] at h2
      exact hb [] x post h2.symm d hd hne
    | cons y c =>
      simp only [List.cons_append, List.cons.injEq] at h2
      obtain ⟨rfl, rfl⟩ := h2
      obtain ⟨z, hz, hz'⟩ := ha pre x c h1 d hd hne
      exact ⟨z, by simp [hz], hz'⟩

theorem Blocks.mem {f : Nat} {ns : List String} {bs : List Entry} (h : Blocks reg nodep f ns bs)
    {n : String} (hn : n ∈ ns) (hne : n ≠ nodep) :
    ∃ p b, reg.get? n = some p ∧ deduceDeps reg nodep f p.dependsOn [] = .ok b ∧ ∀ x ∈ b, x ∈ bs := by
  induction h with
  | nil => simp at hn
  | skip _ ih =>
    rcases List.mem_cons.1 hn with rfl | hn
    · exact absurd rfl hne
    · exact ih hn
  | cons hne' hp hall _ ih =>
    rcases List.mem_cons.1 hn with rfl | hn
    · exact ⟨_, _, hp, by simpa using hall [], fun x hx => by simp [hx]⟩
    · obtain ⟨p, b, h1, h2, h3⟩ := ih hn
      exact ⟨p, b, h1, h2, fun x hx => by simp [h3 x hx]⟩

theorem deduce_depsLater (fuel : Nat) (names : List String) (r : List Entry)
    (h : deduceDeps reg nodep fuel names [] = .ok r) : DepsLater nodep r := by
  induction fuel generalizing names r with
  | zero => cases h
  | succ f ih =>
    obtain ⟨f', es, bs, hf, hes, hbs, hr, -⟩ := deduce_ok _ _ _ _ h
    cases hf
    rw [List.nil_append] at hr
    subst hr
    have hb : DepsLater nodep bs := by
      clear hes h
      induction hbs with
      | nil => intro pre x post heq; simp at heq
      | skip _ ihb => exact ihb
      | cons hn hp hall _ ihb =>
        exact DepsLater.append' (ih _ _ (by simpa using hall [])) ihb
    apply DepsLater.append _ hb
    intro x hx d hd hne
    obtain ⟨hx1, hx2, hx3⟩ := (entriesOf_ok_iff names es hes).2 x hx
    obtain ⟨p, b, hp, hd', hsub⟩ := hbs.mem hx1 hx2
    rw [hx3] at hp; cases hp
    obtain ⟨f'', es2, bs2, -, hes2, -, hb2, -⟩ := deduce_ok _ _ _ _ hd'
    obtain ⟨q, _, hq⟩ := (entriesOf_ok_iff _ es2 hes2).1 d hd hne
    exact ⟨⟨q, d⟩, hsub _ (by rw [hb2]; simp [hq]), rfl⟩

theorem deduce_mem_iff (fuel : Nat) (names : List String) (r : List Entry)
    (h : deduceDeps reg nodep fuel names [] = .ok r) (e : Entry) :
    e ∈ r ↔ Reach reg nodep names e.data ∧ reg.get? e.data = some e.plugin := by
  induction fuel generalizing names r with
  | zero => cases h
  | succ f ih =>
    obtain ⟨f', es, bs, hf, hes, hbs, hr, -⟩ := deduce_ok _ _ _ _ h
    cases hf
    rw [List.nil_append] at hr
    subst hr
    simp only [List.mem_append]
    constructor
    · rintro (he | he)
      · obtain ⟨a, b, c⟩ := (entriesOf_ok_iff names es hes).2 e he
        exact ⟨.root a b, c⟩
      · clear hes h
        induction hbs with
        | nil => simp at he
        | skip _ ihb =>
          obtain ⟨h1, h2⟩ := ihb he
          exact ⟨h1.mono (fun x hx => List.mem_cons_of_mem _ hx), h2⟩
        | cons hn hp hall _ ihb =>
          rcases List.mem_append.1 he with he | he
          · obtain ⟨h1, h2⟩ := (ih _ _ (by simpa using hall [])).1 he
            exact ⟨Reach.under (by simp) hn hp h1, h2⟩
          · obtain ⟨h1, h2⟩ := ihb he
            exact ⟨h1.mono (fun x hx => List.mem_cons_of_mem _ hx), h2⟩
    · rintro ⟨hr, hg⟩
      rcases hr.cases_root with ⟨h1, h2⟩ | ⟨n, p, hn, hne, hp, hr'⟩
      · left
        obtain ⟨q, hq, hq'⟩ := (entriesOf_ok_iff names es hes).1 e.data h1 h2
        rw [hg] at hq; cases hq
        exact hq'
      · right
        obtain ⟨p', b, hp', hd', hsub⟩ := hbs.mem hn hne
        rw [hp] at hp'; cases hp'
        exact hsub e ((ih _ _ hd').2 ⟨hr', hg⟩)

theorem deduce_complete (fuel : Nat) (names : List String) (r : List Entry)
    (h : deduceDeps reg nodep fuel names [] = .ok r) (d : String) (hd : Reach reg nodep names d) :
    ∃ p, reg.get? d = some p := by
  induction fuel generalizing names r with
  | zero => cases h
  | succ f ih =>
    obtain ⟨f', es, bs, hf, hes, hbs, hr, -⟩ := deduce_ok _ _ _ _ h
    cases hf
    rcases hd.cases_root with ⟨h1, h2⟩ | ⟨n, p, hn, hne, hp, hr'⟩
    · obtain ⟨q, hq, _⟩ := (entriesOf_ok_iff names es hes).1 d h1 h2
      exact ⟨q, hq⟩
    · obtain ⟨p', b, hp', hd', _⟩ := hbs.mem hn hne
      rw [hp] at hp'; cases hp'
      exact ih _ _ hd' hr'

/-- Conversely, the resolution succeeds when each block does. -/
theorem deduce_of_blocks (f : Nat) (names : List String)
    (h : ∀ n ∈ names, n ≠ nodep → ∃ p, reg.get? n = some p ∧
      ∃ b, deduceDeps reg nodep f p.dependsOn [] = .ok b) :
    ∃ r, deduceDeps reg nodep (f + 1) names [] = .ok r := by
  obtain ⟨es, hes⟩ := entriesOf_succeeds (reg := reg) (nodep := nodep) names
    (fun n hn hne => let ⟨p, hp, _⟩ := h n hn hne; ⟨p, hp⟩)
  have loop : ∀ (ns : List String) (acc : List Entry), (∀ n ∈ ns, n ≠ nodep → ∃ p,
      reg.get? n = some p ∧ ∃ b, deduceDeps reg nodep f p.dependsOn [] = .ok b) →
      ∃ r, ns.foldlM (fun acc n =>
          if n = nodep then .ok acc
          else match reg.get? n with
            | none => .error .keyError
            | some p => deduceDeps reg nodep f p.dependsOn acc) acc = (.ok r : Res (List Entry)) := by
    intro ns
    induction ns with
    | nil => intro acc _; exact ⟨acc, rfl⟩
    | cons n ns ih =>
      intro acc h
      rw [List.foldlM_cons]
      have ih' := fun a => ih a (fun m hm => h m (List.mem_cons_of_mem _ hm))
      by_cases hn : n = nodep
      · simp only [hn, if_true]
        exact ih' acc
      · obtain ⟨p, hp, b, hb⟩ := h n (by simp) hn
        obtain ⟨_, es, bs, _, _, _, _, hall⟩ := deduce_ok _ _ _ _ hb
        simp only [hn, if_false, hp, hall]
        exact ih' _
  obtain ⟨r, hr⟩ := loop names es h
  refine ⟨r, ?_⟩
  unfold deduceDeps
  rw [(appendEntries_ok names [] es).2 ⟨es, hes, rfl⟩]
  exact hr

theorem deduce_no_long_path (fuel : Nat) (names : List String) (r : List Entry)
    (h : deduceDeps reg nodep fuel names [] = .ok r) (n : String) (hn : n ∈ names) (k : Nat)
    (hk : Path reg nodep k n) : k + 1 < fuel := by
  induction fuel generalizing names r n k with
  | zero => cases h
  | succ f ih =>
    have hne : n ≠ nodep := by
      cases hk with
      | zero h => exact h
      | step h _ => exact h.1
    obtain ⟨f', es, bs, hf, hes, hbs, hr, -⟩ := deduce_ok _ _ _ _ h
    cases hf
    obtain ⟨p', b, hp', hd', _⟩ := hbs.mem hn hne
    cases hk with
    | zero =>
      obtain ⟨f', _, _, hf, _⟩ := deduce_ok _ _ _ _ hd'
      omega
    | step hd hp =>
      obtain ⟨hne, _, p, hp1, hp2⟩ := hd
      rw [hp1] at hp'; cases hp'
      have := ih _ _ hd' _ hp2 _ hp
      omega

theorem deduce_of_no_long_path (fuel : Nat) (names : List String) (hpos : 0 < fuel)
    (hcomp : ∀ d, Reach reg nodep names d → ∃ p, reg.get? d = some p)
    (hp : ∀ n ∈ names, ∀ k, Path reg nodep k n → k + 1 < fuel) :
    ∃ r, deduceDeps reg nodep fuel names [] = .ok r := by
  induction fuel generalizing names with
  | zero => omega
  | succ f ih =>
    apply deduce_of_blocks
    intro n hn hne
    obtain ⟨p, hg⟩ := hcomp n (.root hn hne)
    refine ⟨p, hg, ih _ ?_ ?_ ?_⟩
    · have := hp n hn 0 (.zero hne); omega
    · intro d hd; exact hcomp d (hd.under hn hne hg)
    · intro m hm k hk
      have hmne : m ≠ nodep := by
        cases hk with
        | zero h => exact h
        | step h _ => exact h.1
      have := hp n hn (k + 1) (.step ⟨hne, hmne, p, hg, hm⟩ hk)
      omega

theorem Path.of_transGen {d e : String} (h : Relation.TransGen (DirectDep reg nodep) d e) {k : Nat}
    (hk : Path reg nodep k e) : ∃ k', k < k' ∧ Path reg nodep k' d := by
  induction h using Relation.TransGen.head_induction_on with
  | single h => exact ⟨k + 1, by omega, .step h hk⟩
  | head h _ ih =>
    obtain ⟨k', h1, h2⟩ := ih
    exact ⟨k' + 1, by omega, .step h h2⟩

theorem Path.of_reach {names : List String} {d : String} (h : Reach reg nodep names d) {k : Nat}
    (hk : Path reg nodep k d) : ∃ n ∈ names, ∃ k', k ≤ k' ∧ Path reg nodep k' n := by
  induction h generalizing k with
  | root h1 _ => exact ⟨_, h1, k, Nat.le_refl _, hk⟩
  | dep hr hp he hne ih =>
    obtain ⟨n, hn, k', h1, h2⟩ := ih (.step ⟨hr.ne, hne, _, hp, he⟩ hk)
    exact ⟨n, hn, k', by omega, h2⟩

/-- Enough recursion depth: the number of registered names not yet on the path, plus one. -/
theorem deduce_terminates (fuel : Nat) (names visited : List String)
    (hcomp : ∀ d, Reach reg nodep names d → ∃ p, reg.get? d = some p)
    (hac : ∀ d, Reach reg nodep names d → ¬ Relation.TransGen (DirectDep reg nodep) d d)
    (hv : ∀ v ∈ visited, v ∈ reg.keys ∧
      ∀ n ∈ names, n ≠ nodep → Relation.TransGen (DirectDep reg nodep) v n)
    (hnd : visited.Nodup)
    (hf : reg.keys.length + 1 ≤ fuel + visited.length) :
    ∃ r, deduceDeps reg nodep fuel names [] = .ok r := by
  induction fuel generalizing names visited with
  | zero =>
    exfalso
    have : visited.length ≤ reg.keys.length :=
      (List.subperm_of_subset hnd (fun v hm => (hv v hm).1)).length_le
    omega
  | succ f ih =>
    apply deduce_of_blocks
    intro n hn hne
    obtain ⟨p, hp⟩ := hcomp n (.root hn hne)
    refine ⟨p, hp, ?_⟩
    have hnv : n ∉ visited := fun hc => hac n (.root hn hne) ((hv n hc).2 n hn hne)
    apply ih p.dependsOn (n :: visited)
    · intro d hd; exact hcomp d (hd.under hn hne hp)
    · intro d hd; exact hac d (hd.under hn hne hp)
    · intro v hvm
      rcases List.mem_cons.1 hvm with rfl | hvm
      · refine ⟨(PyDict.mem_keys_iff_exists _ _).2 ⟨p, hp⟩, fun m hm hmne => ?_⟩
        exact .single ⟨hne, hmne, p, hp, hm⟩
      · refine ⟨(hv v hvm).1, fun m hm hmne => ?_⟩
        exact ((hv v hvm).2 n hn hne).tail ⟨hne, hmne, p, hp, hm⟩
    · exact List.nodup_cons.2 ⟨hnv, hnd⟩
    · simp only [List.length_cons]; omega

/-! ### The worksheet -/

/-- First occurrences by name of a list of plugins, given names already seen. -/
def firsts : List Plugin → List String → List Plugin
  | [], _ => []
  | p :: ps, seen => if p.name ∈ seen then firsts ps seen else p :: firsts ps (seen ++ [p.name])

theorem simplifyLoop_eq (es : List Entry) (seen : List String) (ws : List Plugin) :
    simplifyLoop es seen ws = ws ++ firsts (es.map Entry.plugin) seen := by
  induction es generalizing seen ws with
  | nil => simp [simplifyLoop, firsts]
  | cons e es ih =>
    simp only [simplifyLoop, List.map_cons, firsts]
    split
    · exact ih _ _
    · rw [ih]; simp

theorem worksheet_eq (deps : List Entry) :
    worksheet deps = firsts (deps.reverse.map Entry.plugin) [] := by
  rw [worksheet, simplifyLoop_eq]; simp

theorem mem_of_mem_firsts {ps : List Plugin} {seen : List String} {p : Plugin}
    (h : p ∈ firsts ps seen) : p ∈ ps ∧ p.name ∉ seen := by
  induction ps generalizing seen with
  | nil => simp [firsts] at h
  | cons q ps ih =>
    simp only [firsts] at h
    split at h
    · obtain ⟨a, b⟩ := ih h; exact ⟨List.mem_cons_of_mem _ a, b⟩
    · rename_i hq
      rcases List.mem_cons.1 h with rfl | h
      · exact ⟨by simp, hq⟩
      · obtain ⟨a, b⟩ := ih h
        exact ⟨List.mem_cons_of_mem _ a, fun hc => b (by simp [hc])⟩

theorem firsts_names_nodup (ps : List Plugin) (seen : List String) :
    ((firsts ps seen).map Plugin.name).Nodup := by
  induction ps generalizing seen with
  | nil => simp [firsts]
  | cons q ps ih =>
    simp only [firsts]
    split
    · exact ih _
    · rw [List.map_cons, List.nodup_cons]
      refine ⟨?_, ih _⟩
      intro hc
      obtain ⟨p, hp, hpn⟩ := List.mem_map.1 hc
      exact (mem_of_mem_firsts hp).2 (by simp [hpn])

theorem exists_firsts_of_mem {ps : List Plugin} {seen : List String} {p : Plugin} (h : p ∈ ps)
    (hs : p.name ∉ seen) : ∃ q ∈ firsts ps seen, q.name = p.name := by
  induction ps generalizing seen with
  | nil => simp at h
  | cons q ps ih =>
    simp only [firsts]
    split
    · rename_i hq
      rcases List.mem_cons.1 h with rfl | h
      · exact absurd hq hs
      · exact ih h hs
    · rcases List.mem_cons.1 h with rfl | h
      · exact ⟨p, by simp, rfl⟩
      · by_cases hpq : p.name = q.name
        · exact ⟨q, by simp, hpq.symm⟩
        · obtain ⟨r, hr, hr'⟩ := ih (seen := seen ++ [q.name]) h (by simp [hs, hpq])
          exact ⟨r, List.mem_cons_of_mem _ hr, hr'⟩

/-- An element of `firsts` at some place: the elements of the source list before it are all
represented, by name, before it. -/
theorem firsts_split {ps : List Plugin} {seen : List String} {pre : List Plugin} {p : Plugin}
    {post : List Plugin} (h : firsts ps seen = pre ++ p :: post) :
    ∃ pre' post', ps = pre' ++ p :: post' ∧
      ∀ q ∈ pre', q.name ∈ seen ∨ ∃ q' ∈ pre, q'.name = q.name := by
  induction ps generalizing seen pre with
  | nil => simp [firsts] at h
  | cons q ps ih =>
    simp only [firsts] at h
    split at h
    · rename_i hq
      obtain ⟨pre', post', rfl, h2⟩ := ih h
      refine ⟨q :: pre', post', by simp, ?_⟩
      intro r hr
      rcases List.mem_cons.1 hr with rfl | hr
      · exact Or.inl hq
      · exact h2 r hr
    · cases pre with
      | nil =>
        simp only [List.nil_append, List.cons.injEq] at h
        obtain ⟨rfl, _⟩ := h
        exact ⟨[], ps, by simp, by simp⟩
      | cons a pre =>
        simp only [List.cons_append, List.cons.injEq] at h
        obtain ⟨rfl, h⟩ := h
        obtain ⟨pre', post', rfl, h2⟩ := ih h
        refine ⟨q :: pre', post', by simp, ?_⟩
        intro r hr
        rcases List.mem_cons.1 hr with rfl | hr
        · exact Or.inr ⟨r, by simp, rfl⟩
        · rcases h2 r hr with h3 | ⟨q', hq', h3⟩
          · rcases List.mem_append.1 h3 with h3 | h3
            · exact Or.inl h3
            · exact Or.inr ⟨q, by simp, by simpa using (List.mem_singleton.1 h3).symm⟩
          · exact Or.inr ⟨q', by simp [hq'], h3⟩

end Verif.Comp
