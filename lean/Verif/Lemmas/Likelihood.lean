/-
Helper lemmas about likelihoods.
-/
import Verif.Spec.Likelihood
import Verif.Lemmas.Interp
import Verif.Lemmas.CompHist
import Verif.Props.Hist

namespace Verif.Llh
open Verif

section
variable {F : Type} [Field F] [LinearOrder F]

theorem inside_iff (c : F × F) (row : List (Option F)) (i : Nat) :
    inside c (entry row i) = true ↔ StrictlyBetween c row i := by
  unfold entry StrictlyBetween
  cases h : row[i]? with
  | none => simp [inside]
  | some o => cases o with
    | none => simp [inside]
    | some v => simp [inside]

theorem weightOf_all {S : Type} (p : S → Prop) [DecidablePred p] (l : List S) (h : ∀ s ∈ l, p s) :
    Hist.weightOf p (l.map (fun s => (s, (1 : F)))) = (l.length : F) := by
  induction l with
  | nil => simp [Hist.weightOf_nil]
  | cons s l ih =>
    rw [List.map_cons, Hist.weightOf_cons, ih (fun t ht => h t (by simp [ht])), if_pos (h s (by simp))]
    push_cast [List.length_cons]; ring

theorem unit1_eq (rows : List (List (Option F))) :
    unit1 rows = (rows.map (fun r => entry r 0)).map (fun s => (s, (1 : F))) := by
  simp [unit1]

theorem unit2_eq (rows : List (List (Option F))) :
    unit2 rows = (rows.map (fun r => (entry r 0, entry r 1))).map (fun s => (s, (1 : F))) := by
  simp [unit2]

theorem entry_between {c : F × F} {row : List (Option F)} {i : Nat} (h : StrictlyBetween c row i) :
    ∃ v, entry row i = some v ∧ c.1 < v ∧ v < c.2 := by
  obtain ⟨v, h1, h2⟩ := h
  exact ⟨v, by unfold entry; rw [h1]; rfl, h2⟩

theorem entry_iff (row : List (Option F)) (i : Nat) (v : F) : entry row i = some v ↔ row[i]? = some (some v) := by
  unfold entry
  cases row[i]? <;> simp

theorem weightOf_unit {S : Type} (p : S → Prop) [DecidablePred p] (l : List S) :
    Hist.weightOf p (l.map (fun s => (s, (1 : F)))) = ((l.countP (fun s => decide (p s)) : ℕ) : F) := by
  induction l with
  | nil => simp [Hist.weightOf]
  | cons a l ih =>
    unfold Hist.weightOf at ih ⊢
    by_cases hp : p a
    · simp [hp, ih, add_comm]
    · simp [hp, ih]

theorem inBin_iff (e : List F) (j : Nat) (hj : j + 1 < e.length) (row : List (Option F)) (k : Nat) :
    Hist.InBin e[j] e[j + 1] (entry row k) ↔ InUpper e j row k := by
  constructor
  · rintro ⟨v, h, h1, h2⟩
    exact ⟨_, _, v, List.getElem?_eq_getElem (by omega), List.getElem?_eq_getElem hj, (entry_iff ..).1 h, h1, h2⟩
  · rintro ⟨lo, hi, v, h1, h2, h3, h4, h5⟩
    rw [List.getElem?_eq_getElem (by omega)] at h1
    rw [List.getElem?_eq_getElem hj] at h2
    cases h1; cases h2
    exact ⟨v, (entry_iff ..).2 h3, h4, h5⟩

theorem inMesh_iff (e : List F) (j : Nat) (hj : j + 1 < e.length) (row : List (Option F)) (k : Nat) :
    Hist.InMeshBin e[j] e[j + 1] (decide (j + 2 = e.length)) (entry row k) ↔ InLower e j row k := by
  constructor
  · rintro ⟨v, h, h1, h2⟩
    exact ⟨_, _, v, List.getElem?_eq_getElem (by omega), List.getElem?_eq_getElem hj, (entry_iff ..).1 h, h1, by simpa using h2⟩
  · rintro ⟨lo, hi, v, h1, h2, h3, h4, h5⟩
    rw [List.getElem?_eq_getElem (by omega)] at h1
    rw [List.getElem?_eq_getElem hj] at h2
    cases h1; cases h2
    exact ⟨v, (entry_iff ..).2 h3, h4, by simpa using h5⟩

open Classical in
theorem makeDataHist_at (bins : Comp.Bins F) (rows : List (List (Option F))) (ha : Ascending bins) (i j : Nat)
    (hij : IsBin bins i j) :
    at? (makeDataHist bins rows) i j = some ((rows.countP (fun r => decide (EventIn bins i j r)) : ℕ) : F) := by
  cases bins with
  | irreg1 e =>
    obtain ⟨rfl, hj⟩ := hij
    simp only [makeDataHist, at?, List.getElem?_cons_zero, Option.bind_some]
    rw [(Hist.C06_hist1d_bins e ha _).2 j hj, unit1_eq, weightOf_unit, List.countP_map]
    congr 2
    apply List.countP_congr
    intro r _
    simp [EventIn, ← inBin_iff e j hj r 0]
  | mesh1 e =>
    obtain ⟨rfl, hj⟩ := hij
    simp only [makeDataHist, at?, List.getElem?_cons_zero, Option.bind_some]
    rw [Hist.C09_mesh1d_bins e ha _ j hj, unit1_eq, weightOf_unit, List.countP_map]
    congr 2
    apply List.countP_congr
    intro r _
    simp [EventIn, ← inMesh_iff e j hj r 0]
  | irreg2 x y =>
    obtain ⟨hi, r, hr, hj⟩ := hij
    obtain ⟨hx, hlen, m, hm⟩ := ha
    have hmr : r.length = m := (hm r (List.mem_of_getElem? hr)).1
    have hhead : (y.head?.getD []).length = m := by
      cases y with
      | nil => simp at hr
      | cons a y => exact (hm a (by simp)).1
    simp only [makeDataHist, at?]
    rw [hhead]
    obtain ⟨row, h1, h2⟩ := (Hist.C07_hist2d_bins x y m hx hlen hm (unit2 rows)).2.2 i j hi r hr hj
    rw [h1, Option.bind_some, h2, unit2_eq, weightOf_unit, List.countP_map]
    congr 2
    apply List.countP_congr
    intro q _
    simp [EventIn, inBin_iff x i hi q 0, inBin_iff r j hj q 1, hr]
  | mesh2 x y =>
    obtain ⟨hi, hj⟩ := hij
    obtain ⟨row, h1, _, h2⟩ := (Hist.C09_mesh2d_bins x y ha.1 ha.2 (unit2 rows)).2 i j hi hj
    simp only [makeDataHist, at?]
    rw [h1, Option.bind_some, h2, unit2_eq, weightOf_unit, List.countP_map]
    congr 2
    apply List.countP_congr
    intro q _
    simp [EventIn, ← inMesh_iff x i hi q 0, ← inMesh_iff y j hj q 1]
  | irregOther n => exact absurd hij id
  | unset n => exact absurd hij id

theorem makeDataHist_total (cfg : Config F) (bins : Comp.Bins F) (rows : List (List (Option F)))
    (ho : OuterEdges cfg bins)
    (h1 : bins.dims = 1 → ∀ c, cfg.clip = some c → ∀ r ∈ rows, StrictlyBetween c r 0)
    (h2 : bins.dims = 2 → ∀ cx cy, cfg.xClip = some cx → cfg.yClip = some cy → ∀ r ∈ rows,
      StrictlyBetween cx r 0 ∧ StrictlyBetween cy r 1) :
    Comp.total (makeDataHist bins rows) = (rows.length : F) := by
  classical
  cases bins with
  | irreg1 e =>
    obtain ⟨c, hc, mid, rfl, hs⟩ := ho
    simp only [makeDataHist, Comp.total, List.map_cons, List.map_nil, List.sum_cons, List.sum_nil, add_zero]
    rw [Hist.C08_hist1d_total c.1 c.2 mid hs, unit1_eq, weightOf_all]
    · simp
    · intro s hs
      obtain ⟨r, hr, rfl⟩ := List.mem_map.1 hs
      obtain ⟨v, e, a, b⟩ := entry_between (h1 rfl c hc r hr)
      exact ⟨v, e, a, le_of_lt b⟩
  | mesh1 e =>
    obtain ⟨c, hc, mid, rfl, hs⟩ := ho
    simp only [makeDataHist, Comp.total, List.map_cons, List.map_nil, List.sum_cons, List.sum_nil, add_zero]
    rw [Hist.C09_mesh1d_total c.1 c.2 mid hs, unit1_eq, weightOf_all]
    · simp
    · intro s hs
      obtain ⟨r, hr, rfl⟩ := List.mem_map.1 hs
      obtain ⟨v, e, a, b⟩ := entry_between (h1 rfl c hc r hr)
      exact ⟨v, e, le_of_lt a, le_of_lt b⟩
  | mesh2 x y =>
    obtain ⟨cx, cy, hx, hy, ⟨mx, rfl, sx⟩, ⟨my, rfl, sy⟩⟩ := ho
    simp only [makeDataHist, Comp.total]
    rw [Hist.C09_mesh2d_total cx.1 cx.2 cy.1 cy.2 mx my sx sy, unit2_eq, weightOf_all]
    · simp
    · intro s hs
      obtain ⟨r, hr, rfl⟩ := List.mem_map.1 hs
      obtain ⟨b1, b2⟩ := h2 rfl cx cy hx hy r hr
      obtain ⟨v, e, a, b⟩ := entry_between b1
      obtain ⟨v', e', a', b'⟩ := entry_between b2
      exact ⟨⟨v, e, le_of_lt a, le_of_lt b⟩, ⟨v', e', le_of_lt a', le_of_lt b'⟩⟩
  | irreg2 x y =>
    obtain ⟨cx, cy, hx, hy, ⟨mx, rfl, sx⟩, hlen, ⟨m, hm⟩, hrows⟩ := ho
    have hl : y.length = mx.length + 1 := by simp at hlen; omega
    have hhead : (y.head?.getD []).length = m := by
      cases y with
      | nil => simp at hl
      | cons r y => simpa using hm r (by simp)
    simp only [makeDataHist, Comp.total]
    rw [Hist.C08_hist2d_total cx.1 cx.2 mx sx y _ cy.1 cy.2 hl, unit2_eq, weightOf_all]
    · simp
    · intro s hs
      obtain ⟨r, hr, rfl⟩ := List.mem_map.1 hs
      obtain ⟨b1, b2⟩ := h2 rfl cx cy hx hy r hr
      obtain ⟨v, e, a, b⟩ := entry_between b1
      obtain ⟨v', e', a', b'⟩ := entry_between b2
      exact ⟨⟨v, e, a, le_of_lt b⟩, ⟨v', e', a', le_of_lt b'⟩⟩
    · intro row hr
      obtain ⟨mid, e, s⟩ := hrows row hr
      exact ⟨by rw [hhead]; exact hm row hr, s, mid, e⟩
  | irregOther n => exact ho.elim
  | unset n => exact ho.elim

theorem select_spec (dim : Nat) (cfg : Config F) (rows data : List (List (Option F)))
    (h : select dim cfg rows = .ok data) :
    (dim = 1 ∧ ∃ c, cfg.clip = some c ∧ data = rows.filter (fun r => inside c (entry r 0))) ∨
    (2 ≤ dim ∧ ∃ cx cy, cfg.xClip = some cx ∧ cfg.yClip = some cy ∧
      data = rows.filter (fun r => inside cx (entry r 0) && inside cy (entry r 1))) := by
  unfold select at h
  split at h
  · rename_i hd
    left; refine ⟨hd, ?_⟩
    cases hc : cfg.clip with
    | none => simp [hc, need, bind, Except.bind] at h
    | some c =>
      simp only [hc, need, bind, Except.bind, pure, Except.pure, Except.ok.injEq] at h
      exact ⟨c, rfl, h.symm⟩
  · split at h
    · cases h
    · right; refine ⟨by omega, ?_⟩
      cases hx : cfg.xClip with
      | none => simp [hx, need, bind, Except.bind] at h
      | some cx =>
        cases hy : cfg.yClip with
        | none => simp [hx, hy, need, bind, Except.bind] at h
        | some cy =>
          simp only [hx, hy, need, bind, Except.bind, pure, Except.pure, Except.ok.injEq] at h
          exact ⟨cx, cy, rfl, rfl, h.symm⟩

theorem need_ok {c : Option (F × F)} {p : F × F} (h : need c = .ok p) : c = some p := by
  cases c with
  | none => cases h
  | some q => cases h; rfl

/-- The bins and histogram produced by `setBinning`. -/
theorem setBinning_hist (eq : Equi F) (dim : Nat) (cfg : Config F) (specs : List (BinSpec F))
    (rows : List (List (Option F))) (bins : Comp.Bins F) (h : List (List F))
    (hs : setBinning eq dim cfg specs rows = .ok (bins, h)) :
    h = makeDataHist bins rows ∧ bins.dims = specs.length := by
  unfold setBinning at hs
  split at hs
  · cases hs
  split at hs
  · split at hs
    · simp only [bind, Except.bind] at hs
      split at hs
      · cases hs
      split at hs
      · cases hs
      cases hs; exact ⟨rfl, rfl⟩
    · simp only [bind, Except.bind] at hs
      split at hs
      · cases hs
      split at hs
      · cases hs
      split at hs
      · cases hs
      split at hs
      · cases hs
      cases hs; exact ⟨rfl, rfl⟩
    · cases hs
  split at hs
  · split at hs
    · simp only [bind, Except.bind] at hs
      split at hs
      · cases hs
      cases hs; exact ⟨rfl, rfl⟩
    · simp only [bind, Except.bind] at hs
      split at hs
      · cases hs
      split at hs
      · cases hs
      cases hs; exact ⟨rfl, rfl⟩
    · cases hs
  split at hs
  · split at hs
    · simp only [bind, Except.bind] at hs
      split at hs
      · cases hs
      cases hs; exact ⟨rfl, rfl⟩
    · simp only [bind, Except.bind] at hs
      split at hs
      · cases hs
      split at hs
      · cases hs
      split at hs
      · cases hs
      cases hs; exact ⟨rfl, rfl⟩
    · cases hs
  · cases hs

/-- What a successful construction went through. -/
theorem init_spec (eq : Equi F) (cfg : Config F) (load : List String → Res (List (List (Option F)))) (b : Built F)
    (h : init eq cfg load = .ok b) :
    ∃ specs rows, normalise cfg.binsOn cfg.bins = .ok (b.binsOn, specs) ∧ b.binsOn.length = specs.length ∧
      load b.binsOn = .ok rows ∧ select b.binsOn.length cfg rows = .ok b.data ∧
      setBinning eq b.binsOn.length cfg specs b.data = .ok (b.bins, b.dataHist) := by
  unfold init at h
  simp only [bind, Except.bind] at h
  split at h
  · cases h
  rename_i r hn
  split at h
  · cases h
  rename_i hsc
  split at h
  · cases h
  rename_i rows hl
  split at h
  · cases h
  rename_i data hd
  split at h
  · cases h
  rename_i bh hb
  cases h
  refine ⟨r.2, rows, hn, ?_, hl, hd, hb⟩
  unfold sanityCheck at hsc
  split at hsc
  · cases hsc
  · rename_i hh; exact not_not.1 hh

section
variable [IsStrictOrderedRing F]

theorem linspace_spans (lo hi : F) (n : Nat) (hn : 1 ≤ n) (h : lo ≤ hi) : Spans (Interp.linspace lo hi (n + 1)) (lo, hi) := by
  have hlen := Interp.linspace_length lo hi (n + 1)
  have hn0 : (n : F) ≠ 0 := Nat.cast_ne_zero.2 (by omega)
  have hnp : (0 : F) < n := Nat.cast_pos.2 (by omega)
  have hcast : ((n + 1 : Nat) : F) - 1 = n := by push_cast; ring
  have hget : ∀ i, i < n + 1 → (Interp.linspace lo hi (n + 1))[i]? = some (lo + (hi - lo) / n * i) := by
    intro i hi'
    rw [Interp.linspace, List.getElem?_map, List.getElem?_range hi']
    simp only [Option.map_some, hcast]
  refine ⟨((Interp.linspace lo hi (n + 1)).drop 1).take (n - 1), ?_, ?_⟩
  · apply List.ext_getElem?
    intro i
    rcases Nat.lt_or_ge i (n + 1) with h1 | h1
    · rcases Nat.eq_zero_or_pos i with h0 | h0
      · subst h0; rw [hget 0 h1]; simp
      · rcases Nat.lt_or_ge i n with h2 | h2
        · rw [List.getElem?_append_left (by simp [hlen]; omega)]
          obtain ⟨k, rfl⟩ : ∃ k, i = k + 1 := ⟨i - 1, by omega⟩
          rw [List.getElem?_cons_succ, List.getElem?_take_of_lt (by omega), List.getElem?_drop, Nat.add_comm 1 k]
        · have : i = n := by omega
          subst this
          rw [hget i h1, List.getElem?_append_right (by simp [hlen]; omega)]
          have : i - (lo :: List.take (i - 1) (List.drop 1 (Interp.linspace lo hi (i + 1)))).length = 0 := by
            simp [hlen]; omega
          rw [this]
          simp only [List.getElem?_cons_zero, Option.some.injEq]
          field_simp; ring
    · rw [List.getElem?_eq_none (by omega), List.getElem?_eq_none (by simp [hlen]; omega)]
  · unfold Interp.linspace
    rw [List.pairwise_map]
    refine List.Pairwise.imp ?_ (List.pairwise_lt_range (n := n + 1))
    intro a b hab
    rw [hcast]
    have h1 : 0 ≤ (hi - lo) / (n : F) := div_nonneg (by linarith) (le_of_lt hnp)
    have h2 : (a : F) ≤ b := Nat.cast_le.2 (le_of_lt hab)
    nlinarith

theorem clipEdges_spans (c : F × F) (inner : List F) (hc : c.1 ≤ c.2) (hi : inner.Pairwise (· ≤ ·)) :
    Spans (clipEdges c inner) c := by
  refine ⟨_, rfl, ?_⟩
  unfold clipEdges
  have hmem : ∀ e ∈ inner.map (fun e => Interp.clip e c.1 c.2), c.1 ≤ e ∧ e ≤ c.2 := by
    intro e he
    obtain ⟨x, _, rfl⟩ := List.mem_map.1 he
    exact Interp.clip_mem x _ _ hc
  rw [List.cons_append, List.pairwise_cons]
  constructor
  · intro a ha
    rcases List.mem_append.1 ha with ha | ha
    · exact (hmem a ha).1
    · simp at ha; subst ha; exact hc
  · rw [List.pairwise_append]
    refine ⟨?_, by simp, ?_⟩
    · rw [List.pairwise_map]
      refine hi.imp ?_
      intro a b hab
      unfold Interp.clip
      exact min_le_min (max_le_max hab le_rfl) le_rfl
    · intro a ha b hb
      simp at hb; subst hb
      exact (hmem a ha).2

end
end

/-! ### Aliases -/

theorem callerName_nil (p : String) : callerName [] p = p := rfl

theorem callerName_cons (k v : String) (al : PyDict String String) (p : String) :
    callerName ((k, v) :: al) p = if v = p then k else callerName al p := by
  unfold callerName
  by_cases h : v = p <;> simp [List.find?_cons, h]

theorem callerName_of_not_target (al : PyDict String String) (p : String) (h : p ∉ al.map Prod.snd) :
    callerName al p = p := by
  induction al with
  | nil => rfl
  | cons kv al ih =>
    obtain ⟨k, v⟩ := kv
    rw [callerName_cons]
    simp only [List.map_cons, List.mem_cons, not_or] at h
    rw [if_neg (Ne.symm h.1), ih h.2]

theorem callerName_cases (al : PyDict String String) (p : String) :
    (p ∉ al.map Prod.snd ∧ callerName al p = p) ∨ (callerName al p, p) ∈ al := by
  induction al with
  | nil => left; simp [callerName_nil]
  | cons kv al ih =>
    obtain ⟨k, v⟩ := kv
    rw [callerName_cons]
    by_cases h : v = p
    · right; subst h; simp
    · rw [if_neg h]
      rcases ih with ⟨h1, h2⟩ | h1
      · left; simp only [List.map_cons, List.mem_cons, not_or]; exact ⟨⟨Ne.symm h, h1⟩, h2⟩
      · right; exact List.mem_cons_of_mem _ h1

theorem PlainAliases.tail {kv : String × String} {al : PyDict String String} (h : PlainAliases (kv :: al)) :
    PlainAliases al := by
  constructor
  · exact (List.nodup_cons.1 h.names).2
  · intro k hk hv
    exact h.disjoint k (List.mem_cons_of_mem _ hk) (List.mem_cons_of_mem _ hv)
  · exact (List.nodup_cons.1 h.targets).2

theorem callerName_idem (al : PyDict String String) (h : PlainAliases al) (p : String) :
    callerName al (callerName al p) = callerName al p := by
  rcases callerName_cases al p with ⟨h1, h2⟩ | h1
  · rw [h2, h2]
  · apply callerName_of_not_target
    exact h.disjoint _ (List.mem_map.2 ⟨_, h1, rfl⟩)

theorem mem_aliasNeeded (needed : List String) (k v x : String) (hkv : k ≠ v) :
    x ∈ aliasNeeded needed (k, v) ↔ ∃ p ∈ needed, x = if v = p then k else p := by
  unfold aliasNeeded
  by_cases hv : v ∈ needed
  · simp only [hv, if_true, List.mem_filter, decide_eq_true_eq]
    have hmem : x ∈ (if k ∈ needed then needed else needed ++ [k]) ↔ x ∈ needed ∨ x = k := by
      split
      · constructor
        · exact Or.inl
        · rintro (h | rfl)
          · exact h
          · assumption
      · simp
    rw [hmem]
    constructor
    · rintro ⟨h | rfl, hne⟩
      · exact ⟨x, h, by rw [if_neg (Ne.symm hne)]⟩
      · exact ⟨v, hv, by rw [if_pos rfl]⟩
    · rintro ⟨p, hp, rfl⟩
      by_cases h : v = p
      · rw [if_pos h]; exact ⟨.inr rfl, hkv⟩
      · rw [if_neg h]; exact ⟨.inl hp, Ne.symm h⟩
  · simp only [hv, if_false]
    constructor
    · intro h; refine ⟨x, h, ?_⟩
      rw [if_neg (fun e : v = x => hv (e ▸ h))]
    · rintro ⟨p, hp, rfl⟩
      rw [if_neg (fun e : v = p => hv (e ▸ hp))]; exact hp

theorem mem_foldl_aliasNeeded (al : PyDict String String) (h : PlainAliases al) (needed : List String) (x : String) :
    x ∈ al.foldl aliasNeeded needed ↔ ∃ p ∈ needed, x = callerName al p := by
  induction al generalizing needed with
  | nil => simp [callerName_nil]
  | cons kv al ih =>
    obtain ⟨k, v⟩ := kv
    have hk : k ∉ ((k, v) :: al).map Prod.snd := h.disjoint k (by simp [PyDict.keys])
    simp only [List.map_cons, List.mem_cons, not_or] at hk
    have hv : v ∉ al.map Prod.snd := (List.nodup_cons.1 h.targets).1
    rw [List.foldl_cons, ih h.tail]
    simp only [mem_aliasNeeded needed k v _ hk.1]
    constructor
    · rintro ⟨q, ⟨p, hp, rfl⟩, rfl⟩
      refine ⟨p, hp, ?_⟩
      rw [callerName_cons]
      by_cases hvp : v = p
      · rw [if_pos hvp, if_pos hvp, callerName_of_not_target al k hk.2]
      · rw [if_neg hvp, if_neg hvp]
    · rintro ⟨p, hp, rfl⟩
      refine ⟨_, ⟨p, hp, rfl⟩, ?_⟩
      rw [callerName_cons]
      by_cases hvp : v = p
      · rw [if_pos hvp, if_pos hvp, callerName_of_not_target al k hk.2]
      · rw [if_neg hvp, if_neg hvp]

section
variable {V : Type}

theorem aliasStep_get (p : PyDict String V) (k v q : String) (hkv : k ≠ v) :
    (aliasStep p (k, v)).get? q =
      if q = k then none else if q = v then (match p.get? k with | some x => some x | none => p.get? v)
        else p.get? q := by
  unfold aliasStep
  cases h : p.get? k with
  | none =>
    simp only
    by_cases h1 : q = k
    · subst h1; rw [if_pos rfl]; exact h
    · rw [if_neg h1]; by_cases h2 : q = v
      · subst h2; rw [if_pos rfl]
      · rw [if_neg h2]
  | some x =>
    simp only [PyDict.get?_set, PyDict.get?_del]
    by_cases h1 : q = k
    · subst h1; rw [if_neg (Ne.symm hkv), if_pos rfl, if_pos rfl]
    · by_cases h2 : q = v
      · subst h2; rw [if_pos rfl, if_neg h1, if_pos rfl]
      · rw [if_neg (Ne.symm h2), if_neg (Ne.symm h1), if_neg h1, if_neg h2]

/-- Lookup after alias replacement. -/
theorem replaceAlias_get (al : PyDict String String) (h : PlainAliases al) (p : PyDict String V) (q : String) :
    (replaceAlias al p).get? q =
      if q ∈ al.keys then none
      else match p.get? (callerName al q) with
        | some x => some x
        | none => p.get? q := by
  induction al generalizing p with
  | nil =>
    simp only [replaceAlias, List.foldl_nil, PyDict.keys, List.map_nil, List.not_mem_nil, if_false, callerName_nil]
    cases p.get? q <;> rfl
  | cons kv al ih =>
    obtain ⟨k, v⟩ := kv
    have hk : k ∉ ((k, v) :: al).map Prod.snd := h.disjoint k (by simp [PyDict.keys])
    simp only [List.map_cons, List.mem_cons, not_or] at hk
    have hv : v ∉ al.map Prod.snd := (List.nodup_cons.1 h.targets).1
    have hvk : ∀ k' ∈ PyDict.keys al, k' ≠ v := by
      intro k' hk' e
      exact h.disjoint k' (List.mem_cons_of_mem _ hk') (by subst e; simp)
    have hstep := ih h.tail (aliasStep p (k, v))
    unfold replaceAlias at hstep ⊢
    rw [List.foldl_cons, hstep]
    have hkeys : (q ∈ PyDict.keys ((k, v) :: al)) ↔ q = k ∨ q ∈ PyDict.keys al := by simp [PyDict.keys]
    by_cases hq : q ∈ PyDict.keys al
    · rw [if_pos hq, if_pos (hkeys.2 (.inr hq))]
    · rw [if_neg hq]
      by_cases hqk : q = k
      · subst hqk
        rw [if_pos (hkeys.2 (.inl rfl)), callerName_of_not_target al q hk.2, aliasStep_get p q v q hk.1, if_pos rfl]
      · rw [if_neg (fun e => (hkeys.1 e).elim hqk hq), callerName_cons]
        by_cases hvq : v = q
        · subst hvq
          rw [if_pos rfl, callerName_of_not_target al v hv, aliasStep_get p k v v hk.1, if_neg hqk, if_pos rfl]
          cases p.get? k <;> cases p.get? v <;> rfl
        · rw [if_neg hvq, aliasStep_get p k v q hk.1, if_neg hqk, if_neg (Ne.symm hvq)]
          rcases callerName_cases al q with ⟨h1, h2⟩ | h1
          · rw [h2, aliasStep_get p k v q hk.1, if_neg hqk, if_neg (Ne.symm hvq)]
          · have hc : callerName al q ∈ PyDict.keys al := List.mem_map.2 ⟨_, h1, rfl⟩
            by_cases hck : callerName al q = k
            · exact absurd (hck ▸ hc) (List.nodup_cons.1 h.names).1
            · rw [aliasStep_get p k v _ hk.1, if_neg hck, if_neg (hvk _ hc)]


theorem foldl_aliasStep_of_absent (al : PyDict String String) (p : PyDict String V)
    (h : ∀ k ∈ al.keys, p.get? k = none) : al.foldl aliasStep p = p := by
  induction al with
  | nil => rfl
  | cons kv al ih =>
    rw [List.foldl_cons]
    have : aliasStep p kv = p := by
      unfold aliasStep
      rw [h kv.1 (by simp [PyDict.keys])]
    rw [this]
    exact ih (fun k hk => h k (List.mem_cons_of_mem _ hk))

theorem replaceAlias_idem (al : PyDict String String) (h : PlainAliases al) (p : PyDict String V) :
    replaceAlias al (replaceAlias al p) = replaceAlias al p := by
  refine foldl_aliasStep_of_absent al (replaceAlias al p) ?_
  intro k hk
  rw [replaceAlias_get al h, if_pos hk]

end

/-! ### Registration -/

section
variable {K V : Type}

theorem set_of_not_mem {κ ν : Type} [DecidableEq κ] (d : PyDict κ ν) (k : κ) (v : ν) (h : k ∉ d.keys) :
    d.set k v = d ++ [(k, v)] := by
  induction d with
  | nil => rfl
  | cons kv d ih =>
    obtain ⟨k', v'⟩ := kv
    have h1 : k' ≠ k := by rintro rfl; exact h (by simp [PyDict.keys])
    have h2 : k ∉ PyDict.keys d := fun hk => h (List.mem_cons_of_mem _ hk)
    simp only [PyDict.set, h1, if_false, List.cons_append]
    rw [ih h2]

theorem register_ok {al : PyDict String String} {s s' : State K V} {name : String} {build : Res (LComp K V)}
    (h : register al s name build = (s', .ok ())) :
    ∃ c, build = .ok c ∧ name ∉ s.components.keys ∧
      s' = { components := s.components ++ [(name, c)]
             needed := al.foldl aliasNeeded (s.needed ++ c.needed.filter (fun x => x ∉ s.needed)) } := by
  unfold register at h
  split at h
  · cases h
  rename_i hn
  have hn : name ∉ s.components.keys := fun hk => hn ((PyDict.has_iff _ _).2 hk)
  split at h
  · cases h
  · rename_i c
    refine ⟨c, rfl, hn, ?_⟩
    rw [← set_of_not_mem _ _ _ hn]
    exact (Prod.mk.inj h).1.symm

theorem register_error {al : PyDict String String} {s s' : State K V} {name : String} {build : Res (LComp K V)}
    {e : PyErr} (h : register al s name build = (s', .error e)) : s' = s := by
  unfold register at h
  split at h
  · exact (Prod.mk.inj h).1.symm
  · split at h
    · exact (Prod.mk.inj h).1.symm
    · cases h

end

/-! ### Sums of histograms -/

section
variable {V : Type}

theorem sum_zipWith_add [AddCommMonoid V] (a b : List V) (h : a.length = b.length) :
    (List.zipWith (· + ·) a b).sum = a.sum + b.sum := by
  induction a generalizing b with
  | nil => cases b with
    | nil => simp
    | cons y b => simp at h
  | cons x a ih => cases b with
    | nil => simp at h
    | cons y b =>
      simp only [List.zipWith_cons_cons, List.sum_cons]
      rw [ih b (by simpa using h), add_add_add_comm]

theorem gridSum_add [AddCommMonoid V] (a b : Grid V) (h : a.map List.length = b.map List.length) :
    gridSum (List.zipWith (List.zipWith (· + ·)) a b) = gridSum a + gridSum b := by
  unfold gridSum
  induction a generalizing b with
  | nil => cases b with
    | nil => simp
    | cons y b => simp at h
  | cons x a ih => cases b with
    | nil => simp at h
    | cons y b =>
      simp only [List.map_cons, List.cons.injEq] at h
      simp only [List.zipWith_cons_cons, List.map_cons, List.sum_cons]
      rw [ih b h.2, sum_zipWith_add x y h.1, add_add_add_comm]

theorem shape_add [Add V] (a b : Grid V) (h : a.map List.length = b.map List.length) :
    (List.zipWith (List.zipWith (· + ·)) a b).map List.length = a.map List.length := by
  induction a generalizing b with
  | nil => simp
  | cons x a ih => cases b with
    | nil => simp at h
    | cons y b =>
      simp only [List.map_cons, List.cons.injEq] at h
      simp [ih b h.2, h.1]

theorem at?_isSome_iff (g : Grid V) (i j : Nat) :
    (at? g i j).isSome ↔ ∃ n, (g.map List.length)[i]? = some n ∧ j < n := by
  unfold at?
  cases h : g[i]? with
  | none => simp [h]
  | some r => simp [h]

theorem at?_add [Add V] (a b : Grid V) (i j : Nat) (x y : V) (hx : at? a i j = some x) (hy : at? b i j = some y) :
    at? (List.zipWith (List.zipWith (· + ·)) a b) i j = some (x + y) := by
  unfold at? at *
  cases ha : a[i]? with
  | none => rw [ha] at hx; cases hx
  | some r =>
    cases hb : b[i]? with
    | none => rw [hb] at hy; cases hy
    | some q =>
      rw [ha] at hx; rw [hb] at hy
      simp only [Option.bind_some] at hx hy
      simp [List.getElem?_zipWith, ha, hb, hx, hy]

theorem at?_zeros [Zero V] {W : Type} (g : Grid W) (i j : Nat) (h : (at? g i j).isSome) :
    at? (zeros g : Grid V) i j = some 0 := by
  unfold at? zeros at *
  cases hg : g[i]? with
  | none => rw [hg] at h; cases h
  | some r =>
    rw [hg] at h
    simp only [Option.bind_some] at h
    obtain ⟨w, hw⟩ := Option.isSome_iff_exists.1 h
    have hj := (List.getElem?_eq_some_iff.1 hw).1
    simp [hg, hj]

theorem shape_zeros [Zero V] {W : Type} (g : Grid W) : (zeros g : Grid V).map List.length = g.map List.length := by
  simp [zeros, Function.comp_def]

theorem gridSum_zeros [AddCommMonoid V] {W : Type} (g : Grid W) : gridSum (zeros g : Grid V) = 0 := by
  unfold gridSum zeros
  rw [List.map_map]
  apply List.sum_eq_zero
  intro x hx
  obtain ⟨r, _, rfl⟩ := List.mem_map.1 hx
  simp only [Function.comp_apply]
  apply List.sum_eq_zero
  intro y hy
  obtain ⟨_, _, rfl⟩ := List.mem_map.1 hy
  rfl

/-- Adding histograms one after the other. -/
def sumFrom [Add V] (acc : Grid V) (hs : List (Grid V)) : Grid V :=
  hs.foldl (List.zipWith (List.zipWith (· + ·))) acc

theorem sumFrom_spec [AddCommMonoid V] (hs : List (Grid V)) (acc : Grid V)
    (h : ∀ g ∈ hs, g.map List.length = acc.map List.length) :
    (sumFrom acc hs).map List.length = acc.map List.length ∧
    gridSum (sumFrom acc hs) = gridSum acc + (hs.map gridSum).sum ∧
    ∀ i j x, at? acc i j = some x →
      at? (sumFrom acc hs) i j = some (x + (hs.map (fun g => (at? g i j).getD 0)).sum) := by
  induction hs generalizing acc with
  | nil => simp [sumFrom]
  | cons g hs ih =>
    have hg := h g (by simp)
    have hsh := shape_add acc g hg.symm
    obtain ⟨h1, h2, h3⟩ := ih (List.zipWith (List.zipWith (· + ·)) acc g)
      (fun g' hg' => by rw [hsh]; exact h g' (by simp [hg']))
    refine ⟨by rw [← hsh]; exact h1, ?_, ?_⟩
    · have : sumFrom acc (g :: hs) = sumFrom (List.zipWith (List.zipWith (· + ·)) acc g) hs := rfl
      rw [this, h2, gridSum_add _ _ hg.symm, List.map_cons, List.sum_cons, add_assoc]
    · intro i j x hx
      have hsome : (at? g i j).isSome := by
        rw [at?_isSome_iff, hg, ← at?_isSome_iff, hx]; rfl
      obtain ⟨y, hy⟩ := Option.isSome_iff_exists.1 hsome
      have := h3 i j (x + y) (at?_add acc g i j x y hx hy)
      rw [List.map_cons, List.sum_cons, hy, Option.getD_some, ← add_assoc]
      exact this

theorem modelLoop_iff {K : Type} [Add V] (batch : Int) (p : PyDict String V) (cs : List (String × LComp K V)) (key : K)
    (acc : Grid V) (k' : K) (h : Grid V) :
    modelLoop batch p cs key acc = .ok (k', h) ↔
      ∃ hs, Runs batch p cs key hs k' ∧ (∀ g ∈ hs, g.map List.length = acc.map List.length) ∧ h = sumFrom acc hs := by
  induction cs generalizing key acc with
  | nil =>
    simp only [modelLoop, Except.ok.injEq, Prod.mk.injEq]
    constructor
    · rintro ⟨rfl, rfl⟩; exact ⟨[], .nil _, by simp, rfl⟩
    · rintro ⟨hs, hr, _, rfl⟩; cases hr; exact ⟨rfl, rfl⟩
  | cons c cs ih =>
    obtain ⟨n, c⟩ := c
    cases c with
    | sim nd hist w =>
      simp only [modelLoop, bind, Except.bind]
      constructor
      · intro hh
        split at hh
        · cases hh
        rename_i r hr
        unfold addGrid at hh
        split at hh
        · cases hh
        rename_i acc' hacc
        split at hacc
        · rename_i hsh
          cases hacc
          obtain ⟨hs, hr', hshapes, rfl⟩ := (ih r.1 _).1 hh
          refine ⟨r.2 :: hs, .sim hr hr', ?_, rfl⟩
          intro g hg
          rcases List.mem_cons.1 hg with rfl | hg
          · exact hsh.symm
          · rw [hshapes g hg, shape_add _ _ hsh]
        · cases hacc
      · rintro ⟨hs, hr, hshapes, rfl⟩
        cases hr with
        | sim h1 h2 =>
          rename_i g k1 gs
          have hsh := (hshapes g (by simp)).symm
          rw [h1]
          simp only [addGrid, if_pos hsh]
          refine (ih _ _).2 ⟨gs, h2, ?_, rfl⟩
          intro g' hg'
          rw [shape_add _ _ hsh]
          exact hshapes g' (by simp [hg'])
    | fixed nd hist w =>
      simp only [modelLoop, bind, Except.bind]
      constructor
      · intro hh
        split at hh
        · cases hh
        rename_i r hr
        unfold addGrid at hh
        split at hh
        · cases hh
        rename_i acc' hacc
        split at hacc
        · rename_i hsh
          cases hacc
          obtain ⟨hs, hr', hshapes, rfl⟩ := (ih key _).1 hh
          refine ⟨r :: hs, .fixed hr hr', ?_, rfl⟩
          intro g hg
          rcases List.mem_cons.1 hg with rfl | hg
          · exact hsh.symm
          · rw [hshapes g hg, shape_add _ _ hsh]
        · cases hacc
      · rintro ⟨hs, hr, hshapes, rfl⟩
        cases hr with
        | fixed h1 h2 =>
          rename_i g gs
          have hsh := (hshapes g (by simp)).symm
          rw [h1]
          simp only [addGrid, if_pos hsh]
          refine (ih _ _).2 ⟨gs, h2, ?_, rfl⟩
          intro g' hg'
          rw [shape_add _ _ hsh]
          exact hshapes g' (by simp [hg'])
    | other nd =>
      constructor
      · intro hh; cases hh
      · rintro ⟨hs, hr, _, _⟩; cases hr

theorem weightedLoop_iff {K : Type} (batch : Int) (p : PyDict String V) (cs : List (String × LComp K V)) (key : K)
    (acc : List (Grid V)) (k' : K) (out : List (Grid V)) :
    weightedLoop batch p cs key acc = .ok (k', out) ↔ ∃ gs, RunsW batch p cs key gs k' ∧ out = acc ++ gs := by
  induction cs generalizing key acc with
  | nil =>
    simp only [weightedLoop, Except.ok.injEq, Prod.mk.injEq]
    constructor
    · rintro ⟨rfl, rfl⟩; exact ⟨[], .nil _, by simp⟩
    · rintro ⟨hs, hr, rfl⟩; cases hr; exact ⟨rfl, by simp⟩
  | cons c cs ih =>
    obtain ⟨n, c⟩ := c
    cases c with
    | sim nd hist w =>
      simp only [weightedLoop, bind, Except.bind]
      constructor
      · intro hh
        split at hh
        · cases hh
        rename_i r hr
        obtain ⟨gs, h1, rfl⟩ := (ih _ _).1 hh
        exact ⟨r.2 :: gs, .sim hr h1, by simp⟩
      · rintro ⟨gs, hr, rfl⟩
        cases hr with
        | sim h1 h2 =>
          rw [h1]
          exact (ih _ _).2 ⟨_, h2, by simp⟩
    | fixed nd hist w =>
      simp only [weightedLoop, bind, Except.bind]
      constructor
      · intro hh
        split at hh
        · cases hh
        rename_i r hr
        obtain ⟨gs, h1, rfl⟩ := (ih _ _).1 hh
        exact ⟨r :: gs, .fixed hr h1, by simp⟩
      · rintro ⟨gs, hr, rfl⟩
        cases hr with
        | fixed h1 h2 =>
          rw [h1]
          exact (ih _ _).2 ⟨_, h2, by simp⟩
    | other nd =>
      constructor
      · intro hh; cases hh
      · rintro ⟨hs, hr, _⟩; cases hr

theorem hstack_rows (gs : List (Grid V)) (g : Grid V) (h : ∀ x ∈ gs, x.length = g.length) :
    (gs.foldl (List.zipWith (· ++ ·)) g).length = g.length ∧
    ∀ (r : Nat) (row : List V), g[r]? = some row →
      (gs.foldl (List.zipWith (· ++ ·)) g)[r]? = some (row ++ gs.flatMap (fun x => (x[r]?).getD [])) := by
  induction gs generalizing g with
  | nil => simp
  | cons x gs ih =>
    have hx := h x (by simp)
    have hl : (List.zipWith (· ++ ·) g x).length = g.length := by simp [hx]
    obtain ⟨h1, h2⟩ := ih (List.zipWith (· ++ ·) g x) (fun y hy => by rw [hl]; exact h y (by simp [hy]))
    refine ⟨by rw [List.foldl_cons, h1, hl], ?_⟩
    intro r row hr
    have hlt : r < x.length := by rw [hx]; exact (List.getElem?_eq_some_iff.1 hr).1
    have := h2 r (row ++ x[r]) (by simp [List.getElem?_zipWith, hr, hlt])
    rw [List.foldl_cons, this]
    simp [hlt]

end

noncomputable instance : AddCommMonoid XF where
  add_assoc := XF.add_assoc'
  zero_add := XF.fin_zero_add
  add_zero := XF.add_fin_zero
  add_comm := XF.add_comm'
  nsmul := nsmulRec

end Verif.Llh
