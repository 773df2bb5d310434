/-
Python building blocks shared by all model files: exception values and insertion-ordered
dictionaries.  Nothing here mentions appletree; it models CPython's `dict` (insertion order kept,
assignment to an existing key keeps its position, deletion removes it).
-/
import Mathlib.Data.List.Basic
import Mathlib.Data.List.Nodup

namespace Verif

/-- The python exception classes that the modelled code can raise. -/
inductive PyErr
  | keyError | valueError | runtimeError | assertionError | typeError | notImplemented
  | nameError | indexError | recursionError | attributeError | importError | fileNotFound
  | unboundLocal | syntaxError | zeroDivision
  deriving DecidableEq, Repr

/-- Observable outcome of a python call that returns `α` or raises. -/
abbrev Res (α : Type*) := Except PyErr α

/-- Insertion-ordered dictionary: CPython `dict`. -/
abbrev PyDict (κ ν : Type*) := List (κ × ν)

namespace PyDict
variable {κ ν : Type*} [DecidableEq κ]

/-- `d.keys()` in insertion order. -/
def keys (d : PyDict κ ν) : List κ := d.map Prod.fst

/-- `d.get(k)`; `none` is a missing key. -/
def get? : PyDict κ ν → κ → Option ν
  | [], _ => none
  | (k', v) :: d, k => if k' = k then some v else get? d k

/-- `k in d`. -/
def has (d : PyDict κ ν) (k : κ) : Bool := (d.get? k).isSome

/-- `d[k]`, raising `KeyError`. -/
def getItem (d : PyDict κ ν) (k : κ) : Res ν :=
  match d.get? k with
  | some v => .ok v
  | none => .error .keyError

/-- `d[k] = v`: replace in place or append. -/
def set : PyDict κ ν → κ → ν → PyDict κ ν
  | [], k, v => [(k, v)]
  | (k', v') :: d, k, v => if k' = k then (k, v) :: d else (k', v') :: set d k v

/-- `del d[k]` / `d.pop(k)` when present (all occurrences; the dictionaries here have none twice). -/
def del (d : PyDict κ ν) (k : κ) : PyDict κ ν := d.filter (fun e => e.1 ≠ k)

/-- `d.update(e)`: assignments in the order of `e`. -/
def update (d : PyDict κ ν) (e : List (κ × ν)) : PyDict κ ν :=
  e.foldl (fun acc kv => acc.set kv.1 kv.2) d

/-- `{k: v for ...}` / `dict(zip(...))`. -/
def ofList (e : List (κ × ν)) : PyDict κ ν := update [] e

/-! ### Lookup laws -/

@[simp] theorem get?_nil (k : κ) : get? ([] : PyDict κ ν) k = none := rfl

theorem get?_cons (k' : κ) (v : ν) (d : PyDict κ ν) (k : κ) :
    get? ((k', v) :: d) k = if k' = k then some v else get? d k := rfl

theorem get?_set (d : PyDict κ ν) (k : κ) (v : ν) (k2 : κ) :
    (d.set k v).get? k2 = if k = k2 then some v else d.get? k2 := by
  induction d with
  | nil => simp [set, get?_cons]
  | cons e d ih =>
    obtain ⟨a, b⟩ := e
    by_cases h : a = k
    · subst h; simp only [set, if_true, get?_cons]
      by_cases h2 : a = k2 <;> simp [h2]
    · simp only [set, h, if_false, get?_cons, ih]
      by_cases h2 : a = k2
      · subst h2; simp [Ne.symm h]
      · simp [h2]

@[simp] theorem get?_set_self (d : PyDict κ ν) (k : κ) (v : ν) : (d.set k v).get? k = some v := by
  simp [get?_set]

theorem get?_set_ne (d : PyDict κ ν) {k k2 : κ} (v : ν) (h : k ≠ k2) :
    (d.set k v).get? k2 = d.get? k2 := by simp [get?_set, h]

theorem keys_set (d : PyDict κ ν) (k : κ) (v : ν) :
    (d.set k v).keys = if k ∈ d.keys then d.keys else d.keys ++ [k] := by
  induction d with
  | nil => simp [set, keys]
  | cons e d ih =>
    obtain ⟨a, b⟩ := e
    by_cases h : a = k
    · subst h; simp [set, keys]
    · have h' : ¬ k = a := fun hh => h hh.symm
      simp only [keys, set, h, if_false, List.map_cons, List.mem_cons, h', false_or] at ih ⊢
      rw [ih]; split <;> simp_all

theorem keys_set_of_mem (d : PyDict κ ν) {k : κ} (v : ν) (h : k ∈ d.keys) :
    (d.set k v).keys = d.keys := by rw [keys_set, if_pos h]

theorem mem_keys_iff (d : PyDict κ ν) (k : κ) : k ∈ d.keys ↔ (d.get? k).isSome := by
  induction d with
  | nil => simp [keys]
  | cons e d ih =>
    obtain ⟨a, b⟩ := e
    rw [get?_cons]
    by_cases h : a = k
    · subst h; simp [keys]
    · have h' : ¬ k = a := fun hh => h hh.symm
      simp only [h, if_false, ← ih]
      simp [keys, h']

theorem mem_keys_iff_exists (d : PyDict κ ν) (k : κ) : k ∈ d.keys ↔ ∃ v, d.get? k = some v := by
  rw [mem_keys_iff, Option.isSome_iff_exists]

theorem has_iff (d : PyDict κ ν) (k : κ) : d.has k = true ↔ k ∈ d.keys := by
  rw [mem_keys_iff, has]

theorem get?_eq_none_iff (d : PyDict κ ν) (k : κ) : d.get? k = none ↔ k ∉ d.keys := by
  rw [mem_keys_iff]; cases d.get? k <;> simp

theorem mem_of_get? (d : PyDict κ ν) {k : κ} {v : ν} (h : d.get? k = some v) : (k, v) ∈ d := by
  induction d with
  | nil => simp at h
  | cons e d ih =>
    obtain ⟨a, b⟩ := e
    rw [get?_cons] at h
    by_cases hk : a = k
    · simp only [hk, if_true, Option.some.injEq] at h; subst hk; subst h; simp
    · simp only [hk, if_false] at h; exact List.mem_cons_of_mem _ (ih h)

theorem get?_of_mem (d : PyDict κ ν) (hd : d.keys.Nodup) {k : κ} {v : ν} (h : (k, v) ∈ d) :
    d.get? k = some v := by
  induction d with
  | nil => simp at h
  | cons e d ih =>
    obtain ⟨a, b⟩ := e
    simp only [keys, List.map_cons, List.nodup_cons] at hd
    rcases List.mem_cons.1 h with h | h
    · cases h; simp [get?_cons]
    · have hne : a ≠ k := by
        intro hh; subst hh
        exact hd.1 (List.mem_map.2 ⟨_, h, rfl⟩)
      rw [get?_cons, if_neg hne]
      exact ih hd.2 h

theorem nodup_set (d : PyDict κ ν) (k : κ) (v : ν) (h : d.keys.Nodup) : (d.set k v).keys.Nodup := by
  rw [keys_set]; split
  · exact h
  · rename_i hk
    rw [List.nodup_append]
    refine ⟨h, by simp, ?_⟩
    intro a ha b hb
    simp only [List.mem_singleton] at hb
    subst hb
    intro hab; subst hab; exact hk ha

theorem get?_del (d : PyDict κ ν) (k k2 : κ) :
    (d.del k).get? k2 = if k = k2 then none else d.get? k2 := by
  induction d with
  | nil => simp [del]
  | cons e d ih =>
    obtain ⟨a, b⟩ := e
    unfold del at ih ⊢
    by_cases h : a = k
    · subst h
      simp only [List.filter_cons, ne_eq, not_true_eq_false, decide_false, Bool.false_eq_true,
        if_false, get?_cons]
      rw [ih]; by_cases h2 : a = k2 <;> simp [h2]
    · simp only [List.filter_cons, ne_eq, h, not_false_eq_true, decide_true, if_true, get?_cons]
      rw [ih]
      by_cases h2 : a = k2
      · subst h2; simp [Ne.symm h]
      · simp [h2]

theorem keys_del (d : PyDict κ ν) (k : κ) : (d.del k).keys = d.keys.filter (fun x => x ≠ k) := by
  unfold del keys
  induction d with
  | nil => rfl
  | cons e d ih =>
    by_cases h : e.1 = k
    · simpa [List.filter_cons, h] using ih
    · simpa [List.filter_cons, h] using ih

theorem nodup_del (d : PyDict κ ν) (k : κ) (h : d.keys.Nodup) : (d.del k).keys.Nodup := by
  rw [keys_del]; exact h.filter _

theorem del_of_not_mem (d : PyDict κ ν) (k : κ) (h : k ∉ d.keys) : d.del k = d := by
  unfold del
  rw [List.filter_eq_self]
  intro e he
  simp only [ne_eq, decide_eq_true_eq]
  intro hk; subst hk
  exact h (List.mem_map.2 ⟨e, he, rfl⟩)

@[simp] theorem update_nil (d : PyDict κ ν) : d.update [] = d := rfl

theorem update_cons (d : PyDict κ ν) (kv : κ × ν) (e : List (κ × ν)) :
    d.update (kv :: e) = (d.set kv.1 kv.2).update e := rfl

theorem update_append (d : PyDict κ ν) (e e' : List (κ × ν)) :
    d.update (e ++ e') = (d.update e).update e' := by
  simp [update, List.foldl_append]

theorem nodup_update (d : PyDict κ ν) (e : List (κ × ν)) (h : d.keys.Nodup) :
    (d.update e).keys.Nodup := by
  induction e generalizing d with
  | nil => exact h
  | cons kv e ih => rw [update_cons]; exact ih _ (nodup_set _ _ _ h)

theorem get?_update_not_mem (d : PyDict κ ν) (e : List (κ × ν)) (k : κ)
    (h : k ∉ e.map Prod.fst) : (d.update e).get? k = d.get? k := by
  induction e generalizing d with
  | nil => rfl
  | cons kv e ih =>
    simp only [List.map_cons, List.mem_cons, not_or] at h
    rw [update_cons, ih _ h.2, get?_set_ne _ _ (Ne.symm h.1)]

theorem keys_update_of_subset (d : PyDict κ ν) (e : List (κ × ν))
    (h : ∀ k ∈ e.map Prod.fst, k ∈ d.keys) : (d.update e).keys = d.keys := by
  induction e generalizing d with
  | nil => rfl
  | cons kv e ih =>
    have h1 : kv.1 ∈ d.keys := h _ (by simp)
    rw [update_cons, ih, keys_set_of_mem _ _ h1]
    intro k hk
    rw [keys_set_of_mem _ _ h1]
    exact h k (by simp only [List.map_cons, List.mem_cons]; exact Or.inr hk)

theorem mem_keys_update (d : PyDict κ ν) (e : List (κ × ν)) (k : κ) :
    k ∈ (d.update e).keys ↔ k ∈ d.keys ∨ k ∈ e.map Prod.fst := by
  induction e generalizing d with
  | nil => simp
  | cons kv e ih =>
    rw [update_cons, ih, keys_set]
    split
    · rename_i h
      simp only [List.map_cons, List.mem_cons]
      constructor
      · rintro (h1 | h1)
        · exact Or.inl h1
        · exact Or.inr (Or.inr h1)
      · rintro (h1 | h1 | h1)
        · exact Or.inl h1
        · subst h1; exact Or.inl h
        · exact Or.inr h1
    · simp [or_assoc]

/-- Last assignment wins: an explicit formula for lookups after `update`. -/
theorem get?_update (d : PyDict κ ν) (e : List (κ × ν)) (k : κ) :
    (d.update e).get? k = (get? e.reverse k).or (d.get? k) := by
  induction e generalizing d with
  | nil => simp
  | cons kv e ih =>
    have hrev : ∀ (l : PyDict κ ν) (a : κ × ν),
        get? (l ++ [a]) k = (get? l k).or (if a.1 = k then some a.2 else none) := by
      intro l a
      induction l with
      | nil => obtain ⟨a1, a2⟩ := a; simp [get?]
      | cons b l ihl =>
        obtain ⟨b1, b2⟩ := b
        rw [List.cons_append, get?_cons, get?_cons, ihl]
        split <;> simp
    rw [update_cons, ih, List.reverse_cons, hrev, get?_set]
    cases h : get? e.reverse k <;> simp
    split <;> simp

theorem get?_update_nodup (d : PyDict κ ν) (e : List (κ × ν)) (he : (e.map Prod.fst).Nodup) {k : κ}
    {v : ν} (h : (k, v) ∈ e) : (d.update e).get? k = some v := by
  rw [get?_update]
  have hn : (keys e.reverse).Nodup := by
    unfold keys; rw [List.map_reverse]; exact List.nodup_reverse.2 he
  rw [get?_of_mem (d := e.reverse) hn (k := k) (v := v) (by simpa using h)]
  simp

end PyDict
end Verif

namespace Verif.PyDict
variable {κ ν : Type*} [DecidableEq κ]

/-- Two dictionaries with the same key order and the same lookups are equal. -/
theorem ext_keys (d e : PyDict κ ν) (hn : d.keys.Nodup) (hk : d.keys = e.keys)
    (hg : ∀ k ∈ d.keys, d.get? k = e.get? k) : d = e := by
  induction d generalizing e with
  | nil =>
    cases e with
    | nil => rfl
    | cons b e => simp [keys] at hk
  | cons a d ih =>
    cases e with
    | nil => simp [keys] at hk
    | cons b e =>
      obtain ⟨a1, a2⟩ := a
      obtain ⟨b1, b2⟩ := b
      simp only [keys, List.map_cons, List.cons.injEq] at hk hn hg
      obtain ⟨hk1, hk2⟩ := hk
      subst hk1
      rw [List.nodup_cons] at hn
      have h0 := hg a1 (by simp)
      simp only [get?_cons, if_true, Option.some.injEq] at h0
      subst h0
      rw [ih e hn.2 hk2]
      intro k hkm
      have h1 := hg k (by simp [keys] at hkm; simp [hkm])
      have : a1 ≠ k := by rintro rfl; exact hn.1 hkm
      simpa [get?_cons, this] using h1

theorem ofList_of_nodup (e : List (κ × ν)) (h : (e.map Prod.fst).Nodup) : ofList e = e := by
  have gen : ∀ (e d : List (κ × ν)), (e.map Prod.fst).Nodup →
      (∀ k ∈ e.map Prod.fst, k ∉ keys d) → update d e = d ++ e := by
    intro e
    induction e with
    | nil => intro d _ _; simp [update]
    | cons kv e ih =>
      intro d hn hd
      have hset : set d kv.1 kv.2 = d ++ [kv] := by
        have := hd kv.1 (by simp)
        clear ih hd hn
        induction d with
        | nil => simp [set]
        | cons a d ihd =>
          obtain ⟨a1, a2⟩ := a
          simp only [keys, List.map_cons, List.mem_cons, not_or] at this
          simp only [set, if_neg (Ne.symm this.1), List.cons_append]
          rw [ihd this.2]
      rw [update_cons, hset, ih]
      · simp
      · simp only [List.map_cons, List.nodup_cons] at hn; exact hn.2
      · intro k hk
        simp only [List.map_cons, List.nodup_cons] at hn
        simp only [keys, List.map_append, List.mem_append, not_or]
        refine ⟨hd k (by simp only [List.map_cons, List.mem_cons]; exact Or.inr hk), ?_⟩
        simp only [List.map_cons, List.map_nil, List.mem_singleton]
        rintro rfl; exact hn.1 hk
  have := gen e [] h (by simp [keys])
  simpa [ofList] using this

end Verif.PyDict
