/- Helper lemmas about the utilities. -/
import Verif.Model.Utils
import Verif.Spec.Utils
import Mathlib.Tactic.Linarith
import Mathlib.Tactic.NormNum
import Mathlib.Tactic.Push

namespace Verif.Utils
open Verif

/-! ### GPU memory -/

/-- The decimal written for the truncated percentage `n`. -/
theorem decimalValue_percent : ∀ n : Fin 101,
    decimalValue ("." ++ String.ofList (Nat.toDigits 10 n.val)) =
      some (if n.val < 10 then (n.val : ℚ) / 10 else if n.val < 100 then (n.val : ℚ) / 100
        else (n.val : ℚ) / 1000) := by
  decide +kernel

theorem floor_bounds (f : ℚ) (h0 : 0 < f) (h1 : f ≤ 1) :
    ⌊f * 100⌋.toNat < 101 ∧ ((⌊f * 100⌋.toNat : ℕ) : ℚ) = ((⌊f * 100⌋ : ℤ) : ℚ) := by
  have hnn : 0 ≤ ⌊f * 100⌋ := Int.floor_nonneg.2 (by positivity)
  have hle : ⌊f * 100⌋ ≤ 100 := by
    have : ⌊f * 100⌋ ≤ ⌊(100 : ℚ)⌋ := Int.floor_mono (by linarith)
    simpa using this
  refine ⟨by omega, ?_⟩
  have : ((⌊f * 100⌋.toNat : ℕ) : ℤ) = ⌊f * 100⌋ := Int.toNat_of_nonneg hnn
  exact_mod_cast congrArg (fun z : ℤ => (z : ℚ)) this

theorem gpu_value (f : ℚ) (h0 : 0 < f) (h1 : f ≤ 1) :
    ∃ s, gpuFraction f = .ok s ∧ decimalValue s =
      some (if f < 1 / 10 then (⌊f * 100⌋ : ℚ) / 10 else if f < 1 then (⌊f * 100⌋ : ℚ) / 100 else 1 / 10) := by
  obtain ⟨hb, hc⟩ := floor_bounds f h0 h1
  refine ⟨_, by unfold gpuFraction; rw [if_neg (not_lt.2 h1), if_neg (not_le.2 h0)], ?_⟩
  have := decimalValue_percent ⟨_, hb⟩
  simp only at this
  rw [this]
  have hfl : (⌊f * 100⌋.toNat : ℤ) = ⌊f * 100⌋ := Int.toNat_of_nonneg (Int.floor_nonneg.2 (by positivity))
  congr 1
  by_cases h10 : f < 1 / 10
  · have hn : ⌊f * 100⌋.toNat < 10 := by
      have : ⌊f * 100⌋ < 10 := Int.floor_lt.2 (by push_cast; linarith)
      omega
    rw [if_pos h10, if_pos hn, hc]
  · have hn : ¬ ⌊f * 100⌋.toNat < 10 := by
      have : 10 ≤ ⌊f * 100⌋ := Int.le_floor.2 (by push_cast; linarith)
      omega
    rw [if_neg h10, if_neg hn]
    by_cases hlt : f < 1
    · have hn2 : ⌊f * 100⌋.toNat < 100 := by
        have : ⌊f * 100⌋ < 100 := Int.floor_lt.2 (by push_cast; linarith)
        omega
      rw [if_pos hlt, if_pos hn2, hc]
    · have hf : f = 1 := le_antisymm h1 (not_lt.1 hlt)
      subst hf
      norm_num
      rw [show Int.toNat 100 = 100 from rfl]
      norm_num

/-! ### Checksum -/

theorem readBlocks_flatten {B : Type} (n : Nat) (hn : 0 < n) (fuel : Nat) (content : List B)
    (h : content.length < fuel) : (readBlocks n fuel content).flatten = content := by
  induction fuel generalizing content with
  | zero => omega
  | succ fuel ih =>
    rw [readBlocks]
    cases content with
    | nil => simp
    | cons b bs =>
      have : ((b :: bs).take n).isEmpty = false := by
        cases n with
        | zero => omega
        | succ n => rfl
      rw [this]
      simp only [Bool.false_eq_true, if_false, List.flatten_cons]
      rw [ih]
      · exact List.take_append_drop n _
      · simp only [List.length_drop, List.length_cons] at h ⊢; omega

theorem foldl_update {B S : Type} (update : S → List B → S) (h : Streaming update) (bs : List (List B)) (s : S) :
    bs.foldl update s = update s bs.flatten := by
  induction bs generalizing s with
  | nil => simp [h.nil]
  | cons b bs ih => rw [List.foldl_cons, ih, h.append, List.flatten_cons]

/-! ### Extensions -/

theorem addExtension_keeps (attrs : PyDict String Obj) (c : Cls) (k : String) (o : Obj)
    (h : attrs.get? k = some o) : (addExtension attrs c false).1.get? k = some o := by
  unfold addExtension
  split
  · exact h
  · split
    · by_cases hh : attrs.has c.name
      · simp [hh, h]
      · simp only [Bool.not_eq_true] at hh
        simp only [hh, Bool.false_and, Bool.false_eq_true, if_false]
        rw [PyDict.get?_set_ne]
        · exact h
        · rintro rfl
          simp [PyDict.has, h] at hh
    · exact h

theorem extLoop_keeps (xs : List Obj) (attrs : PyDict String Obj) (k : String) (o : Obj)
    (h : attrs.get? k = some o) : (extLoop false xs attrs).1.get? k = some o := by
  induction xs generalizing attrs with
  | nil => exact h
  | cons x xs ih =>
    cases x with
    | cls c =>
      rw [extLoop]
      have hk := addExtension_keeps attrs c k o h
      rcases hr : addExtension attrs c false with ⟨attrs', r⟩
      rw [hr] at hk
      cases r with
      | error e => exact hk
      | ok u => exact ih _ hk
    | mod n => exact ih _ h
    | other n => exact ih _ h

theorem extLoop_ok_mem (force : Bool) (xs : List Obj) (attrs attrs' : PyDict String Obj)
    (h : extLoop force xs attrs = (attrs', .ok ())) (c : Cls) (hc : Obj.cls c ∈ xs) (hb : c.isBase = false)
    (hs : c.properSubclass = true) (hf : force = false) : attrs'.get? c.name = some (.cls c) := by
  subst hf
  induction xs generalizing attrs with
  | nil => simp at hc
  | cons x xs ih =>
    cases x with
    | cls d =>
      rw [extLoop] at h
      rcases hr : addExtension attrs d false with ⟨a, r⟩
      rw [hr] at h
      cases r with
      | error e => cases h
      | ok u =>
        simp only at h
        rcases List.mem_cons.1 hc with hcd | hc
        · cases hcd
          have hset : a.get? c.name = some (.cls c) := by
            unfold addExtension at hr
            rw [if_neg (by simp [hb]), if_pos hs] at hr
            by_cases hh : (attrs.has c.name && !false) = true
            · rw [if_pos hh] at hr; cases hr
            · rw [if_neg hh] at hr; cases hr; simp
          have := extLoop_keeps xs a c.name _ hset
          rw [h] at this; exact this
        · exact ih a hc h
    | mod n => exact ih _ (by simpa using hc) h
    | other n => exact ih _ (by simpa using hc) h

theorem extLoop_keys (force : Bool) (xs : List Obj) (attrs : PyDict String Obj) (k : String)
    (h : (extLoop force xs attrs).1.get? k ≠ attrs.get? k) :
    ∃ c, Obj.cls c ∈ xs ∧ c.isBase = false ∧ c.properSubclass = true ∧ c.name = k ∧
      (extLoop force xs attrs).1.get? k ≠ none := by
  have mono : ∀ (ys : List Obj) (a : PyDict String Obj), a.get? k ≠ none → (extLoop force ys a).1.get? k ≠ none := by
    intro ys
    induction ys with
    | nil => intro a ha; exact ha
    | cons y ys ih =>
      intro a ha
      cases y with
      | cls d =>
        rw [extLoop]
        have : (addExtension a d force).1.get? k ≠ none := by
          unfold addExtension
          split
          · exact ha
          · split
            · split
              · exact ha
              · rw [PyDict.get?_set]; split <;> simp [ha]
            · exact ha
        rcases hr : addExtension a d force with ⟨a', r⟩
        rw [hr] at this
        cases r with
        | error e => exact this
        | ok u => exact ih _ this
      | mod n => exact ih _ ha
      | other n => exact ih _ ha
  induction xs generalizing attrs with
  | nil => exact absurd rfl h
  | cons x xs ih =>
    cases x with
    | cls d =>
      rw [extLoop] at h ⊢
      by_cases hd : d.isBase = false ∧ d.properSubclass = true ∧ d.name = k
      · refine ⟨d, by simp, hd.1, hd.2.1, hd.2.2, ?_⟩
        unfold addExtension at h ⊢
        rw [if_neg (by simp [hd.1]), if_pos hd.2.1] at h ⊢
        by_cases hh : (attrs.has d.name && !force) = true
        · rw [if_pos hh] at h; exact absurd rfl h
        · rw [if_neg hh]
          exact mono xs _ (by simp [hd.2.2])
      · have hsame : (addExtension attrs d force).1.get? k = attrs.get? k := by
          unfold addExtension
          split
          · rfl
          · split
            · split
              · rfl
              · rename_i h1 h2 _
                rw [PyDict.get?_set_ne]
                intro hk
                exact hd ⟨by simpa using h1, h2, hk⟩
            · rfl
        rcases hr : addExtension attrs d force with ⟨a', r⟩
        rw [hr] at hsame h
        cases r with
        | error e => exact absurd hsame h
        | ok u =>
          simp only at h ⊢
          rw [← hsame] at h
          obtain ⟨c, hc, h'⟩ := ih a' h
          exact ⟨c, by simp [hc], h'⟩
    | mod n =>
      obtain ⟨c, hc, h'⟩ := ih attrs h
      exact ⟨c, by simp [hc], h'⟩
    | other n =>
      obtain ⟨c, hc, h'⟩ := ih attrs h
      exact ⟨c, by simp [hc], h'⟩

theorem lastPart_of_no_dot (s : String) (h : '.' ∉ s.toList) : lastPart s = s := by
  unfold lastPart
  have gen : ∀ l : List Char, '.' ∉ l → l.takeWhile (fun c => c ≠ '.') = l := by
    intro l
    induction l with
    | nil => intro _; rfl
    | cons c l ih =>
      intro hl
      have hc : c ≠ '.' := fun e => hl (by simp [e])
      rw [List.takeWhile_cons, if_pos (by simp [hc]), ih (fun hh => hl (by simp [hh]))]
  rw [gen _ (by simpa using h)]
  simp

end Verif.Utils
