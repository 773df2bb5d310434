/-
Lemmas about the printed summaries.
-/
import Verif.Spec.Summary

namespace Verif.Summary
open Verif

theorem wordsFrom_append_space (w a b : List Char) : wordsFrom w (a ++ ' ' :: b) = wordsFrom w a ++ wordsFrom [] b := by
  induction a generalizing w with
  | nil =>
    simp only [List.nil_append, wordsFrom, if_true]
    split <;> simp
  | cons c a ih =>
    simp only [List.cons_append, wordsFrom]
    split
    · split
      · exact ih []
      · rw [ih, List.cons_append]
    · exact ih _

theorem wordsFrom_spaces (w : List Char) (n : Nat) : wordsFrom w (List.replicate n ' ') = if w = [] then [] else [w] := by
  induction n generalizing w with
  | zero => rfl
  | succ n ih =>
    simp only [List.replicate_succ, wordsFrom, if_true]
    rw [ih]
    split <;> simp

theorem wordsFrom_plain (w a : List Char) (h : ' ' ∉ a) : wordsFrom w a = if w ++ a = [] then [] else [w ++ a] := by
  induction a generalizing w with
  | nil => simp [wordsFrom]
  | cons c a ih =>
    have hc : c ≠ ' ' := fun e => h (by simp [e])
    simp only [wordsFrom, if_neg hc]
    rw [ih _ (fun e => h (List.mem_cons_of_mem _ e))]
    simp

theorem wordsFrom_append_spaces (w a : List Char) (n : Nat) : wordsFrom w (a ++ List.replicate n ' ') = wordsFrom w a := by
  cases n with
  | zero => simp
  | succ n =>
    rw [List.replicate_succ, wordsFrom_append_space, wordsFrom_spaces]
    simp

theorem words_ljust_cons (n : Nat) (s t : String) : words (ljust n s ++ " " ++ t) = words s ++ words t := by
  unfold words ljust
  have e : (s ++ String.ofList (List.replicate (n - s.length) ' ') ++ " " ++ t).toList
      = (s.toList ++ List.replicate (n - s.length) ' ') ++ ' ' :: t.toList := by
    simp [String.toList_append]
  rw [e, wordsFrom_append_space, wordsFrom_append_spaces]

theorem words_name (s : String) (h : IsName s) : words s = [s.toList] := by
  unfold words
  rw [wordsFrom_plain _ _ h.2]
  simp [h.1]

theorem words_listed (l : List String) (h : ∀ s ∈ l, IsName s) : words (", ".intercalate l) = listed l := by
  induction l with
  | nil => rfl
  | cons a r ih =>
    cases r with
    | nil => simpa [listed] using words_name a (h a (by simp))
    | cons b r =>
      have e : (", ".intercalate (a :: b :: r)).toList = (a.toList ++ [',']) ++ ' ' :: (", ".intercalate (b :: r)).toList := by
        rw [String.intercalate_cons_cons]
        simp [String.toList_append]
      unfold words at ih ⊢
      rw [e, wordsFrom_append_space, ih (fun s hs => h s (List.mem_cons_of_mem _ hs)), wordsFrom_plain]
      · simp [listed]
      · have := (h a (by simp)).2
        simp [this]

theorem digit_ne_space (n : Nat) : ' ' ∉ (toString n).toList := by
  intro h
  have := Nat.isDigit_of_mem_toDigits (b := 10) (by norm_num) (by norm_num) (show ' ' ∈ Nat.toDigits 10 n by simpa using h)
  exact absurd this (by decide)

end Verif.Summary
