/-
Values in the text of a message (C100).
-/
import Verif.Spec.Messages

namespace Verif.Messages

theorem InOrder.prepend {vs t} (pre : List Char) (h : InOrder vs t) : InOrder vs (pre ++ t) := by
  cases h with
  | nil => exact .nil _
  | cons p v h => simpa only [List.append_assoc] using InOrder.cons (pre ++ p) v h

theorem inOrder_list (l : List String) (tail : List Char) :
    InOrder l ((", ".intercalate (l.map (fun s => "'" ++ s ++ "'"))).toList ++ tail) := by
  rw [String.toList_intercalate]
  induction l with
  | nil => exact .nil _
  | cons a l ih =>
    cases l with
    | nil =>
      have := InOrder.cons ("'".toList) a (InOrder.nil ("'".toList ++ tail))
      simpa [List.intercalate] using this
    | cons b l =>
      have := InOrder.cons ("'".toList) a (ih.prepend ("'".toList ++ ", ".toList))
      simpa [List.intercalate, List.intersperse] using this

theorem InOrder.suffix {vs : List String} {t : List Char} (h : InOrder vs t) (rest : List Char) : InOrder vs (t ++ rest) := by
  induction h with
  | nil => exact .nil _
  | cons p v _ ih => rw [List.append_assoc]; exact .cons p v ih

theorem InOrder.snoc {vs : List String} {t : List Char} (h : InOrder vs t) (v : String) : InOrder (vs ++ [v]) (t ++ v.toList) := by
  induction h with
  | nil t => simpa using InOrder.cons t v (.nil [])
  | cons p w _ ih => rw [List.append_assoc, List.cons_append]; exact .cons p w ih

theorem inOrder_nil (s : String) : InOrder [] s.toList := .nil _

theorem inOrder_lit {vs : List String} {s : String} (h : InOrder vs s.toList) (a : String) : InOrder vs (s ++ a).toList := by
  rw [String.toList_append]; exact h.suffix _

theorem inOrder_val {vs : List String} {s : String} (h : InOrder vs s.toList) (v : String) : InOrder (vs ++ [v]) (s ++ v).toList := by
  rw [String.toList_append]; exact h.snoc v

theorem inOrder_pyList (a b : String) (l : List String) : InOrder l (a ++ pyList l ++ b).toList := by
  unfold pyList
  rw [String.toList_append, String.toList_append, String.toList_append, String.toList_append]
  simp only [List.append_assoc]
  exact ((inOrder_list l _).prepend _).prepend _

theorem inOrder_pyList' (b : String) (l : List String) : InOrder l (pyList l ++ b).toList := by
  have := inOrder_pyList "" b l
  rwa [String.empty_append] at this

theorem inOrder_one (a v b : String) : InOrder [v] (a ++ v ++ b).toList :=
  inOrder_lit (inOrder_val (inOrder_nil a) v) b

theorem inOrder_last (a v : String) : InOrder [v] (a ++ v).toList := inOrder_val (inOrder_nil a) v

theorem inOrder_first (v b : String) : InOrder [v] (v ++ b).toList := by
  have := inOrder_one "" v b
  rwa [String.empty_append] at this

theorem inOrder_four (v1 a v2 b v3 c v4 d : String) :
    InOrder [v1, v2, v3, v4] (v1 ++ a ++ v2 ++ b ++ v3 ++ c ++ v4 ++ d).toList :=
  inOrder_lit (inOrder_val (inOrder_lit (inOrder_val (inOrder_lit (inOrder_val (inOrder_first v1 a) v2) b) v3) c) v4) d

theorem inOrder_five (s a b c d e v1 v2 v3 v4 v5 : String) :
    InOrder [v1, v2, v3, v4, v5] (s ++ v1 ++ a ++ v2 ++ b ++ v3 ++ c ++ v4 ++ d ++ v5 ++ e).toList :=
  inOrder_lit (inOrder_val (inOrder_lit (inOrder_val (inOrder_lit (inOrder_val (inOrder_lit (inOrder_val
    (inOrder_one s v1 a) v2) b) v3) c) v4) d) v5) e

end Verif.Messages
