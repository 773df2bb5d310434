import Verif.Model.Files

namespace Verif.Files
open Verif

theorem takeWhile_all : ∀ (s : List Char), '.' ∉ s → s.takeWhile (fun c => decide (c ≠ '.')) = s
  | [], _ => rfl
  | c :: s, h => by
    have hc : c ≠ '.' := fun e => h (by simp [e])
    rw [List.takeWhile_cons_of_pos (by simpa using hc), takeWhile_all s (fun e => h (by simp [e]))]

theorem lastPart_of_noDot (s : List Char) (h : '.' ∉ s) : lastPart s = s := by
  unfold lastPart
  rw [takeWhile_all _ (by simpa using h)]
  simp

theorem lastPart_append (pre t : List Char) (h : '.' ∉ t) : lastPart (pre ++ '.' :: t) = t := by
  unfold lastPart
  have ht : ∀ c ∈ t.reverse, (decide (c ≠ '.')) = true := by
    intro c hc
    have : c ≠ '.' := fun e => h (by rw [e] at hc; simpa using hc)
    simpa using this
  rw [show (pre ++ '.' :: t).reverse = t.reverse ++ ('.' :: pre.reverse) by simp, List.takeWhile_append_of_pos ht,
    List.takeWhile_cons_of_neg (by simp)]
  simp

theorem lastPart_cases (s : List Char) : lastPart s = s ∧ '.' ∉ s ∨ ∃ pre, s = pre ++ '.' :: lastPart s := by
  by_cases h : '.' ∈ s
  · right
    obtain ⟨a, b, hab, ha⟩ := List.eq_append_cons_of_mem (show '.' ∈ s.reverse by simpa using h)
    have hs : s = b.reverse ++ '.' :: a.reverse := by
      have := congrArg List.reverse hab
      simpa using this
    refine ⟨b.reverse, ?_⟩
    conv_lhs => rw [hs]
    rw [hs, lastPart_append _ _ (by simpa using ha)]
  · exact Or.inl ⟨lastPart_of_noDot s h, h⟩

theorem go_ok (fs : FS) (path : String) : ∀ (ts : List (List Char)) (done : List Char),
    writeFile.go fs path (ts.map .ok) done = (fs.set path (done ++ ts.flatten), .ok ())
  | [], done => by simp [writeFile.go]
  | t :: ts, done => by simp [writeFile.go, go_ok fs path ts]

theorem go_error (fs : FS) (path : String) (e : PyErr) (rest : List (Res (List Char))) : ∀ (ts : List (List Char)) (done : List Char),
    writeFile.go fs path (ts.map .ok ++ .error e :: rest) done = (fs.set path (done ++ ts.flatten), .error e)
  | [], done => by simp [writeFile.go]
  | t :: ts, done => by simp [writeFile.go, go_error fs path e rest ts]

theorem splitNl_noNl : ∀ (s : List Char), ∀ l ∈ splitNl s, '\n' ∉ l
  | [], l, h => by simp [splitNl] at h; simp [h]
  | c :: s, l, h => by
    rw [splitNl] at h
    split at h
    · rcases List.mem_cons.1 h with rfl | h
      · simp
      · exact splitNl_noNl s l h
    · rename_i hc
      have ih := splitNl_noNl s
      split at h
      · simp only [List.mem_singleton] at h; subst h; simpa using Ne.symm hc
      · rename_i l' ls hs
        rw [hs] at ih
        rcases List.mem_cons.1 h with rfl | h
        · simp only [List.mem_cons, not_or]
          exact ⟨Ne.symm hc, ih l' (by simp)⟩
        · exact ih l (by simp [h])

theorem readLines_ne_nil : ∀ (s : List Char), ∀ l ∈ readLines s, l ≠ []
  | [], l, h => by simp [readLines] at h
  | c :: s, l, h => by
    rw [readLines] at h
    split at h
    · rcases List.mem_cons.1 h with rfl | h
      · simp
      · exact readLines_ne_nil s l h
    · have ih := readLines_ne_nil s
      split at h
      · simp only [List.mem_singleton] at h; subst h; simp
      · rename_i l' ls hs
        rw [hs] at ih
        rcases List.mem_cons.1 h with rfl | h
        · simp
        · exact ih l (by simp [h])

/-- A prefix without newlines joins the first line. -/
theorem readLines_prefix (s : List Char) : ∀ (p : List Char), '\n' ∉ p → p ≠ [] → readLines (p ++ s) =
      match readLines s with
      | [] => [p]
      | l :: ls => (p ++ l) :: ls
  | [], _, h => absurd rfl h
  | [c], hp, _ => by
    have hc : c ≠ '\n' := fun e => hp (by simp [e])
    simp only [List.cons_append, List.nil_append, readLines, if_neg hc]
    cases readLines s <;> rfl
  | c :: c' :: p, hp, _ => by
    have hc : c ≠ '\n' := fun e => hp (by simp [e])
    have ih := readLines_prefix s (c' :: p) (fun e => hp (by simp [e])) (by simp)
    rw [List.cons_append, readLines, if_neg hc, ih]
    cases readLines s <;> simp

/-- A first line that ends. -/
theorem readLines_line (q s : List Char) (hq : '\n' ∉ q) : readLines (q ++ '\n' :: s) = (q ++ ['\n']) :: readLines s := by
  by_cases h : q = []
  · subst h; simp [readLines]
  · rw [readLines_prefix _ q hq h, readLines, if_pos rfl]

/-- The shape of lines: all but the last end with a newline, which occurs nowhere else. -/
def IsLines : List (List Char) → Prop
  | [] => True
  | [l] => l ≠ [] ∧ ('\n' ∉ l ∨ ∃ q, '\n' ∉ q ∧ l = q ++ ['\n'])
  | l :: ls => (∃ q, '\n' ∉ q ∧ l = q ++ ['\n']) ∧ IsLines ls

theorem isLines_cons {l : List Char} {ls : List (List Char)} (h : (∃ q, '\n' ∉ q ∧ l = q ++ ['\n'])) (hs : IsLines ls) :
    IsLines (l :: ls) := by
  cases ls with
  | nil => obtain ⟨q, hq, rfl⟩ := h; exact ⟨by simp, Or.inr ⟨q, hq, rfl⟩⟩
  | cons a b => exact ⟨h, hs⟩

theorem readLines_isLines : ∀ (s : List Char), IsLines (readLines s)
  | [] => trivial
  | c :: s => by
    have ih := readLines_isLines s
    rw [readLines]
    split
    · rename_i hc; subst hc
      exact isLines_cons ⟨[], by simp, by simp⟩ ih
    · rename_i hc
      split
      · exact ⟨by simp, Or.inl (by simpa using Ne.symm hc)⟩
      · rename_i l ls hs
        rw [hs] at ih
        cases ls with
        | nil =>
          refine ⟨by simp, ?_⟩
          rcases ih.2 with h | ⟨q, hq, rfl⟩
          · left; simp only [List.mem_cons, not_or]; exact ⟨Ne.symm hc, h⟩
          · right; exact ⟨c :: q, by simp only [List.mem_cons, not_or]; exact ⟨Ne.symm hc, hq⟩, by simp⟩
        | cons a b =>
          obtain ⟨⟨q, hq, rfl⟩, hb⟩ := ih
          exact ⟨⟨c :: q, by simp only [List.mem_cons, not_or]; exact ⟨Ne.symm hc, hq⟩, by simp⟩, hb⟩

theorem readLines_flatten_of_isLines : ∀ (ls : List (List Char)), IsLines ls → readLines ls.flatten = ls
  | [], _ => rfl
  | [l], h => by
    rcases h.2 with hn | ⟨q, hq, rfl⟩
    · have := readLines_prefix [] l hn h.1
      simpa [readLines] using this
    · have := readLines_line q [] hq
      simpa [readLines] using this
  | l :: a :: b, h => by
    obtain ⟨⟨q, hq, rfl⟩, hb⟩ := h
    have ih := readLines_flatten_of_isLines (a :: b) hb
    rw [List.flatten_cons, List.append_assoc, List.singleton_append, readLines_line q _ hq, ih]

theorem isLines_map (p : List Char) (hp : '\n' ∉ p) : ∀ (ls : List (List Char)), IsLines ls → IsLines (ls.map (p ++ ·))
  | [], _ => trivial
  | [l], h => by
    refine ⟨by simp [h.1], ?_⟩
    rcases h.2 with hn | ⟨q, hq, rfl⟩
    · left; simp [hp, hn]
    · right; exact ⟨p ++ q, by simp [hp, hq], by simp⟩
  | l :: a :: b, h => by
    obtain ⟨⟨q, hq, rfl⟩, hb⟩ := h
    exact ⟨⟨p ++ q, by simp [hp, hq], by simp⟩, isLines_map p hp (a :: b) hb⟩

theorem isLines_drop : ∀ (n : Nat) (ls : List (List Char)), IsLines ls → IsLines (ls.drop n)
  | 0, ls, h => h
  | n + 1, [], _ => trivial
  | n + 1, [l], _ => by simp [IsLines]
  | n + 1, _ :: a :: b, h => isLines_drop n (a :: b) h.2

theorem addSpaces_readLines (ls : List (List Char)) (h : IsLines ls) :
    readLines (addSpaces (.list ls)) = ls.map ([' ', ' ', ' ', ' '] ++ ·) := by
  rw [addSpaces, List.flatMap_def]
  exact readLines_flatten_of_isLines _ (isLines_map _ (by decide) ls h)

/-- The text of one item. -/
def itemText (kv : List Nat × List Char) : List Char := Json.quote kv.1 ++ [':', ' '] ++ kv.2

/-- The text of items with what separates them. -/
def bodyText : Bool → List (List Nat × List Char) → List Char
  | _, [] => []
  | first, kv :: d => (if first then [] else [',', ' ']) ++ itemText kv ++ bodyText false d

theorem bodyText_false (d : List (List Nat × List Char)) :
    bodyText false d = (d.map (fun kv => [',', ' '] ++ itemText kv)).flatten := by
  induction d with
  | nil => rfl
  | cons kv d ih => simp [bodyText, ih]

theorem bodyText_true (d : List (List Nat × List Char)) : bodyText true d = [',', ' '].intercalate (d.map itemText) := by
  cases d with
  | nil => rfl
  | cons kv d =>
    simp only [bodyText, if_true, List.nil_append, bodyText_false, List.map_cons]
    induction d generalizing kv with
    | nil => simp [List.intercalate]
    | cons a d ih =>
      have := ih a
      simp only [List.intercalate, List.map_cons, List.flatten_cons, List.intersperse_cons₂] at this ⊢
      rw [← this]; simp

/-- Values json can write. -/
def IsNumber (j : Json.J) : Prop := ∃ t, scalarText j = .ok t

/-- The text of a value. -/
def numText (j : Json.J) : List Char :=
  match scalarText j with
  | .ok t => t
  | .error _ => []

theorem scalarText_of_isNumber {j : Json.J} (h : IsNumber j) : scalarText j = .ok (numText j) := by
  obtain ⟨t, ht⟩ := h
  simp [numText, ht]

theorem scalarText_of_not {j : Json.J} (h : ¬ IsNumber j) : scalarText j = .error .typeError := by
  cases j <;> first | rfl | exact absurd ⟨_, rfl⟩ h

theorem itemPieces_append (more : List (List Nat × Json.J)) : ∀ (d : List (List Nat × Json.J)) (_ : ∀ kv ∈ d, IsNumber kv.2)
    (first : Bool), ∃ ps : List (List Char), itemPieces first (d ++ more) = ps.map .ok ++ itemPieces (first && d.isEmpty) more ∧
      ps.flatten = bodyText first (d.map (fun kv => (kv.1, numText kv.2)))
  | [], _, first => ⟨[], by simp, rfl⟩
  | kv :: d, hv, first => by
    obtain ⟨ps, h1, h2⟩ := itemPieces_append more d (fun x hx => hv x (by simp [hx])) false
    refine ⟨(if first then [] else [[',', ' ']]) ++ [Json.quote kv.1, [':', ' '], numText kv.2] ++ ps, ?_, ?_⟩
    · simp only [List.cons_append, itemPieces, scalarText_of_isNumber (hv kv (by simp)), h1]
      cases first <;> simp
    · cases first <;> simp [bodyText, itemText, h2]

end Verif.Files
