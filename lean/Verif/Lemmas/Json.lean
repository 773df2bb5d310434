/-
Helper lemmas for C44: the reader undoes the writer.
-/
import Verif.Spec.Json
import Mathlib.Data.Nat.Digits.Lemmas

namespace Verif.Json
open Verif

/-! ### Characters and strings -/

theorem hexVal_hexDigit : ∀ n : Nat, n < 16 → hexVal (hexDigit n) = some n := by decide

theorem hexDigit_digit : ∀ n : Nat, n < 10 → isDigit (hexDigit n) = true ∧ (hexDigit n).toNat - 48 = n := by decide

theorem char_facts : ∀ n : Nat, n < 127 → (32 ≤ n ∧ n ≠ 34 ∧ n ≠ 92 →
    (Char.ofNat n).toNat = n ∧ Char.ofNat n ≠ '"' ∧ Char.ofNat n ≠ '\n' ∧ Char.ofNat n ≠ '\\') := by decide +kernel

theorem pStr_plain (c : Char) (r : List Char) (h1 : c ≠ '"') (h2 : c ≠ '\n') (h3 : c ≠ '\\') :
    pStr (c :: r) = (do let x ← pStr r; return (c.toNat :: x.1, x.2)) := by
  rw [pStr.eq_def]
  split <;> simp_all

theorem pStr_u4 (n : Nat) (h : n < 65536) (r : List Char) :
    pStr (u4 n ++ r) = (do let x ← pStr r; return (n :: x.1, x.2)) := by
  simp only [u4, List.cons_append, List.nil_append]
  rw [pStr]
  simp only [hexVal_hexDigit _ (Nat.mod_lt _ (by norm_num : 0 < 16))]
  have : 4096 * (n / 4096 % 16) + 256 * (n / 256 % 16) + 16 * (n / 16 % 16) + n % 16 = n := by omega
  rw [this]

/-- What the reader makes of a code point. -/
def units (n : Nat) : List Nat :=
  if n < 65536 then [n] else [55296 + (n - 65536) / 1024 % 1024, 56320 + (n - 65536) % 1024]

theorem pStr_escape (n : Nat) (r : List Char) :
    pStr (escape n ++ r) = (do let x ← pStr r; return (units n ++ x.1, x.2)) := by
  unfold escape
  split
  · rename_i h; subst h; rfl
  split
  · rename_i h; subst h; rfl
  split
  · rename_i h; subst h; rfl
  split
  · rename_i h; subst h; rfl
  split
  · rename_i h; subst h; rfl
  split
  · rename_i h; subst h; rfl
  split
  · rename_i h; subst h; rfl
  split
  · rename_i h34 h92 _ _ _ _ _ h
    obtain ⟨f1, f2, f3, f4⟩ := char_facts n (by omega) ⟨h.1, h34, h92⟩
    simp only [List.cons_append, List.nil_append]
    rw [pStr_plain _ _ f2 f3 f4, f1]
    simp only [units, if_pos (show n < 65536 by omega)]
    rfl
  split
  · rename_i h
    rw [pStr_u4 n h]
    simp only [units, if_pos h]
    rfl
  · rename_i h
    rw [List.append_assoc, pStr_u4 _ (by omega), pStr_u4 _ (by omega)]
    simp only [units, if_neg h]
    cases pStr r <;> rfl

theorem pStr_flatMap (s : List Nat) (r : List Char) :
    pStr (s.flatMap escape ++ '"' :: r) = .ok (s.flatMap units, r) := by
  induction s with
  | nil => simp [pStr]
  | cons n s ih =>
    rw [List.flatMap_cons, List.append_assoc, pStr_escape, ih]
    rfl

theorem flatMap_units (s : List Nat) (h : Bmp s) : s.flatMap units = s := by
  induction s with
  | nil => rfl
  | cons n s ih =>
    rw [List.flatMap_cons, ih (fun c hc => h c (List.mem_cons_of_mem _ hc))]
    simp [units, h n List.mem_cons_self]

/-! ### Numbers -/

/-- The text after a value: nothing, a comma or a new line. -/
def Delim (r : List Char) : Prop := r = [] ∨ ∃ t, r = ',' :: t ∨ r = '\n' :: t

theorem pDigits_delim {r : List Char} (h : ∀ c t, r = c :: t → isDigit c = false) (l : List Nat) (hl : ∀ d ∈ l, d < 10) :
    pDigits (l.map hexDigit ++ r) = (l, r) := by
  induction l with
  | nil =>
    cases r with
    | nil => rfl
    | cons c t => simp [pDigits, h c t rfl]
  | cons d l ih =>
    have hd := hexDigit_digit d (hl d List.mem_cons_self)
    simp only [List.map_cons, List.cons_append, pDigits, hd.1, if_true, ih (fun x hx => hl x (List.mem_cons_of_mem _ hx)), hd.2]

theorem delim_head {r : List Char} (h : Delim r) :
    ∀ c t, r = c :: t → isDigit c = false ∧ isLetter c = false ∧ c ≠ '.' ∧ c ≠ 'e' := by
  rintro c t rfl
  rcases h with h | ⟨t', h | h⟩
  · cases h
  · cases h; decide
  · cases h; decide

theorem foldl_dec (l : List Nat) (a : Nat) : l.foldl (fun a d => 10 * a + d) a = Nat.ofDigits 10 l.reverse + 10 ^ l.length * a := by
  induction l generalizing a with
  | nil => simp
  | cons d l ih =>
    rw [List.foldl_cons, ih, List.reverse_cons, Nat.ofDigits_append, Nat.ofDigits_singleton, List.length_reverse,
      List.length_cons, pow_succ]
    ring

theorem decVal_decDigits (n : Nat) : decVal (decDigits n) = n := by
  unfold decVal decDigits
  split
  · rename_i h; subst h; rfl
  · rw [foldl_dec, List.reverse_reverse, Nat.ofDigits_digits]
    simp

theorem decDigits_lt (n : Nat) : ∀ d ∈ decDigits n, d < 10 := by
  intro d hd
  unfold decDigits at hd
  split at hd
  · simp at hd; omega
  · rw [List.mem_reverse] at hd
    exact Nat.digits_lt_base (by norm_num) hd

theorem decDigits_ne_nil (n : Nat) : decDigits n ≠ [] := by
  unfold decDigits
  split
  · simp
  · rename_i h
    simp [Nat.digits_ne_nil_iff_ne_zero.2 h]

theorem decDigits_head (n : Nat) : ¬ (1 < (decDigits n).length ∧ (decDigits n).head? = some 0) := by
  unfold decDigits
  split
  · simp
  · rename_i h
    rintro ⟨_, h2⟩
    rw [List.head?_reverse] at h2
    have h3 := Nat.getLast_digit_ne_zero 10 h
    rw [List.getLast?_eq_some_getLast (Nat.digits_ne_nil_iff_ne_zero.2 h)] at h2
    exact h3 (Option.some.inj h2)

theorem pFrac_none {r : List Char} (h : ∀ c t, r = c :: t → c ≠ '.') : pFrac r = (none, r) := by
  unfold pFrac
  split
  · rename_i t
    exact absurd rfl (h '.' t rfl)
  · rfl

theorem pExp_none {r : List Char} (h : ∀ c t, r = c :: t → c ≠ 'e') : pExp r = (none, r) := by
  unfold pExp
  split
  · exact absurd rfl (h _ _ rfl)
  · exact absurd rfl (h _ _ rfl)
  · rfl

theorem pNum_nat (n : Nat) {r : List Char} (h : Delim r) : pNum ((decDigits n).map hexDigit ++ r) = .ok (.int n, r) := by
  have h' := delim_head h
  unfold pNum
  rw [pDigits_delim (fun c t e => (h' c t e).1) _ (decDigits_lt n)]
  simp only [pFrac_none (fun c t e => (h' c t e).2.2.1), pExp_none (fun c t e => (h' c t e).2.2.2)]
  rw [if_neg (decDigits_head n), decVal_decDigits]

/-- The text of the exponent. -/
def expText (e : Option (Bool × List Nat)) : List Char :=
  match e with | none => [] | some (s, l) => 'e' :: (if s then '-' else '+') :: l.map hexDigit

/-- The text of the fraction. -/
def fracText (f : Option (List Nat)) : List Char := match f with | none => [] | some l => '.' :: l.map hexDigit

theorem fltText_eq (f : Flt) :
    fltText f = (if f.neg then ['-'] else []) ++ (f.ip.map hexDigit ++ (fracText f.frac ++ expText f.exp)) := by
  unfold fltText fracText expText
  rw [List.append_assoc, List.append_assoc]
  cases f.frac <;> cases f.exp <;> rfl

theorem pExp_expText (f : Flt) (hf : f.Ok) {r : List Char} (h : Delim r) : pExp (expText f.exp ++ r) = (f.exp, r) := by
  have h' := delim_head h
  unfold expText
  split
  · rename_i he
    rw [he]
    exact pExp_none (fun c t e => (h' c t e).2.2.2)
  · rename_i s l he
    rw [he]
    have hd := pDigits_delim (fun c t e => (h' c t e).1) l (hf.exp s l he).2
    cases s <;> simp [pExp, hd]

theorem expText_head (f : Flt) {r : List Char} (h : Delim r) :
    ∀ c t, expText f.exp ++ r = c :: t → isDigit c = false ∧ c ≠ '.' := by
  intro c t hc
  unfold expText at hc
  split at hc
  · exact ⟨(delim_head h c t hc).1, (delim_head h c t hc).2.2.1⟩
  · simp only [List.cons_append, List.cons.injEq] at hc
    rw [← hc.1]; decide

theorem pFrac_fracText (f : Flt) (hf : f.Ok) {r : List Char} (h : Delim r) :
    pFrac (fracText f.frac ++ (expText f.exp ++ r)) = (f.frac, expText f.exp ++ r) := by
  unfold fracText
  split
  · rename_i he
    rw [he]
    exact pFrac_none (fun c t e => (expText_head f h c t e).2)
  · rename_i l he
    rw [he]
    have hd := pDigits_delim (fun c t e => (expText_head f h c t e).1) l (hf.frac l he).2
    simp [pFrac, hd]

theorem fracText_head (f : Flt) {r : List Char} (h : Delim r) :
    ∀ c t, fracText f.frac ++ (expText f.exp ++ r) = c :: t → isDigit c = false := by
  intro c t hc
  unfold fracText at hc
  split at hc
  · exact (expText_head f h c t hc).1
  · simp only [List.cons_append, List.cons.injEq] at hc
    rw [← hc.1]; decide

theorem pNum_flt (f : Flt) (hf : f.Ok) {r : List Char} (h : Delim r) :
    pNum (f.ip.map hexDigit ++ (fracText f.frac ++ expText f.exp) ++ r) = .ok (.float { f with neg := false }, r) := by
  unfold pNum
  rw [List.append_assoc, List.append_assoc, pDigits_delim (fracText_head f h) _ hf.ip.2]
  simp only [pFrac_fracText f hf h, pExp_expText f hf h]
  rcases hf.isFloat with h1 | h1
  · split
    · exact absurd ‹_› h1
    · rfl
  · split
    · exact absurd ‹_› h1
    · rfl

/-! ### Names -/

theorem pName_delim (n : List Char) (hn : ∀ c ∈ n, isLetter c = true) {r : List Char} (h : Delim r) :
    pName (n ++ r) = (n, r) := by
  induction n with
  | nil =>
    cases r with
    | nil => rfl
    | cons c t =>
      have := delim_head h c t rfl
      simp [pName, this.1, this.2.1]
  | cons c n ih =>
    simp only [List.cons_append, pName, hn c List.mem_cons_self, Bool.true_or, if_true,
      ih (fun x hx => hn x (List.mem_cons_of_mem _ hx))]

/-! ### The expression the reader sees -/

def constE : Const → E
  | .tru => .name ['t', 'r', 'u', 'e']
  | .fls => .name ['f', 'a', 'l', 's', 'e']
  | .null => .name ['n', 'u', 'l', 'l']
  | .nan => .name ['N', 'a', 'N']
  | .inf => .name ['I', 'n', 'f', 'i', 'n', 'i', 't', 'y']
  | .ninf => .neg (.name ['I', 'n', 'f', 'i', 'n', 'i', 't', 'y'])

/-- The string a key is written as. -/
def keyStr : Key → List Nat
  | .str s => s.flatMap units
  | .int n => (intText n).map Char.toNat

mutual
def ast : J → E
  | .int n => if n < 0 then .neg (.int n.natAbs) else .int n.natAbs
  | .float f => if f.neg then .neg (.float { f with neg := false }) else .float { f with neg := false }
  | .str s => .str (s.flatMap units)
  | .const c => constE c
  | .list l => .list (astList l)
  | .tuple l => .list (astList l)
  | .dict d => .dict (astItems d)
  | .object => .list []
def astList : List J → List E
  | [] => []
  | j :: js => ast j :: astList js
def astItems : List (Key × J) → List (E × E)
  | [] => []
  | (k, j) :: d => (.str (keyStr k), ast j) :: astItems d
end

mutual
/-- Fuel the reader needs. -/
def sz : J → Nat
  | .list l => 1 + szList l
  | .tuple l => 1 + szList l
  | .dict d => 1 + szItems d
  | .str _ => 1
  | _ => 2
def szList : List J → Nat
  | [] => 1
  | j :: js => 1 + sz j + szList js
def szItems : List (Key × J) → Nat
  | [] => 1
  | (_, j) :: d => 2 + sz j + szItems d
end

theorem skipWs_nl (lvl : Nat) (r : List Char) : skipWs (nl lvl ++ r) = skipWs r := by
  unfold nl
  rw [List.cons_append, skipWs]
  generalize 4 * lvl = n
  induction n with
  | zero => rfl
  | succ n ih => rw [List.replicate_succ, List.cons_append, skipWs, ih]

/-- A character that starts a value. -/
def Start (c : Char) : Prop := c ≠ ' ' ∧ c ≠ '\n' ∧ c ≠ '\t' ∧ c ≠ ']' ∧ c ≠ '}'

theorem skipWs_start {c : Char} (h : Start c) (r : List Char) : skipWs (c :: r) = c :: r := by
  obtain ⟨h1, h2, h3, _⟩ := h
  unfold skipWs
  split <;> simp_all

theorem start_digit : ∀ n : Nat, n < 10 → Start (hexDigit n) ∧ hexDigit n ≠ '[' ∧ hexDigit n ≠ '{' ∧ hexDigit n ≠ '"' ∧
    hexDigit n ≠ '-' := by unfold Start; decide

theorem intText_head (n : Int) : ∃ c t, intText n = c :: t ∧ Start c := by
  unfold intText
  split
  · exact ⟨'-', _, rfl, by unfold Start; decide⟩
  · cases h : decDigits n.natAbs with
    | nil => exact absurd h (decDigits_ne_nil _)
    | cons d l =>
      exact ⟨hexDigit d, l.map hexDigit, rfl, (start_digit d (decDigits_lt _ d (by rw [h]; exact List.mem_cons_self))).1⟩

theorem fltText_head (f : Flt) (hf : f.Ok) : ∃ c t, fltText f = c :: t ∧ Start c := by
  rw [fltText_eq]
  split
  · exact ⟨'-', _, rfl, by unfold Start; decide⟩
  · cases h : f.ip with
    | nil => exact absurd h hf.ip.1
    | cons d l => exact ⟨hexDigit d, _, rfl, (start_digit d (hf.ip.2 d (by rw [h]; exact List.mem_cons_self))).1⟩

theorem text_head (lvl : Nat) (j : J) (hw : WF j) (hs : writable j = true) : ∃ c t, text lvl j = c :: t ∧ Start c := by
  cases j with
  | int n => rw [text]; exact intText_head n
  | float f => rw [text]; exact fltText_head f hw
  | str s => rw [text]; exact ⟨'"', _, rfl, by unfold Start; decide⟩
  | const c => rw [text]; cases c <;> exact ⟨_, _, rfl, by unfold Start; decide⟩
  | list l => cases l <;> rw [text] <;> exact ⟨'[', _, rfl, by unfold Start; decide⟩
  | tuple l => cases l <;> rw [text] <;> exact ⟨'[', _, rfl, by unfold Start; decide⟩
  | dict d =>
    cases d with
    | nil => rw [text]; exact ⟨'{', _, rfl, by unfold Start; decide⟩
    | cons kj d => rw [text]; exact ⟨'{', _, rfl, by unfold Start; decide⟩
  | object => cases hs

theorem delim_comma (t : List Char) : Delim (',' :: t) := .inr ⟨t, .inl rfl⟩
theorem delim_nl (lvl : Nat) (t : List Char) : Delim (nl lvl ++ t) := .inr ⟨_, .inr rfl⟩

theorem delim_rest (lvl lvl' : Nat) (js : List J) (t : List Char) : Delim (textRest lvl js ++ (nl lvl' ++ t)) := by
  cases js with
  | nil => rw [textRest]; exact delim_nl _ _
  | cons j js => rw [textRest]; exact delim_comma _

theorem delim_items (lvl lvl' : Nat) (d : List (Key × J)) (t : List Char) : Delim (textItems lvl d ++ (nl lvl' ++ t)) := by
  cases d with
  | nil => rw [textItems]; exact delim_nl _ _
  | cons kj d => obtain ⟨k, j⟩ := kj; rw [textItems]; exact delim_comma _

/-! ### Atoms -/

theorem pExpr_digits {e : E} {s r : List Char} (d : Nat) (hd : d < 10) (t : List Char) (hs : s = hexDigit d :: t)
    (h : pNum s = .ok (e, r)) (fuel : Nat) : pExpr (fuel + 1) s = .ok (e, r) := by
  obtain ⟨h0, h1, h2, h3, h4⟩ := start_digit d hd
  rw [pExpr, hs, skipWs_start h0]
  simp only [if_neg h1, if_neg h2, if_neg h3, if_neg h4, (hexDigit_digit d hd).1, if_true]
  rw [← hs, h]

theorem pExpr_minus {e : E} {s r : List Char} (fuel : Nat) (h : pExpr fuel s = .ok (e, r)) :
    pExpr (fuel + 1) ('-' :: s) = .ok (.neg e, r) := by
  rw [pExpr, skipWs_start (by unfold Start; decide)]
  simp [h, bind, Except.bind, pure, Except.pure]

theorem pExpr_quote (s : List Char) (x : List Nat) (r : List Char) (fuel : Nat) (h : pStr s = .ok (x, r)) :
    pExpr (fuel + 1) ('"' :: s) = .ok (.str x, r) := by
  rw [pExpr, skipWs_start (by unfold Start; decide)]
  simp [h, bind, Except.bind, pure, Except.pure]

theorem pExpr_int (n : Int) {r : List Char} (h : Delim r) (fuel : Nat) (hf : 2 ≤ fuel) :
    pExpr fuel (intText n ++ r) = .ok (ast (.int n), r) := by
  have hnum := pNum_nat n.natAbs h
  obtain ⟨d, l, hdl⟩ : ∃ d l, decDigits n.natAbs = d :: l := by
    cases h' : decDigits n.natAbs with
    | nil => exact absurd h' (decDigits_ne_nil _)
    | cons d l => exact ⟨d, l, rfl⟩
  have hd : d < 10 := decDigits_lt _ d (by rw [hdl]; exact List.mem_cons_self)
  have hs : (decDigits n.natAbs).map hexDigit ++ r = hexDigit d :: (l.map hexDigit ++ r) := by rw [hdl]; rfl
  obtain ⟨f, rfl⟩ : ∃ f, fuel = f + 2 := ⟨fuel - 2, by omega⟩
  unfold intText
  rw [ast]
  split
  · rw [List.append_assoc]
    exact pExpr_minus _ (pExpr_digits d hd _ hs hnum f)
  · rw [List.nil_append]
    exact pExpr_digits d hd _ hs hnum (f + 1)

theorem pExpr_float (x : Flt) (hx : x.Ok) {r : List Char} (h : Delim r) (fuel : Nat) (hf : 2 ≤ fuel) :
    pExpr fuel (fltText x ++ r) = .ok (ast (.float x), r) := by
  have hnum := pNum_flt x hx h
  obtain ⟨d, l, hdl⟩ : ∃ d l, x.ip = d :: l := by
    cases h' : x.ip with
    | nil => exact absurd h' hx.ip.1
    | cons d l => exact ⟨d, l, rfl⟩
  have hd : d < 10 := hx.ip.2 d (by rw [hdl]; exact List.mem_cons_self)
  obtain ⟨t, hs⟩ : ∃ t, x.ip.map hexDigit ++ (fracText x.frac ++ expText x.exp) ++ r = hexDigit d :: t := by
    rw [hdl]; exact ⟨_, rfl⟩
  obtain ⟨f, rfl⟩ : ∃ f, fuel = f + 2 := ⟨fuel - 2, by omega⟩
  rw [fltText_eq, ast]
  split
  · rw [List.append_assoc]
    exact pExpr_minus _ (pExpr_digits d hd _ hs hnum f)
  · rw [List.nil_append]
    exact pExpr_digits d hd _ hs hnum (f + 1)

theorem pExpr_name (c : Char) (n : List Char) (hc : Start c ∧ c ≠ '[' ∧ c ≠ '{' ∧ c ≠ '"' ∧ c ≠ '-' ∧ isDigit c = false)
    (hn : ∀ x ∈ c :: n, isLetter x = true) {r : List Char} (h : Delim r) (fuel : Nat) :
    pExpr (fuel + 1) (c :: n ++ r) = .ok (.name (c :: n), r) := by
  obtain ⟨h0, h1, h2, h3, h4, h5⟩ := hc
  rw [pExpr, List.cons_append, skipWs_start h0]
  simp only [if_neg h1, if_neg h2, if_neg h3, if_neg h4, h5, hn c List.mem_cons_self, if_true]
  rw [← List.cons_append, pName_delim _ hn h]
  simp

theorem pExpr_const (c : Const) {r : List Char} (h : Delim r) (fuel : Nat) (hf : 2 ≤ fuel) :
    pExpr fuel (constText c ++ r) = .ok (ast (.const c), r) := by
  obtain ⟨f, rfl⟩ : ∃ f, fuel = f + 2 := ⟨fuel - 2, by omega⟩
  rw [ast]
  cases c
  · exact pExpr_name _ _ (by unfold Start; decide) (by decide) h _
  · exact pExpr_name _ _ (by unfold Start; decide) (by decide) h _
  · exact pExpr_name _ _ (by unfold Start; decide) (by decide) h _
  · exact pExpr_name _ _ (by unfold Start; decide) (by decide) h _
  · exact pExpr_name _ _ (by unfold Start; decide) (by decide) h _
  · exact pExpr_minus _ (pExpr_name _ _ (by unfold Start; decide) (by decide) h _)

theorem pStr_chars (l : List Char) (hl : ∀ c ∈ l, c ≠ '"' ∧ c ≠ '\n' ∧ c ≠ '\\') (r : List Char) :
    pStr (l ++ '"' :: r) = .ok (l.map Char.toNat, r) := by
  induction l with
  | nil => simp [pStr]
  | cons c l ih =>
    obtain ⟨h1, h2, h3⟩ := hl c List.mem_cons_self
    rw [List.cons_append, pStr_plain _ _ h1 h2 h3, ih (fun x hx => hl x (List.mem_cons_of_mem _ hx))]
    rfl

theorem intText_chars (n : Int) : ∀ c ∈ intText n, c ≠ '"' ∧ c ≠ '\n' ∧ c ≠ '\\' := by
  have hdig : ∀ n : Nat, n < 10 → hexDigit n ≠ '"' ∧ hexDigit n ≠ '\n' ∧ hexDigit n ≠ '\\' := by decide
  intro c hc
  unfold intText at hc
  rcases List.mem_append.1 hc with h | h
  · split at h
    · rw [List.mem_singleton.1 h]; decide
    · cases h
  · obtain ⟨d, hd, rfl⟩ := List.mem_map.1 h
    exact hdig d (decDigits_lt _ d hd)

theorem pExpr_key (k : Key) (r : List Char) (fuel : Nat) :
    pExpr (fuel + 1) (keyText k ++ r) = .ok (.str (keyStr k), r) := by
  cases k with
  | str s =>
    simp only [keyText, quote, List.cons_append, List.append_assoc, List.nil_append]
    exact pExpr_quote _ _ _ _ (pStr_flatMap s r)
  | int n =>
    simp only [keyText, List.cons_append, List.append_assoc, List.nil_append]
    exact pExpr_quote _ _ _ _ (pStr_chars _ (intText_chars n) r)

theorem keyText_head (k : Key) : ∃ t, keyText k = '"' :: t := by
  cases k <;> exact ⟨_, rfl⟩

/-! ### The reader undoes the writer -/

theorem pList_cons {e : E} {es : List E} {X r1 r : List Char} (lvl fuel : Nat) {c : Char} {t : List Char} (hX : X = c :: t) (hc : Start c)
    (h1 : pExpr fuel X = .ok (e, r1))
    (h2 : (es = [] ∧ skipWs r1 = ']' :: r) ∨ (∃ r2, skipWs r1 = ',' :: r2 ∧ pList fuel r2 = .ok (es, r))) :
    pList (fuel + 1) (nl lvl ++ X) = .ok (e :: es, r) := by
  rw [pList, skipWs_nl, hX, skipWs_start hc]
  simp only [if_neg hc.2.2.2.1]
  rw [← hX, h1]
  simp only [bind, Except.bind]
  rcases h2 with ⟨rfl, h2⟩ | ⟨r2, h2, h3⟩
  · rw [h2]; simp
  · rw [h2]; simp [h3, pure, Except.pure]

theorem pDict_cons {k e : E} {es : List (E × E)} {X Y r1 r : List Char} (lvl fuel : Nat) {c : Char} {t : List Char}
    (hX : X = c :: t) (hc : Start c) (hk : pExpr fuel X = .ok (k, ':' :: Y)) (h1 : pExpr fuel Y = .ok (e, r1))
    (h2 : (es = [] ∧ skipWs r1 = '}' :: r) ∨ (∃ r2, skipWs r1 = ',' :: r2 ∧ pDict fuel r2 = .ok (es, r))) :
    pDict (fuel + 1) (nl lvl ++ X) = .ok ((k, e) :: es, r) := by
  rw [pDict, skipWs_nl, hX, skipWs_start hc]
  simp only [if_neg hc.2.2.2.2]
  rw [← hX, hk]
  simp only [bind, Except.bind]
  rw [skipWs_start (by unfold Start; decide)]
  simp only [if_true, h1]
  rcases h2 with ⟨rfl, h2⟩ | ⟨r2, h2, h3⟩
  · rw [h2]; simp
  · rw [h2]; simp [h3, pure, Except.pure]

theorem pExpr_space (fuel : Nat) (s : List Char) : pExpr fuel (' ' :: s) = pExpr fuel s := by
  cases fuel with
  | zero => simp [pExpr]
  | succ f => rw [pExpr, pExpr, skipWs]

theorem skipWs_nl_close (lvl : Nat) (c : Char) (hc : c = ']' ∨ c = '}') (r : List Char) :
    skipWs (nl lvl ++ c :: r) = c :: r := by
  rw [skipWs_nl]
  rcases hc with rfl | rfl <;> simp [skipWs]

mutual
theorem pExpr_text (j : J) (lvl : Nat) (r : List Char) (fuel : Nat) (hw : WF j) (hs : writable j = true) (hf : sz j ≤ fuel)
    (hr : Delim r) : pExpr fuel (text lvl j ++ r) = .ok (ast j, r) := by
  match j with
  | .int n => rw [text]; exact pExpr_int n hr fuel (by simpa [sz] using hf)
  | .float f => rw [text]; exact pExpr_float f hw hr fuel (by simpa [sz] using hf)
  | .const c => rw [text]; exact pExpr_const c hr fuel (by simpa [sz] using hf)
  | .str s =>
    obtain ⟨f, rfl⟩ : ∃ f, fuel = f + 1 := ⟨fuel - 1, by simp [sz] at hf; omega⟩
    rw [text, ast]
    exact pExpr_key (.str s) r f
  | .list l =>
    obtain ⟨f, rfl⟩ : ∃ f, fuel = f + 1 := ⟨fuel - 1, by simp [sz] at hf; omega⟩
    rw [sz] at hf
    rw [ast]
    have hl := pList_text l lvl r f hw hs (by omega)
    have : ∃ t, text lvl (.list l) ++ r = '[' :: t ∧ pList f t = .ok (astList l, r) := by
      cases l with
      | nil => exact ⟨_, rfl, by simpa using hl⟩
      | cons j js =>
        rw [text]
        refine ⟨_, rfl, ?_⟩
        simpa using hl
    obtain ⟨t, ht, hp⟩ := this
    rw [ht, pExpr, skipWs_start (by unfold Start; decide)]
    simp [hp, bind, Except.bind, pure, Except.pure]
  | .tuple l =>
    obtain ⟨f, rfl⟩ : ∃ f, fuel = f + 1 := ⟨fuel - 1, by simp [sz] at hf; omega⟩
    rw [sz] at hf
    rw [ast]
    have hl := pList_text l lvl r f hw hs (by omega)
    have : ∃ t, text lvl (.tuple l) ++ r = '[' :: t ∧ pList f t = .ok (astList l, r) := by
      cases l with
      | nil => exact ⟨_, rfl, by simpa using hl⟩
      | cons j js =>
        rw [text]
        refine ⟨_, rfl, ?_⟩
        simpa using hl
    obtain ⟨t, ht, hp⟩ := this
    rw [ht, pExpr, skipWs_start (by unfold Start; decide)]
    simp [hp, bind, Except.bind, pure, Except.pure]
  | .dict d =>
    obtain ⟨f, rfl⟩ : ∃ f, fuel = f + 1 := ⟨fuel - 1, by simp [sz] at hf; omega⟩
    rw [sz] at hf
    rw [writable, Bool.and_eq_true] at hs
    rw [ast]
    have hl := pDict_text d lvl r f hw.2 hs.2 (by omega)
    have : ∃ t, text lvl (.dict d) ++ r = '{' :: t ∧ pDict f t = .ok (astItems d, r) := by
      cases d with
      | nil => exact ⟨_, rfl, by simpa using hl⟩
      | cons kj d =>
        obtain ⟨k, j⟩ := kj
        rw [text]
        refine ⟨_, rfl, ?_⟩
        simpa using hl
    obtain ⟨t, ht, hp⟩ := this
    rw [ht, pExpr, skipWs_start (by unfold Start; decide)]
    simp [hp, bind, Except.bind, pure, Except.pure]
  | .object => cases hs

theorem pList_text (l : List J) (lvl : Nat) (r : List Char) (fuel : Nat) (hw : WFList l) (hs : writableList l = true)
    (hf : szList l ≤ fuel) :
    pList fuel (match l with
      | [] => ']' :: r
      | j :: js => nl (lvl + 1) ++ (text (lvl + 1) j ++ (textRest (lvl + 1) js ++ (nl lvl ++ ']' :: r)))) =
      .ok (astList l, r) := by
  match l with
  | [] =>
    obtain ⟨f, rfl⟩ : ∃ f, fuel = f + 1 := ⟨fuel - 1, by simp [szList] at hf; omega⟩
    simp [pList, skipWs, astList]
  | j :: js =>
    rw [szList] at hf
    rw [writableList, Bool.and_eq_true] at hs
    obtain ⟨f, rfl⟩ : ∃ f, fuel = f + 1 := ⟨fuel - 1, by omega⟩
    obtain ⟨c, t, hc, hst⟩ := text_head (lvl + 1) j hw.1 hs.1
    have h1 := pExpr_text j (lvl + 1) (textRest (lvl + 1) js ++ (nl lvl ++ ']' :: r)) f hw.1 hs.1 (by omega) (delim_rest _ _ _ _)
    have h2 := pList_text js lvl r f hw.2 hs.2 (by omega)
    rw [astList]
    refine pList_cons (lvl + 1) f (by rw [hc]; rfl) hst h1 ?_
    cases js with
    | nil =>
      left
      refine ⟨by rw [astList], ?_⟩
      rw [textRest, List.nil_append]
      exact skipWs_nl_close lvl ']' (.inl rfl) r
    | cons j2 js2 =>
      right
      rw [textRest]
      refine ⟨_, skipWs_start (by unfold Start; decide) _, ?_⟩
      simpa using h2

theorem pDict_text (d : List (Key × J)) (lvl : Nat) (r : List Char) (fuel : Nat) (hw : WFItems d)
    (hs : writableItems d = true) (hf : szItems d ≤ fuel) :
    pDict fuel (match d with
      | [] => '}' :: r
      | (k, j) :: d => nl (lvl + 1) ++ (keyText k ++ (':' :: ' ' :: (text (lvl + 1) j ++
          (textItems (lvl + 1) d ++ (nl lvl ++ '}' :: r)))))) = .ok (astItems d, r) := by
  match d with
  | [] =>
    obtain ⟨f, rfl⟩ : ∃ f, fuel = f + 1 := ⟨fuel - 1, by simp [szItems] at hf; omega⟩
    simp [pDict, skipWs, astItems]
  | (k, j) :: d =>
    rw [szItems] at hf
    rw [writableItems, Bool.and_eq_true] at hs
    obtain ⟨f, rfl⟩ : ∃ f, fuel = f + 2 := ⟨fuel - 2, by omega⟩
    obtain ⟨t, hk⟩ := keyText_head k
    have h1 := pExpr_text j (lvl + 1) (textItems (lvl + 1) d ++ (nl lvl ++ '}' :: r)) (f + 1) hw.2.1 hs.1 (by omega)
      (delim_items _ _ _ _)
    have h2 := pDict_text d lvl r (f + 1) hw.2.2 hs.2 (by omega)
    rw [astItems]
    refine pDict_cons (lvl + 1) (f + 1) (by rw [hk]; rfl) (by unfold Start; decide) (pExpr_key k _ f)
      (by rw [pExpr_space]; exact h1) ?_
    cases d with
    | nil =>
      left
      refine ⟨by rw [astItems], ?_⟩
      rw [textItems, List.nil_append]
      exact skipWs_nl_close lvl '}' (.inr rfl) r
    | cons kj d2 =>
      obtain ⟨k2, j2⟩ := kj
      right
      rw [textItems]
      refine ⟨_, skipWs_start (by unfold Start; decide) _, ?_⟩
      simpa using h2
end

/-! ### The fuel is enough -/

mutual
theorem sz_le (j : J) (lvl : Nat) (hw : WF j) (hs : writable j = true) : sz j ≤ (text lvl j).length + 1 := by
  match j with
  | .int n =>
    obtain ⟨c, t, h, _⟩ := intText_head n
    rw [text, h, sz]
    all_goals simp
  | .float f =>
    obtain ⟨c, t, h, _⟩ := fltText_head f hw
    rw [text, h, sz]
    all_goals simp
  | .const c => rw [text]; cases c <;> simp [sz, constText]
  | .str s => rw [sz]; omega
  | .list [] => simp [sz, szList, text]
  | .list (j :: js) =>
    rw [writable, writableList, Bool.and_eq_true] at hs
    have h1 := sz_le j (lvl + 1) hw.1 hs.1
    have h2 := szList_le js (lvl + 1) hw.2 hs.2
    rw [sz, szList, text]
    simp only [List.length_append, List.length_cons, nl]
    omega
  | .tuple [] => simp [sz, szList, text]
  | .tuple (j :: js) =>
    rw [writable, writableList, Bool.and_eq_true] at hs
    have h1 := sz_le j (lvl + 1) hw.1 hs.1
    have h2 := szList_le js (lvl + 1) hw.2 hs.2
    rw [sz, szList, text]
    simp only [List.length_append, List.length_cons, nl]
    omega
  | .dict [] => simp [sz, szItems, text]
  | .dict ((k, j) :: d) =>
    rw [writable, writableItems, Bool.and_eq_true, Bool.and_eq_true] at hs
    have h1 := sz_le j (lvl + 1) hw.2.2.1 hs.2.1
    have h2 := szItems_le d (lvl + 1) hw.2.2.2 hs.2.2
    rw [sz, szItems, text]
    simp only [List.length_append, List.length_cons, nl]
    omega
  | .object => cases hs

theorem szList_le (l : List J) (lvl : Nat) (hw : WFList l) (hs : writableList l = true) :
    szList l ≤ (textRest lvl l).length + 1 := by
  match l with
  | [] => simp [szList, textRest]
  | j :: js =>
    rw [writableList, Bool.and_eq_true] at hs
    have h1 := sz_le j lvl hw.1 hs.1
    have h2 := szList_le js lvl hw.2 hs.2
    rw [szList, textRest]
    simp only [List.length_append, List.length_cons, nl]
    omega

theorem szItems_le (d : List (Key × J)) (lvl : Nat) (hw : WFItems d) (hs : writableItems d = true) :
    szItems d ≤ (textItems lvl d).length + 1 := by
  match d with
  | [] => simp [szItems, textItems]
  | (k, j) :: d =>
    rw [writableItems, Bool.and_eq_true] at hs
    have h1 := sz_le j lvl hw.2.1 hs.1
    have h2 := szItems_le d lvl hw.2.2 hs.2
    rw [szItems, textItems]
    simp only [List.length_append, List.length_cons, nl]
    omega
end

theorem parse_text (j : J) (hw : WF j) (hs : writable j = true) : parse (text 0 j) = .ok (ast j) := by
  have h := pExpr_text j 0 [] ((text 0 j).length + 1) hw hs (sz_le j 0 hw hs) (.inl rfl)
  rw [List.append_nil] at h
  unfold parse
  rw [h]
  simp [bind, Except.bind, skipWs, pure, Except.pure]

/-! ### Evaluation -/

mutual
/-- What reading back gives: characters outside the basic plane as two surrogates, keys as strings, tuples as lists. -/
def image : J → J
  | .str s => .str (s.flatMap units)
  | .list l => .list (imageList l)
  | .tuple l => .list (imageList l)
  | .dict d => .dict (PyDict.ofList (imageItems d))
  | j => j
def imageList : List J → List J
  | [] => []
  | j :: js => image j :: imageList js
def imageItems : List (Key × J) → List (Key × J)
  | [] => []
  | (k, j) :: d => (.str (keyStr k), image j) :: imageItems d
end

mutual
/-- Some constant occurs. -/
def hasConst : J → Bool
  | .const _ => true
  | .list l => hasConstList l
  | .tuple l => hasConstList l
  | .dict d => hasConstItems d
  | _ => false
def hasConstList : List J → Bool
  | [] => false
  | j :: js => hasConst j || hasConstList js
def hasConstItems : List (Key × J) → Bool
  | [] => false
  | (_, j) :: d => hasConst j || hasConstItems d
end

theorem ev_constE (c : Const) : ev (constE c) = .error .nameError := by
  cases c <;> simp [constE, ev, evName, bind, Except.bind]

mutual
theorem ev_ast (j : J) (hs : writable j = true) :
    ev (ast j) = if hasConst j then .error .nameError else .ok (image j) := by
  match j with
  | .int n =>
    rw [ast]
    split
    · simp only [ev, bind, Except.bind, evNeg, hasConst, image, Bool.false_eq_true, if_false, Except.ok.injEq, J.int.injEq]
      omega
    · simp only [ev, hasConst, image, Bool.false_eq_true, if_false, Except.ok.injEq, J.int.injEq]
      omega
  | .float f =>
    rw [ast]
    obtain ⟨neg, ip, fr, ex⟩ := f
    cases neg <;> simp [ev, bind, Except.bind, evNeg, hasConst, image]
  | .str s => simp [ast, ev, hasConst, image]
  | .const c => rw [ast, ev_constE]; simp [hasConst]
  | .list l =>
    have := evList_ast l hs
    rw [ast, ev, this, hasConst, image]
    split <;> rfl
  | .tuple l =>
    have := evList_ast l hs
    rw [ast, ev, this, hasConst, image]
    split <;> rfl
  | .dict d =>
    rw [writable, Bool.and_eq_true] at hs
    have := evItems_ast d hs.2
    rw [ast, ev, this, hasConst, image]
    split <;> rfl
  | .object => cases hs

theorem evList_ast (l : List J) (hs : writableList l = true) :
    evList (astList l) = if hasConstList l then .error .nameError else .ok (imageList l) := by
  match l with
  | [] => simp [astList, evList, hasConstList, imageList]
  | j :: js =>
    rw [writableList, Bool.and_eq_true] at hs
    have h1 := ev_ast j hs.1
    have h2 := evList_ast js hs.2
    rw [astList, evList, h1, h2, hasConstList, imageList]
    cases hasConst j <;> cases hasConstList js <;> rfl

theorem evItems_ast (d : List (Key × J)) (hs : writableItems d = true) :
    evItems (astItems d) = if hasConstItems d then .error .nameError else .ok (imageItems d) := by
  match d with
  | [] => simp [astItems, evItems, hasConstItems, imageItems]
  | (k, j) :: d =>
    rw [writableItems, Bool.and_eq_true] at hs
    have h1 := ev_ast j hs.1
    have h2 := evItems_ast d hs.2
    rw [astItems, evItems, h1, h2, hasConstItems, imageItems, ev]
    cases hasConst j <;> cases hasConstItems d <;> rfl
end

/-! ### Sorting -/

theorem sortItems_keys (d : List (Key × J)) : (sortItems d).map Prod.fst = d.map Prod.fst := by
  induction d with
  | nil => simp [sortItems]
  | cons kj d ih => obtain ⟨k, j⟩ := kj; simp [sortItems, ih]

/-- Statements about all items. -/
theorem writableItems_iff (d : List (Key × J)) : writableItems d = true ↔ ∀ kj ∈ d, writable kj.2 = true := by
  induction d with
  | nil => simp [writableItems]
  | cons kj d ih => obtain ⟨k, j⟩ := kj; simp [writableItems, ih]

theorem WFItems_iff (d : List (Key × J)) : WFItems d ↔ ∀ kj ∈ d, kj.1.Ok ∧ WF kj.2 := by
  induction d with
  | nil => simp [WFItems]
  | cons kj d ih => obtain ⟨k, j⟩ := kj; simp [WFItems, ih, and_assoc]

theorem hasConstItems_iff (d : List (Key × J)) : hasConstItems d = true ↔ ∃ kj ∈ d, hasConst kj.2 = true := by
  induction d with
  | nil => simp [hasConstItems]
  | cons kj d ih => obtain ⟨k, j⟩ := kj; simp [hasConstItems, ih]

theorem PlainItems_iff (d : List (Key × J)) : PlainItems d ↔ ∀ kj ∈ d, kj.1.Plain ∧ Plain kj.2 := by
  induction d with
  | nil => simp [PlainItems]
  | cons kj d ih => obtain ⟨k, j⟩ := kj; simp [PlainItems, ih, and_assoc]

theorem sameType_iff (ks : List Key) :
    sameType ks = true ↔ (∀ k ∈ ks, ∃ s, k = .str s) ∨ (∀ k ∈ ks, ∃ n, k = .int n) := by
  have h1 : ∀ k : Key, k.isStr = true ↔ ∃ s, k = .str s := by intro k; cases k <;> simp [Key.isStr]
  have h2 : ∀ k : Key, k.isStr = false ↔ ∃ n, k = .int n := by intro k; cases k <;> simp [Key.isStr]
  cases ks with
  | nil => simp [sameType]
  | cons k ks => cases k <;> simp [sameType, h1, h2]

theorem sameType_perm {a b : List Key} (h : a.Perm b) (ha : sameType a = true) : sameType b = true := by
  rw [sameType_iff] at ha ⊢
  exact ha.imp (fun f k hk => f k (h.mem_iff.2 hk)) (fun f k hk => f k (h.mem_iff.2 hk))

theorem sorted_perm (d : List (Key × J)) : (d.mergeSort (fun a b => keyLe a.1 b.1)).Perm d := List.mergeSort_perm _ _

mutual
theorem sort_facts (j : J) :
    (writable j = true → writable (sortKeys j) = true) ∧ (WF j → WF (sortKeys j)) ∧ hasConst (sortKeys j) = hasConst j ∧
      (Plain j → Plain (sortKeys j)) ∧ (writable j = true → Same j (sortKeys j)) := by
  match j with
  | .int n => simp [sortKeys]; exact fun _ => .int n
  | .float f => simp [sortKeys]; exact fun _ => .float f
  | .str s => simp [sortKeys]; exact fun _ => .str s
  | .const c => simp [sortKeys]; exact fun _ => .const c
  | .list l =>
    obtain ⟨h1, h2, h3, h4, h5⟩ := sortList_facts l
    rw [sortKeys]
    exact ⟨h1, h2, h3, h4, fun h => .list _ _ (h5 h)⟩
  | .tuple l =>
    obtain ⟨h1, h2, h3, h4, h5⟩ := sortList_facts l
    rw [sortKeys]
    exact ⟨h1, h2, h3, (fun h => by cases h), fun h => .tuple _ _ (h5 h)⟩
  | .dict d =>
    obtain ⟨h1, h2, h3, h4, h5⟩ := sortItems_facts d
    have hp := sorted_perm (sortItems d)
    have hk : ((sortItems d).mergeSort (fun a b => keyLe a.1 b.1)).map Prod.fst |>.Perm (d.map Prod.fst) := by
      rw [← sortItems_keys d]; exact hp.map _
    rw [sortKeys]
    refine ⟨?_, ?_, ?_, ?_, ?_⟩
    · intro h
      rw [writable, Bool.and_eq_true] at h ⊢
      refine ⟨sameType_perm hk.symm h.1, ?_⟩
      rw [writableItems_iff]
      intro kj hkj
      exact (writableItems_iff _).1 (h1 h.2) kj (hp.mem_iff.1 hkj)
    · intro h
      refine ⟨hk.nodup_iff.2 h.1, ?_⟩
      rw [WFItems_iff]
      intro kj hkj
      exact (WFItems_iff _).1 (h2 h.2) kj (hp.mem_iff.1 hkj)
    · rw [hasConst, hasConst, ← h3]
      rw [Bool.eq_iff_iff, hasConstItems_iff, hasConstItems_iff]
      exact ⟨fun ⟨kj, a, b⟩ => ⟨kj, hp.mem_iff.1 a, b⟩, fun ⟨kj, a, b⟩ => ⟨kj, hp.mem_iff.2 a, b⟩⟩
    · intro h
      rw [Plain] at h ⊢
      rw [PlainItems_iff]
      intro kj hkj
      exact (PlainItems_iff _).1 (h4 h) kj (hp.mem_iff.1 hkj)
    · intro h
      rw [writable, Bool.and_eq_true] at h
      exact .dict _ _ _ (sortItems_keys d).symm (h5 h.2) hp.symm
  | .object => simp [sortKeys, writable]

theorem sortList_facts (l : List J) :
    (writableList l = true → writableList (sortList l) = true) ∧ (WFList l → WFList (sortList l)) ∧
      hasConstList (sortList l) = hasConstList l ∧ (PlainList l → PlainList (sortList l)) ∧
      (writableList l = true → List.Forall₂ Same l (sortList l)) := by
  match l with
  | [] => simp [sortList]
  | j :: js =>
    obtain ⟨h1, h2, h3, h4, h5⟩ := sort_facts j
    obtain ⟨g1, g2, g3, g4, g5⟩ := sortList_facts js
    rw [sortList]
    refine ⟨?_, ?_, ?_, ?_, ?_⟩
    · intro h
      rw [writableList, Bool.and_eq_true] at h ⊢
      exact ⟨h1 h.1, g1 h.2⟩
    · intro h; exact ⟨h2 h.1, g2 h.2⟩
    · rw [hasConstList, hasConstList, h3, g3]
    · intro h; exact ⟨h4 h.1, g4 h.2⟩
    · intro h
      rw [writableList, Bool.and_eq_true] at h
      exact .cons (h5 h.1) (g5 h.2)

theorem sortItems_facts (d : List (Key × J)) :
    (writableItems d = true → writableItems (sortItems d) = true) ∧ (WFItems d → WFItems (sortItems d)) ∧
      hasConstItems (sortItems d) = hasConstItems d ∧ (PlainItems d → PlainItems (sortItems d)) ∧
      (writableItems d = true → List.Forall₂ Same (d.map Prod.snd) ((sortItems d).map Prod.snd)) := by
  match d with
  | [] => simp [sortItems]
  | (k, j) :: d =>
    obtain ⟨h1, h2, h3, h4, h5⟩ := sort_facts j
    obtain ⟨g1, g2, g3, g4, g5⟩ := sortItems_facts d
    rw [sortItems]
    refine ⟨?_, ?_, ?_, ?_, ?_⟩
    · intro h
      rw [writableItems, Bool.and_eq_true] at h ⊢
      exact ⟨h1 h.1, g1 h.2⟩
    · intro h; exact ⟨h.1, h2 h.2.1, g2 h.2.2⟩
    · rw [hasConstItems, hasConstItems, h3, g3]
    · intro h; exact ⟨h.1, h4 h.2.1, g4 h.2.2⟩
    · intro h
      rw [writableItems, Bool.and_eq_true] at h
      exact .cons (h5 h.1) (g5 h.2)
end

/-! ### Plain values -/

theorem keyStr_plain {k : Key} (h : k.Plain) : Key.str (keyStr k) = k := by
  cases k with
  | str s => rw [keyStr, flatMap_units s h]
  | int n => cases h

mutual
theorem image_plain (j : J) (hw : WF j) (h : Plain j) : image j = j := by
  match j with
  | .int n => rfl
  | .float f => rfl
  | .str s => rw [image, flatMap_units s h]
  | .const c => cases h
  | .list l => rw [image, imageList_plain l hw h]
  | .tuple l => cases h
  | .dict d => rw [image, imageItems_plain d hw.2 h, PyDict.ofList_of_nodup _ hw.1]
  | .object => cases h
theorem imageList_plain (l : List J) (hw : WFList l) (h : PlainList l) : imageList l = l := by
  match l with
  | [] => rfl
  | j :: js => rw [imageList, image_plain j hw.1 h.1, imageList_plain js hw.2 h.2]
theorem imageItems_plain (d : List (Key × J)) (hw : WFItems d) (h : PlainItems d) : imageItems d = d := by
  match d with
  | [] => rfl
  | (k, j) :: d => rw [imageItems, image_plain j hw.2.1 h.2.1, imageItems_plain d hw.2.2 h.2.2, keyStr_plain h.1]
end

mutual
theorem plain_writable (j : J) (h : Plain j) : writable j = true ∧ hasConst j = false := by
  match j with
  | .int n => exact ⟨rfl, rfl⟩
  | .float f => exact ⟨rfl, rfl⟩
  | .str s => exact ⟨rfl, rfl⟩
  | .const c => cases h
  | .list l => exact plainList_writable l h
  | .tuple l => cases h
  | .dict d =>
    have := plainItems_writable d h
    refine ⟨?_, this.2⟩
    rw [writable, this.1, Bool.and_true, sameType_iff]
    left
    intro k hk
    obtain ⟨kj, hkj, rfl⟩ := List.mem_map.1 hk
    have := ((PlainItems_iff d).1 h kj hkj).1
    cases h' : kj.1 with
    | str s => exact ⟨s, rfl⟩
    | int n => rw [h'] at this; cases this
  | .object => cases h
theorem plainList_writable (l : List J) (h : PlainList l) : writableList l = true ∧ hasConstList l = false := by
  match l with
  | [] => exact ⟨rfl, rfl⟩
  | j :: js =>
    have h1 := plain_writable j h.1
    have h2 := plainList_writable js h.2
    exact ⟨by rw [writableList, h1.1, h2.1]; rfl, by rw [hasConstList, h1.2, h2.2]; rfl⟩
theorem plainItems_writable (d : List (Key × J)) (h : PlainItems d) : writableItems d = true ∧ hasConstItems d = false := by
  match d with
  | [] => exact ⟨rfl, rfl⟩
  | (k, j) :: d =>
    have h1 := plain_writable j h.2.1
    have h2 := plainItems_writable d h.2.2
    exact ⟨by rw [writableItems, h1.1, h2.1]; rfl, by rw [hasConstItems, h1.2, h2.2]; rfl⟩
end

theorem hasConst_of_occurs {c : Const} {j : J} (h : Occurs c j) : hasConst j = true := by
  induction h with
  | here => rfl
  | list l j hm _ ih =>
    rw [hasConst]
    clear * - hm ih
    induction l with
    | nil => cases hm
    | cons a l ihl =>
      rw [hasConstList]
      rcases List.mem_cons.1 hm with rfl | hm
      · rw [ih]; rfl
      · rw [ihl hm, Bool.or_true]
  | tuple l j hm _ ih =>
    rw [hasConst]
    clear * - hm ih
    induction l with
    | nil => cases hm
    | cons a l ihl =>
      rw [hasConstList]
      rcases List.mem_cons.1 hm with rfl | hm
      · rw [ih]; rfl
      · rw [ihl hm, Bool.or_true]
  | dict d k j hm _ ih =>
    rw [hasConst, hasConstItems_iff]
    exact ⟨(k, j), hm, ih⟩

/-- Everything at once. -/
theorem storeAndRead_eq (j : J) (hw : WF j) :
    storeAndRead j = if writable j then
      (if hasConst j then .error .nameError else .ok (image (sortKeys j))) else .error .typeError := by
  unfold storeAndRead dumps
  cases hs : writable j with
  | false => simp [bind, Except.bind]
  | true =>
    obtain ⟨h1, h2, h3, _⟩ := sort_facts j
    simp only [if_true, bind, Except.bind, eval]
    rw [parse_text _ (h2 hw) (h1 hs)]
    simp only
    rw [ev_ast _ (h1 hs), h3]

theorem same_str {a b : List Nat} (h : Same (.str a) (.str b)) : a = b := by
  cases h
  rfl

/-! ### What is refused -/

theorem writableList_iff (l : List J) : writableList l = true ↔ ∀ j ∈ l, writable j = true := by
  induction l with
  | nil => simp [writableList]
  | cons j l ih => simp [writableList, ih]

theorem not_sameType (d : List (Key × J)) :
    sameType (d.map Prod.fst) = false ↔ (∃ s v, (Key.str s, v) ∈ d) ∧ ∃ n v, (Key.int n, v) ∈ d := by
  rw [← Bool.not_eq_true, sameType_iff, not_or]
  constructor
  · rintro ⟨h1, h2⟩
    push Not at h1 h2
    obtain ⟨k, hk, h⟩ := h1
    obtain ⟨k', hk', h'⟩ := h2
    obtain ⟨⟨a, v⟩, ha, rfl⟩ := List.mem_map.1 hk
    obtain ⟨⟨b, w⟩, hb, rfl⟩ := List.mem_map.1 hk'
    constructor
    · cases b with
      | str s => exact ⟨s, w, hb⟩
      | int n => exact absurd rfl (h' n)
    · cases a with
      | int n => exact ⟨n, v, ha⟩
      | str s => exact absurd rfl (h s)
  · rintro ⟨⟨s, v, hs⟩, n, w, hn⟩
    refine ⟨fun h => ?_, fun h => ?_⟩
    · obtain ⟨t, ht⟩ := h _ (List.mem_map_of_mem hn)
      cases ht
    · obtain ⟨t, ht⟩ := h _ (List.mem_map_of_mem hs)
      cases ht

theorem refused_of_within {x j : J} (h : Within x j) (hx : Refused x) : writable j = false := by
  induction h with
  | here =>
    rcases hx with rfl | ⟨d, rfl, hd⟩
    · rfl
    · simp [writable, (not_sameType d).2 hd]
  | list l j hj _ ih => rw [writable, ← Bool.not_eq_true, writableList_iff]; intro h; simp [h j hj] at ih
  | tuple l j hj _ ih => rw [writable, ← Bool.not_eq_true, writableList_iff]; intro h; simp [h j hj] at ih
  | dict d k j hj _ ih =>
    rw [writable, ← Bool.not_eq_true, Bool.and_eq_true, writableItems_iff]
    intro h
    simp [h.2 _ hj] at ih

mutual
theorem within_of_refused (j : J) (h : writable j = false) : ∃ x, Within x j ∧ Refused x := by
  match j with
  | .int n => simp [writable] at h
  | .float f => simp [writable] at h
  | .str s => simp [writable] at h
  | .const c => simp [writable] at h
  | .object => exact ⟨_, .here, .inl rfl⟩
  | .list l =>
    obtain ⟨j, hj, x, hx, hr⟩ := within_of_refusedList l h
    exact ⟨x, .list l j hj hx, hr⟩
  | .tuple l =>
    obtain ⟨j, hj, x, hx, hr⟩ := within_of_refusedList l h
    exact ⟨x, .tuple l j hj hx, hr⟩
  | .dict d =>
    rw [writable, Bool.and_eq_false_iff] at h
    rcases h with h | h
    · exact ⟨_, .here, .inr ⟨d, rfl, (not_sameType d).1 h⟩⟩
    · obtain ⟨k, j, hj, x, hx, hr⟩ := within_of_refusedItems d h
      exact ⟨x, .dict d k j hj hx, hr⟩
theorem within_of_refusedList (l : List J) (h : writableList l = false) : ∃ j ∈ l, ∃ x, Within x j ∧ Refused x := by
  match l with
  | [] => simp [writableList] at h
  | j :: js =>
    rw [writableList, Bool.and_eq_false_iff] at h
    rcases h with h | h
    · exact ⟨j, by simp, within_of_refused j h⟩
    · obtain ⟨i, hi, r⟩ := within_of_refusedList js h
      exact ⟨i, by simp [hi], r⟩
theorem within_of_refusedItems (d : List (Key × J)) (h : writableItems d = false) :
    ∃ k j, (k, j) ∈ d ∧ ∃ x, Within x j ∧ Refused x := by
  match d with
  | [] => simp [writableItems] at h
  | (k, j) :: d =>
    rw [writableItems, Bool.and_eq_false_iff] at h
    rcases h with h | h
    · exact ⟨k, j, by simp, within_of_refused j h⟩
    · obtain ⟨k', i, hi, r⟩ := within_of_refusedItems d h
      exact ⟨k', i, by simp [hi], r⟩
end

/-! ### The order of items -/

theorem strLe_total (s t : List Nat) : strLe s t = true ∨ strLe t s = true := by
  induction s generalizing t with
  | nil => simp [strLe]
  | cons a s ih => cases t with
    | nil => simp [strLe]
    | cons b t =>
      by_cases h : a = b
      · subst h; simpa [strLe] using ih t
      · simp [strLe, h, Ne.symm h]

theorem strLe_antisymm {s t : List Nat} (h : strLe s t = true) (h' : strLe t s = true) : s = t := by
  induction s generalizing t with
  | nil => cases t with
    | nil => rfl
    | cons b t => simp [strLe] at h'
  | cons a s ih => cases t with
    | nil => simp [strLe] at h
    | cons b t =>
      by_cases e : a = b
      · subst e
        simp [strLe] at h h'
        rw [ih h h']
      · simp [strLe, e, Ne.symm e] at h h'
        omega

theorem strLe_trans {s t u : List Nat} (h : strLe s t = true) (h' : strLe t u = true) : strLe s u = true := by
  induction s generalizing t u with
  | nil => simp [strLe]
  | cons a s ih => cases t with
    | nil => simp [strLe] at h
    | cons b t => cases u with
      | nil => simp [strLe] at h'
      | cons c u =>
        unfold strLe at h h' ⊢
        split at h
        · rename_i e
          subst e
          split at h'
          · rename_i e
            subst e
            simpa using ih h h'
          · rename_i e
            simpa [e] using h'
        · rename_i e
          split at h'
          · rename_i e'
            subst e'
            simpa [e] using h
          · simp at h h'
            have : ¬ a = c := by omega
            simp [this]; omega

theorem keyLe_total (a b : Key) : keyLe a b = true ∨ keyLe b a = true := by
  cases a <;> cases b <;> simp [keyLe, strLe_total]
  omega

theorem keyLe_trans {a b c : Key} (h : keyLe a b = true) (h' : keyLe b c = true) : keyLe a c = true := by
  cases a <;> cases b <;> cases c <;> simp [keyLe] at h h' ⊢
  · exact strLe_trans h h'
  · omega

theorem keyLe_antisymm {a b : Key} (h : keyLe a b = true) (h' : keyLe b a = true) : a = b := by
  cases a <;> cases b <;> simp [keyLe] at h h' ⊢
  · exact strLe_antisymm h h'
  · omega

/-- Distinct keys leave only one sorted order. -/
theorem sort_perm_eq {d d' : List (Key × J)} (hn : (d.map Prod.fst).Nodup) (h : d.Perm d') :
    d.mergeSort (fun a b => keyLe a.1 b.1) = d'.mergeSort (fun a b => keyLe a.1 b.1) := by
  have hp : ∀ e : List (Key × J), (e.mergeSort (fun a b => keyLe a.1 b.1)).Pairwise (fun a b => keyLe a.1 b.1 = true) := fun e =>
    List.pairwise_mergeSort (le := fun a b : Key × J => keyLe a.1 b.1) (fun _ _ _ => keyLe_trans)
      (fun a b => by simpa using keyLe_total a.1 b.1) e
  have hq := ((sorted_perm d).trans h).trans (sorted_perm d').symm
  refine List.Perm.eq_of_pairwise ?_ (hp d) (hp d') hq
  intro a b ha hb h1 h2
  have hk : a.1 = b.1 := keyLe_antisymm h1 h2
  have ha' : a ∈ d := (sorted_perm d).mem_iff.1 ha
  have hb' : b ∈ d := h.mem_iff.2 ((sorted_perm d').mem_iff.1 hb)
  exact List.inj_on_of_nodup_map hn ha' hb' hk

theorem sortItems_eq (d : List (Key × J)) : sortItems d = d.map (fun kj => (kj.1, sortKeys kj.2)) := by
  induction d with
  | nil => simp [sortItems]
  | cons kj d ih => obtain ⟨k, j⟩ := kj; simp [sortItems, ih]

theorem sortList_eq (l : List J) : sortList l = l.map sortKeys := by
  induction l with
  | nil => simp [sortList]
  | cons j l ih => simp [sortList, ih]

theorem reordered_same {j j' : J} (h : Reordered j j') : writable j = writable j' ∧ sortKeys j = sortKeys j' := by
  induction h with
  | @order d d' hn h =>
    constructor
    · rw [Bool.eq_iff_iff]
      simp only [writable, Bool.and_eq_true, writableItems_iff]
      exact and_congr ⟨sameType_perm (h.map _), sameType_perm (h.map _).symm⟩
        ⟨fun f kj hk => f kj (h.mem_iff.2 hk), fun f kj hk => f kj (h.mem_iff.1 hk)⟩
    · rw [sortKeys, sortKeys, sortItems_eq, sortItems_eq]
      rw [sort_perm_eq _ (h.map _)]
      simpa [Function.comp_def] using hn
  | inList _ a b ih =>
    constructor
    · rw [Bool.eq_iff_iff]
      simp [writable, writableList_iff, ih.1, or_imp, forall_and]
    · simp [sortKeys, sortList_eq, ih.2]
  | inTuple _ a b ih =>
    constructor
    · rw [Bool.eq_iff_iff]
      simp [writable, writableList_iff, ih.1, or_imp, forall_and]
    · simp [sortKeys, sortList_eq, ih.2]
  | inDict _ k a b ih =>
    constructor
    · rw [Bool.eq_iff_iff]
      simp only [writable, Bool.and_eq_true, writableItems_iff, List.map_append, List.map_cons, List.mem_append, List.mem_cons,
        or_imp, forall_and, forall_eq, ih.1]
    · simp [sortKeys, sortItems_eq, ih.2]
  | trans _ _ h1 h2 => exact ⟨h1.1.trans h2.1, h1.2.trans h2.2⟩

end Verif.Json
