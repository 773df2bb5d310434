/-
Extended floats: the IEEE special values NaN, -inf, +inf together with exact real finite values.
Rounding, overflow and signed zeros are not modelled.  Used where appletree branches on special values.
-/
import Mathlib.Data.Real.Basic
import Mathlib.Analysis.SpecialFunctions.Log.Basic

namespace Verif

/-- A float: NaN, an infinity, or a finite (exact) value. -/
inductive XF
  | nan | ninf | pinf
  | fin (x : ℝ)

namespace XF

instance : Inhabited XF := ⟨nan⟩

/-- `np.isfinite`. -/
def isFinite : XF → Prop
  | fin _ => True
  | _ => False

instance : DecidablePred isFinite := fun x => by cases x <;> unfold isFinite <;> infer_instance

/-- `np.isnan`. -/
def isNaN : XF → Prop
  | nan => True
  | _ => False

instance : DecidablePred isNaN := fun x => by cases x <;> unfold isNaN <;> infer_instance

/-- IEEE addition. -/
noncomputable def add : XF → XF → XF
  | nan, _ => nan
  | _, nan => nan
  | pinf, ninf => nan
  | ninf, pinf => nan
  | pinf, _ => pinf
  | _, pinf => pinf
  | ninf, _ => ninf
  | _, ninf => ninf
  | fin x, fin y => fin (x + y)

noncomputable instance : Add XF := ⟨add⟩

/-- IEEE negation. -/
noncomputable def neg : XF → XF
  | nan => nan
  | pinf => ninf
  | ninf => pinf
  | fin x => fin (-x)

noncomputable instance : Neg XF := ⟨neg⟩
noncomputable instance : Sub XF := ⟨fun a b => a + -b⟩

/-- An infinity with the sign of a real (NaN for zero): `inf * x`. -/
noncomputable def infSign (x : ℝ) : XF := if 0 < x then pinf else if x < 0 then ninf else nan

/-- IEEE multiplication. -/
noncomputable def mul : XF → XF → XF
  | nan, _ => nan
  | _, nan => nan
  | pinf, pinf => pinf
  | ninf, ninf => pinf
  | pinf, ninf => ninf
  | ninf, pinf => ninf
  | pinf, fin x => infSign x
  | fin x, pinf => infSign x
  | ninf, fin x => infSign (-x)
  | fin x, ninf => infSign (-x)
  | fin x, fin y => fin (x * y)

noncomputable instance : Mul XF := ⟨mul⟩

/-- IEEE division (numpy: division by zero gives an infinity or NaN; the zero is taken as `+0`). -/
noncomputable def div : XF → XF → XF
  | nan, _ => nan
  | _, nan => nan
  | fin _, pinf => fin 0
  | fin _, ninf => fin 0
  | pinf, fin y => if y = 0 then pinf else infSign y
  | ninf, fin y => if y = 0 then ninf else infSign (-y)
  | fin x, fin y => if y = 0 then infSign x else fin (x / y)
  | _, _ => nan

noncomputable instance : Div XF := ⟨div⟩

/-- IEEE `<`: false when an operand is NaN. -/
def lt : XF → XF → Prop
  | nan, _ => False
  | _, nan => False
  | ninf, ninf => False
  | ninf, _ => True
  | _, ninf => False
  | pinf, _ => False
  | _, pinf => True
  | fin x, fin y => x < y

instance : LT XF := ⟨lt⟩

/-- IEEE `<=`: false when an operand is NaN. -/
def le : XF → XF → Prop
  | nan, _ => False
  | _, nan => False
  | ninf, _ => True
  | _, ninf => False
  | _, pinf => True
  | pinf, _ => False
  | fin x, fin y => x ≤ y

instance : LE XF := ⟨le⟩

noncomputable instance decLT (a b : XF) : Decidable (a < b) := Classical.propDecidable _
noncomputable instance decLE (a b : XF) : Decidable (a ≤ b) := Classical.propDecidable _

/-- `np.log`. -/
noncomputable def log : XF → XF
  | fin x => if 0 < x then fin (Real.log x) else if x = 0 then ninf else nan
  | pinf => pinf
  | _ => nan

/-- `sum` of a list, left to right from `0`. -/
noncomputable def sum (l : List XF) : XF := l.foldl (· + ·) (fin 0)

@[simp] theorem isFinite_fin (x : ℝ) : isFinite (fin x) := trivial
@[simp] theorem not_isFinite_nan : ¬ isFinite nan := fun h => h
@[simp] theorem not_isFinite_ninf : ¬ isFinite ninf := fun h => h
@[simp] theorem not_isFinite_pinf : ¬ isFinite pinf := fun h => h
@[simp] theorem isNaN_nan : isNaN nan := trivial
@[simp] theorem not_isNaN_fin (x : ℝ) : ¬ isNaN (fin x) := fun h => h
@[simp] theorem not_isNaN_ninf : ¬ isNaN ninf := fun h => h
@[simp] theorem not_isNaN_pinf : ¬ isNaN pinf := fun h => h

theorem isFinite_iff (a : XF) : isFinite a ↔ ∃ x, a = fin x := by
  cases a <;> simp

@[simp] theorem fin_add_fin (x y : ℝ) : fin x + fin y = fin (x + y) := rfl
@[simp] theorem nan_add (a : XF) : nan + a = nan := by cases a <;> rfl
@[simp] theorem add_nan (a : XF) : a + nan = nan := by cases a <;> rfl
@[simp] theorem ninf_add_fin (x : ℝ) : ninf + fin x = ninf := rfl
@[simp] theorem fin_add_ninf (x : ℝ) : fin x + ninf = ninf := rfl
@[simp] theorem pinf_add_fin (x : ℝ) : pinf + fin x = pinf := rfl
@[simp] theorem fin_add_pinf (x : ℝ) : fin x + pinf = pinf := rfl
@[simp] theorem ninf_add_ninf : ninf + ninf = ninf := rfl
@[simp] theorem pinf_add_pinf : pinf + pinf = pinf := rfl
@[simp] theorem pinf_add_ninf : pinf + ninf = nan := rfl
@[simp] theorem ninf_add_pinf : ninf + pinf = nan := rfl
@[simp] theorem neg_fin (x : ℝ) : -(fin x) = fin (-x) := rfl
@[simp] theorem neg_pinf : -pinf = ninf := rfl
@[simp] theorem neg_ninf : -ninf = pinf := rfl
@[simp] theorem neg_nan : -nan = nan := rfl
theorem sub_def (a b : XF) : a - b = a + -b := rfl
@[simp] theorem fin_sub_fin (x y : ℝ) : fin x - fin y = fin (x - y) := by
  rw [sub_def, neg_fin, fin_add_fin, sub_eq_add_neg]
@[simp] theorem fin_mul_fin (x y : ℝ) : fin x * fin y = fin (x * y) := rfl
@[simp] theorem nan_mul (a : XF) : nan * a = nan := by cases a <;> rfl
@[simp] theorem mul_nan (a : XF) : a * nan = nan := by cases a <;> rfl
@[simp] theorem ninf_mul_fin (x : ℝ) : ninf * fin x = infSign (-x) := rfl
@[simp] theorem fin_mul_ninf (x : ℝ) : fin x * ninf = infSign (-x) := rfl
@[simp] theorem pinf_mul_fin (x : ℝ) : pinf * fin x = infSign x := rfl
@[simp] theorem fin_mul_pinf (x : ℝ) : fin x * pinf = infSign x := rfl
@[simp] theorem nan_div (a : XF) : nan / a = nan := by cases a <;> rfl
@[simp] theorem div_nan (a : XF) : a / nan = nan := by cases a <;> rfl
@[simp] theorem fin_div_fin (x y : ℝ) : fin x / fin y = if y = 0 then infSign x else fin (x / y) :=
  rfl
theorem fin_div_fin_of_ne (x : ℝ) {y : ℝ} (h : y ≠ 0) : fin x / fin y = fin (x / y) := by
  rw [fin_div_fin, if_neg h]
@[simp] theorem ninf_div_fin (y : ℝ) :
    ninf / fin y = if y = 0 then ninf else infSign (-y) := rfl
@[simp] theorem pinf_div_fin (y : ℝ) :
    pinf / fin y = if y = 0 then pinf else infSign y := rfl
@[simp] theorem fin_div_pinf (x : ℝ) : fin x / pinf = fin 0 := rfl
@[simp] theorem fin_div_ninf (x : ℝ) : fin x / ninf = fin 0 := rfl

@[simp] theorem fin_lt_fin (x y : ℝ) : fin x < fin y ↔ x < y := Iff.rfl
@[simp] theorem fin_le_fin (x y : ℝ) : fin x ≤ fin y ↔ x ≤ y := Iff.rfl
@[simp] theorem not_nan_lt (a : XF) : ¬ nan < a := by cases a <;> exact fun h => h
@[simp] theorem not_lt_nan (a : XF) : ¬ a < nan := by cases a <;> exact fun h => h
@[simp] theorem not_nan_le (a : XF) : ¬ nan ≤ a := by cases a <;> exact fun h => h
@[simp] theorem not_le_nan (a : XF) : ¬ a ≤ nan := by cases a <;> exact fun h => h
@[simp] theorem ninf_lt_fin (x : ℝ) : ninf < fin x := trivial
@[simp] theorem fin_lt_pinf (x : ℝ) : fin x < pinf := trivial
@[simp] theorem not_fin_lt_ninf (x : ℝ) : ¬ fin x < ninf := fun h => h
@[simp] theorem not_pinf_lt_fin (x : ℝ) : ¬ pinf < fin x := fun h => h
@[simp] theorem ninf_le_fin (x : ℝ) : ninf ≤ fin x := trivial
@[simp] theorem fin_le_pinf (x : ℝ) : fin x ≤ pinf := trivial
@[simp] theorem not_fin_le_ninf (x : ℝ) : ¬ fin x ≤ ninf := fun h => h
@[simp] theorem not_pinf_le_fin (x : ℝ) : ¬ pinf ≤ fin x := fun h => h

theorem log_fin_pos {x : ℝ} (h : 0 < x) : log (fin x) = fin (Real.log x) := by
  simp [log, h]

theorem add_comm' (a b : XF) : a + b = b + a := by
  cases a <;> cases b <;> simp [add_comm]

theorem add_assoc' (a b c : XF) : a + b + c = a + (b + c) := by
  cases a <;> cases b <;> cases c <;> simp [add_assoc]

theorem fin_zero_add (a : XF) : fin 0 + a = a := by cases a <;> simp

@[simp] theorem add_fin_zero (a : XF) : a + fin 0 = a := by cases a <;> simp

instance : Std.Associative (α := XF) (· + ·) := ⟨add_assoc'⟩
instance : Std.Commutative (α := XF) (· + ·) := ⟨add_comm'⟩

theorem foldl_add (l : List XF) (a : XF) : l.foldl (· + ·) a = a + sum l := by
  induction l generalizing a with
  | nil => simp [sum]
  | cons x l ih =>
    simp only [List.foldl_cons, sum]
    rw [ih, ih (fin 0 + x), fin_zero_add, add_assoc']

theorem sum_cons (x : XF) (l : List XF) : sum (x :: l) = x + sum l := by
  rw [sum, List.foldl_cons, foldl_add, fin_zero_add]

@[simp] theorem sum_nil : sum [] = fin 0 := rfl

theorem sum_perm {l l' : List XF} (h : l.Perm l') : sum l = sum l' := by
  induction h with
  | nil => rfl
  | cons x _ ih => rw [sum_cons, sum_cons, ih]
  | swap x y l => rw [sum_cons, sum_cons, sum_cons, sum_cons, ← add_assoc', add_comm' y x, add_assoc']
  | trans _ _ h1 h2 => exact h1.trans h2

theorem sum_append (l l' : List XF) : sum (l ++ l') = sum l + sum l' := by
  induction l with
  | nil => simp [fin_zero_add]
  | cons x l ih => rw [List.cons_append, sum_cons, sum_cons, ih, add_assoc']

theorem sum_map_fin (l : List ℝ) : sum (l.map fin) = fin l.sum := by
  induction l with
  | nil => simp
  | cons x l ih => rw [List.map_cons, sum_cons, ih, List.sum_cons, fin_add_fin]

/-- A sum of values that are finite or `-inf` is `-inf` as soon as one is, else finite. -/
theorem sum_finite_or_ninf (l : List XF) (h : ∀ a ∈ l, isFinite a ∨ a = ninf) :
    (sum l = ninf ∧ ninf ∈ l) ∨ (isFinite (sum l) ∧ ninf ∉ l) := by
  induction l with
  | nil => right; simp
  | cons x l ih =>
    have hx := h x (by simp)
    have hl := ih (fun a ha => h a (by simp [ha]))
    rw [sum_cons]
    rcases hx with hx | hx
    · obtain ⟨r, rfl⟩ := (isFinite_iff x).1 hx
      rcases hl with ⟨h1, h2⟩ | ⟨h1, h2⟩
      · left; rw [h1]; simp [h2]
      · right; obtain ⟨s, hs⟩ := (isFinite_iff _).1 h1; rw [hs]; simp [h2]
    · subst hx
      left
      rcases hl with ⟨h1, h2⟩ | ⟨h1, h2⟩
      · rw [h1]; simp
      · obtain ⟨s, hs⟩ := (isFinite_iff _).1 h1; rw [hs]; simp

end XF
end Verif
