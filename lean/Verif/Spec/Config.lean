/- Specification vocabulary for configurations. -/
import Verif.Model.Config

namespace Verif.Conf
open Verif

/-- The value a name has for a likelihood: a plain value, or the entry of the per-likelihood dictionary. -/
def valueFor (c : Cache) (name : String) (llh : Option String) : Option Atom :=
  match c.data.get? name with
  | none => none
  | some (.atom a) => some a
  | some (.dict d) => llh.bind d.get?

/-- What is stored for one plain value when `url_base` is `ub`: numbers and lists as they are, a string as the file
found for it; values of other types are not stored. -/
inductive StoredAtom (fs : FS) (ub : Option CVal) : Atom → Atom → Prop
  | num (q : ℚ) : StoredAtom fs ub (.num q) (.num q)
  | list (l : List Item) : StoredAtom fs ub (.list l) (.list l)
  | str (s p : String) (h : ∀ c : Cache, c.data.get? "url_base" = ub → (getFilePath fs s c).2 = .ok p) :
      StoredAtom fs ub (.str s) (.str p)

/-- What is stored for one given value: a plain value as above, a per-likelihood dictionary entry by entry, without its
entries of other types. -/
def Stored (fs : FS) (ub : Option CVal) : CVal → CVal → Prop
  | .atom a, .atom b => StoredAtom fs ub a b
  | .dict d, .dict d' =>
    (∀ l a, d'.get? l = some a → ∃ b, d.get? l = some b ∧ StoredAtom fs ub b a) ∧
    (∀ l b, d.get? l = some b → (∀ n, b ≠ .other n) → ∃ a, d'.get? l = some a) ∧
    (∀ l n, d.get? l = some (.other n) → d'.get? l = none)
  | _, _ => False

/-- `k` was read or written by item access in the history and the cache was not cleared since. -/
def TouchedSinceClear (ops : List DictOp) (k : String) : Prop :=
  ∃ pre post o, ops = pre ++ o :: post ∧ (o = .getItem k ∨ ∃ v, o = .setItem k v) ∧ DictOp.clear ∉ post

/-- The parameter named by a SigmaMap configuration value: the fourth element of a list of four, `name_sigma` for
another list, none otherwise. -/
def namedParameter (name : String) : Atom → Option Item
  | .list [_, _, _, p] => some p
  | .list _ => some (.str (name ++ "_sigma"))
  | _ => none

end Verif.Conf
