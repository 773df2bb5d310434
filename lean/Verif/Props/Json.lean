/-
Property theorems C44: an instruction stored in the backend and read back with `from_backend`.
-/
import Verif.Lemmas.Json

namespace Verif.Json
open Verif

/-- **C44 (plain instructions).** Nested dictionaries with string keys, lists, strings of the basic multilingual plane, integers
and finite floats come back as an equal value. -/
theorem C44_plain_reads_back_partial (j : J) (hw : WF j) (hp : Plain j) : ∃ j', storeAndRead j = .ok j' ∧ Same j j' := by
  have h := plain_writable j hp
  obtain ⟨_, h2, _, h4, h5⟩ := sort_facts j
  refine ⟨sortKeys j, ?_, h5 h.1⟩
  rw [storeAndRead_eq j hw, h.1, h.2, image_plain _ (h2 hw) (h4 hp)]
  rfl

/-- **C44 (constants).** An instruction that contains `True`, `False`, `None`, NaN or an infinity anywhere, and is otherwise
something json can write, is written but raises NameError when read. -/
theorem C44_constant_raises (j : J) (hw : WF j) (c : Const) (hc : Occurs c j) (t : List Char) (ht : dumps j = .ok t) :
    eval t = .error .nameError ∧ storeAndRead j = .error .nameError := by
  have hs : writable j = true := by
    unfold dumps at ht
    cases h : writable j with
    | true => rfl
    | false => rw [h] at ht; cases ht
  have h : storeAndRead j = .error .nameError := by
    rw [storeAndRead_eq j hw, hs, hasConst_of_occurs hc]
    rfl
  refine ⟨?_, h⟩
  unfold storeAndRead at h
  rw [ht] at h
  exact h

/-- **C44 (never anything else).** Storing raises TypeError, or reading raises NameError, or reading gives a value; the text is
never malformed, however deep the instruction is. -/
theorem C44_outcomes (j : J) (hw : WF j) :
    dumps j = .error .typeError ∨ storeAndRead j = .error .nameError ∨ ∃ j', storeAndRead j = .ok j' := by
  rw [storeAndRead_eq j hw]
  unfold dumps
  cases writable j with
  | false => exact .inl rfl
  | true => cases hasConst j with
    | true => exact .inr (.inl rfl)
    | false => exact .inr (.inr ⟨_, rfl⟩)

/-- **C44 fails (characters).** A string with a character outside the basic multilingual plane comes back as another string,
with two surrogates in its place. -/
theorem C44_astral_character_changes (n : Nat) (h1 : 65536 ≤ n) (h2 : n < 1114112) :
    ∃ s, storeAndRead (.str [n]) = .ok (.str s) ∧ s.length = 2 ∧ ¬ Same (.str [n]) (.str s) := by
  have hw : WF (.str [n]) := by intro c hc; rw [List.mem_singleton.1 hc]; exact h2
  refine ⟨units n, ?_, ?_, ?_⟩
  · rw [storeAndRead_eq _ hw]
    simp [writable, hasConst, sortKeys, image]
  · simp [units, show ¬ n < 65536 by omega]
  · intro h
    have := congrArg List.length (same_str h)
    simp [units, show ¬ n < 65536 by omega] at this

/-- **C44 fails (tuples).** A tuple comes back as a list. -/
theorem C44_tuple_becomes_list (a b : Int) :
    storeAndRead (.tuple [.int a, .int b]) = .ok (.list [.int a, .int b]) := by
  rw [storeAndRead_eq _ (by simp [WF, WFList])]
  simp [writable, writableList, hasConst, hasConstList, sortKeys, sortList, image, imageList]

/-- **C44 fails (keys).** An integer key comes back as a string. -/
theorem C44_integer_key_becomes_string (n : Int) (a : Int) :
    ∃ s, storeAndRead (.dict [(.int n, .int a)]) = .ok (.dict [(.str s, .int a)]) := by
  refine ⟨keyStr (.int n), ?_⟩
  rw [storeAndRead_eq _ (by simp [WF, WFItems, Key.Ok])]
  simp [writable, writableItems, sameType, Key.isStr, hasConst, hasConstItems, sortKeys, sortItems, image, imageItems, PyDict.ofList,
    PyDict.update, PyDict.set]

/-- **C44 (what is refused).** Storing raises TypeError exactly when, at any depth, the instruction holds an object json does not
know or a dictionary that has both string and integer keys. -/
theorem C44_refused (j : J) : dumps j = .error .typeError ↔ ∃ x, Within x j ∧ Refused x := by
  unfold dumps
  constructor
  · intro h
    cases hw : writable j with
    | true => simp [hw] at h
    | false => exact within_of_refused j hw
  · rintro ⟨x, h1, h2⟩
    rw [refused_of_within h1 h2]
    rfl

/-- **C44 (order of items).** The text that is stored, and so what is read back, does not depend on the order in which the items
of the dictionaries of the instruction were written, at any depth. -/
theorem C44_order {j j' : J} (h : Reordered j j') : dumps j = dumps j' ∧ storeAndRead j = storeAndRead j' := by
  have hd : dumps j = dumps j' := by
    unfold dumps
    rw [(reordered_same h).1, (reordered_same h).2]
  exact ⟨hd, by unfold storeAndRead; rw [hd]⟩

/-! ### Examples -/

example : Within (.dict [(.str [97], .int 1), (.int 2, .int 3)]) (.list [.int 0, .dict [(.str [97], .int 1), (.int 2, .int 3)]]) ∧
    Refused (.dict [(.str [97], .int 1), (.int 2, .int 3)]) :=
  ⟨.list _ (.dict [(.str [97], .int 1), (.int 2, .int 3)]) (by simp) .here, .inr ⟨_, rfl, ⟨[97], .int 1, by simp⟩, 2, .int 3, by simp⟩⟩

example : Reordered (.list [.int 0, .dict [(.str [98], .int 1), (.str [97], .int 2)]])
    (.list [.int 0, .dict [(.str [97], .int 2), (.str [98], .int 1)]]) :=
  .inList (.order (by simp) (List.Perm.swap _ _ _)) [.int 0] []

/-- `{"par_config": "a", "likelihoods": {"b": {"clip": [0, -10.5]}, "a": {}}}`: comes back with sorted keys. -/
def exInstr : J :=
  .dict [(.str [112], .str [97]),
    (.str [108], .dict [(.str [98], .dict [(.str [99], .list [.int 0, .float ⟨true, [1, 0], some [5], none⟩])]),
      (.str [97], .dict [])])]

example : WF exInstr ∧ Plain exInstr := by
  refine ⟨?_, ?_⟩
  · simp [exInstr, WF, WFItems, WFList, Key.Ok, StrOk]
    exact ⟨by simp, by simp, by simp, by simp⟩
  · simp [exInstr, Plain, PlainItems, PlainList, Key.Plain, Bmp]

example : dumps (.list [.int (-5), .str [34, 233]]) =
    .ok "[\n    -5,\n    \"\\\"\\u00e9\"\n]".toList := by decide +kernel

example : Occurs .tru (.dict [(.str [97], .list [.int 1, .const .tru])]) :=
  .dict _ (.str [97]) _ (List.mem_singleton.2 rfl) (.list _ (.const .tru) (by simp) .here)

/-- The order of dictionaries is not kept: likelihoods come back in alphabetical order. -/
example : storeAndRead (.dict [(.str [98], .int 1), (.str [97], .int 2)]) =
    .ok (.dict [(.str [97], .int 2), (.str [98], .int 1)]) := by
  rw [storeAndRead_eq _ (by simp [WF, WFItems, Key.Ok, StrOk])]
  simp [writable, writableItems, sameType, Key.isStr, hasConst, hasConstItems, sortKeys, sortItems, image, imageItems, PyDict.ofList,
    PyDict.update, PyDict.set, keyStr, units, List.mergeSort, keyLe, strLe, List.MergeSort.Internal.splitInTwo, List.merge]

end Verif.Json
