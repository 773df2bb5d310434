/-
Property theorems C55 (GPU memory fraction), C56 (extensions) and C57 (checksums) about utils.py.
-/
import Verif.Lemmas.Utils

namespace Verif.Utils
open Verif

/-! ### C55 -/

/-- **C55 (what holds).** For a fraction of at least ten percent and less than one, the environment holds the
requested fraction truncated to two decimals. -/
theorem C55_two_decimals_partial (f : ℚ) (h0 : 1 / 10 ≤ f) (h1 : f < 1) :
    ∃ s v, gpuFraction f = .ok s ∧ decimalValue s = some v ∧ v ≤ f ∧ f < v + 1 / 100 := by
  obtain ⟨s, hs, hv⟩ := gpu_value f (by linarith) h1.le
  refine ⟨s, _, hs, hv, ?_, ?_⟩ <;> rw [if_neg (not_lt.2 h0), if_pos h1]
  · have := Int.floor_le (f * 100); linarith
  · have := Int.lt_floor_add_one (f * 100); linarith

/-- Non-vacuity: the default. -/
example : gpuFraction (3 / 10) = .ok ".30" ∧ decimalValue ".30" = some (3 / 10) := by decide +kernel

/-- **C55 fails** below ten percent: the fraction set is ten times the requested one truncated to two decimals, for
every requested fraction from one to ten percent. -/
theorem C55_ten_times_too_large (f : ℚ) (h0 : 1 / 100 ≤ f) (h1 : f < 1 / 10) :
    ∃ s v, gpuFraction f = .ok s ∧ decimalValue s = some v ∧ v = 10 * (⌊f * 100⌋ / 100) ∧ f < v := by
  obtain ⟨s, hs, hv⟩ := gpu_value f (by linarith) (by linarith)
  rw [if_pos h1] at hv
  refine ⟨s, _, hs, hv, by ring, ?_⟩
  have h2 : (1 : ℤ) ≤ ⌊f * 100⌋ := Int.le_floor.2 (by push_cast; linarith)
  have h3 : (1 : ℚ) ≤ (⌊f * 100⌋ : ℚ) := by exact_mod_cast h2
  linarith

/-- **C55 fails** for the whole memory: asking for everything sets one tenth. -/
theorem C55_whole_memory : gpuFraction 1 = .ok ".100" ∧ decimalValue ".100" = some (1 / 10) := by decide +kernel

/-- Exactly which fractions are set correctly to two decimals. -/
theorem C55_correct_iff (f : ℚ) (h0 : 0 < f) (h1 : f ≤ 1) :
    (∃ s, gpuFraction f = .ok s ∧ decimalValue s = some ((⌊f * 100⌋ : ℚ) / 100)) ↔
      f < 1 / 100 ∨ (1 / 10 ≤ f ∧ f < 1) := by
  obtain ⟨s, hs, hv⟩ := gpu_value f h0 h1
  rw [hs]
  have hfl : (0 : ℤ) ≤ ⌊f * 100⌋ := Int.floor_nonneg.2 (by positivity)
  have hiff : (∃ s', (Except.ok s : Res String) = .ok s' ∧ decimalValue s' = some ((⌊f * 100⌋ : ℚ) / 100)) ↔
      decimalValue s = some ((⌊f * 100⌋ : ℚ) / 100) := by simp
  rw [hiff, hv, Option.some.injEq]
  by_cases h10 : f < 1 / 10
  · rw [if_pos h10]
    constructor
    · intro h
      have hz : (⌊f * 100⌋ : ℚ) = 0 := by linarith
      have hz' : ⌊f * 100⌋ = 0 := by exact_mod_cast hz
      have := Int.lt_floor_add_one (f * 100)
      rw [hz'] at this
      left; push_cast at this; linarith
    · rintro (h | h)
      · have : ⌊f * 100⌋ = 0 := by
          have : ⌊f * 100⌋ < 1 := Int.floor_lt.2 (by push_cast; linarith)
          omega
        rw [this]; norm_num
      · linarith [h.1]
  · rw [if_neg h10]
    push Not at h10
    by_cases hlt : f < 1
    · rw [if_pos hlt]
      exact ⟨fun _ => Or.inr ⟨h10, hlt⟩, fun _ => rfl⟩
    · have hf : f = 1 := le_antisymm h1 (not_lt.1 hlt)
      subst hf
      norm_num

/-- Requests above one are set to 99 percent, requests that are not positive are refused. -/
theorem C55_out_of_range (f : ℚ) :
    (1 < f → gpuFraction f = .ok ".99") ∧ (f ≤ 0 → gpuFraction f = .error .valueError) := by
  constructor
  · intro h
    unfold gpuFraction
    rw [if_pos h]
    decide +kernel
  · intro h
    unfold gpuFraction
    have h1 : ¬ (1 < f) := by linarith
    simp only [if_neg h1, if_pos h]

/-! ### C57 -/

/-- **C57.** For every hash object that obeys the streaming contract, every file and every positive block size, the
checksum is the hash of the whole content; so it does not depend on the block size. -/
theorem C57_checksum_of_whole_content {B S D : Type} (init : S) (update : S → List B → S) (digest : S → D)
    (h : Streaming update) (n : Nat) (hn : 0 < n) (content : List B) :
    sha256 init update digest n content = digest (update init content) := by
  unfold sha256
  rw [foldl_update update h, readBlocks_flatten n hn _ _ (Nat.lt_succ_self _)]

/-- The number of reads modelled suffices: further reads would return nothing. -/
theorem C57_blocks (B : Type) (n : Nat) (hn : 0 < n) (content : List B) :
    (readBlocks n (content.length + 1) content).flatten = content ∧
    ∀ b ∈ readBlocks n (content.length + 1) content, b ≠ [] ∧ b.length ≤ n := by
  refine ⟨readBlocks_flatten n hn _ _ (Nat.lt_succ_self _), ?_⟩
  generalize content.length + 1 = fuel
  induction fuel generalizing content with
  | zero => simp [readBlocks]
  | succ fuel ih =>
    intro b hb
    rw [readBlocks] at hb
    split at hb
    · simp at hb
    · rename_i hne
      rcases List.mem_cons.1 hb with rfl | hb
      · exact ⟨by simpa using hne, by simp⟩
      · exact ih _ b hb

/-- Non-vacuity: a checksum that folds over the bytes obeys the contract, and a file of exactly two blocks. -/
example : Streaming (fun (s : Nat) (b : List Nat) => b.foldl (fun s x => 31 * s + x) s) ∧
    readBlocks 2 5 [1, 2, 3, 4] = [[1, 2], [3, 4]] ∧
    sha256 7 (fun (s : Nat) (b : List Nat) => b.foldl (fun s x => 31 * s + x) s) id 2 [1, 2, 3, 4]
      = ([1, 2, 3, 4]).foldl (fun s x => 31 * s + x) 7 :=
  ⟨⟨fun _ => rfl, fun _ _ _ => (List.foldl_append ..).symm⟩, by decide, by decide⟩

/-! ### C56 -/

/-- **C56 (what holds).** Without `force`, no existing attribute is ever replaced, whether the call succeeds or
raises, except possibly the one under which a module with a dotted name is stored.  Missing for the full claim:
that exception, see `C56_dotted_module_overwrites`. -/
theorem C56_never_overwrites_partial (attrs : PyDict String Obj) (m2 : Module) (k : String) (o : Obj)
    (h : attrs.get? k = some o) (hk : '.' ∉ m2.name.toList ∨ k ≠ lastPart m2.name) :
    (addExtensions attrs m2 false).1.get? k = some o := by
  unfold addExtensions
  split
  · exact h
  · rename_i hn
    apply extLoop_keeps
    rw [PyDict.get?_set_ne]
    · exact h
    · rintro rfl
      rcases hk with hk | hk
      · apply hn
        rw [lastPart_of_no_dot _ hk] at h
        simp [PyDict.has, h]
      · exact hk rfl

/-- A module of extensions: a helper base class, two plugins, an imported function and a nested module. -/
def exExt : Module := ⟨"mine", [("Aplug", .cls ⟨1, "Aplug", false, true⟩), ("Base", .cls ⟨2, "Base", true, true⟩),
  ("Bplug", .cls ⟨3, "Bplug", false, true⟩), ("Dict", .cls ⟨4, "Dict", false, false⟩), ("np", .mod "numpy"),
  ("f", .other 5)]⟩

/-- Non-vacuity: adding it to a module keeps what is there and adds the two plugins and the module. -/
example : addExtensions [("ERBand", .cls ⟨9, "ERBand", false, true⟩)] exExt false =
    ([("ERBand", .cls ⟨9, "ERBand", false, true⟩), ("mine", .mod "mine"), ("Aplug", .cls ⟨1, "Aplug", false, true⟩),
      ("Bplug", .cls ⟨3, "Bplug", false, true⟩)], .ok ()) := by decide

/-- **C56 fails** for a module inside a package: existence is tested under the full dotted name, but the module is
stored under the last part, silently replacing whatever had that name. -/
theorem C56_dotted_module_overwrites :
    addExtensions [("detector", .mod "appletree.plugins.detector")] ⟨"my.detector", []⟩ false
      = ([("detector", .mod "my.detector")], .ok ()) := by decide

/-- The same for every target that has such an attribute (and none with the full dotted name) and every such module. -/
theorem C56_dotted_module_always_overwrites (attrs : PyDict String Obj) (m2 : Module)
    (hno : attrs.get? m2.name = none) :
    (addExtensions attrs m2 false).1.get? (lastPart m2.name) = some (.mod m2.name) := by
  unfold addExtensions
  rw [if_neg (by simp [PyDict.has, hno])]
  exact extLoop_keeps _ _ _ _ (by simp)

/-- **C56.** If the call succeeds without `force`, every extension class of the module is registered under its name. -/
theorem C56_success_registers_all (attrs attrs' : PyDict String Obj) (m2 : Module) (c : Cls)
    (h : addExtensions attrs m2 false = (attrs', .ok ())) (hc : Extension m2 c) :
    attrs'.get? c.name = some (.cls c) := by
  unfold addExtensions at h
  split at h
  · cases h
  · exact extLoop_ok_mem false _ _ _ h c hc.1 hc.2.1 hc.2.2 rfl

/-- **C56.** With or without `force`, only the names of extension classes and the name of the module can change. -/
theorem C56_only_extension_names (attrs : PyDict String Obj) (m2 : Module) (force : Bool) (k : String)
    (hk : k ≠ lastPart m2.name) (hc : ∀ c, Extension m2 c → c.name ≠ k) :
    (addExtensions attrs m2 force).1.get? k = attrs.get? k := by
  unfold addExtensions
  split
  · rfl
  · by_contra hne
    rw [← PyDict.get?_set_ne (d := attrs) (k := lastPart m2.name) (v := .mod m2.name) (Ne.symm hk)] at hne
    obtain ⟨c, h1, h2, h3, h4, _⟩ := extLoop_keys _ _ _ _ hne
    exact hc c ⟨h1, h2, h3⟩ h4

/-- **C56.** A name clash without `force` raises: an existing attribute with the name of an extension class makes the
call fail. -/
theorem C56_clash_refused (attrs : PyDict String Obj) (m2 : Module) (c : Cls) (o : Obj) (hc : Extension m2 c)
    (ho : attrs.get? c.name = some o) (hne : o ≠ .cls c) (hlast : c.name ≠ lastPart m2.name) :
    (addExtensions attrs m2 false).2 = .error .valueError := by
  rcases hr : addExtensions attrs m2 false with ⟨a, r⟩
  have hk := C56_never_overwrites_partial attrs m2 c.name o ho (Or.inr hlast)
  cases r with
  | ok u =>
    have h2 := C56_success_registers_all attrs a m2 c hr hc
    rw [hr] at hk
    rw [hk] at h2
    exact absurd (Option.some.inj h2) hne
  | error e =>
    have : ∀ (xs : List Obj) (b : PyDict String Obj) (e : PyErr), (extLoop false xs b).2 = .error e →
        e = .valueError := by
      intro xs
      induction xs with
      | nil => intro b e h; cases h
      | cons x xs ih =>
        intro b e h
        cases x with
        | cls d =>
          rw [extLoop] at h
          rcases hq : addExtension b d false with ⟨b', q⟩
          rw [hq] at h
          cases q with
          | ok u => exact ih _ _ h
          | error e' =>
            unfold addExtension at hq
            split at hq
            · cases hq
            · split at hq
              · split at hq
                · cases hq; cases h; rfl
                · cases hq
              · cases hq
        | mod n => exact ih _ _ h
        | other n => exact ih _ _ h
    unfold addExtensions at hr
    split at hr
    · cases hr; rfl
    · rw [this _ _ e (by rw [hr])]

/-- A class of the same name that is already there stays, and the clash is refused; what came before it was added. -/
example : addExtensions [("Bplug", .cls ⟨9, "Bplug", false, true⟩)] exExt false =
    ([("Bplug", .cls ⟨9, "Bplug", false, true⟩), ("mine", .mod "mine"), ("Aplug", .cls ⟨1, "Aplug", false, true⟩)], .error .valueError) := by
  decide

/-- A class bound to two names in the module (an alias kept for old code) cannot be added: the second occurrence
clashes with the first.  The first class stays registered although the call failed. -/
theorem C56_alias_refused :
    addExtensions [] ⟨"mine", [("New", .cls ⟨1, "New", false, true⟩), ("Old", .cls ⟨1, "New", false, true⟩)]⟩ false
      = ([("mine", .mod "mine"), ("New", .cls ⟨1, "New", false, true⟩)], .error .valueError) := by decide

end Verif.Utils
