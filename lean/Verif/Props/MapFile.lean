/-
Map files: C92.
-/
import Verif.Model.MapFile
import Verif.Props.Interp

namespace Verif.MapFile
open Verif Verif.Interp

/-! ### C92 -/

/-- Axis `i` of a regular binning is logarithmic. -/
def IsLogAxis : CoordType → Nat → Prop
  | .one s, _ => s = "log_regbin"
  | .axes l, i => l[i]? = some "log_regbin"

/-- The type is one of a regular binning, as a string or axis by axis. -/
def IsRegular : CoordType → Prop
  | .one s => s = "regbin" ∨ s = "log_regbin"
  | .axes _ => True

theorem pdfToCdf_ok {F : Type} [Field F] (xy : List (F × F)) : (∃ r, pdfToCdf xy = .ok r) ↔ 2 ≤ xy.length := by
  match xy with
  | [] => simp [pdfToCdf, integrate, cumulativeIntegrate, segments, cumsum]
  | [_] => simp [pdfToCdf, integrate, cumulativeIntegrate, segments, cumsum]
  | a :: b :: l =>
    simp only [pdfToCdf, integrate, cumulativeIntegrate, segments, cumsum, List.length_cons]
    constructor
    · intro _; omega
    · intro _
      rw [List.getLast?_cons]
      exact ⟨_, rfl⟩

/-- **C92.** A point map is built exactly when the method is known, name and table are there, a logarithmic axis has
positive coordinates and is neither pdf nor cdf, and a pdf has as many values as positions, at least two. -/
theorem C92_point_accepted (method s : String) (f : File) (hct : f.ctype = some (.one s)) (hs : s = "point" ∨ s = "log_point") :
    (∃ b, build method f = .ok b) ↔
      method ∈ ["IDW", "NN", "LERP"] ∧ ∃ n coords map, f.cname = some n ∧ f.body = .point coords map ∧
        (s = "log_point" → n ≠ .one "pdf" ∧ n ≠ .one "cdf" ∧ ∀ c ∈ coords, 0 < c) ∧
        (n = .one "pdf" → coords.length = map.length ∧ 2 ≤ coords.length) := by
  have hb : build method f = buildPoint method (s == "log_point") f.cname f.body := by
    unfold build; rw [hct]; simp only [hs, if_true]
  rw [hb]
  have hnone : ∀ isLog c m, method ∉ ["IDW", "NN", "LERP"] → Interp.buildPoint method isLog c m = .error .valueError :=
    fun isLog c m h => C32_unknown_method_raises method isLog c m h
  have hok : method ∈ ["IDW", "NN", "LERP"] → (pointMethod method).isSome := by
    intro h
    simp only [List.mem_cons, List.not_mem_nil, or_false] at h
    rcases h with rfl | rfl | rfl <;> simp [pointMethod]
  have key : ∀ isLog c m, (∃ g, Interp.buildPoint method isLog c m = .ok g) ↔
      method ∈ ["IDW", "NN", "LERP"] ∧ (isLog = true → ∀ a ∈ c, 0 < a) := by
    intro isLog c m
    by_cases h : method ∈ ["IDW", "NN", "LERP"]
    · rw [C32_point_coordinates_checked method isLog c m (hok h)]
      exact ⟨fun h' => ⟨h, h'⟩, fun h' => h'.2⟩
    · rw [hnone _ _ _ h]
      constructor
      · rintro ⟨g, hg⟩; cases hg
      · intro h'; exact absurd h'.1 h
  have lift : ∀ r : Res (ℝ → ℝ), (∃ b, ofPoint r = .ok b) ↔ ∃ g, r = .ok g := by
    intro r
    cases r with
    | error e => simp [ofPoint]
    | ok g => simp [ofPoint]
  have hl : (s == "log_point") = true ↔ s = "log_point" := by simp
  unfold buildPoint
  cases hn : f.cname with
  | none => simp
  | some n =>
    simp only
    by_cases h1 : (n = .one "pdf" ∨ n = .one "cdf") ∧ (s == "log_point") = true
    · rw [if_pos h1]
      constructor
      · rintro ⟨b, hb⟩; cases hb
      · rintro ⟨_, n', c, m, hn', hbody, h2, _⟩
        cases hn'
        exact absurd h1.1 (by have := h2 (hl.1 h1.2); tauto)
    · rw [if_neg h1]
      cases hbody : f.body with
      | point coords map =>
        simp only
        by_cases hp : n = .one "pdf"
        · have hlog : ¬ s = "log_point" := fun h => h1 ⟨.inl hp, hl.2 h⟩
          simp only [pointTable, hp, if_true]
          by_cases hlen : coords.length = map.length
          · simp only [hlen, if_true]
            by_cases h2 : 2 ≤ coords.length
            · obtain ⟨r, hr⟩ := (pdfToCdf_ok (coords.zip map)).2 (by simp; omega)
              rw [hr]
              simp only
              rw [lift, key]
              constructor
              · rintro ⟨h3, -⟩
                exact ⟨h3, .one "pdf", coords, map, rfl, rfl, fun h => absurd h hlog, fun _ => ⟨hlen, h2⟩⟩
              · rintro ⟨h3, -⟩
                exact ⟨h3, fun h => absurd (hl.1 h) hlog⟩
            · have hr : ∀ r, pdfToCdf (coords.zip map) ≠ .ok r := by
                intro r hr
                have := (pdfToCdf_ok (coords.zip map)).1 ⟨r, hr⟩
                simp at this; omega
              cases hr' : pdfToCdf (coords.zip map) with
              | ok r => exact absurd hr' (hr r)
              | error e =>
                simp only
                constructor
                · rintro ⟨b, hb⟩; cases hb
                · rintro ⟨_, n', c, m, hn', hb, _, h5⟩
                  cases hb; cases hn'
                  exact absurd (h5 rfl).2 h2
          · simp only [hlen, if_false]
            constructor
            · rintro ⟨b, hb⟩; cases hb
            · rintro ⟨_, n', c, m, hn', hb, _, h5⟩
              cases hb; cases hn'
              exact absurd (h5 rfl).1 hlen
        · simp only [pointTable, hp, if_false]
          rw [lift, key]
          constructor
          · rintro ⟨h3, h4⟩
            refine ⟨h3, n, coords, map, rfl, rfl, fun h => ⟨hp, ?_, h4 (hl.2 h)⟩, fun h => absurd h hp⟩
            intro hc; exact h1 ⟨.inr hc, hl.2 h⟩
          · rintro ⟨h3, n', c, m, hn', hb, h4, _⟩
            cases hb; cases hn'
            exact ⟨h3, fun h => (h4 (hl.1 h)).2.2⟩
      | _ =>
        simp

theorem checkNames_ok (flags : List Bool) (l : List String) (k : Nat) :
    checkNames flags k l = .ok () ↔
      ∀ (i : Nat) (name : String), l[i]? = some name → (name = "pdf" ∨ name = "cdf") → flags[k + i]? = some false := by
  induction l generalizing k with
  | nil => simp [checkNames]
  | cons a l ih =>
    have hcons : (∀ (i : Nat) (name : String), (a :: l)[i]? = some name → (name = "pdf" ∨ name = "cdf") → flags[k + i]? = some false) ↔
        ((a = "pdf" ∨ a = "cdf") → flags[k]? = some false) ∧
        ∀ (i : Nat) (name : String), l[i]? = some name → (name = "pdf" ∨ name = "cdf") → flags[k + 1 + i]? = some false := by
      constructor
      · intro h
        refine ⟨fun ha => by simpa using h 0 a (by simp) ha, fun i name hi hn => ?_⟩
        have := h (i + 1) name (by simpa using hi) hn
        rw [show k + 1 + i = k + (i + 1) by omega]; exact this
      · rintro ⟨h1, h2⟩ i name hi hn
        cases i with
        | zero => simp only [List.getElem?_cons_zero, Option.some.injEq] at hi; subst hi; simpa using h1 hn
        | succ i =>
          have := h2 i name (by simpa using hi) hn
          rw [show k + 1 + i = k + (i + 1) by omega] at this; exact this
    rw [hcons, ← ih]
    rw [checkNames]
    split_ifs with ha
    · cases hf : flags[k]? with
      | none => simp [ha]
      | some b => cases b <;> simp [ha]
    · simp [ha]

theorem namesOk_ok (flags : List Bool) (n : CoordName) :
    namesOk flags n = .ok () ↔ ∀ (names : List String) (i : Nat) (name : String), n = .axes names → names[i]? = some name →
      (name = "pdf" ∨ name = "cdf") → flags[i]? = some false := by
  cases n with
  | one s => simp [namesOk]
  | axes l =>
    simp only [namesOk]
    split_ifs with h
    · rw [checkNames_ok]
      simp only [Nat.zero_add, CoordName.axes.injEq]
      constructor
      · rintro h' names i name rfl; exact h' i name
      · intro h' i name; exact h' l i name rfl
    · simp only [CoordName.axes.injEq, true_iff]
      rintro names i name rfl hi hn
      exact absurd (by rcases hn with rfl | rfl; exacts [.inl (List.mem_of_getElem? hi), .inr (List.mem_of_getElem? hi)]) h

theorem logAxes_ok (ct : CoordType) (n : Nat) (flags : List Bool) (h : logAxes ct n = .ok flags) :
    flags.length = n ∧ ∀ i, i < n → (flags[i]? = some true ↔ IsLogAxis ct i) := by
  cases ct with
  | one s =>
    simp only [logAxes, Except.ok.injEq] at h
    subst h
    refine ⟨by simp, fun i hi => ?_⟩
    simp [IsLogAxis, List.getElem?_replicate, hi]
  | axes l =>
    simp only [logAxes] at h
    split_ifs at h with hl
    simp only [Except.ok.injEq] at h
    subst h
    refine ⟨by simpa using hl, fun i hi => ?_⟩
    simp only [IsLogAxis, List.getElem?_map]
    cases l[i]? <;> simp

theorem applyRegbin_isSome (method : String) (flags : List Bool) (body : Body) (axes : List (Axis ℝ)) (h : body.edges = some axes) :
    (applyRegbin method flags body).isSome ↔
      (axes.length = 1 ∨ (axes.length = 2 ∨ axes.length = 3) ∧ method ∈ ["IDW", "LERP", "NN"]) := by
  cases body with
  | point c m => simp [Body.edges] at h
  | reg0 => simp only [Body.edges, Option.some.injEq] at h; subst h; simp [applyRegbin]
  | many a b c d r => simp only [Body.edges, Option.some.injEq] at h; subst h; simp [applyRegbin]
  | reg1 a m => simp only [Body.edges, Option.some.injEq] at h; subst h; simp [applyRegbin]
  | reg2 a b g =>
    simp only [Body.edges, Option.some.injEq] at h; subst h
    simp only [applyRegbin, List.length_cons, List.length_nil, List.mem_cons, List.not_mem_nil, or_false]
    split <;> simp_all
  | reg3 a b c g =>
    simp only [Body.edges, Option.some.injEq] at h; subst h
    simp only [applyRegbin, List.length_cons, List.length_nil, List.mem_cons, List.not_mem_nil, or_false]
    split <;> simp_all

/-- **C92.** A regular binning is built exactly when edges and name are there, a list of types has one known entry per axis,
no axis named pdf or cdf is logarithmic or beyond the axes, the method exists for the number of axes (any method for one
axis), and the edges of logarithmic axes are positive. -/
theorem C92_regbin_accepted (method : String) (f : File) (ct : CoordType) (hct : f.ctype = some ct) (hr : IsRegular ct) :
    (∃ b, build method f = .ok b) ↔
      ∃ axes n, f.body.edges = some axes ∧ f.cname = some n ∧
        (∀ l, ct = .axes l → l.length = axes.length ∧ ∀ c ∈ l, c = "regbin" ∨ c = "log_regbin") ∧
        (∀ names i name, n = .axes names → names[i]? = some name → (name = "pdf" ∨ name = "cdf") →
          i < axes.length ∧ ¬ IsLogAxis ct i) ∧
        (axes.length = 1 ∨ (axes.length = 2 ∨ axes.length = 3) ∧ method ∈ ["IDW", "LERP", "NN"]) ∧
        (∀ i a, axes[i]? = some a → IsLogAxis ct i → 0 < a.lo ∧ 0 < a.hi) := by
  have hb : (∃ b, build method f = .ok b) ↔
      (∀ l, ct = .axes l → ∀ c ∈ l, c = "regbin" ∨ c = "log_regbin") ∧ ∃ b, buildRegbin method ct f.cname f.body = .ok b := by
    unfold build
    rw [hct]
    cases ct with
    | one s =>
      have h1 : ¬ (s = "point" ∨ s = "log_point") := by
        rcases hr with rfl | rfl <;> decide
      have h2 : s = "regbin" ∨ s = "log_regbin" := hr
      simp only [h1, h2, if_false, if_true]
      simp
    | axes l =>
      simp only
      split_ifs with h
      · constructor
        · rintro ⟨b, hb⟩; cases hb
        · rintro ⟨h', -⟩
          obtain ⟨c, hc, h1, h2⟩ := h
          rcases h' l rfl c hc with h3 | h3
          · exact absurd h3 h1
          · exact absurd h3 h2
      · push Not at h
        constructor
        · intro hb
          refine ⟨?_, hb⟩
          intro l' hl' c hc
          cases hl'
          by_cases hc1 : c = "regbin"
          · exact .inl hc1
          · exact .inr (h c hc hc1)
        · exact fun hb => hb.2
  rw [hb]
  unfold buildRegbin
  cases he : f.body.edges with
  | none =>
    constructor
    · rintro ⟨-, b, hb⟩; cases hb
    · rintro ⟨axes, n, h, -⟩; cases h
  | some axes =>
    simp only
    cases hl : logAxes ct axes.length with
    | error e =>
      constructor
      · rintro ⟨-, b, hb⟩; cases hb
      · rintro ⟨axes', n, h, -, h2, -⟩
        cases h
        cases ct with
        | one s => simp [logAxes] at hl
        | axes l => simp [logAxes, (h2 l rfl).1] at hl
    | ok flags =>
      obtain ⟨hlen, hflag⟩ := logAxes_ok _ _ _ hl
      have hlen' : ∀ l, ct = .axes l → l.length = axes.length := by
        rintro l rfl
        by_contra hne
        simp [logAxes, hne] at hl
      simp only
      cases hn : f.cname with
      | none =>
        constructor
        · rintro ⟨-, b, hb⟩; cases hb
        · rintro ⟨axes', n, h, h', -⟩; cases h'
      | some n =>
        simp only
        have hnames : namesOk flags n = .ok () ↔ ∀ names i name, n = .axes names → names[i]? = some name → (name = "pdf" ∨ name = "cdf") →
          i < axes.length ∧ ¬ IsLogAxis ct i := by
          rw [namesOk_ok]
          have hh : ∀ i, flags[i]? = some false ↔ i < axes.length ∧ ¬ IsLogAxis ct i := by
            intro i
            constructor
            · intro h
              have hi := (List.getElem?_eq_some_iff.1 h).1
              rw [hlen] at hi
              refine ⟨hi, fun h' => ?_⟩
              rw [(hflag i hi).2 h'] at h
              cases h
            · rintro ⟨hi, h'⟩
              cases hb : flags[i]? with
              | none => rw [List.getElem?_eq_none_iff] at hb; omega
              | some b => cases b with
                | false => rfl
                | true => exact absurd ((hflag i hi).1 hb) h'
          simp only [hh]
        have hval : validateRegbin flags axes = .ok () ↔ ∀ i a, axes[i]? = some a → IsLogAxis ct i → 0 < a.lo ∧ 0 < a.hi := by
          rw [C32_regbin_edges_checked flags axes hlen]
          constructor
          · intro h i a hi hlog
            exact h i a ((hflag i (List.getElem?_eq_some_iff.1 hi).1).2 hlog) hi
          · intro h i a hi ha
            exact h i a ha ((hflag i (List.getElem?_eq_some_iff.1 ha).1).1 hi)
        have happ := applyRegbin_isSome method flags f.body axes he
        cases hno : namesOk flags n with
        | error e =>
          constructor
          · rintro ⟨-, b, hb⟩; cases hb
          · rintro ⟨axes', n', h, h', -, h3, -⟩
            cases h; cases h'
            rw [hnames.2 h3] at hno
            cases hno
        | ok u =>
          cases u
          simp only
          cases ha : applyRegbin method flags f.body with
          | none =>
            constructor
            · rintro ⟨-, b, hb⟩; cases hb
            · rintro ⟨axes', n', h, h', -, -, h4, -⟩
              cases h; cases h'
              have := happ.2 h4
              rw [ha] at this
              cases this
          | some b =>
            rw [ha] at happ
            simp only
            cases hv : validateRegbin flags axes with
            | error e =>
              constructor
              · rintro ⟨-, b, hb⟩; cases hb
              · rintro ⟨axes', n', h, h', -, -, -, h5⟩
                cases h; cases h'
                rw [hval.2 h5] at hv
                cases hv
            | ok u =>
              cases u
              constructor
              · rintro ⟨h1, -⟩
                exact ⟨axes, n, rfl, rfl, fun l hl => ⟨hlen' l hl, h1 l hl⟩, hnames.1 hno, happ.1 rfl, hval.1 hv⟩
              · rintro ⟨axes', n', h, h', h2, -⟩
                cases h; cases h'
                exact ⟨fun l hl => (h2 l hl).2, b, rfl⟩

/-- **C92 (errors).** A file without a type is a KeyError; any other single type, and any other entry in a list of types, a
ValueError. -/
theorem C92_other_types (method : String) (f : File) :
    (f.ctype = none → build method f = .error .keyError) ∧
    (∀ s, f.ctype = some (.one s) → s ∉ ["point", "log_point", "regbin", "log_regbin"] → build method f = .error .valueError) ∧
    (∀ l c, f.ctype = some (.axes l) → c ∈ l → c ∉ ["regbin", "log_regbin"] → build method f = .error .valueError) := by
  refine ⟨?_, ?_, ?_⟩
  · intro h; unfold build; rw [h]
  · intro s h hs
    simp only [List.mem_cons, List.not_mem_nil, or_false, not_or] at hs
    unfold build; rw [h]
    simp [hs]
  · intro l c h hc hs
    simp only [List.mem_cons, List.not_mem_nil, or_false, not_or] at hs
    unfold build; rw [h]
    simp only
    rw [if_pos ⟨c, hc, hs⟩]

/-- **C92 (errors).** A point map without name or without a table, and a regular binning without edges or without name,
is a KeyError, unless a ValueError comes first: a logarithmic pdf or cdf, or a list of types of the wrong length. -/
theorem C92_missing_entries (method : String) (f : File) :
    (∀ s, f.ctype = some (.one s) → s = "point" ∨ s = "log_point" →
      (f.cname = none → build method f = .error .keyError) ∧
      (∀ n axes, f.cname = some n → f.body.edges = some axes →
        build method f = if s = "log_point" ∧ (n = .one "pdf" ∨ n = .one "cdf") then .error .valueError else .error .keyError)) ∧
    (∀ s, f.ctype = some (.one s) → s = "regbin" ∨ s = "log_regbin" →
      (f.cname = none ∨ f.body.edges = none → build method f = .error .keyError)) := by
  refine ⟨fun s h hs => ?_, fun s h hs => ?_⟩
  · have hb : build method f = buildPoint method (s == "log_point") f.cname f.body := by
      unfold build; rw [h]; simp only [hs, if_true]
    refine ⟨fun hn => ?_, fun n axes hn he => ?_⟩
    · rw [hb, hn]; rfl
    · rw [hb, hn]
      unfold buildPoint
      simp only [beq_iff_eq]
      by_cases hl : s = "log_point" ∧ (n = .one "pdf" ∨ n = .one "cdf")
      · rw [if_pos hl, if_pos ⟨hl.2, hl.1⟩]
      · rw [if_neg hl, if_neg (fun h => hl ⟨h.2, h.1⟩)]
        cases hbody : f.body with
        | point c m => rw [hbody] at he; cases he
        | _ => rfl
  · have h1 : ¬ (s = "point" ∨ s = "log_point") := by
      rcases hs with rfl | rfl <;> decide
    have hb : build method f = buildRegbin method (.one s) f.cname f.body := by
      unfold build; rw [h]; simp only [h1, hs, if_true, if_false]
    intro hne
    rw [hb]
    unfold buildRegbin
    cases he : f.body.edges with
    | none => rfl
    | some axes =>
      rcases hne with hn | hn
      · rw [hn]; rfl
      · rw [he] at hn; cases hn

/-- **C92.** A pdf file builds the same map as the file with the converted table and the name cdf. -/
theorem C92_pdf_file (method : String) (coords map x cdf : List ℝ) (hlen : coords.length = map.length)
    (h : pdfToCdf (coords.zip map) = .ok (x, cdf)) :
    build method ⟨some (.one "point"), some (.one "pdf"), .point coords map⟩ =
      build method ⟨some (.one "point"), some (.one "cdf"), .point cdf x⟩ := by
  unfold build buildPoint pointTable
  simp [hlen, h]

/-- Only the string is converted: a point map whose name is the list with the single entry pdf is looked up as it stands,
like a map of any other name. -/
theorem C92_name_in_list_not_converted (method : String) (coords map : List ℝ) :
    build method ⟨some (.one "point"), some (.axes ["pdf"]), .point coords map⟩ =
      build method ⟨some (.one "point"), some (.one "energy"), .point coords map⟩ := by
  unfold build buildPoint pointTable
  simp

/-- The map, if built, returns a value at every position. -/
def Built.Total : Built → Prop
  | .of1 f => ∀ x, ∃ y, f x = .ok y
  | .of2 f => ∀ x y, ∃ v, f x y = .ok v
  | .of3 f => ∀ x y z, ∃ v, f x y z = .ok v

/-- A regular binning with one axis builds, whatever the method, and then fails at every position. -/
theorem C92_one_axis_never_applies (method : String) (a : Axis ℝ) (map : List ℝ) (name : String) :
    ∃ g, build method ⟨some (.one "regbin"), some (.one name), .reg1 a map⟩ = .ok (.of1 g) ∧ ∀ x, g x = .error .valueError := by
  refine ⟨fun _ => .error .valueError, ?_, fun x => rfl⟩
  unfold build buildRegbin
  simp [Body.edges, logAxes, namesOk, applyRegbin, validateRegbin]

theorem build_of_regbin (method : String) (f : File) (b : Built) (h : build method f = .ok b) (axes : List (Axis ℝ))
    (he : f.body.edges = some axes) : ∃ ct flags, f.ctype = some ct ∧ logAxes ct axes.length = .ok flags ∧ applyRegbin method flags f.body = some b := by
  unfold build at h
  have key : ∀ ct, f.ctype = some ct → buildRegbin method ct f.cname f.body = .ok b →
      ∃ ct flags, f.ctype = some ct ∧ logAxes ct axes.length = .ok flags ∧ applyRegbin method flags f.body = some b := by
    intro ct hct h
    unfold buildRegbin at h
    rw [he] at h
    simp only at h
    cases hl : logAxes ct axes.length with
    | error e => rw [hl] at h; cases h
    | ok flags =>
      rw [hl] at h
      simp only at h
      split at h
      · cases h
      · split at h
        · cases h
        · split at h
          · cases h
          · rename_i b' hb'
            split at h
            · cases h
            · cases h
              exact ⟨ct, flags, hct, hl, hb'⟩
  cases hc : f.ctype with
  | none => rw [hc] at h; cases h
  | some ct =>
    rw [hc] at h key
    cases ct with
    | axes l =>
      simp only at h
      split_ifs at h
      exact key _ rfl h
    | one s =>
      simp only at h
      split_ifs at h
      · exfalso
        unfold buildPoint at h
        split at h
        · cases h
        · split_ifs at h
          split at h
          · rename_i hb; rw [hb] at he; cases he
          · cases h
      · exact key _ rfl h

theorem build_of_point (method : String) (f : File) (b : Built) (h : build method f = .ok b) (coords map : List ℝ)
    (he : f.body = .point coords map) : ∃ g : ℝ → ℝ, b = .of1 (fun x => .ok (g x)) := by
  have hreg : ∀ ct, buildRegbin method ct f.cname f.body ≠ .ok b := by
    intro ct h
    unfold buildRegbin at h
    rw [he] at h
    simp [Body.edges] at h
  unfold build at h
  split at h
  · cases h
  · split_ifs at h
    exact absurd h (hreg _)
  · split_ifs at h
    · unfold buildPoint at h
      rw [he] at h
      split at h
      · cases h
      · split_ifs at h
        simp only at h
        split at h
        · cases h
        · unfold ofPoint at h
          split at h
          · cases h
          · cases h
            exact ⟨_, rfl⟩
    · exact absurd h (hreg _)

/-- **C92.** Every other map that was built returns a value at every position; what is missing is the regular binning with
one axis. -/
theorem C92_applies_partial (method : String) (f : File) (b : Built) (h : build method f = .ok b)
    (h1 : ∀ a m, f.body ≠ .reg1 a m) : b.Total := by
  cases hb : f.body with
  | point c m =>
    obtain ⟨g, rfl⟩ := build_of_point method f b h c m hb
    exact fun x => ⟨_, rfl⟩
  | reg1 a m => exact absurd hb (h1 a m)
  | reg0 =>
    obtain ⟨ct, flags, -, -, ha⟩ := build_of_regbin method f b h _ (by rw [hb]; rfl)
    rw [hb] at ha; cases ha
  | many a0 a1 a2 a3 r =>
    obtain ⟨ct, flags, -, -, ha⟩ := build_of_regbin method f b h _ (by rw [hb]; rfl)
    rw [hb] at ha; cases ha
  | reg2 a0 a1 g =>
    obtain ⟨ct, flags, -, -, ha⟩ := build_of_regbin method f b h _ (by rw [hb]; rfl)
    rw [hb] at ha
    simp only [applyRegbin] at ha
    split at ha <;> cases ha <;> exact fun x y => ⟨_, rfl⟩
  | reg3 a0 a1 a2 g =>
    obtain ⟨ct, flags, -, -, ha⟩ := build_of_regbin method f b h _ (by rw [hb]; rfl)
    rw [hb] at ha
    simp only [applyRegbin] at ha
    split at ha <;> cases ha <;> exact fun x y z => ⟨_, rfl⟩

/-- **C92.** With two axes of at least two nodes each, every method and any mixture of linear and logarithmic axes, the
map's values lie between the smallest and the largest entry, at every position whatever. -/
theorem C92_bounds_2d (method : String) (f : File) (a0 a1 : Axis ℝ) (g : Grid2 ℝ) (hb : f.body = .reg2 a0 a1 g) (b : Built)
    (h : build method f = .ok b) (h0 : 2 ≤ g.n0) (h1 : 2 ≤ g.n1) (m M : ℝ)
    (hv : ∀ i j, i < g.n0 → j < g.n1 → m ≤ g.val i j ∧ g.val i j ≤ M) :
    ∃ F, b = .of2 F ∧ ∀ x y, ∃ v, F x y = .ok v ∧ m ≤ v ∧ v ≤ M := by
  obtain ⟨ct, flags, -, -, ha⟩ := build_of_regbin method f b h _ (by rw [hb]; rfl)
  rw [hb] at ha
  simp only [applyRegbin] at ha
  split at ha
  · cases ha
    exact ⟨_, rfl, fun x y => ⟨_, rfl, C31_idw_bounds g _ _ _ _ m M (by omega) (by omega) hv⟩⟩
  · cases ha
    exact ⟨_, rfl, fun x y => ⟨_, rfl, C30_bilinear_bounds g _ _ _ _ m M h0 h1 hv⟩⟩
  · cases ha
    refine ⟨_, rfl, fun x y => ⟨_, rfl, ?_⟩⟩
    obtain ⟨i, j, hi, hj, e, -⟩ := C29_grid_2d g
      ⟨preprocess (flags.getD 0 false) a0.lo, preprocess (flags.getD 0 false) a0.hi⟩
      ⟨preprocess (flags.getD 1 false) a1.lo, preprocess (flags.getD 1 false) a1.hi⟩
      (preprocess (flags.getD 0 false) x) (preprocess (flags.getD 1 false) y) (by omega) (by omega)
    rw [e]; exact hv i j hi hj
  · cases ha

theorem C92_bounds_3d (method : String) (f : File) (a0 a1 a2 : Axis ℝ) (g : Grid3 ℝ) (hb : f.body = .reg3 a0 a1 a2 g) (b : Built)
    (h : build method f = .ok b) (h0 : 2 ≤ g.n0) (h1 : 2 ≤ g.n1) (h2 : 2 ≤ g.n2) (m M : ℝ)
    (hv : ∀ i j k, i < g.n0 → j < g.n1 → k < g.n2 → m ≤ g.val i j k ∧ g.val i j k ≤ M) :
    ∃ F, b = .of3 F ∧ ∀ x y z, ∃ v, F x y z = .ok v ∧ m ≤ v ∧ v ≤ M := by
  obtain ⟨ct, flags, -, -, ha⟩ := build_of_regbin method f b h _ (by rw [hb]; rfl)
  rw [hb] at ha
  simp only [applyRegbin] at ha
  split at ha
  · cases ha
    exact ⟨_, rfl, fun x y z => ⟨_, rfl, C31_idw_bounds_3d g _ _ _ _ _ _ m M (by omega) (by omega) (by omega) hv⟩⟩
  · cases ha
    exact ⟨_, rfl, fun x y z => ⟨_, rfl, C30_trilinear_bounds g _ _ _ _ _ _ m M h0 h1 h2 hv⟩⟩
  · cases ha
    refine ⟨_, rfl, fun x y z => ⟨_, rfl, ?_⟩⟩
    obtain ⟨i, j, k, hi, hj, hk, e, -⟩ := C29_grid_3d g
      ⟨preprocess (flags.getD 0 false) a0.lo, preprocess (flags.getD 0 false) a0.hi⟩
      ⟨preprocess (flags.getD 1 false) a1.lo, preprocess (flags.getD 1 false) a1.hi⟩
      ⟨preprocess (flags.getD 2 false) a2.lo, preprocess (flags.getD 2 false) a2.hi⟩
      (preprocess (flags.getD 0 false) x) (preprocess (flags.getD 1 false) y) (preprocess (flags.getD 2 false) z)
      (by omega) (by omega) (by omega)
    rw [e]; exact hv i j k hi hj hk
  · cases ha

/-- The position of node `i` of `n` on an axis: evenly spaced on a linear axis, in equal ratios on a logarithmic one. -/
noncomputable def axisNode (isLog : Bool) (n : Nat) (a : Axis ℝ) (i : Nat) : ℝ :=
  if isLog then a.lo * (a.hi / a.lo) ^ ((i : ℝ) / ((n : ℝ) - 1)) else a.lo + (a.hi - a.lo) * ((i : ℝ) / ((n : ℝ) - 1))

theorem preprocess_axisNode (isLog : Bool) (n : Nat) (a : Axis ℝ) (i : Nat) (hn : 2 ≤ n) (hi : i < n)
    (hr : isLog = true → floatPosMin ≤ a.lo ∧ a.lo < a.hi ∧ a.hi ≤ floatPosMax) :
    preprocess isLog (axisNode isLog n a i) = node n ⟨preprocess isLog a.lo, preprocess isLog a.hi⟩ i := by
  have hn1 : (0 : ℝ) < (n : ℝ) - 1 := by
    have : (2 : ℝ) ≤ n := by exact_mod_cast hn
    linarith
  cases isLog with
  | false =>
    simp only [preprocess, axisNode, node, spacing, Bool.false_eq_true, if_false]
    ring
  | true =>
    obtain ⟨h1, h2, h3⟩ := hr rfl
    have hlo : 0 < a.lo := lt_of_lt_of_le floatPosMin_pos h1
    have hhi : 0 < a.hi := hlo.trans h2
    have hq : 1 ≤ a.hi / a.lo := (one_le_div hlo).2 h2.le
    have ht0 : 0 ≤ (i : ℝ) / ((n : ℝ) - 1) := by positivity
    have ht1 : (i : ℝ) / ((n : ℝ) - 1) ≤ 1 := by
      rw [div_le_one hn1]
      have : ((i : ℝ)) + 1 ≤ n := by exact_mod_cast hi
      linarith
    have hp1 : 1 ≤ (a.hi / a.lo) ^ ((i : ℝ) / ((n : ℝ) - 1)) := Real.one_le_rpow hq ht0
    have hp2 : (a.hi / a.lo) ^ ((i : ℝ) / ((n : ℝ) - 1)) ≤ a.hi / a.lo := by
      have := Real.rpow_le_rpow_of_exponent_le hq ht1
      rwa [Real.rpow_one] at this
    have e1 : floatPosMin ≤ axisNode true n a i := by
      simp only [axisNode, if_true]; nlinarith
    have e2 : axisNode true n a i ≤ floatPosMax := by
      simp only [axisNode, if_true]
      calc _ ≤ a.lo * (a.hi / a.lo) := mul_le_mul_of_nonneg_left hp2 hlo.le
        _ = a.hi := by field_simp
        _ ≤ _ := h3
    have p : ∀ x, floatPosMin ≤ x → x ≤ floatPosMax → preprocess true x = Real.logb 10 x := by
      intro x hx1 hx2
      simp only [preprocess, if_true]
      rw [clip_of_mem _ _ _ hx1 hx2]
    rw [p _ e1 e2]
    simp only [node, spacing]
    rw [p _ h1 (h2.le.trans h3), p _ (h1.trans h2.le) h3]
    simp only [axisNode, if_true]
    rw [Real.logb_mul hlo.ne' (by positivity), Real.logb_rpow_eq_mul_logb_of_pos (by positivity), Real.logb_div hhi.ne' hlo.ne']
    ring

theorem preprocess_lt (isLog : Bool) (a : Axis ℝ) (h : a.lo < a.hi) (hr : isLog = true → floatPosMin ≤ a.lo ∧ a.hi ≤ floatPosMax) :
    preprocess isLog a.lo < preprocess isLog a.hi := by
  cases isLog with
  | false => simpa [preprocess] using h
  | true =>
    obtain ⟨h1, h3⟩ := hr rfl
    simp only [preprocess, if_true]
    rw [clip_of_mem _ _ _ h1 (h.le.trans h3), clip_of_mem _ _ _ (h1.trans h.le) h3]
    exact Real.logb_lt_logb (by norm_num) (lt_of_lt_of_le floatPosMin_pos h1) h

/-- **C92.** A grid read with linear interpolation returns the stored entry at every node, for any mixture of axes: nodes of a
logarithmic axis divide it in equal ratios.  Its edges lie in the range of float32. -/
theorem C92_stored_value_at_nodes (f : File) (a0 a1 : Axis ℝ) (g : Grid2 ℝ) (ct : CoordType) (l0 l1 : Bool)
    (hct : f.ctype = some ct) (hb : f.body = .reg2 a0 a1 g) (b : Built) (h : build "LERP" f = .ok b)
    (h0 : 2 ≤ g.n0) (h1 : 2 ≤ g.n1) (ha0 : a0.lo < a0.hi) (ha1 : a1.lo < a1.hi)
    (hl0 : l0 = true ↔ IsLogAxis ct 0) (hl1 : l1 = true ↔ IsLogAxis ct 1)
    (hr0 : l0 = true → floatPosMin ≤ a0.lo ∧ a0.hi ≤ floatPosMax) (hr1 : l1 = true → floatPosMin ≤ a1.lo ∧ a1.hi ≤ floatPosMax) :
    ∃ F, b = .of2 F ∧ ∀ i j, i < g.n0 → j < g.n1 → F (axisNode l0 g.n0 a0 i) (axisNode l1 g.n1 a1 j) = .ok (g.val i j) := by
  obtain ⟨ct', flags, hct', hfl, ha⟩ := build_of_regbin "LERP" f b h _ (by rw [hb]; rfl)
  rw [hct] at hct'; cases hct'
  obtain ⟨hlen, hflag⟩ := logAxes_ok _ _ _ hfl
  have hget : ∀ i l, i < 2 → (l = true ↔ IsLogAxis ct i) → flags.getD i false = l := by
    intro i l hi hl
    have hf := hflag i hi
    rw [List.getD_eq_getElem?_getD]
    cases hb : flags[i]? with
    | none => rw [List.getElem?_eq_none_iff] at hb; simp at hlen; omega
    | some v =>
      rw [hb] at hf
      simp only [Option.some.injEq] at hf
      simp only [Option.getD_some]
      rw [Bool.eq_iff_iff, hf, hl]
  rw [hb] at ha
  simp only [applyRegbin, hget 0 l0 (by omega) hl0, hget 1 l1 (by omega) hl1] at ha
  cases ha
  refine ⟨_, rfl, fun i j hi hj => ?_⟩
  simp only [preprocess_axisNode l0 g.n0 a0 i h0 hi (fun h => ⟨(hr0 h).1, ha0, (hr0 h).2⟩),
    preprocess_axisNode l1 g.n1 a1 j h1 hj (fun h => ⟨(hr1 h).1, ha1, (hr1 h).2⟩)]
  rw [C30_bilinear_exact_at_nodes g _ _ i j h0 h1 (preprocess_lt l0 a0 ha0 hr0) (preprocess_lt l1 a1 ha1 hr1) hi hj]

/-- **C92.** The same with three axes. -/
theorem C92_stored_value_at_nodes_3d (f : File) (a0 a1 a2 : Axis ℝ) (g : Grid3 ℝ) (ct : CoordType) (l0 l1 l2 : Bool)
    (hct : f.ctype = some ct) (hb : f.body = .reg3 a0 a1 a2 g) (b : Built) (h : build "LERP" f = .ok b)
    (h0 : 2 ≤ g.n0) (h1 : 2 ≤ g.n1) (h2 : 2 ≤ g.n2) (ha0 : a0.lo < a0.hi) (ha1 : a1.lo < a1.hi) (ha2 : a2.lo < a2.hi)
    (hl0 : l0 = true ↔ IsLogAxis ct 0) (hl1 : l1 = true ↔ IsLogAxis ct 1) (hl2 : l2 = true ↔ IsLogAxis ct 2)
    (hr0 : l0 = true → floatPosMin ≤ a0.lo ∧ a0.hi ≤ floatPosMax) (hr1 : l1 = true → floatPosMin ≤ a1.lo ∧ a1.hi ≤ floatPosMax)
    (hr2 : l2 = true → floatPosMin ≤ a2.lo ∧ a2.hi ≤ floatPosMax) :
    ∃ F, b = .of3 F ∧ ∀ i j k, i < g.n0 → j < g.n1 → k < g.n2 →
      F (axisNode l0 g.n0 a0 i) (axisNode l1 g.n1 a1 j) (axisNode l2 g.n2 a2 k) = .ok (g.val i j k) := by
  obtain ⟨ct', flags, hct', hfl, ha⟩ := build_of_regbin "LERP" f b h _ (by rw [hb]; rfl)
  rw [hct] at hct'; cases hct'
  obtain ⟨hlen, hflag⟩ := logAxes_ok _ _ _ hfl
  have hget : ∀ i l, i < 3 → (l = true ↔ IsLogAxis ct i) → flags.getD i false = l := by
    intro i l hi hl
    have hf := hflag i hi
    rw [List.getD_eq_getElem?_getD]
    cases hb : flags[i]? with
    | none => rw [List.getElem?_eq_none_iff] at hb; simp at hlen; omega
    | some v =>
      rw [hb] at hf
      simp only [Option.some.injEq] at hf
      simp only [Option.getD_some]
      rw [Bool.eq_iff_iff, hf, hl]
  rw [hb] at ha
  simp only [applyRegbin, hget 0 l0 (by omega) hl0, hget 1 l1 (by omega) hl1, hget 2 l2 (by omega) hl2] at ha
  cases ha
  refine ⟨_, rfl, fun i j k hi hj hk => ?_⟩
  simp only [preprocess_axisNode l0 g.n0 a0 i h0 hi (fun h => ⟨(hr0 h).1, ha0, (hr0 h).2⟩),
    preprocess_axisNode l1 g.n1 a1 j h1 hj (fun h => ⟨(hr1 h).1, ha1, (hr1 h).2⟩),
    preprocess_axisNode l2 g.n2 a2 k h2 hk (fun h => ⟨(hr2 h).1, ha2, (hr2 h).2⟩)]
  rw [C30_trilinear_exact_at_nodes g _ _ _ i j k h0 h1 h2 (preprocess_lt l0 a0 ha0 hr0) (preprocess_lt l1 a1 ha1 hr1)
    (preprocess_lt l2 a2 ha2 hr2) hi hj hk]

/-- Non-vacuity of C92_stored_value_at_nodes_3d: two linear axes and a logarithmic one. -/
def mixedFile3 : File :=
  ⟨some (.axes ["regbin", "regbin", "log_regbin"]), some (.axes ["cdf", "x", "energy"]),
    .reg3 ⟨0, 1⟩ ⟨0, 5⟩ ⟨1, 100⟩ ⟨2, 2, 3, fun i j k => i + 10 * j + 100 * k⟩⟩

example : ∃ b, build "LERP" mixedFile3 = .ok b := by
  refine (C92_regbin_accepted "LERP" mixedFile3 _ rfl trivial).2 ⟨_, _, rfl, rfl, ?_, ?_, ?_, ?_⟩
  · rintro l h; cases h; simp
  · rintro names i name h hi hn
    cases h
    match i, hi with
    | 0, _ => simp [IsLogAxis]
    | 1, hi => simp at hi; subst hi; simp at hn
    | 2, hi => simp at hi; subst hi; simp at hn
  · simp
  · intro i a hi hl
    match i, hi with
    | 0, _ => simp [IsLogAxis] at hl
    | 1, _ => simp [IsLogAxis] at hl
    | 2, hi => simp at hi; subst hi; norm_num

/-- A grid with a linear and a logarithmic axis meets the conditions. -/
def mixedFile : File :=
  ⟨some (.axes ["regbin", "log_regbin"]), some (.axes ["cdf", "energy"]), .reg2 ⟨0, 1⟩ ⟨1, 100⟩ ⟨2, 3, fun i j => i + 10 * j⟩⟩

example : ∃ b, build "LERP" mixedFile = .ok b := by
  refine (C92_regbin_accepted "LERP" mixedFile _ rfl trivial).2 ⟨_, _, rfl, rfl, ?_, ?_, ?_, ?_⟩
  · rintro l h; cases h; simp
  · rintro names i name h hi hn
    cases h
    match i, hi with
    | 0, _ => simp [IsLogAxis]
    | 1, hi => simp at hi; subst hi; simp at hn
  · simp
  · intro i a hi hl
    match i, hi with
    | 0, _ => simp [IsLogAxis] at hl
    | 1, hi => simp at hi; subst hi; norm_num

/-- The same file with the names exchanged is refused: the axis of the cdf is logarithmic. -/
example : ¬ ∃ b, build "LERP" { mixedFile with cname := some (.axes ["energy", "cdf"]) } = .ok b := by
  rw [C92_regbin_accepted "LERP" { mixedFile with cname := some (.axes ["energy", "cdf"]) } _ rfl trivial]
  rintro ⟨axes, n, -, hn, -, h, -⟩
  cases hn
  exact (h _ 1 "cdf" rfl rfl (.inr rfl)).2 rfl

/-- The middle node of the logarithmic axis lies at ten. -/
example : axisNode true 3 ⟨1, 100⟩ 1 = 10 := by
  have : (100 : ℝ) = 10 ^ (2 : ℝ) := by norm_num
  simp only [axisNode, if_true, div_one, one_mul]
  rw [this, ← Real.rpow_mul (by norm_num)]
  norm_num

/-- A point map of a pdf is accepted with two values and not with one. -/
example : (∃ b, build "NN" ⟨some (.one "point"), some (.one "pdf"), .point [0, 1] [2, 2]⟩ = .ok b) ∧
    ¬ ∃ b, build "NN" ⟨some (.one "point"), some (.one "pdf"), .point [0] [2]⟩ = .ok b := by
  constructor
  · refine (C92_point_accepted "NN" "point" _ rfl (.inl rfl)).2 ⟨by simp, _, _, _, rfl, rfl, by simp, by simp⟩
  · rw [C92_point_accepted "NN" "point" _ rfl (.inl rfl)]
    rintro ⟨-, n, c, m, hn, hb, -, h⟩
    cases hn; cases hb
    have := (h rfl).2
    simp at this

/-- **C92 (misnamed axes).** In a map with one type of regular binning the first axis named pdf or cdf decides: if there is no such
axis the file is refused with an IndexError, if it is logarithmic with a ValueError. -/
theorem C92_misnamed (method : String) (f : File) (s : String) (axes : List (Axis ℝ)) (names : List String) (i : Nat) (name : String)
    (ht : f.ctype = some (.one s)) (hs : s = "regbin" ∨ s = "log_regbin") (he : f.body.edges = some axes) (hc : f.cname = some (.axes names))
    (hi : names[i]? = some name) (hn : name = "pdf" ∨ name = "cdf") (hfirst : ∀ j, j < i → names[j]? ≠ some "pdf" ∧ names[j]? ≠ some "cdf") :
    (axes.length ≤ i → build method f = .error .indexError) ∧
    (i < axes.length → s = "log_regbin" → build method f = .error .valueError) := by
  have hcheck : ∀ (flags : List Bool) (l : List String) (i k : Nat), l[i]? = some name →
      (∀ j, j < i → l[j]? ≠ some "pdf" ∧ l[j]? ≠ some "cdf") →
      (flags[k + i]? = none → checkNames flags k l = .error .indexError) ∧
      (flags[k + i]? = some true → checkNames flags k l = .error .valueError) := by
    intro flags l
    induction l with
    | nil => intro i k h; simp at h
    | cons a l ih =>
      intro i k h hf
      cases i with
      | zero =>
        simp only [List.getElem?_cons_zero, Option.some.injEq] at h
        subst h
        rw [checkNames, if_pos hn]
        constructor <;> intro h' <;> simp only [Nat.add_zero] at h' <;> simp [h']
      | succ i =>
        have h0 := hf 0 (by omega)
        simp only [List.getElem?_cons_zero, ne_eq, Option.some.injEq] at h0
        rw [checkNames, if_neg (by tauto)]
        have := ih i (k + 1) (by simpa using h) (fun j hj => by have := hf (j + 1) (by omega); simpa using this)
        rw [show k + (i + 1) = k + 1 + i by omega]
        exact this
  have hmem : "pdf" ∈ names ∨ "cdf" ∈ names := by
    rcases hn with rfl | rfl
    exacts [.inl (List.mem_of_getElem? hi), .inr (List.mem_of_getElem? hi)]
  have hb : ∀ e, checkNames (List.replicate axes.length (s == "log_regbin")) 0 names = .error e → build method f = .error e := by
    intro e h
    have hnp : ¬ (s = "point" ∨ s = "log_point") := by rcases hs with rfl | rfl <;> decide
    unfold build
    rw [ht]
    simp only
    rw [if_neg hnp, if_pos hs]
    simp only [buildRegbin, he, logAxes, hc, namesOk, if_pos hmem, h]
  obtain ⟨h1, h2⟩ := hcheck (List.replicate axes.length (s == "log_regbin")) names i 0 hi hfirst
  constructor
  · intro hl
    exact hb _ (h1 (by simp only [Nat.zero_add]; rw [List.getElem?_eq_none_iff]; simpa using hl))
  · rintro hl rfl
    exact hb _ (h2 (by simp only [Nat.zero_add]; rw [List.getElem?_replicate, if_pos hl]; rfl))

/-- Non-vacuity of C92_misnamed: a map with one axis and two names, the second of which is pdf. -/
example (a : Axis ℝ) (m : List ℝ) : build "IDW" ⟨some (.one "regbin"), some (.axes ["x", "pdf"]), .reg1 a m⟩ = .error .indexError := by
  refine (C92_misnamed "IDW" _ "regbin" [a] ["x", "pdf"] 1 "pdf" rfl (.inl rfl) rfl rfl rfl (.inl rfl) ?_).1 (by simp)
  intro j hj
  obtain rfl : j = 0 := by omega
  decide

end Verif.MapFile
