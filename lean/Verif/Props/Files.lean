/-
C101: files that are read and written whole.  C102: timing a function.
-/
import Verif.Lemmas.Files

namespace Verif.Files
open Verif

/-! ### Tables -/

/-- **C101 (tables).** `load_data` reads a file with `read_csv` exactly if the path it is found under ends in `.csv` (or is the
word `csv`), with `read_pickle` exactly if it ends in `.pkl`, and raises ValueError for every other file that is found. -/
theorem C101_format (find : String → Res String) (name path : String) (hf : find name = .ok path) :
    (loadData find name = .ok (.csv, path) ↔ path = "csv" ∨ ∃ pre, path = pre ++ ".csv") ∧
    (loadData find name = .ok (.pickle, path) ↔ path = "pkl" ∨ ∃ pre, path = pre ++ ".pkl") ∧
    (loadData find name = .error .valueError ↔
      (path ≠ "csv" ∧ ∀ pre, path ≠ pre ++ ".csv") ∧ (path ≠ "pkl" ∧ ∀ pre, path ≠ pre ++ ".pkl")) := by
  have key : ∀ (t : List Char) (w d : String), '.' ∉ t → w.toList = t → d.toList = '.' :: t →
      (lastPart path.toList = t ↔ path = w ∨ ∃ pre, path = pre ++ d) := by
    intro t w d ht hw hd
    constructor
    · intro h
      rcases lastPart_cases path.toList with ⟨h1, -⟩ | ⟨pre, h1⟩
      · left; rw [← String.toList_inj, hw, ← h, h1]
      · right
        refine ⟨String.ofList pre, ?_⟩
        rw [← String.toList_inj, String.toList_append, String.toList_ofList, hd, ← h]; exact h1
    · rintro (h | ⟨pre, h⟩)
      · rw [h, hw]; exact lastPart_of_noDot t ht
      · rw [h, String.toList_append, hd]; exact lastPart_append _ _ ht
  have hc := key ['c', 's', 'v'] "csv" ".csv" (by decide) (by decide) (by decide)
  have hp := key ['p', 'k', 'l'] "pkl" ".pkl" (by decide) (by decide) (by decide)
  have hnot : ¬ (lastPart path.toList = ['c', 's', 'v'] ∧ lastPart path.toList = ['p', 'k', 'l']) := by
    rintro ⟨h1, h2⟩; rw [h1] at h2; exact absurd h2 (by decide)
  rw [← hc, ← hp]
  have hcn : (path ≠ "csv" ∧ ∀ pre, path ≠ pre ++ ".csv") ↔ lastPart path.toList ≠ ['c', 's', 'v'] := by
    rw [ne_eq (lastPart _), hc, not_or, not_exists]
  have hpn : (path ≠ "pkl" ∧ ∀ pre, path ≠ pre ++ ".pkl") ↔ lastPart path.toList ≠ ['p', 'k', 'l'] := by
    rw [ne_eq (lastPart _), hp, not_or, not_exists]
  rw [hcn, hpn]
  by_cases h1 : lastPart path.toList = ['c', 's', 'v']
  · have h2 : lastPart path.toList ≠ ['p', 'k', 'l'] := fun h => hnot ⟨h1, h⟩
    simp [loadData, hf, h1]
  · by_cases h2 : lastPart path.toList = ['p', 'k', 'l']
    · simp [loadData, hf, h2]
    · simp [loadData, hf, h1, h2]

/-- A file that cannot be found is the error of the search. -/
theorem C101_not_found (find : String → Res String) (name : String) (e : PyErr) (hf : find name = .error e) :
    loadData find name = .error e := by simp [loadData, hf]

example : loadData (fun n => .ok ("/data/" ++ n)) "rn220.csv" = .ok (.csv, "/data/rn220.csv") := by decide
example : loadData (fun n => .ok ("/data/" ++ n)) "rn220.CSV" = .error .valueError := by decide
example : loadData (fun n => .ok ("/data/" ++ n)) "rn220.csv.gz" = .error .valueError := by decide

/-! ### Indented text -/

/-- **C101 (lines).** Given the lines of a text, `add_spaces` gives the text whose lines are these with four spaces before
them. -/
theorem C101_lines_indented_partial (s : List Char) :
    readLines (addSpaces (.list (readLines s))) = (readLines s).map ([' ', ' ', ' ', ' '] ++ ·) :=
  addSpaces_readLines _ (readLines_isLines s)

/-- **C101 (violated).** Given the text itself, `add_spaces` puts all lines into one: the result never has a newline. -/
theorem C101_string_lines_run_together (s : List Char) : '\n' ∉ addSpaces (.str s) := by
  simp only [addSpaces, List.mem_flatMap, not_exists, not_and]
  intro q hq h
  rcases List.mem_append.1 h with h | h
  · exact absurd h (by decide)
  · exact splitNl_noNl s q hq h

/-- With the text of two lines, the indented text has one. -/
theorem C101_string_negation : ¬ ∀ s, readLines (addSpaces (.str s)) = (readLines s).map ([' ', ' ', ' ', ' '] ++ ·) := by
  intro h
  exact absurd (h ['a', '\n', 'b']) (by decide)

example : addSpaces (.list (readLines ['a', '\n', 'b'])) = [' ', ' ', ' ', ' ', 'a', '\n', ' ', ' ', ' ', ' ', 'b'] := by decide

/-! ### Drawn graphs -/

theorem append_ne_self (s : String) (t : String) (ht : t.toList ≠ []) : s ++ t ≠ s := by
  intro h
  have := congrArg String.toList h
  rw [String.toList_append] at this
  have := congrArg List.length this
  simp only [List.length_append] at this
  exact ht (List.eq_nil_of_length_eq_zero (by omega))

/-- **C101 (graphs).** For a graph that renders to svg, `tree_to_svg` returns the lines of its picture after the first five,
indented; the picture stays, the source is removed, and all other files are as they were. -/
theorem C101_svg_partial (g : Graph) (fs : FS) (saveAs : String) (hfmt : g.format = "svg") :
    ∃ fs' t, treeToSvg g fs saveAs = (fs', .ok t) ∧
      readLines t = ((readLines g.picture).drop 5).map ([' ', ' ', ' ', ' '] ++ ·) ∧
      fs'.get? (saveAs ++ ".svg") = some g.picture ∧ fs'.get? saveAs = none ∧
      ∀ p, p ≠ saveAs → p ≠ saveAs ++ ".svg" → fs'.get? p = fs.get? p := by
  have hpath : saveAs ++ "." ++ g.format = saveAs ++ ".svg" := by
    rw [hfmt, ← String.toList_inj]; simp
  have hne : saveAs ++ ".svg" ≠ saveAs := append_ne_self _ _ (by decide)
  have hget : (render g fs saveAs).get? (saveAs ++ ".svg") = some g.picture := by
    rw [render, hpath, PyDict.get?_set_self]
  refine ⟨(render g fs saveAs).del saveAs, addSpaces (.list ((readLines g.picture).drop 5)), by simp only [treeToSvg, hget],
    ?_, ?_, ?_, ?_⟩
  · exact addSpaces_readLines _ (isLines_drop 5 _ (readLines_isLines _))
  · rw [PyDict.get?_del, if_neg hne.symm]; exact hget
  · rw [PyDict.get?_del, if_pos rfl]
  · intro p h1 h2
    rw [PyDict.get?_del, if_neg (Ne.symm h1), render, hpath, PyDict.get?_set_ne _ _ (Ne.symm h2), PyDict.get?_set_ne _ _ (Ne.symm h1)]

/-- **C101 (violated).** For a graph of another format, `tree_to_svg` returns the picture of whatever graph was drawn to that
name earlier, without any error. -/
theorem C101_svg_of_another_graph (g : Graph) (fs : FS) (saveAs : String) (old : List Char) (hfmt : g.format ≠ "svg")
    (hold : fs.get? (saveAs ++ ".svg") = some old) :
    (treeToSvg g fs saveAs).2 = .ok (addSpaces (.list ((readLines old).drop 5))) := by
  have hpath : saveAs ++ "." ++ g.format ≠ saveAs ++ ".svg" := by
    intro h
    apply hfmt
    have := congrArg String.toList h
    simp only [String.toList_append, List.append_assoc, List.append_cancel_left_eq] at this
    rw [← String.toList_inj]
    simpa using this
  have hne : saveAs ++ ".svg" ≠ saveAs := append_ne_self _ _ (by decide)
  have hget : (render g fs saveAs).get? (saveAs ++ ".svg") = some old := by
    rw [render, PyDict.get?_set_ne _ _ hpath, PyDict.get?_set_ne _ _ hne.symm]; exact hold
  simp only [treeToSvg, hget]

/-- Without an earlier picture it is FileNotFoundError, and source and picture are left behind. -/
theorem C101_svg_missing (g : Graph) (fs : FS) (saveAs : String) (hfmt : g.format ≠ "svg")
    (hold : fs.get? (saveAs ++ ".svg") = none) :
    treeToSvg g fs saveAs = (render g fs saveAs, .error .fileNotFound) := by
  have hpath : saveAs ++ "." ++ g.format ≠ saveAs ++ ".svg" := by
    intro h
    apply hfmt
    have := congrArg String.toList h
    simp only [String.toList_append, List.append_assoc, List.append_cancel_left_eq] at this
    rw [← String.toList_inj]
    simpa using this
  have hne : saveAs ++ ".svg" ≠ saveAs := append_ne_self _ _ (by decide)
  have hget : (render g fs saveAs).get? (saveAs ++ ".svg") = none := by
    rw [render, PyDict.get?_set_ne _ _ hpath, PyDict.get?_set_ne _ _ hne.symm]; exact hold
  simp only [treeToSvg, hget]

example : (treeToSvg ⟨"pdf", ['s'], ['p']⟩ [("er.svg", ['\n', '\n', '\n', '\n', '\n', 'o', 'l', 'd'])] "er").2 =
    .ok [' ', ' ', ' ', ' ', 'o', 'l', 'd'] := by decide

/-! ### Saved code and parameters -/

/-- **C101 (code).** After `deduce`, `save_code` writes the code and leaves other files alone; if the path cannot be opened
nothing changes. -/
theorem C101_save_code_partial (canOpen : String → Bool) (fs : FS) (path : String) (code : List Char) :
    (canOpen path = true → (saveCode canOpen fs path (some code)).2 = .ok () ∧
      (saveCode canOpen fs path (some code)).1.get? path = some code ∧
      ∀ p, p ≠ path → (saveCode canOpen fs path (some code)).1.get? p = fs.get? p) ∧
    (canOpen path = false → saveCode canOpen fs path (some code) = (fs, .error .fileNotFound)) := by
  constructor
  · intro h
    have : saveCode canOpen fs path (some code) = (fs.set path code, .ok ()) := by
      simp only [saveCode, writeFile, h, if_true, writeFile.go, List.nil_append]
    rw [this]
    exact ⟨rfl, PyDict.get?_set_self _ _ _, fun p hp => PyDict.get?_set_ne _ _ hp.symm⟩
  · intro h; simp [saveCode, writeFile, h]

/-- **C101 (violated).** Before `deduce` there is no code: `save_code` raises AttributeError after it has emptied the file. -/
theorem C101_save_code_empties_file (canOpen : String → Bool) (fs : FS) (path : String) (h : canOpen path = true) :
    saveCode canOpen fs path none = (fs.set path [], .error .attributeError) := by
  simp [saveCode, writeFile, h, writeFile.go]

/-- The text `json.dumps` gives for a dictionary of numbers. -/
def dictText (d : List (List Nat × Json.J)) : List Char :=
  '{' :: [',', ' '].intercalate (d.map (fun kv => itemText (kv.1, numText kv.2))) ++ ['}']

/-- **C101 (parameters).** If the best parameters cannot be found then `dump_post_parameters` leaves all files as they were. -/
theorem C101_dump_without_fit (canOpen : String → Bool) (fs : FS) (path : String) (e : PyErr) :
    dumpPost canOpen fs path (.error e) = (fs, .error e) := rfl

/-- **C101 (parameters).** If all values are numbers, the file has the json text of all parameters in their order, and other
files are as they were. -/
theorem C101_dump_partial (canOpen : String → Bool) (fs : FS) (path : String) (h : canOpen path = true)
    (d : List (List Nat × Json.J)) (hv : ∀ kv ∈ d, IsNumber kv.2) :
    (dumpPost canOpen fs path (.ok d)).2 = .ok () ∧
    (dumpPost canOpen fs path (.ok d)).1.get? path = some (dictText d) ∧
    ∀ p, p ≠ path → (dumpPost canOpen fs path (.ok d)).1.get? p = fs.get? p := by
  suffices hmain : dumpPost canOpen fs path (.ok d) = (fs.set path (dictText d), .ok ()) by
    rw [hmain]
    exact ⟨rfl, PyDict.get?_set_self _ _ _, fun p hp => PyDict.get?_set_ne _ _ hp.symm⟩
  cases d with
  | nil => simp [dumpPost, dictPieces, writeFile, h, writeFile.go, dictText, List.intercalate]
  | cons kv d' =>
    obtain ⟨ps, h1, h2⟩ := itemPieces_append [] (kv :: d') hv true
    rw [List.append_nil] at h1
    have h3 : dictPieces (kv :: d') = (['{'] :: ps ++ [['}']]).map .ok := by
      rw [dictPieces, h1] <;> simp [itemPieces]
    simp only [dumpPost, writeFile, h, if_true, h3, go_ok, dictText]
    rw [bodyText_true, List.map_map] at h2
    simp only [List.nil_append, List.cons_append, List.flatten_cons, List.flatten_append, h2, List.flatten_nil, List.append_nil,
      List.singleton_append]
    rfl

/-- **C101 (violated).** If a value is not one json can write (an array, say), `dump_post_parameters` raises TypeError and
leaves the file with the beginning of the text, up to this value: what was in the file is lost. -/
theorem C101_dump_half_written (canOpen : String → Bool) (fs : FS) (path : String) (h : canOpen path = true)
    (d rest : List (List Nat × Json.J)) (k : List Nat) (j : Json.J) (hv : ∀ kv ∈ d, IsNumber kv.2) (hj : ¬ IsNumber j) :
    ∃ t, dumpPost canOpen fs path (.ok (d ++ (k, j) :: rest)) = (fs.set path ('{' :: t ++ Json.quote k ++ [':', ' ']), .error .typeError) ∧
      t = ((d.map (fun kv => itemText (kv.1, numText kv.2) ++ [',', ' ']))).flatten := by
  obtain ⟨ps, h1, h2⟩ := itemPieces_append ((k, j) :: rest) d hv true
  have hne : dictPieces (d ++ (k, j) :: rest) = .ok ['{'] :: itemPieces true (d ++ (k, j) :: rest) := by
    cases d <;> rfl
  have hb : ∀ (e : List (List Nat × List Char)), bodyText true e ++ (if e.isEmpty then [] else [',', ' ']) =
      (e.map (fun kv => itemText kv ++ [',', ' '])).flatten := by
    have hf : ∀ (e : List (List Nat × List Char)), bodyText false e ++ [',', ' '] =
        [',', ' '] ++ (e.map (fun kv => itemText kv ++ [',', ' '])).flatten := by
      intro e
      induction e with
      | nil => rfl
      | cons kv e ih => simp only [bodyText, List.append_assoc, ih]; simp
    intro e
    cases e with
    | nil => rfl
    | cons kv e => simp only [bodyText, List.isEmpty_cons, if_true, List.nil_append, Bool.false_eq_true, if_false, List.append_assoc, hf]; simp
  refine ⟨_, ?_, rfl⟩
  have h3 : dictPieces (d ++ (k, j) :: rest) =
      (['{'] :: ps ++ ((if d.isEmpty then [] else [[',', ' ']]) ++ [Json.quote k, [':', ' ']])).map .ok ++
        .error .typeError :: itemPieces false rest := by
    rw [hne, h1, itemPieces, scalarText_of_not hj]
    cases d <;> simp
  simp only [dumpPost, writeFile, h, if_true, h3, go_error]
  have h4 := hb (d.map (fun kv => (kv.1, numText kv.2)))
  rw [← h2, List.map_map] at h4
  simp only [Function.comp_def] at h4
  rw [← h4]
  cases d <;> simp

example : dumpPost (fun _ => true) [("fit.json", ['o', 'l', 'd'])] "fit.json"
      (.ok [([103], .float ⟨false, [0], some [1], none⟩), ([119], .int 3)]) =
    ([("fit.json", ['{', '"', 'g', '"', ':', ' ', '0', '.', '1', ',', ' ', '"', 'w', '"', ':', ' ', '3', '}'])], .ok ()) := by
  decide +kernel
example : dumpPost (fun _ => true) [("fit.json", ['o', 'l', 'd'])] "fit.json" (.ok [([103], .int 3), ([119], .object)]) =
    ([("fit.json", ['{', '"', 'g', '"', ':', ' ', '3', ',', ' ', '"', 'w', '"', ':', ' '])], .error .typeError) := by
  decide +kernel

/-! ### Plots -/

/-- Where a plot is saved. -/
def plotPath (dir name f : String) : String := dir ++ "/" ++ name ++ "." ++ f

theorem plotPath_inj (dir : String) {n n' : String} (hn : '.' ∉ n.toList) (hn' : '.' ∉ n'.toList) {f f' : String}
    (h : plotPath dir n f = plotPath dir n' f') : n = n' ∧ f = f' := by
  have h := congrArg String.toList h
  simp only [plotPath, String.toList_append, List.append_assoc, List.append_cancel_left_eq] at h
  have key : ∀ (a b x y : List Char), '.' ∉ a → '.' ∉ b → a ++ '.' :: x = b ++ '.' :: y → a = b ∧ x = y := by
    intro a
    induction a with
    | nil =>
      intro b x y _ hb h
      cases b with
      | nil => simpa using h
      | cons c b => simp only [List.nil_append, List.cons_append, List.cons.injEq] at h
                    exact absurd (List.mem_cons.2 (Or.inl h.1)) hb
    | cons c a ih =>
      intro b x y ha hb h
      cases b with
      | nil => simp only [List.nil_append, List.cons_append, List.cons.injEq] at h
               exact absurd (by simp [h.1]) ha
      | cons c' b =>
        simp only [List.cons_append, List.cons.injEq] at h
        obtain ⟨h1, h2⟩ := ih b x y (fun e => ha (by simp [e])) (fun e => hb (by simp [e])) h.2
        exact ⟨by rw [h.1, h1], h2⟩
  obtain ⟨h1, h2⟩ := key _ _ _ _ hn hn' (by simpa using h)
  exact ⟨String.toList_inj.1 h1, String.toList_inj.1 h2⟩

theorem saveFig_ok (canSave : String → Bool) (dir name : String) (fig : List Char) (hn : '.' ∉ name.toList) :
    ∀ (l : List String) (fs : FS), (∀ f ∈ l, canSave (plotPath dir name f) = true) →
      ∃ fs', saveFig canSave dir name fig l fs = (fs', .ok ()) ∧ (∀ f ∈ l, fs'.get? (plotPath dir name f) = some fig) ∧
        ∀ p, (∀ f ∈ l, p ≠ plotPath dir name f) → fs'.get? p = fs.get? p
  | [], fs, _ => ⟨fs, rfl, by simp, fun _ _ => rfl⟩
  | f :: l, fs, h => by
    obtain ⟨fs', h1, h2, h3⟩ := saveFig_ok canSave dir name fig hn l (fs.set (plotPath dir name f) fig)
      (fun x hx => h x (by simp [hx]))
    refine ⟨fs', ?_, ?_, ?_⟩
    · rw [saveFig]
      have := h f (by simp)
      unfold plotPath at this
      rw [if_pos this]; exact h1
    · intro x hx
      by_cases hxl : x ∈ l
      · exact h2 x hxl
      · have hxf : x = f := by simpa [hxl] using hx
        subst hxf
        rw [h3 _ (fun y hy e => hxl (by rw [(plotPath_inj dir hn hn e).2]; exact hy)), PyDict.get?_set_self]
    · intro p hp
      rw [h3 p (fun x hx => hp x (by simp [hx])), PyDict.get?_set_ne _ _ (Ne.symm (hp f (by simp)))]

theorem plotLoop_ok (canSave : String → Bool) (make : String → Res (List Char)) (dir : String) (fmt : Fmt) (figs : String → List Char) :
    ∀ (ns : List String) (fs : FS), ns.Nodup → (∀ n ∈ ns, '.' ∉ n.toList) → (∀ n ∈ ns, make n = .ok (figs n)) →
      (∀ n ∈ ns, ∀ f ∈ fmt.formats, canSave (plotPath dir n f) = true) → ∀ (rest : List String),
      ∃ fs', plotLoop canSave make true dir fmt (ns ++ rest) fs = plotLoop canSave make true dir fmt rest fs' ∧
        (∀ n ∈ ns, ∀ f ∈ fmt.formats, fs'.get? (plotPath dir n f) = some (figs n)) ∧
        ∀ p, (∀ n ∈ ns, ∀ f ∈ fmt.formats, p ≠ plotPath dir n f) → fs'.get? p = fs.get? p
  | [], fs, _, _, _, _, rest => ⟨fs, rfl, by simp, fun _ _ => rfl⟩
  | n :: ns, fs, hnd, hdot, hmake, hsave, rest => by
    obtain ⟨fs1, e1, e2, e3⟩ := saveFig_ok canSave dir n (figs n) (hdot n (by simp)) fmt.formats fs (hsave n (by simp))
    obtain ⟨fs', h1, h2, h3⟩ := plotLoop_ok canSave make dir fmt figs ns fs1 (List.nodup_cons.1 hnd).2
      (fun x hx => hdot x (by simp [hx])) (fun x hx => hmake x (by simp [hx])) (fun x hx => hsave x (by simp [hx])) rest
    refine ⟨fs', ?_, ?_, ?_⟩
    · rw [List.cons_append, plotLoop, hmake n (by simp)]
      simp only [if_true, e1]; exact h1
    · intro x hx f hf
      by_cases hxs : x ∈ ns
      · exact h2 x hxs f hf
      · have hxn : x = n := by simpa [hxs] using hx
        subst hxn
        rw [h3 _ (fun y hy f' _ e => hxs ((plotPath_inj dir (hdot x (by simp)) (hdot y (by simp [hy])) e).1 ▸ hy)), e2 f hf]
    · intro p hp
      rw [h3 p (fun x hx => hp x (by simp [hx])), e3 p (hp n (by simp))]

/-- **C101 (plots).** If all plots can be made and saved, `make_all_plots(save=True)` leaves each of the five figures under its
own name in each format, whatever the formats, and all other files as they were. -/
theorem C101_plots_saved (canSave : String → Bool) (make : String → Res (List Char)) (dir : String) (fmt : Fmt) (fs : FS)
    (figs : String → List Char) (hm : ∀ n ∈ plotNames, make n = .ok (figs n))
    (hs : ∀ n ∈ plotNames, ∀ f ∈ fmt.formats, canSave (dir ++ "/" ++ n ++ "." ++ f) = true) :
    ∃ fs', makeAllPlots canSave make true dir fmt fs = (fs', .ok ()) ∧
      (∀ n ∈ plotNames, ∀ f ∈ fmt.formats, fs'.get? (dir ++ "/" ++ n ++ "." ++ f) = some (figs n)) ∧
      ∀ p, (∀ n ∈ plotNames, ∀ f ∈ fmt.formats, p ≠ dir ++ "/" ++ n ++ "." ++ f) → fs'.get? p = fs.get? p := by
  obtain ⟨fs', h1, h2, h3⟩ := plotLoop_ok canSave make dir fmt figs plotNames fs (by decide) (by decide) hm hs []
  refine ⟨fs', ?_, h2, h3⟩
  rw [makeAllPlots]
  rw [List.append_nil] at h1
  rw [h1, plotLoop]

/-- **C101 (plots).** If a plot cannot be made then the error is its own; the plots before it have been saved, and no file of it
or of a later plot has been touched. -/
theorem C101_plots_stop (canSave : String → Bool) (make : String → Res (List Char)) (dir : String) (fmt : Fmt) (fs : FS)
    (figs : String → List Char) (done rest : List String) (n : String) (e : PyErr) (hsplit : plotNames = done ++ n :: rest)
    (hm : ∀ x ∈ done, make x = .ok (figs x)) (hn : make n = .error e)
    (hs : ∀ x ∈ done, ∀ f ∈ fmt.formats, canSave (dir ++ "/" ++ x ++ "." ++ f) = true) :
    ∃ fs', makeAllPlots canSave make true dir fmt fs = (fs', .error e) ∧
      (∀ x ∈ done, ∀ f ∈ fmt.formats, fs'.get? (dir ++ "/" ++ x ++ "." ++ f) = some (figs x)) ∧
      ∀ p, (∀ x ∈ done, ∀ f ∈ fmt.formats, p ≠ dir ++ "/" ++ x ++ "." ++ f) → fs'.get? p = fs.get? p := by
  have hnd : (done ++ n :: rest).Nodup := hsplit ▸ (by decide : plotNames.Nodup)
  have hdot : ∀ x ∈ done, '.' ∉ x.toList := by
    intro x hx
    have : x ∈ plotNames := by rw [hsplit]; simp [hx]
    have hall : ∀ y ∈ plotNames, '.' ∉ y.toList := by decide
    exact hall x this
  obtain ⟨fs', h1, h2, h3⟩ := plotLoop_ok canSave make dir fmt figs done fs (List.nodup_append.1 hnd).1 hdot hm hs (n :: rest)
  refine ⟨fs', ?_, h2, h3⟩
  rw [makeAllPlots, hsplit, h1, plotLoop, hn]

theorem saveFig_refused (canSave : String → Bool) (dir name : String) (fig : List Char) (f : String) (post : List String)
    (hf : canSave (plotPath dir name f) = false) :
    ∀ (pre : List String) (fs fs' : FS), (∀ g ∈ pre, canSave (plotPath dir name g) = true) →
      saveFig canSave dir name fig pre fs = (fs', .ok ()) →
      saveFig canSave dir name fig (pre ++ f :: post) fs = (fs', .error .valueError)
  | [], fs, fs', _, h => by
    rw [saveFig] at h
    cases h
    unfold plotPath at hf
    rw [List.nil_append, saveFig, if_neg (by simp [hf])]
  | g :: pre, fs, fs', hp, h => by
    have hg := hp g (by simp)
    unfold plotPath at hg
    rw [saveFig, if_pos hg] at h
    rw [List.cons_append, saveFig, if_pos hg]
    exact saveFig_refused canSave dir name fig f post hf pre _ fs' (fun x hx => hp x (by simp [hx])) h

/-- **C101 (plots).** If a plot cannot be saved in one of the formats then that is a ValueError; the plots before it have been saved in all
formats and it has been saved in the formats before this one.  No other file has been touched. -/
theorem C101_plots_refused (canSave : String → Bool) (make : String → Res (List Char)) (dir : String) (fmt : Fmt) (fs : FS)
    (figs : String → List Char) (done rest : List String) (n : String) (pre post : List String) (f : String)
    (hsplit : plotNames = done ++ n :: rest) (hfmt : fmt.formats = pre ++ f :: post)
    (hm : ∀ x ∈ done ++ [n], make x = .ok (figs x))
    (hs : ∀ x ∈ done, ∀ g ∈ fmt.formats, canSave (dir ++ "/" ++ x ++ "." ++ g) = true)
    (hp : ∀ g ∈ pre, canSave (dir ++ "/" ++ n ++ "." ++ g) = true) (hf : canSave (dir ++ "/" ++ n ++ "." ++ f) = false) :
    ∃ fs', makeAllPlots canSave make true dir fmt fs = (fs', .error .valueError) ∧
      (∀ x ∈ done, ∀ g ∈ fmt.formats, fs'.get? (dir ++ "/" ++ x ++ "." ++ g) = some (figs x)) ∧
      (∀ g ∈ pre, fs'.get? (dir ++ "/" ++ n ++ "." ++ g) = some (figs n)) ∧
      ∀ p, (∀ x ∈ done, ∀ g ∈ fmt.formats, p ≠ dir ++ "/" ++ x ++ "." ++ g) → (∀ g ∈ pre, p ≠ dir ++ "/" ++ n ++ "." ++ g) →
        fs'.get? p = fs.get? p := by
  have hnd : (done ++ n :: rest).Nodup := hsplit ▸ (by decide : plotNames.Nodup)
  have hall : ∀ y ∈ plotNames, '.' ∉ y.toList := by decide
  have hdot : ∀ x ∈ done, '.' ∉ x.toList := fun x hx => hall x (by rw [hsplit]; simp [hx])
  have hndot : '.' ∉ n.toList := hall n (by rw [hsplit]; simp)
  obtain ⟨fs1, h1, h2, h3⟩ := plotLoop_ok canSave make dir fmt figs done fs (List.nodup_append.1 hnd).1 hdot
    (fun x hx => hm x (by simp [hx])) hs (n :: rest)
  obtain ⟨fs', e1, e2, e3⟩ := saveFig_ok canSave dir n (figs n) hndot pre fs1 hp
  refine ⟨fs', ?_, ?_, e2, ?_⟩
  · rw [makeAllPlots, hsplit, h1, plotLoop, hm n (by simp), hfmt]
    simp only [if_true]
    rw [saveFig_refused canSave dir n (figs n) f post hf pre fs1 fs' hp e1]
  · intro x hx g hg
    rw [← h2 x hx g hg]
    refine e3 _ ?_
    intro g' _ he
    have := (plotPath_inj dir (hdot x hx) hndot he).1
    subst this
    exact (List.nodup_append.1 hnd).2.2 x hx x (by simp) rfl
  · intro p hp1 hp2
    rw [e3 p hp2, h3 p hp1]

/-- Formats that matplotlib does not know: the second plot is not tried. -/
example : makeAllPlots (fun p => p.endsWith "png") (fun n => .ok n.toList) true "." (.many ["png", "xyz"]) [] =
    ([("./burn_in.png", "burn_in".toList)], .error .valueError) := by decide +kernel

/-- **C101 (plots).** Without `save`, no file is touched, whatever happens. -/
theorem C101_plots_not_saved (canSave : String → Bool) (make : String → Res (List Char)) (dir : String) (fmt : Fmt) (fs : FS) :
    (makeAllPlots canSave make false dir fmt fs).1 = fs := by
  rw [makeAllPlots]
  generalize plotNames = ns
  induction ns with
  | nil => rfl
  | cons n ns ih =>
    rw [plotLoop]
    cases make n with
    | error e => rfl
    | ok fig => simpa using ih

example : (makeAllPlots (fun _ => true) (fun n => .ok n.toList) true "." (.many ["png", "pdf"]) []).1.keys =
    ["./burn_in.png", "./burn_in.pdf", "./marginal_posterior.png", "./marginal_posterior.pdf", "./corner.png", "./corner.pdf",
      "./autocorr.png", "./autocorr.pdf", "./acceptance_fraction.png", "./acceptance_fraction.pdf"] := by decide +kernel

/-! ### Timing -/

section
variable {A S V : Type}

/-- A function that only adds to what has been printed. -/
def Appends (f : Fn A S V) (run : A → S → (S × List String) × Res V) : Prop :=
  ∀ a s out, f.call a (s, out) = (((run a s).1.1, out ++ (run a s).1.2), (run a s).2)

/-- **C102.** A timed function has the same result or error and the same effect as the function; it prints a line before what
the function prints, and a line after it exactly if the function returns. -/
theorem C102_timed_is_the_function (indent cost : String) (f : Fn A S V) (run : A → S → (S × List String) × Res V) (hf : Appends f run) :
    Appends (timed indent cost f) (fun a s => (((run a s).1.1, [indent ++ " Function <" ++ f.name ++ "> starts."] ++ (run a s).1.2 ++
      (match (run a s).2 with
        | .ok _ => [indent ++ " Function <" ++ f.name ++ "> ends! Time cost = " ++ cost ++ " msec."]
        | .error _ => [])), (run a s).2)) := by
  intro a s out
  simp only [timed]
  rw [hf]
  cases h : (run a s).2 with
  | ok v => simp
  | error e => simp

/-- **C102.** `@timeit` and `@timeit()` do the same, and `@timeit("...")` indents the two lines. -/
theorem C102_forms (cost indent : String) (f : Fn A S V) :
    timeit cost (.fn f) f = timeit cost (.str "") f ∧ timeit cost (.str indent) f = timed indent cost f := ⟨rfl, rfl⟩

/-- **C102 (violated).** The timed function does not keep the name and the arguments of the function: timing it again
prints the name `_func`, -/
theorem C102_name_lost (cost : String) (f : Fn A S V) : (timeit cost (.fn f) f).name = "_func" ∧ (timeit cost (.fn f) f).args = [] :=
  ⟨rfl, rfl⟩

/-- **C102 (violated).** and a plugin whose `simulate` is timed cannot be made, because its arguments are not found: IndexError
(plugin.py 78-79). -/
theorem C102_timed_simulate_refused (cost : String) (f : Fn A S V) (c : Declare.Cls) (hc : c.args = (timeit cost (.fn f) f).args) :
    Declare.sanityCheck c = .error .indexError := by
  have : c.args = [] := hc
  simp [Declare.sanityCheck, Declare.argument, this, bind, Except.bind]

/-- A function that prints and fails for zero. -/
def inverse : Fn Nat Nat Nat where
  name := "inverse"
  args := ["n"]
  call := fun n w => if n = 0 then ((w.1, w.2 ++ ["no"]), .error .zeroDivision) else ((w.1 + 1, w.2 ++ ["yes"]), .ok (12 / n))

example : (timed "" "0.01" inverse).call 3 (0, []) =
    ((1, [" Function <inverse> starts.", "yes", " Function <inverse> ends! Time cost = 0.01 msec."]), .ok 4) := by decide
example : (timed "" "0.01" inverse).call 0 (0, []) = ((0, [" Function <inverse> starts.", "no"]), .error .zeroDivision) := by decide

end
end Verif.Files
