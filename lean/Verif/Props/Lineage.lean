/-
C81: what the lineage of a component or a likelihood identifies, and what it does not.
-/
import Verif.Lemmas.Lineage
import Verif.Model.Config
import Verif.Model.CompHist
import Mathlib.Tactic.NormNum
import Mathlib.Data.Rat.Encodable
import Mathlib.Logic.Equiv.List
import Mathlib.Data.Nat.Pairing

namespace Verif.Lineage
open Verif

section
variable {C : Type}

/-- **C81 (hash).** The hash of a component and the text written for it do not depend on the order in which python walks the
set of plugin instances, so they are the same in every process. -/
theorem C81_hash_ignores_set_order {D : Type} (digest : Val → D) (json : Val → String) (e : Env C)
    (cached : PyDict String (Inst C)) (c : Sim) (hn : c.instances.Nodup) (l : List String) (hl : c.instances.Perm l) (v : Val)
    (h : simLineage e cached c = .ok v) :
    ∃ v', simLineage e cached { c with instances := l } = .ok v' ∧ hash digest v' = hash digest v ∧ json (sorted v') = json (sorted v) := by
  obtain ⟨code, is, a1, a2, rfl⟩ := sim_ok h
  obtain ⟨is', b1, b2⟩ := instances_perm hl a2
  have hk : (is.map Prod.fst).Nodup := by rw [(instancesLineage_spec a2).1]; exact hn
  refine ⟨.dict ([("rate_name", .str c.rateName), ("norm_type", .str c.normType), ("code", .str code), ("instances", .dict is')] ++
    binsItems c.bins), ?_, ?_, ?_⟩
  · simp only [simLineage, bind, Except.bind, pure, Except.pure] at h ⊢
    cases hb : binsDict c.bins with
    | error er => rw [hb] at h; simp at h
    | ok b =>
      rw [hb, a1] at h
      simp only [a2, Except.ok.injEq, Val.dict.injEq, List.append_cancel_left_eq] at h
      simp only [a1, b1, h]
  · unfold hash
    congr 1
    have := canon_dict_perm hk b2
    simp only [canon] at this
    simp only [canon, canonItems, List.cons_append, List.nil_append, this]
  · congr 1
    have := sorted_dict_perm hk b2
    simp only [sorted] at this
    simp only [sorted, sortedItems, List.cons_append, List.nil_append, this]

/-- **C81 (identification, part).** Two compiled components with the same hash run the same code with the same bins,
normalisation and plugin declarations on the same configuration values and the same contents of map files, also on different
machines.  Left out are the floor of the histogram and the parameter that scales a map (see the negations below), and the
bodies of the plugins; the configurations are those of the last build of each plugin class (C27).  The hash and the checksum are taken to have no collisions, and files not to change after they are
read. -/
theorem C81_component_identified_partial {D : Type} (digest : Val → D) (hd : Function.Injective digest) (e e' : Env C)
    (hs : e.sha = e'.sha) (hi : Function.Injective e.sha) (cached cached' : PyDict String (Inst C)) (c c' : Sim)
    (ho : SimOk e cached c) (ho' : SimOk e' cached' c') (v v' : Val) (h : simLineage e cached c = .ok v)
    (h' : simLineage e' cached' c' = .ok v') (hh : hash digest v = hash digest v') : SameSim cached cached' c c' :=
  sim_ident hs hi ho ho' h h' (hd hh)

/-- **C81 (likelihoods, part).** Two likelihoods with the same hash have the same plain settings, the same data and components
that agree pairwise. -/
theorem C81_likelihood_identified_partial (digest : Val → String) (hd : Function.Injective digest) (e e' : Env C)
    (hs : e.sha = e'.sha) (hi : Function.Injective e.sha) (cached cached' : PyDict String (Inst C)) (l l' : Llh)
    (d d' : List (String × Val)) (hl : l.config = .dict d) (hl' : l'.config = .dict d') (hn : (d.map Prod.fst).Nodup)
    (hk : (l.components.map Prod.fst).Nodup) (ho : ∀ k c, (k, c) ∈ l.components → CompOk e cached c)
    (ho' : ∀ k c, (k, c) ∈ l'.components → CompOk e' cached' c) (v v' : Val)
    (h : llhLineage e digest cached l = .ok v) (h' : llhLineage e' digest cached' l' = .ok v')
    (hh : hash digest v = hash digest v') : SameLlh e e' cached cached' l l' d d' :=
  llh_ident hs hi hd hl hl' hn hk ho ho' h h' (hd hh)

/-- **C81 (contexts, part).** Two contexts with the same hash have the same parameters with the same settings, the same
instructions, and the same likelihoods, which agree pairwise. -/
theorem C81_context_identified_partial (digest : Val → String) (hd : Function.Injective digest) (e e' : Env C)
    (hs : e.sha = e'.sha) (hi : Function.Injective e.sha) (cached cached' : PyDict String (PyDict String (Inst C)))
    (instruct instruct' : PyDict String Val) (par par' : Val) (llhs llhs' : List (String × Llh))
    (cfg cfg' : String → List (String × Val)) (hk : instruct.keys.Nodup) (hp : Setting par) (hp' : Setting par')
    (hn : (llhs.map Prod.fst).Nodup) (ho : ∀ k l, (k, l) ∈ llhs → LlhOk e ((cached.get? k).getD []) l (cfg k))
    (ho' : ∀ k l, (k, l) ∈ llhs' → LlhOk e' ((cached'.get? k).getD []) l (cfg' k)) (v v' : Val)
    (h : contextLineage e digest cached instruct par llhs = .ok v)
    (h' : contextLineage e' digest cached' instruct' par' llhs' = .ok v') (hh : hash digest v = hash digest v') :
    SameContext e e' cached cached' instruct instruct' par par' llhs llhs' cfg cfg' :=
  context_ident hs hi hd hk hp hp' hn ho ho' h h' (hd hh)

/-- **C81 (negation: floor).** Components that differ in `add_eps_to_hist` have the same lineage, yet their templates differ. -/
theorem C81_floor_missing :
    (∀ (e : Env C) (cached : PyDict String (Inst C)) (c : Sim) (b : Bool),
      simLineage e cached { c with addEps := b } = simLineage e cached c) ∧
    Verif.Comp.simulateHist (F := ℚ) ⟨.irreg1 [0, 10, 20], "on_sim", true, .simulated, 0⟩ false [[5, 6, 7], [1 / 2, 1 / 2, 1 / 2]] 1 1 =
      .ok [[3 / 2, 1 / 2 + 1 / 10000000000]] ∧
    Verif.Comp.simulateHist (F := ℚ) ⟨.irreg1 [0, 10, 20], "on_sim", false, .simulated, 0⟩ false [[5, 6, 7], [1 / 2, 1 / 2, 1 / 2]] 1 1 =
      .ok [[3 / 2, 0]] :=
  ⟨fun _ _ _ _ => rfl, by decide +kernel, by decide +kernel⟩

/-- The parameters that scale the maps replaced. -/
def Conf.rescale (f : Option String → Option String) : Conf C → Conf C
  | .sigma n me m l u s => .sigma n me m l u (f s)
  | c => c

def Inst.rescale (f : Option String → Option String) (p : Inst C) : Inst C :=
  { p with configs := p.configs.map (fun x => (x.1, x.2.rescale f)) }

theorem confs_rescale (e : Env C) (f : Option String → Option String) (l : List (String × Conf C)) :
    confsLineage e (l.map (fun x => (x.1, x.2.rescale f))) = confsLineage e l := by
  induction l with
  | nil => rfl
  | cons x l ih =>
    obtain ⟨k, c⟩ := x
    have : confLineage e (c.rescale f) = confLineage e c := by cases c <;> rfl
    simp only [List.map_cons, confsLineage, this, ih]

theorem instances_rescale (e : Env C) (f : Option String → Option String) (cached : PyDict String (Inst C)) (l : List String) :
    instancesLineage e (cached.map (fun x => (x.1, x.2.rescale f))) l = instancesLineage e cached l := by
  induction l with
  | nil => rfl
  | cons n l ih =>
    have hp : PyDict.getItem (cached.map (fun x => (x.1, x.2.rescale f))) n = (PyDict.getItem cached n).map (Inst.rescale f) := by
      unfold PyDict.getItem
      rw [get?_map_snd]
      cases PyDict.get? cached n <;> rfl
    have hi : ∀ p : Inst C, instLineage e (p.rescale f) = instLineage e p := by
      intro p
      simp only [instLineage, Inst.rescale, confs_rescale]
    simp only [instancesLineage, hp, ih]
    cases PyDict.getItem cached n with
    | error er => rfl
    | ok p => simp only [Except.map, bind, Except.bind, hi]

/-- **C81 (negation: scaler).** Whichever parameters scale the maps with uncertainty, the lineage is the same, yet the values of
the map differ. -/
theorem C81_scaler_missing :
    (∀ (e : Env C) (cached : PyDict String (Inst C)) (c : Sim) (f : Option String → Option String),
      simLineage e (cached.map (fun x => (x.1, x.2.rescale f))) c = simLineage e cached c) ∧
    (let q : PyDict String ℚ := [("g1_sigma", 0), ("g2_sigma", 1)]
     Verif.Conf.sigmaApply (F := ℚ) 1 0 2 (q.get? "g1_sigma") = 1 ∧ Verif.Conf.sigmaApply (F := ℚ) 1 0 2 (q.get? "g2_sigma") = 2) := by
  refine ⟨fun e cached c f => ?_, by decide +kernel⟩
  simp only [simLineage, instances_rescale]

/-- **C81 (negation: files).** The lineage of a map describes the file as it is when the lineage is asked for, not the content
the map was built from: a map built before the file was changed and one built afterwards have the same lineage. -/
theorem C81_files_read_again (e : Env C) (m : BuiltMap C) (c : C) :
    confLineage e (.map m) = confLineage e (.map { m with content := c }) ∧
    (∀ now, e.read m.path = some now → confLineage e (.map m) = .ok (.dict [("llh_name", .null), ("method", .str m.method),
      ("file_path", .str (e.base m.path)), ("sha256", .str (e.sha now))])) := by
  refine ⟨rfl, fun now h => ?_⟩
  simp only [confLineage, mapLineage, Env.checksum, h, bind, Except.bind, pure, Except.pure]

/-- **C81 (dump).** The lineage of a component is written to a file exactly if no plugin takes a set of constants; otherwise
TypeError is raised and the file, which may have held an earlier lineage, is left empty. -/
theorem C81_dump (json : Val → String) (e : Env C) (cached : PyDict String (Inst C)) (c : Sim) (ho : SimOk e cached c) (v : Val)
    (h : simLineage e cached c = .ok v) :
    ((∀ n ∈ c.instances, ∀ p, cached.get? n = some p → ∀ k x, (k, x) ∈ p.configs → ¬ x.IsSet) →
      dumpLineage json (simLineage e cached c) = (json (sorted v), .ok ())) ∧
    ((∃ n ∈ c.instances, ∃ p, cached.get? n = some p ∧ ∃ k x, (k, x) ∈ p.configs ∧ x.IsSet) →
      dumpLineage json (simLineage e cached c) = ("", .error .typeError)) := by
  have hw := sim_writable ho h
  rw [h]
  constructor
  · intro hall
    simp only [dumpLineage, hw.2 hall, if_true]
  · rintro ⟨n, hn, p, hp, k, x, hx, hset⟩
    have : writable v = false := by
      rw [Bool.eq_false_iff]
      exact fun hv => hw.1 hv n hn p hp k x hx hset
    simp only [dumpLineage, this]
    rfl

/-- **C81 (errors).** A component that was not deduced, whose code was not run, or that has bins given as lists has no lineage,
and dumping it leaves an empty file. -/
theorem C81_errors (json : Val → String) (e : Env C) (cached : PyDict String (Inst C)) (c : Sim)
    (h : c.code = none ∨ (∃ n ∈ c.instances, cached.get? n = none) ∨ ∃ b t l, c.bins = some (some b, t) ∧ Edges.list l ∈ b) :
    ∃ er, simLineage e cached c = .error er ∧ dumpLineage json (simLineage e cached c) = ("", .error er) := by
  cases hv : simLineage e cached c with
  | error er => exact ⟨er, rfl, rfl⟩
  | ok v =>
    exfalso
    obtain ⟨code, is, a1, a2, _⟩ := sim_ok hv
    rcases h with h | ⟨n, hn, hp⟩ | ⟨b, t, l, hb, hl⟩
    · rw [h] at a1; simp at a1
    · obtain ⟨p, w, x1, _⟩ := (instancesLineage_spec a2).2 n hn
      rw [hp] at x1; simp at x1
    · have he : ∀ b : List Edges, Edges.list l ∈ b → ∀ vs, edgesLists b ≠ .ok vs := by
        intro b
        induction b with
        | nil => simp
        | cons x b ih =>
          intro hm vs hvs
          cases x with
          | list _ => simp [edgesLists] at hvs
          | array l' =>
            simp only [List.mem_cons, reduceCtorEq, false_or] at hm
            simp only [edgesLists, bind, Except.bind, pure, Except.pure] at hvs
            split at hvs
            · exact absurd hvs (by simp)
            · rename_i ws hws
              exact ih hm ws hws
      simp only [simLineage, hb, binsDict, binsVal, bind, Except.bind, pure, Except.pure] at hv
      cases hx : edgesLists b with
      | ok vs => exact he b hl vs hx
      | error er => rw [hx] at hv; simp at hv

/-- **C81 (literature).** The lineage of a literature constraint contains its components by hash, so it can be written even if
they take sets of constants. -/
theorem C81_literature_dump (json : Val → String) (digest : Val → String) (e : Env C) (cached : PyDict String (Inst C)) (l : Llh)
    (hf : l.file = none) (hw : writable l.config = true) (v : Val) (h : llhLineage e digest cached l = .ok v) :
    dumpLineage json (llhLineage e digest cached l) = (json (sorted v), .ok ()) := by
  rw [h]
  have : writable v = true := by
    unfold llhLineage at h
    rw [hf] at h
    simp only [bind, Except.bind, pure, Except.pure] at h
    split at h
    · exact absurd h (by simp)
    · cases h
      simp only [writable, writableItems, hw, Bool.true_and, Bool.and_true, writableItems_iff, List.mem_map]
      rintro x ⟨y, _, rfl⟩
      rfl
  simp only [dumpLineage, this, if_true]

end

/-! ### Concrete cases -/

/-- Two files; the checksum is the content itself. -/
def exEnv : Env String := ⟨fun p => if p = "/maps/a.json" then some "A" else if p = "/maps/b.json" then some "B" else none,
  id, fun p => (p.drop 6).toString⟩

def exMap : BuiltMap String := ⟨"IDW", "/maps/a.json", "A"⟩
def exMap2 : BuiltMap String := ⟨"IDW", "/maps/b.json", "B"⟩

def exCached : PyDict String (Inst String) :=
  [("S1_er", ⟨"S1", ["energy"], ["cs1"], ["g1"], [("threshold", .constant (.num 3)),
      ("curve", .sigma "llh" "IDW" exMap exMap exMap2 (some "t_sigma"))]⟩),
    ("Eff_er", ⟨"Eff", ["cs1"], ["eff"], [], [("map", .map exMap2)]⟩)]

def exSim : Sim := ⟨"er_rate", "on_pdf", true, some (some [.array [0, 1, 2]], some "irreg"), some "code", ["S1_er", "Eff_er"]⟩

/-- The same component, its efficiency map taken from the other file. -/
def exCached2 : PyDict String (Inst String) := exCached.set "Eff_er" ⟨"Eff", ["cs1"], ["eff"], [], [("map", .map exMap)]⟩

theorem exInst : InstOk exEnv ⟨"S1", ["energy"], ["cs1"], ["g1"], [("threshold", .constant (.num 3)),
      ("curve", .sigma "llh" "IDW" exMap exMap exMap2 (some "t_sigma"))]⟩ := by
  refine ⟨by decide, ?_, ?_⟩
  · intro k c h
    simp only [List.mem_cons, List.not_mem_nil, or_false, Prod.mk.injEq] at h
    rcases h with ⟨_, rfl⟩ | ⟨_, rfl⟩ <;> simp [ConfOk, Plain]
  · intro k c h
    simp only [List.mem_cons, List.not_mem_nil, or_false, Prod.mk.injEq] at h
    rcases h with ⟨_, rfl⟩ | ⟨_, rfl⟩
    · simp [Conf.maps]
    · simp [Conf.maps, exMap, exMap2, exEnv]

theorem exEff (m : BuiltMap String) (hm : exEnv.read m.path = some m.content) :
    InstOk exEnv ⟨"Eff", ["cs1"], ["eff"], [], [("map", .map m)]⟩ := by
  refine ⟨by simp, ?_, ?_⟩
  · intro k c h
    simp only [List.mem_cons, List.not_mem_nil, or_false, Prod.mk.injEq] at h
    obtain ⟨_, rfl⟩ := h
    simp [ConfOk]
  · intro k c h
    simp only [List.mem_cons, List.not_mem_nil, or_false, Prod.mk.injEq] at h
    obtain ⟨_, rfl⟩ := h
    simpa [Conf.maps] using hm

theorem exSimOk : SimOk exEnv exCached exSim where
  once := by decide
  insts := by
    intro n hn p hp
    simp only [exSim, List.mem_cons, List.not_mem_nil, or_false] at hn
    rcases hn with rfl | rfl
    · cases hp
      exact exInst
    · cases hp
      exact exEff exMap2 rfl

theorem exSimOk2 : SimOk exEnv exCached2 exSim where
  once := by decide
  insts := by
    intro n hn p hp
    simp only [exSim, List.mem_cons, List.not_mem_nil, or_false] at hn
    rcases hn with rfl | rfl
    · cases hp
      exact exInst
    · cases hp
      exact exEff exMap rfl

/-- Non-vacuity: this component has a lineage, which is written to the file; walking its instances the other way round gives
the same hash. -/
example (json : Val → String) : ∃ v, simLineage exEnv exCached exSim = .ok v ∧
    dumpLineage json (simLineage exEnv exCached exSim) = (json (sorted v), .ok ()) ∧
    ∃ v', simLineage exEnv exCached { exSim with instances := ["Eff_er", "S1_er"] } = .ok v' ∧ canon v' = canon v := by
  have hv : ∃ v, simLineage exEnv exCached exSim = .ok v := ⟨_, rfl⟩
  obtain ⟨v, hv⟩ := hv
  refine ⟨v, hv, (C81_dump json exEnv exCached exSim exSimOk v hv).1 ?_, ?_⟩
  · intro n hn p hp k x hx
    simp only [exSim, List.mem_cons, List.not_mem_nil, or_false] at hn
    rcases hn with rfl | rfl
    · simp only [exCached, PyDict.get?, if_true, Option.some.injEq] at hp
      subst hp
      simp only [List.mem_cons, List.not_mem_nil, or_false, Prod.mk.injEq] at hx
      rcases hx with ⟨_, rfl⟩ | ⟨_, rfl⟩ <;> simp [Conf.IsSet]
    · simp only [exCached, PyDict.get?] at hp
      rw [if_neg (by decide), if_pos trivial, Option.some.injEq] at hp
      subst hp
      simp only [List.mem_cons, List.not_mem_nil, or_false, Prod.mk.injEq] at hx
      obtain ⟨_, rfl⟩ := hx
      simp [Conf.IsSet]
  · obtain ⟨v', h1, h2, _⟩ := C81_hash_ignores_set_order id (fun _ => "") exEnv exCached exSim (by decide) ["Eff_er", "S1_er"]
      (.swap _ _ _) v hv
    exact ⟨v', h1, h2⟩

/-- A plugin with a set of constants, as `MonoEnergiesSpectra` (nestv2.py 20-33): the dump fails. -/
example (json : Val → String) : dumpLineage json (simLineage exEnv
    [("MonoEnergiesSpectra_nr", ⟨"MonoEnergiesSpectra", ["batch_size"], ["energy", "energy_center"], [],
      [("energy_twohalfnorm", .set [("mu", [1]), ("sigma_pos", [1 / 10]), ("sigma_neg", [1 / 10])])]⟩)]
    { exSim with instances := ["MonoEnergiesSpectra_nr"] }) = ("", .error .typeError) := rfl

/-- Taking the efficiency from another file changes the hash. -/
example : ∃ v v', simLineage exEnv exCached exSim = .ok v ∧ simLineage exEnv exCached2 exSim = .ok v' ∧ canon v ≠ canon v' := by
  refine ⟨_, _, rfl, rfl, fun h => ?_⟩
  obtain ⟨p, p', hp, hp', hsame⟩ := (C81_component_identified_partial (e := exEnv) (e' := exEnv) id Function.injective_id rfl
    Function.injective_id exCached exCached2 exSim exSim exSimOk exSimOk2 _ _ rfl rfl h).insts "Eff_er" (by simp [exSim])
  cases hp
  cases hp'
  rcases hsame.configs "map" with ⟨h1, _⟩ | ⟨c, c', h1, h2, h3⟩
  · cases h1
  · cases h1
    cases h2
    exact absurd h3.2 (by decide)

mutual
/-- A digest without collisions, to show that the assumption can be met. -/
def exCode : Val → Nat
  | .null => Nat.pair 0 0
  | .num q => Nat.pair 1 (Encodable.encode q)
  | .str s => Nat.pair 2 (Encodable.encode (s.toList.map Char.toNat))
  | .seq l => Nat.pair 3 (exCodeList l)
  | .array l => Nat.pair 4 (Encodable.encode l)
  | .dict d => Nat.pair 5 (exCodeItems d)
def exCodeList : List Val → Nat
  | [] => 0
  | v :: l => Nat.pair (exCode v) (exCodeList l) + 1
def exCodeItems : List (String × Val) → Nat
  | [] => 0
  | (k, v) :: l => Nat.pair (Encodable.encode (k.toList.map Char.toNat)) (Nat.pair (exCode v) (exCodeItems l)) + 1
end

theorem exChars {s t : String} (h : s.toList.map Char.toNat = t.toList.map Char.toNat) : s = t :=
  String.toList_inj.1 (List.map_injective_iff.2 (fun a b hab => Char.toNat_inj.1 hab) h)

mutual
theorem exCode_inj : ∀ v w, exCode v = exCode w → v = w
  | v, w => by
    intro h
    cases v <;> cases w <;> simp only [exCode, Nat.pair_eq_pair, Encodable.encode_inj] at h <;>
      first
        | rfl
        | (exfalso; omega)
        | (rw [h.2])
        | (rw [exChars h.2])
        | (rw [exCodeList_inj _ _ h.2])
        | (rw [exCodeItems_inj _ _ h.2])
theorem exCodeList_inj : ∀ v w, exCodeList v = exCodeList w → v = w
  | [], [] => fun _ => rfl
  | [], _ :: _ => fun h => by simp [exCodeList] at h
  | _ :: _, [] => fun h => by simp [exCodeList] at h
  | v :: l, w :: l' => fun h => by
    simp only [exCodeList, Nat.add_right_cancel_iff, Nat.pair_eq_pair] at h
    rw [exCode_inj _ _ h.1, exCodeList_inj _ _ h.2]
theorem exCodeItems_inj : ∀ v w, exCodeItems v = exCodeItems w → v = w
  | [], [] => fun _ => rfl
  | [], (_, _) :: _ => fun h => by simp [exCodeItems] at h
  | (_, _) :: _, [] => fun h => by simp [exCodeItems] at h
  | (k, v) :: l, (k', w) :: l' => fun h => by
    simp only [exCodeItems, Nat.add_right_cancel_iff, Nat.pair_eq_pair, Encodable.encode_inj] at h
    rw [exCode_inj _ _ h.2.1, exCodeItems_inj _ _ h.2.2, exChars h.1]
end

def exDigest (v : Val) : String := String.ofList (List.replicate (exCode v) 'a')

theorem exDigest_inj : Function.Injective exDigest := fun v w h => by
  have := congrArg (fun s => s.toList.length) h
  simp only [exDigest, String.toList_ofList, List.length_replicate] at this
  exact exCode_inj v w this

def exLlh (n : ℚ) : Llh := ⟨.dict [("bins_type", .str "equiprob"), ("bins", .seq [.num n])], some "/maps/a.json",
  [("er", .sim exSim), ("ac", .fixed ⟨"ac_rate", "on_pdf", some (some [.array [0, 1]], some "irreg"), "/maps/b.json"⟩)]⟩

/-- Non-vacuity: likelihoods that differ in the number of bins alone have different hashes. -/
example : ∃ v v', llhLineage exEnv exDigest exCached (exLlh 10) = .ok v ∧ llhLineage exEnv exDigest exCached (exLlh 20) = .ok v' ∧
    hash exDigest v ≠ hash exDigest v' := by
  refine ⟨_, _, rfl, rfl, fun h => ?_⟩
  have ho : ∀ n k c, (k, c) ∈ (exLlh n).components → CompOk exEnv exCached c := by
    intro n k c hc
    simp only [exLlh, List.mem_cons, List.not_mem_nil, or_false, Prod.mk.injEq] at hc
    rcases hc with ⟨_, rfl⟩ | ⟨_, rfl⟩
    · exact exSimOk
    · trivial
  have := (C81_likelihood_identified_partial exDigest exDigest_inj exEnv exEnv rfl Function.injective_id exCached exCached (exLlh 10)
    (exLlh 20) _ _ rfl rfl (by decide) (by decide) (ho 10) (ho 20) _ _ rfl rfl h).settings "bins"
  have := this.2 _ _ rfl rfl (by simp [Plain, PlainList]) (by simp [Plain, PlainList])
  simp at this

/-- The settings of the parameters of a context with one parameter. -/
def exPar (m : ℚ) : Val := .dict [("er_rate", .dict [("prior_type", .str "norm"),
  ("prior_args", .dict [("mean", .num m), ("std", .num 1)]), ("allowed_range", .seq [.num 0, .num 100]), ("init_mean", .null)])]

def exInstruct : PyDict String Val := [("par_config", .str "par.json"), ("backend", .str "mc.h5"), ("likelihoods", .dict [])]

theorem exLlhOk (n : ℚ) : LlhOk exEnv exCached (exLlh n) [("bins_type", .str "equiprob"), ("bins", .seq [.num n])] where
  config := rfl
  keys := by simp
  names := by simp [exLlh]
  comps := by
    intro k c hc
    simp only [exLlh, List.mem_cons, List.not_mem_nil, or_false, Prod.mk.injEq] at hc
    rcases hc with ⟨_, rfl⟩ | ⟨_, rfl⟩
    · exact exSimOk
    · trivial

/-- Non-vacuity: contexts with two likelihoods which differ in the mean of a prior alone, or in the bins of the second likelihood
alone, have different hashes. -/
example : ∃ v v' w, contextLineage exEnv exDigest [("rn", exCached), ("kr", exCached)] exInstruct (exPar 10)
      [("rn", exLlh 10), ("kr", exLlh 20)] = .ok v ∧
    contextLineage exEnv exDigest [("rn", exCached), ("kr", exCached)] exInstruct (exPar 11)
      [("rn", exLlh 10), ("kr", exLlh 20)] = .ok v' ∧
    contextLineage exEnv exDigest [("rn", exCached), ("kr", exCached)] exInstruct (exPar 10)
      [("rn", exLlh 10), ("kr", exLlh 30)] = .ok w ∧ hash exDigest v ≠ hash exDigest v' ∧ hash exDigest v ≠ hash exDigest w := by
  have hp : ∀ m, Setting (exPar m) := by
    intro m
    simp [exPar, Setting, SettingItems, Scalar]
  have hok : ∀ n k l, (k, l) ∈ [("rn", exLlh 10), ("kr", exLlh n)] →
      LlhOk exEnv ((PyDict.get? [("rn", exCached), ("kr", exCached)] k).getD []) l
        (if k = "rn" then [("bins_type", .str "equiprob"), ("bins", .seq [.num 10])]
          else [("bins_type", .str "equiprob"), ("bins", .seq [.num n])]) := by
    intro n k l hl
    simp only [List.mem_cons, List.not_mem_nil, or_false, Prod.mk.injEq] at hl
    rcases hl with ⟨rfl, rfl⟩ | ⟨rfl, rfl⟩
    · exact exLlhOk 10
    · exact exLlhOk n
  refine ⟨_, _, _, rfl, rfl, rfl, fun h => ?_, fun h => ?_⟩
  · have := (C81_context_identified_partial exDigest exDigest_inj exEnv exEnv rfl Function.injective_id _ _ exInstruct exInstruct
      (exPar 10) (exPar 11) _ _ _ _ (by decide) (hp 10) (hp 11) (by decide) (hok 20) (hok 20) _ _ rfl rfl h).parameters
    cases this with
    | dict _ g =>
      cases g "er_rate" _ _ rfl rfl with
      | dict _ g =>
        cases g "prior_args" _ _ rfl rfl with
        | dict _ g =>
          have := g "mean" _ _ rfl rfl
          cases this
  · have := (C81_context_identified_partial exDigest exDigest_inj exEnv exEnv rfl Function.injective_id _ _ exInstruct exInstruct
      (exPar 10) (exPar 10) _ _ _ _ (by decide) (hp 10) (hp 10) (by decide) (hok 20) (hok 30) _ _ rfl rfl h).likelihoods "kr"
    rcases this with ⟨h1, _⟩ | ⟨l, l', _, _, h3⟩
    · cases h1
    · have := (h3.settings "bins").2 _ _ rfl rfl (by simp [Plain, PlainList]) (by simp [Plain, PlainList])
      simp at this

/-- Before the component is deduced and compiled there is no lineage. -/
example (json : Val → String) : dumpLineage json (simLineage exEnv exCached { exSim with code := none }) = ("", .error .attributeError) ∧
    dumpLineage json (simLineage exEnv [] exSim) = ("", .error .keyError) := ⟨rfl, rfl⟩

/-- A literature constraint whose component takes a set of constants can be written. -/
example (json : Val → String) : ∃ v, dumpLineage json (llhLineage exEnv exDigest
    [("MonoEnergiesSpectra_nr", ⟨"MonoEnergiesSpectra", ["batch_size"], ["energy", "energy_center"], [],
      [("energy_twohalfnorm", .set [("mu", [1]), ("sigma_pos", [1 / 10]), ("sigma_neg", [1 / 10])])]⟩)]
    ⟨.dict [("variable_type", .str "monoenergies")], none, [("nr", .sim { exSim with instances := ["MonoEnergiesSpectra_nr"] })]⟩) =
      (json (sorted v), .ok ()) := by
  have h : ∃ v, llhLineage exEnv exDigest
    [("MonoEnergiesSpectra_nr", ⟨"MonoEnergiesSpectra", ["batch_size"], ["energy", "energy_center"], [],
      [("energy_twohalfnorm", .set [("mu", [1]), ("sigma_pos", [1 / 10]), ("sigma_neg", [1 / 10])])]⟩)]
    ⟨.dict [("variable_type", .str "monoenergies")], none, [("nr", .sim { exSim with instances := ["MonoEnergiesSpectra_nr"] })]⟩ = .ok v :=
    ⟨_, rfl⟩
  obtain ⟨v, hv⟩ := h
  exact ⟨v, C81_literature_dump json exDigest exEnv _ _ rfl (by simp [writable, writableItems]) v hv⟩

/-- **C81 (order).** The hash and the written text do not depend on the order in which dictionaries were filled, at any depth. -/
theorem C81_order {D : Type} (digest : Val → D) (json : Val → String) {v v' : Val} (h : Reordered v v') :
    hash digest v = hash digest v' ∧ dumpLineage json (.ok v) = dumpLineage json (.ok v') := by
  have hl : ∀ l, sortedList l = l.map sorted := by
    intro l
    induction l with
    | nil => rfl
    | cons v l ih => simp [sortedList, ih]
  have hw : ∀ l, writableItems l = true ↔ ∀ e ∈ l, writable e.2 = true := by
    intro l
    induction l with
    | nil => simp [writableItems]
    | cons e l ih => obtain ⟨k, v⟩ := e; simp [writableItems, ih]
  have hwl : ∀ l, writableList l = true ↔ ∀ e ∈ l, writable e = true := by
    intro l
    induction l with
    | nil => simp [writableList]
    | cons v l ih => simp [writableList, ih]
  have main : canon v = canon v' ∧ sorted v = sorted v' ∧ (writable v = true ↔ writable v' = true) := by
    induction h with
    | order hn h =>
      refine ⟨canon_dict_perm hn h, sorted_dict_perm hn h, ?_⟩
      simp only [writable, hw]
      exact ⟨fun g e he => g e (h.mem_iff.2 he), fun g e he => g e (h.mem_iff.1 he)⟩
    | inSeq h a b ih =>
      obtain ⟨h1, h2, h3⟩ := ih
      refine ⟨?_, ?_, ?_⟩
      · simp [canon, canonList_eq, h1]
      · simp [sorted, hl, h2]
      · simp only [writable, hwl, List.forall_mem_append, List.forall_mem_cons, h3]
    | inDict h k a b ih =>
      obtain ⟨h1, h2, h3⟩ := ih
      refine ⟨?_, ?_, ?_⟩
      · simp [canon, canonItems_eq, h1]
      · simp [sorted, sortedItems_eq, h2]
      · simp only [writable, hw, List.forall_mem_append, List.forall_mem_cons, h3]
    | trans h h' ih ih' => exact ⟨ih.1.trans ih'.1, ih.2.1.trans ih'.2.1, ih.2.2.trans ih'.2.2⟩
  refine ⟨congrArg digest main.1, ?_⟩
  unfold dumpLineage
  simp only [main.2.2, main.2.1]

/-- Non-vacuity of C81 (order): a dictionary inside a list. -/
example : Reordered (.seq [.str "x", .dict [("b", .num 1), ("a", .num 2)]]) (.seq [.str "x", .dict [("a", .num 2), ("b", .num 1)]]) :=
  .inSeq (.order (by decide) (List.Perm.swap _ _ _)) [.str "x"] []

end Verif.Lineage
