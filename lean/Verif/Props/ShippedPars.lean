/-
C129: the shipped parameter files can be sampled and started from, and their ranges keep the model meaningful.
-/
import Verif.Model.ShippedPars
import Verif.Model.Shipped
import Verif.Props.Parameter
import Verif.Props.Context
import Verif.Props.Plugins
import Verif.Props.Literature

namespace Verif.ShippedPars
open Verif Parameter

/-- The prior of an entry; a prior without its arguments is none of the known ones. -/
noncomputable def Entry.prior (e : Entry) : Prior :=
  if e.type = "norm" then match PyDict.get? e.args "mean", PyDict.get? e.args "std" with
    | some m, some s => .norm m s
    | _, _ => .other
  else if e.type = "twohalfnorm" then match PyDict.get? e.args "mu", PyDict.get? e.args "sigma_pos", PyDict.get? e.args "sigma_neg" with
    | some m, some a, some b => .twohalfnorm m a b
    | _, _, _ => .other
  else if e.type = "uniform" then match PyDict.get? e.args "lower", PyDict.get? e.args "upper" with
    | some a, some b => .uniform a b
    | _, _ => .other
  else if e.type = "free" then .free
  else if e.type = "fixed" then match PyDict.get? e.args "val" with
    | some v => .fixed v
    | _ => .other
  else .other

/-- A parameter file as the parameter manager sees it. -/
noncomputable def Entry.setting (e : Entry) : Setting :=
  ⟨e.prior, e.allowed.map (fun r => ((r.1 : ℝ), (r.2 : ℝ))), e.init.map (fun r => ((r.1 : ℝ), (r.2 : ℝ)))⟩

/-- A parameter file as the parameter manager sees it. -/
noncomputable def config (f : PyDict String Entry) : Config := f.map (fun e => (e.1, e.2.setting))

/-- What a usable entry is: fixed to a value, or with a range that contains the start, a positive spread of the start, and a prior that is
centred in the range with positive widths. -/
def Good (e : Entry) : Prop :=
  (∃ v, e.args = [("val", v)] ∧ e.type = "fixed") ∨
  ∃ lo hi m s, e.allowed = some (lo, hi) ∧ e.init = some (m, s) ∧ lo < hi ∧ lo ≤ m ∧ m ≤ hi ∧ 0 < s ∧
    ((e.type = "free" ∧ e.args = []) ∨ (e.type = "uniform" ∧ e.args = [("lower", lo), ("upper", hi)]) ∨
     (∃ mean std, e.type = "norm" ∧ e.args = [("mean", mean), ("std", std)] ∧ 0 < std ∧ lo < mean ∧ mean < hi) ∨
     (∃ mu a b, e.type = "twohalfnorm" ∧ e.args = [("mu", mu), ("sigma_pos", a), ("sigma_neg", b)] ∧ 0 < a ∧ 0 < b ∧ lo < mu ∧ mu < hi))

/-- `Good`, computed. -/
def good (e : Entry) : Bool :=
  (match e.args with
    | [("val", _)] => e.type == "fixed"
    | _ => false) ||
  match e.allowed, e.init with
  | some (lo, hi), some (m, s) => decide (lo < hi ∧ lo ≤ m ∧ m ≤ hi ∧ 0 < s) &&
    (match e.args with
      | [] => e.type == "free"
      | [("lower", a), ("upper", b)] => e.type == "uniform" && decide (a = lo ∧ b = hi)
      | [("mean", a), ("std", b)] => e.type == "norm" && decide (0 < b ∧ lo < a ∧ a < hi)
      | [("mu", a), ("sigma_pos", b), ("sigma_neg", c)] => e.type == "twohalfnorm" && decide (0 < b ∧ 0 < c ∧ lo < a ∧ a < hi)
      | _ => false)
  | _, _ => false

theorem good_spec (e : Entry) (h : good e = true) : Good e := by
  obtain ⟨ty, args, al, ini⟩ := e
  unfold good at h
  rw [Bool.or_eq_true] at h
  rcases h with h | h
  · left
    simp only at h
    split at h
    · rename_i v
      exact ⟨_, rfl, by simpa using h⟩
    · cases h
  · right
    simp only at h
    split at h
    · rename_i lo hi m s
      rw [Bool.and_eq_true, decide_eq_true_eq] at h
      obtain ⟨⟨h1, h2, h3, h4⟩, h⟩ := h
      refine ⟨lo, hi, m, s, rfl, rfl, h1, h2, h3, h4, ?_⟩
      split at h
      · exact .inl ⟨by simpa using h, rfl⟩
      · simp only [Bool.and_eq_true, beq_iff_eq, decide_eq_true_eq] at h
        obtain ⟨h, rfl, rfl⟩ := h
        exact .inr (.inl ⟨h, rfl⟩)
      · simp only [Bool.and_eq_true, beq_iff_eq, decide_eq_true_eq] at h
        exact .inr (.inr (.inl ⟨_, _, h.1, rfl, h.2⟩))
      · simp only [Bool.and_eq_true, beq_iff_eq, decide_eq_true_eq] at h
        exact .inr (.inr (.inr ⟨_, _, _, h.1, rfl, h.2⟩))
      · cases h
    · cases h

theorem files_good : ∀ f ∈ files, (f.2.keys).Nodup ∧ ∀ e ∈ f.2, good e.2 = true := by decide +kernel

/-- **C129 (entries).** In every shipped parameter file names are distinct, and every entry is usable: it is fixed to a value, or it has a range with the
start inside, positive spreads and widths, a prior centred inside the range, and, if uniform, exactly over the range. -/
theorem C129_entries (name : String) (f : PyDict String Entry) (hf : (name, f) ∈ files) :
    f.keys.Nodup ∧ ∀ n e, PyDict.get? f n = some e → Good e := by
  obtain ⟨h1, h2⟩ := files_good _ hf
  exact ⟨h1, fun n e he => good_spec e (h2 _ (PyDict.mem_of_get? _ he))⟩

theorem config_keys (f : PyDict String Entry) : (config f).keys = f.keys := by
  simp [config, PyDict.keys, List.map_map, Function.comp_def]

theorem config_get (f : PyDict String Entry) (n : String) (s : Setting) (h : PyDict.get? (config f) n = some s) :
    ∃ e, PyDict.get? f n = some e ∧ s = e.setting := by
  induction f with
  | nil => simp [config, PyDict.get?_nil] at h
  | cons a f ih =>
    obtain ⟨k, a⟩ := a
    simp only [config, List.map_cons, PyDict.get?_cons] at h ⊢
    split at h
    · rename_i hn
      cases h
      exact ⟨a, by rw [if_pos hn], rfl⟩
    · rename_i hn
      rw [if_neg hn]
      exact ih h

/-- The solver for two-half-normal errors succeeds on the shipped errors (see C68). -/
def Solves (sig : Solver) : Prop :=
  ∀ f ∈ files, ∀ e ∈ f.2, ∀ mu a b, e.2.prior = .twohalfnorm mu a b → ∃ x y, sig (a, b) = some (x, y) ∧ 0 < x ∧ 0 < y

theorem setting_ok {sig : Solver} (hsig : Solves sig) {name : String} {f : PyDict String Entry} (hf : (name, f) ∈ files) {n : String} {s : Setting}
    (hs : PyDict.get? (config f) n = some s) :
    ((∃ v, s.prior = .fixed v) ∧ True) ∨
    (s.prior ≠ .other ∧ (∀ v, s.prior ≠ .fixed v) ∧ (∃ lo hi, s.allowed = some (lo, hi) ∧ lo < hi) ∧ (∃ m std, s.init = some (m, std) ∧ 0 < std) ∧
      (∀ m std, s.prior = .norm m std → 0 < std) ∧
      ∀ mu a b, s.prior = .twohalfnorm mu a b → ∃ x y, sig (a, b) = some (x, y) ∧ 0 < x ∧ 0 < y) := by
  obtain ⟨e, he, rfl⟩ := config_get f n s hs
  have hmem := PyDict.mem_of_get? _ he
  have ht : ∀ mu a b, e.prior = .twohalfnorm mu a b → ∃ x y, sig (a, b) = some (x, y) ∧ 0 < x ∧ 0 < y := fun mu a b h => hsig _ hf _ hmem mu a b h
  rcases (C129_entries name f hf).2 n e he with ⟨v, h1, h2⟩ | ⟨lo, hi, m, std, h1, h2, h3, h4, h5, h6, h7⟩
  · left
    refine ⟨⟨v, ?_⟩, trivial⟩
    simp [Entry.setting, Entry.prior, h1, h2, PyDict.get?_cons]
  · right
    have hal : ∃ lo hi, (e.setting).allowed = some (lo, hi) ∧ lo < hi := ⟨lo, hi, by simp [Entry.setting, h1], by exact_mod_cast h3⟩
    have hin : ∃ m std, (e.setting).init = some (m, std) ∧ 0 < std := ⟨m, std, by simp [Entry.setting, h2], by exact_mod_cast h6⟩
    have hp : (e.setting).prior = e.prior := rfl
    rw [hp]
    rcases h7 with ⟨t, a⟩ | ⟨t, a⟩ | ⟨mean, sd, t, a, h8, -⟩ | ⟨mu, x, y, t, a, -⟩
    · have : e.prior = .free := by simp [Entry.prior, t]
      rw [this] at ht ⊢
      exact ⟨by simp, by simp, hal, hin, by simp, ht⟩
    · have : e.prior = .uniform lo hi := by simp [Entry.prior, t, a, PyDict.get?_cons]
      rw [this] at ht ⊢
      exact ⟨by simp, by simp, hal, hin, by simp, ht⟩
    · have : e.prior = .norm mean sd := by simp [Entry.prior, t, a, PyDict.get?_cons]
      rw [this] at ht ⊢
      refine ⟨by simp, by simp, hal, hin, ?_, ht⟩
      rintro _ _ h
      cases h
      exact_mod_cast h8
    · have : e.prior = .twohalfnorm mu x y := by simp [Entry.prior, t, a, PyDict.get?_cons]
      rw [this] at ht ⊢
      exact ⟨by simp, by simp, hal, hin, by simp, ht⟩

/-- **C129 (sampling).** With every shipped parameter file the parameter manager is built, and after any history sampling from the prior and from the starting
distribution succeeds, whatever the draws. -/
theorem C129_sampling (sig : Solver) (hsig : Solves sig) (name : String) (f : PyDict String Entry) (hf : (name, f) ∈ files) (draw : String → ℝ) :
    (mk sig draw (config f)).2 = .ok () ∧ ∀ pm, Reachable (config f) pm → (samplePrior sig draw pm).2 = .ok () ∧ (sampleInit draw pm).2 = .ok () := by
  have hone : ∀ n s, PyDict.get? (config f) n = some s → ∀ old, ∃ v, samplePriorOne sig s (draw n) old = .ok v := by
    intro n s hs old
    rcases setting_ok hsig hf hs with ⟨⟨v, hv⟩, -⟩ | ⟨ho, hnf, ⟨lo, hi, ha, -⟩, ⟨m, std, hi', h0⟩, hn, ht⟩
    · exact ⟨_, by simp [samplePriorOne, hv]; rfl⟩
    · have hc : ∀ v, ∃ w, clipRange s v = .ok w := fun v => ⟨_, by simp [clipRange, ha]; rfl⟩
      cases hp : s.prior with
      | norm a b =>
        obtain ⟨w, hw⟩ := hc (draw n)
        have := hn a b hp
        exact ⟨w, by simp [samplePriorOne, hp, drawNormal, not_lt.2 this.le, hw, bind, Except.bind]⟩
      | twohalfnorm a b c =>
        obtain ⟨w, hw⟩ := hc (draw n)
        obtain ⟨x, y, h1, h2, h3⟩ := ht a b c hp
        exact ⟨w, by simp [samplePriorOne, hp, h1, h2, h3, hw]⟩
      | uniform a b =>
        obtain ⟨w, hw⟩ := hc (draw n)
        exact ⟨w, by simp [samplePriorOne, hp, hw]⟩
      | free =>
        obtain ⟨w, hw⟩ := hc (draw n)
        exact ⟨w, by simp [samplePriorOne, hp, drawInit, hi', drawNormal, not_lt.2 h0.le, hw, bind, Except.bind]⟩
      | fixed a => exact absurd hp (hnf a)
      | other => exact absurd hp ho
  have key : ∀ pm : PM, pm.config = config f → pm.vals.keys = (config f).keys → (samplePrior sig draw pm).2 = .ok () := by
    intro pm h1 h2
    refine sampleLoop_succeeds _ _ _ _ (fun n hn => hn) ?_
    intro n hn
    rw [h2] at hn
    obtain ⟨s, hs⟩ := (PyDict.mem_keys_iff_exists _ _).1 hn
    exact ⟨s, by rw [h1]; exact hs, hone n s hs⟩
  refine ⟨key _ rfl (by simp [mkRaw, PyDict.keys, List.map_map, Function.comp_def]), fun pm hr => ⟨?_, ?_⟩⟩
  · exact key pm hr.inv.1 (C01_names_closed (config f) (by rw [config_keys]; exact (C129_entries name f hf).1) pm hr).1
  · refine C02_sample_init_completes (config f) pm hr ?_ draw
    intro n s hs hnf
    rcases setting_ok hsig hf hs with ⟨⟨v, hv⟩, -⟩ | ⟨_, _, ⟨lo, hi, ha, _⟩, ⟨m, std, hi', h0⟩, _⟩
    · exact absurd hv (hnf v)
    · exact ⟨⟨_, ha⟩, m, std, hi', h0.le⟩

/-- **C129 (starts).** A fit with any shipped parameter file starts every walker inside the ranges at a finite prior, whatever the draws. -/
theorem C129_starts {K : Type} (sig : Solver) (hsig : Solves sig) (name : String) (f : PyDict String Entry) (hf : (name, f) ∈ files) (c : Ctx.Ctx K)
    (hr : Reachable (config f) c.pm) (hs : Ctx.sanityCheck c = .ok ()) (draws : Nat → String → ℝ) (nwalkers : Nat) :
    ∃ c' rows, Ctx.startPositions draws nwalkers c = (c', .ok rows) ∧ rows.length = nwalkers ∧
      ∀ row ∈ rows, ∃ xs : List ℝ, row = .many (xs.map XF.fin) ∧
        List.Forall₂ (fun n x => ∃ e lo hi, PyDict.get? f n = some e ∧ e.allowed = some (lo, hi) ∧ (lo : ℝ) ≤ x ∧ x ≤ (hi : ℝ)) (parameterFit c.pm) xs ∧
        ∀ order : List String, order.Perm (parameterFit c.pm) → ∃ L : ℝ, logPriorOver sig (evalAt c.pm (xs.map XF.fin)).1 order = .ok (.fin L) := by
  have hk : (config f).keys.Nodup := by rw [config_keys]; exact (C129_entries name f hf).1
  have hok := Ctx.C45_completes (config f) hk (by
    intro n s hs hnf
    rcases setting_ok hsig hf hs with ⟨⟨v, hv⟩, -⟩ | ⟨_, _, ⟨lo, hi, ha, _⟩, ⟨m, std, hi', h0⟩, _⟩
    · exact absurd hv (hnf v)
    · exact ⟨⟨_, ha⟩, m, std, hi', h0.le⟩) c hr hs draws nwalkers
  obtain ⟨rows, hrows⟩ := hok
  have he : Ctx.startPositions draws nwalkers c = ((Ctx.startPositions draws nwalkers c).1, .ok rows) := Prod.ext rfl hrows
  obtain ⟨h1, h2⟩ := Ctx.C45_start_positions (config f) hk sig (by
    intro n s hs hnf
    rcases setting_ok hsig hf hs with ⟨⟨v, hv⟩, -⟩ | ⟨_, _, ⟨lo, hi, ha, hlt⟩, _, hn, ht⟩
    · exact absurd hv (hnf v)
    · refine ⟨⟨⟨_, ha⟩, fun m std h => ne_of_gt (hn m std h), fun mu a b h => ?_⟩, ?_⟩
      · obtain ⟨x, y, h⟩ := ht mu a b h
        exact ⟨x, y, h⟩
      · intro lo' hi' h'
        rw [ha] at h'
        cases h'
        exact hlt.le) c _ hr draws nwalkers rows he
  exact ⟨_, rows, he, h1, fun row hrow => by
    obtain ⟨xs, h3, h5, h4⟩ := h2 row hrow
    refine ⟨xs, h3, h5.imp ?_, h4⟩
    rintro n x ⟨s, lo, hi, h6, h7, h8, h9⟩
    obtain ⟨e, h10, rfl⟩ := config_get f n s h6
    simp only [Entry.setting, Option.map_eq_some_iff, Prod.mk.injEq] at h7
    obtain ⟨⟨a, b⟩, h11, rfl, rfl⟩ := h7
    exact ⟨e, a, b, h10, h11, h8, h9⟩⟩

/-! ### What the ranges allow -/

/-- The value a fixed parameter has, or the range of a fitted one. -/
def Entry.bounds (e : Entry) : Option (ℚ × ℚ) :=
  match PyDict.get? e.args "val" with
  | some v => some (v, v)
  | none => e.allowed

/-- A file allows the value `x` for the parameter. -/
def Allows (f : PyDict String Entry) (n : String) (x : ℝ) : Prop :=
  ∃ e lo hi, PyDict.get? f n = some e ∧ e.bounds = some (lo, hi) ∧ (lo : ℝ) ≤ x ∧ x ≤ (hi : ℝ)

theorem allows_within {f : PyDict String Entry} {n : String} {x : ℝ} (h : Allows f n x) {a b : ℚ}
    (hb : ∀ e ∈ f, e.1 = n → ∀ r, e.2.bounds = some r → a ≤ r.1 ∧ r.2 ≤ b) : (a : ℝ) ≤ x ∧ x ≤ (b : ℝ) := by
  obtain ⟨e, lo, hi, h1, h2, h3, h4⟩ := h
  obtain ⟨h5, h6⟩ := hb (n, e) (PyDict.mem_of_get? _ h1) rfl _ h2
  constructor
  · exact le_trans (by exact_mod_cast h5) h3
  · exact le_trans h4 (by exact_mod_cast h6)

/-- All files bound a parameter, computed. -/
def within (n : String) (a b : ℚ) : Bool :=
  files.all (fun f => f.2.all (fun e => if e.1 = n then match e.2.bounds with
    | some r => decide (a ≤ r.1 ∧ r.2 ≤ b)
    | none => true else true))

theorem within_spec {n : String} {a b : ℚ} (h : within n a b = true) {name : String} {f : PyDict String Entry} (hf : (name, f) ∈ files) {x : ℝ}
    (hx : Allows f n x) : (a : ℝ) ≤ x ∧ x ≤ (b : ℝ) := by
  refine allows_within hx ?_
  intro e he hn r hr
  have := List.all_eq_true.1 (List.all_eq_true.1 h _ hf) e he
  rw [if_pos hn, hr] at this
  simpa using this

/-- **C129 (probabilities).** Whatever values the shipped files allow: photons are detected with a probability, double photoelectrons occur with a probability,
and quanta are ions with a probability. -/
theorem C129_probabilities (name : String) (f : PyDict String Entry) (hf : (name, f) ∈ files) (g1 pDpe r : ℝ) :
    (Allows f "g1" g1 → Allows f "p_dpe" pDpe → ∀ lce, 0 ≤ lce → lce ≤ 1 → 0 ≤ g1 * lce / (1 + pDpe) ∧ g1 * lce / (1 + pDpe) ≤ 1) ∧
    (Allows f "p_dpe" pDpe → 0 ≤ pDpe ∧ pDpe ≤ 1) ∧ (Allows f "nex_ni_ratio" r → 0 < 1 / (1 + r) ∧ 1 / (1 + r) < 1) := by
  refine ⟨fun h1 h2 lce h3 h4 => ?_, fun h => ?_, fun h => ?_⟩
  · have a := within_spec (n := "g1") (a := 0) (b := 1) (by decide +kernel) hf h1
    have b := within_spec (n := "p_dpe") (a := 0) (b := 1) (by decide +kernel) hf h2
    norm_num at a b
    constructor
    · exact div_nonneg (mul_nonneg a.1 h3) (by linarith)
    · rw [div_le_one (by linarith)]
      nlinarith
  · simpa using within_spec (n := "p_dpe") (a := 0) (b := 1) (by decide +kernel) hf h
  · have a := within_spec (n := "nex_ni_ratio") (a := 3 / 50) (b := 1 / 5) (by decide +kernel) hf h
    have h0 : (0 : ℝ) < r := lt_of_lt_of_le (by norm_num) a.1
    constructor
    · positivity
    · rw [div_lt_one (by linarith)]
      linarith

/-- **C129 (survival, part).** Electrons survive the drift with a probability, except for the lower end of the range of `elife_sigma`, where the lifetime is zero. -/
theorem C129_survival_partial (name : String) (f : PyDict String Entry) (hf : (name, f) ∈ files) (sigma v : ℝ) (hs : Allows f "elife_sigma" sigma)
    (hv : Allows f "drift_velocity" v) (hne : sigma ≠ -1) (elife z : ℝ) (he : 0 < elife) :
    0 < Plugins.driftLoss v sigma elife z ∧ Plugins.driftLoss v sigma elife z ≤ 1 := by
  have a := within_spec (n := "elife_sigma") (a := -1) (b := 1) (by decide +kernel) hf hs
  have b := within_spec (n := "drift_velocity") (a := 677 / 10000) (b := 677 / 10000) (by decide +kernel) hf hv
  have hv0 : (0 : ℝ) < v := lt_of_lt_of_le (by norm_num) b.1
  have hs1 : 0 < 1 + sigma := by
    have : (-1 : ℝ) ≤ sigma := by simpa using a.1
    rcases lt_or_eq_of_le this with h | h
    · linarith
    · exact absurd h.symm hne
  have hp : 0 < elife * (1 + sigma) := mul_pos he hs1
  obtain ⟨h1, h2⟩ := Plugins.C53_survival v sigma elife z hv0 (ne_of_gt hp)
  exact ⟨h1, h2.2 (.inl hp)⟩

/-- **C129 (rates).** No shipped file allows a negative rate. -/
theorem C129_rates (name : String) (f : PyDict String Entry) (hf : (name, f) ∈ files) (n : String) (hn : n ∈ ["rate", "er_rate", "ac_rate", "nr_rate"])
    (x : ℝ) (hx : Allows f n x) : 0 ≤ x := by
  simp only [List.mem_cons, List.not_mem_nil, or_false] at hn
  rcases hn with rfl | rfl | rfl | rfl
  · simpa using (within_spec (a := 0) (b := 10000000000) (by decide +kernel) hf hx).1
  · simpa using (within_spec (a := 0) (b := 10000000000) (by decide +kernel) hf hx).1
  · simpa using (within_spec (a := 0) (b := 10000000000) (by decide +kernel) hf hx).1
  · simpa using (within_spec (a := 0) (b := 10000000000) (by decide +kernel) hf hx).1

/-- **C129 (violated: extraction).** Every shipped file with `g2` allows values up to 100, but the mean gas gain is fixed at about 30: at any position whose gain is less than
three times the mean, `g2 = 100` asks for an extraction probability above one. -/
theorem C129_extraction (name : String) (f : PyDict String Entry) (hf : (name, f) ∈ files) (hg : "g2" ∈ f.keys) :
    Allows f "g2" 100 ∧ ∃ gain, Allows f "gas_gain" gain ∧ ∀ rel : ℝ, 0 < rel → rel ≤ 3 → 1 < 100 / (gain * rel) := by
  have h : ∀ f ∈ files, "g2" ∈ f.2.keys → (∃ e, PyDict.get? f.2 "g2" = some e ∧ e.bounds = some (0, 100)) ∧
      ∃ e G, PyDict.get? f.2 "gas_gain" = some e ∧ e.bounds = some (G, G) ∧ 0 < G ∧ G < 33 := by
    simp only [files, List.mem_cons, List.not_mem_nil, or_false, forall_eq_or_imp, forall_eq]
    refine ⟨fun _ => ⟨⟨_, rfl, rfl⟩, _, _, rfl, rfl, ?_⟩, fun _ => ⟨⟨_, rfl, rfl⟩, _, _, rfl, rfl, ?_⟩, fun _ => ⟨⟨_, rfl, rfl⟩, _, _, rfl, rfl, ?_⟩,
      fun h => absurd h (by decide), fun h => absurd h (by decide), fun _ => ⟨⟨_, rfl, rfl⟩, _, _, rfl, rfl, ?_⟩⟩ <;> norm_num
  obtain ⟨⟨e, h1, h2⟩, e', G, h3, h4, h5, h6⟩ := h _ hf hg
  refine ⟨⟨e, 0, 100, h1, h2, by norm_num, by norm_num⟩, G, ⟨e', G, G, h3, h4, le_refl _, le_refl _⟩, fun rel hr hr3 => ?_⟩
  have h7 : (0 : ℝ) < G := by exact_mod_cast h5
  have h8 : (G : ℝ) < 33 := by exact_mod_cast h6
  rw [one_lt_div (mul_pos h7 hr)]
  nlinarith

/-- **C129 (violated: consequence).** A binomial sampler that returns all trials for probabilities from one on, as the shipped one does (C46), makes all such values of `g2` the same:
the simulated signals do not depend on `g2`. -/
theorem C129_extraction_flat (b1 b2 : Plugins.Binomial) (hb : ∀ p : ℝ, 1 ≤ p → ∀ n, 0 ≤ n → b1 (.fin p) n = n) (po : Plugins.Poisson) (gain rel : ℝ) (hg : 0 < gain * rel)
    (g2 g2' : ℝ) (h : gain * rel ≤ g2) (h' : gain * rel ≤ g2') (pDpe lce : XF) (drifted : ℤ) (hd : 0 ≤ drifted) :
    Plugins.s2PE b1 b2 po (.fin g2) (.fin gain) pDpe (.fin rel) lce drifted = Plugins.s2PE b1 b2 po (.fin g2') (.fin gain) pDpe (.fin rel) lce drifted := by
  have key : ∀ g, gain * rel ≤ g → b1 (.fin g / (.fin gain * .fin rel)) drifted = drifted := by
    intro g hg'
    rw [XF.fin_mul_fin, XF.fin_div_fin_of_ne _ (ne_of_gt hg)]
    exact hb _ ((one_le_div hg).2 hg') _ hd
  unfold Plugins.s2PE
  rw [key g2 h, key g2' h']

/-- **C129 (yields).** The files for nuclear recoils allow only positive values where the yields need them. -/
theorem C129_yields (name : String) (f : PyDict String Entry) (hf : (name, f) ∈ files) (n : String)
    (hn : n ∈ ["alpha", "gamma", "epsilon", "zeta", "liquid_xe_density", "field"]) (x : ℝ) (hx : Allows f n x) : 0 < x := by
  have key : ∀ m : String, within m (1 / 10000000000) 10000000000 = true → Allows f m x → 0 < x := fun m hm hx =>
    lt_of_lt_of_le (by norm_num) (within_spec hm hf hx).1
  simp only [List.mem_cons, List.not_mem_nil, or_false] at hn
  rcases hn with rfl | rfl | rfl | rfl | rfl | rfl <;> exact key _ (by decide +kernel) hx

/-- **C129 (violated: `theta`).** Both files for nuclear recoils allow negative values of `theta`, with which the light yield of any energy is NaN. -/
theorem C129_theta (f : PyDict String Entry) (hf : f = file_nestv2 ∨ f = file_nestv2_yield_only) :
    ∃ theta iota, Allows f "theta" theta ∧ Allows f "iota" iota ∧
      ∀ (p : Lit.Pars) (energy : ℝ), p.theta = theta → p.iota = iota → 0 < energy → Lit.lightYield p energy = .nan := by
  have hh : ¬ ∃ k : ℤ, (k : ℝ) = (1 / 2 : ℝ) := by
    rintro ⟨k, hk⟩
    have : (2 * k : ℤ) = 1 := by
      have : (2 : ℝ) * k = 1 := by rw [hk]; norm_num
      exact_mod_cast this
    omega
  refine ⟨-1, 1 / 2, ?_, ?_, fun p energy h1 h2 h3 => Lit.C128_negative_theta p (by rw [h1]; norm_num) (by rw [h2]; exact hh) energy h3⟩
  · rcases hf with rfl | rfl <;> exact ⟨_, _, _, rfl, rfl, by norm_num, by norm_num⟩
  · rcases hf with rfl | rfl <;> exact ⟨_, _, _, rfl, rfl, by norm_num, by norm_num⟩

/-- **C129 (same files).** These are the files the shipped instructions name: the names agree with those of C73. -/
theorem C129_names : files.map (fun f => f.2.keys) =
    [Shipped.par_er, Shipped.par_er_nestv2, Shipped.par_er_rn220_ar37, Shipped.par_nestv2, Shipped.par_nestv2_yield_only, Shipped.par_nr_low] := by
  decide +kernel

/-- Non-vacuity: a solver that succeeds. -/
example : Solves (fun _ => some (1, 1)) := fun _ _ _ _ _ _ _ _ => ⟨1, 1, rfl, one_pos, one_pos⟩

/-- Non-vacuity: allowed values of `p_dpe`. -/
example : Allows file_er "p_dpe" (1 / 4) := ⟨_, _, _, rfl, rfl, by norm_num, by norm_num⟩

end Verif.ShippedPars
