import Verif.Model.Interp
import Verif.Spec.Interp
import Verif.Lemmas.Hist
import Mathlib.Tactic.Linarith
import Mathlib.Tactic.FieldSimp
import Mathlib.Tactic.Ring
import Mathlib.Tactic.Positivity

namespace Verif.Interp
open Verif

section
variable {F : Type} [Field F] [LinearOrder F]

theorem clip_mem {α : Type} [LinearOrder α] (x lo hi : α) (h : lo ≤ hi) : lo ≤ clip x lo hi ∧ clip x lo hi ≤ hi := by
  unfold clip
  exact ⟨le_min (le_max_right _ _) h, min_le_right _ _⟩

theorem clip_of_mem {α : Type} [LinearOrder α] (x lo hi : α) (h1 : lo ≤ x) (h2 : x ≤ hi) : clip x lo hi = x := by
  unfold clip; rw [max_eq_left h1, min_eq_left h2]

theorem clip_low {α : Type} [LinearOrder α] (x lo hi : α) (h1 : x ≤ lo) (h : lo ≤ hi) : clip x lo hi = lo := by
  unfold clip; rw [max_eq_right h1, min_eq_left h]

theorem clip_high {α : Type} [LinearOrder α] (x lo hi : α) (h1 : hi ≤ x) : clip x lo hi = hi := by
  unfold clip; exact min_eq_right (le_trans h1 (le_max_left _ _))

theorem gather_of_get (l : List F) (i : Nat) (v : F) (h : l[i]? = some v) : gather l i = v := by
  have hi := (List.getElem?_eq_some_iff.1 h).1
  unfold gather
  rw [min_eq_left (by omega), List.getD_eq_getElem?_getD, h]; rfl

theorem wrap_of_range (n : Nat) (i : Int) (h0 : 0 ≤ i) (h1 : i < n) : wrap n i = i.toNat := by
  unfold wrap
  rw [if_neg (by omega)]
  simp only
  rw [clip_of_mem _ _ _ h0 (by omega)]

theorem wrap_lt (n : Nat) (i : Int) (h : 0 < n) : wrap n i < n := by
  unfold wrap
  have := (clip_mem (if i < 0 then i + n else i) 0 ((n : Int) - 1) (by omega)).2
  have := (clip_mem (if i < 0 then i + n else i) 0 ((n : Int) - 1) (by omega)).1
  simp only
  omega

/-! ### Tables with one axis -/

variable [IsStrictOrderedRing F]

theorem strict_le {l : List F} (h : l.Pairwise (· < ·)) : l.Pairwise (· ≤ ·) := h.imp (fun h => le_of_lt h)

/-- The piecewise linear function is single valued for strictly increasing tables. -/
theorem isLinearInterp_unique (pts : List (F × F)) (hs : (pts.map Prod.fst).Pairwise (· < ·)) (x y y' : F)
    (h : IsLinearInterp pts x y) (h' : IsLinearInterp pts x y') : y = y' := by
  have mono : ∀ (i j : Nat) (p q : F × F), pts[i]? = some p → pts[j]? = some q → i < j → p.1 < q.1 := by
    intro i j p q hp hq hij
    obtain ⟨hi, rfl⟩ := List.getElem?_eq_some_iff.1 hp
    obtain ⟨hj, rfl⟩ := List.getElem?_eq_some_iff.1 hq
    have := List.pairwise_iff_getElem.1 hs i j (by simpa using hi) (by simpa using hj) hij
    simpa using this
  -- every case is a segment or an end point; reduce to: value determined by the position
  have key : ∀ z, IsLinearInterp pts x z →
      (∃ i p, pts[i]? = some p ∧ ((i = 0 ∧ x ≤ p.1) ∨ (i + 1 = pts.length ∧ p.1 ≤ x) ∨ x = p.1) ∧ z = p.2) ∨
      (∃ (k : Nat) (p q : F × F), pts[k]? = some p ∧ pts[k + 1]? = some q ∧ p.1 < x ∧ x < q.1 ∧
        z = p.2 + (q.2 - p.2) * ((x - p.1) / (q.1 - p.1))) := by
    intro z hz
    rcases hz with ⟨p, h1, h2, h3⟩ | ⟨p, h1, h2, h3⟩ | ⟨k, p, q, h1, h2, h3, h4, h5⟩
    · left; refine ⟨0, p, ?_, .inl ⟨rfl, h2⟩, h3⟩
      rw [← h1]; exact List.head?_eq_getElem?.symm
    · left
      have hne : pts ≠ [] := by intro h; rw [h] at h1; cases h1
      have hpos : 0 < pts.length := List.length_pos_iff.2 hne
      refine ⟨pts.length - 1, p, ?_, .inr (.inl ⟨by omega, h2⟩), h3⟩
      rw [← h1]; exact (List.getLast?_eq_getElem?).symm
    · rcases eq_or_lt_of_le h3 with e | h3
      · left; refine ⟨k, p, h1, .inr (.inr e.symm), ?_⟩
        rw [h5, e]; simp
      · rcases eq_or_lt_of_le h4 with e | h4
        · left; refine ⟨k + 1, q, h2, .inr (.inr e), ?_⟩
          rw [h5, e, div_self (by linarith)]; ring
        · right; exact ⟨k, p, q, h1, h2, h3, h4, h5⟩
  have len : ∀ (i : Nat) (p : F × F), pts[i]? = some p → i < pts.length := fun i p h => (List.getElem?_eq_some_iff.1 h).1
  rcases key y h with ⟨i, p, hi, hc, rfl⟩ | ⟨k, p, q, hk, hk1, hx1, hx2, rfl⟩ <;>
    rcases key y' h' with ⟨j, r, hj, hd, rfl⟩ | ⟨m, r, s, hm, hm1, hx3, hx4, rfl⟩
  · rcases lt_trichotomy i j with hij | hij | hij
    · have := mono i j p r hi hj hij
      have := len i p hi; have := len j r hj
      rcases hc with ⟨c1, c2⟩ | ⟨c1, c2⟩ | c2 <;> rcases hd with ⟨d1, d2⟩ | ⟨d1, d2⟩ | d2 <;>
        first | omega | (exfalso; linarith)
    · subst hij; rw [hi] at hj; cases hj; rfl
    · have := mono j i r p hj hi hij
      have := len i p hi; have := len j r hj
      rcases hc with ⟨c1, c2⟩ | ⟨c1, c2⟩ | c2 <;> rcases hd with ⟨d1, d2⟩ | ⟨d1, d2⟩ | d2 <;>
        first | omega | (exfalso; linarith)
  · exfalso
    have l1 := len (m + 1) s hm1
    rcases le_or_gt i m with hle | hgt
    · have hpr : p.1 ≤ r.1 := by
        rcases eq_or_lt_of_le hle with e | hlt
        · subst e; rw [hi] at hm; cases hm; exact le_refl _
        · exact le_of_lt (mono i m p r hi hm hlt)
      rcases hc with ⟨c1, c2⟩ | ⟨c1, c2⟩ | c2
      · linarith
      · omega
      · linarith
    · have hps : s.1 ≤ p.1 := by
        rcases eq_or_lt_of_le (show m + 1 ≤ i by omega) with e | hlt
        · rw [e] at hm1; rw [hi] at hm1; cases hm1; exact le_refl _
        · exact le_of_lt (mono (m + 1) i s p hm1 hi hlt)
      rcases hc with ⟨c1, c2⟩ | ⟨c1, c2⟩ | c2
      · omega
      · linarith
      · linarith
  · exfalso
    have l1 := len (k + 1) q hk1
    rcases le_or_gt j k with hle | hgt
    · have hpr : r.1 ≤ p.1 := by
        rcases eq_or_lt_of_le hle with e | hlt
        · subst e; rw [hj] at hk; cases hk; exact le_refl _
        · exact le_of_lt (mono j k r p hj hk hlt)
      rcases hd with ⟨c1, c2⟩ | ⟨c1, c2⟩ | c2
      · linarith
      · omega
      · linarith
    · have hps : q.1 ≤ r.1 := by
        rcases eq_or_lt_of_le (show k + 1 ≤ j by omega) with e | hlt
        · rw [e] at hk1; rw [hj] at hk1; cases hk1; exact le_refl _
        · exact le_of_lt (mono (k + 1) j q r hk1 hj hlt)
      rcases hd with ⟨c1, c2⟩ | ⟨c1, c2⟩ | c2
      · omega
      · linarith
      · linarith
  · rcases lt_trichotomy k m with hkm | hkm | hkm
    · exfalso
      have : q.1 ≤ r.1 := by
        rcases eq_or_lt_of_le (show k + 1 ≤ m by omega) with e | hlt
        · rw [e] at hk1; rw [hm] at hk1; cases hk1; exact le_refl _
        · exact le_of_lt (mono (k + 1) m q r hk1 hm hlt)
      linarith
    · subst hkm; rw [hk] at hm; rw [hk1] at hm1; cases hm; cases hm1; rfl
    · exfalso
      have : s.1 ≤ p.1 := by
        rcases eq_or_lt_of_le (show m + 1 ≤ k by omega) with e | hlt
        · rw [e] at hm1; rw [hk] at hm1; cases hm1; exact le_refl _
        · exact le_of_lt (mono (m + 1) k s p hm1 hk hlt)
      linarith

theorem zip_get (ref val : List F) (hlen : ref.length = val.length) (i : Nat) (r : F) (h : ref[i]? = some r) :
    ∃ v, val[i]? = some v ∧ (ref.zip val)[i]? = some (r, v) := by
  obtain ⟨hi, rfl⟩ := List.getElem?_eq_some_iff.1 h
  refine ⟨val[i]'(by omega), by simp, ?_⟩
  rw [List.getElem?_eq_some_iff]
  exact ⟨by simp; omega, by simp⟩

theorem get_exists (l : List F) (i : Nat) (h : i < l.length) : ∃ r, l[i]? = some r := ⟨l[i], by simp [h]⟩

theorem curve_spec (ref val : List F) (hlen : ref.length = val.length) (hne : ref ≠ [])
    (hs : ref.Pairwise (· < ·)) (x : F) : IsLinearInterp (ref.zip val) x (curve ref val x) := by
  have hpos : 0 < ref.length := List.length_pos_iff.2 hne
  have hcnt := fun k hk => (Hist.lt_countP_lt_iff ref (strict_le hs) x k hk).symm
  have hle : ref.countP (fun b => decide (b < x)) ≤ ref.length := List.countP_le_length
  unfold curve
  generalize ref.countP (fun b => decide (b < x)) = r at *
  simp only
  rcases Nat.eq_zero_or_pos r with h0 | h0
  · -- below the first point
    subst h0
    obtain ⟨a, ha⟩ := get_exists ref 0 hpos
    obtain ⟨v, hv, hz⟩ := zip_get ref val hlen 0 a ha
    have hxa : x ≤ a := by
      have := hcnt 0 hpos
      have ha' := (List.getElem?_eq_some_iff.1 ha).2
      simp only [lt_irrefl, false_iff, not_lt] at this
      rw [ha'] at this; exact this
    simp only [Nat.zero_sub, Nat.zero_min, gather_of_get _ _ _ ha, gather_of_get _ _ _ hv]
    refine .inl ⟨(a, v), ?_, hxa, ?_⟩
    · rw [List.head?_eq_getElem?]; exact hz
    · simp only
      split
      · rename_i hp
        rw [← mul_add, mul_div_assoc, div_self (ne_of_gt hp), mul_one]
      · rfl
  · obtain ⟨m, rfl⟩ : ∃ m, r = m + 1 := ⟨r - 1, by omega⟩
    obtain ⟨a, ha⟩ := get_exists ref m (by omega)
    obtain ⟨v, hv, hz⟩ := zip_get ref val hlen m a ha
    have hax : a < x := by
      have := (hcnt m (by omega)).1 (by omega)
      rwa [(List.getElem?_eq_some_iff.1 ha).2] at this
    by_cases hlast : m + 1 < ref.length
    · -- between two points
      obtain ⟨b, hb⟩ := get_exists ref (m + 1) hlast
      obtain ⟨w, hw, hz'⟩ := zip_get ref val hlen (m + 1) b hb
      have hxb : x ≤ b := by
        have := hcnt (m + 1) hlast
        rw [(List.getElem?_eq_some_iff.1 hb).2] at this
        simp only [lt_irrefl, false_iff, not_lt] at this
        exact this
      rw [min_eq_left (by omega), min_eq_left (by omega)]
      simp only [Nat.add_sub_cancel, gather_of_get _ _ _ ha, gather_of_get _ _ _ hv, gather_of_get _ _ _ hb,
        gather_of_get _ _ _ hw]
      refine .inr (.inr ⟨m, (a, v), (b, w), hz, hz', le_of_lt hax, hxb, ?_⟩)
      have e1 : |x - b| = b - x := by rw [abs_sub_comm]; exact abs_of_nonneg (by linarith)
      have e2 : |x - a| = x - a := abs_of_nonneg (by linarith)
      rw [e1, e2, if_pos (by linarith)]
      simp only
      have hba : b - a ≠ 0 := by intro h; linarith
      have hba' : b - x + (x - a) ≠ 0 := by intro h; linarith
      field_simp
      ring
    · -- above the last point
      have hm : m + 1 = ref.length := by omega
      rw [min_eq_right (by omega), min_eq_left (by omega)]
      have e : ref.length - 1 = m := by omega
      simp only [e, Nat.add_sub_cancel, gather_of_get _ _ _ ha, gather_of_get _ _ _ hv]
      refine .inr (.inl ⟨(a, v), ?_, le_of_lt hax, ?_⟩)
      · rw [List.getLast?_eq_getElem?]
        simp only [List.length_zip, ← hlen, min_self]
        rw [e]; exact hz
      · simp only
        split
        · rename_i hp
          rw [← mul_add, mul_div_assoc, div_self (ne_of_gt hp), mul_one]
        · rfl

theorem linear1d_spec (ref val : List F) (hlen : ref.length = val.length) (h2 : 2 ≤ ref.length)
    (hs : ref.Pairwise (· < ·)) (x : F) : IsLinearInterp (ref.zip val) x (linear1d ref val x) := by
  have hcnt := fun k hk => (Hist.lt_countP_le_iff ref (strict_le hs) x k hk).symm
  have hle : ref.countP (fun b => decide (b ≤ x)) ≤ ref.length := List.countP_le_length
  unfold linear1d
  generalize ref.countP (fun b => decide (b ≤ x)) = r at *
  simp only
  obtain ⟨a, ha⟩ := get_exists ref 0 (by omega)
  obtain ⟨v, hv, hz⟩ := zip_get ref val hlen 0 a ha
  obtain ⟨b, hb⟩ := get_exists ref (ref.length - 1) (by omega)
  obtain ⟨w, hw, hzw⟩ := zip_get ref val hlen (ref.length - 1) b hb
  simp only [gather_of_get _ _ _ ha, gather_of_get _ _ _ hv, gather_of_get _ _ _ hb, gather_of_get _ _ _ hw]
  by_cases hxa : x < a
  · rw [if_pos hxa]
    refine .inl ⟨(a, v), ?_, le_of_lt hxa, rfl⟩
    rw [List.head?_eq_getElem?]; exact hz
  · rw [if_neg hxa]
    by_cases hbx : b < x
    · rw [if_pos hbx]
      refine .inr (.inl ⟨(b, w), ?_, le_of_lt hbx, rfl⟩)
      rw [List.getLast?_eq_getElem?]
      simp only [List.length_zip, ← hlen, min_self]
      exact hzw
    · rw [if_neg hbx]
      have hr1 : 1 ≤ r := by
        have := (hcnt 0 (by omega)).2 (by rw [(List.getElem?_eq_some_iff.1 ha).2]; exact not_lt.1 hxa)
        omega
      obtain ⟨m, hm⟩ : ∃ m, min (max r 1) (ref.length - 1) = m + 1 :=
        ⟨min (max r 1) (ref.length - 1) - 1, by omega⟩
      rw [hm]
      have hmr : m < r := by omega
      have hml : m + 1 < ref.length := by omega
      obtain ⟨p, hp⟩ := get_exists ref m (by omega)
      obtain ⟨q, hq⟩ := get_exists ref (m + 1) hml
      obtain ⟨s, hs', hzs⟩ := zip_get ref val hlen m p hp
      obtain ⟨t, ht, hzt⟩ := zip_get ref val hlen (m + 1) q hq
      have hpq : p < q := by
        have := List.pairwise_iff_getElem.1 hs m (m + 1) (by omega) hml (by omega)
        rwa [(List.getElem?_eq_some_iff.1 hp).2, (List.getElem?_eq_some_iff.1 hq).2] at this
      have hpx : p ≤ x := by
        have := (hcnt m (by omega)).1 hmr
        rwa [(List.getElem?_eq_some_iff.1 hp).2] at this
      have hxq : x ≤ q := by
        by_cases hlast : m + 1 = ref.length - 1
        · rw [← hlast] at hb
          rw [hb] at hq; cases hq
          exact not_lt.1 hbx
        · have : ¬ (m + 1 < r) := by omega
          have := mt (hcnt (m + 1) hml).2 this
          rw [(List.getElem?_eq_some_iff.1 hq).2] at this
          exact le_of_lt (not_le.1 this)
      simp only [Nat.add_sub_cancel, gather_of_get _ _ _ hp, gather_of_get _ _ _ hq, gather_of_get _ _ _ hs',
        gather_of_get _ _ _ ht]
      rw [if_neg (by intro h; linarith)]
      refine .inr (.inr ⟨m, (p, s), (q, t), hzs, hzt, hpx, hxq, ?_⟩)
      simp only
      ring

theorem argmin_spec (l : List F) (hne : l ≠ []) :
    ∃ v, l[argmin l]? = some v ∧ (∀ (j : Nat) (w : F), l[j]? = some w → v ≤ w) ∧ ∀ (j : Nat) (w : F), j < argmin l → l[j]? = some w → v < w := by
  induction l with
  | nil => exact absurd rfl hne
  | cons a l ih =>
    cases l with
    | nil =>
      refine ⟨a, rfl, ?_, ?_⟩
      · intro j w hj
        cases j with
        | zero => simp at hj; exact le_of_eq hj
        | succ j => simp at hj
      · intro j w hj; simp [argmin] at hj
    | cons b l =>
      obtain ⟨v, h1, h2, h3⟩ := ih (by simp)
      have hd : (b :: l).getD (argmin (b :: l)) 0 = v := by rw [List.getD_eq_getElem?_getD, h1]; rfl
      unfold argmin
      simp only [hd]
      by_cases hva : v < a
      · rw [if_pos hva]
        refine ⟨v, h1, ?_, ?_⟩
        · intro j w hj
          cases j with
          | zero => simp at hj; exact hj ▸ le_of_lt hva
          | succ j => exact h2 j w hj
        · intro j w hlt hj
          cases j with
          | zero => simp at hj; exact hj ▸ hva
          | succ j => exact h3 j w (by omega) hj
      · rw [if_neg hva]
        refine ⟨a, rfl, ?_, ?_⟩
        · intro j w hj
          cases j with
          | zero => simp at hj; exact le_of_eq hj
          | succ j => exact le_trans (not_lt.1 hva) (h2 j w hj)
        · intro j w hlt; omega

theorem nearest_spec (x : F) (y : List F) (hne : y ≠ []) :
    ∃ b, y[nearest x y]? = some b ∧ (∀ c ∈ y, |x - b| ≤ |x - c|) ∧
      ∀ (j : Nat) (c : F), j < nearest x y → y[j]? = some c → |x - b| < |x - c| := by
  obtain ⟨v, h1, h2, h3⟩ := argmin_spec (y.map (fun b => |x - b|)) (by simpa using hne)
  unfold nearest
  rw [List.getElem?_map] at h1
  cases hb : y[argmin (y.map (fun b => |x - b|))]? with
  | none => rw [hb] at h1; cases h1
  | some b =>
    rw [hb] at h1
    simp only [Option.map_some, Option.some.injEq] at h1
    refine ⟨b, rfl, ?_, ?_⟩
    · intro c hc
      obtain ⟨j, hj⟩ := List.getElem?_of_mem hc
      rw [h1]; exact h2 j _ (by rw [List.getElem?_map, hj]; rfl)
    · intro j c hj hc
      rw [h1]; exact h3 j _ hj (by rw [List.getElem?_map, hc]; rfl)

theorem linspace_length (lo hi : F) (n : Nat) : (linspace lo hi n).length = n := by simp [linspace]

theorem linspace_get (lo hi : F) (n i : Nat) (h : i < n) :
    (linspace lo hi n)[i]? = some (lo + (hi - lo) / ((n : F) - 1) * (i : F)) := by
  simp [linspace, h]

/-! ### One axis of a grid -/

theorem binSize_pos (n : Nat) (a : Axis F) (hn : 2 ≤ n) (ha : a.lo < a.hi) : 0 < binSize n a := by
  unfold binSize
  have : (2 : F) ≤ (n : F) := by exact_mod_cast hn
  exact div_pos (by linarith) (by linarith)

theorem binSize_mul (n : Nat) (a : Axis F) (hn : 2 ≤ n) : binSize n a * ((n : F) - 1) = a.hi - a.lo := by
  unfold binSize
  have : (2 : F) ≤ (n : F) := by exact_mod_cast hn
  have h1 : (n : F) - 1 ≠ 0 := by intro h; linarith
  field_simp

variable [FloorRing F]

theorem cell_range (n : Nat) (f : F) (hn : 2 ≤ n) : 0 ≤ cell n f ∧ cell n f + 1 ≤ (n : Int) - 1 := by
  have := clip_mem ⌊f⌋ 0 ((n : Int) - 2) (by omega)
  unfold cell
  omega

theorem offset_range (n : Nat) (f : F) : 0 ≤ offset n f ∧ offset n f ≤ 1 :=
  clip_mem _ 0 1 zero_le_one

/-- Cell index plus offset is the clamped fractional position. -/
theorem cell_add_offset (n : Nat) (f : F) (hn : 2 ≤ n) :
    (cell n f : F) + offset n f = clip f 0 ((n : F) - 1) := by
  have hn' : (2 : F) ≤ (n : F) := by exact_mod_cast hn
  rcases lt_or_ge f 0 with h | h
  · have hc : cell n f = 0 := clip_low _ _ _ (by rw [Int.floor_le_iff]; push_cast; linarith) (by omega)
    rw [clip_low f 0 _ (le_of_lt h) (by linarith)]
    unfold offset
    rw [hc, clip_low _ _ _ (by push_cast; linarith) zero_le_one]; simp
  · rcases le_or_gt ((n : F) - 1) f with h' | h'
    · have hc : cell n f = (n : Int) - 2 := by
        apply clip_high
        rw [Int.le_floor]; push_cast; linarith
      rw [clip_high f 0 _ h']
      unfold offset
      rw [hc, clip_high _ _ _ (by push_cast; linarith)]
      push_cast; ring
    · have hc : cell n f = ⌊f⌋ := by
        apply clip_of_mem
        · exact Int.floor_nonneg.2 h
        · have : ⌊f⌋ < (n : Int) - 1 := by rw [Int.floor_lt]; push_cast; exact h'
          omega
      rw [clip_of_mem f 0 _ h (le_of_lt h')]
      unfold offset
      rw [hc, clip_of_mem]
      · ring
      · have := Int.floor_le f; linarith
      · have := Int.lt_floor_add_one f; linarith

/-- Linear blend along one axis. -/
def axisLerp (n : Nat) (a : Axis F) (x : F) (v : Nat → F) : F :=
  (1 - offset n (frac n a x)) * v (wrap n (cell n (frac n a x)))
    + offset n (frac n a x) * v (wrap n (cell n (frac n a x) + 1))

theorem bilinear_eq (g : Grid2 F) (a0 a1 : Axis F) (x y : F) :
    bilinear g a0 a1 x y = axisLerp g.n0 a0 x (fun i => axisLerp g.n1 a1 y (fun j => g.val i j)) := by
  unfold bilinear axisLerp; ring

theorem trilinear_eq (g : Grid3 F) (a0 a1 a2 : Axis F) (x y z : F) :
    trilinear g a0 a1 a2 x y z = axisLerp g.n0 a0 x (fun i => axisLerp g.n1 a1 y (fun j =>
      axisLerp g.n2 a2 z (fun k => g.val i j k))) := by
  unfold trilinear axisLerp; ring

/-- The blend with indices in range. -/
theorem axisLerp_eq (n : Nat) (a : Axis F) (x : F) (v : Nat → F) (hn : 2 ≤ n) :
    ∃ (i : Nat) (t : F), i + 1 < n ∧ 0 ≤ t ∧ t ≤ 1 ∧ (i : F) + t = clip (frac n a x) 0 ((n : F) - 1) ∧
      axisLerp n a x v = (1 - t) * v i + t * v (i + 1) := by
  obtain ⟨h0, h1⟩ := cell_range n (frac n a x) hn
  obtain ⟨i, hi⟩ := Int.eq_ofNat_of_zero_le h0
  obtain ⟨t0, t1⟩ := offset_range n (frac n a x)
  refine ⟨i, offset n (frac n a x), by omega, t0, t1, ?_, ?_⟩
  · rw [← cell_add_offset n _ hn, hi]; simp
  · unfold axisLerp
    rw [wrap_of_range n _ h0 (by omega), wrap_of_range n _ (by omega) (by omega), hi]
    rfl

/-- The blend only depends on the clamped position. -/
theorem lerp_unique (v : Nat → F) (i j : Nat) (s t : F) (hs0 : 0 ≤ s) (hs1 : s ≤ 1) (ht0 : 0 ≤ t) (ht1 : t ≤ 1)
    (h : (i : F) + s = (j : F) + t) : (1 - s) * v i + s * v (i + 1) = (1 - t) * v j + t * v (j + 1) := by
  rcases lt_trichotomy i j with hij | hij | hij
  · have hij' : (i : F) + 1 ≤ (j : F) := by exact_mod_cast hij
    have e1 : s = 1 := by linarith
    have e2 : t = 0 := by linarith
    have e3 : (i : F) + 1 = (j : F) := by linarith
    have : i + 1 = j := by exact_mod_cast e3
    rw [e1, e2, ← this]; ring
  · subst hij
    have : s = t := by linarith
    rw [this]
  · have hij' : (j : F) + 1 ≤ (i : F) := by exact_mod_cast hij
    have e1 : t = 1 := by linarith
    have e2 : s = 0 := by linarith
    have e3 : (j : F) + 1 = (i : F) := by linarith
    have : j + 1 = i := by exact_mod_cast e3
    rw [e1, e2, ← this]; ring

theorem frac_node (n : Nat) (a : Axis F) (k : Nat) (hn : 2 ≤ n) (ha : a.lo < a.hi) :
    frac n a (a.lo + binSize n a * (k : F)) = k := by
  have := ne_of_gt (binSize_pos n a hn ha)
  unfold frac
  field_simp
  ring

theorem axisLerp_node (n : Nat) (a : Axis F) (k : Nat) (v : Nat → F) (hn : 2 ≤ n) (ha : a.lo < a.hi) (hk : k < n) :
    axisLerp n a (a.lo + binSize n a * (k : F)) v = v k := by
  obtain ⟨i, t, hi, t0, t1, hit, he⟩ := axisLerp_eq n a (a.lo + binSize n a * (k : F)) v hn
  rw [he]
  rw [frac_node n a k hn ha, clip_of_mem _ _ _ (by positivity) (by
    have : (k : F) + 1 ≤ (n : F) := by exact_mod_cast hk
    linarith)] at hit
  have := lerp_unique v i k t 0 t0 t1 (le_refl 0) zero_le_one (by linarith)
  rw [this]; ring

theorem axisLerp_bounds (n : Nat) (a : Axis F) (x : F) (v : Nat → F) (hn : 2 ≤ n) (m M : F)
    (hv : ∀ i, i < n → m ≤ v i ∧ v i ≤ M) : m ≤ axisLerp n a x v ∧ axisLerp n a x v ≤ M := by
  obtain ⟨i, t, hi, t0, t1, hit, he⟩ := axisLerp_eq n a x v hn
  rw [he]
  obtain ⟨a1, a2⟩ := hv i (by omega)
  obtain ⟨b1, b2⟩ := hv (i + 1) hi
  constructor
  · nlinarith [mul_nonneg (sub_nonneg.2 t1) (sub_nonneg.2 a1), mul_nonneg t0 (sub_nonneg.2 b1)]
  · nlinarith [mul_nonneg (sub_nonneg.2 t1) (sub_nonneg.2 a2), mul_nonneg t0 (sub_nonneg.2 b2)]

theorem frac_clip (n : Nat) (a : Axis F) (x : F) (hn : 2 ≤ n) (ha : a.lo < a.hi) :
    clip (frac n a x) 0 ((n : F) - 1) = frac n a (clip x a.lo a.hi) := by
  have hb := binSize_pos n a hn ha
  have hm := binSize_mul n a hn
  have hn' : (2 : F) ≤ (n : F) := by exact_mod_cast hn
  rcases le_or_gt x a.lo with h | h
  · rw [clip_low x _ _ h (le_of_lt ha)]
    rw [clip_low _ _ _ _ (by linarith)]
    · simp [frac]
    · unfold frac; exact div_nonpos_of_nonpos_of_nonneg (by linarith) (le_of_lt hb)
  · rcases le_or_gt a.hi x with h' | h'
    · rw [clip_high x _ _ h']
      have e : frac n a a.hi = (n : F) - 1 := by
        unfold frac; rw [← hm]; field_simp
      rw [e]
      apply clip_high
      unfold frac
      rw [le_div_iff₀ hb, mul_comm, hm]; linarith
    · rw [clip_of_mem x _ _ (le_of_lt h) (le_of_lt h')]
      apply clip_of_mem
      · unfold frac; exact div_nonneg (by linarith) (le_of_lt hb)
      · unfold frac; rw [div_le_iff₀ hb, mul_comm, hm]; linarith

theorem clip_idem {α : Type} [LinearOrder α] (x lo hi : α) (h : lo ≤ hi) :
    clip (clip x lo hi) lo hi = clip x lo hi :=
  clip_of_mem _ _ _ (clip_mem x lo hi h).1 (clip_mem x lo hi h).2

theorem axisLerp_clip (n : Nat) (a : Axis F) (x : F) (v : Nat → F) (hn : 2 ≤ n) (ha : a.lo < a.hi) :
    axisLerp n a x v = axisLerp n a (clip x a.lo a.hi) v := by
  obtain ⟨i, t, hi, t0, t1, hit, he⟩ := axisLerp_eq n a x v hn
  obtain ⟨j, s, hj, s0, s1, hjs, he'⟩ := axisLerp_eq n a (clip x a.lo a.hi) v hn
  rw [he, he']
  apply lerp_unique v i j t s t0 t1 s0 s1
  rw [hit, hjs, frac_clip n a x hn ha, frac_clip n a _ hn ha, clip_idem _ _ _ (le_of_lt ha)]

theorem axisLerp_affine (n : Nat) (a : Axis F) (x b c : F) (v : Nat → F) (hn : 2 ≤ n) (ha : a.lo < a.hi)
    (hx : a.lo ≤ x) (hx' : x ≤ a.hi) (hv : ∀ i, i < n → v i = b + c * (a.lo + binSize n a * (i : F))) :
    axisLerp n a x v = b + c * x := by
  obtain ⟨i, t, hi, t0, t1, hit, he⟩ := axisLerp_eq n a x v hn
  rw [he, hv i (by omega), hv (i + 1) hi]
  rw [frac_clip n a x hn ha, clip_of_mem x _ _ hx hx'] at hit
  have hb := ne_of_gt (binSize_pos n a hn ha)
  have hx2 : x = a.lo + binSize n a * ((i : F) + t) := by
    rw [hit]; unfold frac; field_simp; ring
  conv_rhs => rw [hx2]
  push_cast
  ring

/-- One axis of a regular map is linear interpolation in the table of nodes. -/
theorem axisLerp_linear (n : Nat) (a : Axis F) (x : F) (v : Nat → F) (hn : 2 ≤ n) (ha : a.lo < a.hi) :
    IsLinearInterp ((List.range n).map (fun i : Nat => (a.lo + binSize n a * (i : F), v i))) x (axisLerp n a x v) := by
  have hb := binSize_pos n a hn ha
  have hget : ∀ i, i < n → ((List.range n).map (fun i : Nat => (a.lo + binSize n a * (i : F), v i)))[i]? =
      some (a.lo + binSize n a * (i : F), v i) := by
    intro i hi; simp [hi]
  have hm := binSize_mul n a hn
  rcases le_or_gt x a.lo with h | h
  · rw [axisLerp_clip n a x v hn ha, clip_low x _ _ h (le_of_lt ha)]
    have := axisLerp_node n a 0 v hn ha (by omega)
    simp only [Nat.cast_zero, mul_zero, add_zero] at this
    rw [this]
    refine .inl ⟨(a.lo + binSize n a * ((0 : Nat) : F), v 0), ?_, ?_, rfl⟩
    · rw [List.head?_eq_getElem?]; exact hget 0 (by omega)
    · simpa using h
  · rcases le_or_gt a.hi x with h' | h'
    · rw [axisLerp_clip n a x v hn ha, clip_high x _ _ h']
      have := axisLerp_node n a (n - 1) v hn ha (by omega)
      have hcast : ((n - 1 : Nat) : F) = (n : F) - 1 := by
        rw [Nat.cast_sub (by omega)]; simp
      have hhi : a.lo + binSize n a * ((n - 1 : Nat) : F) = a.hi := by rw [hcast, hm]; ring
      rw [hhi] at this
      rw [this]
      refine .inr (.inl ⟨(a.hi, v (n - 1)), ?_, h', rfl⟩)
      rw [List.getLast?_eq_getElem?]
      simp only [List.length_map, List.length_range]
      rw [hget (n - 1) (by omega), hhi]
    · obtain ⟨i, t, hi, t0, t1, hit, he⟩ := axisLerp_eq n a x v hn
      rw [frac_clip n a x hn ha, clip_of_mem x _ _ (le_of_lt h) (le_of_lt h')] at hit
      have hx2 : x = a.lo + binSize n a * ((i : F) + t) := by
        rw [hit]; unfold frac; field_simp; ring
      refine .inr (.inr ⟨i, _, _, hget i (by omega), hget (i + 1) hi, ?_, ?_, ?_⟩)
      · simp only; rw [hx2]; nlinarith
      · simp only; push_cast; rw [hx2]; nlinarith
      · simp only
        rw [he]
        have : (x - (a.lo + binSize n a * (i : F))) / (a.lo + binSize n a * ((i + 1 : Nat) : F) -
            (a.lo + binSize n a * (i : F))) = t := by
          push_cast
          have e1 : x - (a.lo + binSize n a * (i : F)) = binSize n a * t := by rw [hx2]; ring
          have e2 : a.lo + binSize n a * ((i : F) + 1) - (a.lo + binSize n a * (i : F)) = binSize n a := by ring
          rw [e1, e2]; field_simp
        rw [this]; ring

end

/-! ### Averages -/

theorem IsAverage.bounds {F : Type} [Field F] [LinearOrder F] [IsStrictOrderedRing F] {vals : List F} {y : F}
    (h : IsAverage vals y) (m M : F) (hv : ∀ v ∈ vals, m ≤ v ∧ v ≤ M) : m ≤ y ∧ y ≤ M := by
  obtain ⟨ws, hl, hp, h1, rfl⟩ := h
  have key : ∀ (vals ws : List F), ws.length = vals.length → (∀ w ∈ ws, 0 < w) → (∀ v ∈ vals, m ≤ v ∧ v ≤ M) →
      m * ws.sum ≤ ((vals.zip ws).map (fun p => p.1 * p.2)).sum ∧
      ((vals.zip ws).map (fun p => p.1 * p.2)).sum ≤ M * ws.sum := by
    intro vals
    induction vals with
    | nil => intro ws hl _ _; simp at hl; subst hl; simp
    | cons v vs ih =>
      intro ws hl hp hv
      cases ws with
      | nil => simp at hl
      | cons w ws =>
        obtain ⟨i1, i2⟩ := ih ws (by simpa using hl) (fun x hx => hp x (by simp [hx])) (fun x hx => hv x (by simp [hx]))
        have hw := hp w (by simp)
        obtain ⟨v1, v2⟩ := hv v (by simp)
        simp only [List.zip_cons_cons, List.map_cons, List.sum_cons, mul_add]
        constructor
        · nlinarith [mul_nonneg (le_of_lt hw) (sub_nonneg.2 v1)]
        · nlinarith [mul_nonneg (le_of_lt hw) (sub_nonneg.2 v2)]
  have := key vals ws hl hp hv
  rw [h1] at this
  simpa using this

theorem sum_pos_of_pos (l : List ℝ) (hne : l ≠ []) (h : ∀ x ∈ l, 0 < x) : 0 < l.sum := by
  induction l with
  | nil => exact absurd rfl hne
  | cons a l ih =>
    rw [List.sum_cons]
    have ha := h a (by simp)
    by_cases hl : l = []
    · subst hl; simpa using ha
    · have := ih hl (fun x hx => h x (by simp [hx])); linarith

theorem sum_map_div (l : List ℝ) (s : ℝ) : (l.map (· / s)).sum = l.sum / s := by
  induction l with
  | nil => simp
  | cons a l ih => simp only [List.map_cons, List.sum_cons, ih]; ring

theorem average_of_weights (vw : List (ℝ × ℝ)) (hne : vw ≠ []) (h : ∀ p ∈ vw, 0 < p.2) :
    IsAverage (vw.map Prod.fst) ((vw.map (fun p => p.1 * p.2)).sum / (vw.map Prod.snd).sum) := by
  have hs := sum_pos_of_pos (vw.map Prod.snd) (by simpa using hne) (by
    intro x hx; obtain ⟨p, hp, rfl⟩ := List.mem_map.1 hx; exact h p hp)
  refine ⟨(vw.map Prod.snd).map (· / (vw.map Prod.snd).sum), by simp, ?_, ?_, ?_⟩
  · intro w hw
    obtain ⟨x, hx, rfl⟩ := List.mem_map.1 hw
    obtain ⟨p, hp, rfl⟩ := List.mem_map.1 hx
    exact div_pos (h p hp) hs
  · rw [sum_map_div]; exact div_self (ne_of_gt hs)
  · generalize (vw.map Prod.snd).sum = s
    rw [← sum_map_div]
    congr 1
    clear hne h hs
    induction vw with
    | nil => rfl
    | cons p l ih => simp [mul_div_assoc] at ih ⊢; exact ih

theorem weighted_average (vd : List (ℝ × ℝ)) (hne : vd ≠ []) (h : ∀ p ∈ vd, 0 < p.2) :
    IsAverage (vd.map Prod.fst) (weighted vd) := by
  have := average_of_weights (vd.map (fun p => (p.1, 1 / p.2))) (by simpa using hne) (by
    intro q hq; obtain ⟨p, hp, rfl⟩ := List.mem_map.1 hq; exact one_div_pos.2 (h p hp))
  simp only [List.map_map, Function.comp_def, mul_one_div] at this
  exact this

theorem floatPosMin_pos : 0 < floatPosMin := by unfold floatPosMin; positivity

theorem floatPosMin_le : floatPosMin ≤ floatPosMax := by unfold floatPosMin floatPosMax; norm_num

theorem clip_dist_pos (d : ℝ) : 0 < clip d floatPosMin floatPosMax :=
  lt_of_lt_of_le floatPosMin_pos (clip_mem d _ _ floatPosMin_le).1

theorem sum_map_mul_const (l : List (ℝ × ℝ)) (f : ℝ × ℝ → ℝ) (c : ℝ) :
    (l.map (fun p => f p * c)).sum = (l.map f).sum * c := by
  induction l with
  | nil => simp
  | cons p l ih => simp only [List.map_cons, List.sum_cons, ih, add_mul]

theorem weighted_inverse (vd : List (ℝ × ℝ)) (hne : vd ≠ []) (h : ∀ p ∈ vd, 0 < p.2) :
    IsInverseDistance vd (weighted vd) := by
  have hs := sum_pos_of_pos (vd.map (fun p => 1 / p.2)) (by simpa using hne) (by
    intro x hx; obtain ⟨p, hp, rfl⟩ := List.mem_map.1 hx; exact one_div_pos.2 (h p hp))
  refine ⟨1 / (vd.map (fun p => 1 / p.2)).sum, one_div_pos.2 hs, ?_, ?_⟩
  · have : (fun p : ℝ × ℝ => 1 / (vd.map (fun p => 1 / p.2)).sum / p.2) =
        fun p => 1 / p.2 * (1 / (vd.map (fun p => 1 / p.2)).sum) := by funext p; ring
    rw [this, sum_map_mul_const vd (fun p => 1 / p.2)]
    rw [mul_one_div, div_self (ne_of_gt hs)]
  · have : (fun p : ℝ × ℝ => p.1 * (1 / (vd.map (fun p => 1 / p.2)).sum / p.2)) =
        fun p => p.1 / p.2 * (1 / (vd.map (fun p => 1 / p.2)).sum) := by funext p; ring
    rw [this, sum_map_mul_const vd (fun p => p.1 / p.2)]
    unfold weighted
    rw [mul_one_div]

theorem abs_sum_le (l : List (ℝ × ℝ)) (v : ℝ) (h : ∀ p ∈ l, 0 < p.2) :
    |(l.map (fun p => p.1 / p.2)).sum - v * (l.map (fun p => 1 / p.2)).sum| ≤ (l.map (fun p => |p.1 - v| / p.2)).sum := by
  induction l with
  | nil => simp
  | cons p l ih =>
    simp only [List.map_cons, List.sum_cons]
    have i := ih (fun q hq => h q (by simp [hq]))
    have hp := h p (by simp)
    have e : p.1 / p.2 + (l.map (fun p => p.1 / p.2)).sum - v * (1 / p.2 + (l.map (fun p => 1 / p.2)).sum) =
      (p.1 - v) / p.2 + ((l.map (fun p => p.1 / p.2)).sum - v * (l.map (fun p => 1 / p.2)).sum) := by ring
    rw [e]
    refine le_trans (abs_add_le _ _) (add_le_add ?_ i)
    rw [abs_div, abs_of_pos hp]

/-- The average is close to the value at the nearest corner when that corner is much nearer than the others. -/
theorem weighted_near (v d : ℝ) (l : List (ℝ × ℝ)) (hd : 0 < d) (h : ∀ p ∈ l, 0 < p.2) :
    |weighted ((v, d) :: l) - v| ≤ d * (l.map (fun p => |p.1 - v| / p.2)).sum := by
  have hall : ∀ p ∈ ((v, d) :: l), 0 < p.2 := by
    intro p hp
    rcases List.mem_cons.1 hp with rfl | hp
    · exact hd
    · exact h p hp
  have hs := sum_pos_of_pos (((v, d) :: l).map (fun p => 1 / p.2)) (by simp) (by
    intro x hx; obtain ⟨p, hp, rfl⟩ := List.mem_map.1 hx; exact one_div_pos.2 (hall p hp))
  have hb := abs_sum_le ((v, d) :: l) v hall
  have hge : 1 / d ≤ (((v, d) :: l).map (fun p => 1 / p.2)).sum := by
    simp only [List.map_cons, List.sum_cons]
    have : 0 ≤ (l.map (fun p => 1 / p.2)).sum := List.sum_nonneg (by
      intro x hx; obtain ⟨p, hp, rfl⟩ := List.mem_map.1 hx; exact (one_div_pos.2 (h p hp)).le)
    linarith
  have hr : 0 ≤ (l.map (fun p => |p.1 - v| / p.2)).sum := List.sum_nonneg (by
      intro x hx; obtain ⟨p, hp, rfl⟩ := List.mem_map.1 hx; exact div_nonneg (abs_nonneg _) (h p hp).le)
  simp only [List.map_cons (f := fun p : ℝ × ℝ => |p.1 - v| / p.2), List.sum_cons, sub_self, abs_zero, zero_div, zero_add] at hb
  unfold weighted
  generalize (((v, d) :: l).map (fun p => 1 / p.2)).sum = S at hs hge hb
  generalize (((v, d) :: l).map (fun p => p.1 / p.2)).sum = T at hb
  generalize (l.map (fun p => |p.1 - v| / p.2)).sum = R at hr hb
  have e : T / S - v = (T - v * S) / S := by field_simp
  rw [e, abs_div, abs_of_pos hs, div_le_iff₀ hs]
  refine le_trans hb ?_
  have : 1 ≤ d * S := by
    rw [div_le_iff₀ hd] at hge; linarith
  nlinarith

theorem clip_dist_ge (d b : ℝ) (h : b ≤ d) (hb : b ≤ floatPosMax) : b ≤ clip d floatPosMin floatPosMax := by
  unfold clip; exact le_min (le_trans h (le_max_left _ _)) hb

/-! ### Cumulative integrals -/

section
variable {F : Type} [Field F] [LinearOrder F] [IsStrictOrderedRing F]

theorem cumsum_length (acc : F) (l : List F) : (cumsum acc l).length = l.length := by
  induction l generalizing acc with
  | nil => rfl
  | cons a l ih => simp [cumsum, ih]

theorem cumsum_get (acc : F) (l : List F) (k : Nat) (h : k < l.length) :
    (cumsum acc l)[k]? = some (acc + (l.take (k + 1)).sum) := by
  induction l generalizing acc k with
  | nil => simp at h
  | cons a l ih =>
    cases k with
    | zero => simp [cumsum]
    | succ k =>
      simp only [cumsum, List.getElem?_cons_succ]
      rw [ih (acc + a) k (by simpa using h)]
      simp [add_assoc]

theorem cumsum_sorted (acc : F) (l : List F) (h : ∀ x ∈ l, 0 ≤ x) :
    (cumsum acc l).Pairwise (· ≤ ·) ∧ ∀ y ∈ cumsum acc l, acc ≤ y := by
  induction l generalizing acc with
  | nil => simp [cumsum]
  | cons a l ih =>
    have ha := h a (by simp)
    obtain ⟨i1, i2⟩ := ih (acc + a) (fun x hx => h x (by simp [hx]))
    simp only [cumsum, List.pairwise_cons, List.mem_cons]
    refine ⟨⟨i2, i1⟩, ?_⟩
    rintro y (rfl | hy)
    · linarith
    · have := i2 y hy; linarith

theorem segments_nonneg (xy : List (F × F)) (hx : (xy.map Prod.fst).Pairwise (· ≤ ·)) (hy : ∀ p ∈ xy, 0 ≤ p.2) :
    ∀ s ∈ segments xy, 0 ≤ s := by
  induction xy with
  | nil => simp [segments]
  | cons p l ih =>
    cases l with
    | nil => simp [segments]
    | cons q l =>
      simp only [List.map_cons, List.pairwise_cons] at hx
      intro s hs
      simp only [segments, List.mem_cons] at hs
      rcases hs with rfl | hs
      · have h1 := hx.1 q.1 (by simp)
        have h2 := hy p (by simp)
        have h3 := hy q (by simp)
        exact mul_nonneg (by linarith) (by positivity)
      · exact ih (by simp only [List.map_cons, List.pairwise_cons]; exact hx.2) (fun r hr => hy r (by simp [hr])) s hs

theorem segments_length (xy : List (F × F)) : (segments xy).length = xy.length - 1 := by
  induction xy with
  | nil => rfl
  | cons p l ih =>
    cases l with
    | nil => rfl
    | cons q l => simp only [segments, List.length_cons] at ih ⊢; omega

theorem midpoints_length (xy : List (F × F)) : (midpoints xy).length = xy.length - 1 := by
  induction xy with
  | nil => rfl
  | cons p l ih =>
    cases l with
    | nil => rfl
    | cons q l => simp only [midpoints, List.length_cons] at ih ⊢; omega

theorem midpoints_get (xy : List (F × F)) (k : Nat) (p q : F × F) (hp : xy[k]? = some p) (hq : xy[k + 1]? = some q) :
    (midpoints xy)[k]? = some (1 / 2 * (q.1 + p.1)) := by
  induction xy generalizing k with
  | nil => simp at hp
  | cons a l ih =>
    cases l with
    | nil => simp at hq
    | cons b l =>
      cases k with
      | zero => simp at hp hq; subst hp; subst hq; simp [midpoints]
      | succ k =>
        simp only [midpoints, List.getElem?_cons_succ]
        exact ih k (by simpa using hp) (by simpa using hq)

theorem segments_affine (b c : F) (xy : List (F × F)) (h : ∀ p ∈ xy, p.2 = b + c * p.1) (p q : F × F) (k : Nat)
    (hp : xy[0]? = some p) (hq : xy[k]? = some q) :
    ((segments xy).take k).sum = b * (q.1 - p.1) + c * (q.1 ^ 2 - p.1 ^ 2) / 2 := by
  induction xy generalizing p k with
  | nil => simp at hp
  | cons a l ih =>
    simp only [List.getElem?_cons_zero, Option.some.injEq] at hp
    subst hp
    cases k with
    | zero => simp at hq; subst hq; simp
    | succ k =>
      cases l with
      | nil => simp at hq
      | cons a' l =>
        simp only [segments, List.take_succ_cons, List.sum_cons]
        rw [ih (fun r hr => h r (by simp [hr])) a' k (by simp) (by simpa using hq)]
        rw [h a (by simp), h a' (by simp)]
        ring

end
end Verif.Interp
