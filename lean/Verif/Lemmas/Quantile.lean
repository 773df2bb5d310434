/-
Helper lemmas: piecewise linear functions through increasing tables are monotone, and exchanging the columns inverts them.
-/
import Verif.Lemmas.Interp

namespace Verif.Interp
open Verif

section
variable {F : Type} [Field F] [LinearOrder F] [IsStrictOrderedRing F]

theorem pairwise_get {α β : Type} (pts : List α) (f : α → β) (R : β → β → Prop) (hs : (pts.map f).Pairwise R) (i j : Nat) (p q : α)
    (hp : pts[i]? = some p) (hq : pts[j]? = some q) (hij : i < j) : R (f p) (f q) := by
  obtain ⟨hi, hp'⟩ := List.getElem?_eq_some_iff.1 hp
  obtain ⟨hj, hq'⟩ := List.getElem?_eq_some_iff.1 hq
  have := List.pairwise_iff_getElem.1 hs i j (by simpa using hi) (by simpa using hj) hij
  simpa [hp', hq'] using this

/-- The segment formula lies between the values of its ends. -/
theorem segment_between (p q : F × F) (x : F) (h : p.1 < q.1) (h1 : p.1 ≤ x) (h2 : x ≤ q.1) (hv : p.2 ≤ q.2) :
    p.2 ≤ p.2 + (q.2 - p.2) * ((x - p.1) / (q.1 - p.1)) ∧ p.2 + (q.2 - p.2) * ((x - p.1) / (q.1 - p.1)) ≤ q.2 := by
  have hd : 0 < q.1 - p.1 := sub_pos.2 h
  have t0 : 0 ≤ (x - p.1) / (q.1 - p.1) := div_nonneg (sub_nonneg.2 h1) hd.le
  have t1 : (x - p.1) / (q.1 - p.1) ≤ 1 := (div_le_one hd).2 (by linarith)
  have hw : 0 ≤ q.2 - p.2 := sub_nonneg.2 hv
  constructor <;> nlinarith

/-- A table point to the left of `x` lies below the value, one to the right above. -/
theorem interp_compare (pts : List (F × F)) (hs : (pts.map Prod.fst).Pairwise (· < ·)) (hv : (pts.map Prod.snd).Pairwise (· ≤ ·))
    (x y : F) (h : IsLinearInterp pts x y) (p : F × F) (hp : p ∈ pts) : (p.1 ≤ x → p.2 ≤ y) ∧ (x ≤ p.1 → y ≤ p.2) := by
  obtain ⟨j, hj⟩ := List.mem_iff_getElem?.1 hp
  have lt := pairwise_get pts Prod.fst (· < ·) hs
  have le := pairwise_get pts Prod.snd (· ≤ ·) hv
  have le' : ∀ (i j : Nat) (p q : F × F), pts[i]? = some p → pts[j]? = some q → i ≤ j → p.2 ≤ q.2 := by
    intro i j p q hp hq hij
    rcases Nat.lt_or_eq_of_le hij with h | rfl
    · exact le i j p q hp hq h
    · rw [hp] at hq; cases hq; exact le_refl _
  rcases h with ⟨a, ha, hx, rfl⟩ | ⟨a, ha, hx, rfl⟩ | ⟨k, a, b, ha, hb, h1, h2, rfl⟩
  · have ha0 : pts[0]? = some a := by rw [← List.head?_eq_getElem?]; exact ha
    refine ⟨fun hpx => ?_, fun _ => le' 0 j _ _ ha0 hj (Nat.zero_le _)⟩
    rcases Nat.eq_zero_or_pos j with rfl | h0
    · rw [ha0] at hj; cases hj; exact le_refl _
    · exact absurd (lt 0 j a p ha0 hj h0) (not_lt.2 (hpx.trans hx))
  · have hl : pts[pts.length - 1]? = some a := by rw [← List.getLast?_eq_getElem?]; exact ha
    have hjl : j < pts.length := (List.getElem?_eq_some_iff.1 hj).1
    refine ⟨fun _ => le' j _ _ _ hj hl (by omega), fun hpx => ?_⟩
    rcases Nat.lt_or_ge j (pts.length - 1) with h0 | h0
    · exact absurd (lt j _ p a hj hl h0) (not_lt.2 (hx.trans hpx))
    · have : j = pts.length - 1 := by omega
      subst this; rw [hl] at hj; cases hj; exact le_refl _
  · have hab : a.1 < b.1 := lt k (k + 1) a b ha hb (by omega)
    have hvab : a.2 ≤ b.2 := le k (k + 1) a b ha hb (by omega)
    obtain ⟨b1, b2⟩ := segment_between a b x hab h1 h2 hvab
    refine ⟨fun hpx => ?_, fun hpx => ?_⟩
    · rcases Nat.lt_or_ge k j with h0 | h0
      · rcases Nat.lt_or_eq_of_le (Nat.succ_le_of_lt h0) with h3 | h3
        · exact absurd (lt (k + 1) j b p hb hj h3) (not_lt.2 (hpx.trans h2))
        · subst h3
          have hbp : p = b := by rw [hb] at hj; exact (Option.some.inj hj).symm
          have hxb : x = b.1 := le_antisymm h2 (hbp ▸ hpx)
          rw [hbp]
          rw [hxb, div_self (ne_of_gt (sub_pos.2 hab))]
          linarith
      · exact (le' j k p a hj ha h0).trans b1
    · rcases Nat.lt_or_ge k j with h0 | h0
      · exact b2.trans (le' (k + 1) j b p hb hj h0)
      · rcases Nat.lt_or_eq_of_le h0 with h3 | h3
        · exact absurd (lt j k p a hj ha h3) (not_lt.2 (h1.trans hpx))
        · subst h3
          have hap : p = a := by rw [ha] at hj; exact (Option.some.inj hj).symm
          have hxa : x = a.1 := le_antisymm (hap ▸ hpx) h1
          rw [hap]
          rw [hxa, sub_self, zero_div, mul_zero, add_zero]

/-- Values lie between bounds of the table. -/
theorem interp_bounds (pts : List (F × F)) (hs : (pts.map Prod.fst).Pairwise (· < ·)) (x y m M : F)
    (h : IsLinearInterp pts x y) (hb : ∀ p ∈ pts, m ≤ p.2 ∧ p.2 ≤ M) : m ≤ y ∧ y ≤ M := by
  rcases h with ⟨a, ha, -, rfl⟩ | ⟨a, ha, -, rfl⟩ | ⟨k, a, b, ha, hb', h1, h2, rfl⟩
  · exact hb a (List.mem_of_mem_head? ha)
  · exact hb a (List.mem_of_getLast? ha)
  · have hab : a.1 < b.1 := pairwise_get pts Prod.fst (· < ·) hs k (k + 1) a b ha hb' (by omega)
    have hd : 0 < b.1 - a.1 := sub_pos.2 hab
    have t0 : 0 ≤ (x - a.1) / (b.1 - a.1) := div_nonneg (sub_nonneg.2 h1) hd.le
    have t1 : (x - a.1) / (b.1 - a.1) ≤ 1 := (div_le_one hd).2 (by linarith)
    have A := hb a (List.mem_of_getElem? ha)
    have B := hb b (List.mem_of_getElem? hb')
    generalize (x - a.1) / (b.1 - a.1) = t at t0 t1 ⊢
    have e : a.2 + (b.2 - a.2) * t = (1 - t) * a.2 + t * b.2 := by ring
    have s0 : 0 ≤ 1 - t := by linarith
    constructor
    · nlinarith [mul_le_mul_of_nonneg_left A.1 s0, mul_le_mul_of_nonneg_left B.1 t0]
    · nlinarith [mul_le_mul_of_nonneg_left A.2 s0, mul_le_mul_of_nonneg_left B.2 t0]

/-- The piecewise linear function through a nondecreasing table is monotone. -/
theorem interp_mono (pts : List (F × F)) (hs : (pts.map Prod.fst).Pairwise (· < ·)) (hv : (pts.map Prod.snd).Pairwise (· ≤ ·))
    (x x' y y' : F) (h : IsLinearInterp pts x y) (h' : IsLinearInterp pts x' y') (hx : x ≤ x') : y ≤ y' := by
  have c' := interp_compare pts hs hv x' y' h'
  rcases h with ⟨a, ha, h1, rfl⟩ | ⟨a, ha, h1, rfl⟩ | ⟨k, a, b, ha, hb, h1, h2, rfl⟩
  · have ha0 : pts[0]? = some a := by rw [← List.head?_eq_getElem?]; exact ha
    rcases le_total a.1 x' with h3 | h3
    · exact (c' a (List.mem_of_getElem? ha0)).1 h3
    · rw [isLinearInterp_unique pts hs x' y' a.2 h' (.inl ⟨a, ha, h3, rfl⟩)]
  · exact (c' a (List.mem_of_getLast? ha)).1 (h1.trans hx)
  · have hab : a.1 < b.1 := pairwise_get pts Prod.fst (· < ·) hs k (k + 1) a b ha hb (by omega)
    have hvab : a.2 ≤ b.2 := pairwise_get pts Prod.snd (· ≤ ·) hv k (k + 1) a b ha hb (by omega)
    rcases le_total b.1 x' with h3 | h3
    · exact (segment_between a b x hab h1 h2 hvab).2.trans ((c' b (List.mem_of_getElem? hb)).1 h3)
    · have e := isLinearInterp_unique pts hs x' _ _ h' (.inr (.inr ⟨k, a, b, ha, hb, h1.trans hx, h3, rfl⟩))
      rw [e]
      have hd : 0 < b.1 - a.1 := sub_pos.2 hab
      have : (x - a.1) / (b.1 - a.1) ≤ (x' - a.1) / (b.1 - a.1) := div_le_div_of_nonneg_right (by linarith) hd.le
      have hw : 0 ≤ b.2 - a.2 := sub_nonneg.2 hvab
      nlinarith [mul_le_mul_of_nonneg_left this hw]

/-- Exchanging the columns of an increasing table inverts the function between its ends. -/
theorem interp_swap (pts : List (F × F)) (hs : (pts.map Prod.fst).Pairwise (· < ·)) (hv : (pts.map Prod.snd).Pairwise (· < ·))
    (x y : F) (h : IsLinearInterp pts x y) (a z : F × F) (ha : pts.head? = some a) (hz : pts.getLast? = some z)
    (h1 : a.1 ≤ x) (h2 : x ≤ z.1) : IsLinearInterp (pts.map Prod.swap) y x := by
  rcases h with ⟨p, hp, hx, rfl⟩ | ⟨p, hp, hx, rfl⟩ | ⟨k, p, q, hp, hq, h3, h4, rfl⟩
  · rw [ha] at hp; cases hp
    exact .inl ⟨a.swap, by simp [ha], le_refl _, le_antisymm hx h1⟩
  · rw [hz] at hp; cases hp
    exact .inr (.inl ⟨z.swap, by simp [hz], le_refl _, le_antisymm h2 hx⟩)
  · have hd : p.1 < q.1 := pairwise_get pts Prod.fst (· < ·) hs k (k + 1) p q hp hq (by omega)
    have hw : p.2 < q.2 := pairwise_get pts Prod.snd (· < ·) hv k (k + 1) p q hp hq (by omega)
    obtain ⟨b1, b2⟩ := segment_between p q x hd h3 h4 hw.le
    refine .inr (.inr ⟨k, p.swap, q.swap, by simp [hp], by simp [hq], b1, b2, ?_⟩)
    have hd' : q.1 - p.1 ≠ 0 := (sub_pos.2 hd).ne'
    have hw' : q.2 - p.2 ≠ 0 := (sub_pos.2 hw).ne'
    simp only [Prod.fst_swap, Prod.snd_swap]
    field_simp
    ring

/-- Increasing positions and positive values give positive segments. -/
theorem segments_pos (xy : List (F × F)) (hx : (xy.map Prod.fst).Pairwise (· < ·)) (hy : ∀ p ∈ xy, 0 < p.2) :
    ∀ s ∈ segments xy, 0 < s := by
  induction xy with
  | nil => simp [segments]
  | cons p l ih =>
    cases l with
    | nil => simp [segments]
    | cons q l =>
      simp only [segments, List.mem_cons, forall_eq_or_imp]
      simp only [List.map_cons, List.pairwise_cons] at hx
      refine ⟨?_, ih (by simp only [List.map_cons, List.pairwise_cons]; exact hx.2) (fun r hr => hy r (List.mem_cons_of_mem _ hr))⟩
      have h1 : p.1 < q.1 := hx.1 q.1 (by simp)
      have h2 := hy p (by simp)
      have h3 := hy q (by simp)
      have h4 : 0 < q.1 - p.1 := sub_pos.2 h1
      positivity

/-- Running sums of positive numbers increase strictly. -/
theorem cumsum_strict (acc : F) (l : List F) (h : ∀ x ∈ l, 0 < x) :
    (cumsum acc l).Pairwise (· < ·) ∧ ∀ y ∈ cumsum acc l, acc < y := by
  induction l generalizing acc with
  | nil => simp [cumsum]
  | cons a l ih =>
    have ha := h a (by simp)
    obtain ⟨h1, h2⟩ := ih (acc + a) (fun x hx => h x (List.mem_cons_of_mem _ hx))
    simp only [cumsum, List.pairwise_cons, List.mem_cons, forall_eq_or_imp]
    exact ⟨⟨h2, h1⟩, by linarith, fun y hy => by have := h2 y hy; linarith⟩

end
end Verif.Interp
