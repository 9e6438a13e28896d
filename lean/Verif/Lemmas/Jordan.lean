import Verif.Spec.Simple
import Verif.Lemmas.RayDir
import Verif.Lemmas.PolyNew
import Verif.Lemmas.Hull
import Mathlib.Data.ZMod.Basic
import Mathlib.Algebra.BigOperators.Group.Finset.Basic

/-!
# Sides of simple polygons

The number of crossings as a value in `ZMod 2`, how it changes along a segment that meets the polygon, and which side of
the sides of a simple polygon is inside.
-/

set_option linter.unusedSectionVars false

namespace Jagua

variable {K : Type*} [Field K] [LinearOrder K] [IsStrictOrderedRing K]

/-! ### Indicators -/

open Classical in
/-- One if the statement holds, otherwise zero. -/
noncomputable def ind (P : Prop) : ZMod 2 := if P then 1 else 0

theorem ind_pos {P : Prop} (h : P) : ind P = 1 := by unfold ind; rw [if_pos h]

theorem ind_zero {P : Prop} (h : ¬ P) : ind P = 0 := by unfold ind; rw [if_neg h]

theorem ind_congr {P Q : Prop} (h : P ↔ Q) : ind P = ind Q := by rw [propext h]

theorem ind_self (P : Prop) : ind P + ind P = 0 := CharTwo.add_self_eq_zero _

theorem ind_not (P : Prop) : ind (¬ P) = ind P + 1 := by
  by_cases h : P
  · rw [ind_pos h, ind_zero (by simpa using h)]; decide
  · rw [ind_zero h, ind_pos h]; decide

theorem ind_one {P : Prop} : ind P = 1 ↔ P := by
  by_cases h : P
  · rw [ind_pos h]; exact iff_of_true rfl h
  · rw [ind_zero h]; exact iff_of_false (by decide) h

theorem ind_or {P Q : Prop} (h : ¬ (P ∧ Q)) : ind (P ∨ Q) = ind P + ind Q := by
  by_cases hp : P
  · have hq : ¬ Q := fun hq => h ⟨hp, hq⟩
    rw [ind_pos (.inl hp), ind_pos hp, ind_zero hq, add_zero]
  · rw [ind_zero hp, zero_add]
    exact ind_congr (by tauto)

/-- The four indicators of a parity statement. -/
theorem ind_four {A B C D : Prop} : ind A + ind B + (ind C + ind D) = 0 ↔ ((A ↔ B) ↔ (C ↔ D)) := by
  by_cases a : A <;> by_cases b : B <;> by_cases c : C <;> by_cases d : D <;>
    simp only [a, b, c, d, ind_pos, ind_zero, not_false_eq_true, iff_true, iff_false, not_true_eq_false, iff_self] <;> decide

/-! ### Crossings in terms of signs -/

theorem crossesRay_sign {p a b : Point K} : CrossesRay p (a, b) ↔
    (a.y < p.y ∧ p.y ≤ b.y ∧ 0 < hullCross a b p) ∨ (b.y < p.y ∧ p.y ≤ a.y ∧ hullCross a b p < 0) := by
  rw [← crossesDir_right, crossesDir_iff (e := ⟨0, 1⟩) (by simp)]
  have e : dirSide ⟨1, 0⟩ p a * dirSide ⟨0, 1⟩ p b - dirSide ⟨1, 0⟩ p b * dirSide ⟨0, 1⟩ p a = hullCross a b p := by
    unfold dirSide hullCross; simp only; ring
  simp only
  rw [e]
  unfold dirSide
  simp only [one_mul, zero_mul, sub_zero, sub_neg, sub_nonneg]

theorem inStrip_sign {p q v : Point K} : InStrip p q v ↔ p.y ≤ v.y ∧ v.y < q.y ∧ hullCross p q v < 0 := by
  unfold InStrip
  have : lside p q v = - hullCross p q v := by unfold lside hullCross; ring
  rw [this, neg_pos]

/-- The strip between two points, in any order. -/
def Strip (p q v : Point K) : Prop := InStrip p q v ∨ InStrip q p v

theorem strip_sign {p q v : Point K} : Strip p q v ↔
    (p.y ≤ v.y ∧ v.y < q.y ∧ hullCross p q v < 0) ∨ (q.y ≤ v.y ∧ v.y < p.y ∧ 0 < hullCross p q v) := by
  unfold Strip
  rw [inStrip_sign, inStrip_sign]
  have : hullCross q p v = - hullCross p q v := by unfold hullCross; ring
  rw [this, neg_lt_zero]

theorem strip_of_lt {p q v : Point K} (h : p.y < q.y) : Strip p q v ↔ InStrip p q v :=
  ⟨fun h' => h'.resolve_right fun h'' => absurd (h''.1.trans_lt h''.2.1) (not_lt.2 h.le), .inl⟩

theorem strip_comm {p q v : Point K} : Strip p q v ↔ Strip q p v := or_comm

theorem strip_level {p q v : Point K} (h : p.y = q.y) : ¬ Strip p q v := by
  rintro (h' | h')
  · exact absurd (h'.1.trans_lt h'.2.1) (by rw [h]; exact lt_irrefl _)
  · exact absurd (h'.1.trans_lt h'.2.1) (by rw [h]; exact lt_irrefl _)

/-! ### The number of crossings modulo two -/

/-- The number of sides crossed by the ray from a point, modulo two. -/
noncomputable def rho (pts : List (Point K)) (p : Point K) : ZMod 2 := ((sides pts).map fun s => ind (CrossesRay p s)).sum

open Classical in
theorem sum_ind {α : Type*} (l : List α) (A : α → Prop) : (l.map fun s => ind (A s)).sum = ((l.countP fun s => A s : ℕ) : ZMod 2) := by
  induction l with
  | nil => simp
  | cons a l ih =>
    rw [List.map_cons, List.sum_cons, ih, List.countP_cons]
    by_cases h : A a
    · rw [ind_pos h]; simp [h, add_comm]
    · rw [ind_zero h]; simp [h]

theorem rho_odd (pts : List (Point K)) (p : Point K) : rho pts p = 1 ↔ Odd (rayCount pts p) := by
  unfold rho rayCount
  rw [sum_ind, ZMod.natCast_eq_one_iff_odd]

theorem zmod2_cases (x : ZMod 2) : x = 0 ∨ x = 1 := by
  revert x; decide

theorem zmod2_add_self (x : ZMod 2) : x + x = 0 := CharTwo.add_self_eq_zero _

theorem zmod2_eq {x y : ZMod 2} (h : x + y = 0) : x = y := by
  revert x y; decide

/-- The change of the number of crossings of a side between two points, without the part that
cancels over a closed line. -/
noncomputable def disc (p q : Point K) (s : Point K × Point K) : ZMod 2 :=
  ind (CrossesRay p s) + ind (CrossesRay q s) + (ind (Strip p q s.1) + ind (Strip p q s.2))

theorem disc_comm (p q : Point K) (s : Point K × Point K) : disc p q s = disc q p s := by
  unfold disc
  rw [ind_congr (strip_comm (v := s.1)), ind_congr (strip_comm (v := s.2)), add_comm (ind (CrossesRay p s))]

theorem disc_swap (p q a b : Point K) : disc p q (a, b) = disc p q (b, a) := by
  unfold disc
  rw [ind_congr (crossesRay_comm (p := p)), ind_congr (crossesRay_comm (p := q)), add_comm (ind (Strip p q a))]

theorem rho_add (pts : List (Point K)) (p q : Point K) : rho pts p + rho pts q = ((sides pts).map (disc p q)).sum := by
  have h1 : ((sides pts).map fun s => ind (Strip p q s.1) + ind (Strip p q s.2)).sum = 0 := by
    rw [List.sum_map_add, sum_ind, sum_ind, ← Nat.cast_add, ZMod.natCast_eq_zero_iff_even]
    exact strip_count_even pts (Strip p q)
  unfold rho
  rw [← List.sum_map_add, ← add_zero (List.sum _), ← h1, ← List.sum_map_add]
  rfl

theorem disc_avoid {p q : Point K} {s : Point K × Point K} (hd : ∀ w ∈ segPts s.1 s.2, w ∉ segPts p q) : disc p q s = 0 := by
  rcases lt_trichotomy p.y q.y with h | h | h
  · unfold disc
    rw [ind_congr (strip_of_lt h (v := s.1)), ind_congr (strip_of_lt h (v := s.2)), ind_four]
    exact side_parity h hd
  · unfold disc
    rw [ind_zero (strip_level h), ind_zero (strip_level h), ind_congr (level_crosses h hd), ind_self]
    simp
  · rw [disc_comm]
    unfold disc
    rw [ind_congr (strip_of_lt h (v := s.1)), ind_congr (strip_of_lt h (v := s.2)), ind_four]
    exact side_parity h fun w hw => by rw [segPts_comm q p]; exact hd w hw

theorem hullCross_seg {a b p : Point K} (h : p ∈ segPts a b) : hullCross a b p = 0 := by
  obtain ⟨t, -, -, hx, hy⟩ := h
  unfold hullCross
  rw [hx, hy]
  ring

theorem not_crosses_on {a b p : Point K} (h : p ∈ segPts a b) : ¬ CrossesRay p (a, b) := by
  rw [crossesRay_sign, hullCross_seg h]
  simp

theorem disc_on {a b p q : Point K} (hp : p ∈ segPts a b) (hq : q ∈ segPts a b) : disc p q (a, b) = 0 := by
  have z : ∀ v, hullCross p q v = 0 → ¬ Strip p q v := by
    intro v hv
    rw [strip_sign, hv]
    simp
  unfold disc
  rw [ind_zero (not_crosses_on hp), ind_zero (not_crosses_on hq), ind_zero (z a ?_), ind_zero (z b ?_)]
  · simp
  all_goals
    obtain ⟨t, -, -, hx, hy⟩ := hp
    obtain ⟨u, -, -, ux, uy⟩ := hq
    unfold hullCross
    rw [hx, hy, ux, uy]
    ring

/-- The sign pattern at a corner. -/
def CornerSign (a v b : Point K) : Prop :=
  (v.y < a.y ∧ v.y ≤ b.y ∧ 0 < hullCross a v b) ∨ (a.y ≤ v.y ∧ b.y < v.y ∧ hullCross a v b < 0)

theorem hullCross_self (a b : Point K) : hullCross a b a = 0 := by unfold hullCross; ring

theorem hullCross_self' (a b : Point K) : hullCross a b b = 0 := by unfold hullCross; ring

theorem hullCross_rot (a b c : Point K) : hullCross a b c = hullCross b c a := by unfold hullCross; ring

theorem disc_corner (m v b : Point K) : disc m v (v, b) = ind (CornerSign m v b) := by
  have h1 : ¬ CrossesRay v (v, b) := not_crosses_on (segPts_start _ _)
  have h2 : ¬ Strip m v v := by rw [strip_sign, hullCross_self']; simp
  unfold disc
  simp only
  rw [ind_zero h1, ind_zero h2, add_zero, zero_add, ← ind_or]
  · apply ind_congr
    rw [crossesRay_sign, strip_sign]
    unfold CornerSign
    rw [show hullCross v b m = hullCross m v b by unfold hullCross; ring]
    constructor
    · rintro ((⟨h1, h2, h3⟩ | ⟨h1, h2, h3⟩) | (⟨h1, h2, h3⟩ | ⟨h1, h2, h3⟩))
      · exact .inl ⟨h1, (h1.trans_le h2).le, h3⟩
      · exact .inr ⟨h2, h1.trans_le h2, h3⟩
      · exact .inr ⟨(h1.trans_lt h2).le, h2, h3⟩
      · exact .inl ⟨h1.trans_lt h2, h1, h3⟩
    · rintro (⟨h1, h2, h3⟩ | ⟨h1, h2, h3⟩)
      · rcases le_or_gt m.y b.y with h | h
        · exact .inl (.inl ⟨h1, h, h3⟩)
        · exact .inr (.inr ⟨h2, h, h3⟩)
      · rcases le_or_gt m.y b.y with h | h
        · exact .inr (.inl ⟨h, h2, h3⟩)
        · exact .inl (.inr ⟨h, h1, h3⟩)
  · rw [crossesRay_sign, strip_sign]
    rintro ⟨(⟨h1, h2, h3⟩ | ⟨h1, h2, h3⟩), (⟨h4, h5, h6⟩ | ⟨h4, h5, h6⟩)⟩ <;> linarith

/-- The side goes up, or right if it is horizontal. -/
def Upward (a b : Point K) : Prop := a.y < b.y ∨ (a.y = b.y ∧ a.x < b.x)

theorem upward_swap {a b : Point K} (h : a ≠ b) : Upward b a ↔ ¬ Upward a b := by
  unfold Upward
  rcases lt_trichotomy a.y b.y with h1 | h1 | h1
  · simp [h1, h1.not_gt, h1.ne', h1.ne]
  · have : a.x ≠ b.x := fun h' => h (Point.ext h' h1)
    simp only [h1, lt_irrefl, true_and, false_or, not_lt]
    exact ⟨fun h => h.le, fun h => lt_of_le_of_ne h this.symm⟩
  · simp [h1, h1.not_gt, h1.ne', h1.ne]

/-- A point strictly between two points. -/
def Between (a b m : Point K) : Prop := ∃ t : K, 0 < t ∧ t < 1 ∧ m.x = a.x + t * (b.x - a.x) ∧ m.y = a.y + t * (b.y - a.y)

theorem Between.seg {a b m : Point K} (h : Between a b m) : m ∈ segPts a b := by
  obtain ⟨t, h0, h1, h⟩ := h
  exact ⟨t, h0.le, h1.le, h⟩

theorem Between.symm {a b m : Point K} (h : Between a b m) : Between b a m := by
  obtain ⟨t, h0, h1, hx, hy⟩ := h
  exact ⟨1 - t, by linarith, by linarith, by rw [hx]; ring, by rw [hy]; ring⟩

/-- The change of crossings of a side when leaving it. -/
theorem disc_touch {a b m q : Point K} (hm : Between a b m) (hq : hullCross a b q ≠ 0) :
    disc q m (a, b) = ind (Upward a b) + ind (hullCross a b q < 0) := by
  obtain ⟨t, t0, t1, hx, hy⟩ := hm
  have h1 : ¬ CrossesRay m (a, b) := not_crosses_on ⟨t, t0.le, t1.le, hx, hy⟩
  have ea : hullCross q m a = - (t * hullCross a b q) := by unfold hullCross; rw [hx, hy]; ring
  have eb : hullCross q m b = (1 - t) * hullCross a b q := by unfold hullCross; rw [hx, hy]; ring
  have t1' : 0 < 1 - t := by linarith
  unfold disc
  simp only
  rw [ind_zero h1, add_zero, ind_congr crossesRay_sign, ind_congr strip_sign, ind_congr (strip_sign (v := b)), ea, eb]
  rcases lt_or_gt_of_ne hq with h | h
  · have k1 : ¬ 0 < hullCross a b q := not_lt.2 h.le
    have k2 : 0 < -(t * hullCross a b q) := by nlinarith [mul_pos t0 (neg_pos.2 h)]
    have k3 : (1 - t) * hullCross a b q < 0 := mul_neg_of_pos_of_neg t1' h
    have k4 := k2.not_gt
    have k5 := k3.not_gt
    simp only [h, k1, k2, k3, k4, k5, and_true, and_false, or_false, false_or]
    rw [ind_pos trivial]
    rcases lt_trichotomy a.y b.y with hab | hab | hab
    · have m1 : a.y < m.y := by rw [hy]; nlinarith [mul_pos t0 (sub_pos.2 hab)]
      have m2 : m.y < b.y := by rw [hy]; nlinarith [mul_pos t1' (sub_pos.2 hab)]
      rw [ind_pos (show Upward a b from .inl hab), ind_zero (show ¬ (b.y < q.y ∧ q.y ≤ a.y) from fun h => by linarith [h.1, h.2]),
        ind_zero (show ¬ (m.y ≤ a.y ∧ a.y < q.y) from fun h => by linarith [h.1]),
        ind_zero (show ¬ (q.y ≤ b.y ∧ b.y < m.y) from fun h => by linarith [h.2])]
      decide
    · have m1 : m.y = a.y := by rw [hy, hab]; ring
      rw [ind_zero (show ¬ (b.y < q.y ∧ q.y ≤ a.y) from fun h => by linarith [h.1, h.2]),
        ind_zero (show ¬ (q.y ≤ b.y ∧ b.y < m.y) from fun h => by linarith [h.2]), m1]
      have hh : hullCross a b q = (b.x - a.x) * (q.y - a.y) := by unfold hullCross; rw [hab]; ring
      rw [hh] at h
      by_cases hl : a.y < q.y
      · have : ¬ Upward a b := by
          rintro (h' | ⟨-, h'⟩)
          · linarith
          · nlinarith [mul_pos (sub_pos.2 h') (sub_pos.2 hl)]
        rw [ind_zero this, ind_pos ⟨le_rfl, hl⟩]
        decide
      · have : Upward a b := by
          refine .inr ⟨hab, ?_⟩
          by_contra h'
          nlinarith [mul_nonneg (sub_nonneg.2 (not_lt.1 h')) (sub_nonneg.2 (not_lt.1 hl))]
        rw [ind_pos this, ind_zero (fun h => hl h.2)]
        decide
    · have m1 : m.y < a.y := by rw [hy]; nlinarith [mul_pos t0 (sub_pos.2 hab)]
      have m2 : b.y < m.y := by rw [hy]; nlinarith [mul_pos t1' (sub_pos.2 hab)]
      rw [ind_zero (show ¬ Upward a b from fun h => by rcases h with h | ⟨h, -⟩ <;> linarith)]
      by_cases c1 : q.y ≤ b.y
      · rw [ind_pos (show q.y ≤ b.y ∧ b.y < m.y from ⟨c1, m2⟩), ind_zero (show ¬ (b.y < q.y ∧ q.y ≤ a.y) from fun h => by linarith [h.1]),
          ind_zero (show ¬ (m.y ≤ a.y ∧ a.y < q.y) from fun h => by linarith [h.2])]
        decide
      · rw [ind_zero (show ¬ (q.y ≤ b.y ∧ b.y < m.y) from fun h => c1 h.1)]
        by_cases c2 : q.y ≤ a.y
        · rw [ind_pos (show b.y < q.y ∧ q.y ≤ a.y from ⟨not_le.1 c1, c2⟩), ind_zero (show ¬ (m.y ≤ a.y ∧ a.y < q.y) from fun h => by linarith [h.2])]
          decide
        · rw [ind_zero (show ¬ (b.y < q.y ∧ q.y ≤ a.y) from fun h => c2 h.2), ind_pos (show m.y ≤ a.y ∧ a.y < q.y from ⟨m1.le, not_le.1 c2⟩)]
          decide
  · have k1 : ¬ hullCross a b q < 0 := not_lt.2 h.le
    have k2 : -(t * hullCross a b q) < 0 := by nlinarith [mul_pos t0 h]
    have k3 : 0 < (1 - t) * hullCross a b q := mul_pos t1' h
    have k4 := k2.not_gt
    have k5 := k3.not_gt
    have h' : 0 < hullCross a b q := h
    simp only [h', k1, k2, k3, k4, k5, and_true, and_false, or_false, false_or]
    rw [ind_zero (P := False) id, add_zero]
    rcases lt_trichotomy a.y b.y with hab | hab | hab
    · have m1 : a.y < m.y := by rw [hy]; nlinarith [mul_pos t0 (sub_pos.2 hab)]
      have m2 : m.y < b.y := by rw [hy]; nlinarith [mul_pos t1' (sub_pos.2 hab)]
      rw [ind_pos (show Upward a b from .inl hab)]
      by_cases c1 : q.y ≤ a.y
      · rw [ind_pos (show q.y ≤ a.y ∧ a.y < m.y from ⟨c1, m1⟩), ind_zero (show ¬ (a.y < q.y ∧ q.y ≤ b.y) from fun h => by linarith [h.1]),
          ind_zero (show ¬ (m.y ≤ b.y ∧ b.y < q.y) from fun h => by linarith [h.2])]
        decide
      · rw [ind_zero (show ¬ (q.y ≤ a.y ∧ a.y < m.y) from fun h => c1 h.1)]
        by_cases c2 : q.y ≤ b.y
        · rw [ind_pos (show a.y < q.y ∧ q.y ≤ b.y from ⟨not_le.1 c1, c2⟩), ind_zero (show ¬ (m.y ≤ b.y ∧ b.y < q.y) from fun h => by linarith [h.2])]
          decide
        · rw [ind_zero (show ¬ (a.y < q.y ∧ q.y ≤ b.y) from fun h => c2 h.2), ind_pos (show m.y ≤ b.y ∧ b.y < q.y from ⟨m2.le, not_le.1 c2⟩)]
          decide
    · have m1 : m.y = b.y := by rw [hy, hab]; ring
      rw [ind_zero (show ¬ (a.y < q.y ∧ q.y ≤ b.y) from fun h => by linarith [h.1, h.2]),
        ind_zero (show ¬ (q.y ≤ a.y ∧ a.y < m.y) from fun h => by linarith [h.2]), m1]
      have hh : hullCross a b q = (b.x - a.x) * (q.y - a.y) := by unfold hullCross; rw [hab]; ring
      rw [hh] at h'
      by_cases hl : b.y < q.y
      · have : Upward a b := by
          refine .inr ⟨hab, ?_⟩
          by_contra h''
          nlinarith [mul_nonneg (sub_nonneg.2 (not_lt.1 h'')) (sub_nonneg.2 hl.le)]
        rw [ind_pos this, ind_pos ⟨le_rfl, hl⟩]
        decide
      · have : ¬ Upward a b := by
          rintro (h'' | ⟨-, h''⟩)
          · linarith
          · nlinarith [mul_nonneg (sub_nonneg.2 h''.le) (sub_nonneg.2 (not_lt.1 hl))]
        rw [ind_zero this, ind_zero (fun h => hl h.2)]
        decide
    · have m1 : m.y < a.y := by rw [hy]; nlinarith [mul_pos t0 (sub_pos.2 hab)]
      have m2 : b.y < m.y := by rw [hy]; nlinarith [mul_pos t1' (sub_pos.2 hab)]
      rw [ind_zero (show ¬ Upward a b from fun h => by rcases h with h | ⟨h, -⟩ <;> linarith),
        ind_zero (show ¬ (a.y < q.y ∧ q.y ≤ b.y) from fun h => by linarith [h.1, h.2]),
        ind_zero (show ¬ (m.y ≤ b.y ∧ b.y < q.y) from fun h => by linarith [h.1]),
        ind_zero (show ¬ (q.y ≤ a.y ∧ a.y < m.y) from fun h => by linarith [h.2])]
      decide

/-! ### Turning at a corner -/

/-- The sign pattern depends only on the direction of the first point. -/
theorem cornerSign_between {a v b m : Point K} (hm : Between v a m) : CornerSign m v b ↔ CornerSign a v b := by
  obtain ⟨t, t0, t1, hx, hy⟩ := hm
  have e : hullCross m v b = t * hullCross a v b := by unfold hullCross; rw [hx, hy]; ring
  have e1 : v.y < m.y ↔ v.y < a.y := by
    rw [hy, lt_add_iff_pos_right, mul_pos_iff_of_pos_left t0, sub_pos]
  have e2 : m.y ≤ v.y ↔ a.y ≤ v.y := by rw [← not_lt, e1, not_lt]
  unfold CornerSign
  rw [e, e1, e2, mul_pos_iff_of_pos_left t0]
  have : t * hullCross a v b < 0 ↔ hullCross a v b < 0 := by
    constructor
    · intro h
      by_contra h'
      exact absurd h (not_lt.2 (mul_nonneg t0.le (not_lt.1 h')))
    · exact mul_neg_of_pos_of_neg t0
  rw [this]

/-- Walking around a corner. -/
theorem corner_walk {a v b : Point K} (ha : a ≠ v) (hb : v ≠ b)
    (hs : hullCross a v b = 0 → 0 < (v.x - a.x) * (b.x - v.x) + (v.y - a.y) * (b.y - v.y)) :
    ind (CornerSign a v b) + ind (Upward a v) = ind (CornerSign b v a) + ind (Upward v b) := by
  have e : hullCross b v a = - hullCross a v b := by unfold hullCross; ring
  have d : hullCross a v b = (v.x - a.x) * (b.y - v.y) - (v.y - a.y) * (b.x - v.x) := by unfold hullCross; ring
  unfold CornerSign Upward
  rw [e, neg_pos, neg_lt_zero]
  rcases lt_trichotomy a.y v.y with h1 | h1 | h1 <;> rcases lt_trichotomy b.y v.y with h2 | h2 | h2
  · -- both below
    have hne : hullCross a v b ≠ 0 := by
      intro h0
      have := hs h0
      rw [d] at h0
      nlinarith [mul_pos (sub_pos.2 h1) (sub_pos.2 h2), sq_nonneg (v.x - a.x), sq_nonneg (b.x - v.x), sq_nonneg ((v.x - a.x) * (b.y - v.y)),
        mul_self_nonneg (v.x - a.x), mul_pos (sub_pos.2 h1) (sub_pos.2 h1)]
    rcases lt_or_gt_of_ne hne with h | h <;>
      simp [h1, h2, h1.le, h2.le, h1.not_gt, h2.not_gt, h1.not_ge, h2.not_ge, h, h.not_gt, h2.ne', h1.ne, ind_pos, ind_zero] <;> decide
  · -- below, level
    have hx : b.x ≠ v.x := fun h => hb (Point.ext h h2).symm
    have e : hullCross a v b = (v.y - a.y) * (v.x - b.x) := by rw [d, h2]; ring
    have k : 0 < v.y - a.y := sub_pos.2 h1
    rw [e, mul_pos_iff_of_pos_left k, sub_pos]
    rcases lt_or_gt_of_ne hx with h | h <;>
      simp [h1, h2, h1.not_gt, h1.not_ge, h, h.not_gt, h1.le, ind_pos, ind_zero]
  · -- below, above
    simp [h1, h2, h1.not_gt, h2.not_gt, h1.not_ge, h2.not_ge, ind_pos, ind_zero]
  · -- level, below
    have hx : a.x ≠ v.x := fun h => ha (Point.ext h h1)
    have e : hullCross a v b = (b.y - v.y) * (v.x - a.x) := by rw [d, h1]; ring
    have k : 0 < v.y - b.y := sub_pos.2 h2
    rw [e]
    rcases lt_or_gt_of_ne hx with h | h
    · have k1 : (b.y - v.y) * (v.x - a.x) < 0 := by nlinarith [mul_pos k (sub_pos.2 h)]
      simp [h1, h2, h2.not_gt, h2.not_ge, h, h2.le, h2.ne', k1, ind_pos, ind_zero]
      decide
    · have k1 : 0 < (b.y - v.y) * (v.x - a.x) := by nlinarith [mul_pos k (sub_pos.2 h)]
      simp [h1, h2, h2.not_gt, h2.not_ge, h.not_gt, h2.le, h2.ne', k1.not_gt, ind_zero]
  · -- level, level
    have h0 : hullCross a v b = 0 := by rw [d, h1, h2]; ring
    have := hs h0
    rw [h1, h2, sub_self, mul_zero, add_zero] at this
    simp only [h0, h1, h2, lt_irrefl, and_false, or_false, true_and, false_or]
    congr 1
    apply ind_congr
    constructor
    · intro h
      by_contra h'
      nlinarith [mul_nonneg (sub_nonneg.2 h.le) (sub_nonneg.2 (not_lt.1 h'))]
    · intro h
      by_contra h'
      nlinarith [mul_nonneg (sub_nonneg.2 h.le) (sub_nonneg.2 (not_lt.1 h'))]
  · -- level, above
    have hx : a.x ≠ v.x := fun h => ha (Point.ext h h1)
    have e : hullCross a v b = (b.y - v.y) * (v.x - a.x) := by rw [d, h1]; ring
    have k : 0 < b.y - v.y := sub_pos.2 h2
    rw [e]
    rcases lt_or_gt_of_ne hx with h | h
    · have k1 : 0 < (b.y - v.y) * (v.x - a.x) := by nlinarith [mul_pos k (sub_pos.2 h)]
      simp [h1, h2, h2.not_gt, h2.not_ge, h, k1.not_gt, ind_pos, ind_zero]
    · have k1 : (b.y - v.y) * (v.x - a.x) < 0 := by nlinarith [mul_pos k (sub_pos.2 h)]
      simp [h1, h2, h2.not_gt, h2.not_ge, h.not_gt, k1, ind_pos, ind_zero]
      decide
  · -- above, below
    simp [h1, h2, h1.not_gt, h2.not_gt, h1.not_ge, h2.not_ge, h2.ne', h1.ne', ind_zero]
  · -- above, level
    have e : hullCross a v b = (a.y - v.y) * (b.x - v.x) := by rw [d, h2]; ring
    have k : 0 < a.y - v.y := sub_pos.2 h1
    rw [e, mul_pos_iff_of_pos_left k, sub_pos]
    simp [h1, h2, h1.not_gt, h1.not_ge, h1.ne', ind_zero]
  · -- both above
    have hne : hullCross a v b ≠ 0 := by
      intro h0
      have := hs h0
      rw [d] at h0
      nlinarith [mul_pos (sub_pos.2 h1) (sub_pos.2 h2), sq_nonneg (v.x - a.x), sq_nonneg (b.x - v.x), sq_nonneg ((v.x - a.x) * (b.y - v.y)),
        mul_self_nonneg (v.x - a.x), mul_pos (sub_pos.2 h1) (sub_pos.2 h1)]
    rcases lt_or_gt_of_ne hne with h | h <;>
      simp [h1, h2, h1.le, h2.le, h1.not_gt, h2.not_gt, h1.not_ge, h2.not_ge, h, h.not_gt, h2.ne, h1.ne', ind_pos, ind_zero] <;> decide

end Jagua
