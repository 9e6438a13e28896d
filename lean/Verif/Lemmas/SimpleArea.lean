import Verif.Lemmas.SimplePoly
import Mathlib.Algebra.Order.BigOperators.Group.Finset
import Mathlib.Tactic.FieldSimp
import Mathlib.Tactic.LinearCombination

/-!
# The sign of the area of a simple polygon tells on which side it is
-/

set_option linter.unusedSectionVars false

namespace Jagua

variable {K : Type*} [Field K] [LinearOrder K] [IsStrictOrderedRing K]

/-! ### Alternating sums -/

open Classical in
theorem alt_sum {ι : Type*} (x : ι → K) (up : ι → Prop) : ∀ (n : ℕ) (C : Finset ι), C.card = 2 * n → Set.InjOn x C →
    (∀ s ∈ C, up s ↔ Even (C.filter fun t => x s < x t).card) →
    (0 ≤ ∑ s ∈ C, if up s then x s else - x s) ∧ (0 < n → 0 < ∑ s ∈ C, if up s then x s else - x s) := by
  intro n
  induction n with
  | zero =>
    intro C hc _ _
    obtain rfl : C = ∅ := Finset.card_eq_zero.1 (by simpa using hc)
    simp
  | succ n ih =>
    intro C hc hi hup
    obtain ⟨i, hiC, himax⟩ := Finset.exists_max_image C x (Finset.card_pos.1 (by omega))
    have hc' : (C.erase i).card = 2 * n + 1 := by rw [Finset.card_erase_of_mem hiC]; omega
    obtain ⟨j, hjC, hjmax⟩ := Finset.exists_max_image (C.erase i) x (Finset.card_pos.1 (by omega))
    have hj : j ∈ C := Finset.mem_of_mem_erase hjC
    have hji : j ≠ i := Finset.ne_of_mem_erase hjC
    have hlt : x j < x i := lt_of_le_of_ne (himax j hj) fun h => hji (hi hj hiC h)
    have upi : up i := by
      rw [hup i hiC]
      have : (C.filter fun t => x i < x t) = ∅ := by
        rw [Finset.filter_eq_empty_iff]
        intro t ht
        exact not_lt.2 (himax t ht)
      rw [this]
      simp
    have upj : ¬ up j := by
      rw [hup j hj]
      have : (C.filter fun t => x j < x t) = {i} := by
        ext t
        simp only [Finset.mem_filter, Finset.mem_singleton]
        constructor
        · rintro ⟨h1, h2⟩
          by_contra h3
          exact absurd h2 (not_lt.2 (hjmax t (Finset.mem_erase.2 ⟨h3, h1⟩)))
        · rintro rfl
          exact ⟨hiC, hlt⟩
      rw [this]
      simp
    have hc'' : ((C.erase i).erase j).card = 2 * n := by rw [Finset.card_erase_of_mem hjC]; omega
    have hsub : ∀ s ∈ (C.erase i).erase j, s ∈ C ∧ s ≠ i ∧ s ≠ j := by
      intro s hs
      have h1 := Finset.mem_of_mem_erase hs
      exact ⟨Finset.mem_of_mem_erase h1, Finset.ne_of_mem_erase h1, Finset.ne_of_mem_erase hs⟩
    have := ih ((C.erase i).erase j) hc'' (fun s hs t ht h => hi (hsub s hs).1 (hsub t ht).1 h) (by
      intro s hs
      obtain ⟨h1, h2, h3⟩ := hsub s hs
      rw [hup s h1]
      have hsj : x s < x j := lt_of_le_of_ne (hjmax s (Finset.mem_of_mem_erase hs)) fun h => h3 (hi h1 hj h)
      have e : (C.filter fun t => x s < x t) = insert i (insert j (((C.erase i).erase j).filter fun t => x s < x t)) := by
        ext t
        simp only [Finset.mem_filter, Finset.mem_insert, Finset.mem_erase]
        constructor
        · rintro ⟨k1, k2⟩
          by_cases hti : t = i
          · exact .inl hti
          · by_cases htj : t = j
            · exact .inr (.inl htj)
            · exact .inr (.inr ⟨⟨htj, hti, k1⟩, k2⟩)
        · rintro (rfl | rfl | ⟨⟨-, -, k1⟩, k2⟩)
          · exact ⟨hiC, hsj.trans hlt⟩
          · exact ⟨hj, hsj⟩
          · exact ⟨k1, k2⟩
      rw [e, Finset.card_insert_of_notMem, Finset.card_insert_of_notMem]
      · rw [show ((((C.erase i).erase j).filter fun t => x s < x t).card + 1 + 1) = (((C.erase i).erase j).filter fun t => x s < x t).card + 2 by omega,
          Nat.even_add]
        simp
      · simp
      · simp [hji.symm])
    rw [← Finset.add_sum_erase C _ hiC, ← Finset.add_sum_erase (C.erase i) _ hjC, if_pos upi, if_neg upj]
    exact ⟨by linarith [this.1], fun _ => by linarith [this.1]⟩

/-! ### Levels -/

/-- The abscissa of a side at a level. -/
def xAt (s : Point K × Point K) (l : K) : K := s.1.x + (l - s.1.y) / (s.2.y - s.1.y) * (s.2.x - s.1.x)

/-- A side passes a level. -/
def Passes (l : K) (s : Point K × Point K) : Prop := (s.1.y < l ∧ l < s.2.y) ∨ (s.2.y < l ∧ l < s.1.y)

theorem Passes.between {l : K} {s : Point K × Point K} (h : Passes l s) : Between s.1 s.2 ⟨xAt s l, l⟩ := by
  rcases h with ⟨h1, h2⟩ | ⟨h1, h2⟩
  · have hp : 0 < s.2.y - s.1.y := by linarith
    refine ⟨(l - s.1.y) / (s.2.y - s.1.y), div_pos (by linarith) hp, by rw [div_lt_one hp]; linarith, rfl, ?_⟩
    simp only
    field_simp
    ring
  · have hp : s.2.y - s.1.y < 0 := by linarith
    refine ⟨(l - s.1.y) / (s.2.y - s.1.y), div_pos_of_neg_of_neg (by linarith) hp, by rw [div_lt_one_of_neg hp]; linarith, rfl, ?_⟩
    have := hp.ne
    simp only
    field_simp
    ring

theorem passes_up {l : K} {s : Point K × Point K} (h : Passes l s) : Upward s.1 s.2 ↔ s.1.y < l ∧ l < s.2.y := by
  unfold Upward
  rcases h with ⟨h1, h2⟩ | ⟨h1, h2⟩
  · exact iff_of_true (.inl (h1.trans h2)) ⟨h1, h2⟩
  · refine iff_of_false ?_ (fun h => by linarith [h.1])
    rintro (h | ⟨h, -⟩) <;> linarith

/-- Crossing the ray at a level without vertices. -/
theorem crosses_level {l x : K} {t : Point K × Point K} (h1 : t.1.y ≠ l) (h2 : t.2.y ≠ l) :
    CrossesRay ⟨x, l⟩ t ↔ Passes l t ∧ x < xAt t l := by
  constructor
  · rintro ⟨h, c, hc, hy, hx⟩
    have hp : Passes l t := by
      rcases h with ⟨k1, k2⟩ | ⟨k1, k2⟩
      · exact .inl ⟨k1, lt_of_le_of_ne k2 h2.symm⟩
      · exact .inr ⟨k1, lt_of_le_of_ne k2 h1.symm⟩
    refine ⟨hp, ?_⟩
    have e : c.x = xAt t l := by
      obtain ⟨u, -, -, ux, uy⟩ := hc
      have hne : t.2.y - t.1.y ≠ 0 := by
        rcases hp with ⟨k1, k2⟩ | ⟨k1, k2⟩
        · exact (by linarith : 0 < t.2.y - t.1.y).ne'
        · exact (by linarith : t.2.y - t.1.y < 0).ne
      have : u = (l - t.1.y) / (t.2.y - t.1.y) := by
        rw [eq_div_iff hne]
        simp only at hy
        rw [hy] at uy
        linarith
      rw [ux, this]
      rfl
    rw [← e]
    exact hx
  · rintro ⟨hp, hx⟩
    refine ⟨?_, ⟨xAt t l, l⟩, hp.between.seg, rfl, hx⟩
    rcases hp with ⟨k1, k2⟩ | ⟨k1, k2⟩
    · exact .inl ⟨k1, k2.le⟩
    · exact .inr ⟨k1, k2.le⟩

open Classical in
/-- The contribution of a side at a level. -/
noncomputable def levelTerm (l : K) (s : Point K × Point K) : K :=
  if s.1.y < l ∧ l < s.2.y then xAt s l else if s.2.y < l ∧ l < s.1.y then - xAt s l else 0

open Classical in
theorem passes_even (pts : List (Point K)) {l : K} (hl : ∀ v ∈ pts, v.y ≠ l) : Even ((sides pts).countP fun s => Passes l s) := by
  rw [← ZMod.natCast_eq_zero_iff_even, ← sum_ind]
  have : ((sides pts).map fun s => ind (Passes l s)) = (sides pts).map fun s => ind (s.1.y < l) + ind (s.2.y < l) := by
    apply List.map_congr_left
    intro s hs
    obtain ⟨h1, h2⟩ := sides_mem hs
    have h1 := hl _ h1
    have h2 := hl _ h2
    unfold Passes
    rcases lt_or_gt_of_ne h1 with k1 | k1 <;> rcases lt_or_gt_of_ne h2 with k2 | k2 <;>
      simp [k1, k2, k1.not_gt, k2.not_gt, ind_pos, ind_zero] <;> decide
  rw [this, List.sum_map_add, sum_ind, sum_ind, ← Nat.cast_add, ZMod.natCast_eq_zero_iff_even]
  exact strip_count_even pts fun v => v.y < l

open Classical in
theorem SimplePoly.levelSum {pts : List (Point K)} (h : SimplePoly pts) {l : K} (hl : ∀ v ∈ pts, v.y ≠ l) :
    ((∀ s ∈ sides pts, leftIn pts s = 1) → 0 ≤ ((sides pts).map (levelTerm l)).sum ∧
      ((∃ s ∈ sides pts, Passes l s) → 0 < ((sides pts).map (levelTerm l)).sum)) ∧
    ((∀ s ∈ sides pts, leftIn pts s = 0) → ((sides pts).map (levelTerm l)).sum ≤ 0 ∧
      ((∃ s ∈ sides pts, Passes l s) → ((sides pts).map (levelTerm l)).sum < 0)) := by
  have hnd := sides_nodup h.2.1
  set C : Finset (Point K × Point K) := (sides pts).toFinset.filter (Passes l) with hC
  have hmem : ∀ s, s ∈ C ↔ s ∈ sides pts ∧ Passes l s := by intro s; rw [hC, Finset.mem_filter, List.mem_toFinset]
  have hcard : Even C.card := by
    have := passes_even pts hl
    rwa [List.countP_eq_length_filter, ← List.toFinset_card_of_nodup (hnd.filter _), List.toFinset_filter,
      show ((sides pts).toFinset.filter fun x => decide (Passes l x) = true) = C by rw [hC]; ext; simp] at this
  have hinj : Set.InjOn (fun s => xAt s l) C := by
    intro s hs t ht hst
    by_contra hne
    obtain ⟨s1, s2⟩ := (hmem s).1 hs
    obtain ⟨t1, t2⟩ := (hmem t).1 ht
    have m1 := s2.between.seg
    have m2 := t2.between.seg
    simp only at hst
    rw [← hst] at m2
    rcases h.2.2 s s1 t t1 hne _ m1 m2 with ⟨e, -⟩ | ⟨e, -⟩
    · exact hl _ (sides_mem s1).2 (by rw [← e])
    · exact hl _ (sides_mem t1).2 (by rw [← e])
  have hrho : ∀ s ∈ C, rho pts ⟨xAt s l, l⟩ = (((C.filter fun t => xAt s l < xAt t l).card : ℕ) : ZMod 2) := by
    intro s hs
    unfold rho
    rw [sum_ind, List.countP_eq_length_filter, ← List.toFinset_card_of_nodup (hnd.filter _), List.toFinset_filter]
    congr 2
    ext t
    simp only [decide_eq_true_eq, Finset.mem_filter, List.mem_toFinset]
    rw [hmem]
    constructor
    · rintro ⟨h1, h2⟩
      rw [crosses_level (hl _ (sides_mem h1).1) (hl _ (sides_mem h1).2)] at h2
      exact ⟨⟨h1, h2.1⟩, h2.2⟩
    · rintro ⟨⟨h1, h2⟩, h3⟩
      exact ⟨h1, (crosses_level (hl _ (sides_mem h1).1) (hl _ (sides_mem h1).2)).2 ⟨h2, h3⟩⟩
  have hsum : ((sides pts).map (levelTerm l)).sum = ∑ s ∈ C, if Upward s.1 s.2 then xAt s l else - xAt s l := by
    rw [← List.sum_toFinset _ hnd, hC, Finset.sum_filter]
    apply Finset.sum_congr rfl
    intro s _
    by_cases hp : Passes l s
    · rw [if_pos hp]
      unfold levelTerm
      by_cases hu : s.1.y < l ∧ l < s.2.y
      · rw [if_pos hu, if_pos ((passes_up hp).2 hu)]
      · rw [if_neg hu, if_neg (fun h => hu ((passes_up hp).1 h)), if_pos (hp.resolve_left hu)]
    · rw [if_neg hp]
      unfold levelTerm
      rw [if_neg fun h => hp (.inl h), if_neg fun h => hp (.inr h)]
  have hleft : ∀ s ∈ C, rho pts ⟨xAt s l, l⟩ = leftIn pts s + ind (Upward s.1 s.2) := by
    intro s hs
    obtain ⟨s1, s2⟩ := (hmem s).1 hs
    rw [h.rho_side s1 s2.between (midpoint_between _ _)]
    unfold SimplePoly.leftIn
    have e : ∀ a b : ZMod 2, a = a + b + b := by decide
    exact e _ _
  obtain ⟨n, hn⟩ := hcard
  have hpos : (∃ s ∈ sides pts, Passes l s) → 0 < n := by
    rintro ⟨s, hs, hp⟩
    have := Finset.card_pos.2 ⟨s, (hmem s).2 ⟨hs, hp⟩⟩
    omega
  rw [hsum]
  constructor
  · intro hL
    refine (fun a => ⟨a.1, fun e => a.2 (hpos e)⟩) (alt_sum (fun s => xAt s l) (fun s => Upward s.1 s.2) n C (by omega) hinj ?_)
    intro s hs
    have h1 := hrho s hs
    rw [hleft s hs, hL s ((hmem s).1 hs).1] at h1
    rw [← ZMod.natCast_eq_zero_iff_even, ← h1]
    by_cases hu : Upward s.1 s.2
    · rw [ind_pos hu]; exact iff_of_true hu (by decide)
    · rw [ind_zero hu]; exact iff_of_false hu (by decide)
  · intro hL
    have := alt_sum (fun s => xAt s l) (fun s => ¬ Upward s.1 s.2) n C (by omega) hinj (by
      intro s hs
      have h1 := hrho s hs
      rw [hleft s hs, hL s ((hmem s).1 hs).1] at h1
      rw [← ZMod.natCast_eq_zero_iff_even, ← h1]
      by_cases hu : Upward s.1 s.2
      · rw [ind_pos hu]; exact iff_of_false (not_not.2 hu) (by decide)
      · rw [ind_zero hu]; exact iff_of_true hu (by decide))
    have e : (∑ s ∈ C, if ¬ Upward s.1 s.2 then xAt s l else - xAt s l) = - ∑ s ∈ C, if Upward s.1 s.2 then xAt s l else - xAt s l := by
      rw [← Finset.sum_neg_distrib]
      apply Finset.sum_congr rfl
      intro s _
      by_cases hu : Upward s.1 s.2 <;> simp [hu]
    have this' : (0 ≤ ∑ s ∈ C, if ¬ Upward s.1 s.2 then xAt s l else - xAt s l) ∧
        (0 < n → 0 < ∑ s ∈ C, if ¬ Upward s.1 s.2 then xAt s l else - xAt s l) := by convert this
    rw [e] at this'
    exact ⟨by linarith [this'.1], fun k => by linarith [this'.2 (hpos k)]⟩

/-! ### The area below a level -/

/-- Area between a rising side and the axis, below a level. -/
def riseArea (a b : Point K) (y : K) : K :=
  let c := max a.y (min b.y y)
  (c - a.y) * (a.x + (c - a.y) / (b.y - a.y) * (b.x - a.x) / 2)

/-- The same for any side, negative if it goes down. -/
def underArea (s : Point K × Point K) (y : K) : K :=
  if s.1.y < s.2.y then riseArea s.1 s.2 y else if s.2.y < s.1.y then - riseArea s.2 s.1 y else 0

theorem riseArea_step {a b : Point K} (hab : a.y < b.y) {c d : K} (hcd : c < d) (ha : ¬ (c < a.y ∧ a.y < d)) (hb : ¬ (c < b.y ∧ b.y < d)) :
    riseArea a b d - riseArea a b c = if a.y < (c + d) / 2 ∧ (c + d) / 2 < b.y then (d - c) * xAt (a, b) ((c + d) / 2) else 0 := by
  have hne : b.y - a.y ≠ 0 := (sub_pos.2 hab).ne'
  unfold riseArea
  dsimp only
  rcases le_or_gt d a.y with h1 | h1
  · rw [if_neg (fun h => by linarith [h.1])]
    have e1 : max a.y (min b.y d) = a.y := max_eq_left ((min_le_right _ _).trans h1)
    have e2 : max a.y (min b.y c) = a.y := max_eq_left ((min_le_right _ _).trans (hcd.le.trans h1))
    rw [e1, e2]
    ring
  · have h2 : a.y ≤ c := by
      by_contra h
      exact ha ⟨not_le.1 h, h1⟩
    rcases le_or_gt b.y c with h3 | h3
    · rw [if_neg (fun h => by linarith [h.2])]
      rw [min_eq_left h3, min_eq_left (h3.trans hcd.le)]
      ring
    · have h4 : d ≤ b.y := by
        by_contra h
        exact hb ⟨h3, not_le.1 h⟩
      rw [if_pos ⟨by linarith, by linarith⟩, min_eq_right h4, min_eq_right h3.le, max_eq_right h1.le, max_eq_right h2]
      unfold xAt
      simp only
      field_simp
      ring

theorem xAt_swap {a b : Point K} (h : a.y ≠ b.y) (l : K) : xAt (a, b) l = xAt (b, a) l := by
  have h1 : b.y - a.y ≠ 0 := sub_ne_zero.2 h.symm
  have h2 : a.y - b.y ≠ 0 := sub_ne_zero.2 h
  unfold xAt
  simp only
  rw [show a.y - b.y = -(b.y - a.y) by ring, div_neg]
  field_simp
  ring

theorem underArea_step {s : Point K × Point K} {c d : K} (hcd : c < d) (ha : ¬ (c < s.1.y ∧ s.1.y < d)) (hb : ¬ (c < s.2.y ∧ s.2.y < d)) :
    underArea s d - underArea s c = (d - c) * levelTerm ((c + d) / 2) s := by
  unfold underArea levelTerm
  rcases lt_trichotomy s.1.y s.2.y with h | h | h
  · rw [if_pos h, if_pos h, riseArea_step h hcd ha hb]
    by_cases hk : s.1.y < (c + d) / 2 ∧ (c + d) / 2 < s.2.y
    · rw [if_pos hk, if_pos hk]
    · rw [if_neg hk, if_neg hk, if_neg (fun h' => by linarith [h'.1, h'.2]), mul_zero]
  · rw [if_neg h.not_lt, if_neg h.not_lt, if_neg h.not_gt, if_neg h.not_gt, if_neg (fun h' => by linarith [h'.1, h'.2]),
      if_neg (fun h' => by linarith [h'.1, h'.2])]
    ring
  · rw [if_neg h.not_gt, if_neg h.not_gt, if_pos h, if_pos h, neg_sub_neg, ← neg_sub, riseArea_step h hcd hb ha,
      if_neg (show ¬ (s.1.y < (c + d) / 2 ∧ (c + d) / 2 < s.2.y) from fun h' => by linarith [h'.1, h'.2])]
    by_cases hk : s.2.y < (c + d) / 2 ∧ (c + d) / 2 < s.1.y
    · rw [if_pos hk, if_pos hk, xAt_swap h.ne]
      ring
    · rw [if_neg hk, if_neg hk]
      ring

theorem list_sum_sub {α : Type*} (l : List α) (f g : α → K) : (l.map f).sum - (l.map g).sum = (l.map fun s => f s - g s).sum := by
  induction l with
  | nil => simp
  | cons a l ih => simp only [List.map_cons, List.sum_cons, ← ih]; ring

theorem list_sum_mul {α : Type*} (l : List α) (c : K) (g : α → K) : (l.map fun s => c * g s).sum = c * (l.map g).sum := by
  induction l with
  | nil => simp
  | cons a l ih => simp only [List.map_cons, List.sum_cons, ih]; ring

open Classical in
/-- If the sums at all levels without vertices have a sign, so has the difference of areas below two levels. -/
theorem underArea_mono {pts : List (Point K)} {σ : K} (hσ : ∀ l, (∀ v ∈ pts, v.y ≠ l) → 0 ≤ σ * ((sides pts).map (levelTerm l)).sum) :
    ∀ (n : ℕ) (c d : K), c < d → ((pts.map Point.y).toFinset.filter fun y => c < y ∧ y < d).card ≤ n →
      0 ≤ σ * (((sides pts).map fun s => underArea s d).sum - ((sides pts).map fun s => underArea s c).sum) := by
  have base : ∀ (c d : K), c < d → (∀ v ∈ pts, ¬ (c < v.y ∧ v.y < d)) →
      0 ≤ σ * (((sides pts).map fun s => underArea s d).sum - ((sides pts).map fun s => underArea s c).sum) := by
    intro c d hcd hv
    have : ((sides pts).map fun s => underArea s d).sum - ((sides pts).map fun s => underArea s c).sum =
        (d - c) * ((sides pts).map (levelTerm ((c + d) / 2))).sum := by
      rw [list_sum_sub, ← list_sum_mul]
      congr 1
      apply List.map_congr_left
      intro s hs
      obtain ⟨h1, h2⟩ := sides_mem hs
      exact underArea_step hcd (hv _ h1) (hv _ h2)
    rw [this]
    have h1 := hσ ((c + d) / 2) (fun v hv' h => hv v hv' ⟨by linarith, by linarith⟩)
    have h2 := mul_nonneg (sub_pos.2 hcd).le h1
    linarith [h2, mul_left_comm (d - c) σ ((sides pts).map (levelTerm ((c + d) / 2))).sum]
  intro n
  induction n with
  | zero =>
    intro c d hcd hn
    apply base c d hcd
    intro v hv hk
    have : v.y ∈ ((pts.map Point.y).toFinset.filter fun y => c < y ∧ y < d) := by
      rw [Finset.mem_filter, List.mem_toFinset]
      exact ⟨List.mem_map_of_mem hv, hk⟩
    rw [Nat.le_zero, Finset.card_eq_zero] at hn
    rw [hn] at this
    simp at this
  | succ n ih =>
    intro c d hcd hn
    by_cases hv : ∀ v ∈ pts, ¬ (c < v.y ∧ v.y < d)
    · exact base c d hcd hv
    · push Not at hv
      obtain ⟨v, hv, h1, h2⟩ := hv
      have hmem : v.y ∈ ((pts.map Point.y).toFinset.filter fun y => c < y ∧ y < d) := by
        rw [Finset.mem_filter, List.mem_toFinset]
        exact ⟨List.mem_map_of_mem hv, h1, h2⟩
      have a1 := ih c v.y h1 (by
        have : ((pts.map Point.y).toFinset.filter fun y => c < y ∧ y < v.y) ⊆ ((pts.map Point.y).toFinset.filter fun y => c < y ∧ y < d).erase v.y := by
          intro y hy
          rw [Finset.mem_filter] at hy
          rw [Finset.mem_erase, Finset.mem_filter]
          exact ⟨hy.2.2.ne, hy.1, hy.2.1, hy.2.2.trans h2⟩
        have := Finset.card_le_card this
        rw [Finset.card_erase_of_mem hmem] at this
        omega)
      have a2 := ih v.y d h2 (by
        have : ((pts.map Point.y).toFinset.filter fun y => v.y < y ∧ y < d) ⊆ ((pts.map Point.y).toFinset.filter fun y => c < y ∧ y < d).erase v.y := by
          intro y hy
          rw [Finset.mem_filter] at hy
          rw [Finset.mem_erase, Finset.mem_filter]
          exact ⟨hy.2.1.ne', hy.1, h1.trans hy.2.1, hy.2.2⟩
        have := Finset.card_le_card this
        rw [Finset.card_erase_of_mem hmem] at this
        omega)
      have := add_nonneg a1 a2
      rw [← mul_add] at this
      have e : ∀ x y z : K, x - y + (z - x) = z - y := by intro x y z; ring
      rwa [e] at this

theorem underArea_low {s : Point K × Point K} {y : K} (h1 : y ≤ s.1.y) (h2 : y ≤ s.2.y) : underArea s y = 0 := by
  unfold underArea riseArea
  dsimp only
  rw [max_eq_left ((min_le_right _ _).trans h1), max_eq_left ((min_le_right _ _).trans h2)]
  simp

theorem underArea_high {s : Point K × Point K} {y : K} (h1 : s.1.y ≤ y) (h2 : s.2.y ≤ y) : underArea s y = (s.1.x + s.2.x) / 2 * (s.2.y - s.1.y) := by
  unfold underArea riseArea
  dsimp only
  rw [min_eq_left h1, min_eq_left h2]
  rcases lt_trichotomy s.1.y s.2.y with h | h | h
  · rw [if_pos h, max_eq_right h.le, div_self (sub_pos.2 h).ne']
    ring
  · rw [if_neg h.not_lt, if_neg h.not_gt, h]
    ring
  · rw [if_neg h.not_gt, if_pos h, max_eq_right h.le, div_self (sub_pos.2 h).ne']
    ring

theorem sum_telescope (pts : List (Point K)) (f : Point K → K) : ((sides pts).map fun s => f s.2).sum = ((sides pts).map fun s => f s.1).sum := by
  have h1 : ((sides pts).map fun s => f s.1) = pts.map f := by
    conv_rhs => rw [← sides_fst pts]
    rw [List.map_map]; rfl
  have h2 : ((sides pts).map fun s => f s.2) = (pts.rotate 1).map f := by
    rw [← sides_snd pts, List.map_map]; rfl
  rw [h1, h2]
  exact ((List.rotate_perm pts 1).map f).sum_eq

theorem signedArea_under {pts : List (Point K)} {y : K} (h : ∀ v ∈ pts, v.y ≤ y) : ((sides pts).map fun s => underArea s y).sum = signedArea pts := by
  unfold signedArea
  have h1 : ((sides pts).map fun s => underArea s y) =
      (sides pts).map fun s => (1 / 2) * (s.1.x * s.2.y - s.2.x * s.1.y) + ((1 / 2) * (s.2.x * s.2.y) - (1 / 2) * (s.1.x * s.1.y)) := by
    apply List.map_congr_left
    intro s hs
    obtain ⟨k1, k2⟩ := sides_mem hs
    rw [underArea_high (h _ k1) (h _ k2)]
    ring
  rw [h1, List.sum_map_add, ← list_sum_sub, sum_telescope pts fun v => (1 / 2) * (v.x * v.y), sub_self, add_zero, list_sum_mul]

theorem levels_bound (pts : List (Point K)) : ∃ c d : K, c < d ∧ ∀ v ∈ pts, c ≤ v.y ∧ v.y ≤ d := by
  induction pts with
  | nil => exact ⟨0, 1, zero_lt_one, by simp⟩
  | cons a l ih =>
    obtain ⟨c, d, h1, h2⟩ := ih
    refine ⟨min c a.y, max d a.y, (min_le_left _ _).trans_lt (h1.trans_le (le_max_left _ _)), ?_⟩
    intro v hv
    rcases List.mem_cons.1 hv with rfl | hv
    · exact ⟨min_le_right _ _, le_max_right _ _⟩
    · exact ⟨(min_le_left _ _).trans (h2 v hv).1, (h2 v hv).2.trans (le_max_left _ _)⟩

theorem area_sign_aux {pts : List (Point K)} {σ : K} (hσ : ∀ l, (∀ v ∈ pts, v.y ≠ l) → 0 ≤ σ * ((sides pts).map (levelTerm l)).sum) : 0 ≤ σ * signedArea pts := by
  obtain ⟨c, d, hcd, hb⟩ := levels_bound pts
  have := underArea_mono hσ _ c d hcd le_rfl
  rw [signedArea_under fun v hv => (hb v hv).2] at this
  have h0 : ((sides pts).map fun s => underArea s c).sum = 0 := by
    apply List.sum_eq_zero
    intro x hx
    obtain ⟨s, hs, rfl⟩ := List.mem_map.1 hx
    obtain ⟨k1, k2⟩ := sides_mem hs
    exact underArea_low (hb _ k1).1 (hb _ k2).1
  rwa [h0, sub_zero] at this

namespace SimplePoly

variable {pts : List (Point K)}

/-- A simple polygon with positive area has its inside on the left. -/
theorem leftIn_pos (h : SimplePoly pts) (ha : 0 < signedArea pts) {s : Point K × Point K} (hs : s ∈ sides pts) : leftIn pts s = 1 := by
  rcases zmod2_cases (leftIn pts s) with h0 | h0
  · have hL : ∀ t ∈ sides pts, leftIn pts t = 0 := fun t ht => (h.leftIn_const ht hs).trans h0
    have := area_sign_aux (pts := pts) (σ := -1) (fun l hl => by have := ((h.levelSum hl).2 hL).1; linarith)
    linarith
  · exact h0

/-- A simple polygon with negative area has its inside on the right. -/
theorem leftIn_neg (h : SimplePoly pts) (ha : signedArea pts < 0) {s : Point K × Point K} (hs : s ∈ sides pts) : leftIn pts s = 0 := by
  rcases zmod2_cases (leftIn pts s) with h0 | h0
  · exact h0
  · have hL : ∀ t ∈ sides pts, leftIn pts t = 1 := fun t ht => (h.leftIn_const ht hs).trans h0
    have := area_sign_aux (pts := pts) (σ := 1) (fun l hl => by have := ((h.levelSum hl).1 hL).1; linarith)
    linarith

end SimplePoly

end Jagua
