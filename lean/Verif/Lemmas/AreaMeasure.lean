import Verif.Lemmas.SimpleArea
import Verif.Lemmas.StripGeo
import Verif.Spec.Area
import Mathlib.MeasureTheory.Measure.Lebesgue.Integral
import Mathlib.Analysis.SpecialFunctions.Integrals.Basic

/-!
# The area of a simple polygon is the measure of its interior
-/

set_option linter.unusedSectionVars false

namespace Jagua

section Field

variable {K : Type*} [Field K] [LinearOrder K] [IsStrictOrderedRing K]

open Classical in
theorem alt_count {ι : Type*} (x : ι → K) (up : ι → Prop) : ∀ (n : ℕ) (D : Finset ι), D.card = n → Set.InjOn x D →
    (∀ s ∈ D, up s ↔ Even (D.filter fun t => x s < x t).card) →
    (∑ s ∈ D, if up s then (1 : K) else -1) = if Odd n then 1 else 0 := by
  intro n
  induction n with
  | zero =>
    intro D hc _ _
    obtain rfl : D = ∅ := Finset.card_eq_zero.1 hc
    simp
  | succ n ih =>
    intro D hc hi hup
    obtain ⟨m, hm, hmin⟩ := Finset.exists_min_image D x (Finset.card_pos.1 (by omega))
    have hc' : (D.erase m).card = n := by rw [Finset.card_erase_of_mem hm]; omega
    have hgt : ∀ t ∈ D, t ≠ m → x m < x t := fun t ht hne => lt_of_le_of_ne (hmin t ht) fun h => hne (hi ht hm h.symm)
    have hrest := ih (D.erase m) hc' (fun s hs t ht h => hi (Finset.mem_of_mem_erase hs) (Finset.mem_of_mem_erase ht) h) (by
      intro s hs
      rw [hup s (Finset.mem_of_mem_erase hs)]
      have : (D.filter fun t => x s < x t) = (D.erase m).filter fun t => x s < x t := by
        ext t
        simp only [Finset.mem_filter, Finset.mem_erase]
        constructor
        · rintro ⟨h1, h2⟩
          refine ⟨⟨?_, h1⟩, h2⟩
          rintro rfl
          exact absurd h2 (not_lt.2 (hmin s (Finset.mem_of_mem_erase hs)))
        · rintro ⟨⟨-, h1⟩, h2⟩
          exact ⟨h1, h2⟩
      rw [this])
    have hum : up m ↔ Even n := by
      rw [hup m hm, ← hc']
      have : (D.filter fun t => x m < x t) = D.erase m := by
        ext t
        simp only [Finset.mem_filter, Finset.mem_erase]
        constructor
        · rintro ⟨h1, h2⟩
          refine ⟨?_, h1⟩
          rintro rfl
          exact lt_irrefl _ h2
        · rintro ⟨h1, h2⟩
          exact ⟨h2, hgt t h2 h1⟩
      rw [this]
    rw [← Finset.add_sum_erase D _ hm, hrest]
    by_cases he : Even n
    · rw [if_pos (hum.2 he), if_neg (Nat.not_odd_iff_even.2 he), if_pos he.add_one]; ring
    · rw [if_neg (fun h => he (hum.1 h)), if_pos (Nat.not_even_iff_odd.1 he), if_neg (Nat.not_odd_iff_even.2 (Nat.not_even_iff_odd.1 he).add_one)]; ring

open Classical in
/-- What a side counts for the point `(x, l)`: it is to the right of the point and goes up, or down. -/
noncomputable def turnTerm (x l : K) (s : Point K × Point K) : K :=
  if x < xAt s l then (if s.1.y < l ∧ l < s.2.y then 1 else if s.2.y < l ∧ l < s.1.y then -1 else 0) else 0

open Classical in
theorem SimplePoly.turnSum {pts : List (Point K)} (h : SimplePoly pts) (hL : ∀ s ∈ sides pts, leftIn pts s = 1) {l : K}
    (hl : ∀ v ∈ pts, v.y ≠ l) (x : K) :
    ((sides pts).map (turnTerm x l)).sum = if Odd (rayCount pts ⟨x, l⟩) then 1 else 0 := by
  have hnd := sides_nodup h.2.1
  set C : Finset (Point K × Point K) := (sides pts).toFinset.filter (Passes l) with hC
  have hmem : ∀ s, s ∈ C ↔ s ∈ sides pts ∧ Passes l s := by intro s; rw [hC, Finset.mem_filter, List.mem_toFinset]
  have hinj : Set.InjOn (fun s => xAt s l) C := by
    intro s hs t ht hst
    by_contra hne
    obtain ⟨s1, s2⟩ := (hmem s).1 hs
    obtain ⟨t1, t2⟩ := (hmem t).1 ht
    have m1 := s2.between.seg
    have m2 := t2.between.seg
    simp only at hst
    rw [← hst] at m2
    rcases h.2.2 s s1 t t1 hne _ m1 m2 with ⟨e, -⟩ | ⟨e, -⟩
    · exact hl _ (sides_mem s1).2 (by rw [← e])
    · exact hl _ (sides_mem t1).2 (by rw [← e])
  have hcount : ∀ a, rayCount pts ⟨a, l⟩ = (C.filter fun t => a < xAt t l).card := by
    intro a
    unfold rayCount
    rw [List.countP_eq_length_filter, ← List.toFinset_card_of_nodup (hnd.filter _), List.toFinset_filter]
    congr 1
    ext t
    simp only [decide_eq_true_eq, Finset.mem_filter, List.mem_toFinset]
    rw [hmem]
    constructor
    · rintro ⟨h1, h2⟩
      rw [crosses_level (hl _ (sides_mem h1).1) (hl _ (sides_mem h1).2)] at h2
      exact ⟨⟨h1, h2.1⟩, h2.2⟩
    · rintro ⟨⟨h1, h2⟩, h3⟩
      exact ⟨h1, (crosses_level (hl _ (sides_mem h1).1) (hl _ (sides_mem h1).2)).2 ⟨h2, h3⟩⟩
  have hleft : ∀ s ∈ C, rho pts ⟨xAt s l, l⟩ = leftIn pts s + ind (Upward s.1 s.2) := by
    intro s hs
    obtain ⟨s1, s2⟩ := (hmem s).1 hs
    rw [h.rho_side s1 s2.between (midpoint_between _ _)]
    unfold SimplePoly.leftIn
    have e : ∀ a b : ZMod 2, a = a + b + b := by decide
    exact e _ _
  have hup : ∀ s ∈ C, Upward s.1 s.2 ↔ Even (C.filter fun t => xAt s l < xAt t l).card := by
    intro s hs
    rw [← hcount, ← Nat.not_odd_iff_even, ← rho_odd, hleft s hs, hL s ((hmem s).1 hs).1]
    by_cases hu : Upward s.1 s.2
    · rw [ind_pos hu]; exact iff_of_true hu (by decide)
    · rw [ind_zero hu]; exact iff_of_false hu (by decide)
  set D := C.filter fun t => x < xAt t l with hD
  have hsum : ((sides pts).map (turnTerm x l)).sum = ∑ s ∈ D, if Upward s.1 s.2 then (1 : K) else -1 := by
    rw [← List.sum_toFinset _ hnd, hD, Finset.sum_filter, hC, Finset.sum_filter]
    apply Finset.sum_congr rfl
    intro s _
    unfold turnTerm
    by_cases hp : Passes l s
    · rw [if_pos hp]
      by_cases hx : x < xAt s l
      · rw [if_pos hx, if_pos hx]
        by_cases hu : s.1.y < l ∧ l < s.2.y
        · rw [if_pos hu, if_pos ((passes_up hp).2 hu)]
        · rw [if_neg hu, if_neg (fun h => hu ((passes_up hp).1 h)), if_pos (hp.resolve_left hu)]
      · rw [if_neg hx, if_neg hx]
    · rw [if_neg hp, if_neg fun h => hp (.inl h), if_neg fun h => hp (.inr h), ite_self]
  rw [hsum, hcount x, ← hD]
  refine alt_count (fun s => xAt s l) (fun s => Upward s.1 s.2) D.card D rfl
    (fun s hs t ht e => hinj (Finset.mem_filter.1 hs).1 (Finset.mem_filter.1 ht).1 e) ?_
  intro s hs
  obtain ⟨h1, h2⟩ := Finset.mem_filter.1 hs
  rw [hup s h1]
  have : (C.filter fun t => xAt s l < xAt t l) = D.filter fun t => xAt s l < xAt t l := by
    ext t
    simp only [hD, Finset.mem_filter]
    exact ⟨fun k => ⟨⟨k.1, h2.trans k.2⟩, k.2⟩, fun k => ⟨k.1.1, k.2⟩⟩
  rw [this]

end Field

open MeasureTheory Set

/-- The points right of `M` and left of a side, in coordinates `(y, x)`. -/
def leftPart (M : ℝ) (s : Point ℝ × Point ℝ) : Set (ℝ × ℝ) :=
  regionBetween (fun _ => M) (fun y => xAt s y) (Ioo (min s.1.y s.2.y) (max s.1.y s.2.y))

/-- Whether a side goes up or down. -/
noncomputable def upSign (s : Point ℝ × Point ℝ) : ℝ := if s.1.y < s.2.y then 1 else -1

theorem xAt_affine (s : Point ℝ × Point ℝ) (y : ℝ) :
    xAt s y = (s.1.x - s.1.y / (s.2.y - s.1.y) * (s.2.x - s.1.x)) + (s.2.x - s.1.x) / (s.2.y - s.1.y) * y := by
  unfold xAt; ring

theorem xAt_continuous (s : Point ℝ × Point ℝ) : Continuous fun y => xAt s y := by
  simp only [xAt_affine]
  fun_prop

theorem leftPart_measurable (M : ℝ) (s : Point ℝ × Point ℝ) : MeasurableSet (leftPart M s) :=
  measurableSet_regionBetween measurable_const (xAt_continuous s).measurable measurableSet_Ioo

theorem xAt_ge {M : ℝ} {s : Point ℝ × Point ℝ} (h1 : M ≤ s.1.x) (h2 : M ≤ s.2.x) {y : ℝ} (hy : y ∈ Ioo (min s.1.y s.2.y) (max s.1.y s.2.y)) : M ≤ xAt s y := by
  have hp : Passes y s := by
    obtain ⟨k1, k2⟩ := hy
    rcases le_total s.1.y s.2.y with h | h
    · rw [min_eq_left h] at k1; rw [max_eq_right h] at k2; exact .inl ⟨k1, k2⟩
    · rw [min_eq_right h] at k1; rw [max_eq_left h] at k2; exact .inr ⟨k1, k2⟩
  obtain ⟨t, t0, t1, hx, -⟩ := hp.between
  simp only at hx
  rw [hx]
  nlinarith

theorem leftPart_volume {M : ℝ} {s : Point ℝ × Point ℝ} (h1 : M ≤ s.1.x) (h2 : M ≤ s.2.x) :
    volume (leftPart M s) = ENNReal.ofReal (|s.2.y - s.1.y| * ((s.1.x + s.2.x) / 2 - M)) := by
  unfold leftPart
  have hi : ∀ f : ℝ → ℝ, Continuous f → IntegrableOn f (Ioo (min s.1.y s.2.y) (max s.1.y s.2.y)) :=
    fun f hf => (hf.integrableOn_Icc).mono_set Ioo_subset_Icc_self
  rw [Measure.volume_eq_prod, volume_regionBetween_eq_integral (hi _ continuous_const) (hi _ (xAt_continuous s)) measurableSet_Ioo (fun y hy => xAt_ge h1 h2 hy),
    ← integral_Ioc_eq_integral_Ioo, ← intervalIntegral.integral_of_le min_le_max]
  congr 1
  simp only [Pi.sub_apply, xAt_affine]
  rw [intervalIntegral.integral_sub (by apply Continuous.intervalIntegrable; fun_prop) (by apply Continuous.intervalIntegrable; fun_prop),
    intervalIntegral.integral_add (by apply Continuous.intervalIntegrable; fun_prop) (by apply Continuous.intervalIntegrable; fun_prop),
    intervalIntegral.integral_const_mul, integral_id, intervalIntegral.integral_const, intervalIntegral.integral_const, smul_eq_mul, smul_eq_mul]
  rcases lt_trichotomy s.1.y s.2.y with h | h | h
  · rw [min_eq_left h.le, max_eq_right h.le, abs_of_pos (sub_pos.2 h)]
    have : s.2.y - s.1.y ≠ 0 := (sub_pos.2 h).ne'
    field_simp
    ring
  · rw [h]; simp
  · rw [min_eq_right h.le, max_eq_left h.le, abs_of_neg (sub_neg.2 h)]
    have : s.2.y - s.1.y ≠ 0 := (sub_neg.2 h).ne
    field_simp
    ring

theorem leftPart_real {M : ℝ} {s : Point ℝ × Point ℝ} (h1 : M ≤ s.1.x) (h2 : M ≤ s.2.x) :
    upSign s * volume.real (leftPart M s) = (s.2.y - s.1.y) * ((s.1.x + s.2.x) / 2 - M) := by
  unfold Measure.real
  rw [leftPart_volume h1 h2, ENNReal.toReal_ofReal (mul_nonneg (abs_nonneg _) (by linarith))]
  unfold upSign
  split_ifs with h
  · rw [abs_of_pos (sub_pos.2 h)]; ring
  · rw [abs_of_nonpos (by linarith)]; ring

/-- The turns of the sides about a point. -/
noncomputable def turns (M : ℝ) (l : List (Point ℝ × Point ℝ)) (q : ℝ × ℝ) : ℝ :=
  (l.map fun s => upSign s * (leftPart M s).indicator 1 q).sum

theorem turns_integral {M : ℝ} (l : List (Point ℝ × Point ℝ)) (h : ∀ s ∈ l, M ≤ s.1.x ∧ M ≤ s.2.x) :
    Measurable (turns M l) ∧ Integrable (turns M l) volume ∧ ∫ q, turns M l q = (l.map fun s => (s.2.y - s.1.y) * ((s.1.x + s.2.x) / 2 - M)).sum := by
  induction l with
  | nil =>
    have : turns M [] = fun _ => 0 := rfl
    rw [this]
    exact ⟨measurable_const, integrable_zero _ _ _, by simp⟩
  | cons s l ih =>
    obtain ⟨h0, h1, h2⟩ := ih fun t ht => h t (List.mem_cons_of_mem _ ht)
    obtain ⟨k1, k2⟩ := h s List.mem_cons_self
    have e : turns M (s :: l) = fun q => upSign s * (leftPart M s).indicator 1 q + turns M l q := by
      funext q; unfold turns; rw [List.map_cons, List.sum_cons]
    have hm : Measurable ((leftPart M s).indicator (1 : ℝ × ℝ → ℝ)) := measurable_one.indicator (leftPart_measurable M s)
    have hfin : volume (leftPart M s) ≠ ⊤ := by rw [leftPart_volume k1 k2]; exact ENNReal.ofReal_ne_top
    have hi : Integrable ((leftPart M s).indicator (1 : ℝ × ℝ → ℝ)) volume :=
      (integrable_indicator_iff (leftPart_measurable M s)).2 (integrableOn_const hfin)
    rw [e]
    refine ⟨(hm.const_mul _).add h0, (hi.const_mul _).add h1, ?_⟩
    rw [integral_add (hi.const_mul _) h1, integral_const_mul, h2, integral_indicator_one (leftPart_measurable M s), leftPart_real k1 k2,
      List.map_cons, List.sum_cons]

theorem turnTerm_eq {M : ℝ} {q : ℝ × ℝ} (hq : M < q.2) (s : Point ℝ × Point ℝ) :
    turnTerm q.2 q.1 s = upSign s * (leftPart M s).indicator 1 q := by
  unfold turnTerm upSign leftPart regionBetween
  by_cases hx : q.2 < xAt s q.1
  · rw [if_pos hx]
    rcases lt_trichotomy s.1.y s.2.y with h | h | h
    · rw [if_pos h, min_eq_left h.le, max_eq_right h.le, if_neg (fun k : s.2.y < q.1 ∧ q.1 < s.1.y => by linarith [k.1, k.2]), one_mul]
      by_cases hu : s.1.y < q.1 ∧ q.1 < s.2.y
      · rw [if_pos hu, indicator_of_mem (show q ∈ {p : ℝ × ℝ | p.1 ∈ Ioo s.1.y s.2.y ∧ p.2 ∈ Ioo M (xAt s p.1)} from ⟨hu, hq, hx⟩)]; rfl
      · rw [if_neg hu, indicator_of_notMem (fun k => hu k.1)]
    · rw [if_neg (fun k : s.1.y < q.1 ∧ q.1 < s.2.y => by linarith [k.1, k.2]), if_neg (fun k : s.2.y < q.1 ∧ q.1 < s.1.y => by linarith [k.1, k.2]),
        indicator_of_notMem, mul_zero]
      rintro ⟨⟨k1, k2⟩, -⟩
      rw [h, min_self] at k1
      rw [h, max_self] at k2
      linarith
    · rw [if_neg (not_lt.2 h.le), min_eq_right h.le, max_eq_left h.le, if_neg (fun k : s.1.y < q.1 ∧ q.1 < s.2.y => by linarith [k.1, k.2])]
      by_cases hu : s.2.y < q.1 ∧ q.1 < s.1.y
      · rw [if_pos hu, indicator_of_mem (show q ∈ {p : ℝ × ℝ | p.1 ∈ Ioo s.2.y s.1.y ∧ p.2 ∈ Ioo M (xAt s p.1)} from ⟨hu, hq, hx⟩)]; simp
      · rw [if_neg hu, indicator_of_notMem (fun k => hu k.1), mul_zero]
  · rw [if_neg hx, indicator_of_notMem (fun k => hx k.2.2), mul_zero]

theorem planeArea_swap (S : Set (Point ℝ)) : planeArea S = volume {q : ℝ × ℝ | (⟨q.2, q.1⟩ : Point ℝ) ∈ S} := by
  unfold planeArea
  have hp : MeasurePreserving (MeasurableEquiv.prodComm (α := ℝ) (β := ℝ)) volume volume := by
    rw [Measure.volume_eq_prod]
    exact Measure.measurePreserving_swap
  rw [← hp.measure_preimage_equiv]
  rfl

/-- Points on a line of constant height form a null set. -/
theorem level_null (c : ℝ) : ∀ᵐ q : ℝ × ℝ, q.1 ≠ c := by
  rw [ae_iff]
  have : {q : ℝ × ℝ | ¬ q.1 ≠ c} = {c} ×ˢ univ := by ext q; simp
  rw [this, Measure.volume_eq_prod, Measure.prod_prod]
  simp

/-- The points of a side form a null set. -/
theorem side_null (s : Point ℝ × Point ℝ) : ∀ᵐ q : ℝ × ℝ, q.2 ≠ xAt s q.1 := by
  rw [ae_iff]
  have hm : MeasurableSet {q : ℝ × ℝ | ¬ q.2 ≠ xAt s q.1} := by
    simp only [not_not]
    exact measurableSet_eq_fun measurable_snd ((xAt_continuous s).measurable.comp measurable_fst)
  rw [Measure.volume_eq_prod, Measure.measure_prod_null hm]
  filter_upwards with y
  have : Prod.mk y ⁻¹' {q : ℝ × ℝ | ¬ q.2 ≠ xAt s q.1} = {xAt s y} := by ext x; simp
  rw [this]
  simp

theorem ae_list {α : Type*} {l : List α} {P : α → ℝ × ℝ → Prop} (h : ∀ a ∈ l, ∀ᵐ q, P a q) : ∀ᵐ q, ∀ a ∈ l, P a q := by
  induction l with
  | nil => simp
  | cons a l ih =>
    filter_upwards [h a List.mem_cons_self, ih fun b hb => h b (List.mem_cons_of_mem _ hb)] with q h1 h2 b hb
    rcases List.mem_cons.1 hb with rfl | hb
    · exact h1
    · exact h2 b hb

/-- Almost no point is on the boundary of a polygon. -/
theorem bdry_null (pts : List (Point ℝ)) : ∀ᵐ q : ℝ × ℝ, (∀ v ∈ pts, v.y ≠ q.1) ∧ (⟨q.2, q.1⟩ : Point ℝ) ∉ bdry pts := by
  filter_upwards [ae_list (l := pts) (P := fun v q => q.1 ≠ v.y) fun v _ => level_null v.y,
    ae_list (l := sides pts) (P := fun s q => q.2 ≠ xAt s q.1) fun s _ => side_null s] with q h1 h2
  refine ⟨fun v hv => (h1 v hv).symm, ?_⟩
  rintro ⟨s, hs, u, u0, u1, ux, uy⟩
  obtain ⟨m1, m2⟩ := sides_mem hs
  have h3 := h1 _ m1
  simp only at ux uy
  have hne : s.2.y - s.1.y ≠ 0 := by
    intro h0
    rw [h0, mul_zero, add_zero] at uy
    exact h3 uy
  apply h2 s hs
  unfold xAt
  rw [ux]
  have : u = (q.1 - s.1.y) / (s.2.y - s.1.y) := by
    rw [eq_div_iff hne]
    linarith
  rw [← this]

theorem sum_shifted (pts : List (Point ℝ)) (M : ℝ) :
    ((sides pts).map fun s => (s.2.y - s.1.y) * ((s.1.x + s.2.x) / 2 - M)).sum = signedArea pts := by
  have h1 : ((sides pts).map fun s => (s.2.y - s.1.y) * ((s.1.x + s.2.x) / 2 - M)) =
      (sides pts).map fun s => (1 / 2) * (s.1.x * s.2.y - s.2.x * s.1.y) + ((s.2.x * s.2.y / 2 - M * s.2.y) - (s.1.x * s.1.y / 2 - M * s.1.y)) := by
    apply List.map_congr_left
    intro s _
    ring
  have h2 := sides_sum_swap pts fun v => v.x * v.y / 2 - M * v.y
  rw [h1, sum_map_add', sum_map_mul', sum_map_sub' _ (fun s : Point ℝ × Point ℝ => s.2.x * s.2.y / 2 - M * s.2.y), h2, sub_self, add_zero]
  rfl

/-- The area of the interior of a simple polygon is the value of the shoelace formula. -/
theorem SimplePoly.area_interior {pts : List (Point ℝ)} (h : SimplePoly pts) (ha : 0 < signedArea pts) :
    planeArea (Jagua.interior pts) = ENNReal.ofReal (signedArea pts) ∧
    NullMeasurableSet {q : ℝ × ℝ | (⟨q.2, q.1⟩ : Point ℝ) ∈ Jagua.interior pts} := by
  have hL : ∀ s ∈ sides pts, leftIn pts s = 1 := fun s hs => h.leftIn_pos ha hs
  set M := (boundingBox pts).xMin with hM
  have hge : ∀ s ∈ sides pts, M ≤ s.1.x ∧ M ≤ s.2.x := fun s hs =>
    ⟨(mem_boundingBox (sides_mem hs).1).1, (mem_boundingBox (sides_mem hs).2).1⟩
  obtain ⟨hmeas, hint, hval⟩ := turns_integral (sides pts) hge
  rw [sum_shifted] at hval
  set I : Set (ℝ × ℝ) := {q | (⟨q.2, q.1⟩ : Point ℝ) ∈ Jagua.interior pts} with hI
  have hae : turns M (sides pts) =ᵐ[volume] I.indicator 1 := by
    filter_upwards [bdry_null pts] with q hq
    by_cases hx : M < q.2
    · have e : turns M (sides pts) q = ((sides pts).map (turnTerm q.2 q.1)).sum := by
        unfold turns
        congr 1
        apply List.map_congr_left
        intro s _
        exact (turnTerm_eq hx s).symm
      rw [e, h.turnSum hL hq.1]
      by_cases ho : Odd (rayCount pts ⟨q.2, q.1⟩)
      · rw [if_pos ho, indicator_of_mem (show q ∈ I from ⟨hq.2, ho⟩)]; rfl
      · rw [if_neg ho, indicator_of_notMem (fun k => ho k.2)]
    · have e : turns M (sides pts) q = 0 := by
        unfold turns
        apply List.sum_eq_zero
        intro z hz
        obtain ⟨s, -, rfl⟩ := List.mem_map.1 hz
        rw [indicator_of_notMem (fun k => hx k.2.1), mul_zero]
      rw [e, indicator_of_notMem]
      intro k
      exact hx (interior_subset_inner k).1
  have hnull : NullMeasurableSet I := by
    have hJ : MeasurableSet {q | turns M (sides pts) q = 1} := measurableSet_eq_fun hmeas measurable_const
    refine hJ.nullMeasurableSet.congr ?_
    filter_upwards [hae] with q hq
    apply propext
    show turns M (sides pts) q = 1 ↔ q ∈ I
    rw [hq]
    by_cases k : q ∈ I
    · rw [indicator_of_mem k]; exact iff_of_true rfl k
    · rw [indicator_of_notMem k]; exact iff_of_false zero_ne_one k
  refine ⟨?_, hnull⟩
  rw [planeArea_swap, ← hI, ← hval, ofReal_integral_eq_lintegral_ofReal hint]
  · rw [← lintegral_indicator_one₀ hnull]
    apply lintegral_congr_ae
    filter_upwards [hae] with q hq
    rw [hq]
    by_cases k : q ∈ I
    · rw [indicator_of_mem k, indicator_of_mem k]; simp
    · rw [indicator_of_notMem k, indicator_of_notMem k]; simp
  · filter_upwards [hae] with q hq
    rw [hq]
    exact indicator_nonneg (fun _ _ => zero_le_one) q

end Jagua
