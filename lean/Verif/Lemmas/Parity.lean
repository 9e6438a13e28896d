import Verif.Lemmas.RectGeo2
import Verif.Spec.Region
import Mathlib.Data.List.Rotate

/-!
# The parity theorem

The parity of the number of sides of a closed polygonal line crossed by a
horizontal ray does not change along a segment that avoids the line.
-/

set_option linter.unusedSectionVars false

namespace Jagua

variable {K : Type*} [Field K] [LinearOrder K] [IsStrictOrderedRing K]

theorem segPts_subset {a b c d : Point K} (hc : c ∈ segPts a b) (hd : d ∈ segPts a b) :
    segPts c d ⊆ segPts a b := by
  rintro w ⟨t, t0, t1, hx, hy⟩
  obtain ⟨u, u0, u1, ux, uy⟩ := hc
  obtain ⟨v, v0, v1, vx, vy⟩ := hd
  refine ⟨u + t * (v - u), ?_, ?_, ?_, ?_⟩
  · nlinarith [mul_nonneg t0 v0, mul_nonneg (sub_nonneg.2 t1) u0]
  · nlinarith [mul_nonneg t0 (sub_nonneg.2 v1), mul_nonneg (sub_nonneg.2 t1) (sub_nonneg.2 u1)]
  · rw [hx, ux, vx]; ring
  · rw [hy, uy, vy]; ring

/-- Side of the line through `p` and `q` (positive on the right when `p` is
below `q`). -/
def lside (p q u : Point K) : K := (u.x - p.x) * (q.y - p.y) - (u.y - p.y) * (q.x - p.x)

theorem strip_side_aux {p q u v : Point K} (hpq : p.y < q.y) (hu : p.y ≤ u.y ∧ u.y ≤ q.y)
    (hv : p.y ≤ v.y ∧ v.y ≤ q.y) (hd : ∀ w ∈ segPts u v, w ∉ segPts p q) (h : 0 < lside p q u) :
    0 < lside p q v := by
  by_contra hn
  push Not at hn
  have hp : 0 < lside p q u - lside p q v := by linarith
  set t := lside p q u / (lside p q u - lside p q v) with ht
  have ht' : t * (lside p q u - lside p q v) = lside p q u := div_mul_cancel₀ _ hp.ne'
  have t0 : 0 ≤ t := div_nonneg h.le hp.le
  have t1 : t ≤ 1 := by rw [ht, div_le_one hp]; linarith
  have hq : 0 < q.y - p.y := by linarith
  have hy := lerp_bounds (a := u.y) (b := v.y) t0 t1
  refine hd ⟨u.x + t * (v.x - u.x), u.y + t * (v.y - u.y)⟩ ⟨t, t0, t1, rfl, rfl⟩
    ⟨(u.y + t * (v.y - u.y) - p.y) / (q.y - p.y), ?_, ?_, ?_, ?_⟩
  · apply div_nonneg _ hq.le
    have : p.y ≤ min u.y v.y := le_min hu.1 hv.1
    linarith
  · rw [div_le_one hq]
    have : max u.y v.y ≤ q.y := max_le hu.2 hv.2
    linarith
  · simp only
    unfold lside at ht'
    field_simp
    linear_combination -ht'
  · simp only
    field_simp
    ring

theorem strip_side {p q u v : Point K} (hpq : p.y < q.y) (hu : p.y ≤ u.y ∧ u.y ≤ q.y)
    (hv : p.y ≤ v.y ∧ v.y ≤ q.y) (hd : ∀ w ∈ segPts u v, w ∉ segPts p q) :
    0 < lside p q u ↔ 0 < lside p q v :=
  ⟨strip_side_aux hpq hu hv hd, strip_side_aux hpq hv hu (by rw [segPts_comm]; exact hd)⟩

/-- A non-horizontal segment has exactly one point at each height. -/
theorem level_point {a b : Point K} {l : K} (h1 : a.y < l) (h2 : l ≤ b.y) :
    ∃ c ∈ segPts a b, c.y = l ∧ ∀ c' ∈ segPts a b, c'.y = l → c' = c := by
  have hp : 0 < b.y - a.y := by linarith
  refine ⟨⟨a.x + (l - a.y) / (b.y - a.y) * (b.x - a.x), l⟩,
    ⟨(l - a.y) / (b.y - a.y), div_nonneg (by linarith) hp.le, by rw [div_le_one hp]; linarith, rfl, ?_⟩, rfl, ?_⟩
  · simp only
    field_simp
    ring
  · rintro c' ⟨t, -, -, hx, hy⟩ hl
    have : t = (l - a.y) / (b.y - a.y) := by
      rw [eq_div_iff hp.ne']
      rw [hl] at hy
      linarith
    ext
    · simp only; rw [hx, this]
    · exact hl

theorem crossesRay_comm {p a b : Point K} : CrossesRay p (a, b) ↔ CrossesRay p (b, a) := by
  unfold CrossesRay
  simp only
  rw [segPts_comm, or_comm]

theorem crossesRay_iff {p a b c : Point K} (h1 : a.y < p.y) (h2 : p.y ≤ b.y) (hc : c ∈ segPts a b)
    (hy : c.y = p.y) (hu : ∀ c' ∈ segPts a b, c'.y = p.y → c' = c) :
    CrossesRay p (a, b) ↔ p.x < c.x := by
  constructor
  · rintro ⟨-, c', hc', hy', hx⟩
    rw [← hu c' hc' hy']
    exact hx
  · intro h
    exact ⟨Or.inl ⟨h1, h2⟩, c, hc, hy, h⟩

theorem not_crosses_low {p a b : Point K} (h1 : a.y < p.y) (h2 : b.y < p.y) : ¬ CrossesRay p (a, b) := by
  rintro ⟨h | h, -⟩
  · exact absurd h.2 (not_le.2 h2)
  · exact absurd h.2 (not_le.2 h1)

theorem not_crosses_high {p a b : Point K} (h1 : p.y ≤ a.y) (h2 : p.y ≤ b.y) : ¬ CrossesRay p (a, b) := by
  rintro ⟨h | h, -⟩
  · exact absurd h.1 (not_lt.2 h1)
  · exact absurd h.1 (not_lt.2 h2)

theorem lside_low {p q c : Point K} (hpq : p.y < q.y) (hy : c.y = p.y) : p.x < c.x ↔ 0 < lside p q c := by
  unfold lside
  rw [hy]
  have hp : 0 < q.y - p.y := by linarith
  rw [sub_self, zero_mul, sub_zero, mul_pos_iff_of_pos_right hp, sub_pos]

theorem lside_high {p q c : Point K} (hpq : p.y < q.y) (hy : c.y = q.y) : q.x < c.x ↔ 0 < lside p q c := by
  have hp : 0 < q.y - p.y := by linarith
  have : lside p q c = (c.x - q.x) * (q.y - p.y) := by unfold lside; rw [hy]; ring
  rw [this, mul_pos_iff_of_pos_right hp, sub_pos]

/-- Membership in the part of the half-open strip between `p` and `q` right of
the segment. -/
def InStrip (p q v : Point K) : Prop := p.y ≤ v.y ∧ v.y < q.y ∧ 0 < lside p q v

theorem side_parity_le {p q a b : Point K} (hpq : p.y < q.y) (hab : a.y ≤ b.y)
    (hd : ∀ w ∈ segPts a b, w ∉ segPts p q) :
    (CrossesRay p (a, b) ↔ CrossesRay q (a, b)) ↔ (InStrip p q a ↔ InStrip p q b) := by
  have sub : ∀ {c d : Point K}, c ∈ segPts a b → d ∈ segPts a b → ∀ w ∈ segPts c d, w ∉ segPts p q :=
    fun hc hd' w hw => hd w (segPts_subset hc hd' hw)
  have ha := segPts_start a b
  have hb := segPts_stop a b
  have nl : ∀ {v : Point K}, v.y < p.y → ¬ InStrip p q v := fun h h' => absurd h'.1 (not_le.2 h)
  have nh : ∀ {v : Point K}, q.y ≤ v.y → ¬ InStrip p q v := fun h h' => absurd h'.2.1 (not_lt.2 h)
  have mid : ∀ {v : Point K}, p.y ≤ v.y → v.y < q.y → (InStrip p q v ↔ 0 < lside p q v) :=
    fun h h' => ⟨fun x => x.2.2, fun x => ⟨h, h', x⟩⟩
  rcases lt_or_ge a.y p.y with a1 | a1
  · -- a low
    rcases lt_or_ge b.y p.y with b1 | b1
    · simp only [not_crosses_low a1 b1, not_crosses_low (a1.trans hpq) (b1.trans hpq), nl a1, nl b1]
    · obtain ⟨c, hc, hcy, hcu⟩ := level_point a1 b1
      rw [crossesRay_iff a1 b1 hc hcy hcu, lside_low hpq hcy]
      rcases lt_or_ge b.y q.y with b2 | b2
      · simp only [not_crosses_low (a1.trans hpq) b2, nl a1, mid b1 b2]
        rw [strip_side hpq ⟨hcy.ge, hcy.le.trans hpq.le⟩ ⟨b1, b2.le⟩ (sub hc hb)]
        tauto
      · obtain ⟨d, hd', hdy, hdu⟩ := level_point (a1.trans hpq) b2
        rw [crossesRay_iff (a1.trans hpq) b2 hd' hdy hdu, lside_high hpq hdy]
        simp only [nl a1, nh b2]
        rw [strip_side hpq ⟨hcy.ge, hcy.le.trans hpq.le⟩ ⟨hpq.le.trans hdy.ge, hdy.le⟩ (sub hc hd')]
        simp only
  · have b1 : p.y ≤ b.y := a1.trans hab
    rcases lt_or_ge a.y q.y with a2 | a2
    · rcases lt_or_ge b.y q.y with b2 | b2
      · simp only [not_crosses_high a1 b1, not_crosses_low a2 b2, mid a1 a2, mid b1 b2]
        rw [strip_side hpq ⟨a1, a2.le⟩ ⟨b1, b2.le⟩ hd]
        simp only
      · obtain ⟨d, hd', hdy, hdu⟩ := level_point a2 b2
        rw [crossesRay_iff a2 b2 hd' hdy hdu, lside_high hpq hdy]
        simp only [not_crosses_high a1 b1, nh b2, mid a1 a2]
        rw [strip_side hpq ⟨a1, a2.le⟩ ⟨hpq.le.trans hdy.ge, hdy.le⟩ (sub ha hd')]
        tauto
    · have b2 : q.y ≤ b.y := a2.trans hab
      simp only [not_crosses_high a1 b1, not_crosses_high a2 b2, nh a2, nh b2]

theorem side_parity {p q : Point K} {s : Point K × Point K} (hpq : p.y < q.y)
    (hd : ∀ w ∈ segPts s.1 s.2, w ∉ segPts p q) :
    (CrossesRay p s ↔ CrossesRay q s) ↔ (InStrip p q s.1 ↔ InStrip p q s.2) := by
  obtain ⟨a, b⟩ := s
  rcases le_total a.y b.y with h | h
  · exact side_parity_le hpq h hd
  · rw [crossesRay_comm (p := p), crossesRay_comm (p := q), side_parity_le hpq h (by rw [segPts_comm]; exact hd)]
    simp only
    tauto

theorem level_crosses_le {p q a b : Point K} (hpq : p.y = q.y) (hab : a.y ≤ b.y)
    (hd : ∀ w ∈ segPts a b, w ∉ segPts p q) : CrossesRay p (a, b) ↔ CrossesRay q (a, b) := by
  rcases lt_or_ge a.y p.y with a1 | a1
  · rcases lt_or_ge b.y p.y with b1 | b1
    · exact iff_of_false (not_crosses_low a1 b1) (not_crosses_low (hpq ▸ a1) (hpq ▸ b1))
    · obtain ⟨c, hc, hcy, hcu⟩ := level_point a1 b1
      rw [crossesRay_iff a1 b1 hc hcy hcu, crossesRay_iff (hpq ▸ a1) (hpq ▸ b1) hc (hpq ▸ hcy) (hpq ▸ hcu)]
      have hmem : ¬ ((p.x ≤ c.x ∧ c.x ≤ q.x) ∨ (q.x ≤ c.x ∧ c.x ≤ p.x)) := by
        intro h
        apply hd c hc
        rcases eq_or_ne p.x q.x with he | he
        · refine ⟨0, le_rfl, zero_le_one, ?_, ?_⟩
          · rw [zero_mul, add_zero]
            rcases h with h | h <;> apply le_antisymm <;> first | exact h.1 | exact h.2 | (rw [he]; first | exact h.1 | exact h.2)
          · rw [zero_mul, add_zero]; exact hcy
        · have hne : q.x - p.x ≠ 0 := sub_ne_zero.2 he.symm
          refine ⟨(c.x - p.x) / (q.x - p.x), ?_, ?_, ?_, ?_⟩
          · rcases h with h | h
            · exact div_nonneg (by linarith [h.1]) (by linarith [h.1, h.2])
            · exact div_nonneg_of_nonpos (by linarith [h.2]) (by linarith [h.1, h.2])
          · rcases h with h | h
            · exact div_le_one_of_le₀ (by linarith [h.2]) (by linarith [h.1, h.2])
            · have hlt : q.x - p.x < 0 := lt_of_le_of_ne (by linarith [h.1, h.2]) hne
              rw [div_le_one_of_neg hlt]; linarith [h.1]
          · field_simp; ring
          · rw [hcy, hpq]; ring
      push Not at hmem
      constructor
      · intro h; exact hmem.1 h.le
      · intro h; exact hmem.2 h.le
  · exact iff_of_false (not_crosses_high a1 (a1.trans hab)) (not_crosses_high (hpq ▸ a1) (hpq ▸ a1.trans hab))

theorem level_crosses {p q : Point K} {s : Point K × Point K} (hpq : p.y = q.y)
    (hd : ∀ w ∈ segPts s.1 s.2, w ∉ segPts p q) : CrossesRay p s ↔ CrossesRay q s := by
  obtain ⟨a, b⟩ := s
  rcases le_total a.y b.y with h | h
  · exact level_crosses_le hpq h hd
  · rw [crossesRay_comm (p := p), crossesRay_comm (p := q)]
    exact level_crosses_le hpq h (by rw [segPts_comm]; exact hd)

open Classical in
theorem even_countP_cons {α : Type*} (s : α) (l : List α) (A : α → Prop) :
    Even ((s :: l).countP (fun s => A s)) ↔ (Even (l.countP (fun s => A s)) ↔ ¬ A s) := by
  rw [List.countP_cons]
  by_cases a : A s
  · simp [a, Nat.even_add_one]
  · simp [a]

theorem iff_swap (ea eb a b : Prop) : ((ea ↔ ¬ a) ↔ (eb ↔ ¬ b)) ↔ ((ea ↔ eb) ↔ (a ↔ b)) := by
  by_cases a <;> by_cases b <;> simp_all <;> tauto

open Classical in
theorem countP_parity {α : Type*} (l : List α) (A B C D : α → Prop)
    (h : ∀ s ∈ l, (A s ↔ B s) ↔ (C s ↔ D s)) :
    Even (l.countP (fun s => A s) + l.countP (fun s => B s)) ↔
      Even (l.countP (fun s => C s) + l.countP (fun s => D s)) := by
  induction l with
  | nil => simp
  | cons s l ih =>
    have h1 := h s (by simp)
    have h2 := ih (fun x hx => h x (by simp [hx]))
    rw [Nat.even_add, Nat.even_add] at h2 ⊢
    simp only [even_countP_cons]
    rw [iff_swap, iff_swap, h1, h2]

theorem sides_fst (pts : List (Point K)) : (sides pts).map Prod.fst = pts := by
  unfold sides
  rw [List.map_fst_zip]
  simp

theorem sides_snd (pts : List (Point K)) : (sides pts).map Prod.snd = pts.rotate 1 := by
  unfold sides
  rw [List.map_snd_zip]
  simp

open Classical in
theorem strip_count_even (pts : List (Point K)) (R : Point K → Prop) :
    Even ((sides pts).countP (fun s => R s.1) + (sides pts).countP (fun s => R s.2)) := by
  have h1 : (sides pts).countP (fun s => R s.1) = pts.countP (fun v => R v) := by
    conv_rhs => rw [← sides_fst pts, List.countP_map]
    rfl
  have h2 : (sides pts).countP (fun s => R s.2) = pts.countP (fun v => R v) := by
    rw [← (List.rotate_perm pts 1).countP_eq, ← sides_snd pts, List.countP_map]
    rfl
  rw [h1, h2]
  exact ⟨_, rfl⟩

theorem rayCount_parity_lt (pts : List (Point K)) {p q : Point K} (hpq : p.y < q.y)
    (h : ∀ w ∈ segPts p q, w ∉ bdry pts) : Odd (rayCount pts p) ↔ Odd (rayCount pts q) := by
  classical
  have key : Even (rayCount pts p + rayCount pts q) := by
    unfold rayCount
    rw [countP_parity (sides pts) (CrossesRay p) (CrossesRay q) (fun s => InStrip p q s.1) (fun s => InStrip p q s.2)]
    · exact strip_count_even pts (InStrip p q)
    · intro s hs
      exact side_parity hpq fun w hw hw' => h w hw' ⟨s, hs, hw⟩
  rw [Nat.even_add] at key
  rw [← Nat.not_even_iff_odd, ← Nat.not_even_iff_odd, key]

/-- **Parity theorem.** -/
theorem rayCount_parity (pts : List (Point K)) {p q : Point K}
    (h : ∀ w ∈ segPts p q, w ∉ bdry pts) : Odd (rayCount pts p) ↔ Odd (rayCount pts q) := by
  rcases lt_trichotomy p.y q.y with hpq | hpq | hpq
  · exact rayCount_parity_lt pts hpq h
  · have : rayCount pts p = rayCount pts q := by
      unfold rayCount
      apply List.countP_congr
      intro s hs
      simp only [decide_eq_true_eq]
      exact level_crosses hpq fun w hw hw' => h w hw' ⟨s, hs, hw⟩
    rw [this]
  · exact (rayCount_parity_lt pts hpq (by rw [segPts_comm]; exact h)).symm

end Jagua
