import Verif.Lemmas.Parity
import Verif.Spec.Motion

/-!
# Ray casting does not depend on the direction of the ray

and therefore the interior of a polygon moves along with the polygon.
-/

set_option linter.unusedSectionVars false

namespace Jagua

variable {K : Type*} [Field K] [LinearOrder K] [IsStrictOrderedRing K]

/-- side of the ray from `p` in direction `d` -/
def dirSide (d p v : Point K) : K := d.x * (v.y - p.y) - d.y * (v.x - p.x)

theorem dirSide_lerp {d p a b c : Point K} {t : K} (hx : c.x = a.x + t * (b.x - a.x)) (hy : c.y = a.y + t * (b.y - a.y)) :
    dirSide d p c = dirSide d p a + t * (dirSide d p b - dirSide d p a) := by
  unfold dirSide
  rw [hx, hy]
  ring

/-- On the line of the first ray, being ahead is a matter of the side of the second. -/
theorem ahead_iff {d e p c : Point K} (hk : 0 < d.x * e.y - d.y * e.x) (h : dirSide d p c = 0) :
    0 < d.x * (c.x - p.x) + d.y * (c.y - p.y) ↔ dirSide e p c < 0 := by
  unfold dirSide at *
  have hd : 0 < d.x ^ 2 + d.y ^ 2 := by
    by_contra hn
    have h1 : d.x = 0 := by nlinarith [sq_nonneg d.x, sq_nonneg d.y]
    have h2 : d.y = 0 := by nlinarith [sq_nonneg d.x, sq_nonneg d.y]
    rw [h1, h2] at hk; simp at hk
  have key : (e.x * (c.y - p.y) - e.y * (c.x - p.x)) * (d.x ^ 2 + d.y ^ 2) =
      -((d.x * (c.x - p.x) + d.y * (c.y - p.y)) * (d.x * e.y - d.y * e.x)) := by
    linear_combination (d.x * e.x + d.y * e.y) * h
  constructor
  · intro h1
    have := mul_pos h1 hk
    by_contra hn
    push Not at hn
    have := mul_nonneg hn hd.le
    linarith
  · intro h1
    have h2 := mul_neg_of_neg_of_pos h1 hd
    by_contra hn
    push Not at hn
    have := mul_nonpos_of_nonpos_of_nonneg hn hk.le
    linarith

/-- On the line of the second ray. -/
theorem ahead_iff' {d e p c : Point K} (hk : 0 < d.x * e.y - d.y * e.x) (h : dirSide e p c = 0) :
    0 < e.x * (c.x - p.x) + e.y * (c.y - p.y) ↔ 0 < dirSide d p c := by
  unfold dirSide at *
  have hd : 0 < e.x ^ 2 + e.y ^ 2 := by
    by_contra hn
    have h1 : e.x = 0 := by nlinarith [sq_nonneg e.x, sq_nonneg e.y]
    have h2 : e.y = 0 := by nlinarith [sq_nonneg e.x, sq_nonneg e.y]
    rw [h1, h2] at hk; simp at hk
  have key : (d.x * (c.y - p.y) - d.y * (c.x - p.x)) * (e.x ^ 2 + e.y ^ 2) =
      ((e.x * (c.x - p.x) + e.y * (c.y - p.y)) * (d.x * e.y - d.y * e.x)) := by
    linear_combination (d.x * e.x + d.y * e.y) * h
  constructor
  · intro h1
    have := mul_pos h1 hk
    by_contra hn
    push Not at hn
    have := mul_nonpos_of_nonpos_of_nonneg hn hd.le
    linarith
  · intro h1
    have h2 := mul_pos h1 hd
    by_contra hn
    push Not at hn
    have := mul_nonpos_of_nonpos_of_nonneg hn hk.le
    linarith

/-- Both sides zero only at `p`. -/
theorem both_zero {d e p c : Point K} (hk : 0 < d.x * e.y - d.y * e.x) (h1 : dirSide d p c = 0) (h2 : dirSide e p c = 0) :
    c = p := by
  unfold dirSide at *
  have hx : (c.x - p.x) * (d.x * e.y - d.y * e.x) = 0 := by linear_combination e.x * h1 - d.x * h2
  have hy : (c.y - p.y) * (d.x * e.y - d.y * e.x) = 0 := by linear_combination e.y * h1 - d.y * h2
  ext
  · exact sub_eq_zero.1 ((mul_eq_zero.1 hx).resolve_right hk.ne')
  · exact sub_eq_zero.1 ((mul_eq_zero.1 hy).resolve_right hk.ne')

/-- the point where a segment changes side -/
theorem change_point {α β : K} (h : (α < 0 ∧ 0 ≤ β) ∨ (β < 0 ∧ 0 ≤ α)) :
    0 ≤ α / (α - β) ∧ α / (α - β) ≤ 1 ∧ α + α / (α - β) * (β - α) = 0 := by
  have hne : α - β ≠ 0 := by
    intro h'
    have : α = β := by linarith
    subst this
    rcases h with h | h <;> linarith [h.1, h.2]
  have h3 : α + α / (α - β) * (β - α) = 0 := by field_simp; ring
  rcases h with h | h
  · have hn : α - β < 0 := by linarith
    exact ⟨div_nonneg_of_nonpos h.1.le hn.le, by rw [div_le_one_of_neg hn]; linarith, h3⟩
  · have hn : 0 < α - β := by linarith
    exact ⟨div_nonneg h.2 hn.le, by rw [div_le_one hn]; linarith, h3⟩

/-- Crossing the first ray in terms of sides. -/
theorem crossesDir_iff {d e p : Point K} {s : Point K × Point K} (hk : 0 < d.x * e.y - d.y * e.x) :
    CrossesDir d p s ↔
      (dirSide d p s.1 < 0 ∧ 0 ≤ dirSide d p s.2 ∧ 0 < dirSide d p s.1 * dirSide e p s.2 - dirSide d p s.2 * dirSide e p s.1) ∨
      (dirSide d p s.2 < 0 ∧ 0 ≤ dirSide d p s.1 ∧ dirSide d p s.1 * dirSide e p s.2 - dirSide d p s.2 * dirSide e p s.1 < 0) := by
  have main : ∀ c ∈ segPts s.1 s.2, dirSide d p c = 0 →
      dirSide e p c * (dirSide d p s.1 - dirSide d p s.2) =
        dirSide d p s.1 * dirSide e p s.2 - dirSide d p s.2 * dirSide e p s.1 := by
    rintro c ⟨t, -, -, hx, hy⟩ h0
    have e1 := dirSide_lerp (d := d) (p := p) hx hy
    have e2 := dirSide_lerp (d := e) (p := p) hx hy
    rw [h0] at e1
    rw [e2]
    linear_combination (dirSide e p s.2 - dirSide e p s.1) * e1
  constructor
  · rintro ⟨hs, c, hc, h0, ha⟩
    have h1 := (ahead_iff hk h0).1 ha
    have h2 := main c hc h0
    rcases hs with hs | hs
    · refine .inl ⟨hs.1, hs.2, ?_⟩
      rw [← h2]
      exact mul_pos_of_neg_of_neg h1 (by have := hs.1; have := hs.2; unfold dirSide; linarith)
    · refine .inr ⟨hs.1, hs.2, ?_⟩
      rw [← h2]
      exact mul_neg_of_neg_of_pos h1 (by have := hs.1; have := hs.2; unfold dirSide; linarith)
  · intro h
    have hs : (dirSide d p s.1 < 0 ∧ 0 ≤ dirSide d p s.2) ∨ (dirSide d p s.2 < 0 ∧ 0 ≤ dirSide d p s.1) := by tauto
    obtain ⟨t0, t1, tz⟩ := change_point hs
    set t := dirSide d p s.1 / (dirSide d p s.1 - dirSide d p s.2)
    let c : Point K := ⟨s.1.x + t * (s.2.x - s.1.x), s.1.y + t * (s.2.y - s.1.y)⟩
    have hc : c ∈ segPts s.1 s.2 := ⟨t, t0, t1, rfl, rfl⟩
    have h0 : dirSide d p c = 0 := by rw [dirSide_lerp (a := s.1) (b := s.2) (t := t) rfl rfl]; exact tz
    have h2 := main c hc h0
    refine ⟨hs, c, hc, h0, (ahead_iff hk h0).2 ?_⟩
    rcases h with ⟨h3, h4, h5⟩ | ⟨h3, h4, h5⟩
    · rw [← h2] at h5
      by_contra hn
      push Not at hn
      have := mul_nonpos_of_nonneg_of_nonpos hn (show dirSide d p s.1 - dirSide d p s.2 ≤ 0 by linarith)
      linarith
    · rw [← h2] at h5
      by_contra hn
      push Not at hn
      have := mul_nonneg hn (show 0 ≤ dirSide d p s.1 - dirSide d p s.2 by linarith)
      linarith

/-- Crossing the second ray in terms of sides. -/
theorem crossesDir_iff' {d e p : Point K} {s : Point K × Point K} (hk : 0 < d.x * e.y - d.y * e.x) :
    CrossesDir e p s ↔
      (dirSide e p s.1 < 0 ∧ 0 ≤ dirSide e p s.2 ∧ 0 < dirSide d p s.1 * dirSide e p s.2 - dirSide d p s.2 * dirSide e p s.1) ∨
      (dirSide e p s.2 < 0 ∧ 0 ≤ dirSide e p s.1 ∧ dirSide d p s.1 * dirSide e p s.2 - dirSide d p s.2 * dirSide e p s.1 < 0) := by
  have main : ∀ c ∈ segPts s.1 s.2, dirSide e p c = 0 →
      dirSide d p c * (dirSide e p s.2 - dirSide e p s.1) =
        dirSide d p s.1 * dirSide e p s.2 - dirSide d p s.2 * dirSide e p s.1 := by
    rintro c ⟨t, -, -, hx, hy⟩ h0
    have e1 := dirSide_lerp (d := d) (p := p) hx hy
    have e2 := dirSide_lerp (d := e) (p := p) hx hy
    rw [h0] at e2
    rw [e1]
    linear_combination (dirSide d p s.1 - dirSide d p s.2) * e2
  constructor
  · rintro ⟨hs, c, hc, h0, ha⟩
    have h1 := (ahead_iff' hk h0).1 ha
    have h2 := main c hc h0
    rcases hs with hs | hs
    · refine .inl ⟨hs.1, hs.2, ?_⟩
      rw [← h2]
      exact mul_pos h1 (by have := hs.1; have := hs.2; unfold dirSide; linarith)
    · refine .inr ⟨hs.1, hs.2, ?_⟩
      rw [← h2]
      exact mul_neg_of_pos_of_neg h1 (by have := hs.1; have := hs.2; unfold dirSide; linarith)
  · intro h
    have hs : (dirSide e p s.1 < 0 ∧ 0 ≤ dirSide e p s.2) ∨ (dirSide e p s.2 < 0 ∧ 0 ≤ dirSide e p s.1) := by tauto
    obtain ⟨t0, t1, tz⟩ := change_point hs
    set t := dirSide e p s.1 / (dirSide e p s.1 - dirSide e p s.2)
    let c : Point K := ⟨s.1.x + t * (s.2.x - s.1.x), s.1.y + t * (s.2.y - s.1.y)⟩
    have hc : c ∈ segPts s.1 s.2 := ⟨t, t0, t1, rfl, rfl⟩
    have h0 : dirSide e p c = 0 := by rw [dirSide_lerp (a := s.1) (b := s.2) (t := t) rfl rfl]; exact tz
    have h2 := main c hc h0
    refine ⟨hs, c, hc, h0, (ahead_iff' hk h0).2 ?_⟩
    rcases h with ⟨h3, h4, h5⟩ | ⟨h3, h4, h5⟩
    · rw [← h2] at h5
      by_contra hn
      push Not at hn
      have := mul_nonpos_of_nonpos_of_nonneg hn (show 0 ≤ dirSide e p s.2 - dirSide e p s.1 by linarith)
      linarith
    · rw [← h2] at h5
      by_contra hn
      push Not at hn
      have := mul_nonneg_of_nonpos_of_nonpos hn (show dirSide e p s.2 - dirSide e p s.1 ≤ 0 by linarith)
      linarith

/-- between the rays -/
def InWedge (d e p v : Point K) : Prop := 0 ≤ dirSide d p v ∧ dirSide e p v < 0

theorem wedge_signs {α β γ δ : K}
    (hne : (α < 0 ∧ 0 ≤ β) ∨ (β < 0 ∧ 0 ≤ α) ∨ (γ < 0 ∧ 0 ≤ δ) ∨ (δ < 0 ∧ 0 ≤ γ) → α * δ - β * γ ≠ 0) :
    (((α < 0 ∧ 0 ≤ β ∧ 0 < α * δ - β * γ) ∨ (β < 0 ∧ 0 ≤ α ∧ α * δ - β * γ < 0)) ↔
      ((γ < 0 ∧ 0 ≤ δ ∧ 0 < α * δ - β * γ) ∨ (δ < 0 ∧ 0 ≤ γ ∧ α * δ - β * γ < 0))) ↔
    ((0 ≤ α ∧ γ < 0) ↔ (0 ≤ β ∧ δ < 0)) := by
  have f1 : 0 ≤ γ → 0 ≤ δ → α < 0 → 0 ≤ β → α * δ - β * γ ≤ 0 := fun c e a b => by
    have := mul_nonpos_of_nonpos_of_nonneg a.le e; have := mul_nonneg b c; linarith
  have f2 : γ < 0 → δ < 0 → α < 0 → 0 ≤ β → 0 < α * δ - β * γ := fun c e a b => by
    have := mul_pos_of_neg_of_neg a e; have := mul_nonpos_of_nonneg_of_nonpos b c.le; linarith
  have f3 : 0 ≤ γ → 0 ≤ δ → β < 0 → 0 ≤ α → 0 ≤ α * δ - β * γ := fun c e b a => by
    have := mul_nonneg a e; have := mul_nonpos_of_nonpos_of_nonneg b.le c; linarith
  have f4 : γ < 0 → δ < 0 → β < 0 → 0 ≤ α → α * δ - β * γ < 0 := fun c e b a => by
    have := mul_nonpos_of_nonneg_of_nonpos a e.le; have := mul_pos_of_neg_of_neg b c; linarith
  have f5 : 0 ≤ α → 0 ≤ β → γ < 0 → 0 ≤ δ → 0 ≤ α * δ - β * γ := fun a b c e => by
    have := mul_nonneg a e; have := mul_nonpos_of_nonneg_of_nonpos b c.le; linarith
  have f6 : 0 ≤ α → 0 ≤ β → δ < 0 → 0 ≤ γ → α * δ - β * γ ≤ 0 := fun a b e c => by
    have := mul_nonpos_of_nonneg_of_nonpos a e.le; have := mul_nonneg b c; linarith
  have f7 : α < 0 → β < 0 → γ < 0 → 0 ≤ δ → α * δ - β * γ < 0 := fun a b c e => by
    have := mul_nonpos_of_nonpos_of_nonneg a.le e; have := mul_pos_of_neg_of_neg b c; linarith
  have f8 : α < 0 → β < 0 → δ < 0 → 0 ≤ γ → 0 < α * δ - β * γ := fun a b e c => by
    have := mul_pos_of_neg_of_neg a e; have := mul_nonpos_of_nonpos_of_nonneg b.le c; linarith
  generalize α * δ - β * γ = D at *
  rcases lt_or_ge α 0 with a | a <;> rcases lt_or_ge β 0 with b | b <;> rcases lt_or_ge γ 0 with c | c <;>
    rcases lt_or_ge δ 0 with e | e <;> grind

/-- Between two independent directions, a side that avoids `p` crosses exactly one of
the rays iff it has exactly one end between them. -/
theorem wedge_parity {d e p : Point K} {s : Point K × Point K} (hk : 0 < d.x * e.y - d.y * e.x)
    (hp : p ∉ segPts s.1 s.2) :
    (CrossesDir d p s ↔ CrossesDir e p s) ↔ (InWedge d e p s.1 ↔ InWedge d e p s.2) := by
  rw [crossesDir_iff hk, crossesDir_iff' hk]
  apply wedge_signs
  have main : ∀ t : K, 0 ≤ t → t ≤ 1 → dirSide d p s.1 + t * (dirSide d p s.2 - dirSide d p s.1) = 0 →
      dirSide e p s.1 + t * (dirSide e p s.2 - dirSide e p s.1) = 0 → False := by
    intro t t0 t1 h1 h2
    apply hp
    have hc : (⟨s.1.x + t * (s.2.x - s.1.x), s.1.y + t * (s.2.y - s.1.y)⟩ : Point K) ∈ segPts s.1 s.2 :=
      ⟨t, t0, t1, rfl, rfl⟩
    rw [← dirSide_lerp (c := ⟨s.1.x + t * (s.2.x - s.1.x), s.1.y + t * (s.2.y - s.1.y)⟩) rfl rfl] at h1 h2
    rwa [both_zero hk h1 h2] at hc
  intro h hD
  have h' : ((dirSide d p s.1 < 0 ∧ 0 ≤ dirSide d p s.2) ∨ (dirSide d p s.2 < 0 ∧ 0 ≤ dirSide d p s.1)) ∨
      ((dirSide e p s.1 < 0 ∧ 0 ≤ dirSide e p s.2) ∨ (dirSide e p s.2 < 0 ∧ 0 ≤ dirSide e p s.1)) := by tauto
  rcases h' with h' | h'
  · obtain ⟨t0, t1, tz⟩ := change_point h'
    refine main _ t0 t1 tz ?_
    have hne : dirSide d p s.1 - dirSide d p s.2 ≠ 0 := by
      intro h0; rcases h' with h' | h' <;> linarith [h'.1, h'.2]
    field_simp
    linear_combination hD
  · obtain ⟨t0, t1, tz⟩ := change_point h'
    refine main _ t0 t1 ?_ tz
    have hne : dirSide e p s.1 - dirSide e p s.2 ≠ 0 := by
      intro h0; rcases h' with h' | h' <;> linarith [h'.1, h'.2]
    field_simp
    linear_combination -hD

theorem dirCount_pos {pts : List (Point K)} {d e p : Point K} (hk : 0 < d.x * e.y - d.y * e.x) (hp : p ∉ bdry pts) :
    Odd (dirCount d pts p) ↔ Odd (dirCount e pts p) := by
  classical
  have key : Even (dirCount d pts p + dirCount e pts p) := by
    unfold dirCount
    rw [countP_parity (sides pts) (CrossesDir d p) (CrossesDir e p) (fun s => InWedge d e p s.1)
      (fun s => InWedge d e p s.2)]
    · exact strip_count_even pts (InWedge d e p)
    · intro s hs
      exact wedge_parity hk fun h => hp ⟨s, hs, h⟩
  rw [Nat.even_add] at key
  rw [← Nat.not_even_iff_odd, ← Nat.not_even_iff_odd, key]

theorem dirCount_indep {pts : List (Point K)} {d e p : Point K} (hk : d.x * e.y - d.y * e.x ≠ 0) (hp : p ∉ bdry pts) :
    Odd (dirCount d pts p) ↔ Odd (dirCount e pts p) := by
  rcases lt_or_gt_of_ne hk with h | h
  · exact (dirCount_pos (by linarith) hp).symm
  · exact dirCount_pos h hp

/-- The parity of the number of crossed sides does not depend on the direction of the ray. -/
theorem dirCount_const {pts : List (Point K)} {d e p : Point K} (hd : d.x ≠ 0 ∨ d.y ≠ 0) (he : e.x ≠ 0 ∨ e.y ≠ 0)
    (hp : p ∉ bdry pts) : Odd (dirCount d pts p) ↔ Odd (dirCount e pts p) := by
  by_cases hk : d.x * e.y - d.y * e.x = 0
  · have pos : ∀ v : Point K, (v.x ≠ 0 ∨ v.y ≠ 0) → 0 < v.x ^ 2 + v.y ^ 2 := by
      rintro v (h | h)
      · have := sq_nonneg v.y; have := sq_pos_of_ne_zero h; linarith
      · have := sq_nonneg v.x; have := sq_pos_of_ne_zero h; linarith
    have h1 : d.x * (⟨-d.y, d.x⟩ : Point K).y - d.y * (⟨-d.y, d.x⟩ : Point K).x ≠ 0 := by
      have := pos d hd
      simp only
      intro h
      nlinarith
    have h2 : e.x * (⟨-d.y, d.x⟩ : Point K).y - e.y * (⟨-d.y, d.x⟩ : Point K).x ≠ 0 := by
      simp only
      intro h
      have hd' := pos d hd
      have hx : e.x * (d.x ^ 2 + d.y ^ 2) = 0 := by linear_combination d.x * h - d.y * hk
      have hy : e.y * (d.x ^ 2 + d.y ^ 2) = 0 := by linear_combination d.y * h + d.x * hk
      rcases he with he | he
      · exact he ((mul_eq_zero.1 hx).resolve_right hd'.ne')
      · exact he ((mul_eq_zero.1 hy).resolve_right hd'.ne')
    rw [dirCount_indep h1 hp, dirCount_indep h2 hp]
  · exact dirCount_indep hk hp

theorem crossesDir_right {p : Point K} {s : Point K × Point K} : CrossesDir ⟨1, 0⟩ p s ↔ CrossesRay p s := by
  unfold CrossesDir CrossesRay
  simp only [one_mul, zero_mul, sub_zero, add_zero, sub_neg, sub_nonneg, sub_eq_zero, sub_pos]

theorem dirCount_right (pts : List (Point K)) (p : Point K) : dirCount ⟨1, 0⟩ pts p = rayCount pts p := by
  classical
  unfold dirCount rayCount
  apply List.countP_congr
  intro s _
  simp only [decide_eq_true_eq]
  exact crossesDir_right

/-! ## Moving a polygon -/

theorem sides_map (g : Point K → Point K) (pts : List (Point K)) :
    sides (pts.map g) = (sides pts).map fun s => (g s.1, g s.2) := by
  unfold sides
  rw [← List.map_rotate, List.zip_map]
  rfl

/-- an affine map that preserves lengths and orientation -/
structure Rigid (g : Point K → Point K) (c s : K) : Prop where
  unit : c ^ 2 + s ^ 2 = 1
  dx : ∀ p q, (g q).x - (g p).x = c * (q.x - p.x) - s * (q.y - p.y)
  dy : ∀ p q, (g q).y - (g p).y = s * (q.x - p.x) + c * (q.y - p.y)

theorem RigidMap.rigid {g : Point K → Point K} (h : RigidMap g) : ∃ c s, Rigid g c s := by
  obtain ⟨c, s, tx, ty, hu, hg⟩ := h
  refine ⟨c, s, hu, ?_, ?_⟩ <;>
  · intro p q
    rw [hg, hg]
    simp only [transPt, rotPt]
    ring

theorem Rigid.injective {g : Point K → Point K} {c s : K} (h : Rigid g c s) : Function.Injective g := by
  intro p q he
  have h1 := h.dx p q
  have h2 := h.dy p q
  rw [he, sub_self] at h1 h2
  have e1 : q.x - p.x = 0 := by linear_combination (-c) * h1 - s * h2 - (q.x - p.x) * h.unit
  have e2 : q.y - p.y = 0 := by linear_combination s * h1 - c * h2 - (q.y - p.y) * h.unit
  ext <;> linarith

theorem Rigid.surjective {g : Point K → Point K} {c s : K} (h : Rigid g c s) : Function.Surjective g := by
  intro q
  let o : Point K := ⟨0, 0⟩
  refine ⟨⟨c * (q.x - (g o).x) + s * (q.y - (g o).y), -s * (q.x - (g o).x) + c * (q.y - (g o).y)⟩, ?_⟩
  have h1 := h.dx o ⟨c * (q.x - (g o).x) + s * (q.y - (g o).y), -s * (q.x - (g o).x) + c * (q.y - (g o).y)⟩
  have h2 := h.dy o ⟨c * (q.x - (g o).x) + s * (q.y - (g o).y), -s * (q.x - (g o).x) + c * (q.y - (g o).y)⟩
  simp only [o, sub_zero] at h1 h2
  ext
  · linear_combination h1 + (q.x - (g o).x) * h.unit
  · linear_combination h2 + (q.y - (g o).y) * h.unit

theorem Rigid.seg {g : Point K → Point K} {c s : K} (h : Rigid g c s) {a b p : Point K} :
    g p ∈ segPts (g a) (g b) ↔ p ∈ segPts a b := by
  have e1 := h.dx a p
  have e2 := h.dy a p
  have e3 := h.dx a b
  have e4 := h.dy a b
  constructor
  · rintro ⟨t, t0, t1, hx, hy⟩
    refine ⟨t, t0, t1, ?_, ?_⟩
    · have k1 : c * (p.x - a.x) - s * (p.y - a.y) = t * (c * (b.x - a.x) - s * (b.y - a.y)) := by
        rw [← e1, ← e3]; linarith
      have k2 : s * (p.x - a.x) + c * (p.y - a.y) = t * (s * (b.x - a.x) + c * (b.y - a.y)) := by
        rw [← e2, ← e4]; linarith
      linear_combination c * k1 + s * k2 - (p.x - a.x - t * (b.x - a.x)) * h.unit
    · have k1 : c * (p.x - a.x) - s * (p.y - a.y) = t * (c * (b.x - a.x) - s * (b.y - a.y)) := by
        rw [← e1, ← e3]; linarith
      have k2 : s * (p.x - a.x) + c * (p.y - a.y) = t * (s * (b.x - a.x) + c * (b.y - a.y)) := by
        rw [← e2, ← e4]; linarith
      linear_combination (-s) * k1 + c * k2 - (p.y - a.y - t * (b.y - a.y)) * h.unit
  · rintro ⟨t, t0, t1, hx, hy⟩
    refine ⟨t, t0, t1, ?_, ?_⟩
    · rw [e3]; rw [hx, hy] at e1; linear_combination e1
    · rw [e4]; rw [hx, hy] at e2; linear_combination e2

theorem Rigid.bdry {g : Point K → Point K} {c s : K} (h : Rigid g c s) {pts : List (Point K)} {p : Point K} :
    g p ∈ bdry (pts.map g) ↔ p ∈ bdry pts := by
  unfold Jagua.bdry
  rw [sides_map]
  constructor
  · rintro ⟨t, ht, hp⟩
    obtain ⟨t', ht', rfl⟩ := List.mem_map.1 ht
    exact ⟨t', ht', h.seg.1 hp⟩
  · rintro ⟨t, ht, hp⟩
    exact ⟨(g t.1, g t.2), List.mem_map_of_mem ht, h.seg.2 hp⟩

theorem Rigid.crosses {g : Point K → Point K} {c s : K} (h : Rigid g c s) {p : Point K} {t : Point K × Point K} :
    CrossesRay (g p) (g t.1, g t.2) ↔ CrossesDir ⟨c, -s⟩ p t := by
  have L : ∀ v, (g v).y - (g p).y = c * (v.y - p.y) - (-s) * (v.x - p.x) := fun v => by rw [h.dy p v]; ring
  have M : ∀ v, (g v).x - (g p).x = c * (v.x - p.x) + (-s) * (v.y - p.y) := fun v => by rw [h.dx p v]; ring
  unfold CrossesRay CrossesDir
  simp only [← L, ← M, sub_neg, sub_nonneg, sub_eq_zero, sub_pos]
  apply and_congr_right
  intro _
  constructor
  · rintro ⟨q, hq, h1, h2⟩
    obtain ⟨q', rfl⟩ := h.surjective q
    exact ⟨q', h.seg.1 hq, h1, h2⟩
  · rintro ⟨q, hq, h1, h2⟩
    exact ⟨g q, h.seg.2 hq, h1, h2⟩

theorem Rigid.rayCount {g : Point K → Point K} {c s : K} (h : Rigid g c s) {pts : List (Point K)} {p : Point K} :
    rayCount (pts.map g) (g p) = dirCount ⟨c, -s⟩ pts p := by
  classical
  unfold Jagua.rayCount dirCount
  rw [sides_map, List.countP_map]
  apply List.countP_congr
  intro t _
  simp only [Function.comp, decide_eq_true_eq]
  exact h.crosses

/-- The interior of a moved polygon is the moved interior. -/
theorem Rigid.interior {g : Point K → Point K} {c s : K} (h : Rigid g c s) {pts : List (Point K)} {p : Point K} :
    g p ∈ interior (pts.map g) ↔ p ∈ interior pts := by
  show _ ∧ _ ↔ _ ∧ _
  rw [h.bdry, h.rayCount]
  apply and_congr_right
  intro hp
  rw [← dirCount_right pts p]
  apply dirCount_const _ _ hp
  · by_contra hn
    push Not at hn
    simp only [neg_eq_zero] at hn
    have := h.unit
    rw [hn.1, hn.2] at this
    simp at this
  · left; simp

theorem Rigid.region {g : Point K → Point K} {c s : K} (h : Rigid g c s) {pts : List (Point K)} {p : Point K} :
    g p ∈ region (pts.map g) ↔ p ∈ region pts := or_congr h.bdry h.interior

end Jagua
