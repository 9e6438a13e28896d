import Verif.Spec.HPGExact
import Verif.Lemmas.HPG

/-! # Distances with rounded square roots, and paths of cells along a line -/

set_option linter.unusedSectionVars false

namespace Jagua

variable {K : Type*} [Field K] [LinearOrder K] [IsStrictOrderedRing K]

/-- Distances to the centre of a disc change by at most the distance of the points. -/
theorem HEnv.SqrtWithin.lip {env : HEnv K} {ε : K} (hs : env.SqrtWithin ε) (c : Point K) {p q : Point K} {δ : K} (hδ : 0 ≤ δ)
    (h : sqDist p q ≤ δ ^ 2) : env.sqrt (sqDist p c) ≤ env.sqrt (sqDist q c) + δ + 2 * ε := by
  have q0 := hs.nonneg _ (sqDist_nonneg q c)
  have := hs.high _ (δ + (env.sqrt (sqDist q c) + ε)) (sqDist_nonneg p c) (by have := hs.eps; linarith)
    (sqDist_triangle hδ (by have := hs.eps; linarith) h (hs.low _ (sqDist_nonneg q c)))
  linarith

theorem discProx_lip {env : HEnv K} {ε : K} (hs : env.SqrtWithin ε) (c : Circle K) {p q : Point K} {δ : K} (hδ : 0 ≤ δ)
    (h : sqDist p q ≤ δ ^ 2) : HPGCell.discProx env p c ≤ HPGCell.discProx env q c + δ + 2 * ε := by
  have h1 := hs.lip c.center hδ h
  have := hs.eps
  rw [discProx_eq, discProx_eq]
  split_ifs with a b b <;> linarith

/-- The reported distance to a disc in terms of a bound on the true distance to its centre. -/
theorem discProx_le {env : HEnv K} {ε : K} (hs : env.SqrtWithin ε) (c : Circle K) {p : Point K} {a : K} (ha : 0 ≤ a)
    (h : sqDist p c.center ≤ a ^ 2) : HPGCell.discProx env p c ≤ max 0 (a + ε - c.radius) := by
  have h1 := hs.high _ a (sqDist_nonneg p c.center) ha h
  rw [discProx_eq]
  split_ifs with hc
  · exact le_max_left _ _
  · exact le_max_of_le_right (by linarith)

theorem discProx_ge (env : HEnv K) (c : Circle K) (p : Point K) :
    env.sqrt (sqDist p c.center) - c.radius ≤ HPGCell.discProx env p c := by
  rw [discProx_eq]
  split_ifs with hc
  · linarith
  · exact le_rfl

/-- Distances to a hazard: there is a point of the hazard that is not much further away than
reported, and none that is much closer. -/
theorem staticProx_within {env : HEnv K} {ε : K} (hs : env.SqrtWithin ε) (hf : env.f = Fpa.exact) (p : Point K) {h : Hazard K}
    (hw : h.shape.val.WF) : ∃ d, HPGCell.staticProx env p h = some d ∧ 0 ≤ d ∧
      (∃ x ∈ closedHaz h.entity.position h.shape.val.points, sqDist p x ≤ (d + ε) ^ 2) ∧
      ∀ x ∈ closedHaz h.entity.position h.shape.val.points, ∀ a, 0 ≤ a → sqDist p x ≤ a ^ 2 → d ≤ a + ε := by
  obtain ⟨d, h1, ⟨q, hq, hqd⟩, h2⟩ := SPoly.sqDistanceFromBorder_spec (f := env.f) hw.nonempty p
  have hd0 : 0 ≤ d := by rw [← hqd]; positivity
  have he := hs.eps
  unfold HPGCell.staticProx SPoly.distanceFromBorder
  rw [h1, Option.map_some, Option.map_some]
  refine ⟨_, rfl, ?_⟩
  dsimp only
  rw [hf]
  by_cases hpos : (if h.shape.val.collidesPoint Fpa.exact p = true then GeoPosition.interior else GeoPosition.exterior) = h.entity.position
  · rw [if_pos hpos]
    refine ⟨le_rfl, ⟨p, ?_, ?_⟩, fun _ _ a ha _ => by linarith⟩
    · by_cases hb : p ∈ bdry h.shape.val.points
      · exact .inl hb
      · refine .inr ?_
        have hiff := SPoly.collidesPoint_iff hw hb
        rw [← hpos]
        split_ifs with hc
        · exact hiff.1 hc
        · exact fun hr => hr.elim hb fun hi => hc (hiff.2 hi)
    · have : sqDist p p = 0 := by unfold sqDist; ring
      rw [this]
      positivity
  · rw [if_neg hpos]
    refine ⟨hs.nonneg _ hd0, ⟨q, .inl hq, ?_⟩, ?_⟩
    · show (p.x - q.x) ^ 2 + (p.y - q.y) ^ 2 ≤ _
      rw [hqd]
      exact hs.low _ hd0
    · intro x hx a ha hxa
      refine hs.high _ a hd0 ha (le_trans ?_ hxa)
      by_cases hb : p ∈ bdry h.shape.val.points
      · refine (h2 p hb).trans ?_
        have : (p.x - p.x) ^ 2 + (p.y - p.y) ^ 2 = 0 := by ring
        rw [this]
        exact sqDist_nonneg _ _
      rcases hx with hx | hx
      · exact h2 x hx
      have hno : p ∉ openHaz h.entity.position h.shape.val.points := by
        intro ho
        apply hpos
        have hiff := SPoly.collidesPoint_iff hw hb
        cases hp : h.entity.position with
        | interior => rw [hp] at ho; rw [if_pos (hiff.2 ho)]
        | exterior =>
          rw [hp] at ho
          rw [if_neg]
          exact fun hc => ho (.inr (hiff.1 hc))
      have : ∃ w ∈ segPts p x, w ∈ bdry h.shape.val.points := by
        by_contra hcon
        push Not at hcon
        exact hno ((openHaz_const hcon).2 hx)
      obtain ⟨w, ⟨t, t0, t1, wx, wy⟩, hwb⟩ := this
      refine (h2 w hwb).trans ?_
      have e : (p.x - w.x) ^ 2 + (p.y - w.y) ^ 2 = t ^ 2 * sqDist p x := by unfold sqDist; rw [wx, wy]; ring
      rw [e]
      have : t ^ 2 ≤ 1 := by nlinarith
      nlinarith [sqDist_nonneg p x]

theorem staticProx_lip {env : HEnv K} {ε : K} (hs : env.SqrtWithin ε) (hf : env.f = Fpa.exact) {p q : Point K} {h : Hazard K}
    (hw : h.shape.val.WF) {δ dp dq : K} (hδ : 0 ≤ δ) (hpq : sqDist p q ≤ δ ^ 2) (hp : HPGCell.staticProx env p h = some dp)
    (hq : HPGCell.staticProx env q h = some dq) : dp ≤ dq + δ + 2 * ε := by
  obtain ⟨d1, e1, _, _, u1⟩ := staticProx_within hs hf p hw
  obtain ⟨d2, e2, n2, ⟨x, hx, hxd⟩, _⟩ := staticProx_within hs hf q hw
  rw [hp] at e1
  rw [hq] at e2
  obtain rfl := Option.some.inj e1
  obtain rfl := Option.some.inj e2
  have := hs.eps
  have := u1 x hx (δ + (dq + ε)) (by linarith) (sqDist_triangle hδ (by linarith) hpq hxd)
  linarith

/-! ## Walking along a line -/

/-- between two cells of a row, towards another one: the wall that has to be crossed -/
theorem wall {x0 dim x p : K} (hd : 0 < dim) {i a : ℕ} (hx : x0 + dim * i ≤ x ∧ x ≤ x0 + dim * (i + 1))
    (hp : x0 + dim * a ≤ p ∧ p ≤ x0 + dim * (a + 1)) (hne : i ≠ a) :
    ∃ (i' : ℕ) (w s : K), (i' + 1 = i ∧ a ≤ i' ∨ i' = i + 1 ∧ i' ≤ a) ∧ 0 ≤ s ∧ s ≤ 1 ∧ w = x + s * (p - x) ∧
      (x0 + dim * i ≤ w ∧ w ≤ x0 + dim * (i + 1)) ∧ (x0 + dim * i' ≤ w ∧ w ≤ x0 + dim * (i' + 1)) := by
  have par : ∀ w : K, (x ≤ w ∧ w ≤ p) ∨ (p ≤ w ∧ w ≤ x) → ∃ s, 0 ≤ s ∧ s ≤ 1 ∧ w = x + s * (p - x) := by
    intro w hw
    by_cases hxp : p - x = 0
    · refine ⟨0, le_rfl, zero_le_one, ?_⟩
      rcases hw with h | h <;> linarith [h.1, h.2]
    · refine ⟨(w - x) / (p - x), ?_, ?_, by field_simp; ring⟩
      · rcases hw with h | h
        · exact div_nonneg (by linarith [h.1]) (by linarith [h.1, h.2])
        · exact div_nonneg_of_nonpos (by linarith [h.1, h.2]) (by linarith [h.1, h.2])
      · rcases hw with h | h
        · exact div_le_one_of_le₀ (by linarith [h.2]) (by linarith [h.1, h.2])
        · rw [← neg_div_neg_eq]
          exact div_le_one_of_le₀ (by linarith [h.1]) (by linarith [h.1, h.2])
  rcases lt_or_gt_of_ne hne with h | h
  · have h1 : ((i : K) + 1) ≤ a := by exact_mod_cast h
    have h2 : dim * ((i : K) + 1) ≤ dim * a := mul_le_mul_of_nonneg_left h1 hd.le
    obtain ⟨s, s0, s1, hs⟩ := par (x0 + dim * (i + 1)) (.inl ⟨hx.2, by linarith [hp.1]⟩)
    refine ⟨i + 1, _, s, .inr ⟨rfl, h⟩, s0, s1, hs, ⟨by linarith [hx.1, hx.2], le_rfl⟩, ?_⟩
    push_cast
    exact ⟨le_rfl, by nlinarith⟩
  · obtain ⟨i', rfl⟩ : ∃ i', i = i' + 1 := ⟨i - 1, by omega⟩
    have h1 : (a : K) + 1 ≤ ((i' + 1 : ℕ) : K) := by exact_mod_cast h
    have h2 : dim * ((a : K) + 1) ≤ dim * ((i' + 1 : ℕ) : K) := mul_le_mul_of_nonneg_left h1 hd.le
    obtain ⟨s, s0, s1, hs⟩ := par (x0 + dim * ((i' + 1 : ℕ) : K)) (.inr ⟨by linarith [hp.2], hx.1⟩)
    refine ⟨i', _, s, .inl ⟨rfl, by omega⟩, s0, s1, hs, ⟨le_rfl, by nlinarith⟩, ?_⟩
    push_cast
    exact ⟨by nlinarith, le_rfl⟩

/-- a point between two points of a cell is in the cell -/
theorem between_mem {lo hi x w : K} {s t : K} (hx : lo ≤ x ∧ x ≤ hi) {p : K} (hw : w = x + t * (p - x)) (hwm : lo ≤ w ∧ w ≤ hi)
    (s0 : 0 ≤ s) (st : s ≤ t) : lo ≤ x + s * (p - x) ∧ x + s * (p - x) ≤ hi := by
  rcases eq_or_lt_of_le (s0.trans st) with ht | ht
  · have : s = 0 := le_antisymm (by rw [ht]; exact st) s0
    rw [this]
    simpa using hx
  have e : x + s * (p - x) = (1 - s / t) * x + s / t * w := by rw [hw]; field_simp; ring
  have r0 : 0 ≤ s / t := div_nonneg s0 ht.le
  have r1 : s / t ≤ 1 := div_le_one_of_le₀ st ht.le
  rw [e]
  constructor <;> nlinarith [hx.1, hx.2, hwm.1, hwm.2]

/-- **Cells along a line**: a set of cells that contains the cell of `p` and, with each cell,
all neighbours through which the segment from `c` to `p` passes, contains all of the cells
through which the segment passes. -/
theorem walk {x0 y0 dim : K} (hd : 0 < dim) {c p : Point K} {a b : ℕ} (hpx : x0 + dim * a ≤ p.x ∧ p.x ≤ x0 + dim * (a + 1))
    (hpy : y0 + dim * b ≤ p.y ∧ p.y ≤ y0 + dim * (b + 1)) {V : ℕ → ℕ → Prop} (hV : V a b)
    (hstep : ∀ i j i' j' u, V i' j' → (i ≤ i' + 1 ∧ i' ≤ i + 1) → (j ≤ j' + 1 ∧ j' ≤ j + 1) → (i' ≤ max i a ∧ j' ≤ max j b) →
      0 ≤ u → u ≤ 1 →
      (x0 + dim * i ≤ p.x + u * (c.x - p.x) ∧ p.x + u * (c.x - p.x) ≤ x0 + dim * (i + 1)) →
      (y0 + dim * j ≤ p.y + u * (c.y - p.y) ∧ p.y + u * (c.y - p.y) ≤ y0 + dim * (j + 1)) → V i j)
    (k : ℕ) {i j : ℕ} (hk : (i - a) + (a - i) + ((j - b) + (b - j)) = k) {u : K} (u0 : 0 ≤ u) (u1 : u ≤ 1)
    (hx : x0 + dim * i ≤ p.x + u * (c.x - p.x) ∧ p.x + u * (c.x - p.x) ≤ x0 + dim * (i + 1))
    (hy : y0 + dim * j ≤ p.y + u * (c.y - p.y) ∧ p.y + u * (c.y - p.y) ≤ y0 + dim * (j + 1)) : V i j := by
  induction k using Nat.strong_induction_on generalizing i j u with
  | _ k ih =>
  -- moving on to a neighbour
  have go : ∀ i' j' s, (i ≤ i' + 1 ∧ i' ≤ i + 1) → (j ≤ j' + 1 ∧ j' ≤ j + 1) → (i' ≤ max i a ∧ j' ≤ max j b) →
      (i' - a) + (a - i') + ((j' - b) + (b - j')) < k → 0 ≤ s → s ≤ 1 →
      (x0 + dim * i' ≤ p.x + u * (c.x - p.x) + s * (p.x - (p.x + u * (c.x - p.x))) ∧
        p.x + u * (c.x - p.x) + s * (p.x - (p.x + u * (c.x - p.x))) ≤ x0 + dim * (i' + 1)) →
      (y0 + dim * j' ≤ p.y + u * (c.y - p.y) + s * (p.y - (p.y + u * (c.y - p.y))) ∧
        p.y + u * (c.y - p.y) + s * (p.y - (p.y + u * (c.y - p.y))) ≤ y0 + dim * (j' + 1)) → V i j := by
    intro i' j' s h1 h2 hm h3 s0 s1 hx' hy'
    have e1 : p.x + u * (c.x - p.x) + s * (p.x - (p.x + u * (c.x - p.x))) = p.x + (u * (1 - s)) * (c.x - p.x) := by ring
    have e2 : p.y + u * (c.y - p.y) + s * (p.y - (p.y + u * (c.y - p.y))) = p.y + (u * (1 - s)) * (c.y - p.y) := by ring
    rw [e1] at hx'
    rw [e2] at hy'
    have hv := ih _ h3 rfl (u := u * (1 - s)) (mul_nonneg u0 (by linarith)) (by nlinarith) hx' hy'
    exact hstep i j i' j' u hv h1 h2 hm u0 u1 hx hy
  by_cases hi : i = a
  · by_cases hj : j = b
    · rw [hi, hj]; exact hV
    · obtain ⟨j', w, s, hj', s0, s1, hw, hw1, hw2⟩ := wall hd hy hpy hj
      refine go i j' s (by omega) (by omega) (by omega) (by omega) s0 s1 ?_ (by rw [← hw]; exact hw2)
      subst hi
      refine between_mem hx (t := 1) (w := p.x) (by ring) hpx s0 s1
  · obtain ⟨i', w, s, hi', s0, s1, hw, hw1, hw2⟩ := wall hd hx hpx hi
    by_cases hj : j = b
    · refine go i' j s (by omega) (by omega) (by omega) (by omega) s0 s1 (by rw [← hw]; exact hw2) ?_
      subst hj
      exact between_mem hy (t := 1) (w := p.y) (by ring) hpy s0 s1
    · obtain ⟨j', v, t, hj', t0, t1, hv, hv1, hv2⟩ := wall hd hy hpy hj
      rcases le_total s t with hst | hst
      · exact go i' j s (by omega) (by omega) (by omega) (by omega) s0 s1 (by rw [← hw]; exact hw2) (between_mem hy hv hv1 s0 hst)
      · exact go i j' t (by omega) (by omega) (by omega) (by omega) t0 t1 (between_mem hx hw hw1 t0 hst) (by rw [← hv]; exact hv2)

end Jagua
