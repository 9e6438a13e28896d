import Verif.Lemmas.Jordan

/-!
# Simple polygons: inside is on the same side of all sides
-/

set_option linter.unusedSectionVars false

namespace Jagua

variable {K : Type*} [Field K] [LinearOrder K] [IsStrictOrderedRing K]

/-! ### Sides of simple polygons -/

theorem side_eq_of_fst {pts : List (Point K)} (hn : pts.Nodup) {s t : Point K × Point K} (hs : s ∈ sides pts) (ht : t ∈ sides pts) (h : s.1 = t.1) : s = t :=
  List.inj_on_of_nodup_map (f := Prod.fst) (by rw [sides_fst]; exact hn) hs ht h

theorem side_eq_of_snd {pts : List (Point K)} (hn : pts.Nodup) {s t : Point K × Point K} (hs : s ∈ sides pts) (ht : t ∈ sides pts) (h : s.2 = t.2) : s = t :=
  List.inj_on_of_nodup_map (f := Prod.snd) (by rw [sides_snd]; exact List.nodup_rotate.2 hn) hs ht h

theorem sides_nodup {pts : List (Point K)} (hn : pts.Nodup) : (sides pts).Nodup :=
  List.Nodup.of_map Prod.fst (by rw [sides_fst]; exact hn)

theorem sides_get {pts : List (Point K)} {s : Point K × Point K} (hs : s ∈ sides pts) :
    ∃ (k : ℕ) (hk : k < pts.length), s.1 = pts[k] ∧ s.2 = pts[(k + 1) % pts.length]'(Nat.mod_lt _ (by omega)) := by
  obtain ⟨k, hk⟩ := List.getElem?_of_mem hs
  unfold sides at hk
  rw [List.getElem?_zip_eq_some] at hk
  obtain ⟨h1, h2⟩ := hk
  obtain ⟨hk, h1⟩ := List.getElem?_eq_some_iff.1 h1
  rw [List.getElem?_rotate hk] at h2
  obtain ⟨_, h2⟩ := List.getElem?_eq_some_iff.1 h2
  exact ⟨k, hk, h1.symm, h2.symm⟩

theorem side_ne {pts : List (Point K)} (hl : 2 ≤ pts.length) (hn : pts.Nodup) {s : Point K × Point K} (hs : s ∈ sides pts) : s.1 ≠ s.2 := by
  obtain ⟨k, hk, h1, h2⟩ := sides_get hs
  rw [h1, h2]
  intro h
  have := (List.Nodup.getElem_inj_iff hn).1 h
  by_cases hk' : k + 1 < pts.length
  · rw [Nat.mod_eq_of_lt hk'] at this; omega
  · have h3 : k + 1 = pts.length := by omega
    rw [h3, Nat.mod_self] at this
    omega

/-- Two different sides do not join the same two vertices in both directions. -/
theorem side_not_back {pts : List (Point K)} (hl : 3 ≤ pts.length) (hn : pts.Nodup) {s t : Point K × Point K} (hs : s ∈ sides pts) (ht : t ∈ sides pts)
    (h : s.2 = t.1) : s.1 ≠ t.2 := by
  obtain ⟨k, hk, h1, h2⟩ := sides_get hs
  obtain ⟨l, hl', h3, h4⟩ := sides_get ht
  rw [h2, h3] at h
  rw [h1, h4]
  intro h'
  have e1 := (List.Nodup.getElem_inj_iff hn).1 h
  have e2 := (List.Nodup.getElem_inj_iff hn).1 h'
  by_cases hk' : k + 1 < pts.length
  · rw [Nat.mod_eq_of_lt hk'] at e1
    by_cases hl'' : l + 1 < pts.length
    · rw [Nat.mod_eq_of_lt hl''] at e2; omega
    · have : l + 1 = pts.length := by omega
      rw [this, Nat.mod_self] at e2; omega
  · have : k + 1 = pts.length := by omega
    rw [this, Nat.mod_self] at e1
    rw [← e1, Nat.mod_eq_of_lt (by omega)] at e2
    omega

/-- Points on a line, on the same side of the first. -/
theorem collinear_seg {v a b : Point K} (hc : hullCross a v b = 0) (hva : v ≠ a) (hd : 0 ≤ (a.x - v.x) * (b.x - v.x) + (a.y - v.y) * (b.y - v.y)) :
    b ∈ segPts v a ∨ a ∈ segPts v b := by
  set n : K := (a.x - v.x) ^ 2 + (a.y - v.y) ^ 2 with hn
  have hpos : 0 < n := by
    rcases ne_or_eq a.x v.x with h | h
    · have := sq_pos_of_ne_zero (sub_ne_zero.2 h); have := sq_nonneg (a.y - v.y); linarith
    · have h' : a.y ≠ v.y := fun h' => hva (Point.ext h h').symm
      have := sq_pos_of_ne_zero (sub_ne_zero.2 h'); have := sq_nonneg (a.x - v.x); linarith
  set c : K := ((a.x - v.x) * (b.x - v.x) + (a.y - v.y) * (b.y - v.y)) / n with hcdef
  have hcn : c * n = (a.x - v.x) * (b.x - v.x) + (a.y - v.y) * (b.y - v.y) := div_mul_cancel₀ _ hpos.ne'
  have c0 : 0 ≤ c := div_nonneg hd hpos.le
  unfold hullCross at hc
  have hx : b.x = v.x + c * (a.x - v.x) := by
    apply mul_right_cancel₀ hpos.ne'
    linear_combination -(a.x - v.x) * hcn + (a.y - v.y) * hc + (b.x - v.x) * hn
  have hy : b.y = v.y + c * (a.y - v.y) := by
    apply mul_right_cancel₀ hpos.ne'
    linear_combination -(a.y - v.y) * hcn - (a.x - v.x) * hc + (b.y - v.y) * hn
  rcases le_or_gt c 1 with h | h
  · exact .inl ⟨c, c0, h, hx, hy⟩
  · right
    have : 0 < c := by linarith
    refine ⟨c⁻¹, inv_nonneg.2 c0, inv_le_one_of_one_le₀ h.le, ?_, ?_⟩
    · rw [hx]; field_simp; ring
    · rw [hy]; field_simp; ring

theorem sum_one {α : Type*} {l : List α} (hn : l.Nodup) {a : α} (ha : a ∈ l) {f : α → ZMod 2} (h : ∀ x ∈ l, x ≠ a → f x = 0) :
    (l.map f).sum = f a := by
  classical
  rw [← List.sum_toFinset f hn]
  exact Finset.sum_eq_single a (fun x hx => h x (List.mem_toFinset.1 hx)) fun h' => absurd (List.mem_toFinset.2 ha) h'

theorem sum_two {α : Type*} {l : List α} (hn : l.Nodup) {a b : α} (ha : a ∈ l) (hb : b ∈ l) (hab : a ≠ b) {f : α → ZMod 2}
    (h : ∀ x ∈ l, x ≠ a → x ≠ b → f x = 0) : (l.map f).sum = f a + f b := by
  classical
  rw [← List.sum_toFinset f hn]
  exact Finset.sum_eq_add_of_mem a b (List.mem_toFinset.2 ha) (List.mem_toFinset.2 hb) hab fun x hx hx' => h x (List.mem_toFinset.1 hx) hx'.1 hx'.2

/-- The point in the middle. -/
def midpoint (a b : Point K) : Point K := ⟨a.x + 1 / 2 * (b.x - a.x), a.y + 1 / 2 * (b.y - a.y)⟩

theorem midpoint_between (a b : Point K) : Between a b (midpoint a b) := ⟨1 / 2, by norm_num, by norm_num, rfl, rfl⟩

theorem Between.ne_start {a b m : Point K} (hab : a ≠ b) (h : Between a b m) : m ≠ a := by
  rintro rfl
  obtain ⟨t, t0, t1, hx, hy⟩ := h
  apply hab
  have e1 : t * (b.x - m.x) = 0 := by linear_combination -hx
  have e2 : t * (b.y - m.y) = 0 := by linear_combination -hy
  rw [mul_eq_zero, or_iff_right t0.ne', sub_eq_zero] at e1 e2
  exact (Point.ext e1 e2).symm

theorem Between.ne_stop {a b m : Point K} (hab : a ≠ b) (h : Between a b m) : m ≠ b := h.symm.ne_start hab.symm

theorem between_seg {a b m m' w : Point K} (h : Between a b m) (h' : Between a b m') (hw : w ∈ segPts m m') : Between a b w := by
  obtain ⟨t, t0, t1, hx, hy⟩ := h
  obtain ⟨u, u0, u1, ux, uy⟩ := h'
  obtain ⟨v, v0, v1, vx, vy⟩ := hw
  refine ⟨t + v * (u - t), ?_, ?_, by rw [vx, hx, ux]; ring, by rw [vy, hy, uy]; ring⟩
  · rcases eq_or_lt_of_le v1 with rfl | v1
    · linarith
    · nlinarith [mul_pos (sub_pos.2 v1) t0, mul_nonneg v0 u0.le]
  · rcases eq_or_lt_of_le v1 with rfl | v1
    · linarith
    · nlinarith [mul_pos (sub_pos.2 v1) (sub_pos.2 t1), mul_nonneg v0 (sub_pos.2 u1).le]

/-- The start is not in the second part of a segment. -/
theorem between_start {a b m : Point K} (hab : a ≠ b) (hm : Between a b m) : a ∉ segPts m b := by
  obtain ⟨t, t0, t1, hx, hy⟩ := hm
  rintro ⟨u, u0, u1, ux, uy⟩
  rw [hx] at ux
  rw [hy] at uy
  apply hab
  have k : 0 < t + u * (1 - t) := by nlinarith [mul_nonneg u0 (sub_pos.2 t1).le]
  have e1 : (t + u * (1 - t)) * (b.x - a.x) = 0 := by linear_combination -ux
  have e2 : (t + u * (1 - t)) * (b.y - a.y) = 0 := by linear_combination -uy
  rw [mul_eq_zero, or_iff_right k.ne', sub_eq_zero] at e1 e2
  exact (Point.ext e1 e2).symm

namespace SimplePoly

variable {pts : List (Point K)}

theorem noSpike (h : SimplePoly pts) : NoSpike pts := by
  intro s hs t ht hst hpar
  by_contra hd
  push Not at hd
  have hne : s.1 ≠ t.2 := side_not_back h.1 h.2.1 hs ht hst
  have hne' : s ≠ t := by
    rintro rfl
    exact side_ne (by have := h.1; omega) h.2.1 hs hst.symm
  have hs' := side_ne (by have := h.1; omega) h.2.1 hs
  have ht' := side_ne (by have := h.1; omega) h.2.1 ht
  have hc : hullCross s.1 s.2 t.2 = 0 := by
    unfold hullCross
    rw [← hst] at hpar
    linear_combination hpar
  have := collinear_seg (v := s.2) (a := s.1) (b := t.2) hc hs'.symm (by rw [← hst] at hd; nlinarith)
  rcases this with h' | h'
  · rcases h.2.2 s hs t ht hne' t.2 (by rw [segPts_comm]; exact h') (segPts_stop _ _) with ⟨-, h''⟩ | ⟨-, h''⟩
    · exact ht' h''.symm
    · exact hne h''.symm
  · rcases h.2.2 s hs t ht hne' s.1 (segPts_start _ _) (by rw [← hst]; exact h') with ⟨h'', -⟩ | ⟨h'', -⟩
    · exact hs' h''
    · exact hne h''

/-- Leaving a vertex along a side. -/
theorem rho_vertex (h : SimplePoly pts) {s t : Point K × Point K} (hs : s ∈ sides pts) (ht : t ∈ sides pts) (hst : s.2 = t.1) {m : Point K}
    (hm : Between s.1 s.2 m) : rho pts m + rho pts s.2 = ind (CornerSign s.1 s.2 t.2) := by
  have hl : 2 ≤ pts.length := by have := h.1; omega
  have hs' := side_ne hl h.2.1 hs
  have ht' := side_ne hl h.2.1 ht
  have hne : s ≠ t := by rintro rfl; exact hs' hst.symm
  rw [rho_add, sum_two (sides_nodup h.2.1) hs ht hne]
  · rw [disc_on hm.seg (segPts_stop _ _), zero_add, hst, disc_corner, ← hst, cornerSign_between hm.symm]
  · intro r hr h1 h2
    apply disc_avoid
    intro w hw hw'
    have hw'' := segPts_subset hm.seg (segPts_stop s.1 s.2) hw'
    rcases h.2.2 s hs r hr (Ne.symm h1) w hw'' hw with ⟨e1, e2⟩ | ⟨e1, e2⟩
    · exact h2 (side_eq_of_fst h.2.1 hr ht (by rw [← e2, e1, hst]))
    · exact between_start hs' hm (e2 ▸ hw')

/-- Leaving a vertex along the next side. -/
theorem rho_vertex' (h : SimplePoly pts) {s t : Point K × Point K} (hs : s ∈ sides pts) (ht : t ∈ sides pts) (hst : s.2 = t.1) {m : Point K}
    (hm : Between t.1 t.2 m) : rho pts m + rho pts s.2 = ind (CornerSign t.2 s.2 s.1) := by
  have hl : 2 ≤ pts.length := by have := h.1; omega
  have hs' := side_ne hl h.2.1 hs
  have ht' := side_ne hl h.2.1 ht
  have hne : s ≠ t := by rintro rfl; exact hs' hst.symm
  rw [rho_add, sum_two (sides_nodup h.2.1) hs ht hne]
  · rw [hst, disc_on hm.seg (segPts_start _ _), add_zero, ← hst]
    have : s = (s.1, s.2) := rfl
    rw [this, disc_swap, disc_corner]
    simp only
    rw [hst]
    exact ind_congr (cornerSign_between hm)
  · intro r hr h1 h2
    apply disc_avoid
    intro w hw hw'
    rw [hst] at hw'
    have hw'' := segPts_subset hm.seg (segPts_start t.1 t.2) hw'
    rcases h.2.2 t ht r hr (Ne.symm h2) w hw'' hw with ⟨e1, e2⟩ | ⟨e1, e2⟩
    · exact between_start ht'.symm hm.symm (e1 ▸ hw')
    · exact h1 (side_eq_of_snd h.2.1 hr hs (by rw [← e1, e2, hst]))

/-- One if the left side of a side is inside. -/
noncomputable def leftIn (pts : List (Point K)) (s : Point K × Point K) : ZMod 2 := rho pts (midpoint s.1 s.2) + ind (Upward s.1 s.2)

theorem leftIn_next (h : SimplePoly pts) {s t : Point K × Point K} (hs : s ∈ sides pts) (ht : t ∈ sides pts) (hst : s.2 = t.1) :
    leftIn pts s = leftIn pts t := by
  have hl : 2 ≤ pts.length := by have := h.1; omega
  have h1 := h.rho_vertex hs ht hst (midpoint_between s.1 s.2)
  have h2 := h.rho_vertex' hs ht hst (midpoint_between t.1 t.2)
  have hw := corner_walk (a := s.1) (v := s.2) (b := t.2) (side_ne hl h.2.1 hs) (by rw [hst]; exact side_ne hl h.2.1 ht) (by
    intro h0
    have := h.noSpike s hs t ht hst (by unfold hullCross at h0; rw [← hst]; linear_combination h0)
    rw [← hst] at this
    exact this)
  unfold leftIn
  rw [← h1, ← h2, hst] at hw
  rw [hst]
  have e : ∀ a b c d e : ZMod 2, a + b + c = d + b + e → a + c = d + e := by decide
  exact e _ _ _ _ _ hw

theorem leftIn_const (h : SimplePoly pts) {s t : Point K × Point K} (hs : s ∈ sides pts) (ht : t ∈ sides pts) : leftIn pts s = leftIn pts t := by
  have key : ∀ k : ℕ, ∀ (hk : k < pts.length), ∀ s ∈ sides pts, ∀ t ∈ sides pts, s.1 = pts[0]'(by omega) → t.1 = pts[k] → leftIn pts s = leftIn pts t := by
    intro k
    induction k with
    | zero =>
      intro hk s hs t ht h1 h2
      rw [side_eq_of_fst h.2.1 hs ht (h1.trans h2.symm)]
    | succ k ih =>
      intro hk s hs t ht h1 h2
      obtain ⟨r, hr, hr'⟩ := exists_side_fst (pts := pts) (List.getElem_mem (show k < pts.length by omega))
      rw [ih (by omega) s hs r hr h1 hr']
      apply h.leftIn_next hr ht
      obtain ⟨j, hj, e1, e2⟩ := sides_get hr
      have : j = k := (List.Nodup.getElem_inj_iff h.2.1).1 (e1.symm.trans hr')
      subst this
      rw [e2, h2]
      congr 1
      exact Nat.mod_eq_of_lt hk
  obtain ⟨r, hr, hr'⟩ := exists_side_fst (pts := pts) (List.getElem_mem (show 0 < pts.length by have := h.1; omega))
  obtain ⟨j, hj, e1, -⟩ := sides_get hs
  obtain ⟨k, hk, f1, -⟩ := sides_get ht
  rw [← key j hj r hr s hs hr' e1, ← key k hk r hr t ht hr' f1]

/-- The number of crossings is the same at all points inside a side. -/
theorem rho_side (h : SimplePoly pts) {s : Point K × Point K} (hs : s ∈ sides pts) {m m' : Point K} (hm : Between s.1 s.2 m) (hm' : Between s.1 s.2 m') :
    rho pts m = rho pts m' := by
  apply zmod2_eq
  rw [rho_add]
  apply List.sum_eq_zero
  intro x hx
  obtain ⟨r, hr, rfl⟩ := List.mem_map.1 hx
  by_cases hrs : r = s
  · subst hrs
    exact disc_on hm.seg hm'.seg
  · apply disc_avoid
    intro w hw hw'
    have hs' := side_ne (by have := h.1; omega) h.2.1 hs
    have hw'' := segPts_subset hm.seg hm'.seg hw'
    have hb := between_seg hm hm' hw'
    rcases h.2.2 s hs r hr (Ne.symm hrs) w hw'' hw with ⟨e1, -⟩ | ⟨-, e1⟩
    · exact hb.ne_stop hs' e1
    · exact hb.ne_start hs' e1

/-- Near a side: on the left the number of crossings is odd exactly if the left side is inside. -/
theorem rho_near (h : SimplePoly pts) {s : Point K × Point K} (hs : s ∈ sides pts) {m q : Point K} (hm : Between s.1 s.2 m)
    (hq : hullCross s.1 s.2 q ≠ 0) (hf : ∀ r ∈ sides pts, r ≠ s → ∀ w ∈ segPts r.1 r.2, w ∉ segPts q m) :
    rho pts q = leftIn pts s + ind (hullCross s.1 s.2 q < 0) := by
  have h1 : rho pts q + rho pts m = ind (Upward s.1 s.2) + ind (hullCross s.1 s.2 q < 0) := by
    rw [rho_add, sum_one (sides_nodup h.2.1) hs]
    · exact disc_touch hm hq
    · intro r hr hrs
      exact disc_avoid (hf r hr hrs)
  rw [h.rho_side hs hm (midpoint_between _ _)] at h1
  unfold leftIn
  have e : ∀ a b c d : ZMod 2, a + b = c + d → a = b + c + d := by decide
  exact e _ _ _ _ h1

end SimplePoly

end Jagua
