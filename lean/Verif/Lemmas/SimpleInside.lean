import Verif.Lemmas.SimpleArea
import Mathlib.Data.Finset.Max

/-!
# Simple polygons have an area and an inside
-/

set_option linter.unusedSectionVars false

namespace Jagua

variable {K : Type*} [Field K] [LinearOrder K] [IsStrictOrderedRing K]

namespace SimplePoly

variable {pts : List (Point K)}

/-- Not all sides are horizontal. -/
theorem exists_steep (h : SimplePoly pts) : ∃ s ∈ sides pts, s.1.y ≠ s.2.y := by
  by_contra hall
  push Not at hall
  have hl : 2 ≤ pts.length := by have := h.1; omega
  have hne : pts.toFinset.Nonempty := by
    refine ⟨pts[0]'(by omega), ?_⟩
    rw [List.mem_toFinset]
    exact List.getElem_mem _
  obtain ⟨v, hv, hmax⟩ := Finset.exists_max_image pts.toFinset Point.x hne
  rw [List.mem_toFinset] at hv
  obtain ⟨s, hs, hsv⟩ := exists_side_snd hv
  obtain ⟨t, ht, htv⟩ := exists_side_fst hv
  have ys := hall s hs
  have yt := hall t ht
  have hst : s.2 = t.1 := hsv.trans htv.symm
  have e1 : s.1.x < s.2.x := by
    refine lt_of_le_of_ne (by rw [hsv]; exact hmax _ (List.mem_toFinset.2 (sides_mem hs).1)) fun hx => side_ne hl h.2.1 hs (Point.ext hx ys)
  have e2 : t.2.x < t.1.x := by
    refine lt_of_le_of_ne (by rw [htv]; exact hmax _ (List.mem_toFinset.2 (sides_mem ht).2)) fun hx => side_ne hl h.2.1 ht (Point.ext hx.symm yt)
  have := h.noSpike s hs t ht hst (by rw [ys, yt]; ring)
  rw [ys, yt, sub_self, sub_self, mul_zero, add_zero] at this
  nlinarith [mul_pos (sub_pos.2 e1) (sub_pos.2 e2)]

/-- There is a strip between two vertices that contains no other vertex and that a side passes. -/
theorem exists_strip (h : SimplePoly pts) : ∃ c d : K, c < d ∧ (∀ v ∈ pts, ¬ (c < v.y ∧ v.y < d)) ∧ ∃ s ∈ sides pts, Passes ((c + d) / 2) s := by
  obtain ⟨s, hs, hne⟩ := h.exists_steep
  obtain ⟨a, b, ha, hb, hab, hp⟩ : ∃ a b : K, (∃ v ∈ pts, v.y = a) ∧ (∃ v ∈ pts, v.y = b) ∧ a < b ∧
      ∀ l, a < l → l < b → Passes l s := by
    rcases lt_or_gt_of_ne hne with h' | h'
    · exact ⟨_, _, ⟨_, (sides_mem hs).1, rfl⟩, ⟨_, (sides_mem hs).2, rfl⟩, h', fun l h1 h2 => .inl ⟨h1, h2⟩⟩
    · exact ⟨_, _, ⟨_, (sides_mem hs).2, rfl⟩, ⟨_, (sides_mem hs).1, rfl⟩, h', fun l h1 h2 => .inr ⟨h1, h2⟩⟩
  obtain ⟨v, hv, rfl⟩ := ha
  obtain ⟨c, hc, hmax⟩ := Finset.exists_max_image ((pts.map Point.y).toFinset.filter fun y => y < b) id
    ⟨v.y, by rw [Finset.mem_filter, List.mem_toFinset]; exact ⟨List.mem_map_of_mem hv, hab⟩⟩
  rw [Finset.mem_filter, List.mem_toFinset] at hc
  have hvc : v.y ≤ c := hmax v.y (by rw [Finset.mem_filter, List.mem_toFinset]; exact ⟨List.mem_map_of_mem hv, hab⟩)
  refine ⟨c, b, hc.2, ?_, s, hs, hp _ (by linarith [hc.2]) (by linarith [hc.2])⟩
  rintro w hw ⟨h1, h2⟩
  exact absurd h1 (not_lt.2 (hmax w.y (by rw [Finset.mem_filter, List.mem_toFinset]; exact ⟨List.mem_map_of_mem hw, h2⟩)))

theorem area_ne_aux (h : SimplePoly pts) {σ : K} (hσ : ∀ l, (∀ v ∈ pts, v.y ≠ l) → 0 ≤ σ * ((sides pts).map (levelTerm l)).sum)
    (hσ' : ∀ l, (∀ v ∈ pts, v.y ≠ l) → (∃ s ∈ sides pts, Passes l s) → 0 < σ * ((sides pts).map (levelTerm l)).sum) : 0 < σ * signedArea pts := by
  obtain ⟨c, d, hcd, hv, hs⟩ := h.exists_strip
  obtain ⟨lo, hi, hlh, hb⟩ := levels_bound pts
  have hmid : ((sides pts).map fun s => underArea s d).sum - ((sides pts).map fun s => underArea s c).sum =
      (d - c) * ((sides pts).map (levelTerm ((c + d) / 2))).sum := by
    rw [list_sum_sub, ← list_sum_mul]
    congr 1
    apply List.map_congr_left
    intro s hs
    obtain ⟨h1, h2⟩ := sides_mem hs
    exact underArea_step hcd (hv _ h1) (hv _ h2)
  have h2 := mul_pos (sub_pos.2 hcd) (hσ' ((c + d) / 2) (fun v hv' h => hv v hv' ⟨by linarith, by linarith⟩) hs)
  set lo' := min lo c - 1 with hlo
  set hi' := max hi d + 1 with hhi
  have h1 := underArea_mono hσ _ lo' c (by have := min_le_right lo c; linarith) le_rfl
  have h3 := underArea_mono hσ _ d hi' (by have := le_max_right hi d; linarith) le_rfl
  have h4 := signedArea_under (pts := pts) (y := hi') fun v hv => by have := (hb v hv).2; have := le_max_left hi d; linarith
  have h0 : ((sides pts).map fun s => underArea s lo').sum = 0 := by
    apply List.sum_eq_zero
    intro x hx
    obtain ⟨s, hs, rfl⟩ := List.mem_map.1 hx
    obtain ⟨k1, k2⟩ := sides_mem hs
    have := min_le_left lo c
    exact underArea_low (by linarith [(hb _ k1).1]) (by linarith [(hb _ k2).1])
  rw [h0, sub_zero] at h1
  rw [h4] at h3
  have e : σ * signedArea pts = σ * ((sides pts).map fun s => underArea s c).sum +
      σ * (((sides pts).map fun s => underArea s d).sum - ((sides pts).map fun s => underArea s c).sum) +
      σ * (signedArea pts - ((sides pts).map fun s => underArea s d).sum) := by ring
  rw [e, hmid]
  have : σ * ((d - c) * ((sides pts).map (levelTerm ((c + d) / 2))).sum) = (d - c) * (σ * ((sides pts).map (levelTerm ((c + d) / 2))).sum) := by ring
  rw [this]
  linarith

/-- A simple polygon has an area. -/
theorem area_ne_zero (h : SimplePoly pts) : signedArea pts ≠ 0 := by
  obtain ⟨s, hs, -⟩ := h.exists_steep
  rcases zmod2_cases (leftIn pts s) with h0 | h0
  · have hL : ∀ t ∈ sides pts, leftIn pts t = 0 := fun t ht => (h.leftIn_const ht hs).trans h0
    have := h.area_ne_aux (σ := -1) (fun l hl => by have := ((h.levelSum hl).2 hL).1; linarith)
      (fun l hl e => by have := ((h.levelSum hl).2 hL).2 e; linarith)
    intro h'
    rw [h'] at this
    simp at this
  · have hL : ∀ t ∈ sides pts, leftIn pts t = 1 := fun t ht => (h.leftIn_const ht hs).trans h0
    have := h.area_ne_aux (σ := 1) (fun l hl => by have := ((h.levelSum hl).1 hL).1; linarith)
      (fun l hl e => by have := ((h.levelSum hl).1 hL).2 e; linarith)
    intro h'
    rw [h'] at this
    simp at this

/-- A boundary point at a level without vertices is where a side passes. -/
theorem bdry_level {l x : K} (hl : ∀ v ∈ pts, v.y ≠ l) (hb : (⟨x, l⟩ : Point K) ∈ bdry pts) : ∃ s ∈ sides pts, Passes l s ∧ x = xAt s l := by
  obtain ⟨s, hs, t, t0, t1, hx, hy⟩ := hb
  have h1 := hl _ (sides_mem hs).1
  have h2 := hl _ (sides_mem hs).2
  simp only at hx hy
  have hp : Passes l s := by
    rcases lt_or_gt_of_ne h1 with k1 | k1 <;> rcases lt_or_gt_of_ne h2 with k2 | k2
    · exfalso
      nlinarith [mul_nonneg t0 (sub_pos.2 k2).le, mul_nonneg (sub_nonneg.2 t1) (sub_pos.2 k1).le]
    · exact .inl ⟨k1, k2⟩
    · exact .inr ⟨k2, k1⟩
    · exfalso
      nlinarith [mul_nonneg t0 (sub_pos.2 k2).le, mul_nonneg (sub_nonneg.2 t1) (sub_pos.2 k1).le]
  refine ⟨s, hs, hp, ?_⟩
  have hne : s.2.y - s.1.y ≠ 0 := by
    rcases hp with ⟨k1, k2⟩ | ⟨k1, k2⟩
    · exact (by linarith : (0 : K) < s.2.y - s.1.y).ne'
    · exact (by linarith : s.2.y - s.1.y < (0 : K)).ne
  have : (l - s.1.y) / (s.2.y - s.1.y) = t := by
    rw [div_eq_iff hne]; linear_combination hy
  unfold xAt
  rw [this, hx]

open Classical in
/-- A simple polygon has an inside. -/
theorem interior_nonempty (h : SimplePoly pts) : (interior pts).Nonempty := by
  obtain ⟨c, d, hcd, hv, s0, hs0, hp0⟩ := h.exists_strip
  set l := (c + d) / 2 with hl'
  have hl : ∀ v ∈ pts, v.y ≠ l := fun v hv' h => hv v hv' ⟨by linarith, by linarith⟩
  set C : Finset (Point K × Point K) := (sides pts).toFinset.filter (Passes l) with hC
  have hmem : ∀ s, s ∈ C ↔ s ∈ sides pts ∧ Passes l s := by intro s; rw [hC, Finset.mem_filter, List.mem_toFinset]
  obtain ⟨s, hs, hmax⟩ := Finset.exists_max_image C (fun s => xAt s l) ⟨s0, (hmem s0).2 ⟨hs0, hp0⟩⟩
  have hlt : ∀ t ∈ C, t ≠ s → xAt t l < xAt s l := by
    intro t ht hne
    refine lt_of_le_of_ne (hmax t ht) fun he => ?_
    obtain ⟨s1, s2⟩ := (hmem s).1 hs
    obtain ⟨t1, t2⟩ := (hmem t).1 ht
    have m1 := s2.between.seg
    have m2 := t2.between.seg
    rw [he] at m2
    rcases h.2.2 s s1 t t1 hne.symm _ m1 m2 with ⟨e, -⟩ | ⟨e, -⟩
    · exact hl _ (sides_mem s1).2 (by rw [← e])
    · exact hl _ (sides_mem t1).2 (by rw [← e])
  obtain ⟨x, hx, hx'⟩ : ∃ x < xAt s l, ∀ t ∈ C, t ≠ s → xAt t l < x := by
    rcases (C.erase s).eq_empty_or_nonempty with he | he
    · refine ⟨xAt s l - 1, by linarith, fun t ht hne => ?_⟩
      have : t ∈ C.erase s := Finset.mem_erase.2 ⟨hne, ht⟩
      rw [he] at this
      simp at this
    · obtain ⟨t, ht, htm⟩ := Finset.exists_max_image (C.erase s) (fun s => xAt s l) he
      have ht' := hlt t (Finset.mem_of_mem_erase ht) (Finset.ne_of_mem_erase ht)
      refine ⟨(xAt t l + xAt s l) / 2, by linarith, fun u hu hne => ?_⟩
      have := htm u (Finset.mem_erase.2 ⟨hne, hu⟩)
      linarith
  refine ⟨⟨x, l⟩, ?_, ?_⟩
  · intro hb
    obtain ⟨t, ht, hp, he⟩ := bdry_level hl hb
    by_cases hts : t = s
    · rw [hts] at he; exact hx.ne he
    · exact (hx' t ((hmem t).2 ⟨ht, hp⟩) hts).ne he.symm
  · rw [← rho_odd]
    obtain ⟨s1, s2⟩ := (hmem s).1 hs
    unfold rho
    rw [sum_one (sides_nodup h.2.1) s1]
    · exact ind_pos ((crosses_level (hl _ (sides_mem s1).1) (hl _ (sides_mem s1).2)).2 ⟨s2, hx⟩)
    · intro t ht hne
      apply ind_zero
      rw [crosses_level (hl _ (sides_mem ht).1) (hl _ (sides_mem ht).2)]
      rintro ⟨h1, h2⟩
      exact absurd h2 (not_lt.2 (hx' t ((hmem t).2 ⟨ht, h1⟩) hne).le)

end SimplePoly

end Jagua
