import Verif.Lemmas.SimpleCut

/-!
# Simple polygons: replacing two vertices by one, dropping a vertex on a side
-/

set_option linter.unusedSectionVars false

namespace Jagua

variable {K : Type*} [Field K] [LinearOrder K] [IsStrictOrderedRing K]

/-! ### Leaving a closed triangle -/

theorem leave_val {a0 : K} (h0 : 0 ≤ a0) (a1 : K) : ∃ t : K, 0 ≤ t ∧ t ≤ 1 ∧ (∀ s : K, 0 ≤ s → s ≤ t → 0 ≤ a0 + s * (a1 - a0)) ∧
    (t < 1 → a1 < 0 ∧ a0 + t * (a1 - a0) = 0) ∧ (a1 < 0 → t < 1) := by
  by_cases h : a1 < 0
  · have hp : 0 < a0 - a1 := by linarith
    have e : a0 / (a0 - a1) * (a0 - a1) = a0 := div_mul_cancel₀ _ hp.ne'
    have hlt : a0 / (a0 - a1) < 1 := by rw [div_lt_one hp]; linarith
    refine ⟨a0 / (a0 - a1), div_nonneg h0 hp.le, hlt.le, ?_, fun _ => ⟨h, by linarith⟩, fun _ => hlt⟩
    intro s hs hst
    nlinarith [mul_nonneg (sub_nonneg.2 hst) hp.le]
  · refine ⟨1, zero_le_one, le_rfl, ?_, fun h' => absurd h' (lt_irrefl _), fun h' => absurd h' h⟩
    intro s hs hs1
    nlinarith [mul_nonneg hs (not_lt.1 h), mul_nonneg (sub_nonneg.2 hs1) h0]

/-- Where a segment that starts in the closed triangle leaves it. -/
theorem exit_closed {A B C x u : Point K} (hD : 0 < hullCross A B C) (hx : InTri A B C x) (hu : ¬ InTri A B C u) :
    ∃ y ∈ segPts x u, (y ∈ segPts B C ∧ hullCross B C u < 0) ∨ (y ∈ segPts C A ∧ hullCross C A u < 0) ∨ (y ∈ segPts A B ∧ hullCross A B u < 0) := by
  obtain ⟨ta, a0, a1, a2, a3, a4⟩ := leave_val hx.1 (hullCross B C u)
  obtain ⟨tb, b0, b1, b2, b3, b4⟩ := leave_val hx.2.1 (hullCross C A u)
  obtain ⟨tc, c0, c1, c2, c3, c4⟩ := leave_val hx.2.2 (hullCross A B u)
  have hex : ∃ t : K, 0 ≤ t ∧ t < 1 ∧ t ≤ ta ∧ t ≤ tb ∧ t ≤ tc ∧ (t = ta ∨ t = tb ∨ t = tc) := by
    have hlt : ta < 1 ∨ tb < 1 ∨ tc < 1 := by
      by_contra hcon
      push Not at hcon
      refine hu ⟨?_, ?_, ?_⟩
      · by_contra h; exact absurd (a4 (not_le.1 h)) (not_lt.2 hcon.1)
      · by_contra h; exact absurd (b4 (not_le.1 h)) (not_lt.2 hcon.2.1)
      · by_contra h; exact absurd (c4 (not_le.1 h)) (not_lt.2 hcon.2.2)
    refine ⟨min ta (min tb tc), le_min a0 (le_min b0 c0), ?_, min_le_left _ _, (min_le_right _ _).trans (min_le_left _ _),
      (min_le_right _ _).trans (min_le_right _ _), ?_⟩
    · simpa [min_lt_iff] using hlt
    · rcases min_choice ta (min tb tc) with h | h
      · exact .inl h
      · rcases min_choice tb tc with h' | h'
        · exact .inr (.inl (h.trans h'))
        · exact .inr (.inr (h.trans h'))
  obtain ⟨t, t0, t1, ha, hb, hc, ht⟩ := hex
  set y : Point K := ⟨x.x + t * (u.x - x.x), x.y + t * (u.y - x.y)⟩ with hy
  have e1 : hullCross B C y = hullCross B C x + t * (hullCross B C u - hullCross B C x) := hullCross_lerp rfl rfl
  have e2 : hullCross C A y = hullCross C A x + t * (hullCross C A u - hullCross C A x) := hullCross_lerp rfl rfl
  have e3 : hullCross A B y = hullCross A B x + t * (hullCross A B u - hullCross A B x) := hullCross_lerp rfl rfl
  have p1 := a2 t t0 ha
  have p2 := b2 t t0 hb
  have p3 := c2 t t0 hc
  rw [← e1] at p1
  rw [← e2] at p2
  rw [← e3] at p3
  refine ⟨y, ⟨t, t0, t1.le, rfl, rfl⟩, ?_⟩
  rcases ht with ht | ht | ht
  · obtain ⟨n, z⟩ := a3 (ht ▸ t1)
    rw [← ht, ← e1] at z
    exact .inl ⟨tri_edge (tri_rot hD) p2 p3 z, n⟩
  · obtain ⟨n, z⟩ := b3 (ht ▸ t1)
    rw [← ht, ← e2] at z
    exact .inr (.inl ⟨tri_edge (tri_rot (tri_rot hD)) p3 p1 z, n⟩)
  · obtain ⟨n, z⟩ := c3 (ht ▸ t1)
    rw [← ht, ← e3] at z
    exact .inr (.inr ⟨tri_edge hD p1 p2 z, n⟩)

/-- The closed triangle without the edge `C A`. -/
def InCap (A B C w : Point K) : Prop := 0 < hullCross C A w ∧ 0 ≤ hullCross B C w ∧ 0 ≤ hullCross A B w

theorem InCap.tri {A B C w : Point K} (h : InCap A B C w) : InTri A B C w := ⟨h.2.1, h.1.le, h.2.2⟩

theorem InTriO.cap {A B C w : Point K} (h : InTriO A B C w) : InCap A B C w := ⟨h.2.1, h.1.le, h.2.2.le⟩

theorem exit_cap {A B C x u : Point K} (hD : 0 < hullCross A B C) (hx : InCap A B C x) (hu : ¬ InCap A B C u) :
    ∃ y ∈ segPts x u, y ∈ segPts C A ∨ (y ∈ segPts B C ∧ hullCross B C u < 0) ∨ (y ∈ segPts A B ∧ hullCross A B u < 0) := by
  by_cases hu' : InTri A B C u
  · have : hullCross C A u = 0 := by
      by_contra h
      exact hu ⟨lt_of_le_of_ne hu'.2.1 (Ne.symm h), hu'.1, hu'.2.2⟩
    exact ⟨u, segPts_stop _ _, .inl (tri_edge (tri_rot (tri_rot hD)) hu'.2.2 hu'.1 this)⟩
  · obtain ⟨y, hy, h | h | h⟩ := exit_closed hD hx.tri hu'
    · exact ⟨y, hy, .inr (.inl h)⟩
    · exact ⟨y, hy, .inl h.1⟩
    · exact ⟨y, hy, .inr (.inr h)⟩

/-! ### A side in two pieces -/

theorem crosses_split {p z a v : Point K} (ha : a ∈ segPts z v) : ind (CrossesRay p (z, v)) = ind (CrossesRay p (z, a)) + ind (CrossesRay p (a, v)) := by
  obtain ⟨t, t0, t1, hx, hy⟩ := ha
  have e1 : hullCross z a p = t * hullCross z v p := by unfold hullCross; rw [hx, hy]; ring
  have e2 : hullCross a v p = (1 - t) * hullCross z v p := by unfold hullCross; rw [hx, hy]; ring
  have no : ∀ q : Point K, ¬ CrossesRay p (q, q) := by
    intro q
    rw [crossesRay_sign]
    rintro (⟨h1, h2, -⟩ | ⟨h1, h2, -⟩) <;> exact absurd (h1.trans_le h2) (lt_irrefl _)
  rcases eq_or_lt_of_le t0 with h | h
  · have : a = z := Point.ext (by rw [hx, ← h]; ring) (by rw [hy, ← h]; ring)
    rw [this, ind_zero (no z), zero_add]
  · rcases eq_or_lt_of_le t1 with h' | h'
    · have : a = v := Point.ext (by rw [hx, h']; ring) (by rw [hy, h']; ring)
      rw [this, ind_zero (no v), add_zero]
    · have h1t : 0 < 1 - t := by linarith
      rw [← ind_or]
      · apply ind_congr
        rw [crossesRay_sign, crossesRay_sign, crossesRay_sign, e1, e2]
        simp only [mul_pos_iff_of_pos_left h, mul_pos_iff_of_pos_left h1t, ← not_le, mul_nonneg_iff_of_pos_left h, mul_nonneg_iff_of_pos_left h1t]
        simp only [not_le]
        constructor
        · rintro (⟨h1, h2, h3⟩ | ⟨h1, h2, h3⟩)
          · rcases lt_or_ge a.y p.y with k | k
            · exact .inr (.inl ⟨k, h2, h3⟩)
            · exact .inl (.inl ⟨h1, k, h3⟩)
          · rcases lt_or_ge a.y p.y with k | k
            · exact .inl (.inr ⟨k, h2, h3⟩)
            · exact .inr (.inr ⟨h1, k, h3⟩)
        · rintro ((⟨h1, h2, h3⟩ | ⟨h1, h2, h3⟩) | (⟨h1, h2, h3⟩ | ⟨h1, h2, h3⟩))
          · left
            refine ⟨h1, ?_, h3⟩
            by_contra hk
            nlinarith [mul_pos h (sub_pos.2 (not_le.1 hk)), mul_pos h1t (sub_pos.2 h1)]
          · right
            refine ⟨?_, h2, h3⟩
            by_contra hk
            nlinarith [mul_nonneg h.le (sub_nonneg.2 (not_lt.1 hk)), mul_nonneg h1t.le (sub_nonneg.2 h2)]
          · left
            refine ⟨?_, h2, h3⟩
            by_contra hk
            nlinarith [mul_nonneg h1t.le (sub_nonneg.2 (not_lt.1 hk)), mul_nonneg h.le (sub_nonneg.2 h2)]
          · right
            refine ⟨h1, ?_, h3⟩
            by_contra hk
            nlinarith [mul_pos h1t (sub_pos.2 (not_le.1 hk)), mul_pos h (sub_pos.2 h1)]
      · rw [crossesRay_sign, crossesRay_sign, e1, e2]
        simp only [mul_pos_iff_of_pos_left h, mul_pos_iff_of_pos_left h1t, ← not_le, mul_nonneg_iff_of_pos_left h, mul_nonneg_iff_of_pos_left h1t]
        simp only [not_le]
        rintro ⟨⟨h1, h2, h3⟩ | ⟨h1, h2, h3⟩, ⟨k1, k2, k3⟩ | ⟨k1, k2, k3⟩⟩ <;> linarith

theorem seg_split {z a v : Point K} (ha : a ∈ segPts z v) {w : Point K} (hw : w ∈ segPts z v) : w ∈ segPts z a ∨ w ∈ segPts a v := by
  obtain ⟨t, t0, t1, ax, ay⟩ := ha
  obtain ⟨r, r0, r1, wx, wy⟩ := hw
  rcases le_or_gt r t with h | h
  · left
    rcases eq_or_lt_of_le t0 with h0 | h0
    · have : r = 0 := le_antisymm (h0 ▸ h) r0
      exact ⟨0, le_rfl, zero_le_one, by rw [wx, this]; ring, by rw [wy, this]; ring⟩
    · refine ⟨r / t, div_nonneg r0 t0, by rw [div_le_one h0]; exact h, ?_, ?_⟩
      · rw [wx, ax]; field_simp; ring
      · rw [wy, ay]; field_simp; ring
  · right
    have h1 : 0 < 1 - t := by linarith
    refine ⟨(r - t) / (1 - t), div_nonneg (by linarith) h1.le, by rw [div_le_one h1]; linarith, ?_, ?_⟩
    · rw [wx, ax]; field_simp; ring
    · rw [wy, ay]; field_simp; ring

/-! ### Two convex corners -/

/-- Two corners `z a b` and `a b h` that turn left, whose outer sides meet in `v` when they are extended. -/
structure ConvPair (a b h z v : Point K) : Prop where
  c1 : 0 < hullCross z a b
  c2 : 0 < hullCross a b h
  ea : ∃ s : K, 0 < s ∧ v.x = a.x + s * (a.x - z.x) ∧ v.y = a.y + s * (a.y - z.y)
  eb : ∃ u : K, 0 < u ∧ v.x = b.x + u * (b.x - h.x) ∧ v.y = b.y + u * (b.y - h.y)

namespace ConvPair

variable {a b h z v : Point K} (hp : ConvPair a b h z v)
include hp

theorem D : 0 < hullCross a v b := by
  obtain ⟨s, s0, hx, hy⟩ := hp.ea
  have : hullCross a v b = s * hullCross z a b := by unfold hullCross; rw [hx, hy]; ring
  rw [this]
  exact mul_pos s0 hp.c1

theorem z_ba : hullCross b a z < 0 := by
  have : hullCross b a z = - hullCross z a b := by unfold hullCross; ring
  rw [this]; linarith [hp.c1]

theorem h_ba : hullCross b a h < 0 := by
  have : hullCross b a h = - hullCross a b h := by unfold hullCross; ring
  rw [this]; linarith [hp.c2]

theorem z_vb : 0 < hullCross v b z := by
  obtain ⟨s, s0, hx, hy⟩ := hp.ea
  have : s * hullCross v b z = (1 + s) * hullCross v b a := by unfold hullCross; rw [hx, hy]; ring
  have hD := tri_rot hp.D
  have : 0 < s * hullCross v b z := by rw [this]; exact mul_pos (by linarith) hD
  exact (mul_pos_iff_of_pos_left s0).1 this

theorem h_av : 0 < hullCross a v h := by
  obtain ⟨u, u0, hx, hy⟩ := hp.eb
  have : u * hullCross a v h = (1 + u) * hullCross a v b := by unfold hullCross; rw [hx, hy]; ring
  have : 0 < u * hullCross a v h := by rw [this]; exact mul_pos (by linarith) hp.D
  exact (mul_pos_iff_of_pos_left u0).1 this

theorem on_zv : ∃ k : K, 0 < k ∧ ∀ w, hullCross z v w = k * hullCross a v w := by
  obtain ⟨s, s0, hx, hy⟩ := hp.ea
  refine ⟨(1 + s) / s, div_pos (by linarith) s0, fun w => ?_⟩
  have : s * hullCross z v w = (1 + s) * hullCross a v w := by unfold hullCross; rw [hx, hy]; ring
  field_simp
  linarith

theorem on_vh : ∃ k : K, 0 < k ∧ ∀ w, hullCross v h w = k * hullCross v b w := by
  obtain ⟨u, u0, hx, hy⟩ := hp.eb
  refine ⟨(1 + u) / u, div_pos (by linarith) u0, fun w => ?_⟩
  have : u * hullCross v h w = (1 + u) * hullCross v b w := by unfold hullCross; rw [hx, hy]; ring
  field_simp
  linarith

theorem z_av : hullCross a v z = 0 := by
  obtain ⟨k, k0, hk⟩ := hp.on_zv
  have := hk z
  rw [hullCross_self] at this
  exact (mul_eq_zero.1 this.symm).resolve_left k0.ne'

theorem h_vb : hullCross v b h = 0 := by
  obtain ⟨k, k0, hk⟩ := hp.on_vh
  have := hk h
  rw [hullCross_self'] at this
  exact (mul_eq_zero.1 this.symm).resolve_left k0.ne'

theorem seg_a : a ∈ segPts z v := by
  obtain ⟨s, s0, hx, hy⟩ := hp.ea
  have h1 : 0 < 1 + s := by linarith
  refine ⟨1 / (1 + s), div_nonneg zero_le_one h1.le, by rw [div_le_one h1]; linarith, ?_, ?_⟩
  · rw [hx]; field_simp; ring
  · rw [hy]; field_simp; ring

theorem seg_b : b ∈ segPts v h := by
  obtain ⟨u, u0, hx, hy⟩ := hp.eb
  have h1 : 0 < 1 + u := by linarith
  refine ⟨u / (1 + u), div_nonneg u0.le h1.le, by rw [div_le_one h1]; linarith, ?_, ?_⟩
  · rw [hx]; field_simp; ring
  · rw [hy]; field_simp; ring

theorem between_a {w : Point K} (hw : Between a v w) : Between z v w := by
  obtain ⟨s, s0, hx, hy⟩ := hp.ea
  obtain ⟨t, t0, t1, wx, wy⟩ := hw
  have h1 : 0 < 1 + s := by linarith
  refine ⟨(1 + t * s) / (1 + s), div_pos (by nlinarith [mul_pos t0 s0]) h1, ?_, ?_, ?_⟩
  · rw [div_lt_one h1]; nlinarith [mul_pos (sub_pos.2 t1) s0]
  · rw [wx, hx]; field_simp; ring
  · rw [wy, hy]; field_simp; ring

theorem not_cap_h : ¬ InCap a v b h := fun k => absurd k.1 (not_lt.2 hp.h_ba.le)

theorem not_cap_z : ¬ InCap a v b z := fun k => absurd k.1 (not_lt.2 hp.z_ba.le)

theorem cap_v : InCap a v b v := ⟨tri_rot (tri_rot hp.D), (hullCross_self ..).ge, (hullCross_self' ..).ge⟩

/-- Points of the new side at `z`. -/
theorem seg_zv {w : Point K} (hw : w ∈ segPts z v) : w ∈ segPts z a ∨ InCap a v b w := by
  rcases seg_split hp.seg_a hw with h' | h'
  · exact .inl h'
  · have ht := tri_edge_mem hp.D h'
    rcases eq_or_lt_of_le ht.2.1 with e | e
    · left
      obtain ⟨t, t0, t1, wx, wy⟩ := h'
      have : hullCross b a w = t * hullCross b a v := by
        rw [hullCross_lerp wx wy, hullCross_self']; ring
      rw [← e] at this
      have : t = 0 := (mul_eq_zero.1 this.symm).resolve_right (tri_rot (tri_rot hp.D)).ne'
      have : w = a := Point.ext (by rw [wx, this]; ring) (by rw [wy, this]; ring)
      rw [this]
      exact segPts_stop _ _
    · exact .inr ⟨e, ht.1, ht.2.2⟩

theorem seg_vh {w : Point K} (hw : w ∈ segPts v h) : w ∈ segPts b h ∨ InCap a v b w := by
  rcases seg_split hp.seg_b hw with h' | h'
  · have ht := (tri_edge_mem (tri_rot hp.D) h').rot.rot
    rcases eq_or_lt_of_le ht.2.1 with e | e
    · left
      obtain ⟨t, t0, t1, wx, wy⟩ := h'
      have : hullCross b a w = (1 - t) * hullCross b a v := by
        rw [hullCross_lerp wx wy, hullCross_self]; ring
      rw [← e] at this
      have : t = 1 := by linarith [(mul_eq_zero.1 this.symm).resolve_right (tri_rot (tri_rot hp.D)).ne']
      have : w = b := Point.ext (by rw [wx, this]; ring) (by rw [wy, this]; ring)
      rw [this]
      exact segPts_start _ _
    · exact .inr ⟨e, ht.1, ht.2.2⟩
  · exact .inl h'

/-- The two new sides only share the new vertex. -/
theorem seg_meet {w : Point K} (h1 : w ∈ segPts z v) (h2 : w ∈ segPts v h) : w = v := by
  obtain ⟨t, t0, t1, wx, wy⟩ := h2
  obtain ⟨k, k0, hk⟩ := hp.on_zv
  have e := hullCross_seg h1
  rw [hk] at e
  have e := (mul_eq_zero.1 e).resolve_left k0.ne'
  rw [hullCross_lerp wx wy, hullCross_self'] at e
  have : t = 0 := by
    have : t * hullCross a v h = 0 := by linarith
    exact (mul_eq_zero.1 this).resolve_right hp.h_av.ne'
  exact Point.ext (by rw [wx, this]; ring) (by rw [wy, this]; ring)

end ConvPair

section Conv

variable {a b h z v : Point K} {m : List (Point K)}

/-- What the validity check of the code gives: sides of the chain not at its ends that touch a new side are parallel to it. -/
def ConvOk (h z v : Point K) (m : List (Point K)) : Prop :=
  ∀ e ∈ Jagua.steps (h :: m ++ [z]), e.1 ≠ h → e.2 ≠ z → ∀ w ∈ segPts e.1 e.2,
    (w ∈ segPts z v → hullCross z v e.1 = hullCross z v e.2) ∧ (w ∈ segPts v h → hullCross v h e.1 = hullCross v h e.2)

theorem conv_mem (a b h z : Point K) (m : List (Point K)) (s : Point K × Point K) :
    s ∈ sides (a :: b :: (h :: m ++ [z])) ↔ s = (a, b) ∨ s = (b, h) ∨ s ∈ Jagua.steps (h :: m ++ [z]) ∨ s = (z, a) := by
  rw [sides_chain2]
  simp

theorem conv_nodup (hs : SimplePoly (a :: b :: (h :: m ++ [z]))) : (h :: m ++ [z]).Nodup ∧ a ∉ h :: m ++ [z] ∧ b ∉ h :: m ++ [z] := by
  have h1 := List.nodup_cons.1 hs.2.1
  have h2 := List.nodup_cons.1 h1.2
  exact ⟨h2.2, fun h => h1.1 (List.mem_cons_of_mem _ h), h2.1⟩

theorem conv_side (hs : SimplePoly (a :: b :: (h :: m ++ [z]))) (hp : ConvPair a b h z v) (hok : ConvOk h z v m)
    {e : Point K × Point K} (he : e ∈ Jagua.steps (h :: m ++ [z])) {x : Point K} (hx : x ∈ segPts e.1 e.2) (hT : InCap a v b x) :
    e.1 ≠ h ∧ e.2 ≠ z ∧ InCap a v b e.1 ∧ InCap a v b e.2 := by
  obtain ⟨hn, ha, hb⟩ := conv_nodup hs
  have hm := steps_mem he
  have hsides : e ∈ sides (a :: b :: (h :: m ++ [z])) := (conv_mem ..).2 (.inr (.inr (.inl he)))
  have hab : (a, b) ∈ sides (a :: b :: (h :: m ++ [z])) := (conv_mem ..).2 (.inl rfl)
  have noab : ∀ y ∈ segPts e.1 e.2, y ∉ segPts b a := by
    intro y hy hy'
    rw [segPts_comm] at hy'
    rcases hs.2.2 e hsides _ hab (fun k => ha (by have := hm.1; rw [k] at this; exact this)) y hy hy' with ⟨k1, k2⟩ | ⟨k1, k2⟩
    · exact ha (by have := hm.2; rw [← k1, k2] at this; exact this)
    · exact hb (by have := hm.1; rw [← k2, k1] at this; exact this)
  have n1 : e.1 ≠ h := by
    intro k
    obtain ⟨y, hy, h' | h' | h'⟩ := exit_cap hp.D hT hp.not_cap_h
    · exact noab y (segPts_subset hx (by rw [k]; exact segPts_start _ _) hy) h'
    · exact absurd h'.2 (by rw [hp.h_vb]; exact lt_irrefl _)
    · exact absurd h'.2 (not_lt.2 hp.h_av.le)
  have n2 : e.2 ≠ z := by
    intro k
    obtain ⟨y, hy, h' | h' | h'⟩ := exit_cap hp.D hT hp.not_cap_z
    · exact noab y (segPts_subset hx (by rw [k]; exact segPts_stop _ _) hy) h'
    · exact absurd h'.2 (not_lt.2 hp.z_vb.le)
    · exact absurd h'.2 (by rw [hp.z_av]; exact lt_irrefl _)
  obtain ⟨k1, k10, hk1⟩ := hp.on_zv
  obtain ⟨k2, k20, hk2⟩ := hp.on_vh
  have key : ∀ q, q = e.1 ∨ q = e.2 → InCap a v b q := by
    intro q hq
    have hqs : q ∈ segPts e.1 e.2 := by
      rcases hq with rfl | rfl
      · exact segPts_start _ _
      · exact segPts_stop _ _
    by_contra hcon
    obtain ⟨y, hy, h' | h' | h'⟩ := exit_cap hp.D hT hcon
    · exact noab y (segPts_subset hx hqs hy) h'
    · have hpar := (hok e he n1 n2 y (segPts_subset hx hqs hy)).2 (segPts_subset (segPts_start _ _) hp.seg_b h'.1)
      rw [hk2, hk2] at hpar
      have hpar := mul_left_cancel₀ k20.ne' hpar
      have ex := hullCross_const hpar hx
      have eq : hullCross v b q = hullCross v b e.2 := hullCross_const hpar hqs
      have := hT.2.1
      rw [ex, ← eq] at this
      linarith [h'.2]
    · have hpar := (hok e he n1 n2 y (segPts_subset hx hqs hy)).1 (segPts_subset hp.seg_a (segPts_stop _ _) h'.1)
      rw [hk1, hk1] at hpar
      have hpar := mul_left_cancel₀ k10.ne' hpar
      have ex := hullCross_const hpar hx
      have eq : hullCross a v q = hullCross a v e.2 := hullCross_const hpar hqs
      have := hT.2.2
      rw [ex, ← eq] at this
      linarith [h'.2]
  exact ⟨n1, n2, key _ (.inl rfl), key _ (.inr rfl)⟩

/-- No side of the rest of the polygon meets the added triangle. -/
theorem conv_free (hs : SimplePoly (a :: b :: (h :: m ++ [z]))) (hp : ConvPair a b h z v) (hok : ConvOk h z v m) :
    ∀ e ∈ Jagua.steps (h :: m ++ [z]), ∀ x ∈ segPts e.1 e.2, ¬ InCap a v b x := by
  obtain ⟨hn, ha, hb⟩ := conv_nodup hs
  intro e he x hx hT
  obtain ⟨n1, n2, t1, t2⟩ := conv_side hs hp hok he hx hT
  have hm := steps_mem he
  have h1 : e.1 ∈ m := by
    have := hm.1
    simp only [List.cons_append, List.mem_cons, List.mem_append, List.not_mem_nil, or_false] at this
    rcases this with k | k | k
    · exact absurd k n1
    · exact k
    · exact absurd (k ▸ t1) hp.not_cap_z
  have hall := chain_all hn (P := InCap a v b) (fun e he hP _ => (conv_side hs hp hok he (segPts_start _ _) hP).2.2.2)
    (fun e he hP _ => (conv_side hs hp hok he (segPts_stop _ _) hP).2.2.1) h1 t1
  cases m with
  | nil => simp at h1
  | cons c m =>
    have hc : (h, c) ∈ Jagua.steps (h :: (c :: m) ++ [z]) := by unfold Jagua.steps; simp
    exact (conv_side hs hp hok hc (segPts_stop _ _) (hall c (by simp))).1 rfl

theorem chain_vertex {α : Type*} {h z : α} {m : List α} {w : α} (hw : w ∈ h :: m ++ [z]) : ∃ e ∈ Jagua.steps (h :: m ++ [z]), w = e.1 ∨ w = e.2 := by
  obtain ⟨k, hk⟩ := List.getElem?_of_mem hw
  have hl := (List.getElem?_eq_some_iff.1 hk).1
  simp only [List.cons_append, List.length_cons, List.length_append, List.length_nil] at hl
  by_cases h' : k + 1 < (h :: m ++ [z]).length
  · exact ⟨(w, (h :: m ++ [z])[k + 1]), mem_steps.2 ⟨k, hk, List.getElem?_eq_getElem h'⟩, .inl rfl⟩
  · have hk0 : k = m.length + 1 := by simp at h'; omega
    refine ⟨((h :: m ++ [z])[k - 1]'(by simp; omega), w), mem_steps.2 ⟨k - 1, ?_, ?_⟩, .inr rfl⟩
    · exact List.getElem?_eq_getElem _
    · have : k - 1 + 1 = k := by omega
      rw [this]; exact hk

/-- The polygon with the two vertices replaced is simple. -/
theorem conv_simple (hs : SimplePoly (a :: b :: (h :: m ++ [z]))) (hp : ConvPair a b h z v) (hok : ConvOk h z v m) : SimplePoly (v :: (h :: m ++ [z])) := by
  obtain ⟨hn, ha, hb⟩ := conv_nodup hs
  have hfree := conv_free hs hp hok
  have hab : (a, b) ∈ sides (a :: b :: (h :: m ++ [z])) := (conv_mem ..).2 (.inl rfl)
  have hbh : (b, h) ∈ sides (a :: b :: (h :: m ++ [z])) := (conv_mem ..).2 (.inr (.inl rfl))
  have hza : (z, a) ∈ sides (a :: b :: (h :: m ++ [z])) := (conv_mem ..).2 (.inr (.inr (.inr rfl)))
  have old : ∀ {e}, e ∈ Jagua.steps (h :: m ++ [z]) → e ∈ sides (a :: b :: (h :: m ++ [z])) := fun he => (conv_mem ..).2 (.inr (.inr (.inl he)))
  have hv : v ∉ h :: m ++ [z] := by
    intro k
    obtain ⟨e, he, k | k⟩ := chain_vertex k
    · exact hfree e he v (by rw [k]; exact segPts_start _ _) hp.cap_v
    · exact hfree e he v (by rw [k]; exact segPts_stop _ _) hp.cap_v
  have z1 : ∀ e ∈ Jagua.steps (h :: m ++ [z]), ∀ w ∈ segPts e.1 e.2, w ∈ segPts z v → w = e.2 ∧ w = z := by
    intro e he w hw hw'
    rcases hp.seg_zv hw' with k | k
    · have hm := steps_mem he
      rcases hs.2.2 e (old he) _ hza (fun k => ha (by have := hm.2; rw [k] at this; exact this)) w hw k with k | ⟨k1, k2⟩
      · exact k
      · exact absurd hm.1 (by rw [← k2, k1]; exact ha)
    · exact absurd k (hfree e he w hw)
  have h1 : ∀ e ∈ Jagua.steps (h :: m ++ [z]), ∀ w ∈ segPts e.1 e.2, w ∈ segPts v h → w = h ∧ w = e.1 := by
    intro e he w hw hw'
    rcases hp.seg_vh hw' with k | k
    · have hm := steps_mem he
      rcases hs.2.2 e (old he) _ hbh (fun k => hb (by have := hm.1; rw [k] at this; exact this)) w hw k with ⟨k1, k2⟩ | k
      · exact absurd hm.2 (by rw [← k1, k2]; exact hb)
      · exact k
    · exact absurd k (hfree e he w hw)
  refine ⟨by simp, List.nodup_cons.2 ⟨hv, hn⟩, ?_⟩
  intro s hs1 t ht hst w hw hw'
  rw [sides_chain1] at hs1 ht
  simp only [List.mem_cons, List.mem_append, List.not_mem_nil, or_false] at hs1 ht
  rcases hs1 with rfl | hs1 | rfl <;> rcases ht with rfl | ht | rfl
  · exact absurd rfl hst
  · left
    exact h1 t ht w hw' hw
  · right
    have := hp.seg_meet hw' hw
    exact ⟨this, this⟩
  · right
    exact h1 s hs1 w hw hw'
  · exact hs.2.2 s (old hs1) t (old ht) hst w hw hw'
  · left
    exact z1 s hs1 w hw hw'
  · left
    have := hp.seg_meet hw hw'
    exact ⟨this, this⟩
  · right
    exact z1 t ht w hw' hw
  · exact absurd rfl hst

theorem conv_rho (hp : ConvPair a b h z v) (m : List (Point K)) (x : Point K) :
    rho (v :: (h :: m ++ [z])) x = rho (a :: b :: (h :: m ++ [z])) x + rho [a, v, b] x := by
  have e : [a, v, b] = a :: [v] ++ [b] := rfl
  unfold rho
  rw [e, sides_chain2, sides_chain1, sides_chain]
  have e' : Jagua.steps (a :: [v] ++ [b]) = [(a, v), (v, b)] := rfl
  rw [e']
  simp only [List.map_append, List.map_cons, List.map_nil, List.sum_append, List.sum_cons, List.sum_nil, add_zero]
  rw [crosses_split hp.seg_a, crosses_split hp.seg_b, ind_congr (crossesRay_comm (a := b) (b := a))]
  have k : ∀ vb bh c za av ab : ZMod 2, vb + bh + (c + (za + av)) = ab + (bh + (c + za)) + (av + vb + ab) := by decide
  exact k _ _ _ _ _ _

theorem conv_grow (hs : SimplePoly (a :: b :: (h :: m ++ [z]))) (hp : ConvPair a b h z v) (hok : ConvOk h z v m) (har : 0 < signedArea (v :: (h :: m ++ [z]))) :
    region (a :: b :: (h :: m ++ [z])) ⊆ region (v :: (h :: m ++ [z])) := by
  have hsn := conv_simple hs hp hok
  have hfree := conv_free hs hp hok
  have hzv : (z, v) ∈ sides (v :: (h :: m ++ [z])) := by rw [sides_chain1]; simp
  have hvh : (v, h) ∈ sides (v :: (h :: m ++ [z])) := by rw [sides_chain1]; simp
  have hin := centroid_in hp.D
  obtain ⟨k1, k10, hk1⟩ := hp.on_zv
  obtain ⟨k2, k20, hk2⟩ := hp.on_vh
  have hO : ∀ w, InTriO a v b w → w ∉ bdry (v :: (h :: m ++ [z])) := by
    rintro w hw ⟨s, hs', hx⟩
    rw [sides_chain1] at hs'
    simp only [List.mem_cons, List.mem_append, List.not_mem_nil, or_false] at hs'
    rcases hs' with rfl | hs' | rfl
    · have := hullCross_seg hx
      simp only at this
      rw [hk2] at this
      exact absurd this (mul_pos k20 hw.1).ne'
    · exact hfree s hs' w hx hw.cap
    · have := hullCross_seg hx
      simp only at this
      rw [hk1] at this
      exact absurd this (mul_pos k10 hw.2.2).ne'
  refine region_fill hp.D (conv_rho hp m) ?_ hO ?_
  · rintro x ⟨s, hs', hx⟩
    rcases (conv_mem ..).1 hs' with rfl | rfl | hs' | rfl
    · exact .inr (tri_edge_mem (tri_rot (tri_rot hp.D)) (by rw [segPts_comm]; exact hx)).rot
    · exact .inl ⟨_, hvh, segPts_subset hp.seg_b (segPts_stop _ _) hx⟩
    · exact .inl ⟨s, by rw [sides_chain1]; exact List.mem_cons_of_mem _ (List.mem_append_left _ hs'), hx⟩
    · exact .inl ⟨_, hzv, segPts_subset (segPts_start _ _) hp.seg_a hx⟩
  · have hne : a ≠ v := fun k => by have := hp.D; rw [k] at this; unfold hullCross at this; simp at this
    have hb := midpoint_between a v
    have hmt : InTri a v b (midpoint a v) := tri_edge_mem hp.D hb.seg
    have hg : 0 < hullCross z v (centroid a v b) := by rw [hk1]; exact mul_pos k10 hin.2.2
    have hm1 : 0 < hullCross b a (midpoint a v) := by
      have : hullCross b a (midpoint a v) = hullCross a v b / 2 := by unfold hullCross midpoint; simp only; ring
      rw [this]; exact half_pos hp.D
    have hm2 : 0 < hullCross v b (midpoint a v) := by
      have : hullCross v b (midpoint a v) = hullCross a v b / 2 := by unfold hullCross midpoint; simp only; ring
      rw [this]; exact half_pos hp.D
    have := hsn.rho_near hzv (hp.between_a hb) (q := centroid a v b) hg.ne' (by
      intro r hr hne w hw hw'
      rw [segPts_comm] at hw'
      rcases tri_to_centroid hp.D hmt hw' with rfl | hO'
      · rw [sides_chain1] at hr
        simp only [List.mem_cons, List.mem_append, List.not_mem_nil, or_false] at hr
        rcases hr with rfl | hr | rfl
        · have := hullCross_seg hw
          simp only at this
          rw [hk2] at this
          exact absurd this (mul_pos k20 hm2).ne'
        · exact hfree r hr _ hw ⟨hm1, hm2.le, hmt.2.2⟩
        · exact hne rfl
      · exact hO w hO' ⟨r, hr, hw⟩)
    rw [this, hsn.leftIn_pos har hzv, ind_zero (not_lt.2 hg.le), add_zero]

theorem conv_shrink (hs : SimplePoly (a :: b :: (h :: m ++ [z]))) (hp : ConvPair a b h z v) (hok : ConvOk h z v m)
    (har : signedArea (a :: b :: (h :: m ++ [z])) < 0) :
    region (v :: (h :: m ++ [z])) ⊆ region (a :: b :: (h :: m ++ [z])) := by
  have hfree := conv_free hs hp hok
  have hab : (a, b) ∈ sides (a :: b :: (h :: m ++ [z])) := (conv_mem ..).2 (.inl rfl)
  have hbh : (b, h) ∈ sides (a :: b :: (h :: m ++ [z])) := (conv_mem ..).2 (.inr (.inl rfl))
  have hza : (z, a) ∈ sides (a :: b :: (h :: m ++ [z])) := (conv_mem ..).2 (.inr (.inr (.inr rfl)))
  have hin := centroid_in hp.D
  have hneab := side_ne (by have := hs.1; omega) hs.2.1 hab
  have hO : ∀ w, InTriO a v b w → w ∉ bdry (a :: b :: (h :: m ++ [z])) := by
    rintro w hw ⟨s, hs', hx⟩
    rcases (conv_mem ..).1 hs' with rfl | rfl | hs' | rfl
    · simp only at hx
      rw [segPts_comm] at hx
      exact absurd (hullCross_seg hx) hw.2.1.ne'
    · have := segPts_subset hp.seg_b (segPts_stop _ _) hx
      obtain ⟨k2, k20, hk2⟩ := hp.on_vh
      have := hullCross_seg this
      rw [hk2] at this
      exact absurd this (mul_pos k20 hw.1).ne'
    · exact hfree s hs' w hx hw.cap
    · have := segPts_subset (segPts_start _ _) hp.seg_a hx
      obtain ⟨k1, k10, hk1⟩ := hp.on_zv
      have := hullCross_seg this
      rw [hk1] at this
      exact absurd this (mul_pos k10 hw.2.2).ne'
  refine region_fill hp.D (fun x => ?_) ?_ hO ?_
  · rw [conv_rho hp m x, add_assoc, zmod2_add_self, add_zero]
  · rintro x ⟨s, hs', hx⟩
    rw [sides_chain1] at hs'
    simp only [List.mem_cons, List.mem_append, List.not_mem_nil, or_false] at hs'
    rcases hs' with rfl | hs' | rfl
    · rcases hp.seg_vh hx with k | k
      · exact .inl ⟨_, hbh, k⟩
      · exact .inr k.tri
    · exact .inl ⟨s, (conv_mem ..).2 (.inr (.inr (.inl hs'))), hx⟩
    · rcases hp.seg_zv hx with k | k
      · exact .inl ⟨_, hza, k⟩
      · exact .inr k.tri
  · have hb := midpoint_between a b
    have hmt : InTri a v b (midpoint a b) := (tri_edge_mem (tri_rot (tri_rot hp.D)) hb.symm.seg).rot
    have e : hullCross a b (centroid a v b) = - hullCross b a (centroid a v b) := by unfold hullCross; ring
    have hneg : hullCross a b (centroid a v b) < 0 := by rw [e]; linarith [hin.2.1]
    have := hs.rho_near hab hb (q := centroid a v b) hneg.ne (by
      intro r hr hne w hw hw'
      rw [segPts_comm] at hw'
      rcases tri_to_centroid hp.D hmt hw' with rfl | hO'
      · rcases hs.2.2 _ hab r hr (Ne.symm hne) _ hb.seg hw with ⟨e, -⟩ | ⟨-, e⟩
        · exact hb.ne_stop hneab e
        · exact hb.ne_start hneab e
      · exact hO w hO' ⟨r, hr, hw⟩)
    rw [this, hs.leftIn_neg har hab, ind_pos hneg, zero_add]

end Conv

/-! ### A vertex on the line through its neighbours -/

section Line

variable {A B C : Point K} {m : List (Point K)}

/-- In a simple polygon such a vertex lies between its neighbours. -/
theorem line_seg (hs : SimplePoly (C :: (B :: m ++ [A]))) (hc : hullCross A C B = 0) : C ∈ segPts A B := by
  have hCB : (C, B) ∈ sides (C :: (B :: m ++ [A])) := (cut_mem ..).2 (.inl rfl)
  have hAC : (A, C) ∈ sides (C :: (B :: m ++ [A])) := (cut_mem ..).2 (.inr (.inr rfl))
  have hl : 2 ≤ (C :: (B :: m ++ [A])).length := by have := hs.1; omega
  have n1 := side_ne hl hs.2.1 hCB
  have n2 := side_ne hl hs.2.1 hAC
  have hd := hs.noSpike _ hAC _ hCB rfl (by simp only; unfold hullCross at hc; linarith)
  simp only at hd
  have hpp : 0 ≤ (C.x - A.x) ^ 2 + (C.y - A.y) ^ 2 := by positivity
  set n : K := (C.x - A.x) ^ 2 + (C.y - A.y) ^ 2 with hn
  set d : K := (C.x - A.x) * (B.x - C.x) + (C.y - A.y) * (B.y - C.y) with hdd
  have hpos : 0 < n + d := by linarith
  unfold hullCross at hc
  refine ⟨n / (n + d), div_nonneg hpp hpos.le, by rw [div_le_one hpos]; linarith, ?_, ?_⟩
  · have : n / (n + d) * (n + d) = n := div_mul_cancel₀ _ hpos.ne'
    apply mul_right_cancel₀ hpos.ne'
    have e : (A.x + n / (n + d) * (B.x - A.x)) * (n + d) = A.x * (n + d) + n * (B.x - A.x) := by linear_combination (B.x - A.x) * this
    rw [e, hn, hdd]
    linear_combination (C.y - A.y) * hc
  · have : n / (n + d) * (n + d) = n := div_mul_cancel₀ _ hpos.ne'
    apply mul_right_cancel₀ hpos.ne'
    have e : (A.y + n / (n + d) * (B.y - A.y)) * (n + d) = A.y * (n + d) + n * (B.y - A.y) := by linear_combination (B.y - A.y) * this
    rw [e, hn, hdd]
    linear_combination (A.x - C.x) * hc

theorem line_simple (hs : SimplePoly (C :: (B :: m ++ [A]))) (hc : hullCross A C B = 0) (hm : m ≠ []) : SimplePoly (B :: m ++ [A]) := by
  have hC := line_seg hs hc
  obtain ⟨-, hCn⟩ := cut_nodup hs
  have hCB : (C, B) ∈ sides (C :: (B :: m ++ [A])) := (cut_mem ..).2 (.inl rfl)
  have hAC : (A, C) ∈ sides (C :: (B :: m ++ [A])) := (cut_mem ..).2 (.inr (.inr rfl))
  apply cut_simple hs hm
  intro s hst w hw hw'
  have hsm := steps_mem hst
  have s1C : s.1 ≠ C := fun h => hCn (h ▸ hsm.1)
  have s2C : s.2 ≠ C := fun h => hCn (h ▸ hsm.2)
  have hsides : s ∈ sides (C :: (B :: m ++ [A])) := (cut_mem ..).2 (.inr (.inl hst))
  rcases seg_split hC hw' with k | k
  · rcases hs.2.2 s hsides _ hAC (fun h => s2C (by rw [h])) w hw k with ⟨e1, e2⟩ | ⟨e1, e2⟩
    · exact .inl ⟨e2, e1⟩
    · exact absurd (e2.symm.trans e1) s1C
  · rcases hs.2.2 s hsides _ hCB (fun h => s1C (by rw [h])) w hw k with ⟨e1, e2⟩ | ⟨e1, e2⟩
    · exact absurd (e1.symm.trans e2) s2C
    · exact .inr ⟨e1, e2⟩

theorem line_region (hC : C ∈ segPts A B) (m : List (Point K)) : region (C :: (B :: m ++ [A])) = region (B :: m ++ [A]) := by
  have hb : bdry (C :: (B :: m ++ [A])) = bdry (B :: m ++ [A]) := by
    ext x
    constructor
    · rintro ⟨s, hs', hx⟩
      rcases (cut_mem ..).1 hs' with rfl | h | rfl
      · exact ⟨(A, B), (cut_mem' ..).2 (.inr rfl), segPts_subset hC (segPts_stop _ _) hx⟩
      · exact ⟨s, (cut_mem' ..).2 (.inl h), hx⟩
      · exact ⟨(A, B), (cut_mem' ..).2 (.inr rfl), segPts_subset (segPts_start _ _) hC hx⟩
    · rintro ⟨s, hs', hx⟩
      rcases (cut_mem' ..).1 hs' with h | rfl
      · exact ⟨s, (cut_mem ..).2 (.inr (.inl h)), hx⟩
      · rcases seg_split hC hx with k | k
        · exact ⟨_, (cut_mem ..).2 (.inr (.inr rfl)), k⟩
        · exact ⟨_, (cut_mem ..).2 (.inl rfl), k⟩
  have hr : ∀ x, rho (C :: (B :: m ++ [A])) x = rho (B :: m ++ [A]) x := by
    intro x
    unfold rho
    rw [sides_chain1, sides_chain]
    simp only [List.map_append, List.map_cons, List.map_nil, List.sum_append, List.sum_cons, List.sum_nil, add_zero]
    rw [crosses_split hC]
    ring
  ext x
  show (x ∈ bdry _ ∨ x ∉ bdry _ ∧ Odd (rayCount _ x)) ↔ (x ∈ bdry _ ∨ x ∉ bdry _ ∧ Odd (rayCount _ x))
  rw [← rho_odd, ← rho_odd, hb, hr]

end Line

end Jagua
