import Verif.Lemmas.QTGeo
import Mathlib.Data.Prod.Lex
import Mathlib.Data.Finset.Max

/-!
# Two polygonal lines and the regions they enclose

When every pair of touching sides of two closed polygonal lines is parallel, the
lines do not touch at all; and two lines that do not touch enclose regions that
are nested or disjoint.
-/

set_option linter.unusedSectionVars false

namespace Jagua

variable {K : Type*} [Field K] [LinearOrder K] [IsStrictOrderedRing K]

/-! ## Touching sides -/

/-- lexicographic order of points -/
def Lx (p q : Point K) : Prop := p.x < q.x ∨ p.x = q.x ∧ p.y < q.y

theorem cross_trans {ax ay bx b_y tx ty : K} (h1 : ax * ty = ay * tx) (h2 : bx * ty = b_y * tx)
    (ht : tx ≠ 0 ∨ ty ≠ 0) : ax * b_y = ay * bx := by
  rcases ht with ht | ht
  · apply mul_left_cancel₀ ht
    linear_combination bx * h1 - ax * h2
  · apply mul_left_cancel₀ ht
    linear_combination b_y * h1 - ay * h2

/-- Parallel vectors pointing the same lexicographic way are positive multiples of each other. -/
theorem lex_multiple {ax ay bx b_y : K} (ha : 0 < ax ∨ 0 = ax ∧ 0 < ay) (hb : 0 < bx ∨ 0 = bx ∧ 0 < b_y)
    (h : ax * b_y = ay * bx) : ∃ c, 0 < c ∧ bx = c * ax ∧ b_y = c * ay := by
  rcases ha with ha | ⟨ha, ha'⟩
  · have hbx : 0 < bx := by
      rcases hb with hb | ⟨hb, hb'⟩
      · exact hb
      · rw [← hb, mul_zero] at h
        exact absurd h (mul_pos ha hb').ne'
    refine ⟨bx / ax, div_pos hbx ha, by field_simp, ?_⟩
    field_simp
    linarith
  · subst ha
    rw [zero_mul] at h
    have hbx : bx = 0 := by
      rcases mul_eq_zero.1 h.symm with h | h
      · exact absurd h ha'.ne'
      · exact h
    have hb' : 0 < b_y := by
      rcases hb with hb | hb
      · rw [hbx] at hb; exact absurd hb (lt_irrefl _)
      · exact hb.2
    exact ⟨b_y / ay, div_pos hb' ha', by rw [hbx]; ring, by field_simp⟩

/-- Parallel vectors pointing opposite lexicographic ways have a negative dot product. -/
theorem lex_opposite {ax ay bx b_y : K} (ha : 0 < ax ∨ 0 = ax ∧ 0 < ay) (hb : bx < 0 ∨ bx = 0 ∧ b_y < 0)
    (h : ax * b_y = ay * bx) : ax * bx + ay * b_y < 0 := by
  obtain ⟨c, hc, h1, h2⟩ := lex_multiple (bx := -bx) (b_y := -b_y) ha
    (by rcases hb with hb | ⟨hb, hb'⟩
        · left; linarith
        · right; exact ⟨by linarith, by linarith⟩) (by linarith)
  have e1 : bx = -(c * ax) := by linarith
  have e2 : b_y = -(c * ay) := by linarith
  rw [e1, e2]
  have : 0 < ax ^ 2 + ay ^ 2 := by
    rcases ha with ha | ha
    · have := pow_pos ha 2; nlinarith [sq_nonneg ay]
    · have := pow_pos ha.2 2; nlinarith [sq_nonneg ax]
  nlinarith [mul_pos hc this]

theorem NoSpike.nondeg {pts : List (Point K)} (h : NoSpike pts) {s : Point K × Point K} (hs : s ∈ sides pts) :
    s.2.x - s.1.x ≠ 0 ∨ s.2.y - s.1.y ≠ 0 := by
  by_contra hn
  push Not at hn
  obtain ⟨t, ht, he⟩ := exists_side_fst (sides_mem hs).2
  have := h s hs t ht he.symm (by rw [hn.1, hn.2]; ring)
  rw [hn.1, hn.2] at this
  simp at this

/-- All touching pairs of sides are parallel. -/
def TouchParallel (A B : List (Point K)) : Prop :=
  ∀ s ∈ sides A, ∀ t ∈ sides B, (∃ p, p ∈ segPts s.1 s.2 ∧ p ∈ segPts t.1 t.2) →
    (s.2.x - s.1.x) * (t.2.y - t.1.y) = (s.2.y - s.1.y) * (t.2.x - t.1.x)

theorem TouchParallel.symm {A B : List (Point K)} (h : TouchParallel A B) : TouchParallel B A := by
  rintro s hs t ht ⟨p, h1, h2⟩
  linear_combination -(h t ht s hs ⟨p, h2, h1⟩)

/-- A point of a segment that is neither below its one nor its other end is an end. -/
theorem seg_max {a b v : Point K} (hv : v ∈ segPts a b) (h1 : ¬ Lx v a) (h2 : ¬ Lx v b) : v = a ∨ v = b := by
  obtain ⟨t, t0, t1, hx, hy⟩ := hv
  unfold Lx at h1 h2
  push Not at h1 h2
  obtain ⟨h1, h1'⟩ := h1
  obtain ⟨h2, h2'⟩ := h2
  rcases t0.eq_or_lt with h0 | h0
  · left; subst h0; ext
    · rw [hx]; ring
    · rw [hy]; ring
  rcases t1.eq_or_lt with h3 | h3
  · right; subst h3; ext
    · rw [hx]; ring
    · rw [hy]; ring
  have ex : b.x = a.x := by nlinarith
  have hvx : v.x = a.x := by rw [hx, ex]; ring
  have h1y := h1' hvx
  have h2y := h2' (hvx.trans ex.symm)
  left
  ext
  · exact hvx
  · nlinarith

theorem step_up {A B : List (Point K)} (hA : NoSpike A) (hB : NoSpike B) (hp : TouchParallel A B) {v : Point K}
    (hvA : v ∈ bdry A) (hvB : v ∈ bdry B) :
    ∃ s ∈ sides A, v ∈ segPts s.1 s.2 ∧ ∃ u, (u = s.1 ∨ u = s.2) ∧ Lx v u := by
  obtain ⟨s, hs, hv⟩ := hvA
  by_cases h1 : Lx v s.1
  · exact ⟨s, hs, hv, _, .inl rfl, h1⟩
  by_cases h2 : Lx v s.2
  · exact ⟨s, hs, hv, _, .inr rfl, h2⟩
  have hvert : v ∈ A := by
    rcases seg_max hv h1 h2 with rfl | rfl
    · exact (sides_mem hs).1
    · exact (sides_mem hs).2
  clear h1 h2 hv hs
  obtain ⟨a, ha, hav⟩ := exists_side_snd hvert
  obtain ⟨b, hb, hbv⟩ := exists_side_fst hvert
  have va : v ∈ segPts a.1 a.2 := by rw [← hav]; exact segPts_stop _ _
  have vb : v ∈ segPts b.1 b.2 := by rw [← hbv]; exact segPts_start _ _
  by_cases h1 : Lx v a.1
  · exact ⟨a, ha, va, _, .inl rfl, h1⟩
  by_cases h2 : Lx v b.2
  · exact ⟨b, hb, vb, _, .inr rfl, h2⟩
  exfalso
  obtain ⟨t, ht, hvt⟩ := hvB
  have p1 := hp a ha t ht ⟨v, va, hvt⟩
  have p2 := hp b hb t ht ⟨v, vb, hvt⟩
  have p3 := cross_trans p1 p2 (hB.nondeg ht)
  have hd := hA a ha b hb (hav.trans hbv.symm) p3
  have na := hA.nondeg ha
  have nb := hA.nondeg hb
  unfold Lx at h1 h2
  push Not at h1 h2
  rw [← hav] at h1
  rw [← hbv] at h2
  have ra : 0 < a.2.x - a.1.x ∨ 0 = a.2.x - a.1.x ∧ 0 < a.2.y - a.1.y := by
    rcases h1.1.eq_or_lt with h | h
    · right
      refine ⟨by linarith, lt_of_le_of_ne ?_ ?_⟩
      · have := h1.2 h.symm; linarith
      · rcases na with na | na
        · exact absurd (by linarith) na
        · exact na.symm
    · left; linarith
  have rb : b.2.x - b.1.x < 0 ∨ b.2.x - b.1.x = 0 ∧ b.2.y - b.1.y < 0 := by
    rcases h2.1.eq_or_lt with h | h
    · right
      refine ⟨by linarith, lt_of_le_of_ne ?_ ?_⟩
      · have := h2.2 h.symm; linarith
      · rcases nb with nb | nb
        · exact absurd (by linarith) nb
        · exact nb
    · left; linarith
  have := lex_opposite ra rb p3
  linarith

theorem Lx.sub {v u : Point K} (h : Lx v u) : 0 < u.x - v.x ∨ 0 = u.x - v.x ∧ 0 < u.y - v.y := by
  rcases h with h | h
  · left; linarith
  · right; exact ⟨by linarith [h.1], by linarith [h.2]⟩

/-- The vector from a point of a segment to an end is parallel to the segment. -/
theorem end_parallel {a b v u : Point K} (hv : v ∈ segPts a b) (hu : u = a ∨ u = b) :
    (u.x - v.x) * (b.y - a.y) = (u.y - v.y) * (b.x - a.x) := by
  obtain ⟨t, -, -, hx, hy⟩ := hv
  rcases hu with rfl | rfl <;> rw [hx, hy] <;> ring

theorem vertex_up {A B : List (Point K)} (hA : NoSpike A) (hB : NoSpike B) (hp : TouchParallel A B) {v : Point K}
    (hvA : v ∈ bdry A) (hvB : v ∈ bdry B) :
    ∃ u, (u ∈ A ∨ u ∈ B) ∧ u ∈ bdry A ∧ u ∈ bdry B ∧ Lx v u := by
  obtain ⟨s, hs, hvs, u, hu, hvu⟩ := step_up hA hB hp hvA hvB
  obtain ⟨t, ht, hvt, w, hw, hvw⟩ := step_up hB hA hp.symm hvB hvA
  have par := hp s hs t ht ⟨v, hvs, hvt⟩
  have e1 := end_parallel hvs hu
  have e2 := end_parallel hvt hw
  have uA : u ∈ A := by rcases hu with rfl | rfl; exacts [(sides_mem hs).1, (sides_mem hs).2]
  have wB : w ∈ B := by rcases hw with rfl | rfl; exacts [(sides_mem ht).1, (sides_mem ht).2]
  have us : u ∈ segPts s.1 s.2 := by rcases hu with rfl | rfl; exacts [segPts_start _ _, segPts_stop _ _]
  have wt : w ∈ segPts t.1 t.2 := by rcases hw with rfl | rfl; exacts [segPts_start _ _, segPts_stop _ _]
  have e3 : (u.x - v.x) * (t.2.y - t.1.y) = (u.y - v.y) * (t.2.x - t.1.x) :=
    cross_trans e1 (by linear_combination -par) (hA.nondeg hs)
  have e4 := cross_trans e3 e2 (hB.nondeg ht)
  obtain ⟨c, hc, cx, cy⟩ := lex_multiple hvu.sub hvw.sub e4
  rcases le_total c 1 with h | h
  · refine ⟨w, .inr wB, ⟨s, hs, segPts_subset hvs us ⟨c, hc.le, h, ?_, ?_⟩⟩, vertex_mem_bdry wB, hvw⟩
    · linarith
    · linarith
  · refine ⟨u, .inl uA, vertex_mem_bdry uA, ⟨t, ht, segPts_subset hvt wt ⟨1 / c, by positivity, ?_, ?_, ?_⟩⟩, hvu⟩
    · rw [div_le_one hc]; exact h
    · rw [cx]; field_simp; ring
    · rw [cy]; field_simp; ring

/-- Lines whose touching sides are all parallel do not touch. -/
theorem bdry_disjoint {A B : List (Point K)} (hA : NoSpike A) (hB : NoSpike B) (hp : TouchParallel A B) :
    ∀ v ∈ bdry A, v ∉ bdry B := by
  classical
  intro v hvA hvB
  let V : Finset (Point K) := ((A ++ B).filter (fun u => u ∈ bdry A ∧ u ∈ bdry B)).toFinset
  have mem : ∀ u, u ∈ V ↔ (u ∈ A ∨ u ∈ B) ∧ u ∈ bdry A ∧ u ∈ bdry B := by
    intro u
    simp [V]
  have hne : V.Nonempty := by
    obtain ⟨u, h1, h2, h3, _⟩ := vertex_up hA hB hp hvA hvB
    exact ⟨u, (mem u).2 ⟨h1, h2, h3⟩⟩
  obtain ⟨m, hm, hmax⟩ := V.exists_max_image (fun p => toLex (p.x, p.y)) hne
  obtain ⟨-, h1, h2⟩ := (mem m).1 hm
  obtain ⟨u, h3, h4, h5, h6⟩ := vertex_up hA hB hp h1 h2
  have := hmax u ((mem u).2 ⟨h3, h4, h5⟩)
  rw [← not_lt, Prod.Lex.toLex_lt_toLex] at this
  exact this h6

/-! ## Lines that do not touch -/

/-- A property that does not change along sides is the same on the whole line. -/
theorem bdry_chain {A : List (Point K)} {P : Point K → Prop}
    (h : ∀ s ∈ sides A, ∀ p ∈ segPts s.1 s.2, P p ↔ P s.1) : ∀ p ∈ bdry A, ∀ q ∈ bdry A, P p ↔ P q := by
  have hv : ∀ i (hi : i < A.length), P A[i] ↔ P (A[0]'(by omega)) := by
    intro i
    induction i with
    | zero => intro _; rfl
    | succ i ih =>
      intro hi
      rw [← ih (by omega)]
      have hs : (A[i], A[i + 1]) ∈ sides A := by
        unfold sides
        rw [List.mem_iff_getElem]
        refine ⟨i, by simp; omega, ?_⟩
        simp only [List.getElem_zip, List.getElem_rotate]
        have : (i + 1) % A.length = i + 1 := Nat.mod_eq_of_lt hi
        simp [this]
      exact h _ hs _ (segPts_stop _ _)
  have key : ∀ p ∈ bdry A, ∃ h0 : 0 < A.length, P p ↔ P A[0] := by
    rintro p ⟨s, hs, hp⟩
    obtain ⟨i, hi, he⟩ := List.mem_iff_getElem.1 (sides_mem hs).1
    refine ⟨by omega, ?_⟩
    rw [h s hs p hp, ← he]
    exact hv i hi
  intro p hp q hq
  obtain ⟨_, h1⟩ := key p hp
  obtain ⟨_, h2⟩ := key q hq
  rw [h1, h2]

/-- A line that does not touch the line `B` is entirely inside or entirely outside `B`. -/
theorem bdry_const {A B : List (Point K)} (hd : ∀ v ∈ bdry A, v ∉ bdry B) :
    ∀ p ∈ bdry A, ∀ q ∈ bdry A, p ∈ interior B ↔ q ∈ interior B := by
  apply bdry_chain
  intro s hs p hp
  apply interior_const
  intro w hw
  exact hd w ⟨s, hs, segPts_subset hp (segPts_start _ _) hw⟩

/-- Going right from an interior point, one stays in the interior up to a point of the line. -/
theorem first_hit {A : List (Point K)} {x : Point K} (hx : x ∈ interior A) :
    ∃ z ∈ bdry A, z.y = x.y ∧ x.x < z.x ∧ ∀ w ∈ segPts x z, w ≠ z → w ∈ interior A := by
  classical
  let I : Point K × Point K → Point K := fun s =>
    ⟨s.1.x + (x.y - s.1.y) / (s.2.y - s.1.y) * (s.2.x - s.1.x), x.y⟩
  let C : Finset (Point K) := (((sides A).flatMap fun s => [s.1, s.2, I s]).filter
    (fun c => c ∈ bdry A ∧ c.y = x.y ∧ x.x < c.x)).toFinset
  have mem : ∀ c, c ∈ C ↔ (∃ s ∈ sides A, c = s.1 ∨ c = s.2 ∨ c = I s) ∧ c ∈ bdry A ∧ c.y = x.y ∧ x.x < c.x := by
    intro c
    simp [C, List.mem_flatMap]
  -- every point of the line on the ray has a candidate before it
  have key : ∀ w ∈ bdry A, w.y = x.y → x.x < w.x → ∃ c ∈ C, c.x ≤ w.x := by
    rintro w hwb hwy hwx
    obtain ⟨s, hs, hw⟩ := hwb
    by_cases hh : s.1.y = s.2.y
    · have hxs : ∀ u ∈ segPts s.1 s.2, u.y = x.y := by
        rintro u ⟨t, -, -, -, hy⟩
        obtain ⟨t', -, -, -, hy'⟩ := hw
        rw [← hwy, hy, hy', hh]; ring
      obtain ⟨t, t0, t1, wx, wy⟩ := hw
      have left : ∃ c, (c = s.1 ∨ c = s.2) ∧ c.x ≤ w.x ∧ w ∈ segPts s.1 s.2 := by
        rcases le_total s.1.x s.2.x with h | h
        · exact ⟨s.1, .inl rfl, by rw [wx]; nlinarith, t, t0, t1, wx, wy⟩
        · exact ⟨s.2, .inr rfl, by rw [wx]; nlinarith, t, t0, t1, wx, wy⟩
      obtain ⟨c, hc, hcw, hw⟩ := left
      have hcs : c ∈ segPts s.1 s.2 := by rcases hc with rfl | rfl; exacts [segPts_start _ _, segPts_stop _ _]
      refine ⟨c, (mem c).2 ⟨⟨s, hs, ?_⟩, ⟨s, hs, hcs⟩, hxs c hcs, ?_⟩, hcw⟩
      · rcases hc with h | h
        · exact .inl h
        · exact .inr (.inl h)
      · by_contra hcx
        push Not at hcx
        apply hx.1
        refine ⟨s, hs, segPts_subset hcs hw ⟨(x.x - c.x) / (w.x - c.x), ?_, ?_, ?_, ?_⟩⟩
        · exact div_nonneg (by linarith) (by linarith)
        · rw [div_le_one (by linarith)]; linarith
        · have : w.x - c.x ≠ 0 := by linarith
          field_simp; ring
        · rw [hwy, hxs c hcs]; ring
    · refine ⟨w, (mem w).2 ⟨⟨s, hs, .inr (.inr ?_)⟩, ⟨s, hs, hw⟩, hwy, hwx⟩, le_refl _⟩
      obtain ⟨t, t0, t1, wx, wy⟩ := hw
      have hne : s.2.y - s.1.y ≠ 0 := fun h => hh (by linarith)
      have ht : (x.y - s.1.y) / (s.2.y - s.1.y) = t := by
        rw [div_eq_iff hne]; linarith
      ext
      · simp only [I]; rw [ht]; exact wx
      · exact hwy
  have hne : C.Nonempty := by
    have : rayCount A x ≠ 0 := by
      intro h; exact not_odd_zero h hx.2
    unfold rayCount at this
    obtain ⟨s, hs, hc⟩ := List.countP_pos_iff.1 (Nat.pos_of_ne_zero this)
    obtain ⟨-, c, hcs, hcy, hcx⟩ := of_decide_eq_true hc
    obtain ⟨c', hc', _⟩ := key c ⟨s, hs, hcs⟩ hcy hcx
    exact ⟨c', hc'⟩
  obtain ⟨z, hz, hmin⟩ := C.exists_min_image (fun p => p.x) hne
  obtain ⟨-, hzb, hzy, hzx⟩ := (mem z).1 hz
  have free : ∀ w, w.y = x.y → x.x ≤ w.x → w.x < z.x → w ∉ bdry A := by
    intro w hwy hxw hwz hwb
    rcases hxw.eq_or_lt with h | h
    · apply hx.1
      have : w = x := by ext; exacts [h.symm, hwy]
      rwa [← this]
    · obtain ⟨c, hc, hcw⟩ := key w hwb hwy h
      have := hmin c hc
      have : z.x ≤ c.x := this
      linarith
  refine ⟨z, hzb, hzy, hzx, ?_⟩
  rintro w ⟨t, t0, t1, wx, wy⟩ hwz
  rw [hzy] at wy
  have hwy : w.y = x.y := by rw [wy]; ring
  have hlt : w.x < z.x := by
    have : w.x ≤ z.x := by rw [wx]; nlinarith
    refine lt_of_le_of_ne this fun h => hwz ?_
    ext
    · exact h
    · rw [hwy, hzy]
  have hge : x.x ≤ w.x := by rw [wx]; nlinarith
  rw [← interior_const (p := x)]
  · exact hx
  · rintro u ⟨t', t0', t1', ux, uy⟩
    apply free
    · rw [uy, hwy]; ring
    · rw [ux]; nlinarith
    · rw [ux]; nlinarith

/-- If no point of the line `B` is inside `A`, then every point inside `A` has the same
status with respect to `B` as the whole line `A`. -/
theorem inside_const {A B : List (Point K)} (hd : ∀ v ∈ bdry A, v ∉ bdry B) (hn : ∀ v ∈ bdry B, v ∉ interior A)
    {x : Point K} (hx : x ∈ interior A) {p : Point K} (hp : p ∈ bdry A) : x ∈ interior B ↔ p ∈ interior B := by
  obtain ⟨z, hz, -, -, hin⟩ := first_hit hx
  rw [← bdry_const hd z hz p hp]
  apply interior_const
  intro w hw hwb
  by_cases h : w = z
  · subst h; exact hd w hz hwb
  · exact hn w hwb (hin w hw h)

/-! ## Nested bounding boxes -/

/-- strictly inside -/
def AARect.SIn (a b : AARect K) : Prop := b.xMin < a.xMin ∧ a.xMax < b.xMax ∧ b.yMin < a.yMin ∧ a.yMax < b.yMax

/-- A line inside `B` has its bounding box strictly inside that of `B`. -/
theorem bbox_inside {A B : List (Point K)} (hA : A ≠ []) (h : ∀ v ∈ bdry A, v ∈ interior B) :
    (boundingBox A).SIn (boundingBox B) := by
  obtain ⟨⟨p1, h1, e1⟩, ⟨p2, h2, e2⟩, ⟨p3, h3, e3⟩, ⟨p4, h4, e4⟩⟩ := boundingBox_attained hA
  refine ⟨?_, ?_, ?_, ?_⟩
  · rw [← e1]; exact (interior_subset_inner (h _ (vertex_mem_bdry h1))).1
  · rw [← e3]; exact (interior_subset_inner (h _ (vertex_mem_bdry h3))).2.1
  · rw [← e2]; exact (interior_subset_inner (h _ (vertex_mem_bdry h2))).2.2.1
  · rw [← e4]; exact (interior_subset_inner (h _ (vertex_mem_bdry h4))).2.2.2

/-- Two lines cannot each be inside the other. -/
theorem not_both_inside {A B : List (Point K)} (hA : A ≠ []) (hB : B ≠ []) (h : ∀ v ∈ bdry A, v ∈ interior B)
    (h' : ∀ v ∈ bdry B, v ∈ interior A) : False := by
  have := (bbox_inside hA h).1
  have := (bbox_inside hB h').1
  linarith

/-- How two lines that do not touch can lie: one inside the other, or neither. -/
theorem nested_or_disjoint {A B : List (Point K)} (hA : A ≠ []) (hB : B ≠ []) (hd : ∀ v ∈ bdry A, v ∉ bdry B) :
    ((∀ v ∈ bdry A, v ∈ interior B) ∧ interior A ⊆ interior B ∧ ∀ v ∈ bdry B, v ∉ region A) ∨
    ((∀ v ∈ bdry B, v ∈ interior A) ∧ interior B ⊆ interior A ∧ ∀ v ∈ bdry A, v ∉ region B) ∨
    (∀ v ∈ region A, v ∉ region B) := by
  have hd' : ∀ v ∈ bdry B, v ∉ bdry A := fun v h1 h2 => hd v h2 h1
  obtain ⟨a, ha⟩ : ∃ a, a ∈ bdry A := by
    obtain ⟨a, l, rfl⟩ := List.exists_cons_of_ne_nil hA
    exact ⟨a, vertex_mem_bdry (by simp)⟩
  obtain ⟨b, hb⟩ : ∃ b, b ∈ bdry B := by
    obtain ⟨b, l, rfl⟩ := List.exists_cons_of_ne_nil hB
    exact ⟨b, vertex_mem_bdry (by simp)⟩
  by_cases h1 : a ∈ interior B
  · left
    have hall : ∀ v ∈ bdry A, v ∈ interior B := fun v hv => (bdry_const hd v hv a ha).2 h1
    have hno : ∀ v ∈ bdry B, v ∉ interior A := fun v hv hvi =>
      not_both_inside hA hB hall fun w hw => (bdry_const hd' w hw v hv).2 hvi
    refine ⟨hall, fun x hx => (inside_const hd hno hx ha).2 h1, ?_⟩
    rintro v hv (h | h)
    · exact hd' v hv h
    · exact hno v hv h
  · by_cases h2 : b ∈ interior A
    · right; left
      have hall : ∀ v ∈ bdry B, v ∈ interior A := fun v hv => (bdry_const hd' v hv b hb).2 h2
      have hno : ∀ v ∈ bdry A, v ∉ interior B := fun v hv hvi => h1 ((bdry_const hd v hv a ha).1 hvi)
      refine ⟨hall, fun x hx => (inside_const hd' hno hx hb).2 h2, ?_⟩
      rintro v hv (h | h)
      · exact hd v hv h
      · exact hno v hv h
    · right; right
      have hnoA : ∀ v ∈ bdry A, v ∉ interior B := fun v hv hvi => h1 ((bdry_const hd v hv a ha).1 hvi)
      have hnoB : ∀ v ∈ bdry B, v ∉ interior A := fun v hv hvi => h2 ((bdry_const hd' v hv b hb).1 hvi)
      rintro v (hv | hv) (hw | hw)
      · exact hd v hv hw
      · exact hnoA v hv hw
      · exact hnoB v hw hv
      · exact h1 ((inside_const hd hnoB hv ha).1 hw)

end Jagua
