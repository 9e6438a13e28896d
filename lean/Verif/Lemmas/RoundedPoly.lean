import Verif.Lemmas.RoundedGeo

/-! # The point in polygon test in arithmetic with rounding -/

set_option linter.unusedSectionVars false

namespace Jagua

variable {r : Rounding} {u : ℚ}

/-- the comparison, on all rationals -/
def Fpa.onExact (f : Fpa (Rounded r)) : Fpa ℚ :=
  ⟨fun a b => decide (a = b) || (if h : r.rnd a = a ∧ r.rnd b = b then f.eq ⟨a, h.1⟩ ⟨b, h.2⟩ else false)⟩

theorem Fpa.onExact_eq {f : Fpa (Rounded r)} (hr : ∀ a, f.eq a a = true) (a b : Rounded r) : f.onExact.eq a.1 b.1 = f.eq a b := by
  unfold Fpa.onExact
  simp only
  rw [dif_pos ⟨a.2, b.2⟩]
  by_cases h : a = b
  · rw [h]; simp [hr]
  · rw [show decide (a.1 = b.1) = false from decide_eq_false (fun e => h (val_eq.2 e)), Bool.false_or]
    rfl

theorem Fpa.onExact_lt {f : Fpa (Rounded r)} (hr : ∀ a, f.eq a a = true) (a b : Rounded r) : f.onExact.lt a.1 b.1 = f.lt a b := by
  unfold Fpa.lt
  rw [Fpa.onExact_eq hr]
  rfl

theorem Fpa.TolerantIn.onExact {f : Fpa (Rounded r)} {M ε : ℚ} (h : f.TolerantIn M ε) (h0 : 0 ≤ ε) : f.onExact.Tolerant M ε where
  refl a := by unfold Fpa.onExact; simp
  near a b ha hb he := by
    unfold Fpa.onExact at he
    simp only [Bool.or_eq_true, decide_eq_true_eq] at he
    rcases he with he | he
    · rw [he, sub_self, abs_zero]; exact h0
    · by_cases hab : r.rnd a = a ∧ r.rnd b = b
      · rw [dif_pos hab] at he
        exact h.near ⟨a, hab.1⟩ ⟨b, hab.2⟩ ha hb he
      · rw [dif_neg hab] at he
        exact absurd he Bool.false_ne_true

theorem polyEdges_exact (pts : List (Point (Rounded r))) : polyEdges (pts.map Point.exact) = (polyEdges pts).map Edge.exact := by
  unfold polyEdges
  apply List.ext_getElem
  · simp
  · intro i h1 h2
    simp [Edge.exact]

theorem polyEdges_ends {pts : List (Point (Rounded r))} {e : Edge (Rounded r)} (h : e ∈ polyEdges pts) : e.start ∈ pts ∧ e.stop ∈ pts := by
  unfold polyEdges at h
  obtain ⟨i, rfl⟩ := List.mem_ofFn.1 h
  exact ⟨List.getElem_mem _, List.getElem_mem _⟩

theorem bbox_fold_exact : ∀ (ps : List (Point (Rounded r))) (b : AARect (Rounded r)),
    (ps.map Point.exact).foldl (fun b q => AARect.mk (min b.xMin q.x) (min b.yMin q.y) (max b.xMax q.x) (max b.yMax q.y))
      ⟨b.xMin.1, b.yMin.1, b.xMax.1, b.yMax.1⟩ =
    (fun B : AARect (Rounded r) => (⟨B.xMin.1, B.yMin.1, B.xMax.1, B.yMax.1⟩ : AARect ℚ))
      (ps.foldl (fun b q => ⟨min b.xMin q.x, min b.yMin q.y, max b.xMax q.x, max b.yMax q.y⟩) b)
  | [], b => rfl
  | p :: ps, b => by
    rw [List.map_cons, List.foldl_cons, List.foldl_cons, ← bbox_fold_exact ps]
    simp only [val_min, val_max, Point.exact]

theorem boundingBox_exact {pts : List (Point (Rounded r))} (h : pts ≠ []) : boundingBox (pts.map Point.exact) =
    ⟨(boundingBox pts).xMin.1, (boundingBox pts).yMin.1, (boundingBox pts).xMax.1, (boundingBox pts).yMax.1⟩ := by
  cases pts with
  | nil => exact absurd rfl h
  | cons p ps => exact bbox_fold_exact ps ⟨p.x, p.y, p.x, p.y⟩

/-- Which edges the rounded test counts: those that the test with tolerance counts in exact arithmetic. -/
theorem countsEdge_rounded (st : r.Standard u) (hu : u ≤ 1 / 256) {f : Fpa (Rounded r)} {M ε : ℚ} (hf : f.TolerantIn M ε) (h0 : 0 ≤ ε)
    {p : Point (Rounded r)} (hp : |p.x.1| ≤ M ∧ |p.y.1| ≤ M) {X : Rounded r} {e : Edge (Rounded r)} {xn xm w : ℚ}
    (he1 : |e.start.x.1| ≤ M ∧ |e.start.y.1| ≤ M) (he2 : |e.stop.x.1| ≤ M ∧ |e.stop.y.1| ≤ M) (hw : xm - xn = w) (hpos : 0 < w)
    (bp : xn ≤ p.x.1 ∧ p.x.1 ≤ xm) (b3 : xn ≤ e.start.x.1 ∧ e.start.x.1 ≤ xm) (b4 : xn ≤ e.stop.x.1 ∧ e.stop.x.1 ≤ xm)
    (hX1 : xm + 2 / 5 * w ≤ X.1) (hX2 : X.1 ≤ xm + 8 / 5 * w)
    (hav : ∀ q ∈ e.exact.pts, q ∉ around p.exact ε ∧ q ∉ around p.exact (32 * u * w)) :
    SPoly.countsEdge f p X e = SPoly.countsEdge f.onExact p.exact X.1 e.exact := by
  have hu0 := st.nonneg
  have ht := hf.onExact h0
  by_cases hV : ((f.eq e.start.y p.y && f.lt p.x e.start.x) || (f.eq e.stop.y p.y && f.lt p.x e.stop.x)) = true
  · unfold SPoly.countsEdge
    rw [if_pos hV, if_pos]
    · simp only [Edge.exact, Point.exact, Fpa.onExact_lt hf.refl]
    · simp only [Edge.exact, Point.exact, Fpa.onExact_lt hf.refl, Fpa.onExact_eq hf.refl]
      exact hV
  · have hV' : ∀ v : Point (Rounded r), v = e.start ∨ v = e.stop → f.eq v.y p.y = true → ¬ p.x < v.x := by
      intro v hv he hlt
      have hn : f.lt p.x v.x = false := by
        rcases hv with rfl | rfl <;> by_contra hc <;> exact hV (by simp [he, Bool.not_eq_false _ ▸ hc])
      have heq : f.eq p.x v.x = true := by
        unfold Fpa.lt at hn
        rw [decide_eq_true hlt, Bool.and_true] at hn
        simpa using hn
      have hvM : |v.x.1| ≤ M ∧ |v.y.1| ≤ M := by
        rcases hv with rfl | rfl <;> assumption
      have d1 := hf.near _ _ hp.1 hvM.1 heq
      have d2 := hf.near _ _ hvM.2 hp.2 he
      refine (hav v.exact ?_).1 ⟨?_, d2⟩
      · rcases hv with rfl | rfl
        · exact segPts_start _ _
        · exact segPts_stop _ _
      · rw [abs_sub_comm]; exact d1
    have hray : (Edge.mk p ⟨X, p.y⟩).collidesEdge e = true ↔ CrossesRay p.exact (e.exact.start, e.exact.stop) :=
      ray_rounded st hu hw hpos bp b3 b4 hX1 hX2 (by
        intro q hq hqy
        by_contra hn
        refine (hav q hq).2 ⟨not_lt.1 hn, ?_⟩
        rw [hqy]
        show |p.y.1 - p.y.1| ≤ _
        rw [sub_self, abs_zero]
        positivity) (fun h => hV' _ (.inl rfl) (by rw [h]; exact hf.refl _)) (fun h => hV' _ (.inr rfl) (by rw [h]; exact hf.refl _))
    have hS : ∀ v : Point (Rounded r), v = e.start ∨ v = e.stop → ¬ Shifted f.onExact p.exact v.exact := by
      rintro v hv ⟨h1, h2, -⟩
      rw [show f.onExact.eq v.exact.y p.exact.y = f.eq v.y p.y from Fpa.onExact_eq hf.refl _ _] at h1
      exact hV' v hv h1 h2
    have hc := (countsEdge_tolerant ht (p := p.exact) hp (xOut := X.1) (e := e.exact) he1 he2 h0 (fun q hq => (hav q hq).1)
      (show p.x.1 < X.1 by linarith [bp.2]) (show e.start.x.1 ≤ X.1 by linarith [b3.2]) (show e.stop.x.1 ≤ X.1 by linarith [b4.2])).2
      ⟨fun h => absurd h (hS _ (.inl rfl)), fun h => absurd h (hS _ (.inr rfl))⟩
    rw [Bool.eq_iff_iff, hc, ← hray]
    unfold SPoly.countsEdge
    rw [if_neg hV]

/-- where the ray ends -/
theorem ray_end (st : r.Standard u) (hu : u ≤ 1 / 256) {xn xm : Rounded r} {w : ℚ} (hw : xm.1 - xn.1 = w) (hpos : 0 < w)
    (hm : 2 * u * |xm.1| ≤ w) : xm.1 + 2 / 5 * w ≤ (xm + (xm - xn)).1 ∧ (xm + (xm - xn)).1 ≤ xm.1 + 8 / 5 * w := by
  have hu0 := st.nonneg
  have h1 := st.near (xm.1 - xn.1)
  rw [hw, abs_of_pos hpos] at h1
  have e : (xm + (xm - xn)).1 = r.rnd (xm.1 + r.rnd w) := by
    rw [← hw]; rfl
  rw [e]
  have h2 := st.near (xm.1 + r.rnd w)
  have huw : u * w ≤ 1 / 256 * w := mul_le_mul_of_nonneg_right hu hpos.le
  have h1' := abs_le.1 h1
  have h3 : |r.rnd w| ≤ 257 / 256 * w := by rw [abs_le]; constructor <;> linarith
  have h4 := abs_add_le xm.1 (r.rnd w)
  have h5 : u * |xm.1 + r.rnd w| ≤ u * (|xm.1| + 257 / 256 * w) := mul_le_mul_of_nonneg_left (by linarith) hu0
  have h2' := abs_le.1 (h2.trans h5)
  constructor <;> nlinarith

/-- Away from the outline the rounded test decides membership in the interior. -/
theorem SPoly.collidesPoint_rounded (st : r.Standard u) (hu : u ≤ 1 / 256) {f : Fpa (Rounded r)} {M ε w : ℚ} (hf : f.TolerantIn M ε)
    (h0 : 0 ≤ ε) {s : SPoly (Rounded r)} (hs : s.Boxed w) (hpos : 0 < w) (hb : Bounded s.exact M) (hM : 2 * u * M ≤ w)
    {p : Point (Rounded r)} (hp : ∀ q ∈ bdry s.exact, q ∉ around p.exact ε ∧ q ∉ around p.exact (32 * u * w)) :
    s.collidesPoint f p = true ↔ p.exact ∈ Jagua.interior s.exact := by
  classical
  have hu0 := st.nonneg
  have hbb := boundingBox_exact hs.nonempty
  rw [← hs.bbox_eq] at hbb
  have hne : s.exact ≠ [] := by unfold SPoly.exact; simp [hs.nonempty]
  have hpb : p.exact ∉ bdry s.exact := fun h => (hp _ h).1 (around_self _ h0)
  unfold SPoly.collidesPoint
  by_cases hbox : s.bbox.collidesPoint p = true
  · have hin : s.bbox.xMin.1 ≤ p.x.1 ∧ p.x.1 ≤ s.bbox.xMax.1 ∧ s.bbox.yMin.1 ≤ p.y.1 ∧ p.y.1 ≤ s.bbox.yMax.1 := by
      unfold AARect.collidesPoint at hbox
      simp only [Bool.and_eq_true, decide_eq_true_eq, val_le] at hbox
      tauto
    have hpM : |p.x.1| ≤ M ∧ |p.y.1| ≤ M := by
      have : p.exact ∈ (boundingBox s.exact).pts := by
        unfold SPoly.exact; rw [hbb]; exact hin
      have h' := hb.bbox hne this
      exact h'
    have hbv : ∀ v ∈ s.points, s.bbox.xMin.1 ≤ v.x.1 ∧ v.x.1 ≤ s.bbox.xMax.1 := by
      intro v hv
      have : v.exact ∈ (boundingBox s.exact).pts := mem_boundingBox (List.mem_map_of_mem hv)
      unfold SPoly.exact at this
      rw [hbb] at this
      exact ⟨this.1, this.2.1⟩
    have hxm : |s.bbox.xMax.1| ≤ M := by
      obtain ⟨-, -, ⟨v, hv, e⟩, -⟩ := boundingBox_attained hne
      have h' := (hb v hv).1
      have e' : (boundingBox s.exact).xMax = s.bbox.xMax.1 := by unfold SPoly.exact; rw [hbb]
      rw [e, e'] at h'
      exact h'
    obtain ⟨X1, X2⟩ := ray_end st hu hs.width hpos ((mul_le_mul_of_nonneg_left hxm (by linarith)).trans hM)
    simp only [hbox, if_true, decide_eq_true_eq]
    change (List.filter (SPoly.countsEdge f p (s.bbox.xMax + (s.bbox.xMax - s.bbox.xMin))) s.edges).length % 2 = 1 ↔ _
    generalize s.bbox.xMax + (s.bbox.xMax - s.bbox.xMin) = X at X1 X2
    have hcount : (List.filter (SPoly.countsEdge f p X) s.edges).length =
        (sides s.exact).countP (fun t => decide (SPoly.countsEdge f.onExact p.exact X.1 ⟨t.1, t.2⟩ = true)) := by
      unfold SPoly.exact
      rw [← polyEdges_sides, polyEdges_exact, List.map_map, List.countP_map, ← List.countP_eq_length_filter]
      apply List.countP_congr
      intro e he
      have hm := polyEdges_ends he
      have m1 := hb e.start.exact (List.mem_map_of_mem hm.1)
      have m2 := hb e.stop.exact (List.mem_map_of_mem hm.2)
      have c := countsEdge_rounded st hu hf h0 hpM (X := X) (e := e) m1 m2
        hs.width hpos ⟨hin.1, hin.2.1⟩ (hbv _ hm.1) (hbv _ hm.2) X1 X2 (fun q hq => hp q (by
          refine ⟨(e.exact.start, e.exact.stop), ?_, hq⟩
          unfold SPoly.exact
          rw [← polyEdges_sides, polyEdges_exact, List.map_map]
          exact List.mem_map_of_mem (f := (fun e => (e.start, e.stop)) ∘ Edge.exact) he))
      rw [c]
      simp [Function.comp_def]
    rw [hcount]
    have hout : p.exact.x < X.1 := show p.x.1 < X.1 by linarith [hin.2.1]
    have hev := (countP_parity (sides s.exact) (fun t => SPoly.countsEdge f.onExact p.exact X.1 ⟨t.1, t.2⟩ = true)
        (fun t => CrossesRay p.exact t) (fun t => Shifted f.onExact p.exact t.1) (fun t => Shifted f.onExact p.exact t.2) (by
        intro t ht
        have hm := sides_mem ht
        have b1 := (mem_boundingBox hm.1).2.1
        have b2 := (mem_boundingBox hm.2).2.1
        unfold SPoly.exact at b1 b2
        rw [hbb] at b1 b2
        exact countsEdge_tolerant (hf.onExact h0) (p := p.exact) hpM (e := ⟨t.1, t.2⟩) (hb _ hm.1) (hb _ hm.2) h0
          (fun q hq => (hp q ⟨t, ht, hq⟩).1) hout (by simp only at b1 ⊢; linarith) (by simp only at b2 ⊢; linarith))).2
      (strip_count_even s.exact (Shifted f.onExact p.exact))
    show _ ↔ (_ ∧ _)
    unfold rayCount
    rw [← Nat.odd_iff, ← Nat.not_even_iff_odd, ← Nat.not_even_iff_odd]
    rw [Nat.even_add] at hev
    simp only [hpb, not_false_eq_true, true_and]
    refine not_congr ?_
    convert hev using 2
    all_goals (congr 1; funext t; congr)
  · simp only [hbox, if_false, Bool.false_eq_true, false_iff]
    intro h
    have := interior_subset_inner h
    unfold SPoly.exact at this
    rw [hbb] at this
    apply hbox
    unfold AARect.collidesPoint
    simp only [Bool.and_eq_true, decide_eq_true_eq, val_le]
    have t1 := this.1.le
    have t2 := this.2.1.le
    have t3 := this.2.2.1.le
    have t4 := this.2.2.2.le
    simp only [Point.exact] at t1 t2 t3 t4
    tauto

end Jagua
