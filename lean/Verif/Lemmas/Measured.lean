import Verif.Lemmas.RayDir
import Verif.Lemmas.Transf
import Verif.Lemmas.SimpleStep
import Verif.Spec.Usage

/-!
# Simple polygons with their areas
-/

set_option linter.unusedSectionVars false

namespace Jagua

variable {K : Type*} [Field K] [LinearOrder K] [IsStrictOrderedRing K]

theorem Rigid.simple {g : Point K → Point K} {c s : K} (h : Rigid g c s) {pts : List (Point K)} (hs : SimplePoly pts) : SimplePoly (pts.map g) := by
  refine ⟨by rw [List.length_map]; exact hs.1, hs.2.1.map h.injective, ?_⟩
  intro a ha b hb hab w hw hw'
  rw [sides_map] at ha hb
  obtain ⟨a, ha', rfl⟩ := List.mem_map.1 ha
  obtain ⟨b, hb', rfl⟩ := List.mem_map.1 hb
  obtain ⟨w, rfl⟩ := h.surjective w
  rw [h.seg] at hw hw'
  rcases hs.2.2 a ha' b hb' (fun e => hab (by rw [e])) w hw hw' with ⟨e1, e2⟩ | ⟨e1, e2⟩
  · exact .inl ⟨by rw [e1], by rw [e2]⟩
  · exact .inr ⟨by rw [e1], by rw [e2]⟩

theorem seg_level {x0 x1 y : K} (hx : x0 ≤ x1) {w : Point K} : (w ∈ segPts ⟨x0, y⟩ ⟨x1, y⟩ → w.y = y ∧ x0 ≤ w.x ∧ w.x ≤ x1) ∧
    (w ∈ segPts ⟨x1, y⟩ ⟨x0, y⟩ → w.y = y ∧ x0 ≤ w.x ∧ w.x ≤ x1) := by
  constructor <;>
  · rintro ⟨u, u0, u1, ux, uy⟩
    simp only [sub_self, mul_zero, add_zero] at ux uy
    refine ⟨uy, ?_, ?_⟩ <;> nlinarith

theorem seg_upright {x y0 y1 : K} (hy : y0 ≤ y1) {w : Point K} : (w ∈ segPts ⟨x, y0⟩ ⟨x, y1⟩ → w.x = x ∧ y0 ≤ w.y ∧ w.y ≤ y1) ∧
    (w ∈ segPts ⟨x, y1⟩ ⟨x, y0⟩ → w.x = x ∧ y0 ≤ w.y ∧ w.y ≤ y1) := by
  constructor <;>
  · rintro ⟨u, u0, u1, ux, uy⟩
    simp only [sub_self, mul_zero, add_zero] at ux uy
    refine ⟨ux, ?_, ?_⟩ <;> nlinarith

/-- Rectangles are simple polygons. -/
theorem rect_simple {x0 y0 x1 y1 : K} (hx : x0 < x1) (hy : y0 < y1) :
    SimplePoly [(⟨x0, y0⟩ : Point K), ⟨x1, y0⟩, ⟨x1, y1⟩, ⟨x0, y1⟩] := by
  refine ⟨by simp, ?_, ?_⟩
  · simp [hx.ne, hy.ne, hx.ne']
  · have hs : sides [(⟨x0, y0⟩ : Point K), ⟨x1, y0⟩, ⟨x1, y1⟩, ⟨x0, y1⟩] =
        [(⟨x0, y0⟩, ⟨x1, y0⟩), (⟨x1, y0⟩, ⟨x1, y1⟩), (⟨x1, y1⟩, ⟨x0, y1⟩), (⟨x0, y1⟩, ⟨x0, y0⟩)] := rfl
    rw [hs]
    intro s hs t ht hst w hw hw'
    simp only [List.mem_cons, List.not_mem_nil, or_false] at hs ht
    rcases hs with rfl | rfl | rfl | rfl <;> rcases ht with rfl | rfl | rfl | rfl
    · exact absurd rfl hst
    · obtain ⟨a1, -, -⟩ := (seg_level hx.le).1 hw
      obtain ⟨b1, -, -⟩ := (seg_upright hy.le).1 hw'
      exact .inl ⟨Point.ext b1 a1, Point.ext b1 a1⟩
    · obtain ⟨a1, -, -⟩ := (seg_level hx.le).1 hw
      obtain ⟨b1, -, -⟩ := (seg_level hx.le).2 hw'
      linarith
    · obtain ⟨a1, -, -⟩ := (seg_level hx.le).1 hw
      obtain ⟨b1, -, -⟩ := (seg_upright hy.le).2 hw'
      exact .inr ⟨Point.ext b1 a1, Point.ext b1 a1⟩
    · obtain ⟨a1, -, -⟩ := (seg_upright hy.le).1 hw
      obtain ⟨b1, -, -⟩ := (seg_level hx.le).1 hw'
      exact .inr ⟨Point.ext a1 b1, Point.ext a1 b1⟩
    · exact absurd rfl hst
    · obtain ⟨a1, -, -⟩ := (seg_upright hy.le).1 hw
      obtain ⟨b1, -, -⟩ := (seg_level hx.le).2 hw'
      exact .inl ⟨Point.ext a1 b1, Point.ext a1 b1⟩
    · obtain ⟨a1, -, -⟩ := (seg_upright hy.le).1 hw
      obtain ⟨b1, -, -⟩ := (seg_upright hy.le).2 hw'
      linarith
    · obtain ⟨a1, -, -⟩ := (seg_level hx.le).2 hw
      obtain ⟨b1, -, -⟩ := (seg_level hx.le).1 hw'
      linarith
    · obtain ⟨a1, -, -⟩ := (seg_level hx.le).2 hw
      obtain ⟨b1, -, -⟩ := (seg_upright hy.le).1 hw'
      exact .inr ⟨Point.ext b1 a1, Point.ext b1 a1⟩
    · exact absurd rfl hst
    · obtain ⟨a1, -, -⟩ := (seg_level hx.le).2 hw
      obtain ⟨b1, -, -⟩ := (seg_upright hy.le).2 hw'
      exact .inl ⟨Point.ext b1 a1, Point.ext b1 a1⟩
    · obtain ⟨a1, -, -⟩ := (seg_upright hy.le).2 hw
      obtain ⟨b1, -, -⟩ := (seg_level hx.le).1 hw'
      exact .inl ⟨Point.ext a1 b1, Point.ext a1 b1⟩
    · obtain ⟨a1, -, -⟩ := (seg_upright hy.le).2 hw
      obtain ⟨b1, -, -⟩ := (seg_upright hy.le).1 hw'
      linarith
    · obtain ⟨a1, -, -⟩ := (seg_upright hy.le).2 hw
      obtain ⟨b1, -, -⟩ := (seg_level hx.le).2 hw'
      exact .inr ⟨Point.ext a1 b1, Point.ext a1 b1⟩
    · exact absurd rfl hst

theorem SPoly.new_measured {poi : List (Point K) → Circle K} {pts : List (Point K)} {s : SPoly K} (h : SimplePoly s.points) (hs : SPoly.new poi pts = some s) :
    s.Measured := by
  obtain ⟨-, -, h3, h4, -⟩ := SPoly.new_spec hs
  exact ⟨h, by rw [h4]; exact abs_pos.2 h3, (SPoly.new_region hs).2.2.1.symm⟩

theorem SPoly.Measured.transform {s : SPoly K} (h : s.Measured) {t : Transf K} (ht : t.IsRigid) : (s.transform t).Measured := by
  refine ⟨ht.map.simple h.simple, h.pos, ?_⟩
  show s.area = _
  rw [h.area]
  exact (ht.map.signedArea s.points).symm

end Jagua
