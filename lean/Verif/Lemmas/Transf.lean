import Verif.Model.Transformation
import Verif.Lemmas.RayDir
import Verif.Lemmas.PolyNew
import Verif.Spec.Engine

/-! # Lemmas: matrices of rigid motions, and what they do to polygons -/

set_option linter.unusedSectionVars false

namespace Jagua

variable {K : Type*} [Field K] [LinearOrder K] [IsStrictOrderedRing K]

/-- `sin` and `cos` describe points of the unit circle. -/
def Trig.Unit (tr : Trig K) : Prop := ∀ a, tr.cos a ^ 2 + tr.sin a ^ 2 = 1

/-- `atan2` finds the angle of a point of the unit circle. -/
def Trig.Polar (tr : Trig K) : Prop :=
  ∀ c s, c ^ 2 + s ^ 2 = 1 → tr.cos (tr.atan2 s c) = c ∧ tr.sin (tr.atan2 s c) = s

theorem Trig.real_unit : Trig.real.Unit := fun a => Real.cos_sq_add_sin_sq a

theorem Trig.real_polar : Trig.real.Polar := by
  intro c s h
  have hn : ‖(⟨c, s⟩ : ℂ)‖ = 1 := by
    have : ‖(⟨c, s⟩ : ℂ)‖ ^ 2 = 1 := by rw [Complex.sq_norm, Complex.normSq_mk]; linarith
    have h0 := norm_nonneg (⟨c, s⟩ : ℂ)
    nlinarith
  have hne : (⟨c, s⟩ : ℂ) ≠ 0 := by
    intro h0; rw [h0] at hn; simp at hn
  constructor
  · show Real.cos (Complex.arg ⟨c, s⟩) = c
    rw [Complex.cos_arg hne, hn]; simp
  · show Real.sin (Complex.arg ⟨c, s⟩) = s
    rw [Complex.sin_arg, hn]; simp

/-- The matrix of a rotation followed by a translation. -/
def Transf.IsRigid (t : Transf K) : Prop :=
  t.m11 = t.m00 ∧ t.m01 = -t.m10 ∧ t.m20 = 0 ∧ t.m21 = 0 ∧ t.m22 = 1 ∧ t.m00 ^ 2 + t.m10 ^ 2 = 1

theorem Transf.IsRigid.det {t : Transf K} (h : t.IsRigid) : t.det = 1 := by
  obtain ⟨h1, h2, h3, h4, h5, h6⟩ := h
  unfold Transf.det
  rw [h1, h2, h3, h4, h5]
  linear_combination h6

theorem Transf.IsRigid.empty : (Transf.empty : Transf K).IsRigid := by
  unfold Transf.empty Transf.IsRigid
  simp

theorem Transf.IsRigid.rotTransl {tr : Trig K} (hu : tr.Unit) (a tx ty : K) : (Transf.rotTranslM tr a tx ty).IsRigid :=
  ⟨rfl, rfl, rfl, rfl, rfl, hu a⟩

theorem Transf.IsRigid.translRot {tr : Trig K} (hu : tr.Unit) (a tx ty : K) : (Transf.translRotM tr tx ty a).IsRigid :=
  ⟨rfl, rfl, rfl, rfl, rfl, hu a⟩

theorem Transf.IsRigid.rot {tr : Trig K} (hu : tr.Unit) (a : K) : (Transf.rotM tr a).IsRigid :=
  ⟨rfl, rfl, rfl, rfl, rfl, hu a⟩

theorem Transf.IsRigid.transl (tx ty : K) : (Transf.translM tx ty).IsRigid := by
  refine ⟨rfl, ?_, rfl, rfl, rfl, ?_⟩ <;> simp [Transf.translM]

theorem Transf.IsRigid.dot {l r : Transf K} (hl : l.IsRigid) (hr : r.IsRigid) : (Transf.dotProd l r).IsRigid := by
  obtain ⟨h1, h2, h3, h4, h5, h6⟩ := hl
  obtain ⟨g1, g2, g3, g4, g5, g6⟩ := hr
  unfold Transf.dotProd Transf.IsRigid
  simp only [h1, h2, h3, h4, h5, g1, g2, g3, g4, g5]
  refine ⟨by ring, by ring, by ring, by ring, by ring, ?_⟩
  linear_combination (r.m00 ^ 2 + r.m10 ^ 2) * h6 + g6

theorem Transf.IsRigid.inverse_eq {t : Transf K} (h : t.IsRigid) :
    t.inverse = ⟨t.m00, t.m10, -(t.m10 * t.m12) - t.m02 * t.m00, -t.m10, t.m00, t.m02 * t.m10 - t.m00 * t.m12, 0, 0, 1⟩ := by
  have hd := h.det
  obtain ⟨h1, h2, h3, h4, h5, h6⟩ := h
  unfold Transf.inverse
  rw [hd]
  simp only [div_one, h1, h2, h3, h4, h5]
  ext <;> simp only
  all_goals first | ring1 | linear_combination h6

theorem Transf.IsRigid.inverse {t : Transf K} (h : t.IsRigid) : t.inverse.IsRigid := by
  rw [h.inverse_eq]
  refine ⟨rfl, by simp, rfl, rfl, rfl, ?_⟩
  have := h.2.2.2.2.2
  simp only
  linear_combination this

theorem Transf.IsRigid.inverse_mul {t : Transf K} (h : t.IsRigid) : Transf.dotProd t.inverse t = Transf.empty := by
  rw [h.inverse_eq]
  obtain ⟨h1, h2, h3, h4, h5, h6⟩ := h
  unfold Transf.dotProd Transf.empty
  simp only [h1, h2, h3, h4, h5]
  ext <;> simp only
  all_goals first | ring1 | linear_combination h6

theorem Transf.IsRigid.mul_inverse {t : Transf K} (h : t.IsRigid) : Transf.dotProd t t.inverse = Transf.empty := by
  rw [h.inverse_eq]
  obtain ⟨h1, h2, h3, h4, h5, h6⟩ := h
  unfold Transf.dotProd Transf.empty
  simp only [h1, h2, h3, h4, h5]
  ext <;> simp only
  · linear_combination h6
  · ring
  · linear_combination (-t.m02) * h6
  · ring
  · linear_combination h6
  · linear_combination (-t.m12) * h6
  all_goals ring

theorem dotProd_assoc (a b c : Transf K) : Transf.dotProd (Transf.dotProd a b) c = Transf.dotProd a (Transf.dotProd b c) := by
  unfold Transf.dotProd
  ext <;> simp only <;> ring

theorem dotProd_empty (a : Transf K) : Transf.dotProd a Transf.empty = a := by
  unfold Transf.dotProd Transf.empty
  ext <;> simp

theorem empty_dotProd (a : Transf K) : Transf.dotProd Transf.empty a = a := by
  unfold Transf.dotProd Transf.empty
  ext <;> simp

theorem transform_dot {l r : Transf K} (hr : r.IsRigid) (p : Point K) :
    p.transform (Transf.dotProd l r) = (p.transform r).transform l := by
  obtain ⟨g1, g2, g3, g4, g5, g6⟩ := hr
  unfold Point.transform Transf.dotProd
  ext <;> simp only [g3, g4, g5] <;> ring

theorem transform_empty (p : Point K) : p.transform Transf.empty = p := by
  unfold Point.transform Transf.empty
  ext <;> simp

theorem Transf.IsRigid.decompose {tr : Trig K} (hp : tr.Polar) {t : Transf K} (h : t.IsRigid) :
    Transf.fromDt tr (t.decompose tr) = t := by
  obtain ⟨h1, h2, h3, h4, h5, h6⟩ := h
  obtain ⟨hc, hs⟩ := hp t.m00 t.m10 h6
  unfold Transf.fromDt Transf.decompose Transf.rotTranslM
  simp only [hc, hs]
  ext <;> simp only [h1, h2, h3, h4, h5]

theorem Transf.IsRigid.map {t : Transf K} (h : t.IsRigid) : Rigid (fun p => p.transform t) t.m00 t.m10 := by
  obtain ⟨h1, h2, h3, h4, h5, h6⟩ := h
  refine ⟨h6, ?_, ?_⟩ <;> intro p q <;> simp only [Point.transform, h1, h2] <;> ring

/-! ## Polygons -/

theorem Rigid.noSpike {g : Point K → Point K} {c s : K} (h : Rigid g c s) {pts : List (Point K)} (hn : NoSpike pts) :
    NoSpike (pts.map g) := by
  intro a ha b hb hab hpar
  rw [sides_map] at ha hb
  obtain ⟨a, ha', rfl⟩ := List.mem_map.1 ha
  obtain ⟨b, hb', rfl⟩ := List.mem_map.1 hb
  simp only at hab hpar ⊢
  have e := hn a ha' b hb' (h.injective hab)
  rw [h.dx, h.dx, h.dy, h.dy] at hpar ⊢
  have hp := e (by linear_combination hpar - ((a.2.x - a.1.x) * (b.2.y - b.1.y) - (a.2.y - a.1.y) * (b.2.x - b.1.x)) * h.unit)
  have : (c * (a.2.x - a.1.x) - s * (a.2.y - a.1.y)) * (c * (b.2.x - b.1.x) - s * (b.2.y - b.1.y)) +
      (s * (a.2.x - a.1.x) + c * (a.2.y - a.1.y)) * (s * (b.2.x - b.1.x) + c * (b.2.y - b.1.y)) =
      (a.2.x - a.1.x) * (b.2.x - b.1.x) + (a.2.y - a.1.y) * (b.2.y - b.1.y) := by
    linear_combination ((a.2.x - a.1.x) * (b.2.x - b.1.x) + (a.2.y - a.1.y) * (b.2.y - b.1.y)) * h.unit
  rw [this]
  exact hp

/-- The signed area of a moved polygon is the same. -/
theorem Rigid.signedArea {g : Point K → Point K} {c s : K} (h : Rigid g c s) (pts : List (Point K)) :
    signedArea (pts.map g) = signedArea pts := by
  unfold Jagua.signedArea
  rw [sides_map, List.map_map]
  congr 1
  let o : Point K := ⟨0, 0⟩
  have hx : ∀ p, (g p).x = (g o).x + (c * p.x - s * p.y) := fun p => by have := h.dx o p; simp only [o, sub_zero] at this; linarith
  have hy : ∀ p, (g p).y = (g o).y + (s * p.x + c * p.y) := fun p => by have := h.dy o p; simp only [o, sub_zero] at this; linarith
  have : (sides pts).map ((fun s : Point K × Point K => s.1.x * s.2.y - s.2.x * s.1.y) ∘ fun s => (g s.1, g s.2)) =
      (sides pts).map fun t => (t.1.x * t.2.y - t.2.x * t.1.y) +
        (((g o).x * (s * t.2.x + c * t.2.y) - (g o).y * (c * t.2.x - s * t.2.y)) -
         ((g o).x * (s * t.1.x + c * t.1.y) - (g o).y * (c * t.1.x - s * t.1.y))) := by
    apply List.map_congr_left
    intro t _
    show (g t.1).x * (g t.2).y - (g t.2).x * (g t.1).y = _
    rw [hx t.1, hx t.2, hy t.1, hy t.2]
    linear_combination (t.1.x * t.2.y - t.2.x * t.1.y) * h.unit
  rw [this, sum_map_add', sum_map_sub' (sides pts)
    (fun t : Point K × Point K => (g o).x * (s * t.2.x + c * t.2.y) - (g o).y * (c * t.2.x - s * t.2.y))
    (fun t => (g o).x * (s * t.1.x + c * t.1.y) - (g o).y * (c * t.1.x - s * t.1.y)),
    ← sides_sum_swap pts (fun p => (g o).x * (s * p.x + c * p.y) - (g o).y * (c * p.x - s * p.y)), sub_self, add_zero]

theorem SPoly.transform_wf {s : SPoly K} (hs : s.WF) (ha : Jagua.signedArea s.points ≠ 0) {t : Transf K} (ht : t.IsRigid) :
    (s.transform t).WF := by
  have hne : (s.transform t).points ≠ [] := by
    unfold SPoly.transform
    simpa using hs.nonempty
  refine ⟨rfl, ?_, hne⟩
  apply boundingBox_valid hne
  show Jagua.signedArea (s.points.map fun p => p.transform t) ≠ 0
  rwa [ht.map.signedArea]

theorem SPoly.transform_proper {s : SPoly K} (hs : s.Proper) (ha : Jagua.signedArea s.points ≠ 0) {t : Transf K}
    (ht : t.IsRigid) : (s.transform t).Proper :=
  ⟨s.transform_wf hs.wf ha ht, ht.map.noSpike hs.noSpike, ht.map.interior.2 hs.poi⟩

end Jagua
