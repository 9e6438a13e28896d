import Verif.Lemmas.Transf

/-! # Lemmas: the centroid of a moved polygon, and transforming into a buffer -/

set_option linter.unusedSectionVars false

namespace Jagua

variable {K : Type*} [Field K] [LinearOrder K] [IsStrictOrderedRing K]

/-- First moments of a closed polygon (times six). -/
def momentX (pts : List (Point K)) : K := ((sides pts).map fun s => (s.1.x + s.2.x) * (s.1.x * s.2.y - s.2.x * s.1.y)).sum

def momentY (pts : List (Point K)) : K := ((sides pts).map fun s => (s.1.y + s.2.y) * (s.1.x * s.2.y - s.2.x * s.1.y)).sum

theorem centroid_eq (s : SPoly K) :
    s.centroid = ⟨momentX s.points / (6 * s.area), momentY s.points / (6 * s.area)⟩ := by
  unfold SPoly.centroid momentX momentY SPoly.edges
  congr 2
  · rw [fsum_eq, edges_sum s.points fun a b => (a.x + b.x) * (a.x * b.y - b.x * a.y)]
  · rw [fsum_eq, edges_sum s.points fun a b => (a.y + b.y) * (a.x * b.y - b.x * a.y)]

theorem Rigid.coords {g : Point K → Point K} {c s : K} (h : Rigid g c s) (p : Point K) :
    (g p).x = (g ⟨0, 0⟩).x + (c * p.x - s * p.y) ∧ (g p).y = (g ⟨0, 0⟩).y + (s * p.x + c * p.y) := by
  have hx := h.dx ⟨0, 0⟩ p
  have hy := h.dy ⟨0, 0⟩ p
  simp only [sub_zero] at hx hy
  exact ⟨by linarith, by linarith⟩

/-- A difference of values at the two ends sums to zero over a closed polygon. -/
theorem sides_telescope (pts : List (Point K)) (f : Point K → K) :
    ((sides pts).map fun s : Point K × Point K => f s.2 - f s.1).sum = 0 := by
  rw [sum_map_sub' (sides pts) (fun s : Point K × Point K => f s.2) (fun s => f s.1), sides_sum_swap, sub_self]

theorem Rigid.momentX {g : Point K → Point K} {c s : K} (h : Rigid g c s) (pts : List (Point K)) :
    Jagua.momentX (pts.map g) = c * Jagua.momentX pts - s * Jagua.momentY pts + 6 * (g ⟨0, 0⟩).x * Jagua.signedArea pts := by
  have ha : Jagua.signedArea pts = ((sides pts).map fun s => s.1.x * s.2.y - s.2.x * s.1.y).sum / 2 := by unfold Jagua.signedArea; ring
  rw [ha]
  unfold Jagua.momentX Jagua.momentY
  rw [sides_map, List.map_map]
  generalize hax : (g ⟨0, 0⟩).x = a
  generalize hay : (g ⟨0, 0⟩).y = b
  let X : Point K → K := fun p => c * p.x - s * p.y
  let Y : Point K → K := fun p => s * p.x + c * p.y
  let F : Point K → K := fun p => -b * X p ^ 2 + a * X p * Y p - 2 * a * b * X p + 2 * a ^ 2 * Y p
  have : (sides pts).map ((fun s : Point K × Point K => (s.1.x + s.2.x) * (s.1.x * s.2.y - s.2.x * s.1.y)) ∘ fun s => (g s.1, g s.2)) =
      (sides pts).map fun t => (c * ((t.1.x + t.2.x) * (t.1.x * t.2.y - t.2.x * t.1.y)) -
        s * ((t.1.y + t.2.y) * (t.1.x * t.2.y - t.2.x * t.1.y)) + 3 * a * (t.1.x * t.2.y - t.2.x * t.1.y)) + (F t.2 - F t.1) := by
    apply List.map_congr_left
    intro t _
    show ((g t.1).x + (g t.2).x) * ((g t.1).x * (g t.2).y - (g t.2).x * (g t.1).y) = _
    rw [(h.coords t.1).1, (h.coords t.2).1, (h.coords t.1).2, (h.coords t.2).2, hax, hay]
    simp only [F, X, Y]
    linear_combination (t.1.x * t.2.y - t.2.x * t.1.y) *
      ((c * t.1.x - s * t.1.y) + (c * t.2.x - s * t.2.y) + 3 * a) * h.unit
  rw [this, sum_map_add', sides_telescope, sum_map_add', sum_map_sub', sum_map_mul', sum_map_mul', sum_map_mul']
  ring

theorem Rigid.momentY {g : Point K → Point K} {c s : K} (h : Rigid g c s) (pts : List (Point K)) :
    Jagua.momentY (pts.map g) = s * Jagua.momentX pts + c * Jagua.momentY pts + 6 * (g ⟨0, 0⟩).y * Jagua.signedArea pts := by
  have ha : Jagua.signedArea pts = ((sides pts).map fun s => s.1.x * s.2.y - s.2.x * s.1.y).sum / 2 := by unfold Jagua.signedArea; ring
  rw [ha]
  unfold Jagua.momentX Jagua.momentY
  rw [sides_map, List.map_map]
  generalize hax : (g ⟨0, 0⟩).x = a
  generalize hay : (g ⟨0, 0⟩).y = b
  let X : Point K → K := fun p => c * p.x - s * p.y
  let Y : Point K → K := fun p => s * p.x + c * p.y
  let F : Point K → K := fun p => a * Y p ^ 2 - b * X p * Y p + 2 * a * b * Y p - 2 * b ^ 2 * X p
  have : (sides pts).map ((fun s : Point K × Point K => (s.1.y + s.2.y) * (s.1.x * s.2.y - s.2.x * s.1.y)) ∘ fun s => (g s.1, g s.2)) =
      (sides pts).map fun t => (s * ((t.1.x + t.2.x) * (t.1.x * t.2.y - t.2.x * t.1.y)) +
        c * ((t.1.y + t.2.y) * (t.1.x * t.2.y - t.2.x * t.1.y)) + 3 * b * (t.1.x * t.2.y - t.2.x * t.1.y)) + (F t.2 - F t.1) := by
    apply List.map_congr_left
    intro t _
    show ((g t.1).y + (g t.2).y) * ((g t.1).x * (g t.2).y - (g t.2).x * (g t.1).y) = _
    rw [(h.coords t.1).1, (h.coords t.2).1, (h.coords t.1).2, (h.coords t.2).2, hax, hay]
    simp only [F, X, Y]
    linear_combination (t.1.x * t.2.y - t.2.x * t.1.y) *
      ((s * t.1.x + c * t.1.y) + (s * t.2.x + c * t.2.y) + 3 * b) * h.unit
  rw [this, sum_map_add', sides_telescope, sum_map_add', sum_map_add', sum_map_mul', sum_map_mul', sum_map_mul']
  ring

/-- The centroid moves along with the polygon. -/
theorem SPoly.centroid_transform {s : SPoly K} (ha : s.area = signedArea s.points) (h0 : s.area ≠ 0) {t : Transf K}
    (ht : t.IsRigid) : (s.transform t).centroid = s.centroid.transform t := by
  rw [centroid_eq, centroid_eq]
  have e1 := ht.map.momentX s.points
  have e2 := ht.map.momentY s.points
  have e3 : (s.transform t).points = s.points.map fun p => p.transform t := rfl
  have e4 : (s.transform t).area = s.area := rfl
  rw [e3, e4, e1, e2, ← ha]
  obtain ⟨h1, h2, -⟩ := ht
  unfold Point.transform
  ext <;> simp only [h1, h2] <;> field_simp <;> ring

/-! ## Transforming into a buffer -/

theorem overwrite_map {α : Type*} (g : α → α → α) (f u : α → α) (l : List α) (h : ∀ x ∈ l, g (f x) x = u x) :
    overwrite g (l.map f) l = l.map u := by
  induction l with
  | nil => rfl
  | cons a l ih =>
    simp only [List.map_cons, overwrite]
    rw [h a (by simp), ih fun x hx => h x (by simp [hx])]

theorem Surrogate.transformFrom_eq (r : Surrogate K) (t₀ t : Transf K) :
    (r.transform t₀).transformFrom r t = r.transform t := by
  unfold Surrogate.transformFrom Surrogate.transform
  simp only
  rw [overwrite_map _ _ (fun x => x.transform t) _ fun x _ => rfl, overwrite_map _ _ (fun x => x.transform t) _ fun x _ => rfl]
  rfl

theorem SPoly.transformFrom_eq (r : SPoly K) (t₀ t : Transf K) :
    (r.transform t₀).transformFrom r t = some (r.transform t) := by
  unfold SPoly.transformFrom SPoly.transform
  cases hs : r.surrogate with
  | none =>
    simp only [Option.map_none]
    rw [overwrite_map _ _ (fun x => x.transform t) _ fun x _ => rfl]
    rfl
  | some ss =>
    simp only [Option.map_some]
    rw [overwrite_map _ _ (fun x => x.transform t) _ fun x _ => rfl]
    congr 2
    exact congrArg some (Surrogate.transformFrom_eq ss t₀ t)

/-! ## Transforming twice -/

theorem Circle.transform_transform (c : Circle K) (t u : Transf K) (ht : t.IsRigid) :
    (c.transform t).transform u = c.transform (t.transform u) := by
  unfold Circle.transform Transf.transform
  simp only [transform_dot ht]

theorem Edge.transform_transform (e : Edge K) (t u : Transf K) (ht : t.IsRigid) :
    (e.transform t).transform u = e.transform (t.transform u) := by
  unfold Edge.transform Transf.transform
  simp only [transform_dot ht]

theorem Surrogate.transform_transform (s : Surrogate K) (t u : Transf K) (ht : t.IsRigid) :
    (s.transform t).transform u = s.transform (t.transform u) := by
  unfold Surrogate.transform
  simp only [List.map_map, Circle.transform_transform _ t u ht]
  congr 2
  · funext c; exact Circle.transform_transform c t u ht
  · funext c; exact Edge.transform_transform c t u ht

theorem SPoly.transform_transform (s : SPoly K) (t u : Transf K) (ht : t.IsRigid) :
    (s.transform t).transform u = s.transform (t.transform u) := by
  have hp : (s.points.map (·.transform t)).map (·.transform u) = s.points.map (·.transform (t.transform u)) := by
    rw [List.map_map]
    apply List.map_congr_left
    intro p _
    exact (transform_dot ht p).symm
  unfold SPoly.transform
  simp only [hp, Circle.transform_transform _ t u ht, Option.map_map]
  congr 1
  cases s.surrogate with
  | none => rfl
  | some x => exact congrArg some (Surrogate.transform_transform x t u ht)

end Jagua
