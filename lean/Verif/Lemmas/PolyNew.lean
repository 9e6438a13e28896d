import Verif.Lemmas.PolyBasic
import Mathlib.Algebra.BigOperators.Group.List.Basic
import Mathlib.Tactic.FieldSimp

/-! # Lemmas: constructing polygons -/

set_option linter.unusedSectionVars false

namespace Jagua

variable {K : Type*} [Field K] [LinearOrder K] [IsStrictOrderedRing K]

/-- Summing over start points or end points of the sides is the same. -/
theorem sides_sum_swap (pts : List (Point K)) (g : Point K → K) :
    ((sides pts).map fun s => g s.1).sum = ((sides pts).map fun s => g s.2).sum := by
  have h1 : (sides pts).map (fun s => g s.1) = pts.map g := by
    conv_rhs => rw [← sides_fst pts, List.map_map]
    rfl
  have h2 : (sides pts).map (fun s => g s.2) = (pts.rotate 1).map g := by
    rw [← sides_snd pts, List.map_map]; rfl
  rw [h1, h2]
  exact (((List.rotate_perm pts 1).map g).sum_eq).symm

theorem sum_map_sub' {α : Type*} (l : List α) (f g : α → K) :
    (l.map fun a => f a - g a).sum = (l.map f).sum - (l.map g).sum := by
  induction l with
  | nil => simp
  | cons a l ih => simp only [List.map_cons, List.sum_cons, ih]; ring

theorem sum_map_add' {α : Type*} (l : List α) (f g : α → K) :
    (l.map fun a => f a + g a).sum = (l.map f).sum + (l.map g).sum := by
  induction l with
  | nil => simp
  | cons a l ih => simp only [List.map_cons, List.sum_cons, ih]; ring

theorem sum_map_mul' {α : Type*} (l : List α) (c : K) (f : α → K) :
    (l.map fun a => c * f a).sum = c * (l.map f).sum := by
  induction l with
  | nil => simp
  | cons a l ih => simp only [List.map_cons, List.sum_cons, ih]; ring

theorem edges_sum (pts : List (Point K)) (g : Point K → Point K → K) :
    ((polyEdges pts).map fun e => g e.start e.stop).sum = ((sides pts).map fun s => g s.1 s.2).sum := by
  rw [← polyEdges_sides, List.map_map]
  rfl

/-- The area computed by the code is the shoelace formula. -/
theorem calculateArea_eq (pts : List (Point K)) : calculateArea pts = signedArea pts := by
  unfold calculateArea signedArea
  rw [fsum_eq, edges_sum pts fun a b => (a.y + b.y) * (a.x - b.x)]
  congr 1
  have : ((sides pts).map fun s => (s.1.y + s.2.y) * (s.1.x - s.2.x)).sum =
      ((sides pts).map fun s => (s.1.x * s.2.y - s.2.x * s.1.y) + (s.1.x * s.1.y - s.2.x * s.2.y)).sum := by
    congr 1
    apply List.map_congr_left
    intro s _
    ring
  rw [this, sum_map_add', sum_map_sub' (sides pts) (fun s : Point K × Point K => s.1.x * s.1.y) (fun s => s.2.x * s.2.y),
    sides_sum_swap pts fun p => p.x * p.y, sub_self, add_zero]

theorem sides_rotate (pts : List (Point K)) (n : ℕ) : sides (pts.rotate n) = (sides pts).rotate n := by
  unfold sides
  have := List.zipWith_rotate_distrib Prod.mk pts (pts.rotate 1) n (by simp)
  rw [List.zip_eq_zipWith, List.zip_eq_zipWith, this, List.rotate_rotate, List.rotate_rotate, Nat.add_comm]

theorem sides_cons (a : Point K) (l : List (Point K)) : sides (a :: l) = (a :: l).zip (l ++ [a]) := by
  unfold sides
  rw [List.rotate_cons_succ, List.rotate_zero]

/-- The sides of the reversed list are the swapped sides. -/
theorem sides_reverse (pts : List (Point K)) : (sides pts.reverse).Perm ((sides pts).map Prod.swap) := by
  cases pts with
  | nil => exact List.Perm.refl _
  | cons a l =>
    have h1 : (a :: l).reverse = (a :: l.reverse).rotate 1 := by
      rw [List.rotate_cons_succ, List.rotate_zero, List.reverse_cons]
    rw [h1, sides_rotate]
    refine (List.rotate_perm _ _).trans ?_
    rw [sides_cons, sides_cons, List.zip_swap]
    have h2 : a :: l.reverse = (l ++ [a]).reverse := by simp
    have h3 : l.reverse ++ [a] = (a :: l).reverse := by simp
    rw [h2, h3, List.zip_eq_zipWith, List.zip_eq_zipWith, ← List.reverse_zipWith (by simp)]
    exact List.reverse_perm _

theorem bdry_reverse (pts : List (Point K)) : bdry pts.reverse = bdry pts := by
  ext p
  unfold bdry
  constructor
  · rintro ⟨s, hs, hp⟩
    obtain ⟨t, ht, rfl⟩ := List.mem_map.1 ((sides_reverse pts).mem_iff.1 hs)
    exact ⟨t, ht, by rw [segPts_comm]; exact hp⟩
  · rintro ⟨s, hs, hp⟩
    exact ⟨s.swap, (sides_reverse pts).mem_iff.2 (List.mem_map_of_mem hs), by rw [segPts_comm]; exact hp⟩

theorem rayCount_reverse (pts : List (Point K)) (p : Point K) : rayCount pts.reverse p = rayCount pts p := by
  classical
  unfold rayCount
  rw [(sides_reverse pts).countP_eq, List.countP_map]
  apply List.countP_congr
  rintro ⟨a, b⟩ _
  simp only [Function.comp, decide_eq_true_eq]
  exact crossesRay_comm

/-- Reversing the orientation does not change the region. -/
theorem interior_reverse (pts : List (Point K)) : interior pts.reverse = interior pts := by
  unfold interior
  rw [bdry_reverse]
  simp only [rayCount_reverse]

theorem region_reverse (pts : List (Point K)) : region pts.reverse = region pts := by
  unfold region
  rw [bdry_reverse, interior_reverse]

theorem signedArea_reverse (pts : List (Point K)) : signedArea pts.reverse = - signedArea pts := by
  unfold signedArea
  rw [((sides_reverse pts).map _).sum_eq, List.map_map]
  have : (sides pts).map ((fun s : Point K × Point K => s.1.x * s.2.y - s.2.x * s.1.y) ∘ Prod.swap) =
      (sides pts).map fun s => (-1) * (s.1.x * s.2.y - s.2.x * s.1.y) := by
    apply List.map_congr_left
    intro s _
    simp only [Function.comp, Prod.fst_swap, Prod.snd_swap]
    ring
  rw [this, sum_map_mul']
  ring

theorem signedArea_flat_x {pts : List (Point K)} {c : K} (h : ∀ p ∈ pts, p.x = c) : signedArea pts = 0 := by
  rw [← calculateArea_eq]
  unfold calculateArea
  have : (polyEdges pts).map (fun e => (e.start.y + e.stop.y) * (e.start.x - e.stop.x)) =
      (polyEdges pts).map fun _ => 0 := by
    apply List.map_congr_left
    intro e he
    have := sides_mem (mem_polyEdges.1 he)
    rw [h _ this.1, h _ this.2]
    ring
  rw [this]
  simp

theorem signedArea_flat_y {pts : List (Point K)} {c : K} (h : ∀ p ∈ pts, p.y = c) : signedArea pts = 0 := by
  unfold signedArea
  have : (sides pts).map (fun s => s.1.x * s.2.y - s.2.x * s.1.y) =
      (sides pts).map fun s => (c * s.1.x - c * s.2.x) := by
    apply List.map_congr_left
    intro s hs
    have := sides_mem hs
    rw [h _ this.1, h _ this.2]
    ring
  rw [this, sum_map_sub' (sides pts) (fun s : Point K × Point K => c * s.1.x) (fun s => c * s.2.x),
    sides_sum_swap pts fun p => c * p.x, sub_self, mul_zero]

theorem boundingBox_valid {pts : List (Point K)} (hne : pts ≠ []) (h : signedArea pts ≠ 0) :
    (boundingBox pts).Valid := by
  obtain ⟨a, l, rfl⟩ := List.exists_cons_of_ne_nil hne
  have hb : ∀ p ∈ a :: l, p ∈ (boundingBox (a :: l)).pts := fun p hp => mem_boundingBox hp
  have ha := hb a (by simp)
  constructor
  · by_contra hx
    push Not at hx
    apply h
    apply signedArea_flat_x (c := (boundingBox (a :: l)).xMin)
    intro p hp
    exact le_antisymm ((hb p hp).2.1.trans hx) (hb p hp).1
  · by_contra hx
    push Not at hx
    apply h
    apply signedArea_flat_y (c := (boundingBox (a :: l)).yMin)
    intro p hp
    exact le_antisymm ((hb p hp).2.2.2.trans hx) (hb p hp).2.2.1

/-- What `SimplePolygon::new` produces. -/
theorem SPoly.new_spec {poi : List (Point K) → Circle K} {pts : List (Point K)} {s : SPoly K}
    (h : SPoly.new poi pts = some s) :
    3 ≤ pts.length ∧ pts.Nodup ∧ signedArea pts ≠ 0 ∧ s.area = |signedArea pts| ∧
    s.points = (if signedArea pts < 0 then pts.reverse else pts) ∧ s.bbox = boundingBox s.points ∧ s.poi = poi s.points := by
  unfold SPoly.new at h
  simp only [calculateArea_eq] at h
  split_ifs at h with h1 h2 h3
  · rename_i h4
    obtain rfl := Option.some.inj h
    refine ⟨not_lt.1 h1, h2, h3, (abs_of_neg h4).symm, ?_, rfl, rfl⟩
    rw [if_pos h4]
  · rename_i h4
    obtain rfl := Option.some.inj h
    refine ⟨not_lt.1 h1, h2, h3, (abs_of_nonneg (not_lt.1 h4)).symm, ?_, rfl, rfl⟩
    rw [if_neg h4]

theorem SPoly.new_region {poi : List (Point K) → Circle K} {pts : List (Point K)} {s : SPoly K}
    (h : SPoly.new poi pts = some s) : interior s.points = interior pts ∧ bdry s.points = bdry pts ∧
    signedArea s.points = s.area ∧ s.points.Perm pts := by
  obtain ⟨-, -, h3, h4, h5, -⟩ := SPoly.new_spec h
  rw [h5, h4]
  split
  · rename_i hn
    exact ⟨interior_reverse _, bdry_reverse _, by rw [signedArea_reverse, abs_of_neg hn], List.reverse_perm _⟩
  · rename_i hn
    exact ⟨rfl, rfl, (abs_of_nonneg (not_lt.1 hn)).symm, List.Perm.refl _⟩

theorem SPoly.new_wf {poi : List (Point K) → Circle K} {pts : List (Point K)} {s : SPoly K}
    (h : SPoly.new poi pts = some s) : s.WF := by
  obtain ⟨h1, h2, h3, h4, h5, h6, h7⟩ := SPoly.new_spec h
  obtain ⟨-, -, h8, h9⟩ := SPoly.new_region h
  have hne : s.points ≠ [] := by
    intro he
    rw [he] at h9
    have := h9.length_eq
    simp at this
    omega
  refine ⟨h6, ?_, hne⟩
  rw [h6]
  apply boundingBox_valid hne
  rw [h8, h4]
  simpa using h3

end Jagua
