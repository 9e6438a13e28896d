import Verif.Lemmas.Hull
import Verif.Lemmas.PolyNew

/-!
# Properties of the convex hull

C39: the hull of a list of points consists of points of the list, and contains all of them.
-/

set_option linter.unusedSectionVars false

namespace Jagua

variable {K : Type*} [Field K] [LinearOrder K] [IsStrictOrderedRing K]

/-! ## Hull points -/

/-- C39: the hull consists of input points. -/
theorem C39_hull_points (pts : List (Point K)) : ∀ p ∈ convexHull pts, p ∈ pts := fun _ hp => convexHull_subset hp

example : convexHull ([⟨0, 0⟩, ⟨2, 0⟩, ⟨1, 1⟩, ⟨2, 2⟩, ⟨0, 2⟩] : List (Point ℚ)) = [⟨0, 0⟩, ⟨2, 0⟩, ⟨2, 2⟩, ⟨0, 2⟩] := by decide +kernel

/-- C39: the lookup of the hull points in the list of points never fails, and gives for each hull
point the place of that point. -/
theorem C39_hull_indices (pts : List (Point K)) : ∃ is, convexHullIndices pts = some is ∧
    is.map (fun i => pts[i]?) = (convexHull pts).map some := by
  unfold convexHullIndices
  have key : ∀ l : List (Point K), (∀ p ∈ l, p ∈ pts) → ∃ is, l.mapM (fun (p : Point K) => pts.findIdx? fun x => x = p) = some is ∧
      is.map (fun i => pts[i]?) = l.map some := by
    intro l hl
    induction l with
    | nil => exact ⟨[], rfl, rfl⟩
    | cons a l ih =>
      obtain ⟨is, h1, h2⟩ := ih fun p hp => hl p (List.mem_cons_of_mem _ hp)
      have ha := hl a List.mem_cons_self
      cases hf : pts.findIdx? (fun x => x = a) with
      | none =>
        rw [List.findIdx?_eq_none_iff] at hf
        have := hf a ha
        simp at this
      | some i =>
        refine ⟨i :: is, by simp [List.mapM_cons, hf, h1], ?_⟩
        rw [List.map_cons, List.map_cons, h2]
        congr 1
        obtain ⟨hi, hp, _⟩ := List.findIdx?_eq_some_iff_getElem.1 hf
        rw [List.getElem?_eq_getElem hi]
        simpa using hp
  exact key _ fun p hp => convexHull_subset hp

example : convexHullIndices ([⟨0, 0⟩, ⟨2, 0⟩, ⟨1, 1⟩, ⟨2, 2⟩, ⟨0, 2⟩] : List (Point ℚ)) = some [0, 1, 3, 4] := by decide +kernel

/-! ## All points in the hull -/

/-- C39: all input points are in the convex hull of the hull points: every half plane
that includes the hull points includes all points.

Missing: lists in which the lowest of the leftmost points, or the highest of the rightmost, is neither the first
nor the last of them in the list; `C39_hull_contains_iff` shows that the claim is false for all of these. Lists with one
point, for which the hull is empty: `C39_single_point`. -/
theorem C39_hull_contains_partial {pts : List (Point K)} (ht : EndsExtreme pts) (hlen : 2 ≤ pts.length) :
    ∀ p ∈ pts, InHullOf (convexHull pts) p := fun _ hp _ _ _ h => convexHull_contains ht hlen hp h

/-- C39: the exact condition under which the hull contains all points. -/
theorem C39_hull_contains_iff {pts : List (Point K)} (hlen : 2 ≤ pts.length) :
    (∀ p ∈ pts, InHullOf (convexHull pts) p) ↔ EndsExtreme pts := convexHull_contains_iff hlen

/-- C39: in particular the hull contains all points when no three of them are leftmost and no three are
rightmost. -/
theorem C39_hull_contains_two {pts : List (Point K)} (hlen : 2 ≤ pts.length) (h1 : (leftmost pts).length ≤ 2) (h2 : (rightmost pts).length ≤ 2) :
    ∀ p ∈ pts, InHullOf (convexHull pts) p :=
  C39_hull_contains_partial (endsExtreme_of_two (by rintro rfl; simp at hlen) h1 h2) hlen

/-- C39: under the same condition the hull is a convex polygon, listed anticlockwise: all points lie on or to the left of the line
through each of its sides. -/
theorem C39_hull_convex_partial {pts : List (Point K)} (ht : EndsExtreme pts) (hlen : 2 ≤ pts.length) :
    ∀ s ∈ sides (convexHull pts), ∀ p ∈ pts, 0 ≤ leftOf s.1 s.2 p := fun s hs _ hp => convexHull_sides ht hlen hp s hs

/-- Points with equal x-coordinates in several orders, a repeated point and points on the line between others. -/
def Ex.hullPts : List (Point ℚ) := [⟨2, 0⟩, ⟨0, 0⟩, ⟨1, 3⟩, ⟨1, 1⟩, ⟨2, 1⟩, ⟨0, 1⟩, ⟨2, 2⟩, ⟨0, 2⟩, ⟨1, 3⟩]

theorem Ex.hullPts_ends : EndsExtreme Ex.hullPts :=
  ⟨⟨⟨0, 0⟩, .inl (by decide +kernel), by decide +kernel⟩, ⟨⟨2, 2⟩, .inr (by decide +kernel), by decide +kernel⟩⟩

example : 2 ≤ Ex.hullPts.length ∧ convexHull Ex.hullPts = [⟨0, 0⟩, ⟨2, 0⟩, ⟨2, 2⟩, ⟨1, 3⟩, ⟨0, 2⟩] := by decide +kernel

example : InHullOf (convexHull Ex.hullPts) ⟨1, 1⟩ :=
  C39_hull_contains_partial Ex.hullPts_ends (by decide +kernel) _ (by decide +kernel)

example : ∀ p ∈ Ex.hullPts, InHullOf (convexHull Ex.hullPts) p := (C39_hull_contains_iff (by decide +kernel)).2 Ex.hullPts_ends

example : 0 ≤ leftOf (⟨2, 2⟩ : Point ℚ) ⟨1, 3⟩ ⟨1, 1⟩ :=
  C39_hull_convex_partial Ex.hullPts_ends (by decide +kernel) (⟨2, 2⟩, ⟨1, 3⟩) (by decide +kernel) _ (by decide +kernel)

/-- A square listed clockwise. -/
example : ∀ p ∈ ([⟨0, 2⟩, ⟨2, 2⟩, ⟨2, 0⟩, ⟨0, 0⟩] : List (Point ℚ)), InHullOf (convexHull [⟨0, 2⟩, ⟨2, 2⟩, ⟨2, 0⟩, ⟨0, 0⟩]) p :=
  C39_hull_contains_two (by decide +kernel) (by decide +kernel) (by decide +kernel)

/-- C39 fails for some polygons: for the corners of this triangle with one extra corner on its left side, the
hull leaves out the corner (0, 0), and the point is not in the convex hull of what is left. The
list is accepted as a polygon. -/
theorem C39_hull_can_miss_points : ∃ pts : List (Point ℚ), SPoly.new (fun _ => ⟨⟨0, 0⟩, 0⟩) pts ≠ none ∧
    ∃ p ∈ pts, ¬ InHullOf (convexHull pts) p := by
  refine ⟨[⟨0, 1/2⟩, ⟨0, 0⟩, ⟨1, 9/10⟩, ⟨0, 1⟩], by decide +kernel, ⟨0, 0⟩, by decide +kernel, fun h => ?_⟩
  have := h 0 (-1) (-1/2) (by decide +kernel)
  norm_num at this

/-- C39: the hull of a single point is empty. -/
theorem C39_single_point (p : Point K) : convexHull [p] = [] := rfl

/-! ## Diameter -/

theorem List.foldl_max_spec {α : Type*} [LinearOrder α] (l : List α) (d : α) :
    (∀ x ∈ d :: l, x ≤ l.foldl max d) ∧ l.foldl max d ∈ d :: l := by
  induction l generalizing d with
  | nil => simp
  | cons a l ih =>
    obtain ⟨h1, h2⟩ := ih (max d a)
    rw [List.foldl_cons]
    constructor
    · intro x hx
      have h3 := h1 (max d a) List.mem_cons_self
      rcases List.mem_cons.1 hx with rfl | hx
      · exact le_trans (le_max_left _ _) h3
      · rcases List.mem_cons.1 hx with rfl | hx
        · exact le_trans (le_max_right _ _) h3
        · exact h1 x (List.mem_cons_of_mem _ hx)
    · rcases List.mem_cons.1 h2 with h | h
      · rcases max_choice d a with e | e
        · rw [h, e]; simp
        · rw [h, e]; simp
      · exact List.mem_cons_of_mem _ (List.mem_cons_of_mem _ h)

/-- The distances of pairs, an earlier point first. -/
theorem pair_dists {l : List (Point K)} {d : K} : d ∈ (l.tails.flatMap fun (l : List (Point K)) => match l with
    | [] => []
    | p :: ps => ps.map p.sqDistance) → ∃ p ∈ l, ∃ q ∈ l, d = sqDist p q := by
  induction l with
  | nil => simp
  | cons a l ih =>
    rw [List.tails_cons, List.flatMap_cons, List.mem_append]
    rintro (h | h)
    · obtain ⟨q, hq, rfl⟩ := List.mem_map.1 h
      exact ⟨a, List.mem_cons_self, q, List.mem_cons_of_mem _ hq, by unfold Point.sqDistance sqDist; ring⟩
    · obtain ⟨p, hp, q, hq, e⟩ := ih h
      exact ⟨p, List.mem_cons_of_mem _ hp, q, List.mem_cons_of_mem _ hq, e⟩

theorem mem_pair_dists {l : List (Point K)} {p q : Point K} (hp : p ∈ l) (hq : q ∈ l) (hne : p ≠ q) :
    sqDist p q ∈ (l.tails.flatMap fun (l : List (Point K)) => match l with
    | [] => []
    | p :: ps => ps.map p.sqDistance) := by
  induction l with
  | nil => simp at hp
  | cons a l ih =>
    rw [List.tails_cons, List.flatMap_cons, List.mem_append]
    rcases List.mem_cons.1 hp with rfl | hp
    · rcases List.mem_cons.1 hq with rfl | hq
      · exact absurd rfl hne
      · exact Or.inl (List.mem_map.2 ⟨q, hq, by unfold Point.sqDistance sqDist; ring⟩)
    · rcases List.mem_cons.1 hq with rfl | hq
      · exact Or.inl (List.mem_map.2 ⟨p, (List.mem_cons.1 ‹p ∈ q :: l›).resolve_left hne, by unfold Point.sqDistance sqDist; ring⟩)
      · exact Or.inr (ih hp hq)

/-- C39: the diameter is attained by two of the points. -/
theorem C39_diameter_attained {pts : List (Point K)} {d : K} (h : sqDiameter pts = some d) :
    ∃ p ∈ pts, ∃ q ∈ pts, d = sqDist p q := by
  unfold sqDiameter at h
  dsimp only at h
  split at h
  · exact absurd h (by simp)
  · rename_i x xs he
    have h' : xs.foldl max x = d := by simpa using h
    have := (List.foldl_max_spec xs x).2
    rw [h', ← he] at this
    obtain ⟨p, hp, q, hq, e⟩ := pair_dists this
    exact ⟨p, convexHull_subset hp, q, convexHull_subset hq, e⟩

/-- C39: and no two points are further apart than the diameter; two different points are enough for it to
exist.

Missing: as for `C39_hull_contains_partial`; see `C39_diameter_can_be_too_small`. -/
theorem C39_diameter_partial {pts : List (Point K)} (ht : EndsExtreme pts) {p' q' : Point K} (hp' : p' ∈ pts) (hq' : q' ∈ pts) (hne : p' ≠ q') :
    ∃ d, sqDiameter pts = some d ∧ ∀ p ∈ pts, ∀ q ∈ pts, sqDist p q ≤ d := by
  have hlen : 2 ≤ pts.length := by
    match pts, hp', hq' with
    | [], hp, _ => simp at hp
    | [a], hp, hq =>
      simp only [List.mem_singleton] at hp hq
      exact absurd (hp.trans hq.symm) hne
    | _ :: _ :: _, _, _ => simp
  -- the farthest hull points
  have hull2 : ∀ p ∈ pts, ∀ q ∈ pts, p ≠ q → ∃ u ∈ convexHull pts, ∃ v ∈ convexHull pts, u ≠ v ∧ sqDist p q ≤ sqDist u v := by
    intro p hp q hq hne
    obtain ⟨u, hu, hu'⟩ : ∃ u ∈ convexHull pts, (p.x - q.x) * p.x + (p.y - q.y) * p.y ≤ (p.x - q.x) * u.x + (p.y - q.y) * u.y := by
      by_contra hcon
      push Not at hcon
      cases hh : convexHull pts with
      | nil =>
        have := convexHull_contains ht hlen hp (a := 0) (b := 0) (c := -1) (by simp [hh])
        linarith
      | cons a l =>
        -- the maximum over the hull
        have hm := List.foldl_max_spec (l.map fun u => (p.x - q.x) * u.x + (p.y - q.y) * u.y) ((p.x - q.x) * a.x + (p.y - q.y) * a.y)
        have h1 := convexHull_contains ht hlen hp (a := p.x - q.x) (b := p.y - q.y) (c := _) (by
          intro u hu
          rw [hh] at hu
          exact hm.1 _ (List.mem_map_of_mem (f := fun u : Point K => (p.x - q.x) * u.x + (p.y - q.y) * u.y) hu))
        have h2 := hm.2
        rw [← List.map_cons (f := fun u : Point K => (p.x - q.x) * u.x + (p.y - q.y) * u.y), List.mem_map] at h2
        obtain ⟨u, hu, he⟩ := h2
        have h3 := hcon u (by rw [hh]; exact hu)
        rw [← he] at h1
        linarith
    obtain ⟨v, hv, hv'⟩ : ∃ v ∈ convexHull pts, (p.x - q.x) * v.x + (p.y - q.y) * v.y ≤ (p.x - q.x) * q.x + (p.y - q.y) * q.y := by
      by_contra hcon
      push Not at hcon
      cases hh : convexHull pts with
      | nil => rw [hh] at hu; simp at hu
      | cons a l =>
        have hm := List.foldl_max_spec (l.map fun u => (q.x - p.x) * u.x + (q.y - p.y) * u.y) ((q.x - p.x) * a.x + (q.y - p.y) * a.y)
        have h1 := convexHull_contains ht hlen hq (a := q.x - p.x) (b := q.y - p.y) (c := _) (by
          intro u hu
          rw [hh] at hu
          exact hm.1 _ (List.mem_map_of_mem (f := fun u : Point K => (q.x - p.x) * u.x + (q.y - p.y) * u.y) hu))
        have h2 := hm.2
        rw [← List.map_cons (f := fun u : Point K => (q.x - p.x) * u.x + (q.y - p.y) * u.y), List.mem_map] at h2
        obtain ⟨u, hu, he⟩ := h2
        have h3 := hcon u (by rw [hh]; exact hu)
        rw [← he] at h1
        nlinarith
    have hpos : 0 < sqDist p q := by
      unfold sqDist
      rcases lt_or_eq_of_le (add_nonneg (sq_nonneg (p.x - q.x)) (sq_nonneg (p.y - q.y))) with h | h
      · exact h
      · exfalso
        apply hne
        have h1 : p.x - q.x = 0 := by nlinarith [sq_nonneg (p.x - q.x), sq_nonneg (p.y - q.y)]
        have h2 : p.y - q.y = 0 := by nlinarith [sq_nonneg (p.x - q.x), sq_nonneg (p.y - q.y)]
        cases p; cases q
        simp only [Point.mk.injEq]
        exact ⟨sub_eq_zero.1 h1, sub_eq_zero.1 h2⟩
    -- the difference has a large component
    have hkey : sqDist p q ≤ (p.x - q.x) * (u.x - v.x) + (p.y - q.y) * (u.y - v.y) := by
      unfold sqDist
      nlinarith
    have hle : sqDist p q ≤ sqDist u v := by
      unfold sqDist at hkey hpos ⊢
      nlinarith [sq_nonneg ((p.x - q.x) - (u.x - v.x)), sq_nonneg ((p.y - q.y) - (u.y - v.y))]
    refine ⟨u, hu, v, hv, ?_, hle⟩
    rintro rfl
    unfold sqDist at hkey hpos
    nlinarith
  obtain ⟨u, hu, v, hv, huv, -⟩ := hull2 p' hp' q' hq' hne
  have hmem := mem_pair_dists hu hv huv
  unfold sqDiameter
  dsimp only
  split
  · rename_i he
    have h0 := Eq.mp (congrArg (sqDist u v ∈ ·) he) hmem
    simp at h0
  · rename_i x xs he
    refine ⟨_, rfl, fun p hp q hq => ?_⟩
    by_cases hpq : p = q
    · have h1 := (List.foldl_max_spec xs x).1 _ (Eq.mp (congrArg (sqDist u v ∈ ·) he) hmem)
      have h0 : sqDist p q = 0 := by rw [hpq]; unfold sqDist; ring
      rw [h0]
      refine le_trans ?_ h1
      unfold sqDist
      positivity
    · obtain ⟨u, hu, v, hv, huv, hle⟩ := hull2 p hp q hq hpq
      exact le_trans hle ((List.foldl_max_spec xs x).1 _ (Eq.mp (congrArg (sqDist u v ∈ ·) he) (mem_pair_dists hu hv huv)))

example : sqDiameter Ex.hullPts = some 10 := by decide +kernel

example : ∀ p ∈ Ex.hullPts, ∀ q ∈ Ex.hullPts, sqDist p q ≤ 10 := by
  obtain ⟨d, hd, h⟩ := C39_diameter_partial (p' := ⟨0, 0⟩) (q' := ⟨2, 2⟩) Ex.hullPts_ends (by decide +kernel) (by decide +kernel) (by decide +kernel)
  have : sqDiameter Ex.hullPts = some 10 := by decide +kernel
  rw [this] at hd
  obtain rfl : (10 : ℚ) = d := by simpa using hd
  exact h

/-- C39: for the polygon with the missed corner the diameter is too small. -/
theorem C39_diameter_can_be_too_small : ∃ pts : List (Point ℚ), SPoly.new (fun _ => ⟨⟨0, 0⟩, 0⟩) pts ≠ none ∧
    ∃ d, sqDiameter pts = some d ∧ ∃ p ∈ pts, ∃ q ∈ pts, d < sqDist p q :=
  ⟨[⟨0, 1/2⟩, ⟨0, 0⟩, ⟨1, 9/10⟩, ⟨0, 1⟩], by decide +kernel, 29/25, by decide +kernel, ⟨0, 0⟩, by decide +kernel, ⟨1, 9/10⟩, by decide +kernel, by
    unfold sqDist; norm_num⟩

end Jagua
