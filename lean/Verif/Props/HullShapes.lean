import Verif.Model.HullShapes
import Verif.Props.Hull
import Verif.Lemmas.HPGCover
import Verif.Props.Poles

/-! # C72: convex hull of several shapes -/

set_option linter.unusedSectionVars false

namespace Jagua

variable {K : Type*} [Field K] [LinearOrder K] [IsStrictOrderedRing K]

/-- A shape that is a moved copy of one for which the hull was computed and stored in its surrogate, or
has no surrogate. The hull of the shape at the time it is computed must be right, see `C39_hull_contains_iff`. -/
inductive SPoly.HullReady : SPoly K → Prop
  | fresh {s : SPoly K} : s.surrogate = none → 2 ≤ s.points.length → EndsExtreme s.points → s.HullReady
  | stored {s : SPoly K} {sur : Surrogate K} (base : List (Point K)) (t : Transf K) : s.surrogate = some sur → 2 ≤ base.length →
      EndsExtreme base → convexHullIndices base = some sur.convexHullIndices → s.points = base.map (·.transform t) → s.HullReady

theorem InHullOf.trans {l m : List (Point K)} {p : Point K} (h : InHullOf l p) (hl : ∀ q ∈ l, InHullOf m q) : InHullOf m p :=
  fun a b c hm => h a b c fun q hq => hl q hq a b c hm

theorem InHullOf.transform {l : List (Point K)} {p : Point K} (h : InHullOf l p) (t : Transf K) :
    InHullOf (l.map (·.transform t)) (p.transform t) := by
  intro a b c hm
  have := h (a * t.m00 + b * t.m10) (a * t.m01 + b * t.m11) (c - a * t.m02 - b * t.m12) (by
    intro q hq
    have := hm _ (List.mem_map_of_mem hq)
    unfold Point.transform at this
    dsimp only at this
    linarith)
  unfold Point.transform
  dsimp only
  linarith

theorem mapM_getElem? {α : Type*} {l out : List α} {is : List ℕ} (h : is.map (fun i => l[i]?) = out.map some) :
    is.mapM (fun (i : ℕ) => l[i]?) = some out := by
  induction is generalizing out with
  | nil =>
    cases out with
    | nil => rfl
    | cons a out => simp at h
  | cons i is ih =>
    cases out with
    | nil => simp at h
    | cons a out =>
      rw [List.map_cons, List.map_cons, List.cons.injEq] at h
      rw [List.mapM_cons, h.1, ih h.2]
      rfl

theorem shapeHullPoints_spec {s : SPoly K} (h : s.HullReady) : ∃ l, shapeHullPoints s = some l ∧ (∀ p ∈ l, p ∈ s.points) ∧
    ∀ p ∈ s.points, InHullOf l p := by
  cases h with
  | fresh h1 h2 h3 =>
    obtain ⟨is, e1, e2⟩ := C39_hull_indices s.points
    refine ⟨convexHull s.points, ?_, C39_hull_points _, C39_hull_contains_partial h3 h2⟩
    unfold shapeHullPoints
    rw [h1]
    dsimp only
    rw [e1, Option.bind_some, mapM_getElem? e2]
  | stored base t h1 h2 h3 h4 h5 =>
    obtain ⟨is, e1, e2⟩ := C39_hull_indices base
    rw [h4] at e1
    obtain rfl := Option.some.inj e1
    refine ⟨(convexHull base).map (·.transform t), ?_, ?_, ?_⟩
    · unfold shapeHullPoints
      rw [h1]
      dsimp only
      refine mapM_getElem? ?_
      rw [h5]
      have := congrArg (List.map (Option.map fun p : Point K => p.transform t)) e2
      rw [List.map_map, List.map_map] at this
      rw [List.map_map]
      refine Eq.trans (List.map_congr_left fun i _ => ?_) (this.trans (List.map_congr_left fun i _ => rfl))
      exact List.getElem?_map
    · intro p hp
      obtain ⟨q, hq, rfl⟩ := List.mem_map.1 hp
      rw [h5]
      exact List.mem_map_of_mem (C39_hull_points _ _ hq)
    · intro p hp
      rw [h5] at hp
      obtain ⟨q, hq, rfl⟩ := List.mem_map.1 hp
      exact (C39_hull_contains_partial h3 h2 q hq).transform t

theorem forall₂_left_mem {α β : Type*} {R : α → β → Prop} {l : List α} {m : List β} (h : List.Forall₂ R l m) {b : β} (hb : b ∈ m) :
    ∃ a ∈ l, R a b := forall₂_right_mem (R := fun b a => R a b) h.flip hb

theorem InHullOf.singleton {p q : Point K} (h : InHullOf [q] p) : p = q := by
  have e := fun a b => h a b (a * q.x + b * q.y) (by simp)
  ext
  · linarith [e 1 0, e (-1) 0]
  · linarith [e 0 1, e 0 (-1)]

theorem InHullOf.nil {p : Point K} (h : InHullOf [] p) : False := by
  have := h 0 0 (-1) (by simp)
  linarith

theorem endsExtreme_of_unique {l : List (Point K)} (hne : l ≠ []) (h1 : ∀ p ∈ leftmost l, ∀ q ∈ leftmost l, p = q)
    (h2 : ∀ p ∈ rightmost l, ∀ q ∈ rightmost l, p = q) : EndsExtreme l := by
  have hex : ∀ f : Point K → K, ∃ p ∈ l, ∀ q ∈ l, f p ≤ f q := by
    intro f
    obtain ⟨p, hp, hm⟩ := (List.toFinset l).exists_min_image f (by simpa using hne)
    exact ⟨p, by simpa using hp, fun q hq => hm q (by simpa using hq)⟩
  constructor
  · obtain ⟨p, hp, hm⟩ := hex (·.x)
    have hpl : p ∈ leftmost l := List.mem_filter.2 ⟨hp, by simpa using hm⟩
    cases hl : leftmost l with
    | nil => rw [hl] at hpl; cases hpl
    | cons m t =>
      refine ⟨m, .inl rfl, fun q hq => ?_⟩
      rw [← hl] at hq
      rw [h1 q hq m (by rw [hl]; exact List.mem_cons_self)]
  · obtain ⟨p, hp, hm⟩ := hex (fun p => -p.x)
    have hpl : p ∈ rightmost l := List.mem_filter.2 ⟨hp, by simpa using hm⟩
    cases hl : rightmost l with
    | nil => rw [hl] at hpl; cases hpl
    | cons m t =>
      refine ⟨m, .inl rfl, fun q hq => ?_⟩
      rw [← hl] at hq
      rw [h2 q hq m (by rw [hl]; exact List.mem_cons_self)]

/-- C72, as far as it holds: the convex hull of several shapes consists of vertices of the shapes. It
contains every vertex of every shape, provided that this is so for the hulls of the single shapes as they were when their surrogates
were made (they may have been moved since), and that no two different vertices are leftmost and no two are rightmost.
(In full, without these conditions; `C72_hull_of_shapes_fails` shows that it is false.) -/
theorem C72_hull_of_shapes_partial {shapes : List (SPoly K)} (hr : ∀ s ∈ shapes, s.HullReady)
    (hd : ∀ s ∈ shapes, ∃ a ∈ s.points, ∃ b ∈ s.points, a ≠ b) :
    ∃ hull, hullFromShapes shapes = some hull ∧ (∀ p ∈ hull, ∃ s ∈ shapes, p ∈ s.points) ∧
      ((∀ s ∈ shapes, ∀ p ∈ s.points, ∀ s' ∈ shapes, ∀ p' ∈ s'.points,
          (∀ u ∈ shapes, ∀ q ∈ u.points, p.x ≤ q.x ∧ p'.x ≤ q.x) ∨ (∀ u ∈ shapes, ∀ q ∈ u.points, q.x ≤ p.x ∧ q.x ≤ p'.x) → p = p') →
        ∀ s ∈ shapes, ∀ p ∈ s.points, InHullOf hull p) := by
  obtain ⟨ls, h1, h2⟩ : ∃ ls, shapes.mapM shapeHullPoints = some ls ∧ List.Forall₂ (fun s l => (∀ p ∈ l, p ∈ s.points) ∧
      ∀ p ∈ s.points, InHullOf l p) shapes ls := by
    clear * - hr
    induction shapes with
    | nil => exact ⟨[], rfl, .nil⟩
    | cons s shapes ih =>
      obtain ⟨ls, i1, i2⟩ := ih fun u hu => hr u (List.mem_cons_of_mem _ hu)
      obtain ⟨l, j1, j2⟩ := shapeHullPoints_spec (hr s List.mem_cons_self)
      exact ⟨l :: ls, by rw [List.mapM_cons, j1, i1]; rfl, .cons j2 i2⟩
  have hsub : ∀ p ∈ ls.flatten, ∃ s ∈ shapes, p ∈ s.points := by
    intro p hp
    obtain ⟨l, hl, hp⟩ := List.mem_flatten.1 hp
    obtain ⟨s, hs, h⟩ := forall₂_left_mem h2 hl
    exact ⟨s, hs, h.1 p hp⟩
  refine ⟨convexHull ls.flatten, by unfold hullFromShapes; rw [h1]; rfl, fun p hp => hsub p (C39_hull_points _ p hp), ?_⟩
  intro huniq s hs p hp
  obtain ⟨l, hl, hc⟩ := forall₂_right_mem h2 hs
  refine (hc.2 p hp).trans fun q hq => ?_
  have hql : q ∈ ls.flatten := List.mem_flatten.2 ⟨l, hl, hq⟩
  -- extreme among the collected points is extreme among all vertices
  have hleft : ∀ m ∈ leftmost ls.flatten, ∀ u ∈ shapes, ∀ v ∈ u.points, m.x ≤ v.x := by
    intro m hm u hu v hv
    obtain ⟨k, hk, hkc⟩ := forall₂_right_mem h2 hu
    have hm := (List.mem_filter.1 hm).2
    simp only [decide_eq_true_eq] at hm
    have := hkc.2 v hv (-1) 0 (-m.x) fun w hw => by
      have := hm w (List.mem_flatten.2 ⟨k, hk, hw⟩)
      linarith
    linarith
  have hright : ∀ m ∈ rightmost ls.flatten, ∀ u ∈ shapes, ∀ v ∈ u.points, v.x ≤ m.x := by
    intro m hm u hu v hv
    obtain ⟨k, hk, hkc⟩ := forall₂_right_mem h2 hu
    have hm := (List.mem_filter.1 hm).2
    simp only [decide_eq_true_eq] at hm
    have := hkc.2 v hv 1 0 m.x fun w hw => by
      have := hm w (List.mem_flatten.2 ⟨k, hk, hw⟩)
      linarith
    linarith
  refine C39_hull_contains_partial (endsExtreme_of_unique (List.ne_nil_of_mem hql) ?_ ?_) ?_ q hql
  · intro m hm m' hm'
    obtain ⟨u, hu, hmu⟩ := hsub m (List.mem_filter.1 hm).1
    obtain ⟨u', hu', hmu'⟩ := hsub m' (List.mem_filter.1 hm').1
    exact huniq u hu m hmu u' hu' m' hmu' (.inl fun w hw v hv => ⟨hleft m hm w hw v hv, hleft m' hm' w hw v hv⟩)
  · intro m hm m' hm'
    obtain ⟨u, hu, hmu⟩ := hsub m (List.mem_filter.1 hm).1
    obtain ⟨u', hu', hmu'⟩ := hsub m' (List.mem_filter.1 hm').1
    exact huniq u hu m hmu u' hu' m' hmu' (.inr fun w hw v hv => ⟨hright m hm w hw v hv, hright m' hm' w hw v hv⟩)
  · have : 2 ≤ l.length := by
      obtain ⟨a, ha, b, hb, hab⟩ := hd s hs
      match l, hc with
      | [], hc => exact (hc.2 a ha).nil.elim
      | [c], hc => exact absurd ((hc.2 a ha).singleton.trans (hc.2 b hb).singleton.symm) hab
      | _ :: _ :: _, _ => simp
    rw [List.length_flatten]
    exact this.trans (List.single_le_sum (by simp) _ (List.mem_map_of_mem hl))

namespace Ex

/-- a triangle with a stored hull, turned by a right angle and moved -/
def hullTri : SPoly ℚ :=
  { points := ([⟨0, 0⟩, ⟨4, 1⟩, ⟨1, 1⟩, ⟨1, 3⟩] : List (Point ℚ)).map (·.transform ⟨0, -1, 10, 1, 0, 0, 0, 0, 1⟩)
    bbox := ⟨7, 0, 10, 4⟩, area := 4, poi := ⟨⟨9, 1⟩, 1 / 4⟩
    surrogate := some ⟨[0, 1, 3], [], ⟨⟨9, 1⟩, 1 / 4⟩, [], 0, 0⟩ }
/-- another one, without a surrogate -/
def hullTri' : SPoly ℚ :=
  { points := [⟨0, 0⟩, ⟨3, 1⟩, ⟨1, 5⟩], bbox := ⟨0, 0, 3, 5⟩, area := 7, poi := ⟨⟨1, 1⟩, 1 / 4⟩ }

end Ex

-- the inner corner of the first shape is left out
example : (∀ s ∈ [Ex.hullTri, Ex.hullTri'], s.HullReady) ∧ (∀ s ∈ [Ex.hullTri, Ex.hullTri'], ∃ a ∈ s.points, ∃ b ∈ s.points, a ≠ b) ∧
    hullFromShapes [Ex.hullTri, Ex.hullTri'] = some [⟨0, 0⟩, ⟨10, 0⟩, ⟨9, 4⟩, ⟨1, 5⟩] := by
  refine ⟨?_, by decide +kernel, by decide +kernel⟩
  intro s hs
  simp only [List.mem_cons, List.not_mem_nil, or_false] at hs
  rcases hs with rfl | rfl
  · exact .stored [⟨0, 0⟩, ⟨4, 1⟩, ⟨1, 1⟩, ⟨1, 3⟩] _ rfl (by decide) (endsExtreme_of_two (by simp) (by decide +kernel) (by decide +kernel))
      (by decide +kernel) rfl
  · exact .fresh rfl (by decide) (endsExtreme_of_two (by decide) (by decide +kernel) (by decide +kernel))

/-- What loading an item and placing it makes meets the condition of `C72_hull_of_shapes_partial` on single shapes. -/
theorem C72_placed_shapes_are_ready {env : HEnv K} {pi : K} {piers : SPoly K → ℕ → Option (List (Edge K))} {s : SPoly K}
    {cfg : SurrogateConfig K} {sur : Surrogate K} (h : Surrogate.new env pi piers s cfg = some sur) (hlen : 2 ≤ s.points.length)
    (he : EndsExtreme s.points) (t : Transf K) : ({ s with surrogate := some sur }.transform t).HullReady := by
  refine .stored s.points t (sur := sur.transform t) rfl hlen he ?_ rfl
  unfold Surrogate.new at h
  obtain ⟨idx, h1, h⟩ := Option.bind_eq_some_iff.1 h
  obtain ⟨_, _, h⟩ := Option.bind_eq_some_iff.1 h
  obtain ⟨_, _, h⟩ := Option.bind_eq_some_iff.1 h
  obtain ⟨_, _, h⟩ := Option.bind_eq_some_iff.1 h
  obtain ⟨_, _, h⟩ := Option.bind_eq_some_iff.1 h
  obtain ⟨_, _, rfl⟩ := Option.map_eq_some_iff.1 h
  exact h1

-- the square of side 4 with two poles, over the real numbers
example : ∃ s sur, Surrogate.new HEnv.real 3 (fun _ _ => some []) s ⟨1, 2, 2, 0⟩ = some sur ∧ 2 ≤ s.points.length ∧ EndsExtreme s.points := by
  obtain ⟨s, sur, h1, h2, h3⟩ := Ex.real_surrogate
  obtain ⟨s', hs, hp, -⟩ := SPoly.build_rect HEnv.real_sqrt rfl (by show (0 : ℝ) < 1000000; norm_num) (r := ⟨0, 0, 4, 4⟩) ⟨by norm_num, by norm_num⟩
  rw [h1] at hs
  obtain rfl := Option.some.inj hs
  refine ⟨s, sur, h2, by rw [hp]; simp [rectPoly], ?_⟩
  rw [hp]
  exact endsExtreme_of_two (by simp [rectPoly]) (by simp [leftmost, rectPoly]) (by simp [rightmost, rectPoly])

/-- C72 fails: three rectangles above one another, the lowest in the middle of the list. Each of them has a right hull, but
the hull of all leaves out the lower left corner of the lowest. -/
theorem C72_hull_of_shapes_fails : ∃ (shapes : List (SPoly ℚ)) (hull : List (Point ℚ)), (∀ s ∈ shapes, s.HullReady) ∧
    hullFromShapes shapes = some hull ∧ ∃ s ∈ shapes, ∃ p ∈ s.points, ¬ InHullOf hull p := by
  let r (y : ℚ) : SPoly ℚ := { points := [⟨0, y⟩, ⟨2, y⟩, ⟨2, y + 1⟩, ⟨0, y + 1⟩], bbox := ⟨0, y, 2, y + 1⟩, area := 2, poi := ⟨⟨1, y + 1 / 2⟩, 1 / 2⟩ }
  refine ⟨[r 1, r 0, r 2], [⟨0, 1⟩, ⟨2, 0⟩, ⟨2, 3⟩, ⟨0, 3⟩], ?_, by decide +kernel, r 0, by simp, ⟨0, 0⟩, by decide +kernel, ?_⟩
  · intro s hs
    simp only [List.mem_cons, List.not_mem_nil, or_false] at hs
    rcases hs with rfl | rfl | rfl <;>
      exact .fresh rfl (by decide) (endsExtreme_of_two (by decide) (by decide +kernel) (by decide +kernel))
  · intro h
    have := h (-1) (-2) (-2) (by decide +kernel)
    norm_num at this

end Jagua
