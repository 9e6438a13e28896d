import Verif.Lemmas.Simplify
import Verif.Lemmas.PolyNew

/-!
# Properties of polygon simplification

C40: the simplified polygon is larger (smaller) than the original, within the tolerance.
-/

set_option linter.unusedSectionVars false

namespace Jagua

variable {K : Type*} [Field K] [LinearOrder K] [IsStrictOrderedRing K]

/-- What holds for the points from which the simplified shape is made. -/
theorem simplifyShape_spec {poi poi' : List (Point K) → Circle K} {mode : SimplMode} {tol : K} {pts : List (Point K)} {s t : SPoly K}
    (hs : SPoly.new poi pts = some s) (htol : 0 ≤ tol) (h : simplifyShape poi' mode tol s = some t) :
    ∃ out, SPoly.new poi' out = some t ∧ Relation.ReflTransGen SimplMove s.points out ∧ 3 ≤ out.length ∧ out.length ≤ s.points.length ∧
      mode.grows s.area (signedArea out) ∧ |signedArea out - s.area| ≤ tol * s.area ∧ 0 < s.area := by
  unfold simplifyShape at h
  obtain ⟨out, h1, h2⟩ := Option.bind_eq_some_iff.1 h
  obtain ⟨n1, n2, n3, n4, -⟩ := SPoly.new_spec hs
  obtain ⟨-, -, r3, r4⟩ := SPoly.new_region hs
  have hpos : 0 < s.area := by rw [n4]; exact abs_pos.2 n3
  have hdev : |calculateArea s.points - s.area| / s.area ≤ tol := by
    rw [calculateArea_eq, r3, sub_self, abs_zero, zero_div]
    exact htol
  obtain ⟨l1, l2, l3, l4, l5⟩ := simplifyLoop_spec h1 (by rw [r4.length_eq]; exact n1) hdev
  rw [calculateArea_eq, div_le_iff₀ hpos] at l5
  rw [r3] at l4
  exact ⟨out, h2, l1, l2, l3, l4, l5, hpos⟩

/-! ## Direction -/

/-- C40: simplification for inflation never decreases the area. -/
theorem C40_inflate {poi poi' : List (Point K) → Circle K} {tol : K} {pts : List (Point K)} {s t : SPoly K}
    (hs : SPoly.new poi pts = some s) (htol : 0 ≤ tol) (h : simplifyShape poi' .inflate tol s = some t) : s.area ≤ t.area := by
  obtain ⟨out, h1, -, -, -, h2, h3, h4⟩ := simplifyShape_spec hs htol h
  obtain ⟨-, -, -, h5, -⟩ := SPoly.new_spec h1
  rw [h5]
  exact le_trans (α := K) h2 (le_abs_self _)

/-- C40: simplification for deflation never increases the area. The tolerance is the largest allowed
relative change; for values above one it has no effect on simple polygons. -/
theorem C40_deflate {poi poi' : List (Point K) → Circle K} {tol : K} {pts : List (Point K)} {s t : SPoly K}
    (hs : SPoly.new poi pts = some s) (htol : 0 ≤ tol) (htol' : tol ≤ 2) (h : simplifyShape poi' .deflate tol s = some t) : t.area ≤ s.area := by
  obtain ⟨out, h1, -, -, -, h2, h3, h4⟩ := simplifyShape_spec hs htol h
  obtain ⟨-, -, -, h5, -⟩ := SPoly.new_spec h1
  rw [h5]
  have h2' : signedArea out ≤ s.area := h2
  rw [abs_le]
  refine ⟨?_, h2'⟩
  have := (abs_le.1 h3).1
  have : tol * s.area ≤ 2 * s.area := mul_le_mul_of_nonneg_right htol' (le_of_lt h4)
  linarith

/-! ## Tolerance -/

/-- C40: the relative change of the area stays within the tolerance. -/
theorem C40_tolerance {poi poi' : List (Point K) → Circle K} {mode : SimplMode} {tol : K} {pts : List (Point K)} {s t : SPoly K}
    (hs : SPoly.new poi pts = some s) (htol : 0 ≤ tol) (h : simplifyShape poi' mode tol s = some t) : |t.area - s.area| ≤ tol * s.area := by
  obtain ⟨out, h1, -, -, -, h2, h3, h4⟩ := simplifyShape_spec hs htol h
  obtain ⟨-, -, -, h5, -⟩ := SPoly.new_spec h1
  rw [h5]
  refine le_trans ?_ h3
  have := abs_abs_sub_abs_le (signedArea out) s.area
  rwa [abs_of_pos h4] at this

/-! ## Vertices -/

/-- C40: at least three vertices remain, no vertex is added, and no two vertices are equal. -/
theorem C40_vertices {poi poi' : List (Point K) → Circle K} {mode : SimplMode} {tol : K} {pts : List (Point K)} {s t : SPoly K}
    (hs : SPoly.new poi pts = some s) (htol : 0 ≤ tol) (h : simplifyShape poi' mode tol s = some t) :
    3 ≤ t.points.length ∧ t.points.length ≤ s.points.length ∧ t.points.Nodup := by
  obtain ⟨out, h1, -, h2, h3, -, -, -⟩ := simplifyShape_spec hs htol h
  obtain ⟨-, n2, -⟩ := SPoly.new_spec h1
  obtain ⟨-, -, -, h4⟩ := SPoly.new_region h1
  rw [h4.length_eq]
  exact ⟨h2, h3, h4.nodup_iff.2 n2⟩

/-- C40: the vertices of the result come from those of the original by dropping vertices, and by replacing
two neighbours with the point where the edges before and after them meet when extended; for tolerances below one
they keep their order. -/
theorem C40_moves {poi poi' : List (Point K) → Circle K} {mode : SimplMode} {tol : K} {pts : List (Point K)} {s t : SPoly K}
    (hs : SPoly.new poi pts = some s) (htol : 0 ≤ tol) (htol' : tol < 1) (h : simplifyShape poi' mode tol s = some t) :
    Relation.ReflTransGen SimplMove s.points t.points := by
  obtain ⟨out, h1, h2, -, -, -, h3, h4⟩ := simplifyShape_spec hs htol h
  obtain ⟨-, -, -, -, h5, -⟩ := SPoly.new_spec h1
  rw [h5, if_neg]
  · exact h2
  · have := (abs_le.1 h3).1
    have : tol * s.area < 1 * s.area := mul_lt_mul_of_pos_right htol' h4
    linarith

/-! ## Choice of the steps -/

/-- C40: of all changes that are possible, the one that changes the area least is made. -/
theorem C40_least_change {mode : SimplMode} {pts new : List (Point K)} {c : SimplCand} (hn : 4 ≤ pts.length)
    (hc : bestCandidate mode pts = some (some c)) (he : executeCand pts c = some new) {cands : List SimplCand} (hcs : simplCandidates mode pts = some cands)
    {c' : SimplCand} (hc' : c' ∈ cands) (hv : candValid pts c' = some true) {new' : List (Point K)} (he' : executeCand pts c' = some new') :
    |signedArea new - signedArea pts| ≤ |signedArea new' - signedArea pts| := by
  obtain ⟨cands', c1, c2, c3, d, c4, c5⟩ := bestCandidate_some hc
  rw [hcs] at c1
  obtain rfl : cands = cands' := by simpa using c1
  obtain ⟨n1, e1, e2⟩ := (simplCandidates_ok hcs _ c2).exec hn c4
  obtain rfl : new = n1 := by rw [he] at e1; simpa using e1
  obtain ⟨d', hd'⟩ : ∃ d' : K, areaDelta pts c' = some (d' : WithTop K) := bestCandidate_delta hc hcs hc' hv
  obtain ⟨n2, f1, f2⟩ := (simplCandidates_ok hcs _ hc').exec hn hd'
  obtain rfl : new' = n2 := by rw [he'] at f1; simpa using f1
  have h1 : d = |signedArea new - signedArea pts| := by
    have := e2.delta
    rw [c4] at this
    exact WithTop.coe_inj.1 (Option.some.inj this)
  rw [← h1]
  exact c5 c' hc' hv _ f2.delta

/-- C40: simplification stops only when no further step is possible: running it again, with the same reference area,
changes nothing. -/
theorem C40_complete {mode : SimplMode} {tol : K} {s : SPoly K} {out : List (Point K)}
    (h : simplifyLoop mode tol s.area s.points.length s.points = some out) (k : ℕ) : simplifyLoop mode tol s.area k out = some out :=
  simplifyLoop_fixed h (by omega) k

namespace Ex

/-- A square with a superfluous vertex, a notch and a cut corner. -/
def notched : List (Point ℚ) := [⟨0, 0⟩, ⟨5, 0⟩, ⟨10, 0⟩, ⟨10, 9⟩, ⟨9, 10⟩, ⟨5, 9⟩, ⟨0, 10⟩]

/-- For inflation all three are removed. -/
example : simplifyLoop .inflate (1 / 10) (signedArea notched) 7 notched = some [⟨0, 0⟩, ⟨10, 0⟩, ⟨10, 41 / 4⟩, ⟨0, 10⟩] := by decide +kernel

/-- For a small tolerance only the first two. -/
example : simplifyLoop .inflate (1 / 100) (signedArea notched) 7 notched = some [⟨0, 0⟩, ⟨10, 0⟩, ⟨10, 41 / 4⟩, ⟨5, 9⟩, ⟨0, 10⟩] := by decide +kernel

/-- For deflation the superfluous vertex and the peak next to the cut corner go. -/
example : simplifyLoop .deflate (1 / 10) (signedArea notched) 7 notched = some [⟨0, 0⟩, ⟨10, 0⟩, ⟨10, 9⟩, ⟨5, 9⟩, ⟨0, 10⟩] := by decide +kernel

/-- The hypotheses can be met, with results that differ from the original. -/
example : ∃ s t t', SPoly.new (fun _ => ⟨⟨0, 0⟩, 1⟩) notched = some s ∧ simplifyShape (fun _ => ⟨⟨0, 0⟩, 1⟩) .inflate (1 / 10) s = some t ∧
    simplifyShape (fun _ => ⟨⟨0, 0⟩, 1⟩) .deflate (1 / 10) s = some t' ∧ s.area < t.area ∧ t'.area < s.area := by
  obtain ⟨s, hs⟩ : ∃ s, SPoly.new (fun _ => (⟨⟨0, 0⟩, 1⟩ : Circle ℚ)) notched = some s := Option.isSome_iff_exists.1 (by decide +kernel)
  have hs' : (SPoly.new (fun _ => (⟨⟨0, 0⟩, 1⟩ : Circle ℚ)) notched).bind (simplifyShape (fun _ => ⟨⟨0, 0⟩, 1⟩) .inflate (1 / 10)) ≠ none := by decide +kernel
  have hs'' : (SPoly.new (fun _ => (⟨⟨0, 0⟩, 1⟩ : Circle ℚ)) notched).bind (simplifyShape (fun _ => ⟨⟨0, 0⟩, 1⟩) .deflate (1 / 10)) ≠ none := by decide +kernel
  have hc : ((SPoly.new (fun _ => (⟨⟨0, 0⟩, 1⟩ : Circle ℚ)) notched).bind fun s => (simplifyShape (fun _ => ⟨⟨0, 0⟩, 1⟩) .inflate (1 / 10) s).map
      fun t => decide (s.area < t.area)) = some true := by decide +kernel
  have hc' : ((SPoly.new (fun _ => (⟨⟨0, 0⟩, 1⟩ : Circle ℚ)) notched).bind fun s => (simplifyShape (fun _ => ⟨⟨0, 0⟩, 1⟩) .deflate (1 / 10) s).map
      fun t => decide (t.area < s.area)) = some true := by decide +kernel
  rw [hs, Option.bind_some] at hs' hs'' hc hc'
  obtain ⟨t, ht⟩ := Option.ne_none_iff_exists'.1 hs'
  obtain ⟨t', ht'⟩ := Option.ne_none_iff_exists'.1 hs''
  rw [ht] at hc
  rw [ht'] at hc'
  exact ⟨s, t, t', hs, ht, ht', by simpa using hc, by simpa using hc'⟩

/-- A step that has a choice: the cut corner and the notch are both candidates, the corner is filled. -/
example : bestCandidate .inflate ([⟨0, 0⟩, ⟨10, 0⟩, ⟨10, 9⟩, ⟨9, 10⟩, ⟨5, 9⟩, ⟨0, 10⟩] : List (Point ℚ)) =
    some (some (.convexConvex ⟨1, 2, 3⟩ ⟨2, 3, 4⟩)) := by decide +kernel

end Ex

end Jagua
