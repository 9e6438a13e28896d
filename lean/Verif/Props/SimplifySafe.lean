import Verif.Props.Simplify
import Verif.Lemmas.SimpleCheck
import Verif.Lemmas.Transf

/-!
# Simplification is safe

C52: a simplified item covers the original, a simplified bin lies in the original.
-/

set_option linter.unusedSectionVars false

namespace Jagua

variable {K : Type*} [Field K] [LinearOrder K] [IsStrictOrderedRing K]

/-- The simplified shape of a simple polygon. -/
theorem simplifyShape_safe (poi' : List (Point K) → Circle K) {poi : List (Point K) → Circle K} {mode : SimplMode} {tol : K} (ht : mode.tolOk tol)
    {pts : List (Point K)} (hp : SimplePoly pts) {s : SPoly K} (hs : SPoly.new poi pts = some s) :
    ∃ t, simplifyShape poi' mode tol s = some t ∧ SimplePoly t.points ∧ mode.covers pts t.points := by
  obtain ⟨-, -, n3, n4, n5, -⟩ := SPoly.new_spec hs
  obtain ⟨-, -, r3, -⟩ := SPoly.new_region hs
  have hpos : 0 < s.area := by rw [n4]; exact abs_pos.2 n3
  have hsp : SimplePoly s.points := by
    rw [n5]
    split_ifs
    · exact hp.reverse
    · exact hp
  have hreg : region s.points = region pts := by
    rw [n5]
    split_ifs
    · exact region_reverse pts
    · rfl
  obtain ⟨out, o1, o2, o3, o4⟩ := simplifyLoop_safe hpos ht (k := s.points.length) hsp (by rw [r3]; exact hpos)
  unfold simplifyShape
  rw [o1, Option.bind_some]
  have hnew : ∃ t, SPoly.new poi' out = some t := by
    unfold SPoly.new
    rw [if_neg (not_lt.2 o2.1), if_neg (not_not.2 o2.2.1)]
    dsimp only
    rw [calculateArea_eq, if_neg o3.ne']
    exact ⟨_, rfl⟩
  obtain ⟨t, ht⟩ := hnew
  obtain ⟨-, -, -, -, m5, -⟩ := SPoly.new_spec ht
  rw [if_neg (not_lt.2 o3.le)] at m5
  refine ⟨t, ht, by rw [m5]; exact o2, ?_⟩
  rw [m5]
  cases mode with
  | inflate => show region pts ⊆ region out; rw [← hreg]; exact o4
  | deflate => show region out ⊆ region pts; rw [← hreg]; exact o4

/-- C52: simplifying a simple polygon for inflation succeeds, gives a simple polygon again, and this covers the original. -/
theorem C52_inflate (poi' : List (Point K) → Circle K) {poi : List (Point K) → Circle K} (tol : K) {pts : List (Point K)} (hp : SimplePoly pts)
    {s : SPoly K} (hs : SPoly.new poi pts = some s) :
    ∃ t, simplifyShape poi' .inflate tol s = some t ∧ SimplePoly t.points ∧ region pts ⊆ region t.points :=
  simplifyShape_safe poi' (mode := .inflate) trivial hp hs

/-- C52: simplifying a simple polygon for deflation succeeds, gives a simple polygon again, and this lies in the original. The tolerance
is the largest allowed relative change of the area; from one on, nothing of the area need remain. -/
theorem C52_deflate (poi' : List (Point K) → Circle K) {poi : List (Point K) → Circle K} {tol : K} (ht : tol < 1) {pts : List (Point K)} (hp : SimplePoly pts)
    {s : SPoly K} (hs : SPoly.new poi pts = some s) :
    ∃ t, simplifyShape poi' .deflate tol s = some t ∧ SimplePoly t.points ∧ region t.points ⊆ region pts :=
  simplifyShape_safe poi' (mode := .deflate) ht hp hs

/-- C52: one step. Every candidate that passes the validity check keeps the polygon simple and changes the region in one direction only,
not just the one that is chosen. -/
theorem C52_step {mode : SimplMode} {pts new : List (Point K)} {c : SimplCand} (hn : 4 ≤ pts.length) (hs : SimplePoly pts) (ha : 0 < signedArea pts)
    {cands : List SimplCand} (hcs : simplCandidates mode pts = some cands) (hc : c ∈ cands) (hv : candValid pts c = some true)
    (hx : executeCand pts c = some new) (hnew : 0 < signedArea new) :
    SimplePoly new ∧ (mode = .inflate → region pts ⊆ region new) ∧ (mode = .deflate → region new ⊆ region pts) := by
  obtain ⟨h1, h2⟩ := step_safe hn hs ha (simplCandidates_ok hcs c hc) hv hx hnew
  refine ⟨h1, ?_, ?_⟩
  · rintro rfl; exact h2
  · rintro rfl; exact h2

/-- C52: in particular, what is free of the simplified items and inside the simplified bin is so for the originals, wherever the
shapes are moved. -/
theorem C52_placement {pts : List (Point K)} {s t : SPoly K} {poi poi' : List (Point K) → Circle K} {tol : K} (hp : SimplePoly pts)
    (hs : SPoly.new poi pts = some s) {ptsB : List (Point K)} {sB tB : SPoly K} (hpB : SimplePoly ptsB) (hsB : SPoly.new poi ptsB = some sB) {tolB : K}
    (ht : simplifyShape poi' .inflate tol s = some t) {tr trB : Transf K} (h1 : tr.IsRigid) (h2 : trB.IsRigid) :
    (simplifyShape poi' .inflate tolB sB = some tB → Disjoint (region (t.transform tr).points) (region (tB.transform trB).points) →
      Disjoint (region (pts.map fun p => p.transform tr)) (region (ptsB.map fun p => p.transform trB))) ∧
    (tolB < 1 → simplifyShape poi' .deflate tolB sB = some tB → region (t.transform tr).points ⊆ region (tB.transform trB).points →
      region (pts.map fun p => p.transform tr) ⊆ region (ptsB.map fun p => p.transform trB)) := by
  have mono : ∀ {P Q : List (Point K)} {tr : Transf K}, tr.IsRigid → region P ⊆ region Q → region (P.map fun p => p.transform tr) ⊆ region (Q.map fun p => p.transform tr) := by
    intro P Q tr h hPQ x hx
    obtain ⟨y, rfl⟩ : ∃ y : Point K, y.transform tr = x := h.map.surjective x
    exact h.map.region.2 (hPQ (h.map.region.1 hx))
  obtain ⟨t', e1, -, e2⟩ := C52_inflate poi' tol hp hs
  obtain rfl : t' = t := by rw [ht] at e1; simpa using e1.symm
  constructor
  · intro htB hd
    obtain ⟨t', f1, -, f2⟩ := C52_inflate poi' tolB hpB hsB
    obtain rfl : t' = tB := by rw [htB] at f1; simpa using f1.symm
    exact Set.disjoint_of_subset (mono h1 e2) (mono h2 f2) hd
  · intro hB htB hd
    obtain ⟨t', f1, -, f2⟩ := C52_deflate poi' hB hpB hsB
    obtain rfl : t' = tB := by rw [htB] at f1; simpa using f1.symm
    exact ((mono h1 e2).trans hd).trans (mono h2 f2)

namespace Ex

/-- The polygon of the examples for C40 is simple; its simplified versions are other polygons. -/
theorem notched_simple : SimplePoly notched := simple_of_check (by decide +kernel)

example : ∃ s t t', SPoly.new (fun _ => ⟨⟨0, 0⟩, 1⟩) notched = some s ∧ simplifyShape (fun _ => ⟨⟨0, 0⟩, 1⟩) .inflate (1 / 10) s = some t ∧
    simplifyShape (fun _ => ⟨⟨0, 0⟩, 1⟩) .deflate (1 / 10) s = some t' ∧ SimplePoly notched ∧ region notched ⊆ region t.points ∧
    region t'.points ⊆ region notched ∧ t.points.length = 4 ∧ t'.points.length = 5 := by
  obtain ⟨s, hs⟩ : ∃ s, SPoly.new (fun _ => (⟨⟨0, 0⟩, 1⟩ : Circle ℚ)) notched = some s := Option.isSome_iff_exists.1 (by decide +kernel)
  obtain ⟨t, h1, -, h2⟩ := C52_inflate (fun _ => (⟨⟨0, 0⟩, 1⟩ : Circle ℚ)) (1 / 10) notched_simple hs
  obtain ⟨t', h3, -, h4⟩ := C52_deflate (fun _ => (⟨⟨0, 0⟩, 1⟩ : Circle ℚ)) (tol := 1 / 10) (by norm_num) notched_simple hs
  have l1 : ((SPoly.new (fun _ => (⟨⟨0, 0⟩, 1⟩ : Circle ℚ)) notched).bind fun s => (simplifyShape (fun _ => ⟨⟨0, 0⟩, 1⟩) .inflate (1 / 10) s).map
      fun t => t.points.length) = some 4 := by decide +kernel
  have l2 : ((SPoly.new (fun _ => (⟨⟨0, 0⟩, 1⟩ : Circle ℚ)) notched).bind fun s => (simplifyShape (fun _ => ⟨⟨0, 0⟩, 1⟩) .deflate (1 / 10) s).map
      fun t => t.points.length) = some 5 := by decide +kernel
  rw [hs, Option.bind_some, h1] at l1
  rw [hs, Option.bind_some, h3] at l2
  exact ⟨s, t, t', hs, h1, h3, notched_simple, h2, h4, by simpa using l1, by simpa using l2⟩

/-- Not every candidate is valid. -/
example : candValid ([⟨0, 0⟩, ⟨10, 0⟩, ⟨10, 10⟩, ⟨5, 1⟩, ⟨4, 10⟩, ⟨4, 12⟩, ⟨14, 12⟩, ⟨14, 14⟩, ⟨0, 14⟩] : List (Point ℚ)) (.concave ⟨2, 3, 4⟩) = some true ∧
    candValid ([⟨0, 0⟩, ⟨10, 0⟩, ⟨10, 10⟩, ⟨5, 1⟩, ⟨6, 12⟩, ⟨8, 12⟩, ⟨7, 2⟩, ⟨9, 13⟩, ⟨0, 14⟩] : List (Point ℚ)) (.concave ⟨2, 3, 4⟩) = some false := by decide +kernel

end Ex

end Jagua
